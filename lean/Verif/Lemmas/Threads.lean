import Verif.Model.Threads
import Verif.Lemmas.HeapMdNode
import Verif.Lemmas.HeapProgSafe
/-! # Steps of threads -/

namespace Verif.HeapMd
open Verif Verif.Spec

variable {α : Type} {P : Nat → Prop} {h0 : Heap}

/-- What a program may rely on: the objects of `P` are as in `h0`, and its own lists are as it left them. -/
structure Good (P : Nat → Prop) (h0 : Heap) (own : Own) (h : Heap) : Prop where
  len : h0.length ≤ h.length
  doc : ∀ a o, P a → h0[a]? = some o → h[a]? = some o
  own : ∀ a l, own a = some l → h0.length ≤ a ∧ h[a]? = some ⟨.list, l⟩

theorem good_make {own : Own} {h : Heap} (g : Good P h0 own h) : own h.length = none ∧ Good P h0 (own.upd h.length []) (h ++ [⟨.list, []⟩]) := by
  refine ⟨?_, by simp; have := g.len; omega, fun a o hp ho => ?_, fun a l hl => ?_⟩
  · cases hn : own h.length with
    | none => rfl
    | some l => exact absurd (get_lt (g.own _ l hn).2) (Nat.lt_irrefl _)
  · have := g.doc a o hp ho
    rw [List.getElem?_append_left (get_lt this)]
    exact this
  · unfold Own.upd at hl
    split at hl
    · rename_i e
      subst e
      cases hl
      exact ⟨g.len, by simp⟩
    · have := g.own a l hl
      rw [List.getElem?_append_left (get_lt this.2)]
      exact this

theorem good_add {own : Own} {h : Heap} (g : Good P h0 own h) {a : Nat} {l : List (String × HV)} (ha : own a = some l) (l' : List (String × HV)) :
    Good P h0 (own.upd a l') (h.set a ⟨.list, l'⟩) := by
  have h1 := g.own a l ha
  refine ⟨by simp; exact g.len, fun b o hp ho => ?_, fun b m hb => ?_⟩
  · rw [List.getElem?_set_ne (by have := get_lt ho; omega)]
    exact g.doc b o hp ho
  · unfold Own.upd at hb
    split at hb
    · rename_i e
      subst e
      cases hb
      exact ⟨h1.1, by simp [get_lt h1.2]⟩
    · rename_i e
      rw [List.getElem?_set_ne (Ne.symm e)]
      exact g.own b m hb

/-- All steps without interruption. -/
theorem wp_run {x : Prog α} : ∀ {own : Own} {Q : Except HErr α → Own → Prop} (s : St), wp P h0 x own Q → Good P h0 own s.heap →
    ∃ own', Q (x.run s).1 own' := by
  induction x with
  | ret a => exact fun s hx _ => ⟨_, hx⟩
  | fail e => exact fun s hx _ => ⟨_, hx⟩
  | look a k ih =>
    rintro own Q s (⟨o, h1, h2, h3⟩ | ⟨l, h1, h2⟩) g
    · rw [Prog.run, g.doc a o h1 h2]
      exact ih _ s h3 g
    · rw [Prog.run, (g.own a l h1).2]
      exact ih _ s h2 g
  | make o k ih =>
    rintro own Q s ⟨rfl, hx⟩ g
    exact ih _ { s with heap := s.heap ++ [⟨.list, []⟩] } (hx s.heap.length g.len (good_make g).1) (good_make g).2
  | add a e k ih =>
    rintro own Q s ⟨l, h1, h2⟩ g
    rw [Prog.run, (g.own a l h1).2]
    exact ih _ _ h2 (good_add g h1 _)
  | put a o k ih => exact fun s hx _ => hx.elim
  | warn ws k ih => exact fun s hx _ => hx.elim

/-- One step. -/
theorem wp_next {x x' : Prog α} {own : Own} {Q : Except HErr α → Own → Prop} {h h' : Heap} {new : List Nat} {ws : List Warn}
    (hx : wp P h0 x own Q) (g : Good P h0 own h) (hn : x.next h = some (h', x', new, ws)) :
    ∃ own', wp P h0 x' own' Q ∧ Good P h0 own' h' ∧ ∀ a, own' a ≠ none → own a ≠ none ∨ a ∈ new := by
  cases x with
  | ret a => cases hn
  | fail e => cases hn
  | look a k =>
    cases hn
    rcases hx with ⟨o, h1, h2, h3⟩ | ⟨l, h1, h2⟩
    · exact ⟨own, by rw [g.doc a o h1 h2]; exact h3, g, fun _ h => .inl h⟩
    · exact ⟨own, by rw [(g.own a l h1).2]; exact h2, g, fun _ h => .inl h⟩
  | make o k =>
    cases hn
    obtain ⟨rfl, hx⟩ := hx
    refine ⟨_, hx h.length g.len (good_make g).1, (good_make g).2, fun a ha => ?_⟩
    by_cases e : a = h.length
    · exact .inr (by simp [e])
    · exact .inl (by simpa [Own.upd, e] using ha)
  | add a e k =>
    obtain ⟨l, h1, h2⟩ := hx
    simp only [Prog.next, (g.own a l h1).2] at hn
    cases hn
    refine ⟨_, h2, good_add g h1 _, fun b hb => ?_⟩
    by_cases e : b = a
    · exact .inl (by rw [e, h1]; exact nofun)
    · exact .inl (by simpa [Own.upd, e] using hb)
  | put a o k => exact hx.elim
  | warn ws k => exact hx.elim

/-- Steps that leave alone what the program relies on. -/
theorem good_other {own : Own} {h h' : Heap} (g : Good P h0 own h) (hl : h.length ≤ h'.length)
    (hk : ∀ a, a < h.length → (P a ∧ a < h0.length) ∨ own a ≠ none → h'[a]? = h[a]?) : Good P h0 own h' where
  len := Nat.le_trans g.len hl
  doc a o hp ho := by
    have := g.doc a o hp ho
    rw [hk a (get_lt this) (.inl ⟨hp, get_lt ho⟩)]
    exact this
  own a l ha := by
    have := g.own a l ha
    refine ⟨this.1, ?_⟩
    rw [hk a (get_lt this.2) (.inr (by rw [ha]; exact nofun))]
    exact this.2

end Verif.HeapMd

namespace Verif.Threads
open Verif Verif.HeapMd

/-- What holds in every configuration: the objects the threads have created are theirs alone, exist, and are younger than what the
call saw; the programs write to nothing else. -/
structure TInv (c : Config) : Prop where
  seen : ∀ t ∈ c.threads, t.seen.length ≤ c.heap.length
  young : ∀ t ∈ c.threads, ∀ a ∈ t.own, t.seen.length ≤ a ∧ a < c.heap.length
  apart : ∀ (i j : Nat) (t u : Thread), c.threads[i]? = some t → c.threads[j]? = some u → i ≠ j → ∀ a ∈ t.own, a ∉ u.own
  writes : ∀ t ∈ c.threads, t.prog.Writes True (· ∈ t.own)
  /-- a document is not part of what calls in progress have created -/
  docs : ∀ t ∈ c.threads, ¬ t.Over → ∀ u ∈ c.threads, ∀ a ∈ t.own, a < u.seen.length → ¬ u.doc a

theorem keep_call (env : Env) (fuel : Nat) (call : Call) : Keep True Nil (call.prog env fuel) := by
  cases call with
  | markdown x level ig => exact keep_markdown env fuel x level ig
  | parse warn v => exact HeapProg.keep_parseNode trivial warn fuel _ v
  | parseMark v => exact HeapProg.keep_parseMark fuel v
  | node c warn v => exact HeapProg.keep_nodeFromDict trivial fuel warn (fun w v => HeapProg.keep_parseNode trivial warn fuel w v) c v
  | mark c v => exact HeapProg.keep_markFromDict fuel c v
  | toDict x => exact HeapProg.keep_toDict fuel x _

theorem inv_called {env : Env} {c c' : Config} (h : TInv c) (hc : Called env c c') : TInv c' := by
  obtain ⟨fuel, call, doc, hdoc⟩ := hc
  refine ⟨fun t ht => ?_, fun t ht => ?_, fun i j t u hi hj hne => ?_, fun t ht => ?_, fun t ht hr u hu a ha hlt => ?_⟩
  · rcases List.mem_append.1 ht with ht | ht
    · exact h.seen t ht
    · cases List.mem_singleton.1 ht; exact Nat.le_refl _
  · rcases List.mem_append.1 ht with ht | ht
    · exact h.young t ht
    · cases List.mem_singleton.1 ht; exact nofun
  · rw [List.getElem?_append] at hi hj
    split at hi
    · split at hj
      · exact h.apart i j t u hi hj hne
      · have hu := List.mem_of_getElem? hj
        cases List.mem_singleton.1 hu
        exact fun _ _ => nofun
    · have ht := List.mem_of_getElem? hi
      cases List.mem_singleton.1 ht
      exact nofun
  · rcases List.mem_append.1 ht with ht | ht
    · exact h.writes t ht
    · cases List.mem_singleton.1 ht
      exact keep_call env fuel call _ fun _ h => h.elim
  · rcases List.mem_append.1 ht with ht | ht
    · rcases List.mem_append.1 hu with hu | hu
      · exact h.docs t ht hr u hu a ha hlt
      · cases List.mem_singleton.1 hu
        exact hdoc t ht hr a ha
    · cases List.mem_singleton.1 ht
      cases ha

/-- Only what the thread has created changes. -/
theorem ran_same {c : Config} (h : TInv c) {t : Thread} (ht : t ∈ c.threads) {h' : Heap} {p : Prog HV} {new : List Nat} {ws : List Warn}
    (hn : t.prog.next c.heap = some (h', p, new, ws)) (a : Nat) (ha : a < c.heap.length) (ho : a ∉ t.own) : h'[a]? = c.heap[a]? :=
  (Prog.writes_next (h.writes t ht) hn).2.1 a ha ho

theorem next_new {α : Type} {x x' : Prog α} {h h' : Heap} {new : List Nat} {ws : List Warn} (hn : x.next h = some (h', x', new, ws)) :
    ∀ a ∈ new, h.length ≤ a ∧ a < h'.length := by
  cases x with
  | ret a => cases hn
  | fail e => cases hn
  | look a k => cases hn; exact nofun
  | make o k => cases hn; intro a ha; simp at ha; subst ha; simp
  | add a e k =>
    simp only [Prog.next] at hn
    cases ho : h[a]? with
    | some o => rw [ho] at hn; cases hn; exact nofun
    | none => rw [ho] at hn; cases hn; exact nofun
  | put a o k => cases hn; exact nofun
  | warn ws k => cases hn; exact nofun

/-- A call that makes a step is not over. -/
theorem next_over {t : Thread} {h h' : Heap} {p : Prog HV} {new : List Nat} {ws : List Warn} (hn : t.prog.next h = some (h', p, new, ws)) :
    ¬ t.Over := by
  rintro (⟨r, e⟩ | ⟨r, e⟩) <;> rw [e] at hn <;> cases hn

/-- A thread in the list after a step: the one that made it, or one that did not. -/
theorem set_cases {l : List Thread} {i j : Nat} {t t' u : Thread} (hi : l[i]? = some t) (hj : (l.set i t')[j]? = some u) :
    (j = i ∧ u = t') ∨ (j ≠ i ∧ l[j]? = some u) := by
  by_cases e : j = i
  · subst e
    rw [List.getElem?_set_self (by rcases Nat.lt_or_ge j l.length with h | h; exact h; rw [List.getElem?_eq_none h] at hi; cases hi)] at hj
    exact .inl ⟨rfl, (Option.some.inj hj).symm⟩
  · rw [List.getElem?_set_ne (Ne.symm e)] at hj
    exact .inr ⟨e, hj⟩

theorem inv_ran {c c' : Config} (h : TInv c) (hc : Ran c c') : TInv c' := by
  obtain ⟨i, t, h', p, new, ws, hi, hn⟩ := hc
  have htm := List.mem_of_getElem? hi
  have hw := Prog.writes_next (h.writes t htm) hn
  have hnew := next_new hn
  have mem : ∀ u ∈ c.threads.set i { t with prog := p, own := t.own ++ new, log := t.log ++ ws }, ∃ j,
      (j = i ∧ u = { t with prog := p, own := t.own ++ new, log := t.log ++ ws }) ∨ (j ≠ i ∧ c.threads[j]? = some u) := fun u hu => by
    obtain ⟨j, hj⟩ := List.mem_iff_getElem?.1 hu
    exact ⟨j, set_cases hi hj⟩
  have young : ∀ u ∈ c.threads, ∀ a ∈ u.own, a ∉ new := fun u hu a ha hb => by
    have := (h.young u hu a ha).2
    have := (hnew a hb).1
    omega
  refine ⟨fun u hu => ?_, fun u hu a ha => ?_, fun j k u v hj hk hne a ha => ?_, fun u hu => ?_, fun u hu hr v hv a ha hlt => ?_⟩
  · obtain ⟨j, ⟨_, rfl⟩ | ⟨_, hj⟩⟩ := mem u hu
    · exact Nat.le_trans (h.seen t htm) hw.1
    · exact Nat.le_trans (h.seen u (List.mem_of_getElem? hj)) hw.1
  · obtain ⟨j, ⟨_, rfl⟩ | ⟨_, hj⟩⟩ := mem u hu
    · rcases List.mem_append.1 ha with ha | ha
      · exact ⟨(h.young t htm a ha).1, Nat.lt_of_lt_of_le (h.young t htm a ha).2 hw.1⟩
      · exact ⟨Nat.le_trans (h.seen t htm) (hnew a ha).1, (hnew a ha).2⟩
    · have := h.young u (List.mem_of_getElem? hj) a ha
      exact ⟨this.1, Nat.lt_of_lt_of_le this.2 hw.1⟩
  · rcases set_cases hi hj with ⟨rfl, rfl⟩ | ⟨hji, hj'⟩
    · rcases set_cases hi hk with ⟨rfl, rfl⟩ | ⟨hki, hk⟩
      · exact absurd rfl hne
      · rcases List.mem_append.1 ha with ha | ha
        · exact h.apart j k t v hi hk hne a ha
        · exact fun hb => young v (List.mem_of_getElem? hk) a hb ha
    · rcases set_cases hi hk with ⟨rfl, rfl⟩ | ⟨hki, hk⟩
      · intro hb
        rcases List.mem_append.1 hb with hb | hb
        · exact h.apart j k u t hj' hi hne a ha hb
        · exact young u (List.mem_of_getElem? hj') a ha hb
      · exact h.apart j k u v hj' hk hne a ha
  · obtain ⟨j, ⟨_, rfl⟩ | ⟨_, hj⟩⟩ := mem u hu
    · exact Prog.writes_mono (fun a ha => List.mem_append.2 ha) hw.2.2.2
    · exact h.writes u (List.mem_of_getElem? hj)
  · have hv' : ∃ v' ∈ c.threads, v'.seen = v.seen ∧ v'.doc = v.doc := by
      obtain ⟨k, ⟨_, rfl⟩ | ⟨_, hk⟩⟩ := mem v hv
      · exact ⟨t, htm, rfl, rfl⟩
      · exact ⟨v, List.mem_of_getElem? hk, rfl, rfl⟩
    obtain ⟨v', hv', e1, e2⟩ := hv'
    rw [← e1] at hlt
    rw [← e2]
    obtain ⟨j, ⟨_, rfl⟩ | ⟨_, hj⟩⟩ := mem u hu
    · rcases List.mem_append.1 ha with ha | ha
      · exact h.docs t htm (next_over hn) v' hv' a ha hlt
      · have := (hnew a ha).1
        have := h.seen v' hv'
        omega
    · exact h.docs u (List.mem_of_getElem? hj) hr v' hv' a ha hlt

theorem inv_other {c c' : Config} (h : TInv c) (hc : Other c c') : TInv c' := by
  obtain ⟨h', hl, hk⟩ := hc
  exact ⟨fun t ht => Nat.le_trans (h.seen t ht) hl, fun t ht a ha => ⟨(h.young t ht a ha).1, Nat.lt_of_lt_of_le (h.young t ht a ha).2 hl⟩,
    h.apart, h.writes, h.docs⟩

theorem mem_erase {l : List Thread} {i : Nat} {t : Thread} (h : t ∈ l.eraseIdx i) : t ∈ l := List.mem_of_mem_eraseIdx h

/-- The threads that are left. -/
theorem erase_get {l : List Thread} {i j : Nat} {t : Thread} (h : (l.eraseIdx i)[j]? = some t) : l[if j < i then j else j + 1]? = some t := by
  rw [List.getElem?_eraseIdx] at h
  by_cases e : j < i
  · rw [if_pos e] at h ⊢; exact h
  · rw [if_neg e] at h ⊢; exact h

theorem inv_left {c c' : Config} (h : TInv c) (hc : Left c c') : TInv c' := by
  obtain ⟨i, t, ht⟩ := hc
  refine ⟨fun t ht => h.seen t (mem_erase ht), fun t ht => h.young t (mem_erase ht), fun j k u v hj hk hne => ?_,
    fun t ht => h.writes t (mem_erase ht), fun t ht hr u hu => h.docs t (mem_erase ht) hr u (mem_erase hu)⟩
  refine h.apart _ _ u v (erase_get hj) (erase_get hk) ?_
  split <;> split <;> omega

theorem inv_start (h : Heap) : TInv ⟨h, []⟩ := ⟨nofun, nofun, fun i j t u hi => by simp at hi, nofun, nofun⟩

theorem inv_reach {env : Env} {c : Config} (h : Reach env c) : TInv c := by
  induction h with
  | start h => exact inv_start h
  | call _ hc ih => exact inv_called ih hc
  | step _ hc ih => exact inv_ran ih hc
  | other _ hc ih => exact inv_other ih hc
  | left _ hc ih => exact inv_left ih hc

/-- A thread that converts a node: what is left of its program will end as the value model says. -/
def Fine (env : Env) (h : Heap) (t : Thread) : Prop :=
  ∀ x level ig, t.call = .markdown x level ig → ∀ n, Spec.IsNode t.doc t.seen n x → Spec.depthNode n ≤ t.fuel →
    ∃ own : Own, Good t.doc t.seen own h ∧ (∀ a, own a ≠ none → a ∈ t.own) ∧
      wp t.doc t.seen t.prog own fun res _ => Out (IsJson t.doc t.seen) res ((n.item env).render level ig)

theorem fine_reach {env : Env} {c : Config} (h : Reach env c) : ∀ t ∈ c.threads, Fine env c.heap t := by
  induction h with
  | start h => exact nofun
  | call hr hc ih =>
    obtain ⟨fuel, call, doc, hdoc⟩ := hc
    intro t ht
    rcases List.mem_append.1 ht with ht | ht
    · exact ih t ht
    · cases List.mem_singleton.1 ht
      rintro x level ig (rfl : call = _) n hn hf
      refine ⟨fun _ => none, ⟨Nat.le_refl _, fun _ _ _ h => h, nofun⟩, fun _ h => absurd rfl h, ?_⟩
      exact wp_mono (fun _ _ h => h.2) (renders env doc _ fuel n x hn hf level ig _)
  | step hr hc ih =>
    have hinv := inv_reach hr
    obtain ⟨i, t, h', p, new, ws, hi, hn⟩ := hc
    have htm := List.mem_of_getElem? hi
    intro u hu
    obtain ⟨j, hj⟩ := List.mem_iff_getElem?.1 hu
    rcases set_cases hi hj with ⟨rfl, rfl⟩ | ⟨hji, hj⟩
    · intro x level ig he n hnode hf
      obtain ⟨own, g, ho, hw⟩ := ih t htm x level ig he n hnode hf
      obtain ⟨own', hw', g', ho'⟩ := wp_next hw g hn
      exact ⟨own', g', fun a ha => List.mem_append.2 ((ho' a ha).imp (ho a) id), hw'⟩
    · have hum := List.mem_of_getElem? hj
      intro x level ig he n hnode hf
      obtain ⟨own, g, ho, hw⟩ := ih u hum x level ig he n hnode hf
      refine ⟨own, good_other g (Prog.writes_next (hinv.writes t htm) hn).1 fun a ha hpa => ran_same hinv htm hn a ha fun hmem => ?_, ho, hw⟩
      rcases hpa with ⟨hp, hlt⟩ | hp
      · exact hinv.docs t htm (next_over hn) u hum a hmem hlt hp
      · exact hinv.apart i j t u hi hj (Ne.symm hji) a hmem (ho a hp)
  | other hr hc ih =>
    obtain ⟨h', hl, hk⟩ := hc
    intro t ht x level ig he n hnode hf
    obtain ⟨own, g, ho, hw⟩ := ih t ht x level ig he n hnode hf
    exact ⟨own, good_other g hl fun a ha hpa => hk t ht a ha (hpa.imp (·.1) (ho a)), ho, hw⟩
  | left hr hc ih =>
    obtain ⟨i, _, _⟩ := hc
    exact fun t ht => ih t (mem_erase ht)

end Verif.Threads
