import Verif.Props.HeapMd
/-!
# C107: several threads at the same time

`Threads.Reach env c`: `c` can be reached from any heap by calls of `parse_node`, `to_dict` and `to_markdown` in any number of threads, single
steps of these threads in any order, and steps of other code that leaves alone the documents being worked on (`Model/Threads.lean`).
-/

namespace Verif.Props
open Verif Verif.Spec Verif.Threads

/-- Whatever the other threads do: a call on a node that fits the recursion limit, if it ends, ends as the value model says, which knows of
no threads; and the document is what it was. -/
theorem C107_result (env : Env) (c : Config) (hc : Threads.Reach env c) (t : Thread) (ht : t ∈ c.threads) (x : HV) (level : Option Int)
    (ig : Bool) (hx : t.call = .markdown x level ig) (n : Node) (hn : IsNode t.doc t.seen n x) (hf : depthNode n ≤ t.fuel) :
    IsNode t.doc c.heap n x ∧
    (∀ r, t.prog = .ret r → ∃ v, n.toMarkdownAt env level ig = .ok v ∧ Json t.doc c.heap v r) ∧
    (∀ e, t.prog = .fail e → ∃ e', e = .py e' ∧ n.toMarkdownAt env level ig = .error e') := by
  obtain ⟨own, g, _, hw⟩ := fine_reach hc t ht x level ig hx n hn hf
  have hk : Keeps' t.doc t.seen c.heap := fun a o hp ho => g.doc a o hp ho
  refine ⟨isNode_mono hk (fun _ h => h) n x hn, fun r hr => ?_, fun e he => ?_⟩
  · rw [hr] at hw
    change HeapMd.Out _ (.ok r) (n.toMarkdownAt env level ig) at hw
    cases hv : n.toMarkdownAt env level ig with
    | ok v =>
      rw [hv] at hw
      obtain ⟨x, hx, hj⟩ := hw
      cases hx
      exact ⟨v, rfl, json_mono hk (fun _ h => h) v r hj⟩
    | error e => rw [hv] at hw; cases hw
  · rw [he] at hw
    change HeapMd.Out _ (.error e) (n.toMarkdownAt env level ig) at hw
    cases hv : n.toMarkdownAt env level ig with
    | ok v => rw [hv] at hw; obtain ⟨x, hx, _⟩ := hw; cases hx
    | error e' => rw [hv] at hw; cases hw; exact ⟨e', rfl, rfl⟩

/-- As if the thread had been alone: the string or exception is the one which the same call, run without interruption on the heap it was made
in, gives. -/
theorem C107_alone (env : Env) (c : Config) (hc : Threads.Reach env c) (t : Thread) (ht : t ∈ c.threads) (x : HV) (level : Option Int)
    (ig : Bool) (hx : t.call = .markdown x level ig) (n : Node) (hn : IsNode t.doc t.seen n x) (hf : depthNode n ≤ t.fuel) (log : List Warn) :
    (∀ s, t.prog = .ret (.imm (.str s)) ↔ (∃ r, t.prog = .ret r) ∧ (callMarkdown env t.fuel x level ig t.seen log).1 = .ok (.imm (.str s))) ∧
    (∀ e, t.prog = .fail e → (callMarkdown env t.fuel x level ig t.seen log).1 = .error e) := by
  obtain ⟨_, h1, h2⟩ := C107_result env c hc t ht x level ig hx n hn hf
  have hn' : IsNode anywhere t.seen n x := isNode_mono (fun _ _ _ h => h) (fun _ _ => trivial) n x hn
  have h3 := C105_agrees env t.fuel n x level ig t.seen log hn' hf
  have str : ∀ {P h v s}, Json P h v (.imm (.str s)) → v = .str s := fun {P h v s} hj => by
    cases v with
    | list l => obtain ⟨_, _, h, _⟩ := hj; cases h
    | dict d => obtain ⟨_, _, h, _⟩ := hj; cases h
    | _ => obtain ⟨i, h, hi⟩ := hj; cases h; exact hi.symm
  refine ⟨fun s => ⟨fun hr => ?_, ?_⟩, fun e he => ?_⟩
  · obtain ⟨v, hv, hj⟩ := h1 _ hr
    cases str hj
    exact ⟨⟨_, hr⟩, C105_string env t.fuel n x level ig t.seen log hn' hf s hv⟩
  · rintro ⟨⟨r, hr⟩, ha⟩
    obtain ⟨v, hv, hj⟩ := h1 r hr
    rw [hv] at h3
    obtain ⟨r', hr', hj'⟩ := h3
    cases hr'.symm.trans ha
    cases str hj'
    obtain ⟨i, rfl, hi⟩ := hj
    cases i <;> cases hi
    exact hr
  · obtain ⟨e', rfl, hv⟩ := h2 e he
    rw [hv] at h3
    exact h3

/-- For any arguments — and, `doc` being arbitrary, whatever other code does to the document meanwhile: a step of a thread changes no object
but those its own call has created since it was made, and no two calls have created the same object. -/
theorem C107_private (env : Env) (c : Config) (hc : Threads.Reach env c) (i : Nat) (t : Thread) (ht : c.threads[i]? = some t) :
    (∀ h' p new ws, t.prog.next c.heap = some (h', p, new, ws) → ∀ a, a < c.heap.length → a ∉ t.own → h'[a]? = c.heap[a]?) ∧
    (∀ a ∈ t.own, t.seen.length ≤ a ∧ a < c.heap.length) ∧
    (∀ j u, c.threads[j]? = some u → i ≠ j → ∀ a ∈ t.own, a ∉ u.own) := by
  have hi := inv_reach hc
  have hm := List.mem_of_getElem? ht
  exact ⟨fun h' p new ws hn a ha ho => ran_same hi hm hn a ha ho, hi.young t hm, fun j u hj hne => hi.apart i j t u ht hj hne⟩

/-- So, if nothing but such calls runs, no object that existed before them ever changes, not even for a moment. -/
theorem C107_unchanged (env : Env) (h : Heap) (c : Config) (hc : Alone env h c) : ∀ a, a < h.length → c.heap[a]? = h[a]? := by
  have key : Threads.Reach env c ∧ h.length ≤ c.heap.length ∧ (∀ t ∈ c.threads, h.length ≤ t.seen.length) ∧ ∀ a, a < h.length → c.heap[a]? = h[a]? := by
    induction hc with
    | start => exact ⟨.start h, Nat.le_refl _, nofun, fun _ _ => rfl⟩
    | call _ hs ih =>
      obtain ⟨h0, h1, h2, h3⟩ := ih
      refine ⟨.call h0 hs, ?_⟩
      obtain ⟨fuel, call, doc, _⟩ := hs
      refine ⟨h1, fun t ht => ?_, h3⟩
      rcases List.mem_append.1 ht with ht | ht
      · exact h2 t ht
      · cases List.mem_singleton.1 ht; exact h1
    | step _ hs ih =>
      obtain ⟨h0, h1, h2, h3⟩ := ih
      refine ⟨.step h0 hs, ?_⟩
      have hinv := inv_reach h0
      obtain ⟨i, t, h', p, new, ws, hi, hn⟩ := hs
      have hm := List.mem_of_getElem? hi
      refine ⟨Nat.le_trans h1 (Prog.writes_next (hinv.writes t hm) hn).1, fun u hu => ?_, fun a ha => ?_⟩
      · obtain ⟨j, hj⟩ := List.mem_iff_getElem?.1 hu
        rcases set_cases hi hj with ⟨_, rfl⟩ | ⟨_, hj⟩
        · exact h2 t hm
        · exact h2 u (List.mem_of_getElem? hj)
      · refine (ran_same hinv hm hn a (by omega) fun hmem => ?_).trans (h3 a ha)
        have := (hinv.young t hm a hmem).1
        have := h2 t hm
        omega
    | left _ hs ih =>
      obtain ⟨h0, h1, h2, h3⟩ := ih
      refine ⟨.left h0 hs, ?_⟩
      obtain ⟨i, t, ht⟩ := hs
      exact ⟨h1, fun u hu => h2 u (mem_erase hu), h3⟩
  exact key.2.2.2

theorem steps_end (p : Prog HV) : Acc (fun (q p : Prog HV) => ∃ h h' new ws, p.next h = some (h', q, new, ws)) p := by
  induction p with
  | ret a => exact ⟨_, fun q ⟨_, _, _, _, h⟩ => by cases h⟩
  | fail e => exact ⟨_, fun q ⟨_, _, _, _, h⟩ => by cases h⟩
  | look a k ih => exact ⟨_, fun q ⟨_, _, _, _, h⟩ => by cases h; exact ih _⟩
  | make o k ih => exact ⟨_, fun q ⟨_, _, _, _, h⟩ => by cases h; exact ih _⟩
  | add a e k ih =>
    refine ⟨_, fun q ⟨h, _, _, _, hn⟩ => ?_⟩
    simp only [Prog.next] at hn
    cases ho : h[a]? with
    | some o => rw [ho] at hn; cases hn; exact ih _
    | none => rw [ho] at hn; cases hn; exact ih _
  | put a o k ih => exact ⟨_, fun q ⟨_, _, _, _, h⟩ => by cases h; exact ih⟩
  | warn ws k ih => exact ⟨_, fun q ⟨_, _, _, _, h⟩ => by cases h; exact ih⟩

/-- A call makes finitely many steps, however the heap changes between them, and stops only to return or to raise. -/
theorem C107_ends (env : Env) (fuel : Nat) (call : Call) :
    Acc (fun (q p : Prog HV) => ∃ h h' new ws, p.next h = some (h', q, new, ws)) (call.prog env fuel) ∧
    ∀ (p : Prog HV) (h : Heap), p.next h = none ↔ (∃ r, p = .ret r) ∨ ∃ e, p = .fail e := by
  refine ⟨?_, fun p h => ?_⟩
  · exact steps_end _
  · cases p with
    | ret a => exact ⟨fun _ => .inl ⟨a, rfl⟩, fun _ => rfl⟩
    | fail e => exact ⟨fun _ => .inr ⟨e, rfl⟩, fun _ => rfl⟩
    | look a k => exact ⟨nofun, by rintro (⟨_, h⟩ | ⟨_, h⟩) <;> cases h⟩
    | make o k => exact ⟨nofun, by rintro (⟨_, h⟩ | ⟨_, h⟩) <;> cases h⟩
    | add a e k =>
      refine ⟨fun hn => ?_, by rintro (⟨_, h⟩ | ⟨_, h⟩) <;> cases h⟩
      simp only [Prog.next] at hn
      cases ho : h[a]? with
      | some o => rw [ho] at hn; cases hn
      | none => rw [ho] at hn; cases hn
    | put a o k => exact ⟨nofun, by rintro (⟨_, h⟩ | ⟨_, h⟩) <;> cases h⟩
    | warn ws k => exact ⟨nofun, by rintro (⟨_, h⟩ | ⟨_, h⟩) <;> cases h⟩

/-- The call without interruption is one of these histories: running a call is making its steps one after the other. -/
theorem C107_sequential (p p' : Prog HV) (s : St) (h' : Heap) (new : List Nat) (ws : List Warn) (hn : p.next s.heap = some (h', p', new, ws)) :
    p.run s = p'.run ⟨h', s.log ++ ws⟩ := Prog.run_next hn

/-! ## Non-vacuity: two threads convert the paragraph of `Props/Heap.lean` -/

/-- A thread that is alone from some moment on ends. -/
theorem runs_out (env : Env) (c : Config) (hc : Threads.Reach env c) (i : Nat) (t : Thread) (ht : c.threads[i]? = some t) :
    ∃ c' t', Threads.Reach env c' ∧ c'.threads = c.threads.set i t' ∧ (t'.fuel, t'.call) = (t.fuel, t.call) ∧
      t'.seen = t.seen ∧ t'.doc = t.doc ∧ t'.Over := by
  have key : ∀ (p : Prog HV) (c : Config) (t : Thread), t.prog = p → Threads.Reach env c → c.threads[i]? = some t →
      ∃ c' t', Threads.Reach env c' ∧ c'.threads = c.threads.set i t' ∧ (t'.fuel, t'.call) = (t.fuel, t.call) ∧
        t'.seen = t.seen ∧ t'.doc = t.doc ∧ t'.Over := by
    intro p
    have hacc := steps_end p
    induction hacc with
    | intro p _ ih =>
      rintro c t rfl hc ht
      cases hn : t.prog.next c.heap with
      | none =>
        refine ⟨c, t, hc, ?_, rfl, rfl, rfl, ((C107_ends env 0 (.toDict (.imm .none))).2 _ _).1 hn⟩
        have hlt := List.getElem?_eq_some_iff.1 ht
        obtain ⟨hlt, rfl⟩ := hlt
        exact (List.set_getElem_self hlt).symm
      | some r =>
        obtain ⟨h', q, new, ws⟩ := r
        have hlt : i < c.threads.length := by
          rcases Nat.lt_or_ge i c.threads.length with h | h
          · exact h
          · rw [List.getElem?_eq_none h] at ht; cases ht
        obtain ⟨c', t', h1, h2, h3, h4, h5, h6⟩ := ih q ⟨_, _, _, _, hn⟩ ⟨h', c.threads.set i { t with prog := q, own := t.own ++ new, log := t.log ++ ws }⟩ _ rfl
          (.step hc (.mk i t h' q new ws ht hn)) (List.getElem?_set_self hlt)
        exact ⟨c', t', h1, by rw [h2]; exact List.set_set .., h3, h4, h5, h6⟩
  exact key t.prog c t rfl hc ht

/-- Two calls in one heap, both ended, in a history in which the second starts before the first has made a step. -/
example (env : Env) : ∃ (c : Config) (t u : Thread), Threads.Reach env c ∧ c.threads = [t, u] ∧
    t.prog = .ret (.imm (.str "hihi\n".toList)) ∧ u.prog = .ret (.imm (.str "hihi\n".toList)) := by
  obtain ⟨n, hn, hd, hm⟩ := para0_md
  obtain ⟨r, n', h, hn', _, _, hi⟩ := para0_built
  cases hn.symm.trans hn'
  have r0 : Threads.Reach env ⟨h, []⟩ := .start h
  have r1 := Threads.Reach.call r0 (.mk 1000 (.markdown r none false) anywhere nofun)
  have r2 := Threads.Reach.call r1 (.mk 1000 (.markdown r none false) anywhere (by
    intro t ht _ a ha
    cases List.mem_singleton.1 ht
    cases ha))
  obtain ⟨c3, t, r3, e3, a3, s3, d3, p3⟩ := runs_out env _ r2 0 _ rfl
  obtain ⟨c4, u, r4, e4, a4, s4, d4, p4⟩ := runs_out env _ r3 1 _ (by rw [e3]; rfl)
  have e5 : c4.threads = [t, u] := by rw [e4, e3]; rfl
  have done : ∀ v ∈ c4.threads, (v.fuel, v.call) = (1000, .markdown r none false) → v.seen = h → v.doc = anywhere →
      v.Over → v.prog = .ret (.imm (.str "hihi\n".toList)) := by
    rintro ⟨f, call, p, own, log, seen, doc⟩ hv ha rfl rfl hp
    cases ha
    obtain ⟨_, h1, h2⟩ := C107_result env c4 r4 _ hv r none false rfl n hi hd
    rcases hp with ⟨r', hr⟩ | ⟨e, he⟩
    · obtain ⟨v, hv, hj⟩ := h1 r' hr
      cases (hm env).symm.trans hv
      obtain ⟨i, rfl, hi⟩ := hj
      cases i <;> cases hi
      exact hr
    · obtain ⟨e', _, h⟩ := h2 e he
      cases (hm env).symm.trans h
  exact ⟨c4, t, u, r4, e5, done t (by simp [e5]) a3 s3 d3 p3, done u (by simp [e5]) a4 s4 d4 p4⟩

end Verif.Props
