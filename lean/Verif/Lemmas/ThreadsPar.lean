import Verif.Lemmas.Threads
import Verif.Lemmas.ParMd
import Verif.Lemmas.HeapProg
import Verif.Spec.Iso
/-! # A thread and the same call alone -/

namespace Verif.Prog
open Verif

variable {α : Type}

/-- The log only grows. -/
theorem run_log (x : Prog α) : ∀ s : St, s.log <+: (x.run s).2.log := by
  induction x with
  | ret a => exact fun s => List.prefix_rfl
  | fail e => exact fun s => List.prefix_rfl
  | look a k ih => exact fun s => ih _ s
  | make o k ih => exact fun s => ih s.heap.length { s with heap := s.heap ++ [o] }
  | add a e k ih =>
    intro s
    unfold run
    cases s.heap[a]? with
    | none => exact ih false s
    | some o => exact ih true { s with heap := s.heap.set a { o with items := o.items ++ [e] } }
  | put a o k ih => exact fun s => ih { s with heap := s.heap.set a o }
  | warn ws k ih => exact fun s => (List.prefix_append s.log ws).trans (ih { s with log := s.log ++ ws })

end Verif.Prog

namespace Verif.Threads
open Verif Verif.Par

theorem par_call (env : Env) (fuel : Nat) (call : Call) {P : Nat → Prop} (hx : ∀ a, call.arg = .ref a → P a) :
    Par P (fun R x y => VRel P R x y) [] (call.prog env fuel) (call.prog env fuel) := by
  have w : Wf P [] := ⟨nofun, nofun, nofun, nofun⟩
  have hv : VRel P [] call.arg call.arg := by
    cases hc : call.arg with
    | imm i => exact .imm i
    | ref a => exact .doc (hx a hc)
  cases call with
  | markdown x level ig => exact HeapMd.par_markdown env fuel w x x hv level ig
  | parse warn v => exact HeapProg.par_parseNode warn fuel w v v hv
  | parseMark v => exact HeapProg.par_parseMark w fuel hv
  | node c warn v => exact HeapProg.par_nodeFromDict w fuel warn c (fun R' _ w' => HeapProg.par_parseNode warn fuel w') hv
  | mark c v => exact HeapProg.par_markFromDict w fuel c hv
  | toDict x => exact HeapProg.par_toDict fuel w x x hv

theorem reach_trans {h : Heap} {x : HV} {a b : Nat} (hx : Spec.Reach h x a) (ha : Spec.Reach h (.ref a) b) : Spec.Reach h x b := by
  induction hx with
  | here a => exact ha
  | step ho he _ ih => exact .step ho he (ih ha)

/-- The document of a call. -/
def Thread.Doc (t : Thread) : Nat → Prop := Spec.Reach t.seen t.call.arg

theorem doc_closed {t : Thread} (h : ∀ a, t.Doc a → t.doc a ∧ a < t.seen.length) : Closed t.Doc t.seen where
  mem a ha := ⟨t.seen[a]'(h a ha).2, List.getElem?_eq_getElem (h a ha).2⟩
  refs a o e b ha ho he hb := reach_trans ha (.step ho he (hb ▸ .here b))

/-- What is left of a call, and what would be left of it alone. -/
def Same (env : Env) (h : Heap) (t : Thread) : Prop :=
  (∀ a, t.Doc a → t.doc a ∧ a < t.seen.length) →
    ∃ (R : Pairs) (q : Prog HV) (s : St), Par t.Doc (fun R x y => VRel t.Doc R x y) R t.prog q ∧ Two t.Doc t.seen R h s.heap ∧
      q.run s = (t.call.prog env t.fuel).run ⟨t.seen, []⟩ ∧ s.log = t.log ∧ ∀ a b, (a, b) ∈ R → a ∈ t.own

theorem same_reach {env : Env} {c : Config} (h : Reach env c) : ∀ t ∈ c.threads, Same env c.heap t := by
  induction h with
  | start h => exact nofun
  | call hr hc ih =>
    obtain ⟨fuel, call, doc, hdoc⟩ := hc
    intro t ht
    rcases List.mem_append.1 ht with ht | ht
    · exact ih t ht
    · cases List.mem_singleton.1 ht
      intro hd
      refine ⟨[], _, ⟨_, []⟩, par_call env fuel call fun a ha => ?_, ⟨⟨nofun, nofun, nofun, nofun⟩, Nat.le_refl _, Nat.le_refl _,
        fun a o _ ho => ⟨ho, ho⟩, nofun⟩, rfl, rfl, nofun⟩
      show Spec.Reach _ call.arg a
      rw [ha]
      exact .here a
  | @step c0 _ hr hc ih =>
    have hinv := inv_reach hr
    obtain ⟨i, t, h', p, new, ws, hi, hn⟩ := hc
    have htm := List.mem_of_getElem? hi
    intro u hu
    obtain ⟨j, hj⟩ := List.mem_iff_getElem?.1 hu
    rcases set_cases hi hj with ⟨rfl, rfl⟩ | ⟨hji, hj⟩
    · intro hd
      obtain ⟨R, q, s, hp, h2, hrun, hl, ho⟩ := ih t htm hd
      obtain ⟨R', g', y', new', hy, hp', h2', ho'⟩ := par_next (doc_closed hd) hp h2 hn
      refine ⟨R', y', ⟨g', s.log ++ ws⟩, hp', h2', ?_, ?_, fun a b hab => ?_⟩
      · rw [← hrun, Prog.run_next hy]
      · show s.log ++ ws = t.log ++ ws
        rw [hl]
      · exact List.mem_append.2 ((ho' a b hab).imp (ho a b) id)
    · have hum := List.mem_of_getElem? hj
      intro hd
      obtain ⟨R, q, s, hp, h2, hrun, hl, ho⟩ := ih u hum hd
      refine ⟨R, q, s, hp, two_other h2 (Prog.writes_next (hinv.writes t htm) hn).1 fun a ha hpa => ?_, hrun, hl, ho⟩
      refine ran_same hinv htm hn a ha fun hmem => ?_
      rcases hpa with ⟨hp, hlt⟩ | ⟨b, hb⟩
      · exact hinv.docs t htm (next_over hn) u hum a hmem hlt (hd a hp).1
      · exact hinv.apart i j t u hi hj (Ne.symm hji) a hmem (ho a b hb)
  | other hr hc ih =>
    obtain ⟨h', hl, hk⟩ := hc
    intro t ht hd
    obtain ⟨R, q, s, hp, h2, hrun, hlog, ho⟩ := ih t ht hd
    exact ⟨R, q, s, hp, two_other h2 hl fun a ha hpa => hk t ht a ha (hpa.imp (fun h => (hd a h.1).1) fun ⟨b, hb⟩ => ho a b hb), hrun, hlog, ho⟩
  | left hr hc ih =>
    obtain ⟨i, _, _⟩ := hc
    exact fun t ht => ih t (mem_erase ht)

theorem two_iso {P : Nat → Prop} {h0 h g : Heap} {R : Pairs} (c : Closed P h0) (t : Two P h0 R h g) {x y : HV} (hv : VRel P R x y) :
    Spec.Iso P h x g y := by
  have corr : ∀ {x y}, VRel P R x y → Spec.Corr (fun a b => VRel P R (.ref a) (.ref b)) x y := fun {x y} h => by
    cases x with
    | imm i => cases h; exact .inl ⟨i, rfl, rfl⟩
    | ref a => obtain ⟨b, rfl⟩ := HeapMd.ref_rel h; exact .inr ⟨a, b, rfl, rfl, h⟩
  refine ⟨fun a b => VRel P R (.ref a) (.ref b), corr hv, fun a b a' b' h h' => VRel.same t.wf h h', fun a b h => ?_, fun a b h => ?_⟩
  · cases h with
    | own h => exact ⟨fun hp => absurd hp (t.wf.left a b h), fun hp => absurd hp (t.wf.right a b h)⟩
    | doc h => exact ⟨fun _ => rfl, fun _ => rfl⟩
  · obtain ⟨o, o', ho, ho', hoo⟩ := two_get c t h
    exact ⟨o, o', ho, ho', hoo.kind, List.Forall₂.imp (fun _ _ h => ⟨h.1, corr h.2⟩) hoo.items⟩

end Verif.Threads
