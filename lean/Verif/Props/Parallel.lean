import Verif.Props.Threads
import Verif.Lemmas.ThreadsPar
import Verif.Lemmas.Iso
/-!
# C108: threads that parse, serialise and convert at the same time, and each call alone

`Threads.Reach env c` as in `Props/Threads.lean`: calls of `parse_node`, `parse_mark`, `from_dict`, `to_dict` and `to_markdown` in any number of
threads, single steps in any order, and other code.  `hd` below says that other code leaves alone all that can be reached from the argument of the
call in question.
-/

namespace Verif.Props
open Verif Verif.Spec Verif.Threads Verif.Par

/-- The same call, run without interruption from heap `h` and log `log`. -/
def callAlone (env : Env) (fuel : Nat) (call : Call) (h : Heap) (log : List Warn) : Except HErr HV × St :=
  match call with
  | .markdown x level ig => callMarkdown env fuel x level ig h log
  | .parse warn v => Entry.parseNode.call fuel warn v h log
  | .parseMark v => Entry.parseMark.call fuel false v h log
  | .node c warn v => (Entry.node c).call fuel warn v h log
  | .mark c v => (Entry.mark c).call fuel false v h log
  | .toDict x => callToDict fuel x h log

theorem callAlone_run (env : Env) (fuel : Nat) (call : Call) (h : Heap) (log : List Warn) :
    (call.prog env fuel).run ⟨h, log⟩ = callAlone env fuel call h log := by
  cases call with
  | markdown x level ig => rfl
  | parse warn v => exact congrFun (HeapProg.run_parseNode fuel warn v) _
  | parseMark v => exact congrFun (HeapProg.run_parseMark fuel v) _
  | node c warn v => exact congrFun (HeapProg.run_nodeFromDict fuel warn (HeapProg.run_parseNode fuel warn) c v) _
  | mark c v => exact congrFun (HeapProg.run_markFromDict fuel c v) _
  | toDict x => exact congrFun (HeapProg.run_toDict fuel x) _

/-- A call that has returned, and the call alone. -/
theorem over_ret {env : Env} {c : Config} (hc : Threads.Reach env c) {t : Thread} (ht : t ∈ c.threads)
    (hd : ∀ a, Reach t.seen t.call.arg a → t.doc a ∧ a < t.seen.length) {r : HV} (hr : t.prog = .ret r) :
    ∃ (R : Pairs) (r' : HV) (s : St), callAlone env t.fuel t.call t.seen [] = (.ok r', s) ∧ s.log = t.log ∧ VRel t.Doc R r r' ∧
      Two t.Doc t.seen R c.heap s.heap ∧ ∀ a b, (a, b) ∈ R → a ∈ t.own := by
  obtain ⟨R, q, s, hp, h2, hrun, hl, ho⟩ := same_reach hc t ht hd
  rw [hr] at hp
  cases hp with
  | ret hv => exact ⟨R, _, s, (callAlone_run ..).symm.trans hrun.symm, hl, hv, h2, ho⟩

/-- Whatever the other threads and other code do: a call that has returned has returned the value that the same call alone returns — the same
tree of objects, shared in the same way, where objects of the argument are the very same — and has logged the same. -/
theorem C108_returns (env : Env) (c : Config) (hc : Threads.Reach env c) (t : Thread) (ht : t ∈ c.threads)
    (hd : ∀ a, Reach t.seen t.call.arg a → t.doc a ∧ a < t.seen.length) (r : HV) (hr : t.prog = .ret r) :
    ∃ r', (callAlone env t.fuel t.call t.seen []).1 = .ok r' ∧ (callAlone env t.fuel t.call t.seen []).2.log = t.log ∧
      Iso (Reach t.seen t.call.arg) c.heap r (callAlone env t.fuel t.call t.seen []).2.heap r' ∧
      ∀ n, observe n c.heap r = observe n (callAlone env t.fuel t.call t.seen []).2.heap r' := by
  obtain ⟨R, r', s, h1, h2, h3, h4, _⟩ := over_ret hc ht hd hr
  rw [h1]
  exact ⟨r', rfl, h2, two_iso (doc_closed hd) h4 h3, fun n => two_observe (doc_closed hd) h4 n r r' h3⟩

/-- And a call that has raised has raised and logged what it does alone. -/
theorem C108_raises (env : Env) (c : Config) (hc : Threads.Reach env c) (t : Thread) (ht : t ∈ c.threads)
    (hd : ∀ a, Reach t.seen t.call.arg a → t.doc a ∧ a < t.seen.length) (e : HErr) (he : t.prog = .fail e) :
    (callAlone env t.fuel t.call t.seen []).1 = .error e ∧ (callAlone env t.fuel t.call t.seen []).2.log = t.log := by
  obtain ⟨R, q, s, hp, h2, hrun, hl, ho⟩ := same_reach hc t ht hd
  rw [he] at hp
  cases hp with
  | fail =>
    rw [← callAlone_run, ← hrun]
    exact ⟨rfl, hl⟩

/-- While the call runs, it has logged a part of that, from the beginning. -/
theorem C108_log (env : Env) (c : Config) (hc : Threads.Reach env c) (t : Thread) (ht : t ∈ c.threads)
    (hd : ∀ a, Reach t.seen t.call.arg a → t.doc a ∧ a < t.seen.length) :
    t.log <+: (callAlone env t.fuel t.call t.seen []).2.log := by
  obtain ⟨R, q, s, _, _, hrun, hl, _⟩ := same_reach hc t ht hd
  rw [← callAlone_run, ← hrun, ← hl]
  exact Prog.run_log q s

/-- Nobody changes the argument: it is what it was when the call was made. -/
theorem C108_argument (env : Env) (c : Config) (hc : Threads.Reach env c) (t : Thread) (ht : t ∈ c.threads)
    (hd : ∀ a, Reach t.seen t.call.arg a → t.doc a ∧ a < t.seen.length) :
    (∀ a, Reach t.seen t.call.arg a → c.heap[a]? = t.seen[a]?) ∧ ∀ n, observe n c.heap t.call.arg = observe n t.seen t.call.arg := by
  obtain ⟨R, q, s, _, h2, _, _, _⟩ := same_reach hc t ht hd
  have h3 : ∀ a, Reach t.seen t.call.arg a → c.heap[a]? = t.seen[a]? := fun a ha => by
    obtain ⟨o, ho⟩ := (doc_closed hd).mem a ha
    exact ((h2.doc a o ha ho).1).trans ho.symm
  refine ⟨h3, fun n => ?_⟩
  have key : ∀ n x, (∀ a, Reach t.seen x a → Reach t.seen t.call.arg a) → observe n c.heap x = observe n t.seen x := fun n => by
    induction n with
    | zero => intro _ _; rfl
    | succ n ih =>
      intro x hx
      cases x with
      | imm i => rfl
      | ref a =>
        have h4 := h3 a (hx a (.here a))
        unfold observe
        rw [h4]
        cases ho : t.seen[a]? with
        | none => rfl
        | some o =>
          simp only
          congr 1
          refine List.map_congr_left fun e he => ?_
          rw [ih e.2 fun b hb => hx b (.step ho he hb)]
  exact key n _ fun _ h => h

/-- Calls which build new objects only. -/
def Call.Builds : Call → Prop
  | .markdown .. => False
  | _ => True

theorem alone_fresh (env : Env) (fuel : Nat) (call : Call) (hb : Call.Builds call) (h : Heap) (log : List Warn) (r : HV)
    (hr : (callAlone env fuel call h log).1 = .ok r) (a : Nat) (ha : Reach (callAlone env fuel call h log).2.heap r a) : h.length ≤ a := by
  cases call with
  | markdown x level ig => exact hb.elim
  | parse warn v => exact C11_fresh .parseNode fuel warn v h log r hr a ha
  | parseMark v => exact C11_fresh .parseMark fuel false v h log r hr a ha
  | node c warn v => exact C11_fresh (.node c) fuel warn v h log r hr a ha
  | mark c v => exact C11_fresh (.mark c) fuel false v h log r hr a ha
  | toDict x => exact C49_fresh fuel x h log r hr a ha

theorem two_reach {P : Nat → Prop} {h0 h g : Heap} {R : Pairs} (c : Closed P h0) (t : Two P h0 R h g) {x : HV} {a : Nat}
    (hr : Reach h x a) : ∀ y, VRel P R x y → ∃ b, VRel P R (.ref a) (.ref b) ∧ Reach g y b := by
  induction hr with
  | here a =>
    intro y hv
    obtain ⟨b, rfl⟩ := HeapMd.ref_rel hv
    exact ⟨b, hv, .here b⟩
  | @step a b o e ho he _ ih =>
    intro y hv
    obtain ⟨b', rfl⟩ := HeapMd.ref_rel hv
    obtain ⟨o1, o2, h1, h2, hoo⟩ := two_get c t hv
    cases ho.symm.trans h1
    have key : ∀ l m, IRel P R l m → e ∈ l → ∃ f ∈ m, VRel P R e.2 f.2 := fun l m hlm => by
      induction hlm with
      | nil => nofun
      | @cons e' f' l m he' _ ih' =>
        intro hm
        rcases List.mem_cons.1 hm with rfl | hm
        · exact ⟨f', List.mem_cons_self, he'.2⟩
        · obtain ⟨f, h3, h4⟩ := ih' hm
          exact ⟨f, List.mem_cons_of_mem _ h3, h4⟩
    obtain ⟨f, hf, hv'⟩ := key _ _ hoo.items he
    obtain ⟨b2, h3, h4⟩ := ih f.2 hv'
    exact ⟨b2, h3, .step h2 hf h4⟩

/-- All of a parsed node or a serialised dict was created by its call: nothing of it is part of the argument or of what another call has
created. -/
theorem C108_fresh (env : Env) (c : Config) (hc : Threads.Reach env c) (i : Nat) (t : Thread) (ht : c.threads[i]? = some t)
    (hd : ∀ a, Reach t.seen t.call.arg a → t.doc a ∧ a < t.seen.length) (hb : Call.Builds t.call) (r : HV) (hr : t.prog = .ret r)
    (a : Nat) (ha : Reach c.heap r a) :
    a ∈ t.own ∧ t.seen.length ≤ a ∧ ¬ Reach t.seen t.call.arg a ∧ ∀ j u, c.threads[j]? = some u → i ≠ j → a ∉ u.own := by
  obtain ⟨R, r', s, h1, h2, h3, h4, ho⟩ := over_ret hc (List.mem_of_getElem? ht) hd hr
  obtain ⟨b, h5, h6⟩ := two_reach (doc_closed hd) h4 ha r' h3
  have h7 := alone_fresh env t.fuel t.call hb t.seen [] r' (by rw [h1]) b (by rw [h1]; exact h6)
  have h8 : a ∈ t.own := by
    cases h5 with
    | own h => exact ho _ _ h
    | doc h => exact absurd (hd a h).2 (by omega)
  obtain ⟨_, h9, h10⟩ := C107_private env c hc i t ht
  exact ⟨h8, (h9 a h8).1, fun hx => absurd (hd a hx).2 (by have := (h9 a h8).1; omega), fun j u hj hne => h10 j u hj hne a h8⟩

/-- So the results of two such calls have no object in common, not even if both were given the same document. -/
theorem C108_apart (env : Env) (c : Config) (hc : Threads.Reach env c) (i j : Nat) (hij : i ≠ j) (t u : Thread)
    (ht : c.threads[i]? = some t) (hu : c.threads[j]? = some u)
    (hd : ∀ a, Reach t.seen t.call.arg a → t.doc a ∧ a < t.seen.length) (hd' : ∀ a, Reach u.seen u.call.arg a → u.doc a ∧ a < u.seen.length)
    (hb : Call.Builds t.call) (hb' : Call.Builds u.call) (r r' : HV) (hr : t.prog = .ret r) (hr' : u.prog = .ret r') (a : Nat) :
    ¬ (Reach c.heap r a ∧ Reach c.heap r' a) := fun ⟨h1, h2⟩ =>
  (C108_fresh env c hc i t ht hd hb r hr a h1).2.2.2 j u hu hij (C108_fresh env c hc j u hu hd' hb' r' hr' a h2).1

theorem two_like {P : Nat → Prop} {h0 h g : Heap} {R : Pairs} (c : Closed P h0) (t : Two P h0 R h g) {own : Nat → Prop}
    (hp : ∀ a, P a → a < h0.length) (ho : ∀ a b, (a, b) ∈ R → own a) :
    Iso.Like (fun b a => VRel P R (.ref a) (.ref b)) (fun a => h0.length ≤ a) own g h where
  obj b a o hv hg := by
    obtain ⟨o1, o2, h1, h2, hoo⟩ := two_get c t hv
    cases hg.symm.trans h2
    refine ⟨o1.items, by rw [h1, ← hoo.kind], ?_⟩
    refine List.Forall₂.imp (fun e f he => ⟨he.1.symm, ?_⟩) (List.Forall₂.flip hoo.items)
    obtain ⟨_, hv'⟩ := he
    cases hf : f.2 with
    | imm i => rw [hf] at hv'; generalize e.2 = x at hv'; cases hv'; exact .inl ⟨i, rfl, rfl⟩
    | ref a =>
      rw [hf] at hv'
      obtain ⟨b, hb⟩ := HeapMd.ref_rel hv'
      rw [hb] at hv' ⊢
      exact .inr ⟨b, a, rfl, rfl, hv'⟩
  mem b a hv hb := by
    cases hv with
    | own h => exact ho _ _ h
    | doc h => exact absurd (hp _ h) (by omega)

theorem corr_of {P : Nat → Prop} {R : Pairs} {x y : HV} (hv : VRel P R x y) : Corr (fun b a => VRel P R (.ref a) (.ref b)) y x := by
  cases hv with
  | imm i => exact .inl ⟨i, rfl, rfl⟩
  | own h => exact .inr ⟨_, _, rfl, rfl, .own h⟩
  | doc h => exact .inr ⟨_, _, rfl, rfl, .doc h⟩

/-- `parse_node` in a thread, on a JSON value that fits the recursion limit: it ends with what the value model says, which knows of no threads: a
node made of objects of its own, or the exception; and has logged the warnings the value model says. -/
theorem C108_parse (env : Env) (c : Config) (hc : Threads.Reach env c) (t : Thread) (ht : t ∈ c.threads) (w : Bool) (v : HV)
    (hx : t.call = .parse w v) (u : Val) (hj : Json t.doc t.seen u v) (hf : depth u ≤ t.fuel) :
    (∀ r, t.prog = .ret r → ∃ n, (parseNode w u).out = .ok n ∧ IsNode (· ∈ t.own) c.heap n r ∧ t.log = (parseNode w u).log) ∧
    (∀ e, t.prog = .fail e → ∃ e', e = .py e' ∧ (parseNode w u).out = .error e' ∧ t.log = (parseNode w u).log) := by
  have hd : ∀ a, Reach t.seen t.call.arg a → t.doc a ∧ a < t.seen.length := by
    rw [hx]
    exact fun a ha => Iso.json_reach ha ⟨u, hj⟩
  have hj' : Json anywhere t.seen u v := json_mono (fun _ _ _ h => h) (fun _ _ => trivial) u v hj
  obtain ⟨h1, h2⟩ := C11_agrees_node t.fuel w u v t.seen [] hj' hf
  have ha : callAlone env t.fuel t.call t.seen [] = Entry.parseNode.call t.fuel w v t.seen [] := by rw [hx]; rfl
  refine ⟨fun r hr => ?_, fun e he => ?_⟩
  · obtain ⟨R, r', s, h3, h4, h5, h6, ho⟩ := over_ret hc ht hd hr
    rw [ha] at h3
    rw [h3] at h1 h2
    cases hp : (parseNode w u).out with
    | error e => rw [hp] at h2; cases h2
    | ok n =>
      rw [hp] at h2
      obtain ⟨r2, h7, h8⟩ := h2
      cases h7
      exact ⟨n, rfl, Iso.node_iso (two_like (doc_closed hd) h6 (fun a ha => (hd a ha).2) ho) n r' r (corr_of h5) h8, h4.symm.trans h1⟩
  · obtain ⟨h3, h4⟩ := C108_raises env c hc t ht hd e he
    rw [ha] at h3 h4
    cases hp : (parseNode w u).out with
    | ok n =>
      rw [hp] at h2
      obtain ⟨r2, h7, _⟩ := h2
      cases h3.symm.trans h7
    | error e' =>
      rw [hp] at h2
      cases h3.symm.trans h2
      exact ⟨e', rfl, rfl, h4.symm.trans h1⟩

/-- `to_dict` in a thread, on a node that fits the recursion limit: the JSON value or exception that the value model says, made of objects of its
own, and nothing logged. -/
theorem C108_to_dict (env : Env) (c : Config) (hc : Threads.Reach env c) (t : Thread) (ht : t ∈ c.threads) (x : HV)
    (hx : t.call = .toDict x) (hd : ∀ a, Reach t.seen x a → t.doc a ∧ a < t.seen.length) (n : Node) (hn : IsNode anywhere t.seen n x)
    (hf : depthNode n ≤ t.fuel) :
    t.log = [] ∧
    (∀ r, t.prog = .ret r → ∃ v, n.toDict = .ok v ∧ Json (· ∈ t.own) c.heap v r) ∧
    (∀ e, t.prog = .fail e → ∃ e', e = .py e' ∧ n.toDict = .error e') := by
  have hd : ∀ a, Reach t.seen t.call.arg a → t.doc a ∧ a < t.seen.length := by rw [hx]; exact hd
  have h2 := C49_agrees_node t.fuel n x t.seen [] hn hf
  have ha : callAlone env t.fuel t.call t.seen [] = callToDict t.fuel x t.seen [] := by rw [hx]; rfl
  refine ⟨?_, fun r hr => ?_, fun e he => ?_⟩
  · have h3 := C108_log env c hc t ht hd
    rw [ha, (C49_unchanged t.fuel x t.seen []).2] at h3
    exact List.prefix_nil.1 h3
  · obtain ⟨R, r', s, h3, h4, h5, h6, ho⟩ := over_ret hc ht hd hr
    rw [ha] at h3
    rw [h3] at h2
    cases hp : n.toDict with
    | error e => rw [hp] at h2; cases h2
    | ok v =>
      rw [hp] at h2
      obtain ⟨r2, h7, h8⟩ := h2
      cases h7
      exact ⟨v, rfl, Iso.json_iso (two_like (doc_closed hd) h6 (fun a ha => (hd a ha).2) ho) v r' r (corr_of h5) h8⟩
  · obtain ⟨h3, _⟩ := C108_raises env c hc t ht hd e he
    rw [ha] at h3
    cases hp : n.toDict with
    | ok v =>
      rw [hp] at h2
      obtain ⟨r2, h7, _⟩ := h2
      cases h3.symm.trans h7
    | error e' =>
      rw [hp] at h2
      cases h3.symm.trans h2
      exact ⟨e', rfl, rfl⟩

/-! ## Non-vacuity: two threads parse the paragraph of `Props/Heap.lean`, the same dict -/

example (env : Env) : ∃ (c : Config) (t u : Thread) (r r' : HV) (n : Node), Threads.Reach env c ∧ c.threads = [t, u] ∧
    t.prog = .ret r ∧ u.prog = .ret r' ∧ IsNode (· ∈ t.own) c.heap n r ∧ IsNode (· ∈ u.own) c.heap n r' ∧
    (∀ a, ¬ (Reach c.heap r a ∧ Reach c.heap r' a)) ∧ n.toDict = .ok para0 := by
  obtain ⟨_, n, _, hn, _, hv, _⟩ := para0_built
  have r0 : Threads.Reach env ⟨heap0, []⟩ := .start heap0
  have r1 := Threads.Reach.call r0 (.mk 1000 (.parse true (.ref 2)) anywhere nofun)
  have r2 := Threads.Reach.call r1 (.mk 1000 (.parse true (.ref 2)) anywhere (by
    intro t ht _ a ha
    cases List.mem_singleton.1 ht
    cases ha))
  obtain ⟨c3, t, r3, e3, a3, s3, d3, p3⟩ := runs_out env _ r2 0 _ rfl
  obtain ⟨c4, u, r4, e4, a4, s4, d4, p4⟩ := runs_out env _ r3 1 _ (by rw [e3]; rfl)
  have e5 : c4.threads = [t, u] := by rw [e4, e3]; rfl
  have done : ∀ v ∈ c4.threads, (v.fuel, v.call) = (1000, .parse true (.ref 2)) → v.seen = heap0 → v.doc = anywhere →
      v.Over → ∃ r, v.prog = .ret r ∧ IsNode (· ∈ v.own) c4.heap n r ∧ (∀ a, Reach v.seen v.call.arg a → v.doc a ∧ a < v.seen.length) ∧
        Call.Builds v.call := by
    rintro ⟨f, call, p, own, log, seen, doc⟩ hv ha rfl rfl hp
    cases ha
    obtain ⟨h1, h2⟩ := C108_parse env c4 r4 _ hv true (.ref 2) rfl para0 heap0_para (show depth para0 ≤ 1000 by decide)
    rcases hp with ⟨r', hr⟩ | ⟨e, he⟩
    · obtain ⟨n', hn', hi, _⟩ := h1 r' hr
      cases hn.symm.trans hn'
      exact ⟨r', hr, hi, fun a ha => ⟨trivial, heap0_closed a ha⟩, trivial⟩
    · obtain ⟨e', _, h, _⟩ := h2 e he
      cases hn.symm.trans h
  obtain ⟨r, b1, b2, b3, b4⟩ := done t (by simp [e5]) a3 s3 d3 p3
  obtain ⟨r', f1, f2, f3, f4⟩ := done u (by simp [e5]) a4 s4 d4 p4
  exact ⟨c4, t, u, r, r', n, r4, e5, b1, f1, b2, f2,
    C108_apart env c4 r4 0 1 (by decide) t u (by rw [e5]; rfl) (by rw [e5]; rfl) b3 f3 b4 f4 r r' b1 f1, hv⟩

end Verif.Props
