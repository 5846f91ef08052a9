import Verif.Props.ParFields
/-!
# C110: threads, and the setting that somebody changes

`FieldsProg.Reach env user c` as in `Props/ParFields.lean`: when a call skips a child whose type is not implemented it reads
`settings.WARN_UNIMPLEMENTED_TYPE`, and in a later step it logs if that was on; the setting changes at any time in between.  `t.skips` are the children
the call has skipped, each with what the setting was when it was read for this child.  `call.const b` is the call where the setting is always `b`.
-/

namespace Verif.Props
open Verif Verif.Spec Verif.FieldsProg

/-- Whether the setting is on or off makes no difference to what a call returns or raises, nor to what it does to objects; and where it is off
nothing is logged. -/
theorem C110_result (env : Env) (fuel : Nat) (call : FieldsProg.Call) (h : Heap) (log : List Warn) :
    (callAlone env fuel (call.const true) h log).1 = (callAlone env fuel (call.const false) h log).1 ∧
    (callAlone env fuel (call.const true) h log).2.heap = (callAlone env fuel (call.const false) h log).2.heap ∧
    (callAlone env fuel (call.const false) h log).2.log = log := by
  have key : ∀ (p : FProg HV), p.Quiet → ∀ (h : Heap) (log log' : List Warn),
      ((p.erase (fun _ => []) true).run ⟨h, log⟩).1 = ((p.erase (fun _ => []) false).run ⟨h, log'⟩).1 ∧
      ((p.erase (fun _ => []) true).run ⟨h, log⟩).2.heap = ((p.erase (fun _ => []) false).run ⟨h, log'⟩).2.heap ∧
      ((p.erase (fun _ => []) false).run ⟨h, log'⟩).2.log = log' := fun p => by
    induction p with
    | ret a => exact fun _ h log log' => ⟨rfl, rfl, rfl⟩
    | fail e => exact fun _ h log log' => ⟨rfl, rfl, rfl⟩
    | look a k ih => exact fun q h log log' => ih h[a]? (q _) h log log'
    | make o k ih => exact fun q h log log' => ih h.length (q _) (h ++ [o]) log log'
    | put a o k ih => exact fun q h log log' => ih q (h.set a o) log log'
    | warn ws k ih => exact fun q => q.elim
    | add a e k ih =>
      intro q h log log'
      simp only [FProg.erase, Prog.run]
      cases h[a]? with
      | none => exact ih false (q _) h log log'
      | some o => exact ih true (q _) _ log log'
    | fields c k ih => exact fun q h log log' => ih _ (q _) h log log'
    | skipped w k ih =>
      intro q h log log'
      have h1 := ih q h (log ++ [w]) (log' ++ [])
      rw [List.append_nil] at h1
      have h2 : ((FProg.skipped w k).erase (fun _ => []) false).run ⟨h, log'⟩ = (k.erase (fun _ => []) false).run ⟨h, log'⟩ := by
        show (k.erase (fun _ => []) false).run ⟨h, log' ++ []⟩ = _
        rw [List.append_nil]
      rw [h2]
      exact h1
  have h1 := key (call.prog env fuel) (quiet_prog env fuel call) h log log
  rw [erase_prog, erase_prog, callAlone_run, callAlone_run] at h1
  exact h1

/-- Whatever happens: a call has logged exactly the children for which the setting was on when it was read, in the order of the document; and when
it is over, the children it has skipped are all that it would have logged alone with the setting on — none is missed, none comes twice, whenever the
setting changes. -/
theorem C110_log (env : Env) (user : Nat → List Field) (c : FieldsProg.Config) (hc : FieldsProg.Reach env user c) (t : FieldsProg.Thread)
    (ht : t ∈ c.threads) (hd : ∀ a, Spec.Reach t.seen t.call.arg a → t.doc a ∧ a < t.seen.length) :
    t.log = (t.skips.filter (·.2)).map (·.1) ∧
    t.skips.map (·.1) <+: (callAlone env t.fuel (t.call.const true) t.seen []).2.log ∧
    (t.Over → t.skips.map (·.1) = (callAlone env t.fuel (t.call.const true) t.seen []).2.log) := by
  have hd' : ∀ a, Spec.Reach (t.erase user true).seen (t.erase user true).call.arg a → (t.erase user true).doc a ∧ a < (t.erase user true).seen.length := by
    show ∀ a, Spec.Reach t.seen (t.call.const true).arg a → _
    rw [const_arg]
    exact hd
  obtain ⟨h1, h2⟩ := erase_thread hc true ht
  refine ⟨((reach_erase user hc).thread t ht).log, C108_log env _ h1 _ h2 hd', fun ho => ?_⟩
  rcases ho with ⟨r, hr⟩ | ⟨e, he⟩
  · obtain ⟨_, _, h3, _⟩ := C108_returns env _ h1 _ h2 hd' r (erase_ret true hr)
    exact h3.symm
  · exact (C108_raises env _ h1 _ h2 hd' e (erase_fail true he)).2.symm

/-- For a JSON value that fits the recursion limit: the warnings of the value model. -/
theorem C110_parse (env : Env) (user : Nat → List Field) (c : FieldsProg.Config) (hc : FieldsProg.Reach env user c) (t : FieldsProg.Thread)
    (ht : t ∈ c.threads) (v : HV) (hx : t.call = .parse v) (u : Val) (hj : Json t.doc t.seen u v) (hf : depth u ≤ t.fuel) (ho : t.Over) :
    t.skips.map (·.1) = (Verif.parseNode true u).log ∧ t.log = (t.skips.filter (·.2)).map (·.1) := by
  obtain ⟨h1, h2⟩ := C108_parse env _ (erase_thread hc true ht).1 _ (erase_thread hc true ht).2 true v
    (by simp only [Thread.erase, hx, FieldsProg.Call.const]) u hj hf
  refine ⟨?_, ((reach_erase user hc).thread t ht).log⟩
  rcases ho with ⟨r, hr⟩ | ⟨e, he⟩
  · obtain ⟨_, _, _, h3⟩ := h1 r (erase_ret true hr)
    exact h3
  · obtain ⟨_, _, _, h3⟩ := h2 e (erase_fail true he)
    exact h3

/-- A history from a moment when no call is in progress, all through which the setting is `b`. -/
inductive Always (env : Env) (user : Nat → List Field) (b : Bool) : FieldsProg.Config → Prop
  | start {c : FieldsProg.Config} (hc : FieldsProg.Reach env user c) (ht : c.threads = []) (hb : c.warn = b) : Always env user b c
  | step {c c' : FieldsProg.Config} (hc : Always env user b c) (hs : FieldsProg.Step env user c c') (hb : c'.warn = b) : Always env user b c'

theorem always_reach {env : Env} {user : Nat → List Field} {b : Bool} {c : FieldsProg.Config} (h : Always env user b c) :
    FieldsProg.Reach env user c ∧ c.warn = b := by
  induction h with
  | start hc _ hb => exact ⟨hc, hb⟩
  | step _ hs hb ih => exact ⟨.step ih.1 hs, hb⟩

/-- A step skips a child whose setting was read in the step before, or in this one; or it skips none. -/
theorem next_skips {fieldsOf : Cls → List Field} {p : FProg HV} {h : Heap} {m : Mem} {w : Bool} {pos : At} {n : Now HV}
    (hn : p.next fieldsOf h m w pos = some n) :
    n.skips = [] ∧ (n.pos = .on → w = true) ∨
    n.pos = .start ∧ ∃ s, pos = .on ∧ n.skips = [(s, true)] ∨ w = false ∧ n.skips = [(s, false)] := by
  have start : At.start = .on → w = true := fun h => by cases h
  cases p with
  | ret a => cases hn
  | fail e => cases hn
  | look a k => cases hn; exact .inl ⟨rfl, start⟩
  | make o k => cases hn; exact .inl ⟨rfl, start⟩
  | put a o k => cases hn; exact .inl ⟨rfl, start⟩
  | warn ws k => cases hn; exact .inl ⟨rfl, start⟩
  | add a e k =>
    simp only [FProg.next] at hn
    split at hn <;> (cases hn; exact .inl ⟨rfl, start⟩)
  | fields k f =>
    simp only [FProg.next] at hn
    split at hn
    · split at hn <;> (cases hn; exact .inl ⟨rfl, start⟩)
    · cases hn; exact .inl ⟨rfl, start⟩
    · cases hn; exact .inl ⟨rfl, fun h => by cases h⟩
  | skipped s k =>
    simp only [FProg.next] at hn
    split at hn
    · cases hn; exact .inr ⟨rfl, s, .inl ⟨rfl, rfl⟩⟩
    · cases w with
      | true => cases hn; exact .inl ⟨rfl, fun _ => rfl⟩
      | false => cases hn; exact .inr ⟨rfl, s, .inr ⟨rfl, rfl⟩⟩

theorem always_skips {env : Env} {user : Nat → List Field} {b : Bool} {c : FieldsProg.Config} (h : Always env user b c) :
    ∀ t ∈ c.threads, (∀ s ∈ t.skips, s.2 = b) ∧ (t.pos = .on → b = true) := by
  induction h with
  | start hc ht hb => rw [ht]; exact fun t h => (List.not_mem_nil h).elim
  | @step c c' hc hs hb ih =>
    have hw := (always_reach hc).2
    cases hs with
    | call fuel call doc hdoc =>
      intro t ht
      rcases List.mem_append.1 ht with ht | ht
      · exact ih t ht
      · cases List.mem_singleton.1 ht; exact ⟨fun s hs => (List.not_mem_nil hs).elim, fun h => by cases h⟩
    | step i t n ht hn =>
      intro u hu
      rcases List.mem_or_eq_of_mem_set hu with hu | rfl
      · exact ih u hu
      · obtain ⟨h1, h2⟩ := ih t (List.mem_of_getElem? ht)
        rw [hw] at hn
        show (∀ s ∈ t.skips ++ n.skips, s.2 = b) ∧ (n.pos = .on → b = true)
        rcases next_skips hn with ⟨h3, h4⟩ | ⟨h3, s, ⟨h4, h5⟩ | ⟨h4, h5⟩⟩
        · rw [h3, List.append_nil]; exact ⟨h1, h4⟩
        · rw [h3, h5]
          refine ⟨fun s hs => (List.mem_append.1 hs).elim (h1 s) fun hs => ?_, fun h => by cases h⟩
          rw [List.mem_singleton.1 hs]; exact (h2 h4).symm
        · rw [h3, h5]
          refine ⟨fun s hs => (List.mem_append.1 hs).elim (h1 s) fun hs => ?_, fun h => by cases h⟩
          rw [List.mem_singleton.1 hs]; exact h4.symm
    | other h' hl hk => exact ih
    | left i t ht => exact fun u hu => ih u (List.mem_of_mem_eraseIdx hu)
    | set w => exact ih
    | ask k => exact ih
    | answer i p hp => exact ih

/-- So where nobody changes the setting, a call logs what it logs alone: all, or nothing. -/
theorem C110_always (env : Env) (user : Nat → List Field) (b : Bool) (c : FieldsProg.Config) (hc : Always env user b c) (t : FieldsProg.Thread)
    (ht : t ∈ c.threads) (hd : ∀ a, Spec.Reach t.seen t.call.arg a → t.doc a ∧ a < t.seen.length) (ho : t.Over) :
    t.log = (callAlone env t.fuel (t.call.const b) t.seen []).2.log := by
  obtain ⟨h1, _, h2⟩ := C110_log env user c (always_reach hc).1 t ht hd
  have h3 := (always_skips hc t ht).1
  cases b with
  | true => rw [← h2 ho, h1, List.filter_eq_self.2 h3]
  | false =>
    rw [(C110_result env t.fuel t.call t.seen []).2.2, h1, List.filter_eq_nil_iff.2 fun s hs => by rw [h3 s hs]; decide]
    rfl

/-! ## Non-vacuity: two children are skipped; the setting is switched off after the first -/

def skip0 : Heap :=
  [⟨.dict, [("type", .imm (.str "foo".toList))]⟩,
   ⟨.list, [("", .ref 0), ("", .ref 0)]⟩,
   ⟨.dict, [("type", .imm (.str "paragraph".toList)), ("content", .ref 1)]⟩]

def foo0 : Val := .dict [("type", .str "foo".toList)]

def skipPara : Val := .dict [("type", .str "paragraph".toList), ("content", .list [foo0, foo0])]

theorem skip0_para : Json anywhere skip0 skipPara (.ref 2) := by
  have h1 : Json anywhere skip0 foo0 (.ref 0) := ⟨0, _, rfl, trivial, rfl, _, _, rfl, ⟨_, rfl, rfl⟩, rfl⟩
  exact ⟨2, _, rfl, trivial, rfl, _, _, rfl, ⟨_, rfl, rfl⟩, _, _, rfl,
    ⟨1, _, rfl, trivial, rfl, _, _, rfl, h1, _, _, rfl, h1, rfl⟩, rfl⟩

/-- The first child skipped had the setting on, and no other. -/
def FirstOn (t : FieldsProg.Thread) : Prop :=
  (t.skips = [] ∨ ∃ w l, t.skips = (w, true) :: l ∧ ∀ s ∈ l, s.2 = false) ∧ (t.pos = .on → t.skips = [])

/-- Somebody sets the setting before every step of the thread: on as long as nothing is skipped. -/
theorem runs_first (env : Env) (user : Nat → List Field) (x : FProg HV × At) (hx : Acc (FollowsF (Cls.fields user)) x) :
    ∀ (c : FieldsProg.Config) (t : FieldsProg.Thread), (t.prog, t.pos) = x → FieldsProg.Reach env user c → c.threads[0]? = some t → FirstOn t →
      ∃ c' t', FieldsProg.Reach env user c' ∧ c'.threads = c.threads.set 0 t' ∧ (t'.fuel, t'.call) = (t.fuel, t.call) ∧
        t'.seen = t.seen ∧ t'.doc = t.doc ∧ t'.Over ∧ FirstOn t' := by
  induction hx with
  | intro x _ ih =>
    rintro c t rfl hc ht hf
    obtain ⟨hlt, hget⟩ := List.getElem?_eq_some_iff.1 ht
    cases hn : t.prog.next (Cls.fields user) c.heap c.mem t.skips.isEmpty t.pos with
    | none => exact ⟨c, t, hc, by rw [← hget, List.set_getElem_self hlt], rfl, rfl, rfl, next_none hn, hf⟩
    | some n =>
      have hf' : FirstOn { t with prog := n.prog, pos := n.pos, own := t.own ++ n.new, log := t.log ++ n.log, skips := t.skips ++ n.skips } := by
        obtain ⟨f1, f2⟩ := hf
        show (t.skips ++ n.skips = [] ∨ ∃ w l, t.skips ++ n.skips = (w, true) :: l ∧ ∀ s ∈ l, s.2 = false) ∧ (n.pos = .on → t.skips ++ n.skips = [])
        rcases next_skips hn with ⟨h3, h4⟩ | ⟨h3, s, ⟨h4, h5⟩ | ⟨h4, h5⟩⟩
        · rw [h3, List.append_nil]
          exact ⟨f1, fun h => List.isEmpty_iff.1 (h4 h)⟩
        · rw [h3, h5, f2 h4]
          exact ⟨.inr ⟨s, [], rfl, fun s h => (List.not_mem_nil h).elim⟩, fun h => by cases h⟩
        · rw [h3, h5]
          rcases f1 with f1 | ⟨w, l, f1, f3⟩
          · rw [f1] at h4; cases h4
          · rw [f1]
            refine ⟨.inr ⟨w, l ++ [(s, false)], rfl, fun u hu => (List.mem_append.1 hu).elim (f3 u) fun hu => ?_⟩, fun h => by cases h⟩
            rw [List.mem_singleton.1 hu]
      obtain ⟨c', t', h1, h2, h3, h4, h5, h6⟩ := ih (n.prog, n.pos) ⟨_, _, _, n, hn, rfl⟩ _ _ rfl
        (.step (.step hc (.set t.skips.isEmpty)) (.step 0 t n ht hn)) (List.getElem?_set_self hlt) hf'
      exact ⟨c', t', h1, by rw [h2]; exact List.set_set .., h3, h4, h5, h6⟩

example (env : Env) (user : Nat → List Field) : ∃ (c : FieldsProg.Config) (t : FieldsProg.Thread) (w : Warn),
    FieldsProg.Reach env user c ∧ c.threads = [t] ∧ t.Over ∧ t.skips = [(w, true), (w, false)] ∧ t.log = [w] := by
  have hl : ∃ w, (Verif.parseNode true skipPara).log = [w, w] := ⟨_, rfl⟩
  obtain ⟨w, hl⟩ := hl
  have r0 : FieldsProg.Reach env user ⟨skip0, ⟨[], []⟩, true, [], []⟩ := .start skip0
  have r1 := FieldsProg.Reach.step r0 (.call 1000 (.parse (.ref 2)) anywhere fun t ht => (List.not_mem_nil ht).elim)
  have hacc := C109_ends (Cls.fields user) env 1000 (.parse (.ref 2))
  generalize hp0 : FieldsProg.Call.prog env 1000 (.parse (.ref 2)) = p0 at r1 hacc
  obtain ⟨c, t, r2, e2, a2, s2, d2, o2, f2⟩ := runs_first env user _ hacc _ ⟨1000, .parse (.ref 2), p0, .start, [], [], [], skip0, anywhere⟩ rfl r1 rfl
    ⟨.inl rfl, fun h => by cases h⟩
  have ht : t ∈ c.threads := by rw [e2]; exact List.mem_singleton.2 rfl
  have hj : Json t.doc t.seen skipPara (.ref 2) := by rw [s2, d2]; exact skip0_para
  have hd : depth skipPara ≤ t.fuel := (show depth skipPara ≤ 1000 by decide).trans_eq (Prod.ext_iff.1 a2).1.symm
  obtain ⟨h1, h2⟩ := C110_parse env user c r2 t ht (.ref 2) (Prod.ext_iff.1 a2).2 skipPara hj hd o2
  rw [hl] at h1
  refine ⟨c, t, w, r2, e2, o2, ?_⟩
  rcases f2.1 with f | ⟨w', l, f, f3⟩
  · rw [f] at h1; cases h1
  · match l, f, f3 with
    | [], f, _ => rw [f] at h1; cases h1
    | [(w2, v)], f, f3 =>
      have hv : v = false := f3 (w2, v) (List.mem_singleton.2 rfl)
      subst hv
      rw [f] at h1 h2
      cases h1
      exact ⟨f, h2⟩
    | _ :: _ :: _, f, _ => rw [f] at h1; cases h1

end Verif.Props
