import Verif.Props.Parallel
import Verif.Lemmas.FieldsProg
/-!
# C109: threads, and the class-field cache they fill

`FieldsProg.Reach env user c` (`Model/FieldsProg.lean`): as `Threads.Reach`, but `from_dict` asks `cls.get_fields()`, whose reads and writes of
`_CLASS_FIELD` are steps of their own; the cache is empty at first, and other code calls `get_fields`, too.  `user` are the fields of other code's
classes.  The setting `WARN_UNIMPLEMENTED_TYPE` changes at any time (C110); `call.const b` is the call where it is always `b`.
-/

namespace Verif.Props
open Verif Verif.Spec Verif.FieldsProg

/-- The cache cannot be seen: every history of threads with it is a history of threads that have the fields at hand, with the same heap, and
the same calls, which have created the same objects, and returned or raised the same; and no step reads the setting, but for what is logged. -/
theorem C109_unseen (env : Env) (user : Nat → List Field) (c : FieldsProg.Config) (hc : FieldsProg.Reach env user c) (b : Bool) :
    ∃ c' : Threads.Config, Threads.Reach env c' ∧ c'.heap = c.heap ∧
      List.Forall₂ (fun (t : FieldsProg.Thread) (t' : Threads.Thread) => t'.fuel = t.fuel ∧ t'.call = t.call.const b ∧ t'.own = t.own ∧
        t'.log = (if b then t.skips.map (·.1) else []) ∧
        t'.seen = t.seen ∧ t'.doc = t.doc ∧ (∀ r, t.prog = .ret r → t'.prog = .ret r) ∧ ∀ e, t.prog = .fail e → t'.prog = .fail e)
        c.threads c'.threads := by
  refine ⟨c.erase user b, (reach_erase user hc).same b, rfl, ?_⟩
  show List.Forall₂ _ c.threads (c.threads.map _)
  rw [List.forall₂_map_right_iff]
  refine List.forall₂_same.2 fun t _ => ⟨rfl, rfl, rfl, rfl, rfl, rfl, fun r hr => ?_, fun e he => ?_⟩
  · simp only [Thread.erase, hr, FProg.erase]
  · simp only [Thread.erase, he, FProg.erase]

theorem erase_thread {env : Env} {user : Nat → List Field} {c : FieldsProg.Config} (hc : FieldsProg.Reach env user c) (b : Bool) {t : FieldsProg.Thread}
    (ht : t ∈ c.threads) : Threads.Reach env (c.erase user b) ∧ t.erase user b ∈ (c.erase user b).threads :=
  ⟨(reach_erase user hc).same b, List.mem_map.2 ⟨t, ht, rfl⟩⟩

theorem erase_ret {user : Nat → List Field} {t : FieldsProg.Thread} {r : HV} (b : Bool) (h : t.prog = .ret r) : (t.erase user b).prog = .ret r := by
  simp only [Thread.erase, h, FProg.erase]

theorem erase_fail {user : Nat → List Field} {t : FieldsProg.Thread} {e : HErr} (b : Bool) (h : t.prog = .fail e) : (t.erase user b).prog = .fail e := by
  simp only [Thread.erase, h, FProg.erase]

theorem const_arg (b : Bool) (call : FieldsProg.Call) : (call.const b).arg = call.arg := by cases call <;> rfl

/-- So a call in a thread, also if it is among the first of the process and others fill the cache at the same moment, returns what it returns
alone, with the fields at hand. -/
theorem C109_returns (env : Env) (user : Nat → List Field) (c : FieldsProg.Config) (hc : FieldsProg.Reach env user c) (t : FieldsProg.Thread)
    (ht : t ∈ c.threads) (hd : ∀ a, Spec.Reach t.seen t.call.arg a → t.doc a ∧ a < t.seen.length) (b : Bool) (r : HV) (hr : t.prog = .ret r) :
    ∃ r', (callAlone env t.fuel (t.call.const b) t.seen []).1 = .ok r' ∧
      Iso (Spec.Reach t.seen t.call.arg) c.heap r (callAlone env t.fuel (t.call.const b) t.seen []).2.heap r' ∧
      ∀ n, observe n c.heap r = observe n (callAlone env t.fuel (t.call.const b) t.seen []).2.heap r' := by
  obtain ⟨r', h1, _, h2, h3⟩ := C108_returns env _ (erase_thread hc b ht).1 _ (erase_thread hc b ht).2
    (by show ∀ a, Spec.Reach t.seen (t.call.const b).arg a → _; rw [const_arg]; exact hd) r (erase_ret b hr)
  rw [show (t.erase user b).call.arg = t.call.arg from const_arg b t.call] at h2
  exact ⟨r', h1, h2, h3⟩

/-- And raises what it raises alone: never a KeyError of the cache. -/
theorem C109_raises (env : Env) (user : Nat → List Field) (c : FieldsProg.Config) (hc : FieldsProg.Reach env user c) (t : FieldsProg.Thread)
    (ht : t ∈ c.threads) (hd : ∀ a, Spec.Reach t.seen t.call.arg a → t.doc a ∧ a < t.seen.length) (b : Bool) (e : HErr) (he : t.prog = .fail e) :
    (callAlone env t.fuel (t.call.const b) t.seen []).1 = .error e :=
  (C108_raises env _ (erase_thread hc b ht).1 _ (erase_thread hc b ht).2
    (by show ∀ a, Spec.Reach t.seen (t.call.const b).arg a → _; rw [const_arg]; exact hd) e (erase_fail b he)).1

/-- Parsing a JSON value that fits the recursion limit: what the value model says. -/
theorem C109_parse (env : Env) (user : Nat → List Field) (c : FieldsProg.Config) (hc : FieldsProg.Reach env user c) (t : FieldsProg.Thread)
    (ht : t ∈ c.threads) (w : Bool) (v : HV) (hx : t.call = .parse v) (u : Val) (hj : Json t.doc t.seen u v) (hf : depth u ≤ t.fuel) :
    (∀ r, t.prog = .ret r → ∃ n, (Verif.parseNode w u).out = .ok n ∧ IsNode (· ∈ t.own) c.heap n r) ∧
    (∀ e, t.prog = .fail e → ∃ e', e = .py e' ∧ (Verif.parseNode w u).out = .error e') := by
  obtain ⟨h1, h2⟩ := C108_parse env _ (erase_thread hc w ht).1 _ (erase_thread hc w ht).2 w v (by simp only [Thread.erase, hx, FieldsProg.Call.const]) u hj hf
  refine ⟨fun r hr => ?_, fun e he => ?_⟩
  · obtain ⟨n, a, b, _⟩ := h1 r (erase_ret w hr)
    exact ⟨n, a, b⟩
  · obtain ⟨e', a, b, _⟩ := h2 e (erase_fail w he)
    exact ⟨e', a, b⟩

/-- At any time: what `_CLASS_FIELD` holds for a class are its fields; and what other code is given by `get_fields` are the fields of the class it
asked for, never a KeyError. -/
theorem C109_fields (env : Env) (user : Nat → List Field) (c : FieldsProg.Config) (hc : FieldsProg.Reach env user c) :
    (∀ e ∈ c.mem.cache, c.mem.objs[e.2]? = some (e.1.fields user)) ∧
    (∀ k o, .done k o ∈ c.asks → c.mem.objs[o]? = some (k.fields user)) ∧ ∀ k, .raised k ∉ c.asks := by
  obtain ⟨h1, _, h3, _⟩ := reach_erase user hc
  exact ⟨h1, fun k o h => h3 _ h, fun k h => h3 _ h⟩

/-- Steps the next operation still needs at most. -/
def askSteps : At → Nat
  | .start => 3
  | .fields (.start _) => 3
  | .fields (.missed _) => 2
  | .fields (.filled _) => 1
  | .fields (.done _ _) => 1
  | .fields (.raised _) => 1
  | .on => 3

abbrev FollowsF (fieldsOf : Cls → List Field) (q p : FProg HV × At) : Prop :=
  ∃ h m w n, p.1.next fieldsOf h m w p.2 = some n ∧ q = (n.prog, n.pos)

/-- A call makes finitely many steps, whatever happens to the heap, to the cache and to the setting between them. -/
theorem C109_ends (fieldsOf : Cls → List Field) (env : Env) (fuel : Nat) (call : FieldsProg.Call) :
    Acc (FollowsF fieldsOf) (call.prog env fuel, .start) := by
  have key : ∀ (p : FProg HV) (pos : At), Acc (FollowsF fieldsOf) (p, pos) := fun p => by
    induction p with
    | ret a => exact fun pos => ⟨_, fun q ⟨_, _, _, _, h, _⟩ => by cases h⟩
    | fail e => exact fun pos => ⟨_, fun q ⟨_, _, _, _, h, _⟩ => by cases h⟩
    | look a k ih => exact fun pos => ⟨_, fun q ⟨_, _, _, _, h, e⟩ => by cases h; cases e; exact ih _ _⟩
    | make o k ih => exact fun pos => ⟨_, fun q ⟨_, _, _, _, h, e⟩ => by cases h; cases e; exact ih _ _⟩
    | put a o k ih => exact fun pos => ⟨_, fun q ⟨_, _, _, _, h, e⟩ => by cases h; cases e; exact ih _⟩
    | warn ws k ih => exact fun pos => ⟨_, fun q ⟨_, _, _, _, h, e⟩ => by cases h; cases e; exact ih _⟩
    | add a e k ih =>
      refine fun pos => ⟨_, fun q ⟨h, m, _, _, hn, e⟩ => ?_⟩
      simp only [FProg.next] at hn
      cases ho : h[a]? with
      | none => rw [ho] at hn; cases hn; cases e; exact ih _ _
      | some o => rw [ho] at hn; cases hn; cases e; exact ih _ _
    | skipped w k ih =>
      have on : Acc (FollowsF fieldsOf) (FProg.skipped w k, At.on) := ⟨_, fun q ⟨_, _, _, _, h, e⟩ => by cases h; cases e; exact ih _⟩
      have start : ∀ (h : Heap) (m : Mem) (b : Bool) (n : Now HV),
          (if b then some (⟨h, m, .skipped w k, .on, [], [], []⟩ : Now HV) else some ⟨h, m, k, .start, [], [], [(w, false)]⟩) = some n →
          Acc (FollowsF fieldsOf) (n.prog, n.pos) := fun h m b n hn => by
        cases b with
        | true => cases hn; exact on
        | false => cases hn; exact ih _
      intro pos
      cases pos with
      | on => exact on
      | start => exact ⟨_, fun q ⟨h, m, b, n, hn, e⟩ => by cases e; exact start h m b n hn⟩
      | fields pc => exact ⟨_, fun q ⟨h, m, b, n, hn, e⟩ => by cases e; exact start h m b n hn⟩
    | fields c k ih =>
      have fail_acc : ∀ (e : HErr) pos, Acc (FollowsF fieldsOf) (FProg.fail e, pos) := fun e pos => ⟨_, fun q ⟨_, _, _, _, h, _⟩ => by cases h⟩
      -- one step from `pos`: the fields are there, or the call of `get_fields` is further on
      have one : ∀ (pos : At), (∀ pos', askSteps pos' < askSteps pos → Acc (FollowsF fieldsOf) (FProg.fields c k, pos')) →
          Acc (FollowsF fieldsOf) (FProg.fields c k, pos) := fun pos hpos => by
        refine ⟨_, fun q ⟨h, m, b, n, hn, e⟩ => ?_⟩
        cases e
        simp only [FProg.next] at hn
        have over : ∀ (m1 : Mem) (c1 : Cls) (o : Nat), Cache.step fieldsOf m (FProg.pcOf c pos) = (m1, .done c1 o) → Acc (FollowsF fieldsOf) (n.prog, n.pos) := by
          intro m1 c1 o hs
          rw [hs] at hn
          simp only at hn
          cases ho : m1.objs[o]? with
          | none => rw [ho] at hn; cases hn; exact fail_acc _ _
          | some fs => rw [ho] at hn; cases hn; exact ih _ _
        have bad : ∀ (m1 : Mem) (c1 : Cls), Cache.step fieldsOf m (FProg.pcOf c pos) = (m1, .raised c1) → Acc (FollowsF fieldsOf) (n.prog, n.pos) := by
          intro m1 c1 hs
          rw [hs] at hn
          simp only at hn
          cases hn
          exact fail_acc _ _
        have start : ∀ c1, FProg.pcOf c pos = .start c1 → askSteps pos = 3 → Acc (FollowsF fieldsOf) (n.prog, n.pos) := by
          intro c1 hs hr
          cases hg : m.get c1 with
          | some o => exact over m c1 o (by rw [hs]; simp only [Cache.step, hg])
          | none =>
            have h1 : Cache.step fieldsOf m (FProg.pcOf c pos) = (m, .missed c1) := by rw [hs]; simp only [Cache.step, hg]
            rw [h1] at hn
            cases hn
            exact hpos _ (by rw [hr]; exact Nat.lt_succ_self 2)
        cases pos with
        | start => exact start c rfl rfl
        | on => exact start c rfl rfl
        | fields p =>
          cases p with
          | start c1 => exact start c1 rfl rfl
          | missed c1 =>
            have h1 : Cache.step fieldsOf m (FProg.pcOf c (.fields (.missed c1))) = (m.store fieldsOf c1, .filled c1) := rfl
            rw [h1] at hn
            cases hn
            exact hpos _ (Nat.lt_succ_self 1)
          | filled c1 =>
            cases hg : m.get c1 with
            | some o => exact over m c1 o (by show Cache.step fieldsOf m (.filled c1) = _; simp only [Cache.step, hg])
            | none => exact bad m c1 (by show Cache.step fieldsOf m (.filled c1) = _; simp only [Cache.step, hg])
          | done c1 o => exact over m c1 o rfl
          | raised c1 => exact bad m c1 rfl
      have all : ∀ (n : Nat) pos, askSteps pos ≤ n → Acc (FollowsF fieldsOf) (FProg.fields c k, pos) := fun n => by
        induction n with
        | zero => intro pos h; exact one pos fun pos' h' => absurd h' (by omega)
        | succ n ih' => intro pos h; exact one pos fun pos' h' => ih' pos' (by omega)
      exact fun pos => all _ pos (Nat.le_refl _)
  exact key _ _

theorem next_none {fieldsOf : Cls → List Field} {p : FProg HV} {h : Heap} {m : Mem} {w : Bool} {pos : At} (hn : p.next fieldsOf h m w pos = none) :
    (∃ r, p = .ret r) ∨ ∃ e, p = .fail e := by
  cases p with
  | ret a => exact .inl ⟨a, rfl⟩
  | fail e => exact .inr ⟨e, rfl⟩
  | look a k => cases hn
  | make o k => cases hn
  | put a o k => cases hn
  | warn ws k => cases hn
  | add a e k =>
    simp only [FProg.next] at hn
    cases ho : h[a]? with
    | none => rw [ho] at hn; cases hn
    | some o => rw [ho] at hn; cases hn
  | skipped s k =>
    simp only [FProg.next] at hn
    split at hn
    · cases hn
    · split at hn <;> cases hn
  | fields c k =>
    simp only [FProg.next] at hn
    split at hn
    · split at hn <;> cases hn
    · cases hn
    · cases hn

/-! ## Non-vacuity: two threads parse the paragraph of `Props/Heap.lean` with an empty cache; both miss it -/

theorem runs_out_f (env : Env) (user : Nat → List Field) (c : FieldsProg.Config) (hc : FieldsProg.Reach env user c) (i : Nat)
    (t : FieldsProg.Thread) (ht : c.threads[i]? = some t)
    (hacc : Acc (FollowsF (Cls.fields user)) (t.prog, t.pos)) :
    ∃ c' t', FieldsProg.Reach env user c' ∧ c'.threads = c.threads.set i t' ∧ (t'.fuel, t'.call) = (t.fuel, t.call) ∧
      t'.seen = t.seen ∧ t'.doc = t.doc ∧ t'.Over := by
  have key : ∀ (x : FProg HV × At), Acc (FollowsF (Cls.fields user)) x → ∀ (c : FieldsProg.Config) (t : FieldsProg.Thread),
      (t.prog, t.pos) = x → FieldsProg.Reach env user c → c.threads[i]? = some t →
      ∃ c' t', FieldsProg.Reach env user c' ∧ c'.threads = c.threads.set i t' ∧ (t'.fuel, t'.call) = (t.fuel, t.call) ∧
        t'.seen = t.seen ∧ t'.doc = t.doc ∧ t'.Over := by
    intro x hx
    induction hx with
    | intro x _ ih =>
      rintro c t rfl hc ht
      obtain ⟨hlt, hget⟩ := List.getElem?_eq_some_iff.1 ht
      cases hn : t.prog.next (Cls.fields user) c.heap c.mem c.warn t.pos with
      | none => exact ⟨c, t, hc, by rw [← hget, List.set_getElem_self hlt], rfl, rfl, rfl, next_none hn⟩
      | some n =>
        obtain ⟨c', t', h1, h2, h3, h4, h5, h6⟩ := ih (n.prog, n.pos) ⟨_, _, _, n, hn, rfl⟩ _ _ rfl
          (.step hc (.step i t n ht hn)) (List.getElem?_set_self hlt)
        exact ⟨c', t', h1, by rw [h2]; exact List.set_set .., h3, h4, h5, h6⟩
  exact key _ hacc c t rfl hc ht

theorem two_start (env : Env) (user : Nat → List Field) (call : FieldsProg.Call) (h : Heap) : FieldsProg.Reach env user
    ⟨h, ⟨[], []⟩, true, [⟨1000, call, call.prog env 1000, .start, [], [], [], h, anywhere⟩, ⟨1000, call, call.prog env 1000, .start, [], [], [], h, anywhere⟩], []⟩ := by
  have r0 : FieldsProg.Reach env user ⟨h, ⟨[], []⟩, true, [], []⟩ := .start h
  have r1 := FieldsProg.Reach.step r0 (.call 1000 call anywhere fun t ht => (List.not_mem_nil ht).elim)
  exact FieldsProg.Reach.step r1 (.call 1000 call anywhere fun t ht _ a ha => by
    have h1 := List.mem_singleton.1 ht
    rw [h1] at ha
    exact (List.not_mem_nil ha).elim)

example (env : Env) (user : Nat → List Field) : ∃ (c : FieldsProg.Config) (t u : FieldsProg.Thread) (r r' : HV) (n : Node),
    FieldsProg.Reach env user c ∧ c.threads = [t, u] ∧
    t.prog = .ret r ∧ u.prog = .ret r' ∧ IsNode (· ∈ t.own) c.heap n r ∧ IsNode (· ∈ u.own) c.heap n r' ∧ n.toDict = .ok para0 := by
  obtain ⟨_, n, _, hn, _, hv, _⟩ := para0_built
  have r2 := two_start env user (.parse (.ref 2)) heap0
  have hacc := C109_ends (Cls.fields user) env 1000 (.parse (.ref 2))
  generalize hp0 : FieldsProg.Call.prog env 1000 (.parse (.ref 2)) = p0 at r2 hacc
  obtain ⟨c3, t, r3, e3, a3, s3, d3, p3⟩ := runs_out_f env user _ r2 0 ⟨1000, .parse (.ref 2), p0, .start, [], [], [], heap0, anywhere⟩ rfl hacc
  obtain ⟨c4, u, r4, e4, a4, s4, d4, p4⟩ := runs_out_f env user _ r3 1 ⟨1000, .parse (.ref 2), p0, .start, [], [], [], heap0, anywhere⟩ (by rw [e3]; rfl) hacc
  have e5 : c4.threads = [t, u] := by rw [e4, e3]; rfl
  have done : ∀ v ∈ c4.threads, (v.fuel, v.call) = (1000, .parse (.ref 2)) → v.seen = heap0 → v.doc = anywhere →
      v.Over → ∃ r, v.prog = .ret r ∧ IsNode (· ∈ v.own) c4.heap n r := by
    rintro ⟨f, call, p, pos, own, log, skips, seen, doc⟩ hv ha rfl rfl hp
    cases ha
    obtain ⟨h1, h2⟩ := C109_parse env user c4 r4 _ hv true (.ref 2) rfl para0 heap0_para (show depth para0 ≤ 1000 by decide)
    rcases hp with ⟨r', hr⟩ | ⟨e, he⟩
    · obtain ⟨n', hn', hi⟩ := h1 r' hr
      cases hn.symm.trans hn'
      exact ⟨r', hr, hi⟩
    · obtain ⟨e', _, h⟩ := h2 e he
      cases hn.symm.trans h
  obtain ⟨r, b1, b2⟩ := done t (by simp [e5]) a3 s3 d3 p3
  obtain ⟨r', f1, f2⟩ := done u (by simp [e5]) a4 s4 d4 p4
  exact ⟨c4, t, u, r, r', n, r4, e5, b1, f1, b2, f2, hv⟩

end Verif.Props
