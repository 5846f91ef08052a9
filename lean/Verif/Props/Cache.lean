import Verif.Model.Cache
/-!
# C12: the field cache is invisible
-/

namespace Verif.Props
open Verif.Cache

variable {C F : Type} [DecidableEq C]

/-- Every cache entry is a dict with the right contents. -/
def CacheOk (fieldsOf : C → F) (m : Mem C F) : Prop := ∀ e ∈ m.cache, m.objs[e.2]? = some (fieldsOf e.1)

theorem get_mem {m : Mem C F} {c : C} {o : Nat} (h : m.get c = some o) : (c, o) ∈ m.cache := by
  unfold Mem.get at h
  obtain ⟨e, he, rfl⟩ := Option.map_eq_some_iff.mp h
  have h1 := List.find?_some he
  have h2 := List.mem_of_find?_eq_some he
  obtain ⟨c', o⟩ := e
  simp only [decide_eq_true_eq] at h1
  subst h1
  exact h2

theorem get_store (fieldsOf : C → F) (m : Mem C F) (c : C) :
    (m.store fieldsOf c).get c = some m.objs.length := by
  simp [Mem.store, Mem.get]

theorem CacheOk.store {fieldsOf : C → F} {m : Mem C F} (h : CacheOk fieldsOf m) (c : C) :
    CacheOk fieldsOf (m.store fieldsOf c) := by
  intro e he
  simp only [Mem.store, List.mem_cons] at he ⊢
  rcases he with rfl | he
  · simp
  · have h1 := h e (List.mem_of_mem_filter he)
    rw [List.getElem?_append_left (by
      by_contra hn
      rw [List.getElem?_eq_none (by omega)] at h1
      cases h1)]
    exact h1

/-- A call is where it can be: its class is cached once line 52 has run, and a result is right. -/
def PcOk (fieldsOf : C → F) (m : Mem C F) : Pc C → Prop
  | .start _ => True
  | .missed _ => True
  | .filled c => (m.get c).isSome = true
  | .done c o => m.objs[o]? = some (fieldsOf c)
  | .raised _ => False

theorem get_isSome_iff (m : Mem C F) (c : C) : (m.get c).isSome = true ↔ ∃ o, (c, o) ∈ m.cache := by
  constructor
  · intro h
    obtain ⟨o, ho⟩ := Option.isSome_iff_exists.mp h
    exact ⟨o, get_mem ho⟩
  · rintro ⟨o, ho⟩
    unfold Mem.get
    rw [Option.isSome_map, List.find?_isSome]
    exact ⟨_, ho, by simp⟩

theorem PcOk.store {fieldsOf : C → F} {m : Mem C F} {p : Pc C} (h : PcOk fieldsOf m p) (c : C) :
    PcOk fieldsOf (m.store fieldsOf c) p := by
  cases p with
  | start => trivial
  | missed => trivial
  | raised => exact h
  | filled c' =>
    simp only [PcOk] at h ⊢
    by_cases e : c' = c
    · subst e; rw [get_store]; rfl
    · rw [get_isSome_iff] at h ⊢
      obtain ⟨o, ho⟩ := h
      exact ⟨o, by simp [Mem.store, ho, e]⟩
  | done c' o =>
    simp only [PcOk, Mem.store] at h ⊢
    rw [List.getElem?_append_left (by
      by_contra hn
      rw [List.getElem?_eq_none (by omega)] at h
      cases h)]
    exact h

def SysOk (fieldsOf : C → F) (s : Sys C F) : Prop :=
  CacheOk fieldsOf s.mem ∧ ∀ p ∈ s.calls, PcOk fieldsOf s.mem p

theorem step_ok {fieldsOf : C → F} {m : Mem C F} {p : Pc C} (hm : CacheOk fieldsOf m)
    (hp : PcOk fieldsOf m p) : CacheOk fieldsOf (step fieldsOf m p).1 ∧
      PcOk fieldsOf (step fieldsOf m p).1 (step fieldsOf m p).2 ∧
      ∀ q, PcOk fieldsOf m q → PcOk fieldsOf (step fieldsOf m p).1 q := by
  cases p with
  | start c =>
    unfold step
    simp only
    cases h : m.get c with
    | none => exact ⟨hm, trivial, fun _ h => h⟩
    | some o => exact ⟨hm, hm _ (get_mem h), fun _ h => h⟩
  | missed c =>
    refine ⟨hm.store c, ?_, fun q hq => hq.store c⟩
    show ((m.store fieldsOf c).get c).isSome = true
    rw [get_store]; rfl
  | filled c =>
    unfold step
    simp only
    simp only [PcOk] at hp
    cases h : m.get c with
    | none => rw [h] at hp; cases hp
    | some o => exact ⟨hm, hm _ (get_mem h), fun _ h => h⟩
  | done c o => exact ⟨hm, hp, fun _ h => h⟩
  | raised c => exact absurd hp id

theorem run_ok {fieldsOf : C → F} {s : Sys C F} (h : SysOk fieldsOf s) (es : List (Event C)) :
    SysOk fieldsOf (run fieldsOf s es) := by
  induction es generalizing s with
  | nil => exact h
  | cons e es ih =>
    cases e with
    | call c =>
      refine ih ⟨h.1, ?_⟩
      intro p hp
      rcases List.mem_append.mp hp with hp | hp
      · exact h.2 p hp
      · rw [List.mem_singleton] at hp; subst hp; trivial
    | move i =>
      unfold run
      cases hi : s.calls[i]? with
      | none => exact ih h
      | some p =>
        have hp : p ∈ s.calls := List.mem_of_getElem? hi
        obtain ⟨h1, h2, h3⟩ := step_ok h.1 (h.2 p hp)
        refine ih ⟨h1, ?_⟩
        intro q hq
        rcases List.mem_or_eq_of_mem_set hq with hq | rfl
        · exact h3 q (h.2 q hq)
        · exact h2

/-- Whatever calls are made, by however many threads, interleaved in whatever way: every call that has
returned gave the field dict of its own class, and none has raised KeyError. -/
theorem C12_every_schedule (fieldsOf : C → F) (es : List (Event C)) :
    (∀ c o, .done c o ∈ (run fieldsOf init es).calls →
      (run fieldsOf init es).mem.objs[o]? = some (fieldsOf c)) ∧
    ∀ c, .raised c ∉ (run fieldsOf init es).calls := by
  have h : SysOk fieldsOf (run fieldsOf init es) :=
    run_ok ⟨fun e he => (by cases he), fun p hp => (by cases hp)⟩ es
  exact ⟨fun c o ho => h.2 _ ho, fun c hc => h.2 _ hc⟩

/-- Every call finishes: whatever has happened before, three steps of its own suffice. -/
theorem C12_finishes (fieldsOf : C → F) (es : List (Event C)) (i : Nat) (p : Pc C)
    (hp : (run fieldsOf init es).calls[i]? = some p) :
    ∃ c o, (run fieldsOf (run fieldsOf init es) [.move i, .move i, .move i]).calls[i]? = some (.done c o) := by
  have h : SysOk fieldsOf (run fieldsOf init es) :=
    run_ok ⟨fun e he => (by cases he), fun p hp => (by cases hp)⟩ es
  generalize run fieldsOf init es = s at h hp
  have hlt : i < s.calls.length := by
    by_contra hn
    rw [List.getElem?_eq_none (by omega)] at hp
    cases hp
  have hok := h.2 p (List.mem_of_getElem? hp)
  have hmove : ∀ (t : Sys C F) (q : Pc C) (es : List (Event C)), t.calls[i]? = some q →
      run fieldsOf t (.move i :: es) =
        run fieldsOf ⟨(step fieldsOf t.mem q).1, t.calls.set i (step fieldsOf t.mem q).2⟩ es := by
    intro t q es ht
    rw [run, ht]
  have hset : ∀ (l : List (Pc C)) (q : Pc C), i < l.length → (l.set i q)[i]? = some q :=
    fun l q h => List.getElem?_set_self h
  rw [hmove s p _ hp, hmove _ _ _ (hset _ _ hlt), hmove _ _ _ (hset _ _ (by simpa using hlt)), run]
  simp only [List.set_set]
  rw [hset _ _ hlt]
  cases p with
  | done c o => exact ⟨c, o, rfl⟩
  | raised c => exact absurd hok id
  | start c =>
    cases hg : s.mem.get c with
    | some o => exact ⟨c, o, by simp [step, hg]⟩
    | none => exact ⟨c, s.mem.objs.length, by simp only [step, hg, get_store]⟩
  | missed c => exact ⟨c, s.mem.objs.length, by simp only [step, get_store]⟩
  | filled c =>
    cases hg : s.mem.get c with
    | some o => exact ⟨c, o, by simp [step, hg]⟩
    | none => rw [PcOk, hg] at hok; cases hok

example := C12_finishes (fun c : Nat => 10 * c) [.call 7, .call 3, .move 0, .move 1] 1 (.missed 3) rfl

/-- A history of uninterrupted calls. -/
def after (fieldsOf : C → F) (m : Mem C F) : List C → Mem C F
  | [] => m
  | c :: cs => after fieldsOf (getFields fieldsOf m c).1 cs

theorem getFields_ok {fieldsOf : C → F} {m : Mem C F} (h : CacheOk fieldsOf m) (c : C) :
    CacheOk fieldsOf (getFields fieldsOf m c).1 ∧ ∃ o, (getFields fieldsOf m c).2 = some o ∧
      (getFields fieldsOf m c).1.objs[o]? = some (fieldsOf c) ∧
      (getFields fieldsOf m c).1.get c = some o := by
  unfold getFields
  cases hg : m.get c with
  | some o => exact ⟨h, o, rfl, h _ (get_mem hg), hg⟩
  | none =>
    refine ⟨h.store c, _, get_store fieldsOf m c, ?_, get_store fieldsOf m c⟩
    simp [Mem.store]

/-- One thread: after any history, `c.get_fields()` returns `c`'s field dict. -/
theorem C12_every_history (fieldsOf : C → F) (cs : List C) (c : C) :
    ∃ o, (getFields fieldsOf (after fieldsOf ⟨[], []⟩ cs) c).2 = some o ∧
      (getFields fieldsOf (after fieldsOf ⟨[], []⟩ cs) c).1.objs[o]? = some (fieldsOf c) := by
  have : ∀ (m : Mem C F), CacheOk fieldsOf m → CacheOk fieldsOf (after fieldsOf m cs) := by
    induction cs with
    | nil => intro m h; exact h
    | cons d cs ih => intro m h; exact ih _ (getFields_ok h d).1
  obtain ⟨_, o, h1, h2, _⟩ := getFields_ok (this ⟨[], []⟩ fun e he => (by cases he)) c
  exact ⟨o, h1, h2⟩

/-- The boundary of the guarantee: the dict handed out is the cached one, so a caller who changes it
changes what later calls on that class return. -/
theorem C12_result_is_the_cache (fieldsOf : C → F) (c : C) (f : F) :
    ∃ o, (getFields fieldsOf ⟨[], []⟩ c).2 = some o ∧
      (getFields fieldsOf ((getFields fieldsOf ⟨[], []⟩ c).1.mutate o f) c).2 = some o ∧
      (getFields fieldsOf ((getFields fieldsOf ⟨[], []⟩ c).1.mutate o f) c).1.objs[o]? = some f := by
  refine ⟨0, ?_, ?_, ?_⟩ <;> simp [getFields, Mem.get, Mem.store, Mem.mutate]

/-! ## Non-vacuity: two threads both miss on class 7, interleaved; both return its fields (as two
different dict objects). -/
example : (run (fun c : Nat => 10 * c) init
    [.call 7, .call 7, .call 3, .move 0, .move 1, .move 0, .move 2, .move 0, .move 1, .move 1]).calls =
    [.done 7 0, .done 7 1, .missed 3] := rfl

example : (run (fun c : Nat => 10 * c) init
    [.call 7, .call 7, .call 3, .move 0, .move 1, .move 0, .move 2, .move 0, .move 1, .move 1]).mem.objs =
    [70, 70] := rfl

end Verif.Props
