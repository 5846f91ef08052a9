import Verif.Model.GenMain
import Verif.Lemmas.FileCache
import Mathlib.Data.List.Induction
/-!
# C72: regenerating api.py

Histories are arbitrary interleavings of any number of runs of `gen_code.main`, any of which can be killed or fail at any
moment.
-/

namespace Verif.Props
open Verif Verif.GenMain
open Verif.Gen (World)
open Verif.FileCache (Bytes writeAt)

/-- Everybody who writes, writes `b`. -/
def Writers (w : World) (encode : Str → Option Bytes) (b : Bytes) (s : Sys) : Prop :=
  ∀ p, (∀ c, (s.procs p = .generated c ∨ s.procs p = .opened c) → Gen.generate w = .ok c) ∧
    ∀ pos rest, s.procs p = .writing pos rest → rest = b.drop pos ∧ pos ≤ b.length

theorem gen_set_self (s : Sys) (p : Nat) (q : Stage) : (s.set p q).procs p = q := by simp [Sys.set]
theorem gen_set_other (s : Sys) {p i : Nat} (q : Stage) (h : i ≠ p) : (s.set p q).procs i = s.procs i := by
  simp [Sys.set, h]

theorem writers_set {w : World} {encode : Str → Option Bytes} {b : Bytes} {s s' : Sys} (h : Writers w encode b s)
    (hs : s'.procs = s.procs) {p : Nat} {q : Stage}
    (h1 : ∀ c, (q = .generated c ∨ q = .opened c) → Gen.generate w = .ok c)
    (h2 : ∀ pos rest, q = .writing pos rest → rest = b.drop pos ∧ pos ≤ b.length) : Writers w encode b (s'.set p q) := by
  intro i
  by_cases hi : i = p
  · subst hi; rw [gen_set_self]; exact ⟨h1, h2⟩
  · rw [gen_set_other _ _ hi, hs]; exact h i

theorem writers_step {w : World} {encode : Str → Option Bytes} {b : Bytes} {s s' : Sys} {e : Event}
    (hb : ∀ c, Gen.generate w = .ok c → ∀ x, encode c = some x → x = b) (h : Writers w encode b s)
    (hst : Step w encode s e s') : Writers w encode b s' := by
  cases hst with
  | generate p hp hg =>
    refine writers_set h rfl ?_ (by rintro _ _ ⟨⟩)
    rintro c (⟨⟨⟩⟩ | h)
    · exact hg
    · simp at h
  | generateFail p hp hg => exact h
  | opens p hp =>
    refine writers_set (s' := { s with file := some [] }) h rfl ?_ (by rintro _ _ ⟨⟩)
    rintro c (h' | ⟨⟨⟩⟩)
    · simp at h'
    · exact (h p).1 _ (.inl hp)
  | openFail p hp => exact writers_set h rfl (by simp) (by simp)
  | encode p hp hc =>
    refine writers_set h rfl (by simp) ?_
    rintro _ _ ⟨⟩
    rw [hb _ ((h p).1 _ (.inr hp)) _ hc]
    simp
  | encodeFail p hp hc => exact writers_set h rfl (by simp) (by simp)
  | write p pos n hp hn =>
    refine writers_set (s' := { s with file := some (writeAt (s.file.getD []) pos _) }) h rfl (by simp) ?_
    rintro _ _ ⟨⟩
    obtain ⟨h1, h2⟩ := (h p).2 _ _ hp
    rw [h1] at hn ⊢
    simp only [List.length_drop] at hn
    exact ⟨by rw [List.drop_drop], by omega⟩
  | writeFail p pos hp => exact writers_set h rfl (by simp) (by simp)
  | returns p pos hp => exact writers_set h rfl (by simp) (by simp)
  | crash p => exact writers_set h rfl (by simp) (by simp)

/-- After process `p` has opened the file, as long as nobody opens it again: the file is part of `b`, and what `p` has
written is there. -/
structure After (w : World) (encode : Str → Option Bytes) (b : Bytes) (p : Nat) (s : Sys) : Prop where
  writers : Writers w encode b s
  file : ∃ a, s.file = some a ∧ Mix a b ∧ (∀ pos rest, s.procs p = .writing pos rest → a.take pos = b.take pos)

theorem take_writeAt {a b : Bytes} {m pos n : Nat} (hp : pos ≤ b.length) (hm : m ≤ b.length) (h : a.take m = b.take m) :
    (writeAt a pos ((b.drop pos).take n)).take m = b.take m := by
  apply List.ext_getElem?
  intro i
  rw [List.getElem?_take, List.getElem?_take]
  split
  · rename_i hi
    have ha : a[i]? = b[i]? := by
      have := congrArg (·[i]?) h
      simpa [List.getElem?_take, hi] using this
    have hal : i < a.length := by
      rw [List.getElem?_eq_getElem (show i < b.length by omega)] at ha
      exact (List.getElem?_eq_some_iff.1 ha).1
    rw [writeAt_get, if_pos hal]
    split
    · exact ha
    · split
      · rename_i h3 h4
        simp only [List.length_take, List.length_drop] at h4
        rw [List.getElem?_take, if_pos (by omega), List.getElem?_drop]
        congr 1; omega
      · exact ha
  · rfl

theorem after_step {w : World} {encode : Str → Option Bytes} {b : Bytes} {p : Nat} {s s' : Sys} {e : Event}
    (hb : ∀ c, Gen.generate w = .ok c → ∀ x, encode c = some x → x = b) (h : After w encode b p s)
    (hst : Step w encode s e s') (hno : ∀ q, e ≠ .opens q) :
    After w encode b p s' ∧ (e = .returns p → s'.file = some b) := by
  refine ⟨⟨writers_step hb h.writers hst, ?_⟩, ?_⟩
  · obtain ⟨a, h1, h2, h3⟩ := h.file
    have other : ∀ q st, (q = p → ∀ pos rest, st ≠ .writing pos rest) →
        ∃ a, (s.set q st).file = some a ∧ Mix a b ∧ (∀ pos rest, (s.set q st).procs p = .writing pos rest → a.take pos = b.take pos) := by
      intro q st hq
      refine ⟨a, h1, h2, fun pos rest hp => ?_⟩
      by_cases hpq : p = q
      · subst hpq; rw [gen_set_self] at hp; exact absurd hp (hq rfl pos rest)
      · rw [gen_set_other _ _ hpq] at hp; exact h3 pos rest hp
    cases hst with
    | generate q hq hg => exact other q _ (by simp)
    | generateFail q hq hg => exact ⟨a, h1, h2, h3⟩
    | opens q hq => exact absurd rfl (hno q)
    | openFail q hq => exact other q _ (by simp)
    | encode q hq hc =>
      refine ⟨a, h1, h2, fun pos rest hp => ?_⟩
      by_cases hpq : p = q
      · subst hpq; rw [gen_set_self] at hp; cases hp; simp
      · rw [gen_set_other _ _ hpq] at hp; exact h3 pos rest hp
    | encodeFail q hq hc => exact other q _ (by simp)
    | write q pos n hq hn =>
      obtain ⟨e1, e2⟩ := (h.writers q).2 _ _ hq
      subst e1
      refine ⟨_, rfl, ?_, fun pos' rest' hp => ?_⟩
      · rw [h1]; exact mix_write h2 e2
      · rw [h1]
        simp only [Option.getD_some]
        simp only [List.length_drop] at hn
        by_cases hpq : p = q
        · subst hpq
          rw [gen_set_self] at hp
          cases hp
          have h4 := h3 _ _ hq
          have hlen : a.take pos = b.take pos := h4
          apply List.ext_getElem?
          intro i
          rw [List.getElem?_take, List.getElem?_take]
          split
          · rename_i hi
            rw [writeAt_get]
            split
            · rename_i hlt
              have ha : a[i]? = b[i]? := by
                have := congrArg (·[i]?) h4
                simpa [List.getElem?_take, hlt] using this
              have hal : i < a.length := by
                rw [List.getElem?_eq_getElem (show i < b.length by omega)] at ha
                exact (List.getElem?_eq_some_iff.1 ha).1
              rw [if_pos hal]; exact ha
            · rename_i hge
              rw [if_pos (by simp only [List.length_take, List.length_drop]; omega), List.getElem?_take, if_pos (by omega),
                List.getElem?_drop]
              congr 1; omega
          · rfl
        · rw [gen_set_other _ _ hpq] at hp
          exact take_writeAt e2 ((h.writers p).2 _ _ hp).2 (h3 _ _ hp)
    | writeFail q pos hq => exact other q _ (by simp)
    | returns q pos hq => exact other q _ (by simp)
    | crash q => exact other q _ (by simp)
  · intro he
    subst he
    cases hst with
    | returns _ pos hp =>
      obtain ⟨a, h1, h2, h3⟩ := h.file
      obtain ⟨e1, e2⟩ := (h.writers p).2 _ _ hp
      have h4 := h3 _ _ hp
      have hpos : pos = b.length := by
        have := congrArg List.length e1
        simp at this
        omega
      subst hpos
      simp only [List.take_length] at h4
      have : a = b := by
        rw [← h4]
        rw [List.take_of_length_le h2.1]
      rw [← this]; exact h1

theorem writers_exec {w : World} {encode : Str → Option Bytes} {b : Bytes} {s₀ s : Sys} {tr : List Event}
    (hb : ∀ c, Gen.generate w = .ok c → ∀ x, encode c = some x → x = b) (h : Writers w encode b s₀)
    (hex : Exec w encode s₀ tr s) : Writers w encode b s := by
  induction hex with
  | nil => exact h
  | snoc _ hst ih => exact writers_step hb ih hst

/-- The part of a history after the last time the file was opened. -/
theorem after_exec {w : World} {encode : Str → Option Bytes} {b : Bytes} {p : Nat} {s₀ s : Sys} {tr : List Event}
    (hb : ∀ c, Gen.generate w = .ok c → ∀ x, encode c = some x → x = b) (h : After w encode b p s₀)
    (hex : Exec w encode s₀ tr s) (hno : ∀ q, .opens q ∉ tr) :
    After w encode b p s ∧ (s₀.file = some b ∨ .returns p ∈ tr → s.file = some b) := by
  induction hex with
  | nil => exact ⟨h, by simp⟩
  | @snoc tr s1 s2 e _ hst ih =>
    obtain ⟨i1, i2⟩ := ih (fun q hq => hno q (by simp [hq]))
    have hne : ∀ q, e ≠ .opens q := fun q hq => hno q (by simp [hq])
    obtain ⟨j1, j2⟩ := after_step hb i1 hst hne
    refine ⟨j1, ?_⟩
    have stays : s1.file = some b → s2.file = some b := by
      intro hf
      cases hst with
      | opens q hq => exact absurd rfl (hne q)
      | write q pos n hq hn =>
        obtain ⟨e1, e2⟩ := (i1.writers q).2 _ _ hq
        subst e1
        simp only [List.length_drop] at hn
        have := take_writeAt (a := b) (n := n) e2 (Nat.le_refl _) rfl
        simp only [List.take_length] at this
        rw [List.take_of_length_le (by rw [writeAt_length]; simp; omega)] at this
        simp only [Sys.set, hf, Option.getD_some, this]
      | _ => exact hf
    rintro (hf | hr)
    · exact stays (i2 (.inl hf))
    · simp only [List.mem_append, List.mem_singleton] at hr
      rcases hr with hr | hr
      · exact stays (i2 (.inr hr))
      · exact j2 hr.symm

theorem exec_append {w : World} {encode : Str → Option Bytes} {s₀ s : Sys} {tr tr' : List Event}
    (hex : Exec w encode s₀ (tr ++ tr') s) : ∃ s1, Exec w encode s₀ tr s1 ∧ Exec w encode s1 tr' s := by
  induction tr' using List.reverseRecOn generalizing s with
  | nil => exact ⟨s, by simpa using hex, .nil⟩
  | append_singleton l e ih =>
    rw [← List.append_assoc] at hex
    generalize htt : tr ++ l ++ [e] = t at hex
    cases hex with
    | nil => simp at htt
    | snoc h hst =>
      have := List.append_inj_left' htt (by simp)
      have e2 := List.append_inj_right' htt (by simp)
      subst this
      simp only [List.cons.injEq, and_true] at e2
      subst e2
      obtain ⟨s1, h1, h2⟩ := ih h
      exact ⟨s1, h1, h2.snoc hst⟩

/-- C72: whatever was in api.py, whoever else runs the generator, whoever was or is killed or fails: once the run that
opened api.py last has returned, api.py is what the generator generates, and stays so until it is opened again. -/
theorem C72_last (w : World) (encode : Str → Option Bytes) (c : Str) (b : Bytes) (hg : Gen.generate w = .ok c)
    (hc : encode c = some b) (old : Option Bytes) (tr tr' : List Event) (p : Nat) (s : Sys)
    (hex : Exec w encode (Sys.start old) (tr ++ .opens p :: tr') s) (hno : ∀ q, .opens q ∉ tr') (hr : .returns p ∈ tr') :
    s.file = some b := by
  have hb : ∀ c, Gen.generate w = .ok c → ∀ x, encode c = some x → x = b := by
    intro c' h1 x h2
    rw [hg] at h1
    cases h1
    rw [hc] at h2
    exact (Option.some.inj h2).symm
  rw [show tr ++ .opens p :: tr' = tr ++ [.opens p] ++ tr' by simp] at hex
  obtain ⟨s1, h1, h2⟩ := exec_append hex
  have hw0 : Writers w encode b (Sys.start old) := by intro q; simp [Sys.start]
  refine (after_exec hb ?_ h2 hno).2 (.inr hr)
  refine ⟨writers_exec hb hw0 h1, ?_⟩
  generalize htt : tr ++ [.opens p] = t at h1
  cases h1 with
  | nil => simp at htt
  | snoc h hst =>
    have e2 := List.append_inj_right' htt (by simp)
    simp only [List.cons.injEq, and_true] at e2
    subst e2
    cases hst with
    | opens _ hp => exact ⟨[], rfl, mix_nil b, by rw [gen_set_self]; simp⟩

/-- C72: api.py changes only after it was opened. -/
theorem C72_untouched (w : World) (encode : Str → Option Bytes) (old : Option Bytes) (tr : List Event) (s : Sys)
    (hex : Exec w encode (Sys.start old) tr s) (hno : ∀ q, .opens q ∉ tr) : s.file = old := by
  suffices h1 : s.file = old ∧ ∀ q, s.procs q = .idle ∨ ∃ c, s.procs q = .generated c from h1.1
  induction hex with
  | nil => exact ⟨rfl, fun q => .inl rfl⟩
  | @snoc tr s1 s2 e _ hst ih =>
    obtain ⟨i1, i2⟩ := ih (fun q hq => hno q (by simp [hq]))
    have set : ∀ p st, (st = .idle ∨ ∃ c, st = .generated c) →
        (s1.set p st).file = old ∧ ∀ q, (s1.set p st).procs q = .idle ∨ ∃ c, (s1.set p st).procs q = .generated c := by
      intro p st hst
      refine ⟨i1, fun q => ?_⟩
      by_cases hq : q = p
      · subst hq; rw [gen_set_self]; exact hst
      · rw [gen_set_other _ _ hq]; exact i2 q
    cases hst with
    | generate p hp hg => exact set p _ (.inr ⟨_, rfl⟩)
    | generateFail p hp hg => exact ⟨i1, i2⟩
    | opens p hp => exact absurd (by simp) (hno p)
    | openFail p hp => exact set p _ (.inl rfl)
    | encode p hp hc => have := i2 p; rw [hp] at this; simp at this
    | encodeFail p hp hc => exact set p _ (.inl rfl)
    | write p pos n hp hn => have := i2 p; rw [hp] at this; simp at this
    | writeFail p pos hp => exact set p _ (.inl rfl)
    | returns p pos hp => exact set p _ (.inl rfl)
    | crash p => exact set p _ (.inl rfl)

/-- C72: a generator that fails (an exception other than ImportError while importing, an unknown module) raises and
never opens api.py, so it is as it was. -/
theorem C72_failed (w : World) (encode : Str → Option Bytes) (old : Option Bytes) (e : PyErr) (hg : Gen.generate w = .error e)
    (tr : List Event) (s : Sys) (hex : Exec w encode (Sys.start old) tr s) :
    s.file = old ∧ (∀ q, .opens q ∉ tr) ∧ ∀ q, .returns q ∉ tr := by
  suffices h1 : (∀ q, .opens q ∉ tr) ∧ (∀ q, .returns q ∉ tr) ∧ ∀ q, s.procs q = .idle from
    ⟨C72_untouched w encode old tr s hex h1.1, h1.1, h1.2.1⟩
  induction hex with
  | nil => exact ⟨by simp, by simp, fun q => rfl⟩
  | @snoc tr s1 s2 e' _ hst ih =>
    obtain ⟨i1, i2, i3⟩ := ih
    cases hst with
    | generate p hp hg' => rw [hg] at hg'; simp at hg'
    | generateFail p hp hg' => exact ⟨by simpa using i1, by simpa using i2, i3⟩
    | opens p hp => rw [i3 p] at hp; simp at hp
    | openFail p hp => rw [i3 p] at hp; simp at hp
    | encode p hp hc => rw [i3 p] at hp; simp at hp
    | encodeFail p hp hc => rw [i3 p] at hp; simp at hp
    | write p pos n hp hn => rw [i3 p] at hp; simp at hp
    | writeFail p pos hp => rw [i3 p] at hp; simp at hp
    | returns p pos hp => rw [i3 p] at hp; simp at hp
    | crash p =>
      refine ⟨by simpa using i1, by simpa using i2, fun q => ?_⟩
      by_cases hq : q = p
      · subst hq; rw [gen_set_self]
      · rw [gen_set_other _ _ hq]; exact i3 q

/-- C72: a crash does no lasting harm: whatever happened before, whoever is not in the middle of `main` can run it, and api.py
is then what the generator generates. -/
theorem C72_recovers (w : World) (encode : Str → Option Bytes) (c : Str) (b : Bytes) (hg : Gen.generate w = .ok c)
    (hc : encode c = some b) (s : Sys) (p : Nat) (hp : s.procs p = .idle) :
    ∃ s', Exec w encode s [.silent p, .opens p, .silent p, .silent p, .returns p] s' ∧ s'.file = some b := by
  have e1 := (Exec.nil (w := w) (encode := encode) (s₀ := s)).snoc (.generate p hp hg)
  have e2 := e1.snoc (.opens p (gen_set_self _ _ _))
  have e3 := e2.snoc (.encode p (gen_set_self _ _ _) hc)
  have e4 := e3.snoc (.write p 0 b.length (gen_set_self _ _ _) (Nat.le_refl _))
  rw [List.drop_length, List.take_length] at e4
  have e5 := e4.snoc (.returns p _ (gen_set_self _ _ _))
  exact ⟨_, e5, by simp [Sys.set, writeAt]⟩

/-- A history as in `C72_last`: one run is killed in the middle, another opens the file after it. -/
example (w : World) (c : Str) (b : Bytes) (encode : Str → Option Bytes) (hg : Gen.generate w = .ok c)
    (hc : encode c = some b) : ∃ tr tr' s, Exec w encode (Sys.start Option.none) (tr ++ .opens 1 :: tr') s ∧
      (∀ q, .opens q ∉ tr') ∧ .returns 1 ∈ tr' ∧ .opens 0 ∈ tr ∧ .crash 0 ∈ tr' := by
  have e0 : Exec w encode (Sys.start Option.none) [] (Sys.start Option.none) := .nil
  have e1 := e0.snoc (.generate 0 rfl hg)
  have e2 := e1.snoc (.opens 0 (gen_set_self _ _ _))
  have e3 := e2.snoc (.generate 1 rfl hg)
  have e4 := e3.snoc (.opens 1 (gen_set_self _ _ _))
  have e5 := e4.snoc (.encode 1 (gen_set_self _ _ _) hc)
  have e6 := e5.snoc (.write 1 0 b.length (gen_set_self _ _ _) (Nat.le_refl _))
  rw [List.drop_length, List.take_length] at e6
  have e7 := e6.snoc (.crash 0)
  have e8 := e7.snoc (.returns 1 (0 + b.length) rfl)
  exact ⟨[.silent 0, .opens 0, .silent 1], [.silent 1, .silent 1, .crash 0, .returns 1], _, e8, by simp, by simp, by simp, by simp⟩

/-- A world whose generator succeeds, and an encoding. -/
def okWorld : World := ⟨[], [], [], fun _ => .importError⟩

def encode0 (s : Str) : Option Bytes := some (String.utf8EncodeChar 'x' ++ s.map fun _ => 0)

theorem okWorld_ok : ∃ c, Gen.generate okWorld = .ok c := by
  simp [Gen.generate, Gen.scanDir, Gen.scanFiles, okWorld, Gen.globbed, Gen.group, Gen.renderGroups]

example : ∃ c b s', Gen.generate okWorld = .ok c ∧ encode0 c = some b ∧
    Exec okWorld encode0 (Sys.start none) [.silent 3, .opens 3, .silent 3, .silent 3, .returns 3] s' ∧ s'.file = some b := by
  obtain ⟨c, hc⟩ := okWorld_ok
  obtain ⟨s', h⟩ := C72_recovers okWorld encode0 c _ hc rfl (Sys.start none) 3 rfl
  exact ⟨c, _, s', hc, rfl, h⟩

/-- A run that is killed before it opens the file. -/
example : ∃ tr s, tr.length = 2 ∧ Exec okWorld encode0 (Sys.start (some [1])) tr s ∧ s.file = some [1] := by
  obtain ⟨c, hc⟩ := okWorld_ok
  have e1 := (Exec.nil (w := okWorld) (encode := encode0) (s₀ := Sys.start (some [1]))).snoc (.generate 0 rfl hc)
  have e2 := e1.snoc (.crash 0)
  exact ⟨_, _, rfl, e2, C72_untouched _ _ _ _ _ e2 (by simp)⟩

/-- A world in which importing a module raises something other than ImportError. -/
def badWorld : World := ⟨[], ["mark_em.py".toList], [], fun _ => .raises .typeError⟩

example : ∃ e tr s, Gen.generate badWorld = .error e ∧ tr.length = 2 ∧
    Exec badWorld encode0 (Sys.start (some [1])) tr s ∧ s.file = some [1] := by
  have hg : Gen.generate badWorld = .error .typeError := by
    have hb : Gen.globbed "mark_".toList ["mark_em.py".toList] = ["mark_em.py".toList] := by decide
    unfold Gen.generate Gen.scanDir badWorld
    simp only [hb, List.mergeSort_singleton]
    simp [Gen.scanFiles, Gen.scanModule]
  have e1 := (Exec.nil (w := badWorld) (encode := encode0) (s₀ := Sys.start (some [1]))).snoc (.generateFail 0 rfl hg)
  have e2 := e1.snoc (.crash 0)
  exact ⟨_, _, _, hg, rfl, e2, (C72_failed _ _ _ _ hg _ _ e2).1⟩

end Verif.Props
