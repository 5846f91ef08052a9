import Verif.Spec.Timestamp
import Verif.Lemmas.Chars
import Verif.Model.Date
import Mathlib.Data.List.Induction
/-!
# `int(timestamp)` against its specification
-/

namespace Verif
open Spec

theorem digit_iff (env : Env) (c : Char) (d : Nat) : Date.digitOf env c = some d ↔ Digit env c d := by
  have e0 : '0'.toNat = 48 := rfl
  have e9 : '9'.toNat = 57 := rfl
  unfold Date.digitOf Str.asciiDigit Digit
  by_cases h : '0'.toNat ≤ c.toNat ∧ c.toNat ≤ '9'.toNat
  · rw [if_pos h]
    rw [e0, e9] at *
    simp only [Option.some.injEq]
    constructor
    · rintro rfl; exact .inl ⟨h.1, h.2, rfl⟩
    · rintro (⟨_, _, rfl⟩ | ⟨h1, _⟩)
      · rfl
      · omega
  · rw [if_neg h]
    rw [e0, e9] at *
    constructor
    · intro h1
      right
      dsimp only at h1
      split at h1
      · next h2 => exact ⟨h2.1, (isSpace_eq c).symm.trans h2.2, h1⟩
      · cases h1
    · rintro (⟨h1, h2, _⟩ | ⟨h1, h2, h3⟩)
      · omega
      · dsimp only
        rw [if_pos ⟨h1, (isSpace_eq c).trans h2⟩, h3]

/-- A digit is no blank, sign or underscore. -/
theorem Spec.Digit.facts {env : Env} {c : Char} {d : Nat} (h : Digit env c d) :
    Str.intSpace c = false ∧ c ≠ '_' ∧ c ≠ '-' ∧ c ≠ '+' := by
  have e0 : '0'.toNat = 48 := rfl
  have e9 : '9'.toNat = 57 := rfl
  have e1 : '_'.toNat = 95 := rfl
  have e2 : '-'.toNat = 45 := rfl
  have e3 : '+'.toNat = 43 := rfl
  rcases h with ⟨h1, h2, -⟩ | ⟨h1, h2, -⟩
  · rw [e0] at h1; rw [e9] at h2
    refine ⟨?_, ?_, ?_, ?_⟩
    · unfold Str.intSpace Str.isSpace
      simp only [Bool.and_eq_false_iff, Bool.or_eq_false_iff, Bool.not_eq_false', Bool.and_eq_true,
        decide_eq_false_iff_not, beq_eq_false_iff_ne, decide_eq_true_eq]
      omega
    all_goals rintro rfl; omega
  · refine ⟨by unfold Str.intSpace; rw [isSpace_eq, h2]; rfl, ?_, ?_, ?_⟩
    all_goals rintro rfl; omega

/-- The digit loop as a run of a machine: the number so far, and whether the last character was a
digit. -/
def stepsD (digit : Char → Option Nat) : Nat → Bool → Str → Option (Nat × Bool)
  | a, b, [] => some (a, b)
  | a, b, c :: cs =>
      if c = '_' then (if b then stepsD digit a false cs else none)
      else match digit c with
        | some d => stepsD digit (a * 10 + d) true cs
        | none => none

theorem parseDigits_steps (digit : Char → Option Nat) (s : Str) (a : Nat) (b : Bool) (n : Nat) :
    Str.parseDigits digit a b s = some n ↔ stepsD digit a b s = some (n, true) := by
  induction s generalizing a b with
  | nil => cases b <;> simp [Str.parseDigits, stepsD]
  | cons c cs ih =>
    rw [Str.parseDigits, stepsD]
    split
    · cases b <;> simp [ih]
    · cases digit c with
      | none => simp
      | some d => simp [ih]

theorem stepsD_snoc (digit : Char → Option Nat) (s : Str) (c : Char) (a : Nat) (b : Bool) :
    stepsD digit a b (s ++ [c]) = (stepsD digit a b s).bind fun p => stepsD digit p.1 p.2 [c] := by
  induction s generalizing a b with
  | nil => rfl
  | cons x xs ih =>
    rw [List.cons_append, stepsD, stepsD]
    split
    · cases b <;> simp [ih]
    · cases digit x with
      | none => rfl
      | some d => simp [ih]

theorem numeral_iff (env : Env) (s : Str) :
    (∀ n, stepsD (Date.digitOf env) 0 false s = some (n, true) ↔ Numeral env s n) ∧
    (∀ n, stepsD (Date.digitOf env) 0 false s = some (n, false) ↔
      (s = [] ∧ n = 0) ∨ ∃ s', s = s' ++ ['_'] ∧ Numeral env s' n) := by
  induction s using List.reverseRecOn with
  | nil =>
    constructor
    · intro n
      simp only [stepsD, Option.some.injEq, Prod.mk.injEq, Bool.false_eq_true, and_false, false_iff]
      intro h
      generalize hs : ([] : Str) = s at h
      cases h <;> simp at hs
    · intro n
      simp only [stepsD, Option.some.injEq, Prod.mk.injEq, and_true, true_and]
      constructor
      · rintro rfl; exact .inl rfl
      · rintro (rfl | ⟨s', h, _⟩)
        · rfl
        · simp at h
  | append_singleton s c ih =>
    obtain ⟨ih1, ih2⟩ := ih
    have nonnil : ∀ s n, Numeral env s n → s ≠ [] := by
      intro s n h; cases h <;> simp
    constructor
    · intro n
      rw [stepsD_snoc]
      constructor
      · intro h
        cases hp : stepsD (Date.digitOf env) 0 false s with
        | none => rw [hp] at h; cases h
        | some p =>
          obtain ⟨m, b⟩ := p
          rw [hp, Option.bind_some, stepsD] at h
          split at h
          · cases b <;> simp [stepsD] at h
          · next hc =>
            cases hd : Date.digitOf env c with
            | none => rw [hd] at h; cases h
            | some d =>
              rw [hd] at h
              simp only [stepsD, Option.some.injEq, Prod.mk.injEq, and_true] at h
              have hd' := (digit_iff env c d).mp hd
              have e : n = 10 * m + d := by omega
              subst e
              cases b with
              | true => exact .next _ _ _ _ ((ih1 m).mp hp) hd'
              | false =>
                rcases (ih2 m).mp hp with ⟨rfl, rfl⟩ | ⟨s', rfl, h'⟩
                · simpa using Numeral.one c d hd'
                · have := Numeral.under s' m c d h' hd'
                  simpa using this
      · intro h
        generalize hs : s ++ [c] = t at h
        cases h with
        | one c' d hd =>
          obtain ⟨rfl, hc⟩ := List.append_inj' (show s ++ [c] = [] ++ [c'] from hs) rfl
          obtain rfl := (List.cons.inj hc).1
          rw [stepsD, Option.bind_some, stepsD, if_neg hd.facts.2.1, (digit_iff env c n).mpr hd]
          simp [stepsD]
        | next s' m c' d h' hd =>
          obtain ⟨rfl, hc⟩ := List.append_inj' hs rfl
          obtain rfl := (List.cons.inj hc).1
          rw [(ih1 m).mpr h', Option.bind_some, stepsD, if_neg hd.facts.2.1, (digit_iff env c d).mpr hd]
          simp [stepsD, Nat.mul_comm]
        | under s' m c' d h' hd =>
          have hs' : s ++ [c] = (s' ++ ['_']) ++ [c'] := by rw [hs]; simp
          obtain ⟨rfl, hc⟩ := List.append_inj' hs' rfl
          obtain rfl := (List.cons.inj hc).1
          rw [(ih2 m).mpr (.inr ⟨s', rfl, h'⟩), Option.bind_some, stepsD, if_neg hd.facts.2.1,
            (digit_iff env c d).mpr hd]
          simp [stepsD, Nat.mul_comm]
    · intro n
      rw [stepsD_snoc]
      constructor
      · intro h
        cases hp : stepsD (Date.digitOf env) 0 false s with
        | none => rw [hp] at h; cases h
        | some p =>
          obtain ⟨m, b⟩ := p
          rw [hp, Option.bind_some, stepsD] at h
          split at h
          · next hc =>
            subst hc
            cases b with
            | false => simp at h
            | true =>
              simp only [if_true, stepsD, Option.some.injEq, Prod.mk.injEq, and_true] at h
              subst h
              exact .inr ⟨s, rfl, (ih1 m).mp hp⟩
          · cases hd : Date.digitOf env c with
            | none => rw [hd] at h; cases h
            | some d => rw [hd] at h; simp [stepsD] at h
      · rintro (⟨h, _⟩ | ⟨s', h, h'⟩)
        · simp at h
        · obtain ⟨rfl, hc⟩ := List.append_inj' h rfl
          obtain rfl := (List.cons.inj hc).1
          rw [(ih1 n).mpr h', Option.bind_some]
          simp [stepsD]

theorem parseDigits_iff (env : Env) (s : Str) (n : Nat) :
    Str.parseDigits (Date.digitOf env) 0 false s = some n ↔ Numeral env s n :=
  (parseDigits_steps _ _ _ _ _).trans ((numeral_iff env s).1 n)

/-- The first and the last character of a numeral are digits. -/
theorem Spec.Numeral.ends {env : Env} {s : Str} {n : Nat} (h : Numeral env s n) :
    (∃ c cs, s = c :: cs ∧ ∃ d, Digit env c d) ∧ (∃ cs c, s = cs ++ [c] ∧ ∃ d, Digit env c d) := by
  induction h with
  | one c d h => exact ⟨⟨c, [], rfl, d, h⟩, ⟨[], c, rfl, d, h⟩⟩
  | next s n c d _ h ih =>
    obtain ⟨⟨x, xs, rfl, hx⟩, -⟩ := ih
    exact ⟨⟨x, xs ++ [c], rfl, hx⟩, ⟨_, c, rfl, d, h⟩⟩
  | under s n c d _ h ih =>
    obtain ⟨⟨x, xs, rfl, hx⟩, -⟩ := ih
    exact ⟨⟨x, xs ++ ['_', c], rfl, hx⟩, ⟨x :: xs ++ ['_'], c, by simp, d, h⟩⟩

theorem Spec.IntText.ends {env : Env} {s : Str} {t : Int} (h : IntText env s t) :
    (∃ c cs, s = c :: cs ∧ Str.intSpace c = false) ∧
    (∃ cs c, s = cs ++ [c] ∧ Str.intSpace c = false) := by
  cases h with
  | plain s n h =>
    obtain ⟨⟨c, cs, rfl, d, h1⟩, ⟨cs', c', h3, d', h2⟩⟩ := h.ends
    exact ⟨⟨c, cs, rfl, h1.facts.1⟩, ⟨cs', c', h3, h2.facts.1⟩⟩
  | plus s n h =>
    obtain ⟨-, ⟨cs', c', h3, d', h2⟩⟩ := h.ends
    exact ⟨⟨_, _, rfl, rfl⟩, ⟨'+' :: cs', c', by simp [h3], h2.facts.1⟩⟩
  | minus s n h =>
    obtain ⟨-, ⟨cs', c', h3, d', h2⟩⟩ := h.ends
    exact ⟨⟨_, _, rfl, rfl⟩, ⟨'-' :: cs', c', by simp [h3], h2.facts.1⟩⟩

theorem blank_iff (s : Str) : Blank s ↔ ∀ c ∈ s, Str.intSpace c = true := by
  unfold Blank
  refine forall_congr' fun c => forall_congr' fun _ => ?_
  unfold Str.intSpace
  rw [isSpace_eq]
  simp only [Bool.and_eq_true, Bool.not_eq_true', Bool.and_eq_false_iff, decide_eq_false_iff_not,
    and_congr_right_iff]
  intro _; omega

theorem dropWhile_blank (p : Char → Bool) (pre s : Str) (hp : ∀ c ∈ pre, p c = true)
    (hs : ∀ c cs, s = c :: cs → p c = false) : (pre ++ s).dropWhile p = s := by
  induction pre with
  | nil =>
    cases s with
    | nil => rfl
    | cons c cs => rw [List.nil_append, List.dropWhile_cons, hs c cs rfl]; rfl
  | cons x xs ih =>
    rw [List.cons_append, List.dropWhile_cons, hp x (by simp), if_pos rfl]
    exact ih fun c hc => hp c (by simp [hc])

theorem intStrip_ends (pre s post : Str) (hpre : Blank pre) (hpost : Blank post)
    (h1 : ∃ c cs, s = c :: cs ∧ Str.intSpace c = false)
    (h2 : ∃ cs c, s = cs ++ [c] ∧ Str.intSpace c = false) : Str.intStrip (pre ++ s ++ post) = s := by
  rw [blank_iff] at hpre hpost
  unfold Str.intStrip
  rw [List.append_assoc, dropWhile_blank _ pre (s ++ post) hpre, List.reverse_append,
    dropWhile_blank _ post.reverse s.reverse (by simpa using hpost), List.reverse_reverse]
  · obtain ⟨cs, c, rfl, h⟩ := h2
    intro x xs he
    simp at he
    rw [← he.1]; exact h
  · obtain ⟨c, cs, rfl, h⟩ := h1
    intro x xs he
    simp at he
    rw [← he.1]; exact h

theorem mem_takeWhile_p (p : Char → Bool) (s : Str) (c : Char) (h : c ∈ s.takeWhile p) : p c = true := by
  induction s with
  | nil => simp at h
  | cons x xs ih =>
    rw [List.takeWhile_cons] at h
    split at h
    · next hx =>
      rcases List.mem_cons.mp h with rfl | h
      · exact hx
      · exact ih h
    · simp at h

theorem intStrip_split (s : Str) : ∃ pre post, s = pre ++ Str.intStrip s ++ post ∧ Blank pre ∧
    Blank post := by
  refine ⟨s.takeWhile Str.intSpace, ((s.dropWhile Str.intSpace).reverse.takeWhile Str.intSpace).reverse,
    ?_, ?_, ?_⟩
  · unfold Str.intStrip
    rw [List.append_assoc, ← List.reverse_append, List.takeWhile_append_dropWhile, List.reverse_reverse,
      List.takeWhile_append_dropWhile]
  · rw [blank_iff]; intro c hc; exact mem_takeWhile_p _ _ _ hc
  · rw [blank_iff]; intro c hc; exact mem_takeWhile_p _ _ _ (List.mem_reverse.mp hc)

theorem parseInt_iff (env : Env) (s : Str) (t : Int) :
    Str.parseInt (Date.digitOf env) s = some t ↔ IntText env (Str.intStrip s) t := by
  unfold Str.parseInt
  generalize Str.intStrip s = b
  split
  · next cs =>
    constructor
    · intro h
      obtain ⟨n, hn, rfl⟩ := Option.map_eq_some_iff.mp h
      exact .minus _ _ ((parseDigits_iff env cs n).mp hn)
    · intro h
      generalize hb : '-' :: cs = b at h
      cases h with
      | plain s n h =>
        obtain ⟨⟨c, cs', rfl, d, hd⟩, -⟩ := h.ends
        exact absurd (List.cons.inj hb).1.symm hd.facts.2.2.1
      | plus s n h => exact absurd (List.cons.inj hb).1 (by decide)
      | minus s n h =>
        obtain rfl := (List.cons.inj hb).2
        rw [(parseDigits_iff env cs n).mpr h]; rfl
  · next cs =>
    constructor
    · intro h
      obtain ⟨n, hn, rfl⟩ := Option.map_eq_some_iff.mp h
      exact .plus _ _ ((parseDigits_iff env cs n).mp hn)
    · intro h
      generalize hb : '+' :: cs = b at h
      cases h with
      | plain s n h =>
        obtain ⟨⟨c, cs', rfl, d, hd⟩, -⟩ := h.ends
        exact absurd (List.cons.inj hb).1.symm hd.facts.2.2.2
      | minus s n h => exact absurd (List.cons.inj hb).1 (by decide)
      | plus s n h =>
        obtain rfl := (List.cons.inj hb).2
        rw [(parseDigits_iff env cs n).mpr h]; rfl
  · next h1 h2 =>
    constructor
    · intro h
      obtain ⟨n, hn, rfl⟩ := Option.map_eq_some_iff.mp h
      exact .plain _ _ ((parseDigits_iff env b n).mp hn)
    · intro h
      cases h with
      | plain s n h => rw [(parseDigits_iff env b n).mpr h]; rfl
      | plus s n h => exact absurd rfl (h2 _)
      | minus s n h => exact absurd rfl (h1 _)

theorem toInt_iff (env : Env) (v : Val) (t : Int) :
    Date.toInt env v = .ok t ↔ Timestamp env v t := by
  constructor
  · intro h
    unfold Date.toInt at h
    split at h
    · cases h; exact .int _
    · next b => cases b <;> cases h <;> constructor
    · exact .float _ _ h
    · next s =>
      split at h
      · next n hn =>
        cases h
        obtain ⟨pre, post, e, h1, h2⟩ := intStrip_split s
        rw [e]
        exact .str _ _ _ _ h1 ((parseInt_iff env s t).mp hn) h2
      · cases h
    · cases h
  · intro h
    cases h with
    | int => rfl
    | true => rfl
    | false => rfl
    | float r t h => exact h
    | str pre s post t h1 h h2 =>
      have hs := intStrip_ends pre s post h1 h2 h.ends.1 h.ends.2
      unfold Date.toInt
      dsimp only
      rw [(parseInt_iff env _ t).mpr (by rw [hs]; exact h)]

/-- A string of ASCII digits denotes its decimal value. -/
theorem numeral_ascii (env : Env) (ds : Str) (hne : ds ≠ [])
    (hd : ∀ c ∈ ds, '0'.toNat ≤ c.toNat ∧ c.toNat ≤ '9'.toNat) :
    Numeral env ds (ds.foldl (fun a c => a * 10 + (c.toNat - '0'.toNat)) 0) := by
  induction ds using List.reverseRecOn with
  | nil => exact absurd rfl hne
  | append_singleton s c ih =>
    have hc : Digit env c (c.toNat - '0'.toNat) :=
      .inl ⟨(hd c (by simp)).1, (hd c (by simp)).2, rfl⟩
    rw [List.foldl_append]
    simp only [List.foldl_cons, List.foldl_nil]
    by_cases hs : s = []
    · subst hs; simpa using Numeral.one c _ hc
    · rw [Nat.mul_comm]
      exact .next _ _ _ _ (ih hs fun x hx => hd x (by simp [hx])) hc

end Verif
