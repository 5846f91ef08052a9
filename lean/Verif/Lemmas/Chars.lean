import Mathlib.Data.List.TakeWhile
import Verif.Spec.Text
/-!
# The model's string primitives are those of the specification
-/

namespace Verif
open Spec

theorem isSpace_eq (c : Char) : Str.isSpace c = blank c := by
  unfold Str.isSpace blank blankCodes
  generalize c.toNat = n
  rw [Bool.eq_iff_iff]
  simp
  omega

theorem isSpace_fun : Str.isSpace = blank := funext isSpace_eq

theorem isLineBreak_eq (c : Char) : Str.isLineBreak c = lineBreak c := by
  unfold Str.isLineBreak lineBreak breakCodes
  generalize c.toNat = n
  rw [Bool.eq_iff_iff]
  simp
  omega

theorem isLineBreak_fun : Str.isLineBreak = lineBreak := funext isLineBreak_eq

theorem rstrip_eq (s : Str) : Str.rstrip s = trimEnd s := by
  unfold Str.rstrip
  rw [isSpace_fun]
  induction s with
  | nil => rfl
  | cons c s ih =>
    rw [trimEnd, List.reverse_cons, List.dropWhile_append]
    by_cases h : (s.reverse.dropWhile blank).isEmpty = true
    · rw [if_pos h]
      have h' := h
      rw [List.isEmpty_iff, List.dropWhile_eq_nil_iff] at h'
      by_cases hc : blank c = true
      · have : (c :: s).all blank = true := by
          simp only [List.all_cons, hc, Bool.true_and, List.all_eq_true]
          intro x hx; exact h' x (by simpa using hx)
        rw [if_pos this]; simp [hc]
      · have : ¬ (c :: s).all blank = true := by simp [hc]
        rw [if_neg this, ← ih]
        rw [List.isEmpty_iff] at h
        simp [hc, h]
    · rw [if_neg h]
      have : ¬ (c :: s).all blank = true := by
        intro h2
        apply h
        rw [List.isEmpty_iff, List.dropWhile_eq_nil_iff]
        intro x hx
        rw [List.all_eq_true] at h2
        exact h2 x (by simp at hx; simp [hx])
      rw [if_neg this, ← ih]
      simp

theorem rstrip_fun : Str.rstrip = trimEnd := funext rstrip_eq

theorem strip_trim (s : Str) : Str.strip s = trim s := by
  unfold Str.strip trim Str.lstrip
  rw [rstrip_eq, isSpace_fun]

theorem join_eq (sep : Str) (l : List Str) : Str.join sep l = sep.intercalate l := by
  induction l with
  | nil => rfl
  | cons a l ih =>
    cases l with
    | nil => simp [Str.join, List.intercalate]
    | cons b l =>
      rw [Str.join, ih]
      simp [List.intercalate, List.intersperse]

theorem splitOn_nl (s : Str) : s.splitOn '\n' = Str.splitNL s := by
  unfold List.splitOn
  induction s with
  | nil => rfl
  | cons c s ih =>
    rw [List.splitOnP_cons_eq_if_modifyHead, Str.splitNL, ih]
    by_cases h : c = '\n'
    · simp [h]
    · rw [if_neg (by simpa using h), if_neg h]
      cases hs : Str.splitNL s with
      | nil =>
        rw [hs] at ih
        exact absurd ih (List.splitOnP_ne_nil _ _)
      | cons a l => rfl

theorem ofInt_eq (i : Int) : Str.ofInt i = (toString i).toList := by
  cases i with
  | ofNat n => simp [Str.ofInt, toString, Int.repr, Nat.repr]
  | negSucc n => simp [Str.ofInt, toString, Int.repr, Nat.repr]

end Verif
