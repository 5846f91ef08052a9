import Verif.Spec.Calendar
import Verif.Model.Date
/-!
# Calendar arithmetic
-/

namespace Verif
open Spec

/-! ## year and month sums -/

theorem leap_iff (y : Nat) : Leap y ↔ y % 4 = 0 ∧ (y % 100 ≠ 0 ∨ y % 400 = 0) := by
  unfold Leap; omega

theorem yearLength_eq (y : Nat) :
    yearLength y = if y % 4 = 0 ∧ (y % 100 ≠ 0 ∨ y % 400 = 0) then 366 else 365 := by
  unfold yearLength
  simp only [leap_iff]

theorem daysBeforeYear_succ (y : Nat) (h : 1 ≤ y) :
    daysBeforeYear (y + 1) = daysBeforeYear y + yearLength y := by
  obtain ⟨k, rfl⟩ := Nat.exists_eq_add_of_le h
  unfold daysBeforeYear
  rw [show 1 + k + 1 - 1 = k + 1 by omega, show 1 + k - 1 = k by omega, List.range_succ]
  simp [Nat.add_comm]

theorem daysBeforeYear_closed (k : Nat) :
    daysBeforeYear (k + 1) = 365 * k + k / 4 + k / 400 - k / 100 := by
  induction k with
  | zero => rfl
  | succ k ih =>
    rw [daysBeforeYear_succ _ (by omega), ih, yearLength_eq]
    have h0 : k / 100 ≤ k / 4 := by omega
    have h4 : (k + 1) / 4 = k / 4 + (if (k + 1) % 4 = 0 then 1 else 0) := by split <;> omega
    have h100 : (k + 1) / 100 = k / 100 + (if (k + 1) % 100 = 0 then 1 else 0) := by split <;> omega
    have h400 : (k + 1) / 400 = k / 400 + (if (k + 1) % 400 = 0 then 1 else 0) := by split <;> omega
    rw [h4, h100, h400]
    split <;> split <;> split <;> split <;> omega

theorem daysBeforeMonth_succ (y m : Nat) (h : 1 ≤ m) :
    daysBeforeMonth y (m + 1) = daysBeforeMonth y m + monthLength y m := by
  obtain ⟨k, rfl⟩ := Nat.exists_eq_add_of_le h
  unfold daysBeforeMonth
  rw [show 1 + k + 1 - 1 = k + 1 by omega, show 1 + k - 1 = k by omega, List.range_succ]
  simp [Nat.add_comm]

theorem daysBeforeYear_mono {y y' : Nat} (h1 : 1 ≤ y) (h : y ≤ y') :
    daysBeforeYear y ≤ daysBeforeYear y' := by
  induction h with
  | refl => exact Nat.le_refl _
  | @step m hm ih =>
    have hm' : y ≤ m := hm
    rw [Nat.succ_eq_add_one, daysBeforeYear_succ m (by omega)]; omega

theorem daysBeforeMonth_mono (y : Nat) {m m' : Nat} (h1 : 1 ≤ m) (h : m ≤ m') :
    daysBeforeMonth y m ≤ daysBeforeMonth y m' := by
  induction h with
  | refl => exact Nat.le_refl _
  | @step k hm ih =>
    have hm' : m ≤ k := hm
    rw [Nat.succ_eq_add_one, daysBeforeMonth_succ y k (by omega)]; omega

theorem daysBeforeMonth_13 (y : Nat) : daysBeforeMonth y 13 = yearLength y := by
  by_cases h : Leap y <;> simp [daysBeforeMonth, List.range_succ, monthLength, yearLength, h]

theorem dayOfYear_le {y m d : Nat} (h : ValidDate y m d) :
    daysBeforeMonth y m + d ≤ yearLength y := by
  obtain ⟨_, h1, h2, _, h4⟩ := h
  have := daysBeforeMonth_succ y m h1
  have h13 := daysBeforeMonth_mono y (m := m + 1) (m' := 13) (by omega) (by omega)
  rw [daysBeforeMonth_13] at h13
  omega

/-- Dates in order. -/
def DateLt (y m d y' m' d' : Nat) : Prop := y < y' ∨ (y = y' ∧ (m < m' ∨ (m = m' ∧ d < d')))

theorem dayNumber_lt {y m d y' m' d' : Nat} (h : ValidDate y m d) (h' : ValidDate y' m' d')
    (hlt : DateLt y m d y' m' d') : dayNumber y m d < dayNumber y' m' d' := by
  unfold dayNumber
  rcases hlt with hy | ⟨rfl, hm | ⟨rfl, hd⟩⟩
  · have h1 := dayOfYear_le h
    have h2 := daysBeforeYear_succ y h.1
    have h3 := daysBeforeYear_mono (y := y + 1) (y' := y') (by omega) hy
    have h4 := h'.2.2.2.1
    omega
  · have h2 := daysBeforeMonth_succ y m h.2.1
    have h3 := daysBeforeMonth_mono y (m := m + 1) (m' := m') (by omega) hm
    have h4 := h'.2.2.2.1
    have h5 := h.2.2.2.2
    omega
  · omega

theorem dateLt_trichotomy (y m d y' m' d' : Nat) :
    DateLt y m d y' m' d' ∨ (y = y' ∧ m = m' ∧ d = d') ∨ DateLt y' m' d' y m d := by
  unfold DateLt; omega

theorem dayNumber_inj {y m d y' m' d' : Nat} (h : ValidDate y m d) (h' : ValidDate y' m' d')
    (e : dayNumber y m d = dayNumber y' m' d') : y = y' ∧ m = m' ∧ d = d' := by
  rcases dateLt_trichotomy y m d y' m' d' with hl | he | hl
  · have := dayNumber_lt h h' hl; omega
  · exact he
  · have := dayNumber_lt h' h hl; omega

theorem dateLt_of_dayNumber {y m d y' m' d' : Nat} (h : ValidDate y m d) (h' : ValidDate y' m' d')
    (e : dayNumber y m d < dayNumber y' m' d') : DateLt y m d y' m' d' := by
  rcases dateLt_trichotomy y m d y' m' d' with hl | ⟨rfl, rfl, rfl⟩ | hl
  · exact hl
  · omega
  · have := dayNumber_lt h' h hl; omega

/-! ## `_ord2ymd` -/

/-- The month/day part, for day `r` (from 0) of a year. -/
def monthDay (leap : Bool) (r : Nat) : Nat × Nat :=
  let month := (r + 50) / 32
  let preceding := Date.daysBeforeMonthTable month + (if month > 2 ∧ leap then 1 else 0)
  if preceding > r then
    let month := month - 1
    let dim := if month = 2 ∧ leap then 29 else Date.daysInMonth 1 month
    (month, r - (preceding - dim) + 1)
  else (month, r - preceding + 1)

/-- Month lengths by leap flag. -/
def mlen (leap : Bool) : Nat → Nat
  | 1 => 31 | 2 => if leap then 29 else 28 | 3 => 31 | 4 => 30 | 5 => 31 | 6 => 30
  | 7 => 31 | 8 => 31 | 9 => 30 | 10 => 31 | 11 => 30 | 12 => 31 | _ => 0

def mbefore (leap : Bool) (m : Nat) : Nat := ((List.range (m - 1)).map fun i => mlen leap (i + 1)).sum

theorem monthLength_eq (y m : Nat) : monthLength y m = mlen (decide (Leap y)) m := by
  unfold monthLength mlen
  split <;> simp

theorem daysBeforeMonth_eq (y m : Nat) : daysBeforeMonth y m = mbefore (decide (Leap y)) m := by
  unfold daysBeforeMonth mbefore
  simp only [monthLength_eq]

/-- Every day of a common and of a leap year (the whole domain). -/
theorem monthDay_ok : ∀ leap : Bool, ∀ r < (if leap then 366 else 365),
    1 ≤ (monthDay leap r).1 ∧ (monthDay leap r).1 ≤ 12 ∧ 1 ≤ (monthDay leap r).2 ∧
    (monthDay leap r).2 ≤ mlen leap (monthDay leap r).1 ∧
    mbefore leap (monthDay leap r).1 + (monthDay leap r).2 = r + 1 := by
  decide +kernel

/-- The steps of `ord2ymd` with the month search named. -/
def ymdOf (n : Nat) : Nat × Nat × Nat :=
  let q := n - 1
  let a := q / 146097
  let q1 := q % 146097
  let b := q1 / 36524
  let q2 := q1 % 36524
  let c := q2 / 1461
  let q3 := q2 % 1461
  let e := q3 / 365
  let r := q3 % 365
  let y := a * 400 + 1 + (b * 100 + c * 4 + e)
  if e = 4 ∨ b = 4 then (y - 1, 12, 31)
  else (y, monthDay (e == 3 && (c != 24 || b == 3)) r)

theorem ord2ymd_eq (n : Nat) : Date.ord2ymd n = ymdOf n := by
  unfold Date.ord2ymd ymdOf monthDay
  dsimp only
  split
  · rfl
  · rw [apply_ite (Prod.mk _)]

theorem dec31 (y : Nat) (h : 1 ≤ y) :
    ValidDate y 12 31 ∧ dayNumber y 12 31 = daysBeforeYear (y + 1) := by
  constructor
  · exact ⟨h, by omega, by omega, by omega, by simp [monthLength]⟩
  · rw [daysBeforeYear_succ y h]
    unfold dayNumber
    have := daysBeforeMonth_succ y 12 (by omega)
    rw [daysBeforeMonth_13] at this
    have h31 : monthLength y 12 = 31 := rfl
    omega

theorem ord2ymd_ok (n : Nat) (hn : 1 ≤ n) :
    ValidDate (Date.ord2ymd n).1 (Date.ord2ymd n).2.1 (Date.ord2ymd n).2.2 ∧
    dayNumber (Date.ord2ymd n).1 (Date.ord2ymd n).2.1 (Date.ord2ymd n).2.2 = n := by
  rw [ord2ymd_eq]
  unfold ymdOf
  dsimp only
  generalize hq : n - 1 = q
  generalize ha : q / 146097 = a
  generalize hq1 : q % 146097 = q1
  generalize hb : q1 / 36524 = b
  generalize hq2 : q1 % 36524 = q2
  generalize hc : q2 / 1461 = c
  generalize hq3 : q2 % 1461 = q3
  generalize he : q3 / 365 = e
  generalize hr : q3 % 365 = r
  have hnq : n = q + 1 := by omega
  have h1 : q = 146097 * a + q1 ∧ q1 < 146097 := by omega
  have h2 : q1 = 36524 * b + q2 ∧ q2 < 36524 := by omega
  have h3 : q2 = 1461 * c + q3 ∧ q3 < 1461 := by omega
  have h4 : q3 = 365 * e + r ∧ r < 365 := by omega
  clear hq ha hq1 hb hq2 hc hq3 he hr
  have hb4 : b ≤ 4 := by omega
  have hc24 : c ≤ 24 := by omega
  have he4 : e ≤ 4 := by omega
  split
  · next h =>
    have hy1 : 1 ≤ a * 400 + 1 + (b * 100 + c * 4 + e) - 1 := by omega
    obtain ⟨hv, hd⟩ := dec31 _ hy1
    refine ⟨hv, ?_⟩
    simp only
    rw [hd, show a * 400 + 1 + (b * 100 + c * 4 + e) - 1 + 1 = (a * 400 + (b * 100 + c * 4 + e)) + 1 by omega,
      daysBeforeYear_closed]
    rcases h with rfl | rfl
    · have hb3 : b ≤ 3 := by omega
      have hc23 : c ≤ 23 := by omega
      have d4 : (a * 400 + (b * 100 + c * 4 + 4)) / 4 = 100 * a + 25 * b + c + 1 := by omega
      have d100 : (a * 400 + (b * 100 + c * 4 + 4)) / 100 = 4 * a + b := by omega
      have d400 : (a * 400 + (b * 100 + c * 4 + 4)) / 400 = a := by omega
      rw [d4, d100, d400]; omega
    · have hc0 : c = 0 := by omega
      have he0 : e = 0 := by omega
      subst hc0; subst he0
      have d4 : (a * 400 + (4 * 100 + 0 * 4 + 0)) / 4 = 100 * a + 100 := by omega
      have d100 : (a * 400 + (4 * 100 + 0 * 4 + 0)) / 100 = 4 * a + 4 := by omega
      have d400 : (a * 400 + (4 * 100 + 0 * 4 + 0)) / 400 = a + 1 := by omega
      rw [d4, d100, d400]; omega
  · next h =>
    have hb3 : b ≤ 3 := by omega
    have he3 : e ≤ 3 := by omega
    have hleap : decide (Leap (a * 400 + 1 + (b * 100 + c * 4 + e))) =
        (e == 3 && (c != 24 || b == 3)) := by
      rw [Bool.eq_iff_iff]
      simp only [decide_eq_true_eq, leap_iff, Bool.and_eq_true, beq_iff_eq, Bool.or_eq_true, bne_iff_ne]
      omega
    obtain ⟨g1, g2, g3, g4, g5⟩ := monthDay_ok (e == 3 && (c != 24 || b == 3)) r
      (by split <;> omega)
    refine ⟨⟨by simp only; omega, g1, g2, g3, ?_⟩, ?_⟩
    · rw [monthLength_eq, hleap]; exact g4
    · unfold dayNumber
      simp only
      rw [daysBeforeMonth_eq, hleap,
        show a * 400 + 1 + (b * 100 + c * 4 + e) = (a * 400 + (b * 100 + c * 4 + e)) + 1 by omega,
        daysBeforeYear_closed]
      have d4 : (a * 400 + (b * 100 + c * 4 + e)) / 4 = 100 * a + 25 * b + c := by omega
      have d100 : (a * 400 + (b * 100 + c * 4 + e)) / 100 = 4 * a + b := by omega
      have d400 : (a * 400 + (b * 100 + c * 4 + e)) / 400 = a := by omega
      rw [d4, d100, d400]; omega

theorem epoch_ok : (dayNumber 1970 1 1 : Int) = Date.epochOrd := by
  unfold dayNumber
  rw [daysBeforeYear_closed 1969]
  rfl

theorem max_ok : (dayNumber 9999 12 31 : Int) = Date.maxOrd := by
  rw [(dec31 9999 (by omega)).2, daysBeforeYear_closed 9999]
  rfl

/-! ## digits -/

theorem digitChar_eq {i : Nat} (h : i < 10) : Nat.digitChar i = digit i := by
  revert i; decide

theorem digits_zero (w : Nat) : digits w 0 = List.replicate w '0' := by
  induction w with
  | zero => rfl
  | succ w ih => rw [digits, Nat.zero_div, ih, List.replicate_succ']; rfl

theorem digits_length (w n : Nat) : (digits w n).length = w := by
  induction w generalizing n with
  | zero => rfl
  | succ w ih => rw [digits, List.length_append, ih]; rfl

theorem pad_eq (w n : Nat) (h : n < 10 ^ (w + 1)) : Date.pad (w + 1) n = digits (w + 1) n := by
  induction w generalizing n with
  | zero =>
    have hn : n < 10 := by simpa using h
    unfold Date.pad
    rw [Nat.toDigits_of_lt_base hn, digits, Nat.mod_eq_of_lt hn, digitChar_eq hn]
    rfl
  | succ w ih =>
    unfold Date.pad
    rw [Nat.toDigits_eq_if (by omega)]
    by_cases hn : n < 10
    · simp only [if_pos hn, digits, Nat.mod_eq_of_lt hn, digitChar_eq hn, Nat.div_eq_of_lt hn,
        Nat.zero_div]
      have := digits_zero (w + 1)
      rw [digits, Nat.zero_div] at this
      rw [this]
      simp
    · simp only [if_neg hn]
      rw [digits, ← ih (n / 10) (by rw [Nat.pow_succ] at h; omega), digitChar_eq (Nat.mod_lt _ (by omega))]
      unfold Date.pad
      simp only [List.length_append, List.length_singleton]
      rw [show w + 1 + 1 - ((Nat.toDigits 10 (n / 10)).length + 1) =
        w + 1 - (Nat.toDigits 10 (n / 10)).length by omega, List.append_assoc]

theorem digit_lt {i j : Nat} (h : i < j) (hj : j < 10) : digit i < digit j := by
  revert i
  revert j
  decide

theorem lt_append {a b : Str} (h : a < b) (hl : a.length = b.length) (x y : Str) : a ++ x < b ++ y := by
  induction h with
  | nil => simp at hl
  | cons h ih => exact List.Lex.cons (ih (by simpa using hl))
  | rel h => exact List.Lex.rel h

theorem lt_append_right (a : Str) {x y : Str} (h : x < y) : a ++ x < a ++ y := by
  induction a with
  | nil => exact h
  | cons c a ih => exact List.Lex.cons ih

theorem digits_lt (w : Nat) {n m : Nat} (h : n < m) (hm : m < 10 ^ w) : digits w n < digits w m := by
  induction w generalizing n m with
  | zero => simp at hm; omega
  | succ w ih =>
    rw [digits, digits]
    by_cases hd : n / 10 = m / 10
    · rw [hd]
      apply lt_append_right
      exact List.Lex.rel (digit_lt (by omega) (Nat.mod_lt _ (by omega)))
    · exact lt_append (ih (by omega) (by rw [Nat.pow_succ] at hm; omega))
        (by rw [digits_length, digits_length]) _ _

theorem isoDate_lt {y m d y' m' d' : Nat} (hlt : DateLt y m d y' m' d') (hy : y' < 10 ^ 4)
    (hm : m' < 10 ^ 2) (hd : d' < 10 ^ 2) : isoDate y m d < isoDate y' m' d' := by
  unfold isoDate
  simp only [List.append_assoc]
  rcases hlt with h | ⟨rfl, h | ⟨rfl, h⟩⟩
  · exact lt_append (digits_lt 4 h hy) (by rw [digits_length, digits_length]) _ _
  · apply lt_append_right; apply lt_append_right
    exact lt_append (digits_lt 2 h hm) (by rw [digits_length, digits_length]) _ _
  · apply lt_append_right; apply lt_append_right; apply lt_append_right; apply lt_append_right
    exact digits_lt 2 h hd

theorem monthLength_le (y m : Nat) : monthLength y m ≤ 31 := by
  unfold monthLength
  split <;> (try split) <;> omega

theorem isoFormat_eq {y m d : Nat} (h : ValidDate y m d) (hy : y ≤ 9999) :
    Date.isoFormat y m d = isoDate y m d := by
  have := monthLength_le y m
  obtain ⟨_, _, h3, _, h5⟩ := h
  unfold Date.isoFormat isoDate
  rw [pad_eq 3 y (by omega), pad_eq 1 m (by omega), pad_eq 1 d (by omega)]

end Verif
