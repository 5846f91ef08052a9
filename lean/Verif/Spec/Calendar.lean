import Verif.Py.Str
/-!
# The proleptic Gregorian calendar, and ISO dates
-/

namespace Verif.Spec
open Verif

/-- Every fourth year, except centuries not divisible by 400. -/
def Leap (y : Nat) : Prop := 4 ∣ y ∧ (¬ 100 ∣ y ∨ 400 ∣ y)

instance (y : Nat) : Decidable (Leap y) := by unfold Leap; infer_instance

/-- Days of a year. -/
def yearLength (y : Nat) : Nat := if Leap y then 366 else 365

/-- Days of a month, 1 ≤ m ≤ 12. -/
def monthLength (y m : Nat) : Nat :=
  match m with
  | 1 => 31 | 2 => if Leap y then 29 else 28 | 3 => 31 | 4 => 30 | 5 => 31 | 6 => 30
  | 7 => 31 | 8 => 31 | 9 => 30 | 10 => 31 | 11 => 30 | 12 => 31 | _ => 0

/-- `(y, m, d)` is a date of the calendar. -/
def ValidDate (y m d : Nat) : Prop :=
  1 ≤ y ∧ 1 ≤ m ∧ m ≤ 12 ∧ 1 ≤ d ∧ d ≤ monthLength y m

/-- Days from 1 January of year 1 to 1 January of year `y`: the lengths of the years before. -/
def daysBeforeYear (y : Nat) : Nat := ((List.range (y - 1)).map fun i => yearLength (i + 1)).sum

/-- Days from 1 January to the first of month `m`: the lengths of the months before. -/
def daysBeforeMonth (y m : Nat) : Nat :=
  ((List.range (m - 1)).map fun i => monthLength y (i + 1)).sum

/-- Day number of a date; 1 January of year 1 is day 1. -/
def dayNumber (y m d : Nat) : Nat := daysBeforeYear y + daysBeforeMonth y m + d

/-- The UTC calendar day of the instant `t` milliseconds after the epoch: `D` is the day number whose
day, starting `86400000 * (D - dayNumber 1970 1 1)` milliseconds after the epoch, contains `t`. -/
def IsUtcDay (t D : Int) : Prop :=
  86400000 * (D - dayNumber 1970 1 1) ≤ t ∧ t < 86400000 * (D - dayNumber 1970 1 1 + 1)

/-- The `i`-th decimal digit character. -/
def digit (i : Nat) : Char := "0123456789".toList.getD i '?'

/-- `n` in exactly `w` decimal digits (its last `w` digits). -/
def digits : Nat → Nat → Str
  | 0, _ => []
  | w + 1, n => digits w (n / 10) ++ [digit (n % 10)]

/-- `YYYY-MM-DD`. -/
def isoDate (y m d : Nat) : Str := digits 4 y ++ ['-'] ++ digits 2 m ++ ['-'] ++ digits 2 d

end Verif.Spec
