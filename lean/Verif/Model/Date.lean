import Verif.Py.Val
import Verif.Model.Float
/-!
# `NodeDate.to_markdown` (nodes/node_date.py:43-48)

    sec = int(self.attrs.timestamp) / 1000
    return str(datetime.fromtimestamp(sec, tz=timezone.utc).date())

The calendar arithmetic is CPython's `datetime` (Lib/_pydatetime.py `_ord2ymd`); the division by
1000 is a float division, modelled in `Verif.Model.Float`.
-/

namespace Verif
namespace Date

/-- Gregorian leap years, `_is_leap`. -/
def isLeap (y : Nat) : Bool := y % 4 == 0 && (y % 100 != 0 || y % 400 == 0)

/-- `_DAYS_BEFORE_MONTH[m]` for a non-leap year, 1 ≤ m ≤ 12. -/
def daysBeforeMonthTable : Nat → Nat
  | 1 => 0 | 2 => 31 | 3 => 59 | 4 => 90 | 5 => 120 | 6 => 151
  | 7 => 181 | 8 => 212 | 9 => 243 | 10 => 273 | 11 => 304 | 12 => 334
  | _ => 0

/-- `_days_in_month`. -/
def daysInMonth (y m : Nat) : Nat :=
  if m = 2 then (if isLeap y then 29 else 28)
  else if m = 4 ∨ m = 6 ∨ m = 9 ∨ m = 11 then 30
  else 31

/-- `_ord2ymd(n)`: proleptic Gregorian ordinal (1 = 0001-01-01) to (year, month, day). -/
def ord2ymd (n : Nat) : Nat × Nat × Nat :=
  let n := n - 1
  let n400 := n / 146097
  let n := n % 146097
  let year := n400 * 400 + 1
  let n100 := n / 36524
  let n := n % 36524
  let n4 := n / 1461
  let n := n % 1461
  let n1 := n / 365
  let n := n % 365
  let year := year + (n100 * 100 + n4 * 4 + n1)
  if n1 = 4 ∨ n100 = 4 then (year - 1, 12, 31)
  else
    let leapyear := n1 == 3 && (n4 != 24 || n100 == 3)
    let month := (n + 50) / 32
    let preceding := daysBeforeMonthTable month + (if month > 2 ∧ leapyear then 1 else 0)
    if preceding > n then
      let month := month - 1
      let dim := if month = 2 ∧ leapyear then 29 else daysInMonth 1 month
      (year, month, n - (preceding - dim) + 1)
    else (year, month, n - preceding + 1)

/-- Seconds per day (`gmtime` inside `fromtimestamp`, nodes/node_date.py:48). -/
def secPerDay : Int := 86400

/-- Ordinal of 1970-01-01. -/
def epochOrd : Int := 719163

/-- Ordinal of 9999-12-31, the last day `datetime` can represent. -/
def maxOrd : Int := 3652059

/-- Decimal digits of `n`, left-padded with zeros to `w`. -/
def pad (w n : Nat) : Str :=
  let s := Nat.toDigits 10 n
  List.replicate (w - s.length) '0' ++ s

/-- `str(date)`: `YYYY-MM-DD`. -/
def isoFormat (y m d : Nat) : Str := pad 4 y ++ ['-'] ++ pad 2 m ++ ['-'] ++ pad 2 d

/-- `str(datetime.fromtimestamp(ms / 1000, tz=timezone.utc).date())`.  Outside years 1..9999
Python raises ValueError (or OverflowError for astronomically large values; the model uses one
class for both). -/
def ofMillis (ms : Int) : Except PyErr Str :=
  let sec := Flt.rnd ((ms : Rat) / 1000)
  let ord := epochOrd + (Flt.wholeSeconds sec).fdiv secPerDay
  if 1 ≤ ord ∧ ord ≤ maxOrd then
    let (y, m, d) := ord2ymd ord.toNat
    .ok (isoFormat y m d)
  else .error .valueError

/-- The value of a decimal digit character (`int()` accepts every Unicode decimal digit;
nodes/node_date.py:47). -/
def digitOf (env : Env) (c : Char) : Option Nat :=
  match Str.asciiDigit c with
  | some d => some d
  | none => if 128 ≤ c.toNat ∧ Str.isSpace c = false then env.digitOther c else none

/-- `int(timestamp)` (node_date.py:47). -/
def toInt (env : Env) : Val → Except PyErr Int
  | .int n => .ok n
  | .bool b => .ok (if b then 1 else 0)
  | .float r => env.floatToInt r
  | .str s =>
    match Str.parseInt (digitOf env) s with
    | some n => .ok n
    | none => .error .valueError
  | _ => .error .typeError

/-- The body of `NodeDate.to_markdown` on `self.attrs.timestamp`. -/
def render (env : Env) (timestamp : Val) : Except PyErr Val :=
  match toInt env timestamp with
  | .error e => .error e
  | .ok ms =>
    match ofMillis ms with
    | .error e => .error e
    | .ok s => .ok (.str s)

end Date
end Verif
