import Verif.Py.Val
import Verif.Spec.Text
/-!
# Which values `int()` reads as which number

Written after the Python documentation of `int(x)`: numbers are truncated to an integer, a string
must be an optional sign and decimal digits, with single underscores allowed between digits, and
white space around.
-/

namespace Verif.Spec
open Verif

/-- `c` is a decimal digit of value `d`: an ASCII digit or one of the other Unicode digits. -/
def Digit (env : Env) (c : Char) (d : Nat) : Prop :=
  ('0'.toNat ≤ c.toNat ∧ c.toNat ≤ '9'.toNat ∧ d = c.toNat - '0'.toNat) ∨
  (128 ≤ c.toNat ∧ blank c = false ∧ env.digitOther c = some d)

/-- Digits, with single underscores between them, and the number they denote. -/
inductive Numeral (env : Env) : Str → Nat → Prop
  | one (c d) : Digit env c d → Numeral env [c] d
  | next (s n c d) : Numeral env s n → Digit env c d → Numeral env (s ++ [c]) (10 * n + d)
  | under (s n c d) : Numeral env s n → Digit env c d → Numeral env (s ++ ['_', c]) (10 * n + d)

/-- A numeral with an optional sign. -/
inductive IntText (env : Env) : Str → Int → Prop
  | plain (s n) : Numeral env s n → IntText env s n
  | plus (s n) : Numeral env s n → IntText env ('+' :: s) n
  | minus (s n) : Numeral env s n → IntText env ('-' :: s) (-n)

/-- White space around a number (tab to carriage return, blank, and the non-ASCII spaces). -/
def Blank (s : Str) : Prop := ∀ c ∈ s, blank c = true ∧ ¬ (28 ≤ c.toNat ∧ c.toNat ≤ 31)

/-- `int(v)` is `t`. -/
inductive Timestamp (env : Env) : Val → Int → Prop
  | int (t) : Timestamp env (.int t) t
  | true : Timestamp env (.bool true) 1
  | false : Timestamp env (.bool false) 0
  | float (r t) : env.floatToInt r = .ok t → Timestamp env (.float r) t
  | str (pre s post t) : Blank pre → IntText env s t → Blank post →
      Timestamp env (.str (pre ++ s ++ post)) t

end Verif.Spec
