import Verif.Py.Str
/-!
# Specifications about plain text: runs of newlines
-/

namespace Verif.Spec
open Verif

/-- The code points of white space (`str.isspace`): Unicode category Zs or bidirectional class WS, B
or S. -/
def blankCodes : List Nat :=
  [9, 10, 11, 12, 13, 28, 29, 30, 31, 32, 133, 160, 5760, 8192, 8193, 8194, 8195, 8196, 8197, 8198,
   8199, 8200, 8201, 8202, 8232, 8233, 8239, 8287, 12288]

/-- The character is white space. -/
def blank (c : Char) : Bool := decide (c.toNat ∈ blankCodes)

/-- The code points at which `str.splitlines` breaks a line: LF, VT, FF, CR, FS, GS, RS, NEL, LS, PS. -/
def breakCodes : List Nat := [10, 11, 12, 13, 28, 29, 30, 133, 8232, 8233]

/-- The character ends a line. -/
def lineBreak (c : Char) : Bool := decide (c.toNat ∈ breakCodes)

/-- The text without its trailing white space. -/
def trimEnd : Str → Str
  | [] => []
  | c :: s => if (c :: s).all blank then [] else c :: trimEnd s

/-- The text without its leading and trailing white space. -/
def trim (s : Str) : Str := trimEnd (s.dropWhile blank)

/-- Replace every maximal run of `k` newlines by `f k` newlines; `k` counts the newlines already
read of the current run. -/
def mapRunsGo (f : Nat → Nat) : Nat → Str → Str
  | k, [] => List.replicate (f k) '\n'
  | k, c :: cs =>
    if c = '\n' then mapRunsGo f (k + 1) cs
    else List.replicate (f k) '\n' ++ c :: mapRunsGo f 0 cs

/-- Replace every maximal run of `k` newlines of `s` by `f k` newlines. -/
def mapRuns (f : Nat → Nat) (s : Str) : Str := mapRunsGo f 0 s

/-- One pass of the clean-up: a run of `k` newlines loses `k / 3` of them. -/
def shrink (k : Nat) : Nat := k - k / 3

/-- `n`-fold application. -/
def iter (f : Nat → Nat) : Nat → Nat → Nat
  | 0, k => k
  | n + 1, k => iter f n (f k)

/-- `m` newlines in a row occur in `s`. -/
def HasRun (m : Nat) (s : Str) : Prop := List.replicate m '\n' <:+: s

/-- A line terminator in the sense of `str.splitlines`: CR LF, or one line-break character. -/
def IsTerminator (t : Str) : Prop :=
  t = ['\r', '\n'] ∨ ∃ c, lineBreak c = true ∧ t = [c]

/-- `ls` are the lines, with their terminators, of a text: every line is a body without line breaks
followed by a terminator, which only the last line may lack; a CR is not separated from a following
LF.  (`ls` is then determined by its concatenation, see `splitKeep_isLines_flatten`.) -/
inductive IsLines : List Str → Prop where
  | nil : IsLines []
  | last (body : Str) (hb : ∀ c ∈ body, lineBreak c = false) (hne : body ≠ []) :
      IsLines [body]
  | cons (body t : Str) (ls : List Str) (hb : ∀ c ∈ body, lineBreak c = false)
      (ht : IsTerminator t) (hr : t = ['\r'] → ∀ r, ls.flatten ≠ '\n' :: r) (hls : IsLines ls) :
      IsLines ((body ++ t) :: ls)

end Verif.Spec
