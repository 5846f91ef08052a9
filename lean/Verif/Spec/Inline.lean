import Verif.Spec.Md
/-!
# Specification: reading inline Markdown

The parts of the CommonMark rules for code spans, links and emphasis that the properties C56–C58 use.
Backslash escapes, `<...>` destinations and link titles are left out: the library writes none.
-/

namespace Verif.Spec
open Verif

/-- A run of `n` back ticks. -/
def ticks (n : Nat) : Str := List.replicate n '`'

/-- `s` is `a`, then a run of exactly `n` back ticks (no back tick directly before or after), then `b`. -/
def RunAt (n : Nat) (s a b : Str) : Prop :=
  s = a ++ ticks n ++ b ∧ a.getLast? ≠ some '`' ∧ b.head? ≠ some '`'

/-- One space is removed on both sides. -/
def Unpadded (inner body : Str) : Prop :=
  if inner.head? = some ' ' ∧ inner.getLast? = some ' ' ∧ ∃ c ∈ inner, c ≠ ' ' then
    inner = [' '] ++ body ++ [' ']
  else inner = body

/-- CommonMark 6.1: a code span starts with a run of back ticks and ends at the next run of exactly the
same length; `rest` is what follows. -/
def ReadsAsCode (s body rest : Str) : Prop :=
  ∃ (n : Nat) (inner : Str), 0 < n ∧ RunAt n s [] (inner ++ ticks n ++ rest) ∧
    RunAt n (inner ++ ticks n ++ rest) inner rest ∧ (∀ a b, ¬ RunAt n inner a b) ∧ Unpadded inner body

/-- Everything up to the closing `c` that is not closed by an earlier opening `o`. -/
def readUntil (o c : Char) : Nat → Str → Option (Str × Str)
  | _, [] => none
  | d, x :: s =>
    if x = c then
      if d = 0 then some ([], s) else (readUntil o c (d - 1) s).map fun p => (x :: p.1, p.2)
    else (readUntil o c (if x = o then d + 1 else d) s).map fun p => (x :: p.1, p.2)

/-- CommonMark 6.3: `[label](destination)`: brackets in the label and parentheses in the destination are
balanced, the destination has no white space. -/
def readLink (s : Str) : Option (Str × Str × Str) :=
  match s with
  | '[' :: s =>
    match readUntil '[' ']' 0 s with
    | some (label, '(' :: t) =>
      match readUntil '(' ')' 0 t with
      | some (dest, rest) => if dest.any blank then none else some (label, dest, rest)
      | none => none
    | _ => none
  | _ => none

/-- As many `o` as `c`, and never more `c` than `o` so far. -/
def Balanced (o c : Char) (s : Str) : Prop :=
  s.count o = s.count c ∧ ∀ a b, s = a ++ b → a.count c ≤ a.count o

/-- CommonMark 6.2: a delimiter opens emphasis only if no white space follows, and closes it only if
there is none before. -/
def ReadsAsEmphasis (d md s : Str) : Prop :=
  md = d ++ s ++ d ∧
  ∃ a z, s.head? = some a ∧ s.getLast? = some z ∧ blank a = false ∧ blank z = false

end Verif.Spec
