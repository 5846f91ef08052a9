import Verif.Spec.Md
/-!
# Specification: text in the source of a test
-/

namespace Verif.Spec
open Verif

/-- Nothing but spaces and tabs. -/
def EmptyLine (l : Str) : Prop := ∀ c ∈ l, c = ' ' ∨ c = '\t'

/-- `out` is `l` without the indentation `pre`; lines with nothing but spaces and tabs become empty. -/
def LineWithout (pre l out : Str) : Prop := (EmptyLine l ∧ out = []) ∨ (¬ EmptyLine l ∧ l = pre ++ out)

/-- `out` is `text` without its common indentation: every line without the same spaces and tabs, and nothing that is left
is common indentation. -/
def Dedented (text out : Str) : Prop :=
  ∃ (pre : Str) (outs : List Str), EmptyLine pre ∧ List.Forall₂ (LineWithout pre) (text.splitOn '\n') outs ∧
    out = lines outs ∧
    ∀ c, (c = ' ' ∨ c = '\t') → (∃ o ∈ outs, o ≠ []) → ∃ o ∈ outs, o ≠ [] ∧ o.head? ≠ some c

/-- The same lines, all further to the right by `pre`, except that it does not matter what lines with nothing but spaces
and tabs look like. -/
def Shifted (pre : Str) : List Str → List Str → Prop :=
  List.Forall₂ fun l l' => (EmptyLine l ∧ EmptyLine l') ∨ l' = pre ++ l

/-- No line has only spaces and tabs, but some of them. -/
def NoBlankLine (s : Str) : Prop := ∀ l ∈ s.splitOn '\n', l ≠ [] → ¬ EmptyLine l

end Verif.Spec
