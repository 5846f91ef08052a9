import Verif.Spec.Md
/-!
# Specification: blocks nested in quotes and panels
-/

namespace Verif.Spec
open Verif

/-- Classes whose Markdown is a quote. -/
def quotes : List NodeCls := [.blockquote, .panel]

/-- `m` is `n` or a block inside `n`, through documents, quotes, panels and expands, `k` of which are
quotes or panels. -/
inductive InQuotes : Nat → Node → Node → Prop where
  | here (n : Node) : InQuotes 0 n n
  | plain {n c m : Node} {kids : List Node} {k : Nat} (hn : n.cls ∈ [NodeCls.doc, .expand, .nestedExpand])
      (hk : n.content = .val kids) (hc : c ∈ kids) (h : InQuotes k c m) : InQuotes k n m
  | quote {n c m : Node} {kids : List Node} {k : Nat} (hn : n.cls ∈ quotes)
      (hk : n.content = .val kids) (hc : c ∈ kids) (h : InQuotes k c m) : InQuotes (k + 1) n m

/-- `k` times the quote prefix. -/
def quoteMarks (k : Nat) : Str := (List.replicate k "> ".toList).flatten

/-- `l` is one of the lines of `s` (separated by newlines). -/
def IsLineOf (l s : Str) : Prop :=
  '\n' ∉ l ∧ ∃ before after : Str, s = before ++ l ++ after ∧
    (before = [] ∨ ∃ b, before = b ++ ['\n']) ∧ (after = [] ∨ ∃ a, after = '\n' :: a)

/-- A line that is not empty and contains none of the other characters (VT, FF, CR, NEL, ...) that
`str.splitlines` takes for line ends. -/
def CleanLine (l : Str) : Prop := l ≠ [] ∧ ∀ c ∈ l, lineBreak c = false

end Verif.Spec
