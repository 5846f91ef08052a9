import Verif.Spec.Md
/-!
# Specification: the chunks of a Markdown text

A Markdown reader joins lines until it meets a blank line (CommonMark 4.8, 4.9).
-/

namespace Verif.Spec
open Verif

/-- A blank line has only spaces and tabs (CommonMark 2.1). -/
def blankLine (l : Str) : Bool := l.all fun c => c == ' ' || c == '\t'

/-- The maximal groups of consecutive lines that are not blank. -/
def groups (ls : List Str) : List (List Str) := (ls.splitOnP blankLine).filter fun g => !g.isEmpty

/-- The groups of lines of a text that no blank line separates. -/
def chunks (s : Str) : List (List Str) := groups (s.splitOn '\n')

/-- A block with text `s` directly followed by one with text `t` is separated from it by nothing but a
newline: neither the last line of `s` nor the first of `t` is blank. -/
def Touch (s t : Str) : Prop :=
  ∃ a b, (s.splitOn '\n').getLast? = some a ∧ (t.splitOn '\n').head? = some b ∧
    blankLine a = false ∧ blankLine b = false

open Classical in
/-- The number of blocks that touch the next one. -/
noncomputable def touches : List Str → Nat
  | s :: t :: l => (if Touch s t then 1 else 0) + touches (t :: l)
  | _ => 0

/-- Blocks whose Markdown ends with an empty line, whatever is in them. -/
def closedEnd : List NodeCls :=
  [.paragraph, .heading, .rule, .blockquote, .panel, .bulletList, .orderedList, .codeBlock, .blockCard, .embedCard, .mediaGroup]

/-- Blocks whose Markdown begins with an empty line, whatever is in them. -/
def closedStart : List NodeCls :=
  [.heading, .rule, .bulletList, .orderedList, .codeBlock, .blockCard, .embedCard, .mediaGroup]

end Verif.Spec
