import Verif.Spec.Lists
/-!
# Specification of tables
-/

namespace Verif.Spec
open Verif

/-- The number of pipes of a line that are not directly preceded by a backslash; `esc` says whether
the character before the line is a backslash. -/
def barePipes (esc : Bool) : Str → Nat
  | [] => 0
  | c :: s => (if c = '|' ∧ esc = false then 1 else 0) + barePipes (decide (c = '\\')) s

/-- The pieces of a line between its pipes that are not directly preceded by a backslash: how a GFM
reader finds the cells of a table row. -/
def splitBare (esc : Bool) : Str → List Str
  | [] => [[]]
  | c :: s =>
    if c = '|' ∧ esc = false then [] :: splitBare false s
    else match splitBare (decide (c = '\\')) s with
      | [] => [[c]]
      | a :: l => (c :: a) :: l

/-- The number of unescaped pipes under the other reading of "escaped", where a backslash that is itself
escaped by a backslash escapes nothing; `esc` says whether the first character is escaped. -/
def parityPipes (esc : Bool) : Str → Nat
  | [] => 0
  | c :: s => (if c = '|' ∧ esc = false then 1 else 0) + parityPipes (decide (c = '\\') && !esc) s

/-- The number of escaped pipes under that reading. -/
def escapedPipes (esc : Bool) : Str → Nat
  | [] => 0
  | c :: s => (if c = '|' ∧ esc = true then 1 else 0) + escapedPipes (decide (c = '\\') && !esc) s

/-- Every pipe gets a backslash. -/
def escapePipes (s : Str) : Str := s.flatMap fun c => if c = '|' then ['\\', '|'] else [c]

/-- A line of text inside a table cell: pipes escaped, leading spaces made visible to HTML. -/
def CellLine (l out : Str) : Prop :=
  ∃ k rest, l = spaces k ++ rest ∧ (∀ t, rest ≠ ' ' :: t) ∧
    out = (List.replicate k "&nbsp;".toList).flatten ++ escapePipes rest

/-- A row of a table with the texts `cs` in its cells. -/
def rowLine (cs : List Str) : Str := "| ".toList ++ " | ".toList.intercalate cs ++ " |".toList

/-- The concatenated conversions of the children of a cell. -/
def CellText (env : Env) (k : Node) (md : Str) : Prop :=
  ∃ kids ss, k.content = .val kids ∧ MdAll env kids ss ∧ md = ss.flatten

/-- Is it a cell? -/
def isCell (n : Node) : Prop := n.cls = .tableCell ∨ n.cls = .tableHeader

/-- The lines of a row of a table: the row, and below it a separator of the same width iff its first
cell is a header cell. -/
def RowLines (env : Env) (r : Node) (ls : List Str) : Prop :=
  ∃ s first rest, Md env r s ∧ r.content = .val (first :: rest) ∧
    (first.cls = .tableHeader →
      ls = [s, rowLine (List.replicate (rest.length + 1) "---".toList)]) ∧
    (first.cls ≠ .tableHeader → ls = [s])

/-- The row starts with a header cell. -/
def isHeaderRow (r : Node) : Bool :=
  match r.content with
  | .val (first :: _) => decide (first.cls = .tableHeader)
  | _ => false

end Verif.Spec
