import Verif.Spec.Tables
/-!
# Specification: text preservation
-/

namespace Verif.Spec
open Verif

/-- The visible (non-whitespace) characters of a text. -/
def ink (s : Str) : Str := s.filter fun c => !blank c

/-- The text a node itself carries. -/
def ownText (hd : Hd) : Str :=
  match hd.cls, hd.text with
  | .text, some (.str s) => s
  | _, _ => []

mutual
/-- The text of all text nodes in the tree, in document order. -/
def textOf : Node → Str
  | .mk hd c => ownText hd ++ slotText c

def slotText : Slot (List Node) → Str
  | .val l => listText l
  | _ => []

def listText : List Node → Str
  | [] => []
  | n :: ns => textOf n ++ listText ns
end

/-- The mark keeps the text it is applied to: not an indentation mark, and not a link with a title of
its own. -/
def KeepsText (m : Mark) : Prop :=
  m.cls ≠ .indentation ∧
  (m.cls = .link → ∀ a t, m.attrs = .val a → lookupKey a.fields "title" ≠ some (.str t))

/-- The classes that render their children. -/
def containers : List NodeCls :=
  [.doc, .paragraph, .heading, .codeBlock, .blockquote, .panel, .expand, .nestedExpand, .listItem,
   .bulletList, .orderedList, .taskItem, .taskList, .decisionItem, .decisionList, .tableCell,
   .tableHeader, .tableRow, .table, .mediaSingle]

/-- The children a class renders: lists only render their items; a text node directly in a table is an
error. -/
def fits (parent child : NodeCls) : Bool :=
  match parent with
  | .bulletList | .orderedList => decide (child = .listItem)
  | .taskList => decide (child = .taskItem ∨ child = .taskList)
  | .decisionList => decide (child = .decisionItem)
  | .table => decide (child ≠ .text)
  | _ => true

/-- Classes that skip children they are not made for. -/
def selective : List NodeCls := [.bulletList, .orderedList, .taskList, .decisionList]

/-- Trees built from the supported constructs: text with marks that keep it; nodes with no text in or
below them; containers with children they render (or that have no text). -/
inductive Supported : Node → Prop where
  | text {n : Node} (hn : n.cls = .text) (hc : slotText n.content = [])
      (hm : ∀ ms, n.hd.marks = .val ms → ∀ m ∈ ms, KeepsText m) : Supported n
  | noText {n : Node} (h : textOf n = []) : Supported n
  | node {n : Node} {kids : List Node} (hn : n.cls ∈ containers) (hc : n.content = .val kids)
      (hm : ∀ ms, n.hd.marks = .val ms → ∀ m ∈ ms, KeepsText m)
      (hf : ∀ k ∈ kids, fits n.cls k.cls = true ∨ (n.cls ∈ selective ∧ textOf k = []))
      (hk : ∀ k ∈ kids, Supported k) : Supported n

/-- `m` occurs in the tree `n`. -/
inductive Below : Node → Node → Prop where
  | here (n : Node) : Below n n
  | step {m k n : Node} {kids : List Node} (hc : n.content = .val kids) (hk : k ∈ kids)
      (h : Below m k) : Below m n

/-- The node carries a mark that replaces the text. -/
def LosesMark (m : Node) : Prop := ∃ ms mk, m.hd.marks = .val ms ∧ mk ∈ ms ∧ ¬ KeepsText mk

/-- The node has text below it but its class does not render children. -/
def IgnoresContent (m : Node) : Prop :=
  m.cls ∉ containers ∧ ∃ kids, m.content = .val kids ∧ listText kids ≠ []

/-- The node has a child, with text, that its class does not render. -/
def StrayChild (m : Node) : Prop :=
  ∃ kids k, m.content = .val kids ∧ k ∈ kids ∧ fits m.cls k.cls = false ∧
    (m.cls ∈ selective → textOf k ≠ [])

end Verif.Spec
