import Verif.Spec.Md
import Verif.Spec.Timestamp
import Verif.Spec.Calendar
/-!
# Specification: which parts of a document are converted, and what makes a part fail

`Calls n l c l'`: converting `n` with `level` argument `l` (`none`: not passed) converts `c` with `l'`.
`Fault env n l`: converting `n` with `l` fails (or gives no string) for a reason of its own, not because
a part it converts fails.
-/

namespace Verif.Spec
open Verif

/-- Strict conversion with this `level` argument gives a string. -/
def Gives (env : Env) (l : Option Int) (n : Node) : Prop := ∃ s, n.toMarkdownAt env l false = .ok (.str s)

/-- The `level` argument is only passed to lists and task lists. -/
def LevelFits (n : Node) (l : Option Int) : Prop :=
  l = none ∨ n.cls = .bulletList ∨ n.cls = .orderedList ∨ n.cls = .taskList

/-- An element of the content. -/
def IsChild (c n : Node) : Prop := ∃ kids, n.content = .val kids ∧ c ∈ kids

/-- Direct calls. -/
def Calls (n : Node) (l : Option Int) (c : Node) (l' : Option Int) : Prop :=
  match n.cls with
  -- containers, rows and tables convert all their children
  | .doc | .blockquote | .panel | .expand | .nestedExpand | .paragraph | .heading | .codeBlock
  | .tableCell | .tableHeader | .listItem | .taskItem | .decisionItem | .mediaSingle
  | .table | .tableRow => IsChild c n ∧ l' = none
  -- lists convert the children of their items; a list of the same kind is told its depth
  | .bulletList | .orderedList =>
    ∃ i, IsChild i n ∧ i.cls = .listItem ∧ IsChild c i ∧
      l' = if c.cls = n.cls then some (l.getD 0 + 1) else none
  -- task lists convert the children of their tasks, and the task lists among their children
  | .taskList =>
    (∃ i, IsChild i n ∧ i.cls = .taskItem ∧ IsChild c i ∧ l' = none) ∨
      (IsChild c n ∧ c.cls = .taskList ∧ l' = some (l.getD 0 + 1))
  -- decision lists convert their decisions
  | .decisionList => IsChild c n ∧ c.cls = .decisionItem ∧ l' = none
  | _ => False

/-- `x` is `n` or converted, directly or indirectly, when `n` is. -/
inductive Reaches : Node → Option Int → Node → Option Int → Prop where
  | here (n : Node) (l : Option Int) : Reaches n l n l
  | step {n c x : Node} {l l' l'' : Option Int} (h : Calls n l c l') (hr : Reaches c l' x l'') :
      Reaches n l x l''

/-- `for x in n.content` goes through nodes only: the content is a list, or an empty string or object. -/
def Iterates (n : Node) : Prop :=
  (∃ kids, n.content = .val kids) ∨
    n.content = .raw (.str []) ∨ n.content = .raw (.dict []) ∨ n.content = .raw (.list [])

/-- A container's content is neither omitted nor a list of nodes nor empty. -/
def BadContent (n : Node) : Prop := n.content ≠ .opt ∧ ¬ Iterates n

/-- The text of the children, before the paragraph's own marks. -/
def ChildText (env : Env) (n : Node) (s : Str) : Prop :=
  (∃ kids ss, n.content = .val kids ∧ MdAll env kids ss ∧ s = ss.flatten) ∨
    ((∀ kids, n.content ≠ .val kids) ∧ s = [])

/-- The marks of `n` cannot be applied to `s`. -/
def MarksFail (env : Env) (n : Node) (s : Str) : Prop := ∀ t, ¬ Styled env n s t

/-- The attribute `k` of `n` is the string `s`. -/
def StrAttr (n : Node) (k : String) (s : Str) : Prop := attr n k = some (.str s)

/-- `True`, `False` or an integer. -/
def IsInt (v : Val) : Prop := (∃ i, v = .int i) ∨ ∃ b, v = .bool b

/-- The timestamp of a day between 0001-01-01 and 9999-12-31. -/
def Datable (env : Env) (ts : Val) : Prop :=
  ∃ t y m d, Timestamp env ts t ∧ ValidDate y m d ∧ y ≤ 9999 ∧ IsUtcDay t (dayNumber y m d)

/-- What a media shows: an image link for type "external" with a url and for type "file". -/
def MediaImage (env : Env) (n : Node) (s : Str) : Prop :=
  ∃ alt target : Str,
    s = "![".toList ++ alt ++ "](".toList ++ target ++ ")".toList ∧
    (StrAttr n "alt" alt ∨ ((∀ a, ¬ StrAttr n "alt" a) ∧ alt = "media".toList)) ∧
    ((StrAttr n "type" "external".toList ∧ StrAttr n "url" target) ∨
     (StrAttr n "type" "file".toList ∧ ∃ v, attr n "id" = some v ∧ target = "media:".toList ++ v.pyStr env))

/-- Reasons to fail that lie in the node itself (for nodes returned by `parse_node`). -/
def Fault (env : Env) (n : Node) (l : Option Int) : Prop :=
  match n.cls with
  | .doc | .blockquote | .expand | .nestedExpand | .listItem | .taskItem | .decisionItem | .mediaSingle
  | .tableCell | .tableHeader | .codeBlock => BadContent n
  | .panel => BadContent n ∨ ∀ s, ¬ StrAttr n "panelType" s
  | .heading => BadContent n ∨ ∃ v, attr n "level" = some v ∧ ¬ IsInt v
  | .paragraph => BadContent n ∨ ∃ s, ChildText env n s ∧ MarksFail env n s
  -- lists: the content, or that of an item, is no list; a numbered list at level 0 has no attrs
  | .bulletList => ¬ Iterates n ∨ ∃ i, IsChild i n ∧ i.cls = .listItem ∧ ¬ Iterates i
  | .orderedList => ¬ Iterates n ∨ (∃ i, IsChild i n ∧ i.cls = .listItem ∧ ¬ Iterates i) ∨
      (l.getD 0 = 0 ∧ n.hd.attrs = .opt)
  | .taskList => ¬ Iterates n ∨ ∃ i, IsChild i n ∧ i.cls = .taskItem ∧ ¬ Iterates i
  | .decisionList | .tableRow => ¬ Iterates n
  -- a row has no cells
  | .table => ¬ Iterates n ∨ ∃ r, IsChild r n ∧ ∀ c, ¬ IsChild c r
  -- the text is no string and its marks do not make it one, or its marks cannot be applied
  | .text => (∃ s, n.hd.text = some (.str s) ∧ MarksFail env n s) ∨
      ((∀ s, n.hd.text ≠ some (.str s)) ∧ ∀ t, ¬ Md env n t)
  | .emoji => (∀ s, ¬ StrAttr n "text" s) ∧ ∀ s, ¬ StrAttr n "shortName" s
  | .date => ∃ ts, attr n "timestamp" = some ts ∧ ¬ Datable env ts
  | .inlineCard | .blockCard => ∀ s, ¬ StrAttr n "url" s
  | .media => ¬ StrAttr n "type" "link".toList ∧
      ((∀ s, ¬ MediaImage env n s) ∨ ∃ s, MediaImage env n s ∧ MarksFail env n s)
  | .rule | .hardBreak | .mention | .status | .embedCard | .extension
  | .mediaGroup | .caption | .mediaInline => False

end Verif.Spec
