import Mathlib.Data.List.Forall2
import Verif.Spec.Registry
import Verif.Spec.Text
import Verif.Model.Markdown
import Verif.Model.FromDict
/-!
# Vocabulary for statements about `to_markdown`
-/

namespace Verif.Spec
open Verif

/-- The node's own `type` is the type string its class stands for (true of every node returned by
`parse_node`, hence of every child of a parsed node, and of every node constructed with the default
type). -/
def HasType (n : Node) : Prop :=
  ∃ name : String, (name, n.cls) ∈ nodeTypes ∧ n.hd.type = .str name.toList

/-- Returned by `parse_node`. -/
def Parsed (n : Node) : Prop := ∃ w v, (parseNode w v).out = .ok n

/-- Strict conversion succeeds. -/
def converts (env : Env) (n : Node) : Bool :=
  match n.toMarkdown env false with
  | .ok _ => true
  | .error _ => false

/-- `n.to_markdown()` returns the string `s`. -/
def Md (env : Env) (n : Node) (s : Str) : Prop := n.toMarkdown env false = .ok (.str s)

/-- The children's conversions are `l`, one by one. -/
def MdAll (env : Env) (kids : List Node) (l : List Str) : Prop :=
  List.Forall₂ (Md env) kids l

/-- The node is no text node with a non-string `text`. -/
def TextIsStr (n : Node) : Prop := n.cls = .text → ∃ s, n.hd.text = some (.str s)

/-- A newline-separated list of strings. -/
def lines (l : List Str) : Str := ['\n'].intercalate l

/-- `k` spaces. -/
def spaces (k : Nat) : Str := List.replicate k ' '

/-- Lists and code blocks are set off by a newline on both sides. -/
def padded (n : Node) (s : Str) : Str :=
  match n.cls with
  | .bulletList | .orderedList | .codeBlock => ['\n'] ++ s ++ ['\n']
  | _ => s

/-- The text of a sequence of blocks with conversions `ss`, before the clean-up of blank lines. -/
def blocks (kids : List Node) (ss : List Str) : Str := lines (List.zipWith padded kids ss)

/-- `m` passes of the clean-up of blank lines (`C15_runs`: what `strip_double_empty_line` does). -/
def cleaned (m : Nat) (s : Str) : Str := mapRuns (iter shrink m) s

/-- The text of a document with blocks `kids` whose conversions are `ss`. -/
def docText (kids : List Node) (ss : List Str) : Str := cleaned 3 (blocks kids ss)

/-- Classes that convert their children by the plain loop: the children are concatenated and then
post-processed, except `mediaSingle`, `listItem`, `taskItem` which return the concatenation. -/
def plainContainers : List NodeCls :=
  [.paragraph, .heading, .codeBlock, .tableCell, .tableHeader, .listItem, .taskItem, .decisionItem,
   .mediaSingle]

/-- Classes that convert their children as a sequence of blocks. -/
def blockContainers : List NodeCls := [.doc, .blockquote, .panel, .expand, .nestedExpand]

/-- The value of the node's attribute `k` (`n.attrs.k`), if it has one. -/
def attr (n : Node) (k : String) : Option Val :=
  match n.hd.attrs with
  | .val a => lookupKey a.fields k
  | _ => none

/-- `t` is `s` with the marks of `n` applied, the first mark first. -/
def Styled (env : Env) (n : Node) (s t : Str) : Prop :=
  match n.hd.marks with
  | .val ms => ms.foldlM (fun md m => m.toMarkdown env md) (.str s) = .ok (.str t)
  | _ => t = s

/-- Every mark of `n` came from `parse_mark`. -/
def MarksParsed (n : Node) : Prop := ∀ ms, n.hd.marks = .val ms → ∀ m ∈ ms, ∃ v, parseMark v = .ok m

/-- Containers without any decoration. -/
def transparent : List NodeCls := [.listItem, .taskItem, .mediaSingle]

/-- Containers whose children never appear in the Markdown. -/
def silent : List NodeCls := [.mediaGroup, .caption, .mediaInline]

/-- Every line of `ls` prefixed with `> `, as one text. -/
def quoted (ls : List Str) : Str := (ls.map ("> ".toList ++ ·)).flatten

/-- The language tag of a code block: `attrs.language` if it is a string other than `none`. -/
def language (n : Node) : Str :=
  match attr n "language" with
  | some (.str l) => if l = "none".toList then [] else l
  | _ => []

end Verif.Spec
