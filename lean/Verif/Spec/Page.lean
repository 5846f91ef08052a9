import Verif.Spec.Shows
import Verif.Spec.Words
import Verif.Spec.Marks
import Verif.Spec.Preserve
/-!
# Specification: a page, as the editor shows it and as a reader of its Markdown finds it

`seen` is what a node shows in the editor: blocks of styled text. `richBlocks` reads the inline content of the blocks that a
reader of Markdown finds (`Reads`). `Clear` are the conditions on the inline content under which the two agree (C85).
-/

namespace Verif.Spec
open Verif

/-- Blocks with styled text. An item of a list, a quote, a cell of a table is a list of blocks; the first row of a table is its
head. -/
inductive Rich where
  | para (text : List Glyph)
  | heading (level : Nat) (text : List Glyph)
  | rule
  | code (info : Str) (lines : List Str)
  | quote (blocks : List Rich)
  | bullets (items : List (List Rich))
  | numbers (start : Nat) (items : List (List Rich))
  | task (done : Bool) (text : List Glyph)
  | table (rows : List (List (List Rich)))

/-! ## What a reader of Markdown finds -/

/-- GFM 4.10: inside a cell, `\|` is a pipe. -/
def unescapePipes : Str → Str
  | '\\' :: '|' :: s => '|' :: unescapePipes s
  | c :: s => c :: unescapePipes s
  | [] => []

/-- The pieces of a text between the HTML line breaks. -/
def splitBr : Str → List Str
  | '<' :: 'b' :: 'r' :: '>' :: s => [] :: splitBr s
  | c :: s => match splitBr s with
    | [] => [[c]]
    | a :: l => (c :: a) :: l
  | [] => [[]]

/-- The lines of a cell. -/
def cellBlocks (uni : Char → CharClass) (s : Str) : Option (List Rich) :=
  ((splitBr (unescapePipes s)).filter fun t => !t.isEmpty).mapM fun t => (readInline uni t).map .para

/-- GFM 5.3: the check box at the beginning of an item. -/
def taskBox : Str → Option (Bool × Str)
  | '[' :: ' ' :: ']' :: ' ' :: t => some (false, t)
  | '[' :: 'x' :: ']' :: ' ' :: t => some (true, t)
  | '[' :: 'X' :: ']' :: ' ' :: t => some (true, t)
  | _ => none

/-- The first paragraph of an item. -/
def itemText (uni : Char → CharClass) (s : Str) : Option Rich :=
  match taskBox s with
  | some (done, t) => (readInline uni t).map (.task done)
  | none => (readInline uni s).map .para

mutual
def richBlock (uni : Char → CharClass) : Block → Option Rich
  | .para ls => (readInline uni (lines ls)).map .para
  | .heading k t => (readInline uni t).map (.heading k)
  | .rule => some .rule
  | .code info ls => some (.code info ls)
  | .quote bs => (richBlocks uni bs).map .quote
  | .bullets items => (richItems uni items).map .bullets
  | .numbers k items => (richItems uni items).map (.numbers k)
  | .table head rows => ((head :: rows).mapM fun (r : List Str) => r.mapM (cellBlocks uni)).map .table

def richBlocks (uni : Char → CharClass) : List Block → Option (List Rich)
  | [] => some []
  | b :: bs => (richBlock uni b).bind fun r => (richBlocks uni bs).map (r :: ·)

def richItem (uni : Char → CharClass) : List Block → Option (List Rich)
  | .para ls :: bs => (itemText uni (lines ls)).bind fun r => (richBlocks uni bs).map (r :: ·)
  | b :: bs => (richBlock uni b).bind fun r => (richBlocks uni bs).map (r :: ·)
  | [] => some []

def richItems (uni : Char → CharClass) : List (List Block) → Option (List (List Rich))
  | [] => some []
  | bs :: items => (richItem uni bs).bind fun r => (richItems uni items).map (r :: ·)
end

/-! ## What the editor shows -/

/-- The text of a text node. -/
def wordsOf (n : Node) : Option Str :=
  match n.cls, n.hd.text with
  | .text, some (.str t) => some t
  | _, _ => none

/-- The number of the first item of a numbered list. -/
def startOf (n : Node) : Nat :=
  match attr n "order" with
  | some (.int k) => k.toNat
  | _ => 1

/-- Is the task done? -/
def isDone (n : Node) : Bool := strAttr n "state" == some "DONE".toList

/-- The tasks of a list: a nested list belongs to the task before it. The first component are the lists before the first task. -/
def tasksIn : List (Node × Option (List Rich)) → Option (List Rich × List (List Rich))
  | [] => some ([], [])
  | (k, s) :: view =>
    if k.cls = .taskItem then s.bind fun t => (tasksIn view).map fun p => ([], (t ++ p.1) :: p.2)
    else if k.cls = .taskList then s.bind fun t => (tasksIn view).map fun p => (t ++ p.1, p.2)
    else tasksIn view

/-- The cells of a row. -/
def rowCells? : List Rich → Option (List (List Rich))
  | [.table [cells]] => some cells
  | _ => none

/-- A character or an image, in a link if there is one. -/
def inLink : Option Str → Glyph → Glyph
  | some u => relink u
  | none => id

/-- What a node shows, given its children and what they show. The name of a panel is shown in capitals; the title of an expand is not
shown. -/
def seenBy (env : Env) (n : Node) (view : List (Node × Option (List Rich))) : Option (List Rich) :=
  let kids := view.map Prod.fst
  let text := (kids.mapM (shown env)).map List.flatten
  let blocks := ((view.map Prod.snd).mapM id).map List.flatten
  let only (c : NodeCls) := ((view.filter fun p => decide (p.1.cls = c)).map Prod.snd).mapM id
  match n.cls with
  | .paragraph => text.map fun t => if t.isEmpty then [] else [.para t]
  | .mediaSingle => text.map fun t => if t.isEmpty then [] else [.para (t.map (inLink (styleOf (markList n)).link))]
  | .decisionItem => text.map fun t => [.para t]
  | .taskItem => text.map fun t => [.task (isDone n) t]
  | .heading => match attr n "level" with
    | some (.int k) => text.map fun t => [.heading k.toNat t]
    | _ => none
  | .rule => some [.rule]
  | .codeBlock => (kids.mapM wordsOf).map fun ts => [.code (language n) (ts.flatten.splitOn '\n')]
  | .blockquote => blocks.map fun bs => [.quote bs]
  | .panel => (strAttr n "panelType").bind fun ty =>
      blocks.map fun bs => [.quote (.para ((upper env ty).map (.char · { strong := true })) :: bs)]
  | .doc | .expand | .nestedExpand | .listItem | .tableCell | .tableHeader => blocks
  | .bulletList => (only .listItem).map fun items => [.bullets items]
  | .orderedList => (only .listItem).map fun items => [.numbers (startOf n) items]
  | .taskList => match tasksIn view with
    | some ([], items) => some [.bullets items]
    | _ => none
  | .decisionList => (only .decisionItem).map fun items => items.map .quote
  | .tableRow => ((view.map Prod.snd).mapM id).map fun cells => [.table [cells]]
  | .table => (view.mapM fun (p : Node × Option (List Rich)) => p.2.bind rowCells?).bind fun rows => match rows with
    | head :: rest => some [.table (head :: rest.map fun r => r ++ List.replicate (head.length - r.length) [])]
    | [] => none
  | .blockCard | .embedCard => (strAttr n "url").map fun u => [.para (u.map (.char · { link := some u }))]
  | _ => none

mutual
/-- What a node shows in the editor. -/
def seen (env : Env) : Node → Option (List Rich)
  | .mk hd (.val kids) => seenBy env (.mk hd (.val kids)) (kids.zip (seenEach env kids))
  | .mk hd c => seenBy env (.mk hd c) []

def seenEach (env : Env) : List Node → List (Option (List Rich))
  | [] => []
  | k :: kids => seen env k :: seenEach env kids
end

/-! ## Readable pages -/

/-- Readable inline content that does not end with white space. -/
def Neat (env : Env) (uni : Char → CharClass) (kids : List Node) : Prop :=
  ∃ ws, List.Forall₂ (WordOf env) kids ws ∧ fineWords uni none ws = true ∧
    ∀ c ∈ (ws.flatMap Word.str).getLast?, blank c = false

/-- The children of a node. -/
def children (n : Node) : List Node := match n.content with | .val kids => kids | _ => []

/-- The content of a node, taken by itself, is readable: inline content is neat, code is plain text, decisions have one line, cells have
only paragraphs of one line, and nested numbered lists start with 1. -/
def clear (env : Env) (uni : Char → CharClass) (n : Node) : Prop :=
  match n.cls with
  | .paragraph => Neat env uni (children n) ∧ ∀ m ∈ markList n, m.cls ∈ plainMarks
  | .mediaSingle => Neat env uni (children n) ∧ (∀ m ∈ markList n, m.cls ∈ plainMarks) ∧ ∀ k ∈ children n, k.cls = .media
  | .heading | .taskItem => Neat env uni (children n)
  | .decisionItem => Neat env uni (children n) ∧ ∀ ss, MdAll env (children n) ss → '\n' ∉ ss.flatten
  | .codeBlock => ∀ k ∈ children n, (wordsOf k).isSome ∧ ∀ m ∈ markList k, m.cls ∈ plainMarks
  | .panel => ∀ ty, strAttr n "panelType" = some ty → fine uni none [.wrap '*' 2] (upper env ty) none = true
  | .blockCard | .embedCard => ∃ u, strAttr n "url" = some u ∧ fine uni none [.link u] u none = true
  | .listItem => ∀ k ∈ children n, k.cls = .orderedList → startOf k = 1
  | .tableCell | .tableHeader => ∀ k ∈ children n, k.cls = .paragraph ∧
      ∀ s, Md env k s → ∃ t, s = t ++ "\n".toList ∧ '\n' ∉ t ∧ ¬ "<br>".toList <:+: t
  | .mediaGroup | .extension => False
  | _ => True

/-- Everything in a node is readable. -/
def Clear (env : Env) (uni : Char → CharClass) (n : Node) : Prop := ∀ m, Below m n → clear env uni m

end Verif.Spec
