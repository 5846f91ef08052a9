import Verif.Model.Prog
import Verif.Model.Markdown
/-!
# `to_markdown` on a heap of mutable objects

The functions of `Model/Markdown.lean` as programs (`Model/Prog.lean`) over the heap of `Model/Heap.lean`: nodes, their content lists, attrs and marks are
objects that are read when the code reads them, and the lists which the code fills while it converts children (`lst`, `lines`,
`content_lines`, `content_parts`, `cells`, `decision_blocks`) are objects that are created and appended to in place.

Simplifications: a list that is made and joined within one expression or without a call of `to_markdown` in between (`raw_lines`,
`prefixed_lines`, `processed_lines`, `remaining_lines`) is a value; the elements of a content list are read when the loop starts; the
attrs and marks of a node are read when its `to_markdown` starts.  Recursion is bounded by `fuel`, as in `Model/Heap.lean`.
-/

namespace Verif.HeapMd
open Verif

mutual
/-- The JSON value a variable holds (what `str()`, `isinstance`, `==`, `in` can see of it). -/
def readVal : Nat → HV → Prog Val
  | _, .imm i => Prog.pure i.toVal
  | 0, .ref _ => Prog.throw .recursion
  | fuel + 1, .ref a =>
    (Prog.read a).bind fun o =>
    match o.kind with
    | .list => (readItems fuel o.items).bind fun l => Prog.pure (.list (l.map Prod.snd))
    | .dict => (readItems fuel o.items).bind fun d => Prog.pure (.dict d)
    | .inst _ => Prog.throw (.py .typeError)
termination_by fuel _ => (fuel, 0)

def readItems : Nat → List (String × HV) → Prog (List (String × Val))
  | _, [] => Prog.pure []
  | fuel, (k, x) :: rest =>
    (readVal fuel x).bind fun v => (readItems fuel rest).bind fun d => Prog.pure ((k, v) :: d)
termination_by fuel items => (fuel, items.length + 1)
end

/-- An attribute that is no object of the library. -/
def readPlain (fuel : Nat) : Option HV → Prog (Option Val)
  | none => Prog.pure none
  | some x => (readVal fuel x).bind fun v => Prog.pure (some v)

/-- `self.attrs` -/
def readAttrs (fuel : Nat) : Option HV → Prog (Slot AttrsObj)
  | none => Prog.pure .absent
  | some (.imm i) => Prog.pure (match i with | .opt => .opt | _ => .raw i.toVal)
  | some (.ref a) =>
    (Prog.read a).bind fun o =>
    match o.kind with
    | .inst .attrs => (readItems fuel o.items).bind fun d => Prog.pure (.val ⟨d⟩)
    | .inst _ => Prog.throw (.py .typeError)
    | _ => (readVal fuel (.ref a)).bind fun v => Prog.pure (.raw v)

/-- An element of `self.marks`, if it is a mark: nothing else there has `to_markdown`. -/
def readMark (fuel : Nat) : HV → Prog (Option Mark)
  | .imm _ => Prog.pure none
  | .ref a =>
    (Prog.read a).bind fun o =>
    match o.kind with
    | .inst (.mark c) =>
      (readPlain fuel (itemGet o.items "type")).bind fun t =>
      (readAttrs fuel (itemGet o.items "attrs")).bind fun attrs => Prog.pure (some ⟨c, t.getD .none, attrs⟩)
    | _ => Prog.pure none

/-- The marks up to the first element that is none: there the loop ends with an AttributeError, which is caught
(markdown_helpers.py:195-199). -/
def readMarkList (fuel : Nat) : List (String × HV) → Prog (List Mark)
  | [] => Prog.pure []
  | e :: rest =>
    (readMark fuel e.2).bind fun o =>
    match o with
    | none => Prog.pure []
    | some m => (readMarkList fuel rest).bind fun ms => Prog.pure (m :: ms)

/-- `self.marks` (markdown_helpers.py:195-196): a list of marks is used, anything else is not. -/
def readMarks (fuel : Nat) : Option HV → Prog (Slot (List Mark))
  | none => Prog.pure .absent
  | some (.imm i) => Prog.pure (match i with | .opt => .opt | _ => .raw i.toVal)
  | some (.ref a) =>
    (Prog.read a).bind fun o =>
    match o.kind with
    | .list => (readMarkList fuel o.items).bind fun ms => Prog.pure (.val ms)
    | _ => (readVal fuel (.ref a)).bind fun v => Prog.pure (.raw v)

/-- The attributes of a node other than `content` and `marks`. -/
def readHd (fuel : Nat) (c : NodeCls) (items : List (String × HV)) (marks : Slot (List Mark)) : Prog Hd :=
  (readPlain fuel (itemGet items "type")).bind fun t =>
  (readPlain fuel (itemGet items "version")).bind fun version =>
  (readPlain fuel (itemGet items "text")).bind fun text =>
  (readAttrs fuel (itemGet items "attrs")).bind fun attrs =>
  Prog.pure ⟨c, t.getD .none, version, text, attrs, marks⟩

/-- The node instance `x` refers to; nothing else has `to_markdown`, `is_type_of`, `content` or `attrs`. -/
def nodeOf : HV → Prog (NodeCls × List (String × HV))
  | .imm _ => Prog.throw (.py .attributeError)
  | .ref a =>
    (Prog.read a).bind fun o =>
    match o.kind with
    | .inst (.node c) => Prog.pure (c, o.items)
    | _ => Prog.throw (.py .attributeError)

/-- `x.is_type_of(...)` (mark_or_node.py:105-125) -/
def isTypeOfH (fuel : Nat) (x : HV) (expected : List TypeEnum) : Prog Bool :=
  (nodeOf x).bind fun p =>
  (readPlain fuel (itemGet p.2 "type")).bind fun t => Prog.pure (isTypeOf (t.getD .none) expected)

/-- `for y in x.content` where `c` is `x.content`: the elements visited. -/
def iterH : Option HV → Prog (List HV)
  | none => Prog.throw (.py .attributeError)
  | some (.imm (.str s)) => Prog.pure (s.map fun ch => .imm (.str [ch]))
  | some (.imm _) => Prog.throw (.py .typeError)
  | some (.ref a) =>
    (Prog.read a).bind fun o =>
    match o.kind with
    | .list => Prog.pure (o.items.map Prod.snd)
    | .dict => Prog.pure (o.items.map fun e => .imm (.str e.1.toList))
    | .inst _ => Prog.throw (.py .typeError)

/-- `for y in x.content` -/
def iterContentH (x : HV) : Prog (List HV) := (nodeOf x).bind fun p => iterH (itemGet p.2 "content")

/-- `[]`, `list()` -/
def newList : Prog Nat := Prog.alloc ⟨.list, []⟩

/-- `lst.append(x)` -/
def push (lst : Nat) (x : HV) : Prog Unit := Prog.append lst ("", x)

/-- `lst.extend(...)` -/
def pushAll (lst : Nat) : List Str → Prog Unit
  | [] => Prog.pure ()
  | s :: ss => (push lst (.imm (.str s))).bind fun _ => pushAll lst ss

/-- A string, if it is one. -/
def strView : HV → Val
  | .imm i => i.toVal
  | .ref _ => .none

/-- `sep.join(lst)`: TypeError if an element is no string. -/
def joinH (sep : Str) (lst : Nat) : Prog Str :=
  (Prog.read lst).bind fun o => Prog.ofExcept (strJoin sep (o.items.map fun e => strView e.2))

/-- `child.to_markdown(level=..., ignore_error=...)` -/
abbrev Call : Type := HV → Option Int → Bool → Prog HV

/-- The loop `for x in l: <pre x>; try: r = f x; lst.append(r) except Exception: if ignore_error: pass else: raise`. -/
def collectH {γ : Type} (ig : Bool) (pre : HV → Prog γ) (f : γ → HV → Prog HV) (lst : Nat) : List HV → Prog Unit
  | [] => Prog.pure ()
  | x :: xs =>
    (pre x).bind fun c =>
    Prog.tryElse (f c x) (fun r => (push lst r).bind fun _ => collectH ig pre f lst xs)
      (fun e => if ig then collectH ig pre f lst xs else Prog.throw e)

/-- `content_to_markdown` (markdown_helpers.py:58-101) -/
def contentToMarkdownH (call : Call) (concat : Str) (ig : Bool) (c : Option HV) : Prog Str :=
  match c with
  | some (.imm .opt) => Prog.pure []
  | _ =>
    newList.bind fun lst =>
    (iterH c).bind fun xs =>
    (collectH ig (fun _ => Prog.pure ()) (fun _ x => call x none false) lst xs).bind fun _ =>
    joinH concat lst

/-- `"\n" + md + "\n"` (markdown_helpers.py:150) -/
def padH : HV → Prog HV
  | .imm (.str s) => Prog.pure (.imm (.str ([Str.nl] ++ s ++ [Str.nl])))
  | _ => Prog.throw (.py .typeError)

/-- The `try` body of `doc_content_to_markdown` (markdown_helpers.py:143-152) -/
def docBlockH (fuel : Nat) (call : Call) (x : HV) : Prog HV :=
  (isTypeOfH fuel x [.bulletList, .orderedList, .codeBlock]).bind fun b =>
  if b then (call x none false).bind padH else call x none false

/-- `doc_content_to_markdown` (markdown_helpers.py:104-163) -/
def docContentToMarkdownH (fuel : Nat) (call : Call) (ig : Bool) (c : Option HV) : Prog Str :=
  match c with
  | some (.imm .opt) => Prog.pure []
  | _ =>
    newList.bind fun lst =>
    (iterH c).bind fun xs =>
    (collectH ig (fun _ => Prog.pure ()) (fun _ x => docBlockH fuel call x) lst xs).bind fun _ =>
    (joinH [Str.nl] lst).bind fun s => Prog.pure (stripDoubleEmptyLine 3 s)

/-- `md.rstrip()` -/
def rstripH : HV → Prog HV
  | .imm (.str s) => Prog.pure (.imm (.str (Str.rstrip s)))
  | _ => Prog.throw (.py .attributeError)

/-- One child of a list item (node_bullet_list.py:75-95, node_ordered_list.py:97-117) -/
def listItemChildH (call : Call) (level : Int) (nested : Bool) (x : HV) : Prog HV :=
  if nested then call x (some (level + 1)) false else (call x none false).bind rstripH

/-- The content of one list item (node_bullet_list.py:74-98, node_ordered_list.py:96-120) -/
def listItemContentH (fuel : Nat) (call : Call) (kind : TypeEnum) (level : Int) (ig : Bool) (item : HV) : Prog Str :=
  newList.bind fun contentLines =>
  (iterContentH item).bind fun kids =>
  (collectH ig (fun k => isTypeOfH fuel k [kind]) (listItemChildH call level) contentLines kids).bind fun _ =>
  joinH [Str.nl] contentLines

/-- The outer loop of `NodeBulletList.to_markdown` (node_bullet_list.py:71-108) -/
def bulletLinesH (fuel : Nat) (call : Call) (level : Int) (ig : Bool) (lines : Nat) : List HV → Prog Unit
  | [] => Prog.pure ()
  | x :: xs =>
    (isTypeOfH fuel x [.listItem]).bind fun b =>
    if b then
      (listItemContentH fuel call .bulletList level ig x).bind fun itemContent =>
      (pushAll lines (itemLines (indentOf level ++ ['-', ' ']) itemContent)).bind fun _ =>
      bulletLinesH fuel call level ig lines xs
    else bulletLinesH fuel call level ig lines xs

/-- `NodeBulletList.to_markdown` (node_bullet_list.py:29-110) -/
def bulletListMdH (fuel : Nat) (call : Call) (c : Option HV) (level : Int) (ig : Bool) : Prog Str :=
  newList.bind fun lines =>
  (iterH c).bind fun xs =>
  (bulletLinesH fuel call level ig lines xs).bind fun _ =>
  joinH [Str.nl] lines

/-- The outer loop of `NodeOrderedList.to_markdown` (node_ordered_list.py:93-132) -/
def orderedLinesH (env : Env) (fuel : Nat) (call : Call) (level : Int) (ig : Bool) (lines : Nat) : Val → List HV → Prog Unit
  | _, [] => Prog.pure ()
  | num, x :: xs =>
    (isTypeOfH fuel x [.listItem]).bind fun b =>
    if b then
      (listItemContentH fuel call .orderedList level ig x).bind fun itemContent =>
      (pushAll lines (itemLines (indentOf level ++ num.pyStr env ++ ['.', ' ']) itemContent)).bind fun _ =>
      orderedLinesH env fuel call level ig lines (nextNum num) xs
    else orderedLinesH env fuel call level ig lines num xs

/-- `NodeOrderedList.to_markdown` (node_ordered_list.py:45-134) -/
def orderedListMdH (env : Env) (fuel : Nat) (call : Call) (attrs : Slot AttrsObj) (c : Option HV) (level : Int) (ig : Bool) : Prog Str :=
  newList.bind fun lines =>
  (Prog.ofExcept (orderedStart attrs level)).bind fun start =>
  (iterH c).bind fun xs =>
  (orderedLinesH env fuel call level ig lines start xs).bind fun _ =>
  joinH [Str.nl] lines

/-- `item.attrs.state` (node_task_list.py:107) -/
def stateH (fuel : Nat) (x : HV) : Prog Val :=
  (nodeOf x).bind fun p =>
  (readAttrs fuel (itemGet p.2 "attrs")).bind fun a => Prog.ofExcept (getAttr a "state")

/-- The line of one task item (node_task_list.py:91-111) -/
def taskItemLineH (fuel : Nat) (call : Call) (level : Int) (ig : Bool) (item : HV) : Prog Str :=
  newList.bind fun contentParts =>
  (iterContentH item).bind fun kids =>
  (collectH ig (fun _ => Prog.pure ()) (fun _ k => call k none false) contentParts kids).bind fun _ =>
  (joinH [] contentParts).bind fun s =>
  (stateH fuel item).bind fun state =>
    Prog.pure (indentOf level ++ ['-', ' '] ++
      (if state.asStr? = some "DONE".toList then ['[', 'x', ']'] else ['[', ' ', ']']) ++ [' '] ++ Str.rstrip s)

/-- The loop of `NodeTaskList.to_markdown` (node_task_list.py:88-122) -/
def taskLinesH (fuel : Nat) (call : Call) (level : Int) (ig : Bool) (lines : Nat) : List HV → Prog Unit
  | [] => Prog.pure ()
  | x :: xs =>
    (isTypeOfH fuel x [.taskItem]).bind fun b =>
    if b then
      (taskItemLineH fuel call level ig x).bind fun line =>
      (push lines (.imm (.str line))).bind fun _ => taskLinesH fuel call level ig lines xs
    else
      (isTypeOfH fuel x [.taskList]).bind fun b =>
      if b then
        Prog.tryElse (call x (some (level + 1)) ig) (fun md => (push lines md).bind fun _ => taskLinesH fuel call level ig lines xs)
          (fun e => if ig then taskLinesH fuel call level ig lines xs else Prog.throw e)
      else taskLinesH fuel call level ig lines xs

/-- `NodeTaskList.to_markdown` (node_task_list.py:47-124) -/
def taskListMdH (fuel : Nat) (call : Call) (c : Option HV) (level : Int) (ig : Bool) : Prog Str :=
  newList.bind fun lines =>
  (iterH c).bind fun xs =>
  (taskLinesH fuel call level ig lines xs).bind fun _ =>
  joinH [Str.nl] lines

/-- `NodeDecisionItem.to_markdown` (node_decision_item.py:64-109) -/
def decisionItemMdH (call : Call) (c : Option HV) (ig : Bool) : Prog Str :=
  (contentToMarkdownH call [] ig c).bind fun s =>
  Prog.pure (Str.join [Str.nl] (decisionLoop 0 false (Str.splitNL (Str.rstrip s))))

/-- The loop of `NodeDecisionList.to_markdown` (node_decision_list.py:51-60) -/
def decisionBlocksH (fuel : Nat) (call : Call) (ig : Bool) (blocks : Nat) : List HV → Prog Unit
  | [] => Prog.pure ()
  | x :: xs =>
    (isTypeOfH fuel x [.decisionItem]).bind fun b =>
    if b then
      Prog.tryElse (call x none ig) (fun md => (push blocks md).bind fun _ => decisionBlocksH fuel call ig blocks xs)
        (fun e => if ig then decisionBlocksH fuel call ig blocks xs else Prog.throw e)
    else decisionBlocksH fuel call ig blocks xs

/-- `NodeDecisionList.to_markdown` (node_decision_list.py:39-63) -/
def decisionListMdH (fuel : Nat) (call : Call) (c : Option HV) (ig : Bool) : Prog Str :=
  newList.bind fun blocks =>
  (iterH c).bind fun xs =>
  (decisionBlocksH fuel call ig blocks xs).bind fun _ =>
  joinH [Str.nl, Str.nl] blocks

/-- `NodeTableCell.to_markdown`, `NodeTableHeader.to_markdown` (node_table_cell.py:85-104, node_table_header.py:84-103) -/
def cellMdH (call : Call) (c : Option HV) (ig : Bool) : Prog Str :=
  (contentToMarkdownH call [] ig c).bind fun md =>
  Prog.pure (Str.join "<br>".toList ((Str.splitNL (Str.replace ['|'] ['\\', '|'] md)).map nbspLine))

/-- The cell loop of `NodeTableRow.to_markdown` (node_table_row.py:55-57) -/
def rowCellsH (call : Call) (ig : Bool) (cells : Nat) : List HV → Prog Unit
  | [] => Prog.pure ()
  | x :: xs => (call x none ig).bind fun md => (push cells md).bind fun _ => rowCellsH call ig cells xs

/-- `NodeTableRow.to_markdown` (node_table_row.py:50-58) -/
def tableRowMdH (call : Call) (c : Option HV) (ig : Bool) : Prog Str :=
  newList.bind fun cells =>
  (iterH c).bind fun xs =>
  (rowCellsH call ig cells xs).bind fun _ =>
  (joinH [' ', '|', ' '] cells).bind fun s => Prog.pure (pipeRow s)

/-- `row.content[0].is_type_of(TypeEnum.tableHeader)` and `len(row.content)` (node_table.py:81-82) -/
def headerWidthH (fuel : Nat) (row : HV) : Prog (Option Nat) :=
  (nodeOf row).bind fun p =>
  match itemGet p.2 "content" with
  | none => Prog.throw (.py .attributeError)
  | some (.imm (.str [])) => Prog.throw (.py .indexError)
  | some (.imm (.str _)) => Prog.throw (.py .attributeError)
  | some (.imm _) => Prog.throw (.py .typeError)
  | some (.ref a) =>
    (Prog.read a).bind fun o =>
    match o.kind with
    | .dict => Prog.throw (.py .keyError)
    | .inst _ => Prog.throw (.py .typeError)
    | .list =>
      match o.items with
      | [] => Prog.throw (.py .indexError)
      | e :: rest =>
        (isTypeOfH fuel e.2 [.tableHeader]).bind fun b =>
        Prog.pure (if b then some (rest.length + 1) else none)

/-- The row loop of `NodeTable.to_markdown` (node_table.py:77-87) -/
def tableLinesH (fuel : Nat) (call : Call) (ig : Bool) (lines : Nat) : List HV → Prog Unit
  | [] => Prog.pure ()
  | x :: xs =>
    Prog.tryElse
      ((call x none false).bind fun md =>
        (push lines md).bind fun _ =>
        (headerWidthH fuel x).bind fun w =>
        match w with
        | some n => push lines (.imm (.str (separatorLine n)))
        | none => Prog.pure ())
      (fun _ => tableLinesH fuel call ig lines xs)
      (fun e => if ig then tableLinesH fuel call ig lines xs else Prog.throw e)

/-- `NodeTable.to_markdown` (node_table.py:72-88) -/
def tableMdH (fuel : Nat) (call : Call) (c : Option HV) (ig : Bool) : Prog Str :=
  newList.bind fun lines =>
  (iterH c).bind fun xs =>
  (tableLinesH fuel call ig lines xs).bind fun _ =>
  joinH [Str.nl] lines

/-- `NodeParagraph.to_markdown` (node_paragraph.py:72-81) -/
def paragraphMdH (env : Env) (call : Call) (c : Option HV) (marks : Slot (List Mark)) (ig : Bool) : Prog Str :=
  (contentToMarkdownH call [] ig c).bind fun md =>
  (Prog.ofExcept (addStyle env (.str md) marks)).bind fun v =>
  match v with
  | .str s => Prog.pure (s ++ [Str.nl])
  | _ => Prog.throw (.py .typeError)

/-- `NodeHeading.to_markdown` (node_heading.py:77-89) -/
def headingMdH (call : Call) (attrs : Slot AttrsObj) (c : Option HV) (ig : Bool) : Prog Str :=
  (Prog.ofExcept (getAttr attrs "level")).bind fun level =>
  match level.asInt? with
  | none => Prog.throw (.py .typeError)
  | some n =>
    (contentToMarkdownH call [] ig c).bind fun s =>
    Prog.pure (['\n', '\n'] ++ (Str.rep ['#'] n ++ [' '] ++ s) ++ ['\n', '\n'])

/-- `NodeCodeBlock.to_markdown` (node_code_block.py:54-71) -/
def codeBlockMdH (call : Call) (attrs : Slot AttrsObj) (c : Option HV) (ig : Bool) : Prog Str :=
  (contentToMarkdownH call [] ig c).bind fun code =>
  (Prog.ofExcept (codeLang attrs)).bind fun lang =>
  Prog.pure (['`', '`', '`'] ++ lang ++ ['\n'] ++ code ++ ['\n', '`', '`', '`'])

/-- `NodeBlockquote.to_markdown` (node_blockquote.py:60-76) -/
def blockquoteMdH (fuel : Nat) (call : Call) (c : Option HV) (ig : Bool) : Prog Str :=
  (docContentToMarkdownH fuel call ig c).bind fun s =>
  Prog.pure (Str.indentAll ['>', ' '] (stripDoubleEmptyLine 3 s) ++ [Str.nl])

/-- `NodePanel.to_markdown` (node_panel.py:99-121) -/
def panelMdH (env : Env) (fuel : Nat) (call : Call) (attrs : Slot AttrsObj) (c : Option HV) (ig : Bool) : Prog Str :=
  (Prog.ofExcept (getAttr attrs "panelType")).bind fun pt =>
  match pt.asStr? with
  | none => Prog.throw (.py .attributeError)
  | some ptype =>
    (docContentToMarkdownH fuel call ig c).bind fun s =>
    Prog.pure (Str.indentAll ['>', ' '] (stripDoubleEmptyLine 3
      (Str.join [Str.nl] [['*', '*'] ++ upper env ptype ++ ['*', '*'], [], s])) ++ [Str.nl])

/-- A value computed from `x`: a new string, or `x` itself. -/
def strOr (x : HV) : Val → HV
  | .str s => .imm (.str s)
  | _ => x

/-- `NodeExpand.to_markdown` (node_expand.py:83-95) -/
def expandMdH (env : Env) (fuel : Nat) (call : Call) (c : Option HV) (marks : Slot (List Mark)) (ig : Bool) : Prog HV :=
  (docContentToMarkdownH fuel call ig c).bind fun s =>
  (Prog.ofExcept (addStyle env (.str s) marks)).bind fun v => Prog.pure (strOr (.imm .none) v)

/-- `NodeText.to_markdown` (node_text.py:52-58): without marks that change it, the text is returned as it is. -/
def textMdH (env : Env) (fuel : Nat) (text : Option HV) (marks : Slot (List Mark)) : Prog HV :=
  match text with
  | none => Prog.throw (.py .attributeError)
  | some x =>
    (readVal fuel x).bind fun v =>
    (Prog.ofExcept (addStyle env v marks)).bind fun r => Prog.pure (strOr x r)

/-- A string result as a value. -/
def strValH (x : Prog Str) : Prog HV := x.bind fun s => Prog.pure (.imm (.str s))

/-- The body of `to_markdown` by class (`dispatch`); `items` are the attributes of the instance.  The classes that do not look at their
children compute a string from what was read. -/
def bodyH (env : Env) (fuel : Nat) (call : Call) (hd : Hd) (items : List (String × HV)) (level : Option Int) (ig : Bool) : Prog HV :=
  match hd.cls with
  | .doc => strValH (docContentToMarkdownH fuel call ig (itemGet items "content"))
  | .text => textMdH env fuel (itemGet items "text") hd.marks
  | .listItem => strValH (contentToMarkdownH call [] ig (itemGet items "content"))
  | .bulletList => strValH (bulletListMdH fuel call (itemGet items "content") (level.getD 0) ig)
  | .orderedList => strValH (orderedListMdH env fuel call hd.attrs (itemGet items "content") (level.getD 0) ig)
  | .paragraph => strValH (paragraphMdH env call (itemGet items "content") hd.marks ig)
  | .taskItem => strValH (contentToMarkdownH call [] ig (itemGet items "content"))
  | .taskList => strValH (taskListMdH fuel call (itemGet items "content") (level.getD 0) ig)
  | .decisionItem => strValH (decisionItemMdH call (itemGet items "content") ig)
  | .decisionList => strValH (decisionListMdH fuel call (itemGet items "content") ig)
  | .heading => strValH (headingMdH call hd.attrs (itemGet items "content") ig)
  | .codeBlock => strValH (codeBlockMdH call hd.attrs (itemGet items "content") ig)
  | .mediaSingle => strValH (contentToMarkdownH call [] ig (itemGet items "content"))
  | .panel => strValH (panelMdH env fuel call hd.attrs (itemGet items "content") ig)
  | .blockquote => strValH (blockquoteMdH fuel call (itemGet items "content") ig)
  | .expand => expandMdH env fuel call (itemGet items "content") hd.marks ig
  | .nestedExpand => strValH (docContentToMarkdownH fuel call ig (itemGet items "content"))
  | .tableCell => strValH (cellMdH call (itemGet items "content") ig)
  | .tableHeader => strValH (cellMdH call (itemGet items "content") ig)
  | .tableRow => strValH (tableRowMdH call (itemGet items "content") ig)
  | .table => strValH (tableMdH fuel call (itemGet items "content") ig)
  | _ => (Prog.ofExcept (dispatch env hd .absent level ig)).bind fun v => Prog.pure (strOr (.imm .none) v)

/-- `x.to_markdown(level=..., ignore_error=...)` for any `x` (mark_or_node.py:306-321, nodes/*.py): anything but a node has no such
method; an unexpected keyword argument is a TypeError. -/
def markdownH (env : Env) : Nat → HV → Option Int → Bool → Prog HV
  | 0, _, _, _ => Prog.throw .recursion
  | fuel + 1, x, level, ig =>
    (nodeOf x).bind fun p =>
    if level.isSome && !p.1.takesLevel then Prog.throw (.py .typeError)
    else
      (readMarks fuel (itemGet p.2 "marks")).bind fun marks =>
      (readHd fuel p.1 p.2 marks).bind fun hd =>
      bodyH env fuel (markdownH env fuel) hd p.2 level ig

end Verif.HeapMd
