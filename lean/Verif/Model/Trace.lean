import Verif.Model.Markdown
/-!
# Which calls a conversion makes

The same functions as in `Model/Markdown`, with a record of the calls of `to_markdown`: a call is recorded, as the place of the node
in the tree (the numbers of the children on the way to it), when the body of the node's `to_markdown` starts.  Calls of the marks'
`to_markdown` are not recorded.  `deep` is the greatest number of frames that are on the stack at the same time above the caller's, for
the functions called here that call a node's `to_markdown` themselves: the `to_markdown` methods, `content_to_markdown` and
`doc_content_to_markdown`; the frames of functions that call none of these (`is_type_of`, `add_style_to_markdown`,
`strip_double_empty_line`, the standard library) are not counted.  `Props/Trace` proves that without the record these are the functions
of `Model/Markdown`.
-/

namespace Verif.Trace
open Verif

/-- A computation with the calls it made. -/
structure Tr (α : Type) where
  log : List (List Nat)
  out : Except PyErr α
  deep : Nat

/-- A computation without calls. -/
def Tr.of {α : Type} (x : Except PyErr α) : Tr α := ⟨[], x, 0⟩

/-- One after the other; an exception ends it. -/
def Tr.bind {α β : Type} (x : Tr α) (f : α → Tr β) : Tr β :=
  match x.out with
  | .error e => ⟨x.log, .error e, x.deep⟩
  | .ok a => ⟨x.log ++ (f a).log, (f a).out, max x.deep (f a).deep⟩

def Tr.map {α β : Type} (f : α → β) (x : Tr α) : Tr β := x.bind fun a => .of (.ok (f a))

/-- `try: x; ok(..) except Exception: failed(..)` -/
def Tr.tryElse {α β : Type} (x : Tr α) (ok : α → Tr β) (failed : PyErr → Tr β) : Tr β :=
  match x.out with
  | .ok a => ⟨x.log ++ (ok a).log, (ok a).out, max x.deep (ok a).deep⟩
  | .error e => ⟨x.log ++ (failed e).log, (failed e).out, max x.deep (failed e).deep⟩

/-- The call of a function: one more frame. -/
def Tr.frame {α : Type} (x : Tr α) : Tr α := ⟨x.log, x.out, x.deep + 1⟩

/-- A child (`Kid`), its calls recorded. -/
structure TKid where
  isNode : Bool
  type : Val
  render : Option Int → Bool → Tr Val

/-- A child with its attrs and content (`Item`). -/
structure TItem extends TKid where
  attrs : Slot AttrsObj
  content : Slot (List TKid)

/-- An element that is no node (`alienKid`): it has no `to_markdown`. -/
def alienTKid : TKid := { isNode := false, type := .none, render := fun _ _ => .of (.error .attributeError) }

def alienTItem : TItem := { alienTKid with attrs := .absent, content := .absent }

/-- `x.is_type_of(...)` (mark_or_node.py:105-125) -/
def TKid.isTypeOf (k : TKid) (expected : List TypeEnum) : Except PyErr Bool :=
  if k.isNode then .ok (Verif.isTypeOf k.type expected) else .error .attributeError

/-- The loop with `try` (`collectPre`). -/
def collectPreT {α β γ : Type} (ig : Bool) (pre : α → Except PyErr γ) (f : γ → α → Tr β) : List α → Tr (List β)
  | [] => .of (.ok [])
  | a :: as =>
    (Tr.of (pre a)).bind fun c =>
    (f c a).tryElse (fun b => (collectPreT ig pre f as).map (b :: ·))
      (fun e => if ig then collectPreT ig pre f as else .of (.error e))

/-- The same with everything inside the `try` (`collect`). -/
def collectT {α β : Type} (ig : Bool) (f : α → Tr β) : List α → Tr (List β) :=
  collectPreT ig (fun _ => .ok ()) (fun _ a => f a)

/-- The body of `content_to_markdown` (markdown_helpers.py:58-101) -/
def contentBodyT (concat : Str) (ig : Bool) (content : Slot (List TItem)) : Tr Str :=
  match content with
  | .opt => .of (.ok [])
  | _ =>
    (Tr.of (iterSlot alienTItem content)).bind fun items =>
    (collectT ig (fun (k : TItem) => k.render none false) items).bind fun lst =>
    .of (strJoin concat lst)

/-- `content_to_markdown` (markdown_helpers.py:58-101) -/
def contentToMarkdownT (concat : Str) (ig : Bool) (content : Slot (List TItem)) : Tr Str := (contentBodyT concat ig content).frame

/-- The `try` body of `doc_content_to_markdown` (markdown_helpers.py:143-152) -/
def docBlockT (k : TItem) : Tr Val :=
  (Tr.of (k.isTypeOf [.bulletList, .orderedList, .codeBlock])).bind fun b =>
  if b then (k.render none false).bind fun md => .of (padNewlines md) else k.render none false

/-- The body of `doc_content_to_markdown` (markdown_helpers.py:104-163) -/
def docContentBodyT (ig : Bool) (content : Slot (List TItem)) : Tr Str :=
  match content with
  | .opt => .of (.ok [])
  | _ =>
    (Tr.of (iterSlot alienTItem content)).bind fun items =>
    (collectT ig docBlockT items).bind fun lst =>
    (Tr.of (strJoin [Str.nl] lst)).map (stripDoubleEmptyLine 3)

/-- `doc_content_to_markdown` (markdown_helpers.py:104-163) -/
def docContentToMarkdownT (ig : Bool) (content : Slot (List TItem)) : Tr Str := (docContentBodyT ig content).frame

/-- One child of a list item (node_bullet_list.py:75-95, node_ordered_list.py:97-117) -/
def listItemChildT (level : Int) (nested : Bool) (k : TKid) : Tr Val :=
  if nested then k.render (some (level + 1)) false
  else (k.render none false).bind fun md => (Tr.of (rstripVal md)).map .str

/-- The content of one list item (node_bullet_list.py:74-98, node_ordered_list.py:96-120) -/
def listItemContentT (kind : TypeEnum) (level : Int) (ig : Bool) (item : TItem) : Tr Str :=
  (Tr.of (iterSlot alienTKid item.content)).bind fun kids =>
  (collectPreT ig (fun (k : TKid) => k.isTypeOf [kind]) (listItemChildT level) kids).bind fun lst =>
  .of (strJoin [Str.nl] lst)

/-- The outer loop of `NodeBulletList.to_markdown` (node_bullet_list.py:71-108) -/
def bulletLinesT (level : Int) (ig : Bool) : List TItem → Tr (List Str)
  | [] => .of (.ok [])
  | item :: items =>
    (Tr.of (item.isTypeOf [.listItem])).bind fun b =>
    if b then
      (listItemContentT .bulletList level ig item).bind fun itemContent =>
      (bulletLinesT level ig items).map fun rest => itemLines (indentOf level ++ ['-', ' ']) itemContent ++ rest
    else bulletLinesT level ig items

/-- `NodeBulletList.to_markdown` (node_bullet_list.py:29-110) -/
def bulletListMdT (content : Slot (List TItem)) (level : Int) (ig : Bool) : Tr Str :=
  (Tr.of (iterSlot alienTItem content)).bind fun items =>
  (bulletLinesT level ig items).map (Str.join [Str.nl])

/-- The outer loop of `NodeOrderedList.to_markdown` (node_ordered_list.py:93-132) -/
def orderedLinesT (env : Env) (level : Int) (ig : Bool) : Val → List TItem → Tr (List Str)
  | _, [] => .of (.ok [])
  | num, item :: items =>
    (Tr.of (item.isTypeOf [.listItem])).bind fun b =>
    if b then
      (listItemContentT .orderedList level ig item).bind fun itemContent =>
      (orderedLinesT env level ig (nextNum num) items).map fun rest =>
        itemLines (indentOf level ++ num.pyStr env ++ ['.', ' ']) itemContent ++ rest
    else orderedLinesT env level ig num items

/-- `NodeOrderedList.to_markdown` (node_ordered_list.py:45-134) -/
def orderedListMdT (env : Env) (attrs : Slot AttrsObj) (content : Slot (List TItem)) (level : Int) (ig : Bool) : Tr Str :=
  (Tr.of (orderedStart attrs level)).bind fun start =>
  (Tr.of (iterSlot alienTItem content)).bind fun items =>
  (orderedLinesT env level ig start items).map (Str.join [Str.nl])

/-- The line of one task item (node_task_list.py:91-111) -/
def taskItemLineT (level : Int) (ig : Bool) (item : TItem) : Tr Str :=
  (Tr.of (iterSlot alienTKid item.content)).bind fun kids =>
  (collectT ig (fun (k : TKid) => k.render none false) kids).bind fun parts =>
  (Tr.of (strJoin [] parts)).bind fun s =>
  (Tr.of (getAttr item.attrs "state")).map fun state =>
    let checkbox := if state.asStr? = some "DONE".toList then ['[', 'x', ']'] else ['[', ' ', ']']
    indentOf level ++ ['-', ' '] ++ checkbox ++ [' '] ++ Str.rstrip s

/-- The loop of `NodeTaskList.to_markdown` (node_task_list.py:88-122) -/
def taskLinesT (level : Int) (ig : Bool) : List TItem → Tr (List Val)
  | [] => .of (.ok [])
  | item :: items =>
    (Tr.of (item.isTypeOf [.taskItem])).bind fun b =>
    if b then
      (taskItemLineT level ig item).bind fun line => (taskLinesT level ig items).map (.str line :: ·)
    else
      (Tr.of (item.isTypeOf [.taskList])).bind fun b =>
      if b then
        (item.render (some (level + 1)) ig).tryElse (fun md => (taskLinesT level ig items).map (md :: ·))
          (fun e => if ig then taskLinesT level ig items else .of (.error e))
      else taskLinesT level ig items

/-- `NodeTaskList.to_markdown` (node_task_list.py:47-124) -/
def taskListMdT (content : Slot (List TItem)) (level : Int) (ig : Bool) : Tr Str :=
  (Tr.of (iterSlot alienTItem content)).bind fun items =>
  (taskLinesT level ig items).bind fun lines => .of (strJoin [Str.nl] lines)

/-- `NodeDecisionItem.to_markdown` (node_decision_item.py:64-109) -/
def decisionItemMdT (content : Slot (List TItem)) (ig : Bool) : Tr Str :=
  (contentToMarkdownT [] ig content).map fun s => Str.join [Str.nl] (decisionLoop 0 false (Str.splitNL (Str.rstrip s)))

/-- The loop of `NodeDecisionList.to_markdown` (node_decision_list.py:51-60) -/
def decisionBlocksT (ig : Bool) : List TItem → Tr (List Val)
  | [] => .of (.ok [])
  | item :: items =>
    (Tr.of (item.isTypeOf [.decisionItem])).bind fun b =>
    if b then
      (item.render none ig).tryElse (fun md => (decisionBlocksT ig items).map (md :: ·))
        (fun e => if ig then decisionBlocksT ig items else .of (.error e))
    else decisionBlocksT ig items

/-- `NodeDecisionList.to_markdown` (node_decision_list.py:39-63) -/
def decisionListMdT (content : Slot (List TItem)) (ig : Bool) : Tr Str :=
  (Tr.of (iterSlot alienTItem content)).bind fun items =>
  (decisionBlocksT ig items).bind fun blocks => .of (strJoin [Str.nl, Str.nl] blocks)

/-- `NodeTableCell.to_markdown`, `NodeTableHeader.to_markdown` (node_table_cell.py:85-104, node_table_header.py:84-103) -/
def cellMdT (content : Slot (List TItem)) (ig : Bool) : Tr Str :=
  (contentToMarkdownT [] ig content).map fun md =>
    Str.join "<br>".toList ((Str.splitNL (Str.replace ['|'] ['\\', '|'] md)).map nbspLine)

/-- The cell loop of `NodeTableRow.to_markdown` (node_table_row.py:55-57) -/
def rowCellsT (ig : Bool) : List TItem → Tr (List Val)
  | [] => .of (.ok [])
  | k :: ks => (k.render none ig).bind fun md => (rowCellsT ig ks).map (md :: ·)

/-- `NodeTableRow.to_markdown` (node_table_row.py:50-58) -/
def tableRowMdT (content : Slot (List TItem)) (ig : Bool) : Tr Str :=
  (Tr.of (iterSlot alienTItem content)).bind fun cells =>
  (rowCellsT ig cells).bind fun l => (Tr.of (strJoin [' ', '|', ' '] l)).map pipeRow

/-- What `headerWidth` looks at: the children without their `to_markdown`. -/
def plainKids : Slot (List TKid) → Slot (List Kid)
  | .absent => .absent
  | .opt => .opt
  | .raw v => .raw v
  | .val l => .val (l.map fun k => ⟨k.isNode, k.type, fun l g => (k.render l g).out⟩)

/-- The row loop of `NodeTable.to_markdown` (node_table.py:77-87) -/
def tableLinesT (ig : Bool) : List TItem → Tr (List Val)
  | [] => .of (.ok [])
  | row :: rows =>
    (row.render none false).tryElse
      (fun md => (Tr.of (headerWidth (plainKids row.content))).tryElse
        (fun w => (tableLinesT ig rows).map fun rest => match w with
          | some n => md :: .str (separatorLine n) :: rest
          | none => md :: rest)
        (fun e => if ig then (tableLinesT ig rows).map (md :: ·) else .of (.error e)))
      (fun e => if ig then tableLinesT ig rows else .of (.error e))

/-- `NodeTable.to_markdown` (node_table.py:72-88) -/
def tableMdT (content : Slot (List TItem)) (ig : Bool) : Tr Str :=
  (Tr.of (iterSlot alienTItem content)).bind fun rows =>
  (tableLinesT ig rows).bind fun lines => .of (strJoin [Str.nl] lines)

/-- `NodeParagraph.to_markdown` (node_paragraph.py:72-81) -/
def paragraphMdT (env : Env) (content : Slot (List TItem)) (marks : Slot (List Mark)) (ig : Bool) : Tr Str :=
  (contentToMarkdownT [] ig content).bind fun md =>
  (Tr.of (addStyle env (.str md) marks)).bind fun v =>
  match v with
  | .str s => .of (.ok (s ++ [Str.nl]))
  | _ => .of (.error .typeError)

/-- `NodeHeading.to_markdown` (node_heading.py:77-89) -/
def headingMdT (attrs : Slot AttrsObj) (content : Slot (List TItem)) (ig : Bool) : Tr Str :=
  (Tr.of (getAttr attrs "level")).bind fun level =>
  match level.asInt? with
  | none => .of (.error .typeError)
  | some n =>
    (contentToMarkdownT [] ig content).map fun s => ['\n', '\n'] ++ (Str.rep ['#'] n ++ [' '] ++ s) ++ ['\n', '\n']

/-- `NodeCodeBlock.to_markdown` (node_code_block.py:54-71) -/
def codeBlockMdT (attrs : Slot AttrsObj) (content : Slot (List TItem)) (ig : Bool) : Tr Str :=
  (contentToMarkdownT [] ig content).bind fun code =>
  (Tr.of (codeLang attrs)).map fun lang => ['`', '`', '`'] ++ lang ++ ['\n'] ++ code ++ ['\n', '`', '`', '`']

/-- `NodeBlockquote.to_markdown` (node_blockquote.py:60-76) -/
def blockquoteMdT (content : Slot (List TItem)) (ig : Bool) : Tr Str :=
  (docContentToMarkdownT ig content).map fun s => Str.indentAll ['>', ' '] (stripDoubleEmptyLine 3 s) ++ [Str.nl]

/-- `NodePanel.to_markdown` (node_panel.py:99-121) -/
def panelMdT (env : Env) (attrs : Slot AttrsObj) (content : Slot (List TItem)) (ig : Bool) : Tr Str :=
  (Tr.of (getAttr attrs "panelType")).bind fun pt =>
  match pt.asStr? with
  | none => .of (.error .attributeError)
  | some ptype =>
    (docContentToMarkdownT ig content).map fun s =>
      Str.indentAll ['>', ' '] (stripDoubleEmptyLine 3
        (Str.join [Str.nl] [['*', '*'] ++ upper env ptype ++ ['*', '*'], [], s])) ++ [Str.nl]

/-- `NodeExpand.to_markdown` (node_expand.py:83-95) -/
def expandMdT (env : Env) (content : Slot (List TItem)) (marks : Slot (List Mark)) (ig : Bool) : Tr Val :=
  (docContentToMarkdownT ig content).bind fun s => .of (addStyle env (.str s) marks)

/-- A string result as a value. -/
def strValT (x : Tr Str) : Tr Val := x.map .str

/-- The body of `to_markdown` by class (`dispatch`).  The classes without children in their text make no calls. -/
def bodyT (env : Env) (hd : Hd) (content : Slot (List TItem)) (level : Option Int) (ig : Bool) : Tr Val :=
  match hd.cls with
  | .doc => strValT (docContentToMarkdownT ig content)
  | .listItem => strValT (contentToMarkdownT [] ig content)
  | .bulletList => strValT (bulletListMdT content (level.getD 0) ig)
  | .orderedList => strValT (orderedListMdT env hd.attrs content (level.getD 0) ig)
  | .paragraph => strValT (paragraphMdT env content hd.marks ig)
  | .taskItem => strValT (contentToMarkdownT [] ig content)
  | .taskList => strValT (taskListMdT content (level.getD 0) ig)
  | .decisionItem => strValT (decisionItemMdT content ig)
  | .decisionList => strValT (decisionListMdT content ig)
  | .heading => strValT (headingMdT hd.attrs content ig)
  | .codeBlock => strValT (codeBlockMdT hd.attrs content ig)
  | .mediaSingle => strValT (contentToMarkdownT [] ig content)
  | .panel => strValT (panelMdT env hd.attrs content ig)
  | .blockquote => strValT (blockquoteMdT content ig)
  | .expand => expandMdT env content hd.marks ig
  | .nestedExpand => strValT (docContentToMarkdownT ig content)
  | .tableCell => strValT (cellMdT content ig)
  | .tableHeader => strValT (cellMdT content ig)
  | .tableRow => strValT (tableRowMdT content ig)
  | .table => strValT (tableMdT content ig)
  | _ => .of (dispatch env hd .absent level ig)

/-- `node.to_markdown(level=..., ignore_error=...)` of the node at `place` (`dispatch`): an unexpected keyword argument is a TypeError
before the body starts. -/
def dispatchT (env : Env) (place : List Nat) (hd : Hd) (content : Slot (List TItem)) (level : Option Int) (ig : Bool) : Tr Val :=
  if level.isSome && !hd.cls.takesLevel then .of (.error .typeError)
  else ⟨place :: (bodyT env hd content level ig).log, (bodyT env hd content level ig).out, (bodyT env hd content level ig).deep + 1⟩

/-- Forget what only a direct parent uses. -/
def kidsOfT : Slot (List TItem) → Slot (List TKid)
  | .absent => .absent
  | .opt => .opt
  | .raw v => .raw v
  | .val l => .val (l.map TItem.toTKid)

mutual
/-- A node as its parent sees it (`Node.item`), its calls recorded. -/
def itemT (env : Env) (place : List Nat) : Node → TItem
  | .mk hd content =>
    { isNode := true
      type := hd.type
      render := dispatchT env place hd (slotT env place content)
      attrs := hd.attrs
      content := kidsOfT (slotT env place content) }

def slotT (env : Env) (place : List Nat) : Slot (List Node) → Slot (List TItem)
  | .absent => .absent
  | .opt => .opt
  | .raw v => .raw v
  | .val l => .val (listT env place 0 l)

def listT (env : Env) (place : List Nat) : Nat → List Node → List TItem
  | _, [] => []
  | i, n :: ns => itemT env (place ++ [i]) n :: listT env place (i + 1) ns
end

/-- `node.to_markdown(level=level, ignore_error=ig)` with its calls (mark_or_node.py:306-321, nodes/*.py). -/
def markdownT (env : Env) (n : Node) (level : Option Int) (ig : Bool) : Tr Val := (itemT env [] n).render level ig

end Verif.Trace
