import Verif.Model.Marks
import Verif.Model.Date
/-!
# Markdown: markdown_helpers.py and every node's `to_markdown`

Dynamic dispatch is made explicit: an `Item` is a node as its parent's `to_markdown` sees it
(type, attrs, content, and the function its own `to_markdown(level=..., ignore_error=...)`
computes).  `Node.item` closes the recursion structurally over the document tree.

Each parent calls its children with `to_markdown()` — i.e. `ignore_error=False` — except where the
code passes the flag on (tableRow → cells, decisionList → items, taskList → nested taskList).
-/

namespace Verif

/-! ## Strings -/

/-- `strip_double_empty_line(text, n)` (markdown_helpers.py:28-55). -/
def stripDoubleEmptyLine : Nat → Str → Str
  | 0, s => s
  | n + 1, s => stripDoubleEmptyLine n (Str.replace ['\n', '\n', '\n'] ['\n', '\n'] s)

/-- `str.upper()` character-wise: ASCII letters shift, other characters go through the
environment. -/
def upperChar (env : Env) (c : Char) : Str :=
  if 'a'.toNat ≤ c.toNat ∧ c.toNat ≤ 'z'.toNat then [Char.ofNat (c.toNat - 32)]
  else if c.toNat < 128 then [c]
  else env.upperOther c

/-- `s.upper()` (nodes/node_panel.py:108). -/
def upper (env : Env) (s : Str) : Str := s.flatMap (upperChar env)

/-- `v.rstrip()` on a rendered value: AttributeError unless it is a string. -/
def rstripVal : Val → Except PyErr Str
  | .str s => .ok (Str.rstrip s)
  | _ => .error .attributeError

/-- `"\n" + v + "\n"`: TypeError unless `v` is a string (markdown_helpers.py:150). -/
def padNewlines : Val → Except PyErr Val
  | .str s => .ok (.str ([Str.nl] ++ s ++ [Str.nl]))
  | _ => .error .typeError

/-! ## Children as seen by their parent -/

/-- An element of an iterated `content` field, up to what a grandparent uses: its type (AttributeError
if it is not a node) and its `to_markdown`. -/
structure Kid where
  isNode : Bool
  type : Val
  /-- `kid.to_markdown(level=l, ignore_error=b)`; `none` = `level` not passed -/
  render : Option Int → Bool → Except PyErr Val

/-- A child together with its attrs and content. -/
structure Item extends Kid where
  attrs : Slot AttrsObj
  content : Slot (List Kid)

/-- An element of an unconverted iterable (character of a str, key of a dict): it has none of the
node attributes. -/
def alienKid : Kid :=
  { isNode := false, type := .none, render := fun _ _ => .error .attributeError }

def alienItem : Item := { alienKid with attrs := .absent, content := .absent }

/-- `x.is_type_of(...)` (mark_or_node.py:105-125). -/
def Kid.isTypeOf (k : Kid) (expected : List TypeEnum) : Except PyErr Bool :=
  if k.isNode then .ok (Verif.isTypeOf k.type expected) else .error .attributeError

/-- `for x in obj.content`: the elements visited. -/
def iterSlot {α : Type} (alien : α) : Slot (List α) → Except PyErr (List α)
  | .val l => .ok l
  | .raw v =>
    match v.iterLen with
    | .error e => .error e
    | .ok n => .ok (List.replicate n alien)
  | .opt => .error .typeError
  | .absent => .error .attributeError

/-- The loop `for x in l: <pre x>; try: r = f x; lst.append(r) except Exception: if ignore_error:
pass else: raise`.  `pre` runs outside the `try`. -/
def collectPre {α β γ : Type} (ig : Bool) (pre : α → Except PyErr γ)
    (f : γ → α → Except PyErr β) : List α → Except PyErr (List β)
  | [] => .ok []
  | a :: as =>
    match pre a with
    | .error e => .error e
    | .ok c =>
      match f c a with
      | .ok b =>
        match collectPre ig pre f as with
        | .error e => .error e
        | .ok bs => .ok (b :: bs)
      | .error e => if ig then collectPre ig pre f as else .error e

/-- The same loop with everything inside the `try`. -/
def collect {α β : Type} (ig : Bool) (f : α → Except PyErr β) : List α → Except PyErr (List β) :=
  collectPre ig (fun _ => .ok ()) (fun _ a => f a)

/-- `content_to_markdown(content, concat, ignore_error)` (markdown_helpers.py:58-101). -/
def contentToMarkdown (concat : Str) (ig : Bool) (content : Slot (List Item)) :
    Except PyErr Str :=
  match content with
  | .opt => .ok []
  | _ =>
    match iterSlot alienItem content with
    | .error e => .error e
    | .ok items =>
      match collect ig (fun (k : Item) => k.render none false) items with
      | .error e => .error e
      | .ok lst => strJoin concat lst

/-- The `try` body of `doc_content_to_markdown` (markdown_helpers.py:143-152). -/
def docBlock (k : Item) : Except PyErr Val :=
  match k.isTypeOf [.bulletList, .orderedList, .codeBlock] with
  | .error e => .error e
  | .ok true =>
    match k.render none false with
    | .error e => .error e
    | .ok md => padNewlines md
  | .ok false => k.render none false

/-- `doc_content_to_markdown(content, concat="\n", ignore_error)` (markdown_helpers.py:104-163). -/
def docContentToMarkdown (ig : Bool) (content : Slot (List Item)) : Except PyErr Str :=
  match content with
  | .opt => .ok []
  | _ =>
    match iterSlot alienItem content with
    | .error e => .error e
    | .ok items =>
      match collect ig docBlock items with
      | .error e => .error e
      | .ok lst =>
        match strJoin [Str.nl] lst with
        | .error e => .error e
        | .ok s => .ok (stripDoubleEmptyLine 3 s)

/-! ## Lists -/

/-- `"    " * level`. -/
def indentOf (level : Int) : Str := Str.rep [' ', ' ', ' ', ' '] level

/-- One child of a list item: a nested list of the same kind is rendered one level deeper, anything
else without level and right-stripped (nodes/node_bullet_list.py:75-95,
node_ordered_list.py:97-117). -/
def listItemChild (level : Int) (nested : Bool) (k : Kid) : Except PyErr Val :=
  if nested then k.render (some (level + 1)) false
  else
    match k.render none false with
    | .error e => .error e
    | .ok md =>
      match rstripVal md with
      | .error e => .error e
      | .ok s => .ok (.str s)

/-- The joined content of one list item (node_bullet_list.py:74-98, node_ordered_list.py:96-120). -/
def listItemContent (kind : TypeEnum) (level : Int) (ig : Bool) (item : Item) :
    Except PyErr Str :=
  match iterSlot alienKid item.content with
  | .error e => .error e
  | .ok kids =>
    match collectPre ig (fun (k : Kid) => k.isTypeOf [kind]) (listItemChild level) kids with
    | .error e => .error e
    | .ok lst => strJoin [Str.nl] lst

/-- The lines of one item: marker in front of the first line, the other lines as they are
(node_bullet_list.py:101-108, node_ordered_list.py:123-130). -/
def itemLines (marker itemContent : Str) : List Str :=
  match Str.splitNL itemContent with
  | [] => [marker]
  | first :: rest => (marker ++ first) :: rest

/-- The outer loop of `NodeBulletList.to_markdown` (node_bullet_list.py:71-108). -/
def bulletLines (level : Int) (ig : Bool) : List Item → Except PyErr (List Str)
  | [] => .ok []
  | item :: items =>
    match item.isTypeOf [.listItem] with
    | .error e => .error e
    | .ok false => bulletLines level ig items
    | .ok true =>
      match listItemContent .bulletList level ig item with
      | .error e => .error e
      | .ok itemContent =>
        match bulletLines level ig items with
        | .error e => .error e
        | .ok rest => .ok (itemLines (indentOf level ++ ['-', ' ']) itemContent ++ rest)

/-- `NodeBulletList.to_markdown` (node_bullet_list.py:29-110). -/
def bulletListMd (content : Slot (List Item)) (level : Int) (ig : Bool) : Except PyErr Str :=
  match iterSlot alienItem content with
  | .error e => .error e
  | .ok items =>
    match bulletLines level ig items with
    | .error e => .error e
    | .ok lines => .ok (Str.join [Str.nl] lines)

/-- `current_num += 1` (node_ordered_list.py:132): also turns a `bool` start into an int. -/
def nextNum (v : Val) : Val := .int (v.asInt?.getD 0 + 1)

/-- The outer loop of `NodeOrderedList.to_markdown` (node_ordered_list.py:93-132); `num` is
`current_num`. -/
def orderedLines (env : Env) (level : Int) (ig : Bool) : Val → List Item → Except PyErr (List Str)
  | _, [] => .ok []
  | num, item :: items =>
    match item.isTypeOf [.listItem] with
    | .error e => .error e
    | .ok false => orderedLines env level ig num items
    | .ok true =>
      match listItemContent .orderedList level ig item with
      | .error e => .error e
      | .ok itemContent =>
        match orderedLines env level ig (nextNum num) items with
        | .error e => .error e
        | .ok rest =>
          .ok (itemLines (indentOf level ++ num.pyStr env ++ ['.', ' ']) itemContent ++ rest)

/-- The start number (node_ordered_list.py:88-91): `attrs.order` is read at level 0 only. -/
def orderedStart (attrs : Slot AttrsObj) (level : Int) : Except PyErr Val :=
  if level = 0 then
    match getAttr attrs "order" with
    | .error e => .error e
    | .ok order => if order.asInt?.isSome then .ok order else .ok (.int 1)
  else .ok (.int 1)

/-- `NodeOrderedList.to_markdown` (node_ordered_list.py:45-134). -/
def orderedListMd (env : Env) (attrs : Slot AttrsObj) (content : Slot (List Item)) (level : Int)
    (ig : Bool) : Except PyErr Str :=
  match orderedStart attrs level with
  | .error e => .error e
  | .ok start =>
    match iterSlot alienItem content with
    | .error e => .error e
    | .ok items =>
      match orderedLines env level ig start items with
      | .error e => .error e
      | .ok lines => .ok (Str.join [Str.nl] lines)

/-- The line of one task item (node_task_list.py:91-111).  A missing content is iterated:
TypeError. -/
def taskItemLine (level : Int) (ig : Bool) (item : Item) : Except PyErr Str :=
  match iterSlot alienKid item.content with
  | .error e => .error e
  | .ok kids =>
    match collect ig (fun (k : Kid) => k.render none false) kids with
    | .error e => .error e
    | .ok parts =>
      match strJoin [] parts with
      | .error e => .error e
      | .ok s =>
        match getAttr item.attrs "state" with
        | .error e => .error e
        | .ok state =>
          let checkbox := if state.asStr? = some "DONE".toList then ['[', 'x', ']'] else ['[', ' ', ']']
          .ok (indentOf level ++ ['-', ' '] ++ checkbox ++ [' '] ++ Str.rstrip s)

/-- The loop of `NodeTaskList.to_markdown` (node_task_list.py:88-122). -/
def taskLines (level : Int) (ig : Bool) : List Item → Except PyErr (List Val)
  | [] => .ok []
  | item :: items =>
    match item.isTypeOf [.taskItem] with
    | .error e => .error e
    | .ok true =>
      match taskItemLine level ig item with
      | .error e => .error e
      | .ok line =>
        match taskLines level ig items with
        | .error e => .error e
        | .ok rest => .ok (.str line :: rest)
    | .ok false =>
      match item.isTypeOf [.taskList] with
      | .error e => .error e
      | .ok false => taskLines level ig items
      | .ok true =>
        match item.render (some (level + 1)) ig with
        | .ok md =>
          match taskLines level ig items with
          | .error e => .error e
          | .ok rest => .ok (md :: rest)
        | .error e => if ig then taskLines level ig items else .error e

/-- `NodeTaskList.to_markdown` (node_task_list.py:47-124). -/
def taskListMd (content : Slot (List Item)) (level : Int) (ig : Bool) : Except PyErr Str :=
  match iterSlot alienItem content with
  | .error e => .error e
  | .ok items =>
    match taskLines level ig items with
    | .error e => .error e
    | .ok lines => strJoin [Str.nl] lines

/-! ## Decisions -/

/-- The line loop of `NodeDecisionItem.to_markdown` (node_decision_item.py:92-107):
`lineCount` non-empty lines so far, `prevEmpty` whether the last emitted line was empty. -/
def decisionLoop : Nat → Bool → List Str → List Str
  | _, _, [] => []
  | lineCount, prevEmpty, raw :: ls =>
    let line := Str.rstrip raw
    if line.isEmpty then
      if lineCount ≤ 1 || prevEmpty then decisionLoop lineCount prevEmpty ls
      else ['>'] :: decisionLoop lineCount true ls
    else (['>', ' '] ++ line) :: decisionLoop (lineCount + 1) false ls

/-- `NodeDecisionItem.to_markdown` (node_decision_item.py:64-109). -/
def decisionItemMd (content : Slot (List Item)) (ig : Bool) : Except PyErr Str :=
  match contentToMarkdown [] ig content with
  | .error e => .error e
  | .ok s =>
    .ok (Str.join [Str.nl] (decisionLoop 0 false (Str.splitNL (Str.rstrip s))))

/-- The loop of `NodeDecisionList.to_markdown` (node_decision_list.py:51-60). -/
def decisionBlocks (ig : Bool) : List Item → Except PyErr (List Val)
  | [] => .ok []
  | item :: items =>
    match item.isTypeOf [.decisionItem] with
    | .error e => .error e
    | .ok false => decisionBlocks ig items
    | .ok true =>
      match item.render none ig with
      | .ok md =>
        match decisionBlocks ig items with
        | .error e => .error e
        | .ok rest => .ok (md :: rest)
      | .error e => if ig then decisionBlocks ig items else .error e

/-- `NodeDecisionList.to_markdown` (node_decision_list.py:39-63). -/
def decisionListMd (content : Slot (List Item)) (ig : Bool) : Except PyErr Str :=
  match iterSlot alienItem content with
  | .error e => .error e
  | .ok items =>
    match decisionBlocks ig items with
    | .error e => .error e
    | .ok blocks => strJoin [Str.nl, Str.nl] blocks

/-! ## Tables -/

/-- One line of a cell: leading spaces become `&nbsp;` (node_table_cell.py:97-101,
node_table_header.py:96-100). -/
def nbspLine (line : Str) : Str :=
  let stripped := Str.lstripSpaces line
  let leading := line.length - stripped.length
  if leading > 0 then (List.replicate leading "&nbsp;".toList).flatten ++ stripped else line

/-- `NodeTableCell.to_markdown` (node_table_cell.py:85-104) and `NodeTableHeader.to_markdown`
(node_table_header.py:84-103), which have the same body. -/
def cellMd (content : Slot (List Item)) (ig : Bool) : Except PyErr Str :=
  match contentToMarkdown [] ig content with
  | .error e => .error e
  | .ok md =>
    .ok (Str.join "<br>".toList
      ((Str.splitNL (Str.replace ['|'] ['\\', '|'] md)).map nbspLine))

/-- The cell loop of `NodeTableRow.to_markdown` (node_table_row.py:55-57): no `try`, the flag is
passed on. -/
def rowCells (ig : Bool) : List Item → Except PyErr (List Val)
  | [] => .ok []
  | k :: ks =>
    match k.render none ig with
    | .error e => .error e
    | .ok md =>
      match rowCells ig ks with
      | .error e => .error e
      | .ok rest => .ok (md :: rest)

/-- `"| " + " | ".join(cells) + " |"` -/
def pipeRow (s : Str) : Str := ['|', ' '] ++ s ++ [' ', '|']

/-- `NodeTableRow.to_markdown` (node_table_row.py:50-58). -/
def tableRowMd (content : Slot (List Item)) (ig : Bool) : Except PyErr Str :=
  match iterSlot alienItem content with
  | .error e => .error e
  | .ok cells =>
    match rowCells ig cells with
    | .error e => .error e
    | .ok l =>
      match strJoin [' ', '|', ' '] l with
      | .error e => .error e
      | .ok s => .ok (pipeRow s)

/-- The separator under a header row (node_table.py:82). -/
def separatorLine (n : Nat) : Str :=
  pipeRow (Str.join [' ', '|', ' '] (List.replicate n ['-', '-', '-']))

/-- `row.content[0].is_type_of(TypeEnum.tableHeader)` and, if so, `len(row.content)`
(node_table.py:81-82).  Indexing an empty list is an IndexError, a dict a KeyError, `None`/number/
sentinel a TypeError, a missing field an AttributeError. -/
def headerWidth (content : Slot (List Kid)) : Except PyErr (Option Nat) :=
  match content with
  | .absent => .error .attributeError
  | .opt => .error .typeError
  | .raw (.str []) => .error .indexError
  | .raw (.str _) => .error .attributeError
  | .raw (.list []) => .error .indexError
  | .raw (.list _) => .error .attributeError
  | .raw (.dict _) => .error .keyError
  | .raw _ => .error .typeError
  | .val [] => .error .indexError
  | .val (k :: ks) =>
    match k.isTypeOf [.tableHeader] with
    | .error e => .error e
    | .ok true => .ok (some (ks.length + 1))
    | .ok false => .ok none

/-- The row loop of `NodeTable.to_markdown` (node_table.py:77-87).  The row's line is appended before
its first cell is inspected, so it stays when the inspection fails under `ignore_error`. -/
def tableLines (ig : Bool) : List Item → Except PyErr (List Val)
  | [] => .ok []
  | row :: rows =>
    match row.render none false with
    | .error e => if ig then tableLines ig rows else .error e
    | .ok md =>
      match headerWidth row.content with
      | .error e =>
        if ig then
          match tableLines ig rows with
          | .error e => .error e
          | .ok rest => .ok (md :: rest)
        else .error e
      | .ok w =>
        match tableLines ig rows with
        | .error e => .error e
        | .ok rest =>
          match w with
          | some n => .ok (md :: .str (separatorLine n) :: rest)
          | none => .ok (md :: rest)

/-- `NodeTable.to_markdown` (node_table.py:72-88). -/
def tableMd (content : Slot (List Item)) (ig : Bool) : Except PyErr Str :=
  match iterSlot alienItem content with
  | .error e => .error e
  | .ok rows =>
    match tableLines ig rows with
    | .error e => .error e
    | .ok lines => strJoin [Str.nl] lines

/-! ## Other blocks -/

/-- `NodeParagraph.to_markdown` (node_paragraph.py:72-81). -/
def paragraphMd (env : Env) (content : Slot (List Item)) (marks : Slot (List Mark)) (ig : Bool) :
    Except PyErr Str :=
  match contentToMarkdown [] ig content with
  | .error e => .error e
  | .ok md =>
    match addStyle env (.str md) marks with
    | .error e => .error e
    | .ok (.str s) => .ok (s ++ [Str.nl])
    | .ok _ => .error .typeError

/-- `NodeHeading.to_markdown` (node_heading.py:77-89). -/
def headingMd (attrs : Slot AttrsObj) (content : Slot (List Item)) (ig : Bool) :
    Except PyErr Str :=
  match getAttr attrs "level" with
  | .error e => .error e
  | .ok level =>
    match level.asInt? with
    | none => .error .typeError
    | some n =>
      match contentToMarkdown [] ig content with
      | .error e => .error e
      | .ok s => .ok (['\n', '\n'] ++ (Str.rep ['#'] n ++ [' '] ++ s) ++ ['\n', '\n'])

/-- The language tag (node_code_block.py:62-70); the mapping at markdown_helpers.py:203 is empty,
so `.get(language, language)` is `language`. -/
def codeLang (attrs : Slot AttrsObj) : Except PyErr Str :=
  match attrs with
  | .opt => .ok []
  | _ =>
    match getAttr attrs "language" with
    | .error e => .error e
    | .ok v =>
      match v.asStr? with
      | none => .ok []
      | some lang => if lang = "none".toList then .ok [] else .ok lang

/-- `NodeCodeBlock.to_markdown` (node_code_block.py:54-71). -/
def codeBlockMd (attrs : Slot AttrsObj) (content : Slot (List Item)) (ig : Bool) :
    Except PyErr Str :=
  match contentToMarkdown [] ig content with
  | .error e => .error e
  | .ok code =>
    match codeLang attrs with
    | .error e => .error e
    | .ok lang => .ok (['`', '`', '`'] ++ lang ++ ['\n'] ++ code ++ ['\n', '`', '`', '`'])

/-- `NodeBlockquote.to_markdown` (node_blockquote.py:60-76). -/
def blockquoteMd (content : Slot (List Item)) (ig : Bool) : Except PyErr Str :=
  match docContentToMarkdown ig content with
  | .error e => .error e
  | .ok s => .ok (Str.indentAll ['>', ' '] (stripDoubleEmptyLine 3 s) ++ [Str.nl])

/-- `NodePanel.to_markdown` (node_panel.py:99-121). -/
def panelMd (env : Env) (attrs : Slot AttrsObj) (content : Slot (List Item)) (ig : Bool) :
    Except PyErr Str :=
  match getAttr attrs "panelType" with
  | .error e => .error e
  | .ok pt =>
    match pt.asStr? with
    | none => .error .attributeError
    | some ptype =>
      match docContentToMarkdown ig content with
      | .error e => .error e
      | .ok s =>
        .ok (Str.indentAll ['>', ' '] (stripDoubleEmptyLine 3
          (Str.join [Str.nl] [['*', '*'] ++ upper env ptype ++ ['*', '*'], [], s])) ++ [Str.nl])

/-- `NodeExpand.to_markdown` (node_expand.py:83-95). NodeExpand has no `marks` field, so
`add_style_to_markdown` returns the text unchanged. -/
def expandMd (env : Env) (content : Slot (List Item)) (marks : Slot (List Mark)) (ig : Bool) :
    Except PyErr Val :=
  match docContentToMarkdown ig content with
  | .error e => .error e
  | .ok s => addStyle env (.str s) marks

/-! ## Leaves -/

/-- `NodeText.to_markdown` (node_text.py:52-58). -/
def textMd (env : Env) (text : Option Val) (marks : Slot (List Mark)) : Except PyErr Val :=
  match text with
  | none => .error .attributeError
  | some t => addStyle env t marks

/-- `NodeEmoji.to_markdown` (node_emoji.py:50-60). -/
def emojiMd (attrs : Slot AttrsObj) : Except PyErr Str :=
  match getAttr attrs "text" with
  | .error e => .error e
  | .ok t =>
    match t.asStr? with
    | some s => .ok s
    | none =>
      match getAttr attrs "shortName" with
      | .error e => .error e
      | .ok n =>
        match n.asStr? with
        | some s => .ok s
        | none => .error .notImplementedError

/-- `NodeMention.to_markdown` (node_mention.py:50-58). -/
def mentionMd (attrs : Slot AttrsObj) : Except PyErr Str :=
  match getAttr attrs "text" with
  | .error e => .error e
  | .ok t => .ok (t.asStr?.getD "@Unknown".toList)

/-- `NodeStatus.to_markdown` (node_status.py:47-51). -/
def statusMd (env : Env) (attrs : Slot AttrsObj) : Except PyErr Str :=
  match getAttr attrs "text" with
  | .error e => .error e
  | .ok t => .ok (['`'] ++ t.pyStr env ++ ['`'])

/-- `[url](url)`. -/
def selfLink (url : Str) : Str := ['['] ++ url ++ [']', '('] ++ url ++ [')']

/-- `NodeInlineCard.to_markdown` (node_inline_card.py:48-55). -/
def inlineCardMd (attrs : Slot AttrsObj) : Except PyErr Str :=
  match getAttr attrs "url" with
  | .error e => .error e
  | .ok u =>
    match u.asStr? with
    | some url => .ok (selfLink url)
    | none => .error .notImplementedError

/-- `NodeBlockCard.to_markdown` (node_block_card.py:95-102). -/
def blockCardMd (attrs : Slot AttrsObj) : Except PyErr Str :=
  match getAttr attrs "url" with
  | .error e => .error e
  | .ok u =>
    match u.asStr? with
    | some url => .ok (['\n'] ++ selfLink url ++ ['\n'])
    | none => .error .notImplementedError

/-- `NodeEmbedCard.to_markdown` (node_embed_card.py:59-63): any value is interpolated. -/
def embedCardMd (env : Env) (attrs : Slot AttrsObj) : Except PyErr Str :=
  match getAttr attrs "url" with
  | .error e => .error e
  | .ok u => .ok (['\n'] ++ selfLink (u.pyStr env) ++ ['\n'])

/-- `NodeExtension.to_markdown` (node_extension.py:62-72). -/
def extensionMd (env : Env) (attrs : Slot AttrsObj) : Except PyErr Str :=
  match getAttr attrs "extensionKey" with
  | .error e => .error e
  | .ok key =>
    match getAttr attrs "extensionType" with
    | .error e => .error e
    | .ok ty =>
      match getAttr attrs "text" with
      | .error e => .error e
      | .ok t =>
        match t.asStr? with
        | some (c :: cs) =>
          .ok ("[Extension: ".toList ++ key.pyStr env ++ [']', ' '] ++ (c :: cs))
        | _ => .ok ("[Extension: ".toList ++ ty.pyStr env ++ ['/'] ++ key.pyStr env ++ [']'])

/-- `self.attrs.alt if isinstance(self.attrs.alt, str) else "media"` (node_media.py:97,102). -/
def mediaAlt (attrs : Slot AttrsObj) : Except PyErr Str :=
  match getAttr attrs "alt" with
  | .error e => .error e
  | .ok v => .ok (v.asStr?.getD "media".toList)

/-- `f"![{alt}]({target})"`. -/
def imageLink (alt target : Str) : Str := ['!', '['] ++ alt ++ [']', '('] ++ target ++ [')']

/-- `NodeMedia.to_markdown` (node_media.py:91-108). -/
def mediaMd (env : Env) (attrs : Slot AttrsObj) (marks : Slot (List Mark)) : Except PyErr Val :=
  match getAttr attrs "type" with
  | .error e => .error e
  | .ok ty =>
    match getAttr attrs "url" with
    | .error e => .error e
    | .ok url =>
      match mediaAlt attrs with
      | .error e => .error e
      | .ok alt =>
        match getAttr attrs "id" with
        | .error e => .error e
        | .ok id =>
          if ty.asStr? = some "external".toList ∧ url.asStr?.isSome then
            addStyle env (.str (imageLink alt (url.asStr?.getD []))) marks
          else if ty.asStr? = some "file".toList then
            addStyle env (.str (imageLink alt ("media:".toList ++ id.pyStr env))) marks
          else if ty.asStr? = some "link".toList then .ok (.str "[media]".toList)
          else .error .typeError

/-! ## Dispatch -/

/-- A string result as a value. -/
def strVal (x : Except PyErr Str) : Except PyErr Val :=
  match x with
  | .error e => .error e
  | .ok s => .ok (.str s)

/-- Does the class's `to_markdown` accept `level`? (node_bullet_list.py:31, node_ordered_list.py:47,
node_task_list.py:49) -/
def NodeCls.takesLevel : NodeCls → Bool
  | .bulletList | .orderedList | .taskList => true
  | _ => false

/-- `node.to_markdown(level=..., ignore_error=...)` by class.  An unexpected keyword argument is a
TypeError. -/
def dispatch (env : Env) (hd : Hd) (content : Slot (List Item)) (level : Option Int) (ig : Bool) :
    Except PyErr Val :=
  if level.isSome && !hd.cls.takesLevel then .error .typeError
  else
    match hd.cls with
    | .doc => strVal (docContentToMarkdown ig content)                    -- node_doc.py:91
    | .text => textMd env hd.text hd.marks
    | .rule => .ok (.str "\n\n---\n\n".toList)                            -- node_rule.py:42
    | .listItem => strVal (contentToMarkdown [] ig content)               -- node_list_item.py:61
    | .bulletList => strVal (bulletListMd content (level.getD 0) ig)
    | .orderedList => strVal (orderedListMd env hd.attrs content (level.getD 0) ig)
    | .paragraph => strVal (paragraphMd env content hd.marks ig)
    | .taskItem => strVal (contentToMarkdown [] ig content)               -- node_task_item.py:69
    | .taskList => strVal (taskListMd content (level.getD 0) ig)
    | .decisionItem => strVal (decisionItemMd content ig)
    | .decisionList => strVal (decisionListMd content ig)
    | .emoji => strVal (emojiMd hd.attrs)
    | .hardBreak => .ok (.str "  \n".toList)                              -- node_hard_break.py:43
    | .date =>
      match getAttr hd.attrs "timestamp" with
      | .error e => .error e
      | .ok t => Date.render env t
    | .mention => strVal (mentionMd hd.attrs)
    | .status => strVal (statusMd env hd.attrs)
    | .heading => strVal (headingMd hd.attrs content ig)
    | .codeBlock => strVal (codeBlockMd hd.attrs content ig)
    | .inlineCard => strVal (inlineCardMd hd.attrs)
    | .blockCard => strVal (blockCardMd hd.attrs)
    | .media => mediaMd env hd.attrs hd.marks
    | .mediaGroup => .ok (.str [])                                        -- node_media_group.py:35
    | .mediaSingle => strVal (contentToMarkdown [] ig content)            -- node_media_single.py:87
    | .embedCard => strVal (embedCardMd env hd.attrs)
    | .extension => strVal (extensionMd env hd.attrs)
    | .caption => .ok (.str [])                                           -- node_caption.py:62
    | .mediaInline => .ok (.str [])                                       -- node_media_inline.py:69
    | .panel => strVal (panelMd env hd.attrs content ig)
    | .blockquote => strVal (blockquoteMd content ig)
    | .expand => expandMd env content hd.marks ig
    | .nestedExpand => strVal (docContentToMarkdown ig content)           -- node_nested_expand.py:89-90
    | .tableCell => strVal (cellMd content ig)
    | .tableHeader => strVal (cellMd content ig)
    | .tableRow => strVal (tableRowMd content ig)
    | .table => strVal (tableMd content ig)

/-- Forget what only a direct parent uses. -/
def kidsOf : Slot (List Item) → Slot (List Kid)
  | .absent => .absent
  | .opt => .opt
  | .raw v => .raw v
  | .val l => .val (l.map Item.toKid)

mutual
/-- A node as its parent sees it; `render` is its bound `to_markdown`. -/
def Node.item (env : Env) : Node → Item
  | .mk hd content =>
    { isNode := true
      type := hd.type
      render := dispatch env hd (slotItems env content)
      attrs := hd.attrs
      content := kidsOf (slotItems env content) }

def slotItems (env : Env) : Slot (List Node) → Slot (List Item)
  | .absent => .absent
  | .opt => .opt
  | .raw v => .raw v
  | .val l => .val (listItems env l)

def listItems (env : Env) : List Node → List Item
  | [] => []
  | n :: ns => Node.item env n :: listItems env ns
end

/-- `node.to_markdown(level=level, ignore_error=ig)`; `none` = `level` not passed. -/
def Node.toMarkdownAt (env : Env) (n : Node) (level : Option Int) (ig : Bool) : Except PyErr Val :=
  (n.item env).render level ig

/-- `node.to_markdown(ignore_error=ig)`. -/
def Node.toMarkdown (env : Env) (n : Node) (ig : Bool) : Except PyErr Val :=
  n.toMarkdownAt env none ig

end Verif
