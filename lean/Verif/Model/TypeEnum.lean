import Verif.Py.Val
/-!
# TypeEnum, check_type_match and the two registries

/repo/atlas_doc_parser/type_enum.py, marks/parse_mark.py, nodes/parse_node.py.
-/

namespace Verif

/-- type_enum.py:18-156 `class TypeEnum`, member by member. -/
inductive TypeEnum where
  -- marks, lines 91-104
  | alignment | annotation | backgroundColor | border | breakout | code | em | indentation
  | link | strike | strong | subsup | textColor | underline
  -- nodes, lines 107-156
  | blockCard | blockTaskItem | blockquote | bodiedExtension | bodiedSyncBlock | bulletList
  | caption | codeBlock | dataConsumer | date | decisionItem | decisionList | doc | embedCard
  | emoji | expand | extension | external | file | fragment | hardBreak | heading | image
  | inlineCard | inlineExtension | layoutColumn | layoutSection | listItem | media | mediaGroup
  | mediaInline | mediaSingle | mention | nestedExpand | orderedList | panel | paragraph
  | placeholder | rule | status | sub | sup | syncBlock | table | tableCell | tableHeader
  | tableRow | taskItem | taskList | text
deriving DecidableEq, Repr

/-- `TypeEnum.xxx.value` (type_enum.py:91-156): every member's value is its own name. -/
def TypeEnum.value : TypeEnum → String
  | .alignment => "alignment"
  | .annotation => "annotation"
  | .backgroundColor => "backgroundColor"
  | .border => "border"
  | .breakout => "breakout"
  | .code => "code"
  | .em => "em"
  | .indentation => "indentation"
  | .link => "link"
  | .strike => "strike"
  | .strong => "strong"
  | .subsup => "subsup"
  | .textColor => "textColor"
  | .underline => "underline"
  | .blockCard => "blockCard"
  | .blockTaskItem => "blockTaskItem"
  | .blockquote => "blockquote"
  | .bodiedExtension => "bodiedExtension"
  | .bodiedSyncBlock => "bodiedSyncBlock"
  | .bulletList => "bulletList"
  | .caption => "caption"
  | .codeBlock => "codeBlock"
  | .dataConsumer => "dataConsumer"
  | .date => "date"
  | .decisionItem => "decisionItem"
  | .decisionList => "decisionList"
  | .doc => "doc"
  | .embedCard => "embedCard"
  | .emoji => "emoji"
  | .expand => "expand"
  | .extension => "extension"
  | .external => "external"
  | .file => "file"
  | .fragment => "fragment"
  | .hardBreak => "hardBreak"
  | .heading => "heading"
  | .image => "image"
  | .inlineCard => "inlineCard"
  | .inlineExtension => "inlineExtension"
  | .layoutColumn => "layoutColumn"
  | .layoutSection => "layoutSection"
  | .listItem => "listItem"
  | .media => "media"
  | .mediaGroup => "mediaGroup"
  | .mediaInline => "mediaInline"
  | .mediaSingle => "mediaSingle"
  | .mention => "mention"
  | .nestedExpand => "nestedExpand"
  | .orderedList => "orderedList"
  | .panel => "panel"
  | .paragraph => "paragraph"
  | .placeholder => "placeholder"
  | .rule => "rule"
  | .status => "status"
  | .sub => "sub"
  | .sup => "sup"
  | .syncBlock => "syncBlock"
  | .table => "table"
  | .tableCell => "tableCell"
  | .tableHeader => "tableHeader"
  | .tableRow => "tableRow"
  | .taskItem => "taskItem"
  | .taskList => "taskList"
  | .text => "text"

/-- `type_value in expected_values` compares with `==`; only an equal `str` matches a member value.
type_enum.py:159-188 `check_type_match`; the single-member call is the one-element list
(lines 185-186). -/
def checkTypeMatch (typeValue : Val) (expected : List TypeEnum) : Bool :=
  match typeValue with
  | .str s => expected.any fun t => t.value.toList == s
  | _ => false

/-- The sixteen mark classes imported in marks/parse_mark.py:21-36. -/
inductive MarkCls where
  | backgroundColor | code | em | link | strike | strong | subsup | textColor | underline
  | annotation | indentation | border | alignment | breakout | dataConsumer | fragment
deriving DecidableEq, Repr

/-- The thirty-five node classes imported in nodes/parse_node.py:21-55. -/
inductive NodeCls where
  | doc | text | rule | listItem | bulletList | orderedList | paragraph | taskItem | taskList
  | decisionItem | decisionList | emoji | hardBreak | date | mention | status | heading
  | codeBlock | inlineCard | blockCard | media | mediaGroup | mediaSingle | embedCard
  | extension | caption | mediaInline | panel | blockquote | expand | nestedExpand | tableCell
  | tableHeader | tableRow | table
deriving DecidableEq, Repr

/-- marks/parse_mark.py:42-59 `MARK_TYPE_TO_CLASS_MAPPING`. -/
def markRegistry : List (TypeEnum × MarkCls) :=
  [ (.backgroundColor, .backgroundColor), (.code, .code), (.em, .em), (.link, .link),
    (.strike, .strike), (.strong, .strong), (.subsup, .subsup), (.textColor, .textColor),
    (.underline, .underline), (.annotation, .annotation), (.indentation, .indentation),
    (.border, .border), (.alignment, .alignment), (.breakout, .breakout),
    (.dataConsumer, .dataConsumer), (.fragment, .fragment) ]

/-- nodes/parse_node.py:61-97 `NODE_TYPE_TO_CLASS_MAPPING`. -/
def nodeRegistry : List (TypeEnum × NodeCls) :=
  [ (.doc, .doc), (.text, .text), (.rule, .rule), (.listItem, .listItem),
    (.bulletList, .bulletList), (.orderedList, .orderedList), (.paragraph, .paragraph),
    (.taskItem, .taskItem), (.taskList, .taskList), (.decisionItem, .decisionItem),
    (.decisionList, .decisionList), (.emoji, .emoji), (.hardBreak, .hardBreak), (.date, .date),
    (.mention, .mention), (.status, .status), (.heading, .heading), (.codeBlock, .codeBlock),
    (.inlineCard, .inlineCard), (.blockCard, .blockCard), (.media, .media),
    (.mediaGroup, .mediaGroup), (.mediaSingle, .mediaSingle), (.embedCard, .embedCard),
    (.extension, .extension), (.caption, .caption), (.mediaInline, .mediaInline),
    (.panel, .panel), (.blockquote, .blockquote), (.expand, .expand),
    (.nestedExpand, .nestedExpand), (.tableCell, .tableCell), (.tableHeader, .tableHeader),
    (.tableRow, .tableRow), (.table, .table) ]

/-- `MAPPING[type_]` on a registry keyed by `TypeEnum.xxx.value`: TypeError for an unhashable
key, `none` for KeyError (marks/parse_mark.py:71-74, nodes/parse_node.py:109-112). -/
def registryLookup {κ : Type} (reg : List (TypeEnum × κ)) (type_ : Val) : Except PyErr (Option κ) :=
  if type_.hashable then
    match type_ with
    | .str s => .ok ((reg.find? fun e => e.1.value.toList == s).map (·.2))
    | _ => .ok none
  else .error .typeError

end Verif
