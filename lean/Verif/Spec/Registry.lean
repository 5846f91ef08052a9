import Verif.Model.Objects
/-!
# Specification: which type strings are supported, and by which class

Written as plain tables of strings, independently of `TypeEnum` and of the library's registries.
-/

namespace Verif.Spec

/-- ADF node type string ↦ class. -/
def nodeTypes : List (String × NodeCls) :=
  [ ("doc", .doc), ("text", .text), ("rule", .rule), ("listItem", .listItem),
    ("bulletList", .bulletList), ("orderedList", .orderedList), ("paragraph", .paragraph),
    ("taskItem", .taskItem), ("taskList", .taskList), ("decisionItem", .decisionItem),
    ("decisionList", .decisionList), ("emoji", .emoji), ("hardBreak", .hardBreak),
    ("date", .date), ("mention", .mention), ("status", .status), ("heading", .heading),
    ("codeBlock", .codeBlock), ("inlineCard", .inlineCard), ("blockCard", .blockCard),
    ("media", .media), ("mediaGroup", .mediaGroup), ("mediaSingle", .mediaSingle),
    ("embedCard", .embedCard), ("extension", .extension), ("caption", .caption),
    ("mediaInline", .mediaInline), ("panel", .panel), ("blockquote", .blockquote),
    ("expand", .expand), ("nestedExpand", .nestedExpand), ("tableCell", .tableCell),
    ("tableHeader", .tableHeader), ("tableRow", .tableRow), ("table", .table) ]

/-- ADF mark type string ↦ class. -/
def markTypes : List (String × MarkCls) :=
  [ ("alignment", .alignment), ("annotation", .annotation),
    ("backgroundColor", .backgroundColor), ("border", .border), ("breakout", .breakout),
    ("code", .code), ("dataConsumer", .dataConsumer), ("em", .em), ("fragment", .fragment),
    ("indentation", .indentation), ("link", .link), ("strike", .strike), ("strong", .strong),
    ("subsup", .subsup), ("textColor", .textColor), ("underline", .underline) ]

/-- The `type` of a JSON object. -/
def typeOf : Val → Option Val
  | .dict d => lookupKey d "type"
  | _ => none

/-- The JSON value is an object whose `type` is a supported node type. -/
def registeredNode (v : Val) : Bool :=
  match typeOf v with
  | some (.str s) => nodeTypes.any fun e => e.1.toList == s
  | _ => false

/-- The JSON value is an object whose `type` is a supported mark type. -/
def registeredMark (v : Val) : Bool :=
  match typeOf v with
  | some (.str s) => markTypes.any fun e => e.1.toList == s
  | _ => false

/-- The members of TypeEnum with their values: every value is the ADF type string of the same name. -/
def enumValues : List (TypeEnum × String) :=
  [(.alignment, "alignment"), (.annotation, "annotation"), (.backgroundColor, "backgroundColor"),
   (.border, "border"), (.breakout, "breakout"), (.code, "code"), (.em, "em"), (.indentation, "indentation"),
   (.link, "link"), (.strike, "strike"), (.strong, "strong"), (.subsup, "subsup"), (.textColor, "textColor"),
   (.underline, "underline"), (.blockCard, "blockCard"), (.blockTaskItem, "blockTaskItem"),
   (.blockquote, "blockquote"), (.bodiedExtension, "bodiedExtension"), (.bodiedSyncBlock, "bodiedSyncBlock"),
   (.bulletList, "bulletList"), (.caption, "caption"), (.codeBlock, "codeBlock"), (.dataConsumer, "dataConsumer"),
   (.date, "date"), (.decisionItem, "decisionItem"), (.decisionList, "decisionList"), (.doc, "doc"),
   (.embedCard, "embedCard"), (.emoji, "emoji"), (.expand, "expand"), (.extension, "extension"),
   (.external, "external"), (.file, "file"), (.fragment, "fragment"), (.hardBreak, "hardBreak"),
   (.heading, "heading"), (.image, "image"), (.inlineCard, "inlineCard"), (.inlineExtension, "inlineExtension"),
   (.layoutColumn, "layoutColumn"), (.layoutSection, "layoutSection"), (.listItem, "listItem"), (.media, "media"),
   (.mediaGroup, "mediaGroup"), (.mediaInline, "mediaInline"), (.mediaSingle, "mediaSingle"), (.mention, "mention"),
   (.nestedExpand, "nestedExpand"), (.orderedList, "orderedList"), (.panel, "panel"), (.paragraph, "paragraph"),
   (.placeholder, "placeholder"), (.rule, "rule"), (.status, "status"), (.sub, "sub"), (.sup, "sup"),
   (.syncBlock, "syncBlock"), (.table, "table"), (.tableCell, "tableCell"), (.tableHeader, "tableHeader"),
   (.tableRow, "tableRow"), (.taskItem, "taskItem"), (.taskList, "taskList"), (.text, "text")]

end Verif.Spec
