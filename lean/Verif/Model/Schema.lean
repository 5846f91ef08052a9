import Verif.Model.TypeEnum
/-!
# Dataclass fields of every mark and node class

Each class in /repo/atlas_doc_parser/marks and /nodes is a frozen dataclass derived from
`Base` (mark_or_node.py:32); what matters for parsing and serialising is the ordered list of its
fields and their defaults.  `REQ`, `OPT` are the sentinels of `func_args`.
-/

namespace Verif

/-- Default of a dataclass field. -/
inductive Dflt where
  /-- no default: leaving the field out of `cls(**kwargs)` is a TypeError -/
  | noDefault
  /-- `= REQ`: leaving it out is a `func_args` ParamError -/
  | req
  /-- `= OPT`: the field takes the `OPT` sentinel -/
  | opt
  /-- an ordinary default value -/
  | lit (v : Val)

def Dflt.isNoDefault : Dflt → Bool
  | .noDefault => true
  | _ => false

def Dflt.isReq : Dflt → Bool
  | .req => true
  | _ => false

/-- One dataclass field. -/
structure Field where
  name : String
  dflt : Dflt

/-- Abbreviation for a list of `OPT` fields. -/
def optFields (l : List String) : List Field := l.map fun n => ⟨n, .opt⟩

/-- Abbreviation for a list of `REQ` fields. -/
def reqFields (l : List String) : List Field := l.map fun n => ⟨n, .req⟩

/-- `type: str = TypeEnum.<cls>.value` of each mark class (marks/mark_*.py). -/
def MarkCls.typeEnum : MarkCls → TypeEnum
  | .backgroundColor => .backgroundColor  -- mark_background_color.py:24
  | .code => .code                        -- mark_code.py:20
  | .em => .em                            -- mark_em.py:17
  | .link => .link                        -- mark_link.py:41
  | .strike => .strike                    -- mark_strike.py:17
  | .strong => .strong                    -- mark_strong.py:17
  | .subsup => .subsup                    -- mark_subsup.py:35
  | .textColor => .textColor              -- mark_text_color.py:26
  | .underline => .underline              -- mark_underline.py:17
  | .annotation => .annotation            -- mark_annotation.py:44
  | .indentation => .indentation          -- mark_indentation.py:32
  | .border => .border                    -- mark_border.py:33
  | .alignment => .alignment              -- mark_alignment.py:39
  | .breakout => .breakout                -- mark_breakout.py:34
  | .dataConsumer => .dataConsumer        -- mark_data_consumer.py:31
  | .fragment => .fragment                -- mark_fragment.py:34

/-- `type: str = TypeEnum.<cls>.value` of each node class (nodes/node_*.py). -/
def NodeCls.typeEnum : NodeCls → TypeEnum
  | .doc => .doc                      -- node_doc.py:58
  | .text => .text                    -- node_text.py:36
  | .rule => .rule                    -- node_rule.py:35
  | .listItem => .listItem            -- node_list_item.py:43
  | .bulletList => .bulletList        -- node_bullet_list.py:26
  | .orderedList => .orderedList      -- node_ordered_list.py:41
  | .paragraph => .paragraph          -- node_paragraph.py:49
  | .taskItem => .taskItem            -- node_task_item.py:48
  | .taskList => .taskList            -- node_task_list.py:37
  | .decisionItem => .decisionItem    -- node_decision_item.py:47
  | .decisionList => .decisionList    -- node_decision_list.py:35
  | .emoji => .emoji                  -- node_emoji.py:47
  | .hardBreak => .hardBreak          -- node_hard_break.py:36
  | .date => .date                    -- node_date.py:40
  | .mention => .mention              -- node_mention.py:47
  | .status => .status                -- node_status.py:44
  | .heading => .heading              -- node_heading.py:54
  | .codeBlock => .codeBlock          -- node_code_block.py:50
  | .inlineCard => .inlineCard        -- node_inline_card.py:45
  | .blockCard => .blockCard          -- node_block_card.py:92
  | .media => .media                  -- node_media.py:81
  | .mediaGroup => .mediaGroup        -- node_media_group.py:28
  | .mediaSingle => .mediaSingle      -- node_media_single.py:78
  | .embedCard => .embedCard          -- node_embed_card.py:56
  | .extension => .extension          -- node_extension.py:58
  | .caption => .caption              -- node_caption.py:43
  | .mediaInline => .mediaInline      -- node_media_inline.py:55
  | .panel => .panel                  -- node_panel.py:80
  | .blockquote => .blockquote        -- node_blockquote.py:46
  | .expand => .expand                -- node_expand.py:59
  | .nestedExpand => .nestedExpand    -- node_nested_expand.py:60
  | .tableCell => .tableCell          -- node_table_cell.py:62
  | .tableHeader => .tableHeader      -- node_table_header.py:61
  | .tableRow => .tableRow            -- node_table_row.py:41
  | .table => .table                  -- node_table.py:67

/-- Fields of the attrs dataclass of each mark class; `none` when the class has no `attrs`
field. -/
def MarkCls.attrsFields : MarkCls → Option (List Field)
  | .alignment => some [⟨"align", .noDefault⟩]                        -- mark_alignment.py:21
  | .annotation => some (reqFields ["id", "annotationType"])          -- mark_annotation.py:29-30
  | .backgroundColor => some [⟨"color", .noDefault⟩]                  -- mark_background_color.py:15
  | .border => some (reqFields ["size", "color"])                     -- mark_border.py:20-21
  | .breakout => some [⟨"mode", .noDefault⟩, ⟨"width", .opt⟩]         -- mark_breakout.py:21-22
  | .dataConsumer => some [⟨"sources", .noDefault⟩]                   -- mark_data_consumer.py:19
  | .fragment => some [⟨"localId", .noDefault⟩, ⟨"name", .opt⟩]       -- mark_fragment.py:20-21
  | .indentation => some (reqFields ["level"])                        -- mark_indentation.py:19
  | .link => some (reqFields ["href"] ++
      optFields ["title", "id", "collection", "occurrenceKey"])       -- mark_link.py:23-27
  | .subsup => some (reqFields ["type"])                              -- mark_subsup.py:20
  | .textColor => some [⟨"color", .noDefault⟩]                        -- mark_text_color.py:15
  | .code | .em | .strike | .strong | .underline => none

/-- Fields of each mark class, in dataclass order (`type` is inherited from
`BaseMarkOrNode`, mark_or_node.py:103, so it comes first; every `attrs` default is `REQ`). -/
def MarkCls.fields (c : MarkCls) : List Field :=
  ⟨"type", .lit (.str c.typeEnum.value.toList)⟩ ::
    (match c.attrsFields with
     | some _ => [⟨"attrs", .req⟩]
     | none => [])

/-- Fields of the attrs dataclass of each node class; `none` when the class has no `attrs`
field. -/
def NodeCls.attrsFields : NodeCls → Option (List Field)
  | .doc | .text | .bulletList | .mediaGroup => none
  | .rule => some (optFields ["localId"])                             -- node_rule.py:20
  | .listItem => some (optFields ["localId"])                         -- node_list_item.py:30
  | .orderedList => some (optFields ["order", "localId"])             -- node_ordered_list.py:25-26
  | .paragraph => some (optFields ["localId"])                        -- node_paragraph.py:35
  | .taskItem => some (reqFields ["localId", "state"])                -- node_task_item.py:34-35
  | .taskList => some (reqFields ["localId"])                         -- node_task_list.py:24
  | .decisionItem => some (reqFields ["localId", "state"])            -- node_decision_item.py:34-35
  | .decisionList => some (reqFields ["localId"])                     -- node_decision_list.py:23
  | .emoji => some (reqFields ["shortName"] ++
      optFields ["id", "text", "localId"])                            -- node_emoji.py:26-29
  | .hardBreak => some (optFields ["text", "localId"])                -- node_hard_break.py:21-22
  | .date => some (reqFields ["timestamp"] ++ optFields ["localId"])  -- node_date.py:21-22
  | .mention => some (reqFields ["id"] ++
      optFields ["localId", "text", "accessLevel", "userType"])       -- node_mention.py:27-31
  | .status => some (reqFields ["text", "color"] ++
      optFields ["localId", "style"])                                 -- node_status.py:24-27
  | .heading => some (reqFields ["level"] ++ optFields ["localId"])   -- node_heading.py:37-38
  | .codeBlock => some (optFields ["language", "uniqueId", "localId"]) -- node_code_block.py:31-33
  | .inlineCard => some (optFields ["url", "data", "localId"])        -- node_inline_card.py:24-26
  | .blockCard => some (optFields
      ["url", "localId", "datasource", "width", "layout", "data"])    -- node_block_card.py:71-76
  | .media => some (reqFields ["type"] ++ optFields
      ["id", "collection", "url", "localId", "alt", "width", "height",
       "occurrenceKey"])                                              -- node_media.py:42-50
  | .mediaSingle => some (optFields
      ["layout", "width", "widthType", "localId"])                    -- node_media_single.py:41-52
  | .embedCard => some (reqFields ["url", "layout"] ++ optFields
      ["width", "originalHeight", "originalWidth", "localId"])        -- node_embed_card.py:26-39
  | .extension => some (reqFields ["extensionKey", "extensionType"] ++
      optFields ["parameters", "text", "layout", "localId"])          -- node_extension.py:29-34
  | .caption => some (optFields ["localId"])                          -- node_caption.py:30
  | .mediaInline => some (reqFields ["id", "collection"] ++ optFields
      ["type", "localId", "alt", "occurrenceKey", "width", "height",
       "data"])                                                       -- node_media_inline.py:33-41
  | .panel => some (reqFields ["panelType"] ++ optFields
      ["panelIcon", "panelIconId", "panelIconText", "panelColor",
       "localId"])                                                    -- node_panel.py:43-56
  | .blockquote => some (optFields ["localId"])                       -- node_blockquote.py:31
  | .expand => some (optFields ["title", "localId"])                  -- node_expand.py:41-42
  | .nestedExpand => some (optFields ["title", "localId"])            -- node_nested_expand.py:37-38
  | .tableCell => some (optFields
      ["colspan", "rowspan", "colwidth", "background", "localId"])    -- node_table_cell.py:43-47
  | .tableHeader => some (optFields
      ["colspan", "rowspan", "colwidth", "background", "localId"])    -- node_table_header.py:43-47
  | .tableRow => some (optFields ["localId"])                         -- node_table_row.py:24
  | .table => some (optFields
      ["displayMode", "isNumberColumnEnabled", "layout", "localId",
       "width"])                                                      -- node_table.py:32-43

/-- Fields of each node class other than the inherited `type`, in dataclass order. -/
def NodeCls.ownFields : NodeCls → List Field
  | .doc => [⟨"version", .lit (.int 1)⟩, ⟨"content", .req⟩]                     -- node_doc.py:57-79
  | .text => [⟨"text", .req⟩, ⟨"marks", .opt⟩]                                  -- node_text.py:37-50
  | .rule => [⟨"attrs", .opt⟩]                                                  -- node_rule.py:36
  | .listItem => [⟨"attrs", .opt⟩, ⟨"content", .req⟩]                           -- node_list_item.py:44-55
  | .bulletList => [⟨"content", .req⟩]                                          -- node_bullet_list.py:27
  | .orderedList => [⟨"attrs", .opt⟩, ⟨"content", .req⟩]                        -- node_ordered_list.py:42-43
  | .paragraph => [⟨"attrs", .opt⟩, ⟨"content", .opt⟩, ⟨"marks", .opt⟩]         -- node_paragraph.py:50-70
  | .taskItem => [⟨"attrs", .req⟩, ⟨"content", .opt⟩]                           -- node_task_item.py:49-63
  | .taskList => [⟨"attrs", .req⟩, ⟨"content", .req⟩]                           -- node_task_list.py:38-45
  | .decisionItem => [⟨"attrs", .req⟩, ⟨"content", .opt⟩]                       -- node_decision_item.py:48-62
  | .decisionList => [⟨"attrs", .req⟩, ⟨"content", .req⟩]                       -- node_decision_list.py:36-37
  | .emoji => [⟨"attrs", .req⟩]                                                 -- node_emoji.py:48
  | .hardBreak => [⟨"attrs", .opt⟩]                                             -- node_hard_break.py:37
  | .date => [⟨"attrs", .req⟩]                                                  -- node_date.py:41
  | .mention => [⟨"attrs", .req⟩]                                               -- node_mention.py:48
  | .status => [⟨"attrs", .req⟩]                                                -- node_status.py:45
  | .heading => [⟨"attrs", .req⟩, ⟨"content", .opt⟩, ⟨"marks", .opt⟩]           -- node_heading.py:55-75
  | .codeBlock => [⟨"attrs", .opt⟩, ⟨"content", .opt⟩]                          -- node_code_block.py:51-52
  | .inlineCard => [⟨"attrs", .req⟩]                                            -- node_inline_card.py:46
  | .blockCard => [⟨"attrs", .req⟩]                                             -- node_block_card.py:93
  | .media => [⟨"attrs", .req⟩, ⟨"marks", .opt⟩]                                -- node_media.py:82-89
  | .mediaGroup => [⟨"content", .req⟩]                                          -- node_media_group.py:29
  | .mediaSingle => [⟨"attrs", .opt⟩, ⟨"content", .opt⟩, ⟨"marks", .opt⟩]       -- node_media_single.py:79-81
  | .embedCard => [⟨"attrs", .req⟩]                                             -- node_embed_card.py:57
  | .extension => [⟨"attrs", .req⟩, ⟨"marks", .opt⟩]                            -- node_extension.py:59-60
  | .caption => [⟨"attrs", .opt⟩, ⟨"content", .opt⟩]                            -- node_caption.py:44-56
  | .mediaInline => [⟨"attrs", .req⟩, ⟨"marks", .opt⟩]                          -- node_media_inline.py:56-63
  | .panel => [⟨"attrs", .req⟩, ⟨"content", .req⟩]                              -- node_panel.py:81-97
  | .blockquote => [⟨"attrs", .opt⟩, ⟨"content", .req⟩]                         -- node_blockquote.py:47-58
  | .expand => [⟨"attrs", .opt⟩, ⟨"content", .req⟩]                             -- node_expand.py:60-81
  | .nestedExpand => [⟨"attrs", .req⟩, ⟨"content", .req⟩]                       -- node_nested_expand.py:61-78
  | .tableCell => [⟨"attrs", .opt⟩, ⟨"content", .req⟩]                          -- node_table_cell.py:63-83
  | .tableHeader => [⟨"attrs", .opt⟩, ⟨"content", .req⟩]                        -- node_table_header.py:62-82
  | .tableRow => [⟨"attrs", .opt⟩, ⟨"content", .req⟩]                           -- node_table_row.py:42-48
  | .table => [⟨"attrs", .opt⟩, ⟨"content", .req⟩, ⟨"marks", .opt⟩]             -- node_table.py:68-70

/-- All fields of a node class: the inherited `type` (mark_or_node.py:103), whose default each
class overrides, then its own fields. -/
def NodeCls.fields (c : NodeCls) : List Field :=
  ⟨"type", .lit (.str c.typeEnum.value.toList)⟩ :: c.ownFields

/-- Default of the field called `name`, if the class has such a field. -/
def fieldDflt (fs : List Field) (name : String) : Option Dflt :=
  (fs.find? fun f => f.name == name).map (·.dflt)

end Verif
