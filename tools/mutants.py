"""Seeded bugs: id, model file, old text, new text, the English claim the edited program violates and
the properties that claim belongs to."""
MUTANTS = []
M = "Verif/Model/"

def m(id, file, definition, old, new, claim, props, count=1):
    MUTANTS.append(dict(id=id, file=M + file if "/" not in file else file, definition=definition, old=old, new=new,
                        claim=claim, props=props.split(), count=count))

# ---- type_enum, registries -------------------------------------------------------------------
m("reg1", "TypeEnum.lean", "nodeRegistry", "(.tableHeader, .tableHeader),", "(.tableHeader, .tableCell),",
  "tableHeader JSON builds a NodeTableCell", "C03 C13")
m("reg2", "TypeEnum.lean", "markRegistry", "(.strike, .strike), (.strong, .strong)", "(.strike, .strong), (.strong, .strike)",
  "strike and strong swapped in the mark registry", "C03 C13")
m("reg3", "TypeEnum.lean", "nodeRegistry", " (.nestedExpand, .nestedExpand),", "",
  "nestedExpand no longer registered: silently dropped", "C13 C22")
m("reg4", "TypeEnum.lean", "TypeEnum.value", '| .taskList => "taskList"', '| .taskList => "tasklist"',
  "TypeEnum.taskList has a wrong value", "C13")
m("reg5", "TypeEnum.lean", "checkTypeMatch", "expected.any fun t => t.value.toList == s", "expected.all fun t => t.value.toList == s",
  "is_type_of requires all given types instead of one", "C14")
m("reg6", "TypeEnum.lean", "checkTypeMatch", "  | .str s => expected.any", "  | .str s => (expected.take 1).any",
  "is_type_of looks only at the first type", "C14")
m("reg7", "TypeEnum.lean", "registryLookup", "  else .error .typeError", "  else .ok none",
  "an unhashable type is treated as an unregistered one and skipped", "C10")
m("reg8", "Schema.lean", "NodeCls.typeEnum", "  | .blockCard => .blockCard          -- node_block_card.py:92", "  | .blockCard => .inlineCard",
  "NodeBlockCard().type defaults to inlineCard", "C13")

# ---- schema ----------------------------------------------------------------------------------
m("sch1", "Schema.lean", "NodeCls.ownFields", '| .heading => [⟨"attrs", .req⟩, ⟨"content", .opt⟩, ⟨"marks", .opt⟩]', '| .heading => [⟨"attrs", .opt⟩, ⟨"content", .opt⟩, ⟨"marks", .opt⟩]',
  "a heading without attrs is accepted", "C07")
m("sch2", "Schema.lean", "NodeCls.attrsFields", '| .media => some (reqFields ["type"] ++ optFields\n      ["id", "collection", "url",', '| .media => some (reqFields ["type"] ++ optFields\n      ["id", "collection",',
  "media attrs lose url on parsing", "C05 C40")
m("sch3", "Schema.lean", "NodeCls.attrsFields", '| .taskItem => some (reqFields ["localId", "state"])', '| .taskItem => some (optFields ["localId", "state"])',
  "a task item without state is accepted", "C07")
m("sch4", "Schema.lean", "MarkCls.attrsFields", '| .breakout => some [⟨"mode", .noDefault⟩, ⟨"width", .opt⟩]', '| .breakout => some [⟨"mode", .noDefault⟩, ⟨"width", .noDefault⟩]',
  "a breakout mark without width is rejected", "C07")
m("sch5", "Schema.lean", "NodeCls.ownFields", '| .table => [⟨"attrs", .opt⟩, ⟨"content", .req⟩, ⟨"marks", .opt⟩]', '| .table => [⟨"attrs", .opt⟩, ⟨"content", .req⟩]',
  "table marks are dropped", "C05 C22")

# ---- from_dict -------------------------------------------------------------------------------
m("fd1", "FromDict.lean", "Res.skipUnimplemented", "  | .error e => ⟨x.log, .error e⟩\n\nend Res", "  | .error _ => ⟨x.log, .ok none⟩\n\nend Res",
  "any failing child is skipped silently", "C09 C01")
m("fd2", "FromDict.lean", "Res.skipUnimplemented", "(if warn then [⟨t, c⟩] else [])", "[⟨t, c⟩]",
  "warnings are logged even when the setting is off", "C08")
m("fd3", "FromDict.lean", "parseNodes", "(parseNodes warn vs).map fun ns => o.toList ++ ns", "(parseNodes warn vs).map fun ns => ns ++ o.toList",
  "children come out in reverse order", "C01")
m("fd4", "FromDict.lean", "nodeFromDict", "  content.bind fun content =>\n  (marksStep warn d).bind fun marks =>", "  (marksStep warn d).bind fun marks =>\n  content.bind fun content =>",
  "marks are converted before content: the order of warnings and of the error raised changes", "C08 C09")
m("fd5", "FromDict.lean", "attrsFromDict", "    match checkRequired fs (hasKey d) with\n    | .error e => .error e\n    | .ok () => .ok ⟨fs.map fun f => (f.name, fieldValue d f)⟩", "    match checkRequired fs (hasKey d) with\n    | .error e => .error e\n    | .ok () => .ok ⟨d⟩",
  "attrs keep unknown keys", "C02 C05")
m("fd6", "FromDict.lean", "checkRequired", "  else if fs.any fun f => f.dflt.isReq && !given f.name then .error .paramError\n  else .ok ()", "  else .ok ()",
  "REQ fields are not enforced", "C07")
m("fd7", "FromDict.lean", "checkRequired", "if fs.any fun f => f.dflt.isNoDefault && !given f.name then .error .typeError\n  else if fs.any fun f => f.dflt.isReq && !given f.name then .error .paramError", "if fs.any fun f => f.dflt.isReq && !given f.name then .error .paramError\n  else if fs.any fun f => f.dflt.isNoDefault && !given f.name then .error .paramError",
  "a missing argument without default raises ParamError instead of TypeError", "C07")
m("fd8", "FromDict.lean", "parseMarks", "(parseMarks warn vs).map fun ms => o.toList ++ ms", "(parseMarks warn vs).map fun ms => ms ++ o.toList",
  "marks come out in reverse order", "C01 C23")
m("fd9", "FromDict.lean", "parseNode", '| .ok none => .err (.unimplementedType t "node")', '| .ok none => .err .keyError',
  "an unregistered root raises KeyError and an unregistered child makes the parse fail", "C10 C01")
m("fd10", "FromDict.lean", "parseMark", '.error (.unimplementedType t "mark")', '.error (.unimplementedType t "node")',
  "the mark error reports category node", "C10 C08")
m("fd11", "FromDict.lean", "attrsStep", "  | some v, some fs =>\n    match attrsFromDict fs v with\n    | .error e => .error e", "  | some v, some fs =>\n    match attrsFromDict fs v with\n    | .error _ => .ok none",
  "broken attrs are ignored", "C07")
m("fd12", "FromDict.lean", "fieldValue", "  match lookupKey d f.name with\n  | some v => v", "  match lookupKey d f.name with\n  | some .none => .opt\n  | some v => v",
  "an explicit null is dropped (treated as absent)", "C05")
m("fd13", "FromDict.lean", "marksStep", "  | some (.list l) => (parseMarks warn l).map fun ms => some (.val ms)", "  | some (.list []) => .ok none\n  | some (.list l) => (parseMarks warn l).map fun ms => some (.val ms)",
  "an empty marks list is turned into a missing one", "C05")
m("fd14", "FromDict.lean", "valOf", "  | some f => some (fieldValue d f)", "  | some f => some (fieldValue [] f)",
  "type/version/text are always the defaults", "C05 C21")

# ---- to_dict ---------------------------------------------------------------------------------
m("td1", "ToDict.lean", "AttrsObj.toDict", ".dict (removeOptional a.fields)", ".dict a.fields",
  "OPT leaks out of node attrs", "C06")
m("td2", "ToDict.lean", "Node.toDict", "nodeAttrsEntry hd.attrs ++ c ++ m", "nodeAttrsEntry hd.attrs ++ c",
  "to_dict drops the marks", "C04 C05")
m("td3", "ToDict.lean", "listToDict", "      | .ok vs => .ok (v :: vs)", "      | .ok vs => .ok (vs ++ [v])",
  "to_dict reverses content", "C04 C05")
m("td4", "ToDict.lean", "removeOptional", "d.filter fun e => !e.2.isOpt", "d.filter fun e => !e.2.isOpt && (match e.2 with | .none => false | _ => true)",
  "to_dict also drops null values", "C04 C05")
m("td5", "ToDict.lean", "Mark.attrsEntry", '  | .val a => [("attrs", .dict a.fields)]', '  | .val a => [("attrs", .dict (removeOptional a.fields))]',
  "(a fix, not a bug) mark attrs drop OPT: C06's counterexample must stop holding", "C06")
m("td6", "ToDict.lean", "nodeAttrsEntry", '  | .val a => [("attrs", a.toDict)]', '  | .val a => if (removeOptional a.fields).isEmpty then [] else [("attrs", a.toDict)]',
  "empty attrs are dropped by to_dict", "C04 C05")
m("td7", "ToDict.lean", "contentEntry", "    | .ok l => .ok [(\"content\", .list l)]", "    | .ok l => if l.isEmpty then .ok [] else .ok [(\"content\", .list l)]",
  "to_dict drops empty content", "C04 C05")

# ---- marks -----------------------------------------------------------------------------------
m("mk1", "Marks.lean", "Mark.toMarkdown", "| .em => wrapNonBlank ['*'] ['*'] text", "| .em => wrapNonBlank ['_'] ['_'] text",
  "em uses underscores", "C23")
m("mk2", "Marks.lean", "wrapNonBlank", "if (Str.strip s).isEmpty then .ok text", "if s.isEmpty then .ok text",
  "whitespace-only text is wrapped", "C23 C24")
m("mk3", "Marks.lean", "Mark.toMarkdown (code)", "    | .ok true => .error .valueError\n", "    | .ok true => .ok text\n",
  "inline code accepts newlines", "C24")
m("mk4", "Marks.lean", "Mark.toMarkdown (link)", ".ok (.str (['['] ++ (title.asStr?.getD (text.pyStr env)) ++ [']', '('] ++\n          href.pyStr env ++ [')']))", ".ok (.str (['['] ++ href.pyStr env ++ [']', '('] ++\n          (title.asStr?.getD (text.pyStr env)) ++ [')']))",
  "link label and target swapped", "C23")
m("mk5", "Marks.lean", "applyMarks", "    | .ok md' => applyMarks env md' ms", "    | .ok _ => applyMarks env md ms",
  "marks do not compose", "C23")
m("mk6", "Marks.lean", "applyMarks", "    | .error .attributeError => .ok md\n", "",
  "an AttributeError in a mark propagates instead of stopping the loop", "C23")
m("mk7", "Marks.lean", "Mark.toMarkdown (indentation)", ".ok (.str (Str.rep ['\\t'] n))", ".ok (.str (Str.rep ['\\t'] (n + 1)))",
  "indentation has one tab too many", "C23")
m("mk8", "Marks.lean", "newlineIn", "  | .str s => .ok (s.contains Str.nl)", "  | .str s => .ok ((s.dropLast).contains Str.nl)",
  "a trailing newline is not noticed by inline code", "C24")

# ---- dates -----------------------------------------------------------------------------------
m("dt1", "Date.lean", "isLeap / ord2ymd", "let leapyear := n1 == 3 && (n4 != 24 || n100 == 3)", "let leapyear := n1 == 3",
  "every fourth year is a leap year", "C37")
m("dt2", "Date.lean", "ofMillis", "(Flt.wholeSeconds sec).fdiv secPerDay", "(Flt.wholeSeconds sec).tdiv secPerDay",
  "division truncates towards zero: wrong day before 1970", "C37")
m("dt3", "Date.lean", "isoFormat", "pad 2 m ++ ['-'] ++ pad 2 d", "pad 2 d ++ ['-'] ++ pad 2 m",
  "day and month swapped", "C37")
m("dt4", "Date.lean", "maxOrd", "def maxOrd : Int := 3652059", "def maxOrd : Int := 3652058",
  "the last representable day fails", "C37")
m("dt5", "Date.lean", "isoFormat", "pad 4 y ++", "Nat.toDigits 10 y ++", "years below 1000 are not padded", "C37")
m("dt6", "Date.lean", "toInt", "  | .bool b => .ok (if b then 1 else 0)", "  | .bool _ => .error .typeError", "a bool timestamp fails", "C37")
m("dt7", "Date.lean", "ord2ymd", "let month := (n + 50) / 32", "let month := (n + 51) / 32", "off-by-one month estimate (harmless: corrected by `preceding > n`?)", "C37")

m("fl1", "Float.lean", "wholeSeconds", "  else if us < 0 then t - 1\n", "", "negative fractions of a second are not carried: wrong day before 1970", "C37")
m("fl2", "Float.lean", "rnd", "let e := ilog2 x - 52", "let e := ilog2 x - 23", "single precision: the day of recent instants is wrong", "C37")
m("fl3", "Date.lean", "ofMillis", "Flt.rnd ((ms : Rat) / 1000)", "Flt.rnd (ms : Rat)", "the timestamp is taken as seconds", "C37")
m("fl4", "Float.lean", "wholeSeconds", "  if 1000000 ≤ us then t + 1\n", "  if 999 ≤ us then t + 1\n", "a fraction of 999 microseconds is carried: the last millisecond of a day is on the next", "C37")
m("ts1", "Verif/Py/Str.lean", "Str.intSpace", "isSpace c && !(28 ≤ c.toNat && c.toNat ≤ 31)", "isSpace c", "int() skips U+001C", "C37")
m("ts2", "Verif/Py/Str.lean", "Str.parseDigits", "if c = '_' then (if lastDigit then parseDigits digit acc false cs else none)", "if c = '_' then parseDigits digit acc false cs", "double underscores are accepted", "C37")
# ---- markdown helpers ------------------------------------------------------------------------
F = "Markdown.lean"
m("md1", F, "stripDoubleEmptyLine", "(Str.replace ['\\n', '\\n', '\\n'] ['\\n', '\\n'] s)", "(Str.replace ['\\n', '\\n', '\\n'] ['\\n'] s)",
  "strip_double_empty_line removes blank lines altogether", "C15")
m("md2", F, "docContentToMarkdown", "| .ok s => .ok (stripDoubleEmptyLine 3 s)", "| .ok s => .ok (stripDoubleEmptyLine 2 s)",
  "only two passes are made", "C16 C42")
m("md3", F, "contentToMarkdown", "  match content with\n  | .opt => .ok []\n  | _ =>\n    match iterSlot alienItem content with\n    | .error e => .error e\n    | .ok items =>\n      match collect ig (fun (k : Item) => k.render none false) items with",
  "  match content with\n  | .opt => .ok []\n  | _ =>\n    match iterSlot alienItem content with\n    | .error e => .error e\n    | .ok items =>\n      match collect false (fun (k : Item) => k.render none false) items with",
  "content_to_markdown ignores ignore_error", "C18")
m("md4", F, "collectPre", "| .error e => if ig then collectPre ig pre f as else .error e", "| .error e => if ig then .ok [] else .error e",
  "lenient mode stops at the first failing child", "C18 C20")
m("md5", F, "docBlock", "[.bulletList, .orderedList, .codeBlock]", "[.bulletList, .codeBlock]",
  "ordered lists are not padded by blank lines", "C42")
m("md6", F, "docContentToMarkdown", "match strJoin [Str.nl] lst with\n        | .error e => .error e\n        | .ok s => .ok (stripDoubleEmptyLine 3 s)", "match strJoin [Str.nl, Str.nl] lst with\n        | .error e => .error e\n        | .ok s => .ok (stripDoubleEmptyLine 3 s)",
  "blocks are joined by two newlines", "C42")
m("md7", F, "collectPre", "        | .ok bs => .ok (b :: bs)\n      | .error e => if ig", "        | .ok bs => .ok (bs ++ [b])\n      | .error e => if ig",
  "children are rendered in reverse order", "C42 C21")
m("md8", F, "docContentToMarkdown", "      match collect ig docBlock items with", "      match collect true docBlock items with",
  "documents always ignore errors", "C18 C42")
# ---- lists
m("ls1", F, "indentOf", "Str.rep [' ', ' ', ' ', ' '] level", "Str.rep [' ', ' '] level", "indent of two spaces per level", "C25 C45 C26 C28")
m("ls2", F, "listItemChild", "if nested then k.render (some (level + 1)) false", "if nested then k.render (some level) false",
  "nested lists are not indented", "C25 C45")
m("ls3", F, "listItemContent", "| .ok lst => strJoin [Str.nl] lst\n\n/-- The lines of one item", "| .ok lst => strJoin [] lst\n\n/-- The lines of one item",
  "the blocks of an item are glued together", "C25 C26")
m("ls4", F, "itemLines", "| first :: rest => (marker ++ first) :: rest", "| first :: _ => [marker ++ first]",
  "only the first line of an item is kept", "C25 C26 C21")
m("ls5", F, "bulletLines", "    | .ok false => bulletLines level ig items\n", "    | .ok false => .ok []\n",
  "a stray child ends the list", "C25 C21")
m("ls6", F, "orderedLines", "match orderedLines env level ig (nextNum num) items with", "match orderedLines env level ig num items with",
  "the number is not increased", "C26")
m("ls7", F, "orderedLines", "    | .ok false => orderedLines env level ig num items\n", "    | .ok false => orderedLines env level ig (nextNum num) items\n",
  "stray children consume a number", "C26")
m("ls8", F, "orderedStart", "  if level = 0 then\n    match getAttr", "  if 0 ≤ level then\n    match getAttr",
  "nested levels honour attrs.order", "C26")
m("ls9", F, "orderedStart", "if order.asInt?.isSome then .ok order else .ok (.int 1)", "if order.asInt?.isSome then .ok order else .ok (.int 0)",
  "numbering starts at 0 by default", "C26")
m("ls10", F, "listItemChild", "      | .ok s => .ok (.str s)\n\n/-- The joined", "      | .ok _ => .ok md\n\n/-- The joined",
  "list item paragraphs keep their trailing newline", "C25 C26")
m("ls11", F, "listItemContent", "(fun (k : Kid) => k.isTypeOf [kind])", "(fun (k : Kid) => k.isTypeOf [.bulletList, .orderedList])",
  "(a fix) lists of the other kind are indented too: C41's counterexample must go", "C41")
m("ls12", F, "bulletLines", "(indentOf level ++ ['-', ' ']) itemContent", "(indentOf level ++ ['*', ' ']) itemContent", "bullets are asterisks", "C25")
m("ls13", F, "orderedLines", "num.pyStr env ++ ['.', ' ']", "num.pyStr env ++ [')', ' ']", "numbers are followed by a parenthesis", "C26")
m("ls14", F, "listItemContent", "match collectPre ig (fun (k : Kid) => k.isTypeOf [kind]) (listItemChild level) kids with", "match collectPre true (fun (k : Kid) => k.isTypeOf [kind]) (listItemChild level) kids with",
  "list items swallow errors in strict mode", "C25 C26")
# ---- tasks
m("tk1", F, "taskItemLine", 'some "DONE".toList then', 'some "TODO".toList then', "open tasks are ticked", "C28")
m("tk2", F, "taskLines", "match item.render (some (level + 1)) ig with", "match item.render (some level) ig with", "nested task lists are not indented", "C28")
m("tk3", F, "taskItemLine", "[' '] ++ Str.rstrip s)", "[' '] ++ s)", "trailing whitespace of a task is kept", "C28")
m("tk4", F, "taskItemLine", "  match iterSlot alienKid item.content with\n  | .error e => .error e\n  | .ok kids =>\n    match collect ig (fun (k : Kid) => k.render none false) kids with", "  match iterSlot alienKid (match item.content with | .opt => .val [] | c => c) with\n  | .error e => .error e\n  | .ok kids =>\n    match collect ig (fun (k : Kid) => k.render none false) kids with",
  "(a fix) a task without content gives an empty task: C28's counterexample must go", "C28")
m("tk5", F, "taskLines", "        | .error e => if ig then taskLines level ig items else .error e\n\n/-- `NodeTaskList", "        | .error _ => taskLines level ig items\n\n/-- `NodeTaskList",
  "a failing nested task list is dropped in strict mode", "C28 C21")
m("tk6", F, "taskListMd", "| .ok lines => strJoin [Str.nl] lines\n\n/-! ## Decisions", "| .ok lines => strJoin [Str.nl] lines.dropLast\n\n/-! ## Decisions", "the last task is lost", "C28 C21")
# ---- decisions
m("dc1", F, "decisionLoop", "if lineCount ≤ 1 || prevEmpty then", "if lineCount ≤ 1 then", "two bare '>' lines in a row", "C29")
m("dc2", F, "decisionLoop", "if lineCount ≤ 1 || prevEmpty then", "if lineCount ≤ 0 || prevEmpty then", "the second line may be a bare '>'", "C29")
m("dc3", F, "decisionLoop", "let line := Str.rstrip raw", "let line := raw", "trailing whitespace is kept", "C29")
m("dc4", F, "decisionItemMd", "(Str.splitNL (Str.rstrip s))", "(Str.splitNL s)", "the last line may be a bare '>'", "C29")
m("dc5", F, "decisionListMd", "| .ok blocks => strJoin [Str.nl, Str.nl] blocks", "| .ok blocks => strJoin [Str.nl] blocks", "decisions are not separated by a blank line", "C30")
m("dc6", F, "decisionBlocks", "      match item.render none ig with", "      match item.render none false with", "decision lists do not pass ignore_error on", "C50")
m("dc7", F, "decisionBlocks", "    | .ok false => decisionBlocks ig items", "    | .ok false => match item.render none ig with | .error e => .error e | .ok md => match decisionBlocks ig items with | .error e => .error e | .ok r => .ok (md :: r)", "stray children of a decision list are rendered", "C30")
m("dc8", F, "decisionLoop", "      else ['>'] :: decisionLoop lineCount true ls", "      else decisionLoop lineCount true ls", "blank lines of a decision vanish", "C29")
# ---- tables
m("tb1", F, "cellMd", "(Str.replace ['|'] ['\\\\', '|'] md)", "md", "pipes are not escaped", "C31")
m("tb2", F, "cellMd", 'Str.join "<br>".toList', "Str.join ['\\n']", "cells keep newlines", "C31 C32")
m("tb3", F, "pipeRow", "['|', ' '] ++ s ++ [' ', '|']", "['|', ' '] ++ s", "rows lack the closing pipe", "C31")
m("tb4", F, "headerWidth", "| .ok true => .ok (some (ks.length + 1))", "| .ok true => .ok (some ks.length)", "the separator has one column too few", "C32")
m("tb5", F, "headerWidth", "match k.isTypeOf [.tableHeader] with", "match k.isTypeOf [.tableHeader, .tableCell] with", "every row gets a separator", "C32")
m("tb6", F, "tableLines", "| some n => .ok (md :: .str (separatorLine n) :: rest)", "| some n => .ok (.str (separatorLine n) :: md :: rest)", "the separator comes before the header", "C32")
m("tb7", F, "nbspLine", "if leading > 0 then", "if leading > 1 then", "a single leading space is kept", "C31")
m("tb8", F, "tableRowMd", "match strJoin [' ', '|', ' '] l with", "match strJoin [' ', ' '] l with", "cells are not separated", "C31")
m("tb9", F, "tableLines", "| .error e => if ig then tableLines ig rows else .error e", "| .error _ => tableLines ig rows", "failing rows are dropped in strict mode", "C32 C21")
m("tb10", F, "rowCells", "| .ok rest => .ok (md :: rest)\n\n/-- `\"| \"", "| .ok rest => .ok (rest ++ [md])\n\n/-- `\"| \"", "cells in reverse order", "C21")
m("tb11", F, "cellMd", "((Str.splitNL (Str.replace ['|'] ['\\\\', '|'] md)).map nbspLine)", "((Str.splitNL (Str.replace ['|'] ['\\\\', '|'] md)).map Str.lstripSpaces)", "leading spaces of a cell line are dropped", "C31")
# ---- blocks
m("bl1", F, "paragraphMd", "| .ok (.str s) => .ok (s ++ [Str.nl])", "| .ok (.str s) => .ok s", "paragraphs lack the final newline", "C62")
m("bl2", F, "headingMd", "Str.rep ['#'] n ++ [' ']", "Str.rep ['#'] (n + 1) ++ [' ']", "headings one level too deep", "C36")
m("bl3", F, "headingMd", "(Str.rep ['#'] n ++ [' '] ++ s) ++ ['\\n', '\\n']", "(Str.rep ['#'] n ++ [' '] ++ s) ++ ['\\n']", "one newline after a heading", "C36")
m("bl4", F, "codeLang", 'if lang = "none".toList then .ok [] else .ok lang', ".ok lang", "language none is printed", "C35")
m("bl5", F, "codeBlockMd", "lang ++ ['\\n'] ++ code ++ ['\\n', '`', '`', '`']", "lang ++ ['\\n'] ++ Str.strip code ++ ['\\n', '`', '`', '`']", "code is stripped", "C35 C21")
m("bl6", F, "blockquoteMd", "Str.indentAll ['>', ' '] (stripDoubleEmptyLine 3 s) ++ [Str.nl]", "Str.indentAll ['>', ' '] (stripDoubleEmptyLine 3 s)", "no newline after a quote", "C33")
m("bl7", F, "panelMd", "['*', '*'] ++ upper env ptype ++ ['*', '*'], [], s]", "['*', '*'] ++ upper env ptype ++ ['*', '*'], s]", "no blank line after the panel label", "C34")
m("bl8", F, "panelMd", "upper env ptype ++", "ptype ++", "the panel label is not upper-cased", "C34")
m("bl9", F, "expandMd", "| .ok s => addStyle env (.str s) marks", "| .ok _ => addStyle env (.str []) marks", "expand loses its content", "C21")
m("bl10", F, "codeBlockMd", "  match contentToMarkdown [] ig content with\n  | .error e => .error e\n  | .ok code =>", "  match contentToMarkdown [Str.nl] ig content with\n  | .error e => .error e\n  | .ok code =>", "code pieces are joined by newlines", "C35")
m("bl11", "Verif/Py/Str.lean", "Str.indentAll", "((splitLinesKeep text).map (pre ++ ·)).flatten", "((splitLinesKeep text).map fun l => if (Str.strip l).isEmpty then l else pre ++ l).flatten", "textwrap.indent with its default predicate: blank lines are not prefixed", "C33 C34")
# ---- leaves
m("lf1", F, "emojiMd", "| some s => .ok s\n    | none =>\n      match getAttr attrs \"shortName\"", "| some s => .ok ([':'] ++ s)\n    | none =>\n      match getAttr attrs \"shortName\"", "emoji text gets a colon", "C39")
m("lf2", F, "mentionMd", '"@Unknown".toList', '"@unknown".toList', "wrong mention fallback", "C39")
m("lf3", F, "inlineCardMd", "| none => .error .notImplementedError\n\n/-- `NodeBlockCard", "| none => .ok []\n\n/-- `NodeBlockCard", "an inline card without url renders nothing", "C38")
m("lf4", F, "embedCardMd", "['\\n'] ++ selfLink (u.pyStr env) ++ ['\\n']", "selfLink (u.pyStr env)", "embed cards lose their newlines", "C38")
m("lf5", F, "mediaMd", '"media:".toList ++ id.pyStr env', '"media:".toList ++ alt', "media file target is the alt text", "C40")
m("lf6", F, "mediaMd", "          else .error .typeError\n\n/-! ## Dispatch", '          else .ok (.str [])\n\n/-! ## Dispatch', "unknown media types render nothing", "C40")
m("lf7", F, "extensionMd", "ty.pyStr env ++ ['/'] ++ key.pyStr env", "key.pyStr env ++ ['/'] ++ ty.pyStr env", "extension type and key swapped", "C39")
m("lf8", F, "statusMd", ".ok (['`'] ++ t.pyStr env ++ ['`'])", ".ok (t.pyStr env)", "status without backticks", "C39")
m("lf9", F, "dispatch", '| .hardBreak => .ok (.str "  \\n".toList)', '| .hardBreak => .ok (.str "\\n".toList)', "hard breaks lose the two spaces", "C39")
m("lf10", F, "dispatch", '| .rule => .ok (.str "\\n\\n---\\n\\n".toList)', '| .rule => .ok (.str "---".toList)', "a rule without surrounding newlines", "C39")
m("lf11", F, "dispatch", "| .nestedExpand => strVal (docContentToMarkdown ig content)", "| .nestedExpand => strVal (contentToMarkdown [] ig content)", "nestedExpand joins its blocks without newline", "C18")
m("lf12", F, "dispatch", "| .mediaSingle => strVal (contentToMarkdown [] ig content)", "| .mediaSingle => .ok (.str [])", "mediaSingle renders nothing", "C62")
m("lf13", F, "mediaAlt", '(v.asStr?.getD "media".toList)', '(v.asStr?.getD "image".toList)', "wrong default alt", "C40")
m("lf14", F, "mediaMd", "addStyle env (.str (imageLink alt (url.asStr?.getD []))) marks", ".ok (.str (imageLink alt (url.asStr?.getD [])))", "marks of external media are dropped", "C40")
# ---- strings
m("st1", "Verif/Py/Str.lean", "Str.rstrip", "(s.reverse.dropWhile isSpace).reverse", "s.dropWhile isSpace", "rstrip strips the left side", "C25 C28 C29")
m("st2", "Verif/Py/Str.lean", "Str.splitNL", "if c = nl then [] :: splitNL cs", "if c = nl then splitNL cs", "split drops line boundaries", "C25 C29")
m("st3", "Verif/Py/Str.lean", "Str.replaceGo", "replaceGo old new (old.length - 1) cs", "replaceGo old new old.length cs", "replace swallows a character", "C15")
m("st4", "Verif/Py/Str.lean", "Str.parseInt", "  | '-' :: cs => (parseDigits digit 0 false cs).map fun n : Nat => -(n : Int)", "  | '-' :: cs => (parseDigits digit 0 false cs).map Int.ofNat", "the sign of a timestamp string is lost", "C37")
m("st5", "Verif/Py/Str.lean", "Str.parseDigits", "parseDigits digit (acc * 10 + d) true cs", "parseDigits digit (acc + d) true cs", "digits are added up", "C37")
m("st6", "Verif/Py/Str.lean", "Str.ofInt", "| .negSucc n => '-' :: Nat.toDigits 10 (n + 1)", "| .negSucc n => '-' :: Nat.toDigits 10 n", "negative numbers off by one", "C26")

# ---- heap ------------------------------------------------------------------------------------
m("hp1", "Heap.lean", "copyDictH", "  let (v', _) ← deepcopy fuel [] v\n  match v' with", "  match v with", "from_dict works on the caller's dict without copying", "C11")
m("hp2", "Heap.lean", "deepcopy", "      let memo' ← copyItems fuel b ((a, b) :: memo) o.items\n      HM.pure (.ref b, memo')", "      let memo' ← copyItems fuel b ((a, b) :: memo) o.items\n      HM.pure (.ref a, memo')", "deepcopy returns the original", "C11")
m("hp3", "Heap.lean", "copyItems", "    let (v', memo') ← deepcopy fuel memo v\n    HM.append b (k, v')\n    copyItems fuel b memo' rest", "    HM.append b (k, v)\n    copyItems fuel b memo rest", "shallow copy instead of a deep one", "C11")
m("hp4", "Heap.lean", "attrsStepH", '    HM.setItem b "attrs" inst', '    HM.pure ()', "the attrs object is built and thrown away", "C11")
m("hp5", "Heap.lean", "nodeFromDictH", '  listStepH warn "marks" (parseMarkH fuel) b\n', '', "marks are left as dicts", "C11")
m("hp6", "Heap.lean", "nodeFromDictH", '  listStepH warn "content" parse b\n', '  listStepH warn "content" parse (match v with | .ref a => a | _ => b)\n', "converted content is stored into the caller's dict", "C11")
m("hp7", "Heap.lean", "deepcopy", "    match memo.get a with\n    | some b => HM.pure (.ref b, memo)", "    match memo.get a with\n    | some _ => HM.pure (.ref a, memo)", "a shared sub-object is not copied the second time", "C11")
m("hp8", "Heap.lean", "loopH", "    HM.pure (o ++ vs)", "    HM.pure (vs ++ o)", "children in reverse order", "C11")

# ---- heap, output ----------------------------------------------------------------------------
m("ho1", "HeapOut.lean", "asdictItems", "    let v' ← asdictH fuel v\n    let rest'", "    let v' ← HM.pure v\n    let rest'", "asdict is shallow: the returned dict holds the node's own attrs and lists", "C49")
m("ho2", "HeapOut.lean", "listFieldH", "    HM.setItem d key r", "    HM.setItem (match v with | .ref a => a | _ => d) key r", "the serialised list is written into the object", "C49")
m("ho3", "HeapOut.lean", "removeOptionalH", "o.items.filter fun e => !e.2.isOpt", "o.items", "OPT is not removed", "C49")
m("ho4", "HeapOut.lean", "toDictH", '      listFieldH "marks" (toDictH fuel) o.items d\n', "", "marks are left as asdict made them", "C49")
m("ho5", "HeapOut.lean", "attrsFieldH", '      let r ← baseToDictH fuel (.ref a)\n      HM.setItem d "attrs" r', '      HM.setItem d "attrs" (.ref a)', "the returned dict holds the attrs object itself", "C49")
m("ho6", "HeapOut.lean", "toDictH", "      let v ← asdictH (fuel + 1) (.ref a)\n      let d ← addrOf v", "      let d := a", "to_dict works on the instance itself", "C49")
m("ho7", "HeapOut.lean", "mapH", "    HM.pure (v :: vs)", "    HM.pure (vs ++ [v])", "children in reverse order", "C49")

# ---- cache -----------------------------------------------------------------------------------
m("ca1", "Cache.lean", "Mem.get", "(m.cache.find? fun e => e.1 = c).map (·.2)", "(m.cache.head?).map (·.2)", "the cache ignores the key", "C12")
m("ca2", "Cache.lean", "Mem.store", "cache := (c, m.objs.length) :: m.cache.filter fun e => e.1 ≠ c", "cache := [(c, m.objs.length)]", "storing one class evicts the others", "C12")
m("ca3", "Cache.lean", "step", "  | .missed c => (m.store fieldsOf c, .filled c)", "  | .missed c => (m, .filled c)", "the miss path does not store", "C12")
m("ca4", "Cache.lean", "Mem.store", "cache := (c, m.objs.length) ::", "cache := (c, m.objs.length - 1) ::", "the entry points to another class's fields", "C12")

# ---- gen_code --------------------------------------------------------------------------------
m("gn1", "GenCode.lean", "memberApis", '  if "_".toList.isPrefixOf m.name then []\n  else\n', "", "private classes are exported", "C44")
m("gn2", "GenCode.lean", "memberApis", "m.isClass && (m.definedIn == full) && m.isBase", "m.isClass && m.isBase", "imported classes are exported again from every module", "C44")
m("gn3", "GenCode.lean", "scanDir", "((globbed pre files).mergeSort byName)", "(globbed pre files)", "output depends on the directory order", "C44")
m("gn4", "GenCode.lean", "Api.path", '.ok (".nodes.".toList ++ a.moduleName)', '.ok (".marks.".toList ++ a.moduleName)', "nodes are imported from marks", "C44")
m("gn5", "GenCode.lean", "addTo", "(k, as ++ [a]) :: rest", "(k, [a]) :: rest", "only the last name of a module is exported", "C44")
m("gn6", "GenCode.lean", "generate", ".ok (header ++ m ++ middle ++ n)", ".ok (header ++ n ++ middle ++ m)", "sections swapped", "C44")
m("gn7", "GenCode.lean", "memberApis", '|| "T_MARK_".toList.isPrefixOf m.name', "", "mark type aliases are not exported", "C44")
m("gn8", "GenCode.lean", "scanModule", '  if "marks".toList ∈ parts then', '  if dir = "marks".toList then', "(a fix) the directory is looked at, not the whole path: C48's counterexample must go", "C48")

# ---- equality --------------------------------------------------------------------------------
m("eq1", "Equality.lean", "Val.num?", "  | .bool b => some (.inl (if b then 1 else 0))\n  | .int n => some (.inl n)", "  | .int n => some (.inl n)", "True == 1 becomes False", "C59")
m("eq2", "Equality.lean", "Val.eq", "d.length == e.length && dictSub iv d e", "dictSub iv d e", "a dict equals every larger dict: == is not symmetric", "C59")
m("eq4", "Equality.lean", "Mark.eq", "decide (m.cls = m'.cls) && m.type.eq iv m'.type && slotEq", "m.type.eq iv m'.type && slotEq", "marks of different classes with the same type value compare equal", "C59 C60")
m("eq5", "Equality.lean", "Hd.eq", "decide (a.cls = b.cls) && a.type.eq", "a.type.eq", "nodes of different classes compare equal", "C59 C60")
m("eq6", "Equality.lean", "Hd.eq", "optEq iv a.text b.text &&", "", "the text is not compared", "C59 C60")
m("eq7", "Equality.lean", "Hd.eq", " && slotEq iv (marksEq iv) a.marks b.marks", "", "marks are not compared", "C59 C60")
m("eq8", "Equality.lean", "Node.eq", "hd.eq iv n.hd && contentEq iv c n.content", "hd.eq iv n.hd", "content is not compared", "C59 C60")
m("eq9", "Equality.lean", "nodesEq", "  | [], m => m.isEmpty\n  | n :: l, m => match m with | n'", "  | [], _ => true\n  | n :: l, m => match m with | n'", "a node equals one with more children", "C59 C60")
m("eq10", "Equality.lean", "contentEq", "  | .opt, s => match s with | .opt => true | _ => false", "  | .opt, s => match s with | .opt => true | .val [] => true | _ => false", "absent content equals empty content", "C59 C60")
m("eq11", "Equality.lean", "fieldsEq", "k == k' && v.eq iv v' && fieldsEq iv a b", "k == k' && fieldsEq iv a b", "attribute values are not compared", "C59 C60")
# ---- hash ------------------------------------------------------------------------------------
m("ha1", "Hash.lean", "Val.hash", "| .list _ | .dict _ => .error .typeError", "| .list _ => .ok H.none\n  | .dict _ => .error .typeError", "lists are hashable", "C61")
m("ha2", "Hash.lean", "listHash", "  | .val _ => .error .typeError", "  | .val _ => .ok H.opt", "a list of children is hashable", "C61")
m("ha3", "Hash.lean", "Val.hash", "| .bool b => .ok (H.num (.inl (if b then 1 else 0)))", "| .bool b => .ok (H.num (.inl (if b then 2 else 3)))", "True and 1 are equal but hash differently", "C61")
m("ha4", "Hash.lean", "AttrsObj.hash", "a.fields.map fun e => e.2.hash H iv", "a.fields.map fun e => (Val.str e.1.toList).hash H iv", "attrs with unhashable values are hashable", "C61")
m("ha5", "Hash.lean", "Node.fieldHash", '  else if name = "marks" then listHash H iv n.hd.marks\n', '  else if name = "marks" then .ok H.opt\n', "the marks do not take part in the hash: marked nodes are hashable", "C61")
# ---- messages --------------------------------------------------------------------------------
m("ms1", "Message.lean", "unimplementedText", "typeValue.pyStr env ++ unimplementedTail", "unimplementedTail", "the type name is not in the message", "C52")
m("ms2", "Message.lean", "capitalize", "upperAscii c :: cs.map lowerAscii", "c :: cs", "the category is not capitalised", "C52")
m("ms3", "Message.lean", "Res.logged", "r.log.map (Warn.text env)", "(r.log.map (Warn.text env)).reverse", "warnings in reverse order", "C52")
m("ms4", "Message.lean", "Warn.text", "w.category", '"node"', "mark warnings say node", "C52")
# ---- contexts --------------------------------------------------------------------------------
m("cx1", F, "listItemContent", "(listItemChild level) kids with\n    | .error e => .error e\n    | .ok lst => strJoin [Str.nl] lst", "(listItemChild level) kids with\n    | .error e => .error e\n    | .ok lst => strJoin [] lst", "the children of a list item run together", "C25 C26")
m("cx2", F, "docBlock", "    | .ok md => padNewlines md", "    | .ok md => .ok md", "lists and code blocks are not set off by blank lines", "C42")
m("cx3", F, "docBlock", "[.bulletList, .orderedList, .codeBlock]", "[.bulletList, .orderedList, .codeBlock, .taskList]", "task lists are padded too", "C42")
m("cx4", F, "contentToMarkdown", "collect ig (fun (k : Item) => k.render none false) items", "collect ig (fun (k : Item) => k.render none ig) items", "the flag is passed on: a failing grandchild is dropped instead of the child", "C18 C50")
m("cx5", F, "blockquoteMd", "Except PyErr Str :=\n  match docContentToMarkdown ig content with\n  | .error e => .error e\n  | .ok s => .ok (Str.indentAll", "Except PyErr Str :=\n  match docContentToMarkdown false content with\n  | .error e => .error e\n  | .ok s => .ok (Str.indentAll", "a block quote ignores ignore_error", "C50")
m("cx6", F, "taskListMd", "    match taskLines level ig items with\n    | .error e => .error e\n    | .ok lines => strJoin", "    match taskLines level false items with\n    | .error e => .error e\n    | .ok lines => strJoin", "task lists ignore ignore_error", "C50")
m("cx7", F, "tableRowMd", "rowCells ig cells", "rowCells false cells", "rows do not pass the flag to cells", "C50")
m("cx8", F, "tableMd", "    match tableLines ig rows with\n    | .error e => .error e\n    | .ok lines => strJoin", "    match tableLines true rows with\n    | .error e => .error e\n    | .ok lines => strJoin", "strict conversion of a table drops failing rows", "C32")
m("cx9", F, "cellMd", "  match contentToMarkdown [] ig content with\n  | .error e => .error e\n  | .ok md =>\n    .ok (Str.join", "  match contentToMarkdown [' '] ig content with\n  | .error e => .error e\n  | .ok md =>\n    .ok (Str.join", "cell children joined by spaces", "C31")
m("cx10", F, "orderedStart", "if level = 0 then", "if level = 1 then", "the order attribute is used at level 1 only", "C26")
m("cx11", F, "NodeCls.takesLevel", "| .bulletList | .orderedList | .taskList => true", "| .bulletList | .taskList => true", "nested ordered lists raise TypeError", "C26")
m("cx12", F, "headerWidth", "  | .val [] => .error .indexError", "  | .val [] => .ok none", "a table with an empty row no longer fails", "C32")
m("cx13", F, "expandMd", "| .ok s => addStyle env (.str s) marks", "| .ok s => addStyle env (.str (Str.rstrip s)) marks", "expand strips its content", "C62")
m("cx14", F, "paragraphMd", "  match contentToMarkdown [] ig content with\n  | .error e => .error e\n  | .ok md =>\n    match addStyle", "  match contentToMarkdown [' '] ig content with\n  | .error e => .error e\n  | .ok md =>\n    match addStyle", "inline pieces are joined with spaces", "C62")
# ---- second round: definitions without a mutant so far ---------------------------------------
S = "Verif/Py/Str.lean"
V = "Verif/Py/Val.lean"
m("s2_1", S, "Str.isSpace", "n == 0x85 || n == 0xA0 || n == 0x1680", "n == 0x85 || n == 0x1680", "a no-break space does not count as white space", "C23 C25")
m("s2_2", S, "Str.isSpace", "(28 ≤ n && n ≤ 32)", "n == 32", "the separators U+001C..1F do not count as white space", "C23 C37")
m("s2_3", S, "Str.lstrip", "def lstrip (s : Str) : Str := s.dropWhile isSpace", "def lstrip (s : Str) : Str := s.dropWhile (· == ' ')", "strip() leaves leading tabs and newlines", "")
m("s2_4", S, "Str.strip", "rstrip (lstrip s)", "s", "strip() does nothing: blank text is wrapped", "C23")
m("s2_5", S, "Str.lstripSpaces", "s.dropWhile (· == ' ')", "s.dropWhile isSpace", "tabs at the start of a cell line are counted as spaces", "C31")
m("s2_6", S, "Str.join", "  | a :: b :: l => a ++ sep ++ join sep (b :: l)", "  | a :: b :: l => a ++ join sep (b :: l)", "join loses the separator", "C25 C26 C31 C32 C42")
m("s2_7", S, "Str.isLineBreak", "(10 ≤ n && n ≤ 13)", "n == 10", "indent sees LF only", "C33 C34")
m("s2_8", S, "Str.isLineBreak", "n == 0x85 || n == 0x2028 || n == 0x2029", "n == 0x85", "indent does not break at U+2028", "C33 C34")
m("s2_9", S, "Str.splitLinesKeep", "  | '\\r' :: '\\n' :: cs => ['\\r', '\\n'] :: splitLinesKeep cs\n", "", "CR LF gives two lines", "C33 C34")
m("s2_10", S, "Str.rep", "(List.replicate n.toNat s).flatten", "(List.replicate n.natAbs s).flatten", "a negative level repeats", "C36")
m("s2_11", S, "Str.asciiDigit", "c.toNat ≤ '9'.toNat then", "c.toNat < '9'.toNat then", "9 is no digit", "C37")
m("s2_12", S, "Str.intStrip", "((s.dropWhile intSpace).reverse.dropWhile intSpace).reverse", "s.dropWhile intSpace", "trailing blanks of a timestamp are not skipped", "C37")
m("v2_1", V, "Val.pyStr", "  | .bool true => \"True\".toList", "  | .bool true => \"true\".toList", "booleans print as in JSON", "")
m("v2_2", V, "Val.asInt?", "  | .bool b => some (if b then 1 else 0)\n", "", "booleans are no ints", "C63")
m("v2_3", V, "Val.isOpt", "  | .opt => true\n  | _ => false\n\n/-- Number", "  | .opt => true\n  | .none => true\n  | _ => false\n\n/-- Number", "null is treated like a missing value", "C05")
m("v2_4", V, "Val.iterLen", "  | .str s => .ok s.length", "  | .str _ => .error .typeError", "strings are not iterable", "C63")
m("v2_5", V, "Val.hashable", "  | .list _ => false\n", "", "a list can be a type", "C10")
m("v2_6", V, "strJoin", "if l.all (fun v => v.asStr?.isSome) then", "if true then", "join drops non-strings silently", "C20 C62")
m("d2_1", "Date.lean", "daysBeforeMonthTable", "| 4 => 90", "| 4 => 91", "April starts a day late", "C37")
m("d2_2", "Date.lean", "daysInMonth", "if isLeap y then 29 else 28", "if isLeap y then 28 else 28", "no 29 February in the table", "")
m("d2_3", "Date.lean", "daysInMonth", "m = 4 ∨ m = 6 ∨ m = 9 ∨ m = 11", "m = 4 ∨ m = 6 ∨ m = 9", "November has 31 days", "C37")
m("d2_4", "Date.lean", "secPerDay", "def secPerDay : Int := 86400", "def secPerDay : Int := 86401", "a day is too long", "C37")
m("d2_5", "Date.lean", "epochOrd", "719163", "719164", "the epoch is a day late", "C37")
m("d2_6", "Date.lean", "pad", "List.replicate (w - s.length) '0' ++ s", "s", "no zero padding", "C37")
m("d2_7", "Date.lean", "digitOf", "128 ≤ c.toNat ∧ Str.isSpace c = false", "128 ≤ c.toNat", "blanks may be digits", "C37")
m("d2_8", "Date.lean", "render", "    | .error e => .error e\n    | .ok s => .ok (.str s)", "    | .error _ => .ok (.str [])\n    | .ok s => .ok (.str s)", "dates out of range print as nothing", "C37 C45")
m("fl2_1", "Float.lean", "ilog2", "then k else k - 1", "then k else k", "the exponent is one too high", "C37")
m("fl2_2", "Float.lean", "roundEven", "else if f % 2 = 0 then f else f + 1", "else f + 1", "ties round up", "")
m("fl2_3", "Float.lean", "trunc", "if x < 0 then -(-x).floor else x.floor", "x.floor", "modf rounds down instead of towards zero", "")
m("fl2_4", "Float.lean", "wholeSeconds", "  else if us < 0 then t - 1\n", "", "instants before 1970 are rounded up", "C37")
m("fd2_1", "FromDict.lean", "hasKey", "(lookupKey d k).isSome", "match lookupKey d k with | some .none => false | some _ => true | none => false", "null counts as missing", "C07")
m("fd2_2", "FromDict.lean", "slotOf", "      | .lit v => .raw v\n      | _ => .opt\n\n/-- Same", "      | _ => .opt\n\n/-- Same", "literal defaults of attrs are lost (none exist)", "")
m("fd2_3", "FromDict.lean", "markFromDict", "type := (valOf c.fields \"type\" d).getD .opt\n          attrs", "type := .str c.typeEnum.value.toList\n          attrs", "a mark's own type is overwritten", "C05")
m("fd2_4", "FromDict.lean", "markFromDict", "    match checkRequired c.fields (hasKey d) with\n    | .error e => .error e\n    | .ok () => .ok\n", "    match (Except.ok () : Except PyErr Unit) with\n    | .error e => .error e\n    | .ok () => .ok\n", "a mark without its attrs is accepted", "C07")
m("fd2_5", "FromDict.lean", "rawSlot", "  | .opt => .opt\n  | v => .raw v", "  | v => .raw v", "(equivalent on JSON) the sentinel is kept raw", "")
m("fd2_6", "FromDict.lean", "contentStep", "    if k = \"content\" then .ok (some (rawSlot v)) else contentStep warn rest", "    if k = \"content\" then .ok none else contentStep warn rest", "a content that is no list is dropped", "C05")
m("fd2_7", "FromDict.lean", "contentStep", "    if k = \"content\" then (parseNodes warn l).map fun ns => some (.val ns)\n    else contentStep warn rest", "    if k = \"content\" then (parseNodes warn l).map fun ns => if ns.isEmpty then none else some (.val ns)\n    else contentStep warn rest", "an empty content is dropped", "C05")
m("fd2_8", "FromDict.lean", "NodeCls.fromDict", "  | _ => .err .typeError\n\nend Verif", "  | _ => .err .keyError\n\nend Verif", "from_dict of a non-dict raises KeyError", "C10")
m("fd2_9", "FromDict.lean", "Res.bind", "  | .ok a => ⟨x.log ++ (f a).log, (f a).out⟩", "  | .ok a => ⟨(f a).log ++ x.log, (f a).out⟩", "warnings in the wrong order", "C08")
m("fd2_10", "FromDict.lean", "nodeFromDict", "  (marksStep warn d).bind fun marks =>\n  (Res.ofExcept", "  (marksStep false d).bind fun marks =>\n  (Res.ofExcept", "unknown marks are dropped without warning", "C08")
m("fd2_11", "FromDict.lean", "nodeFromDict", "version := valOf c.fields \"version\" d", "version := if c = .doc then some (.int 1) else valOf c.fields \"version\" d", "the version of a document is forced to 1", "C05")
m("td2_1", "ToDict.lean", "rawToDict", "  | .ok 0 => .ok (.list [])\n", "  | .ok 0 => .ok v\n", "an empty string content stays a string", "C05 C06")
m("td2_2", "ToDict.lean", "marksEntry", "  | .val ms => .ok [(\"marks\", .list (ms.map Mark.toDict))]", "  | .val [] => .ok []\n  | .val ms => .ok [(\"marks\", .list (ms.map Mark.toDict))]", "an empty list of marks is not written", "C05")
m("td2_3", "ToDict.lean", "plainEntry", "  | some v => [(name, v)]", "  | some v => [(\"text\", v)]", "the version is written as text", "C05")
m("td2_4", "ToDict.lean", "Mark.attrsEntry", "  | .val a => [(\"attrs\", .dict a.fields)]", "  | .val a => [(\"attrs\", a.toDict)]", "(a fix) the sentinel no longer leaks from mark attrs", "C04")
m("td2_5", "ToDict.lean", "nodeAttrsEntry", "  | .val a => [(\"attrs\", a.toDict)]", "  | .val a => [(\"attrs\", .dict a.fields)]", "the sentinel leaks from node attrs", "C04")
m("ml2_1", F, "upperChar", "[Char.ofNat (c.toNat - 32)]", "[c]", "letters are not upper-cased", "C34")
m("ml2_2", F, "rstripVal", "  | .str s => .ok (Str.rstrip s)", "  | .str s => .ok s", "children of list items keep trailing newlines", "C25 C26")
m("ml2_3", F, "rstripVal", "  | _ => .error .attributeError\n\n/-- `\"\\n\" + v", "  | _ => .ok []\n\n/-- `\"\\n\" + v", "a text child with non-string text vanishes from list items", "")
m("ml2_4", F, "padNewlines", "[Str.nl] ++ s ++ [Str.nl]", "[Str.nl] ++ s", "no newline after a list", "C42")
m("ml2_5", F, "Kid.isTypeOf", ".ok (Verif.isTypeOf k.type expected)", ".ok (!Verif.isTypeOf k.type expected)", "the type test is negated", "C25 C32")
m("ml2_6", F, "iterSlot", "    | .ok n => .ok (List.replicate n alien)\n  | .opt => .error .typeError\n", "    | .ok n => .ok (List.replicate n alien)\n  | .opt => .ok []\n", "(a fix) a list without content converts to nothing", "C28")
m("ml2_7", F, "collect", "collectPre ig (fun _ => .ok ()) (fun _ a => f a)", "collectPre true (fun _ => .ok ()) (fun _ a => f a)", "errors are always ignored", "C16 C50")
m("ml2_8", F, "bulletListMd", "    match bulletLines level ig items with\n    | .error e => .error e\n    | .ok lines => .ok (Str.join [Str.nl] lines)", "    match bulletLines level ig items with\n    | .error e => .error e\n    | .ok lines => .ok (Str.join [Str.nl, Str.nl] lines)", "bullets separated by blank lines", "C25")
m("ml2_9", F, "bulletListMd", "Except PyErr Str :=\n  match iterSlot alienItem content with\n  | .error e => .error e\n  | .ok items =>\n    match bulletLines level ig items", "Except PyErr Str :=\n  match iterSlot alienItem content with\n  | .error e => .error e\n  | .ok items =>\n    match bulletLines 0 ig items", "nested bullets are not indented", "C25 C41")
m("ml2_10", F, "nextNum", ".int (v.asInt?.getD 0 + 1)", ".int (v.asInt?.getD 0)", "all items have the same number", "C26")
m("ml2_11", F, "orderedListMd", "match orderedLines env level ig start items with", "match orderedLines env level ig (.int 1) items with", "the order attribute is ignored", "C26")
m("ml2_12", F, "separatorLine", "['-', '-', '-']", "['-', '-']", "separator cells have two dashes", "C32")
m("ml2_13", F, "textMd", "  | none => .error .attributeError\n  | some t => addStyle env t marks", "  | none => .error .attributeError\n  | some t => .ok t", "text marks are ignored", "C23")
m("ml2_14", F, "selfLink", "['['] ++ url ++ [']', '('] ++ url ++ [')']", "url", "cards print the bare URL", "C38")
m("ml2_15", F, "blockCardMd", ".ok (['\\n'] ++ selfLink url ++ ['\\n'])", ".ok (selfLink url)", "block cards lose their newlines", "C38")
m("ml2_16", F, "imageLink", "['!', '['] ++ alt", "['['] ++ alt", "images become links", "C40")
m("ml2_17", F, "dispatch", "if level.isSome && !hd.cls.takesLevel then .error .typeError", "if false then .error .typeError", "(weakening) level is accepted everywhere", "")
m("ml2_18", F, "dispatch", "| .bulletList => strVal (bulletListMd content (level.getD 0) ig)", "| .bulletList => strVal (bulletListMd content (level.getD 1) ig)", "top-level bullets are indented", "C25")
m("ml2_19", F, "kidsOf", "  | .val l => .val (l.map Item.toKid)", "  | .val l => .val ((l.map Item.toKid).reverse)", "grandchildren in reverse order", "C25 C26 C28")
m("ml2_20", F, "dispatch", "| .tableHeader => strVal (cellMd content ig)", "| .tableHeader => strVal (contentToMarkdown [] ig content)", "header cells are not escaped", "C31")
m("ml2_21", F, "Node.toMarkdown", "n.toMarkdownAt env none ig", "n.toMarkdownAt env none false", "ignore_error is ignored", "C18")
m("mk2_1", "Marks.lean", "getAttr", "    | some v => .ok v\n    | none => .error .attributeError", "    | some .opt => .error .attributeError\n    | some v => .ok v\n    | none => .error .attributeError", "reading an optional attribute that was left out raises", "C39 C40")
m("mk2_2", "Marks.lean", "addStyle", "  | .val ms => applyMarks env md ms", "  | .val ms => applyMarks env md ms.reverse", "the last mark is applied first", "C23")
m("mk2_3", "Marks.lean", "addStyle", "  | .val ms => applyMarks env md ms", "  | .val ms => applyMarks env md (ms.take 1)", "only the first mark is applied", "C23")
m("mk2_4", "Marks.lean", "Mark.toMarkdown", "title.asStr?.getD (text.pyStr env)", "text.pyStr env", "the title of a link is not used", "C23")
m("hp2_1", "Heap.lean", "HM.write", "s.heap.set a o", "s.heap", "(no-op) updates in place are lost", "C11")
m("hp2_2", "Heap.lean", "fieldValueH", "    | .lit v => .imm (Imm.ofVal v)\n", "", "defaults of fields are lost", "C11")
m("hp2_3", "Heap.lean", "baseFromDictH", "      let r ← HM.alloc ⟨.inst t, fs.map fun f => (f.name, fieldValueH o.items f)⟩\n      HM.pure (.ref r)", "      HM.write a ⟨.inst t, fs.map fun f => (f.name, fieldValueH o.items f)⟩\n      HM.pure (.ref a)", "the dict is turned into the instance in place", "C11")
m("hp2_4", "Heap.lean", "markFromDictH", "  let b ← copyDictH fuel v\n  attrsStepH c.attrsFields b\n  baseFromDictH (.mark c)", "  let b ← (match v with | .ref a => HM.pure a | .imm _ => HM.throw (.py .typeError))\n  attrsStepH c.attrsFields b\n  baseFromDictH (.mark c)", "marks are parsed without a copy", "C11")
m("hp2_5", "Heap.lean", "listStepH", "      let vs ← loopH warn f lo.items\n      let n ← HM.alloc ⟨.list, vs.map fun v => (\"\", v)⟩\n      HM.setItem b key (.ref n)", "      let vs ← loopH warn f lo.items\n      HM.write l ⟨.list, vs.map fun v => (\"\", v)⟩", "the content list of the copy is reused", "")
m("hp2_6", "Heap.lean", "skipH", "(if warn then [⟨t, c⟩] else [])", "[]", "no warning", "C11")
m("hp2_7", "Heap.lean", "registryH", "      | none => HM.throw (.py .keyError)\n", "      | none => HM.throw (.py .typeError)\n", "a missing type is a TypeError", "C11")
m("ho2_1", "HeapOut.lean", "Kind.asdict", "  | .inst _ => .dict\n", "", "asdict keeps instances", "C49")
m("ho2_2", "HeapOut.lean", "HV.isOpt", "  | .imm .opt => true\n  | _ => false", "  | .imm .opt => true\n  | .imm .none => true\n  | _ => false", "null is dropped on output", "C49")
m("ho2_3", "HeapOut.lean", "listToDictH", "      let vs ← mapH call o.items\n      let r ← HM.alloc ⟨.list, vs.map fun v => (\"\", v)⟩\n      HM.pure (.ref r)", "      let vs ← mapH call o.items\n      HM.write a ⟨.list, vs.map fun v => (\"\", v)⟩\n      HM.pure (.ref a)", "the children list of the object is overwritten with dicts", "C49")
m("ho2_4", "HeapOut.lean", "baseToDictH", "  let v ← asdictH fuel x\n  let d ← addrOf v\n  removeOptionalH d", "  let d ← addrOf x\n  removeOptionalH d", "attrs values are shared with the output", "C49")
m("ca2_1", "Cache.lean", "getFields", "  | none => (m.store fieldsOf c, (m.store fieldsOf c).get c)", "  | none => (m, (m.store fieldsOf c).get c)", "the dict is not cached", "C12")
m("ca2_3", "Cache.lean", "run", "⟨(step fieldsOf s.mem p).1, s.calls.set i (step fieldsOf s.mem p).2⟩", "⟨s.mem, s.calls.set i (step fieldsOf s.mem p).2⟩", "stores are lost", "C12")
m("gn2_1", "GenCode.lean", "byName", "decide (a ≤ b)", "decide (b ≤ a)", "names in descending order", "")
m("gn2_2", "GenCode.lean", "stem", "file.take (file.length - 3)", "file", "the module name keeps .py", "C44")
m("gn2_3", "GenCode.lean", "globbed", "pre.isPrefixOf f && ", "", "all modules are scanned, also parse_mark.py", "C44")
m("gn2_4", "GenCode.lean", "scanFiles", "      | .ok bs => .ok (as ++ bs)", "      | .ok bs => .ok (bs ++ as)", "modules in reverse order", "")
m("gn2_5", "GenCode.lean", "Api.line", "\" import \".toList ++ a.className", "\" import \".toList ++ a.moduleName", "the module is imported instead of the class", "C44")
m("gn2_6", "GenCode.lean", "renderGroups", "      | .ok r => .ok (s ++ r)\n\n/-- The template up", "      | .ok _ => .ok s\n\n/-- The template up", "only the first module is exported", "C44")
m("eq2_1", "Equality.lean", "dictSub", "      | .none => false) && dictSub iv d e", "      | .none => true) && dictSub iv d e", "missing keys are ignored in dict comparison", "C59")
m("eq2_2", "Equality.lean", "slotEq", "  | .raw v, .raw w => v.eq iv w\n", "  | .raw _, .raw _ => true\n", "unconverted values are not compared", "C59 C60")
m("eq2_3", "Equality.lean", "optEq", "  | some v, some w => v.eq iv w", "  | some _, some _ => true", "text and version are not compared", "C59 C60")
m("eq2_4", "Equality.lean", "marksEq", "  | m :: ms, m' :: ms' => m.eq iv m' && marksEq iv ms ms'\n  | _, _ => false", "  | m :: ms, m' :: ms' => m.eq iv m' && marksEq iv ms ms'\n  | _, _ => true", "extra marks are ignored", "C59 C60")
m("eq2_5", "Equality.lean", "numEq", "  | _, _ => false\n\nmutual", "  | _, _ => true\n\nmutual", "a number equals everything", "C59 C60")
m("ha2_1", "Hash.lean", "attrsHash", "  | .val a => a.hash H iv", "  | .val _ => .ok H.opt", "attrs do not take part in the hash", "C61")
m("ha2_2", "Hash.lean", "hashAll", "  | .error e :: _ => .error e\n", "  | .error _ :: l => hashAll l\n", "unhashable fields are skipped", "C61")
m("ms2_1", "Message.lean", "upperAscii", "c.toNat ≤ 'z'.toNat then Char.ofNat (c.toNat - 32) else c", "c.toNat < 'n'.toNat then Char.ofNat (c.toNat - 32) else c", "node is not capitalised", "C52")
m("sc2_1", "Schema.lean", "Dflt.isReq", "  | .req => true", "  | .req => false", "REQ fields are optional", "C07 C65")
m("sc2_2", "Schema.lean", "Dflt.isNoDefault", "  | .noDefault => true", "  | .noDefault => false", "fields without default are optional", "C07 C65")

# ---- Json (C68), FileCache (C69-C71), GenMain (C72), Analyze (C73, C74) ----
J = "Json.lean"
m("js_1", J, "escapeChar", "  else if c = '\\t' then ['\\\\', 't']\n", "", "a tab is written as \\u0009 (harmless)", "")
m("js_2", J, "escapeChar", "c.toNat < 32 then ['\\\\', 'u'", "c.toNat < 31 then ['\\\\', 'u'", "character 31 is written raw", "C68")
m("js_3", J, "escapeChar", "  if c = '\\\\' then ['\\\\', '\\\\']\n  else if c = '\"'", "  if c = '\"'", "a backslash is not escaped", "C68")
m("js_4", J, "hexChar", "Char.ofNat (87 + n)", "Char.ofNat (86 + n)", "hex digits are off by one", "C68")
m("js_5", J, "encodeFloat", "then \"-Infinity\".toList", "then \"Infinity\".toList", "minus infinity loses its sign", "C68")
m("js_6", J, "itemSep", "  | some _ => [',']", "  | some _ => []", "no comma with indentation", "C68 C69")
m("js_7", J, "newline", "List.replicate (k * l) ' '", "List.replicate (k * l) (Char.ofNat 160)", "indentation with no-break spaces", "C68 C69")
m("js_8", J, "encode", "  | .bool false => some \"false\".toList", "  | .bool false => some \"False\".toList", "False as in Python", "C68")
m("js_9", J, "encodeTail", "      some (itemSep indent ++ newline indent l ++ a ++ b)\n/-- The items", "      some (itemSep indent ++ newline indent l ++ b ++ a)\n/-- The items", "elements in the wrong order", "C68")
m("js_10", J, "encodePairs", "encodeStr k.toList ++ [':', ' '] ++ a ++ b)\nend", "'\"' :: k.toList ++ ['\"', ':', ' '] ++ a ++ b)\nend", "keys are not escaped", "C68")
m("js_11", J, "isWs", " || c == '\\n'", "", "a line feed is not white space", "C68 C69")
m("js_12", J, "hexVal", "some (n - 87)", "some (n - 97)", "hex digits a-f read as 0-5", "C68")
m("js_13", J, "unescape", "c = 'f' then some (Char.ofNat 12)", "c = 'f' then some (Char.ofNat 11)", "\\f is read as vertical tab", "C68")
m("js_14", J, "unescape", "  else if c = '/' then some '/'\n", "", "\\/ is refused", "C68")
m("js_15", J, "scanStr", "0x10000 + (u - 0xD800) * 1024", "(u - 0xD800) * 1024", "surrogate pairs give the wrong character", "C81")
m("js_16", J, "scanStr", "      else if c.toNat < 32 then Option.none\n", "", "raw control characters are accepted in strings", "C68")
m("js_17", J, "digitsVal", "a * 10 + (c.toNat - 48)", "a + 10 * (c.toNat - 48)", "numbers are misread", "C68")
m("js_18", J, "scanUnsigned", "if neg then -(digitsVal i : Int) else (digitsVal i : Int)", "if neg then (digitsVal i : Int) else (digitsVal i : Int)", "minus signs are lost", "C68")
m("js_19", J, "scanUnsigned", "let sign := if neg then ['-'] else []", "let sign := if neg then [] else ([] : Str)", "minus signs of floats are lost", "C68")
m("js_20", J, "scanUnsigned", "if f.1.isEmpty && e.1.isEmpty", "if f.1.isEmpty", "1e5 is read as the int 1", "C68")
m("js_21", J, "scanScalar", "(afterPrefix \"rue\".toList s).map fun r => (.bool true, r)", "(afterPrefix \"rue\".toList s).map fun r => (.int 1, r)", "true is read as 1", "C68")
m("js_22", J, "setPair", "if k' = k then (k', v) :: d else", "if k' = k then (k', v') :: d else", "the first of repeated keys wins", "C68")
m("js_23", J, "parseItems", "          | ']' :: r' => some ([v], r')\n", "          | ']' :: r' => some ([], r')\n", "the last element is lost", "C68")
m("js_24", J, "parsePairs", "                      | '}' :: r' => some ([(String.ofList k, v)], r')\n", "                      | '}' :: r' => some ([], r')\n", "the last item is lost", "C68")
m("js_25", J, "loads", "if (skipWs r).isEmpty then some v else Option.none", "some v", "trailing text is ignored", "C68 C70")
m("js_26", J, "parseItems", "parseItems readFloat f (skipWs r')", "parseItems readFloat f r'", "no white space after a comma", "C68")
m("js_27", J, "loads", "  if s.head? = some (Char.ofNat 0xFEFF) then Option.none\n  else\n", "", "a byte order mark: harmless, the scanner refuses it too", "")
m("js_28", J, "scanFrac", "if d.isEmpty then ([], '.' :: s) else", "if d.isEmpty then ([], s) else", "1. is read as 1", "")
m("js_29", J, "scanExp", "if e = 'e' ∨ e = 'E' then", "if e = 'e' then", "1E5 is refused", "")
m("js_30", J, "scanUnsigned", "let r := if c = '0' then cs else cs.dropWhile isDigit", "let r := cs.dropWhile isDigit", "leading zeros are skipped with the number", "")
F = "FileCache.lean"
m("fc_1", F, "toNative", "then ['\\r', '\\n'] else [c]", "then ['\\r'] else [c]", "newlines are written as CR: harmless, the reader translates it back", "")
m("fc_2", F, "universal", "if d = '\\n' then '\\n' :: universal u else", "if d = '\\n' then universal u else", "CR LF disappears on reading: harmless for JSON", "")
m("fc_3", F, "content", "utf8 (toNative cfg.crlf s)", "utf8 (toNative cfg.crlf (s ++ [',']))", "something is appended to the text", "C69 C70")
m("fc_4", F, "decode", "(ofUtf8 b).bind fun s => loads cfg.readFloat (universal s)", "(ofUtf8 b).bind fun s => some ((loads cfg.readFloat (universal s)).getD .none)", "an undecodable file gives None", "C70")
m("fc_5", F, "writeAt", "b.take pos ++", "b ++", "writes append instead of writing at the offset", "C69 C70 C72")
m("fc_6", F, "Sys.openWrite", "(f, s.setFile f [])", "(f, s)", "the file is not truncated", "C70")
m("fc_7", F, "Step.eof", "      (s.files f).length ≤ buf.length → decode cfg buf = some v →\n", "      decode cfg buf = some v →\n", "reading stops before the end of the file", "C70")
m("fc_8", F, "Step.eofBad", "Step cfg served s (.raise p .decode) (s.setProc p ⟨.idle, .none, k⟩)\n", "Step cfg served s (.ret p .none) (s.setProc p ⟨.idle, some .none, k⟩)\n", "an undecodable file gives None", "C70")
m("fc_9", F, "Step.fetch", "(cfg.keep = true → k = .none) →\n      served v →", "served v →", "a new answer is fetched although one is kept", "C71")
m("fc_10", F, "Step.fetch", "if cfg.keep then some v else .none⟩)\n  | fetchFail", ".none⟩)\n  | fetchFail", "the fetched data is not kept", "C71")
m("fc_11", F, "Step.close", "Step cfg served s (.ret p v) (s.setProc p ⟨.idle, some v, k⟩)\n  /-- the process is killed", "Step cfg served s (.ret p v) (s.setProc p ⟨.idle, .none, k⟩)\n  /-- the process is killed", "the value is not cached after a fetch", "")
m("fc_12", F, "Step.close", "s.procs p = ⟨.writing f pos [] v, .none, k⟩ →", "s.procs p = ⟨.writing f pos rest v, .none, k⟩ →", "the property returns before everything is written", "C71")
m("fc_13", F, "Step.eof", "Step cfg served s (.ret p v) (s.setProc p ⟨.idle, some v, k⟩)\n  /-- … without", "Step cfg served s (.ret p v) (s.setProc p ⟨.idle, .none, k⟩)\n  /-- … without", "the value is not cached after reading", "C71")
m("fc_14", F, "Step.openMissing", "s.procs p = ⟨.idle, .none, k⟩ → s.path = .none →", "s.procs p = ⟨.idle, .none, k⟩ →", "the server is asked although the file exists", "C70 C71")
m("fc_15", F, "Step.crash", "(s.setProc p Proc.fresh)", "(s.setProc p ⟨.idle, (s.procs p).value, .none⟩)", "the value survives the process", "C71")
m("fc_16", F, "Step.write", "⟨.writing f (pos + n) (rest.drop n) v, .none, k⟩", "⟨.writing f (pos + n + 1) (rest.drop n) v, .none, k⟩", "the offset is wrong", "C69 C70")
m("fc_17", F, "utf8", "s.flatMap String.utf8EncodeChar", "s.flatMap fun c => [UInt8.ofNat c.toNat]", "latin-1 instead of UTF-8", "C69 C70")
G = "GenMain.lean"
m("gm_1", G, "Step.opens", "{ s with file := some [] }.set p (.opened c)", "s.set p (.opened c)", "the file is not truncated", "C72")
m("gm_2", G, "Step.opens", "s.procs p = .generated c →\n      Step w encode s (.opens p)", "s.procs p = .idle →\n      Step w encode s (.opens p)", "the file is opened before anything is generated", "C72")
m("gm_3", G, "Step.returns", "s.procs p = .writing pos [] → Step", "s.procs p = .writing pos rest → Step", "main returns before everything is written", "C72")
m("gm_4", G, "Step.write", "(.writing (pos + n) (rest.drop n))", "(.writing pos (rest.drop n))", "the offset does not advance", "C72")
m("gm_5", G, "Step.generateFail", "Step w encode s (.raises p) s\n", "Step w encode s (.raises p) { s with file := some [] }\n", "a failure to generate truncates the file", "C72")
m("gm_6", G, "Step.encodeFail", "Step w encode s (.raises p) (s.set p .idle)\n  /-- the next", "Step w encode s (.returns p) (s.set p .idle)\n  /-- the next", "an unencodable text is ignored", "C72")
Z = "Analyze.lean"
m("an_1", Z, "add", "if x ∈ s then s else s ++ [x]", "s ++ [x]", "references are repeated", "C74")
m("an_2", Z, "ownRef", "add refs (s.drop refPrefix.length)", "add refs s", "the prefix is kept", "C74")
m("an_3", Z, "ownRef", "if refPrefix.isPrefixOf s then", "if refPrefix.isSuffixOf s then", "no reference is found", "C74")
m("an_4", Z, "ownRef", "  | some _ => .error .attributeError\n", "  | some _ => .ok refs\n", "a $ref that is no string is ignored", "C74")
m("an_5", Z, "extractRefs", "  | .list l, refs => extractItems l refs\n", "  | .list _, refs => .ok refs\n", "references in lists are missed", "C74")
m("an_6", Z, "extractValues", "  | (_, v) :: d, refs => do extractValues d (← extractRefs v refs)", "  | (_, v) :: _, refs => do extractRefs v refs", "only the first value is searched", "C74")
m("an_7", Z, "before", "if sep.isPrefixOf (c :: s) then [] else", "if sep.isPrefixOf s then [] else", "one character too few before _with_", "C74")
m("an_8", Z, "baseType", "some (before \"_with_\".toList (name.take (name.length - 5)))", "some (name.take (name.length - 5))", "variants are nodes of their own", "C74")
m("an_9", Z, "baseType", "\"_mark\".toList then some (name.take (name.length - 5))", "\"_mark\".toList then some (name.take (name.length - 4))", "the name of a mark keeps its underscore", "C74")
m("an_10", Z, "countDeps", "if d ∈ keys then k + 1 else k", "k + 1", "dependencies outside the graph are counted", "C73")
m("an_11", Z, "relax", "if deg' other = 0 then", "if deg' other ≤ 1 then", "a node is taken before its last dependency", "C73")
m("an_12", Z, "relax", "deg other - 1", "deg other", "in-degrees are not decremented", "C73")
m("an_13", Z, "relax", "if node ∈ g.deps other then", "if other ∈ g.deps node then", "the graph is followed the wrong way", "C73")
m("an_14", Z, "loop", "(result ++ [node])", "(node :: result)", "the result is in reverse order", "C73")
m("an_15", Z, "topologicalSort", "some (result ++ sort (order.filter fun n => n ∉ result))", "some result", "nodes on cycles are left out", "C73")
m("an_16", Z, "topologicalSort", "sort (order.filter fun n => inDegree g n = 0)", "order.filter fun n => inDegree g n = 0", "the result depends on the iteration order of the set", "C73")
m("an_17", Z, "relax", "(sort (queue ++ [other]))", "(queue ++ [other])", "the result depends on the iteration order of the set", "C73")
m("an_18", Z, "nodeDeps", " || endsWith r \"_mark\".toList", "", "references to marks are left out", "C74")
m("an_19", Z, "nodeDeps", "    if endsWith name.toList \"_node\".toList then\n", "    if endsWith name.toList \"_mark\".toList then\n", "marks are analysed instead of nodes", "C74")
m("an_20", Z, "push", "(b, l ++ [name]) :: m else", "(b, [name]) :: m else", "only the last variant counts", "C74")
m("an_21", Z, "depStep", "if b ≠ [] ∧ b ≠ base then", "if b ≠ [] then", "a node depends on itself", "C74")
m("an_22", Z, "baseDeps", "variants.foldl (fun s variant", "(variants.take 1).foldl (fun s variant", "only the first variant counts", "C74")
Q = "NodeGen.lean"
m("ng_1", Q, "splitHumps", "isUpper u && startsLower t then", "isUpper u then", "every capital starts a word", "C75")
m("ng_2", Q, "splitCaps", "(isLower c || isDigit c) && isUpper u", "isLower c && isUpper u", "no break after a digit", "C75")
m("ng_3", Q, "camelToSnake", "(splitCaps (splitHumps false name)).map lowerChar", "splitCaps (splitHumps false name)", "module names keep capitals", "C75")
m("ng_4", Q, "capitalize", "upperChar c :: cs.map lowerChar", "upperChar c :: cs", "only the first letter is changed", "")
m("ng_5", Q, "snakeToPascal", ".flatMap capitalize", ".flatten", "class names are not capitalised", "C75")
m("ng_6", Q, "mkNames", "moduleName := pre ++ '_' :: camelToSnake typeName", "moduleName := pre ++ '_' :: typeName", "module names are camelCase", "C75")
m("ng_7", Q, "chop", "name.length - 5", "name.length - 4", "type names keep the underscore", "C75 C76")
m("ng_8", Q, "update", "e.foldl (fun d p => setKey p.1 p.2 d) d", "d.foldl (fun d p => setKey p.1 p.2 d) e", "the definition wins over allOf", "C76")
m("ng_9", Q, "mergeRequired", ".ok (.list (l ++ (← pyIter x)))", ".ok (.list (← pyIter x))", "required is replaced instead of extended", "")
m("ng_10", Q, "mergedProps", "(← allOf d).foldlM mergeProps ((lookupKey d \"properties\").getD (.dict []))", "pure ((lookupKey d \"properties\").getD (.dict []))", "allOf is ignored for the type string", "C76")
m("ng_11", Q, "merged", "(← allOf d).foldlM mergeBoth", "([] : List Val).foldlM mergeBoth", "allOf is ignored", "C76")
m("ng_12", Q, "pyFirst", "  | .list (v :: _) => .ok v\n", "  | .list (v :: l) => .ok (l.getLastD v)\n", "the last value of the enum is taken", "C76")
m("ng_13", Q, "typeEnum", "    if truthy e then return (← pyFirst e, defs')\n", "    return (← pyFirst e, defs')\n", "an empty enum raises", "C76 C77")
m("ng_14", Q, "namesOf", "return (mkNames \"mark\".toList \"Mark\".toList name (chop name) e, defs')", "return (mkNames \"node\".toList \"Mark\".toList name (chop name) e, defs')", "mark modules are named like nodes", "C75")
m("ng_15", Q, "skipped", "decide (\"_with_\".toList <:+: name) || ", "", "variants are generated", "C77")
m("ng_16", Q, "skipped", "  name == \"inline_node\".toList || ", "  ", "inline_node is generated", "C77")
m("ng_17", Q, "markDefs", "  Analyze.sort ((defs.map fun p => p.1.toList).filter fun n => !skipped n && Analyze.endsWith n \"_mark\".toList)", "  ((defs.map fun p => p.1.toList).filter fun n => !skipped n && Analyze.endsWith n \"_mark\".toList)", "the order of marks depends on the schema", "C77")
m("ng_18", Q, "nodeDefs", "!skipped n && !Analyze.endsWith n \"_mark\".toList && Analyze.endsWith n \"_node\".toList", "!Analyze.endsWith n \"_mark\".toList && Analyze.endsWith n \"_node\".toList", "nothing is left out", "C77")
m("ng_19", Q, "typeMap", "\"integer\".toList then \"int\".toList", "\"integer\".toList then \"float\".toList", "integers become floats", "C76")
m("ng_20", Q, "pyType", "  if ← pyIn \"enum\" prop then return \"str\".toList\n", "", "enums are not strings", "C76")
m("ng_21", Q, "fieldsOf", "return ⟨k.toList, t, r⟩ :: l", "return ⟨k.toList, t, !r⟩ :: l", "required and optional are swapped", "C76")
m("ng_22", Q, "fieldLe", "if b.required then false else decide (a.name ≤ b.name)", "decide (a.name ≤ b.name)", "optional fields may come first", "C76")
m("ng_23", Q, "attrsFields", "let required ← pyGet \"required\" (.list []) a", "let required ← pyGet \"required\" (.list []) props", "required is read from the wrong object", "C76")
m("ng_24", Q, "attrsFields", "(← fieldsOf required d).insertionSort fun x y => fieldLe x y = true", "(← fieldsOf required d)", "the fields are not sorted", "C76 C77")
m("ng_25", Q, "extract", "let m ← pyIn \"marks\" props", "let m ← pyIn \"mark\" props", "marks are not found", "C76")
m("ng_26", Q, "fieldLine", " ++ \" = OPT\\n\".toList", " ++ \" = None\\n\".toList", "None instead of OPT", "C76")
m("ng_27", Q, "moduleText", "(if i.attrs.isSome then", "(if (i.attrs.getD []).length > 0 then", "empty attrs are left out", "C76")
m("ng_28", Q, "nodeFields", "(if i.hasText then", "(if i.hasContent then", "text is declared for containers", "C76")
m("ng_29", Q, "nodeText", " ++ nodeFields i", "", "nodes have no fields of their own", "C76")
m("ng_30", Q, "entryLine", "n.typeEnum.pyStr env ++ \"\\\": \"", "n.typeName ++ \"\\\": \"", "the registry uses the name of the definition", "C78")
m("ng_31", Q, "parseText", "marks.flatMap (entryLine env)", "nodes.flatMap (entryLine env)", "the mark registry has the nodes", "C78")
m("ng_32", Q, "parseText", "rule ++ nodes.flatMap importLine", "rule ++ (nodes.drop 1).flatMap importLine", "the first node is not imported", "C78")
m("ng_33", Q, "stubText", "\"\\n\\n\\nclass \".toList ++ n.className ++ \"Mixin:", "\"\\n\\n\\nclass \".toList ++ n.className ++ \":", "the stub defines the wrong class", "C80")
m("ng_34", Q, "genFile", "  let (i, defs) ← extract defs name\n", "  let (i, _) ← extract defs name\n", "the schema is not passed on", "")
m("ng_35", Q, "genFiles", "(.write (fileName n) content :: r.1,", "(r.1 ++ [.write (fileName n) content],", "modules are written in reverse order", "C77")
m("ng_36", Q, "plan", "    | .error e => (marks.1 ++ nodes.1, some e)\n", "    | .error e => (nodes.1, some e)\n", "marks are not written if a node fails", "C77")
m("ng_37", Q, "plan", "parseText env ms ns", "parseText env ns ms", "the registries are swapped", "C78")
m("ng_38", Q, "plan", " ++ ms.map (stubAct .mark defs2) ++", " ++", "marks get no mixins", "C80")
m("ng_39", Q, "stubAct", ".stub (fileName n)", ".stub (n.typeName ++ \".txt\".toList)", "the stub has no .py", "C80")
m("ng_40", Q, "pyIn", "  | .list l => .ok (l.any (isStr key.toList))\n", "  | .list l => .ok (!l.isEmpty)\n", "everything is required if anything is", "C76")
m("ng_41", Q, "putBack", "if (lookupKey d k).isSome then setKey k v d else d", "setKey k v d", "the schema gets new keys", "")
m("ng_42", Q, "attrsClass", "fs.flatMap fieldLine", "(fs.filter (·.required)).flatMap fieldLine", "optional attributes are not declared", "C76")
Q2 = "NodeGenMain.lean"
m("nm_1", Q2, "Step.openNode", "((s.put (.nodes, f) (some [])).set p (.opened (.nodes, f) c todo err))", "(s.set p (.opened (.nodes, f) c todo err))", "the file is not truncated", "C80")
m("nm_2", Q2, "Step.absent", "(.stub f (.ok c) :: todo) err → s.files (.mixins, f) = none →\n      Step env encode dirs s (.silent p)", "(.stub f (.ok c) :: todo) err →\n      Step env encode dirs s (.silent p)", "existing mixins are overwritten", "C79")
m("nm_3", Q2, "Step.skip", "(s.files (.mixins, f)).isSome →\n", "(s.files (.mixins, f)).isNone →\n", "missing mixins are skipped", "C80")
m("nm_4", Q2, "Step.skip", "(s.files (.mixins, f)).isSome →\n", "(s.files (.nodes, f)).isSome →\n", "the wrong directory is checked", "C80")
m("nm_5", Q2, "Step.openMixin", "(.opened (.mixins, f) c todo err)", "(.opened (.nodes, f) c todo err)", "the stub overwrites the module", "C80")
m("nm_6", Q2, "Step.write", "(.writing path (pos + n) (rest.drop n) todo err)", "(.writing path pos (rest.drop n) todo err)", "the offset does not advance", "C80")
m("nm_7", Q2, "Step.close", ".writing path pos [] todo err → Step", ".writing path pos rest todo err → Step", "a file is closed before everything is written", "C80")
m("nm_8", Q2, "Step.returns", "s.procs p = .running [] none → Step", "s.procs p = .running todo none → Step", "main returns early", "C80")
m("nm_9", Q2, "Step.encodeFail", "encode c = none → Step env encode dirs s (.raises p) (s.set p .idle)", "encode c = none → Step env encode dirs s (.silent p) (s.set p (.running todo err))", "an unencodable module is left empty without an error", "C80")
m("nm_10", Q2, "Step.openNode", "(.nodes, f) (some [])", "(.mixins, f) (some [])", "opening a module empties the mixin", "C79")
m("nm_11", Q2, "Step.raises", "s.procs p = .running [] (some e) → Step env encode dirs s (.raises p)", "s.procs p = .running [] (some e) → Step env encode dirs s (.returns p)", "a failing run returns", "C80")
m("j2_1", J, "hexVal", "some (n - 55)", "some (n - 54)", "capital hex digits are misread", "C81")
m("j2_2", J, "unescape", "else if c = 'b' then some (Char.ofNat 8)", "else if c = 'b' then some 'b'", "\\\\b is read as b", "C81")
m("j2_3", J, "setPair", "(k', v) :: d else", "(k', v') :: d else", "the first of repeated keys wins", "C81")
m("j2_5", J, "scanUnsigned", "let i := if c = '0' then ['0'] else c :: cs.takeWhile isDigit\n        let r := if c = '0' then cs else cs.dropWhile isDigit", "let i := c :: cs.takeWhile isDigit\n        let r := cs.dropWhile isDigit", "leading zeros are accepted", "C81")
m("j2_6", J, "isWs", " || c == '\\r'", " || c == '\\r' || c == Char.ofNat 160", "no-break spaces are white space", "C81")
m("j2_7", J, "parseItems", "          | ',' :: r' => (parseItems", "          | ',' :: ']' :: r' => some ([v], r')\n          | ',' :: r' => (parseItems", "a trailing comma is accepted", "C81")
m("j2_9", J, "scanScalar", "(.float \"-inf\".toList, r)", "(.float \"inf\".toList, r)", "-Infinity is read as infinity", "C81")

# C82, C83
m("rd_1", "Markdown.lean", "docBlock", "[.bulletList, .orderedList, .codeBlock]", "[.bulletList, .orderedList]", "no blank lines around code", "C82 C83")
m("rd_2", "Markdown.lean", "padNewlines", ".ok (.str ([Str.nl] ++ s ++ [Str.nl]))", ".ok (.str ([Str.nl] ++ s))", "no blank line after a list", "C82 C83")
m("rd_3", "Markdown.lean", "paragraphMd", "| .ok (.str s) => .ok (s ++ [Str.nl])", "| .ok (.str s) => .ok s", "a paragraph has no newline at its end", "C82 C83")
m("rd_4", "Markdown.lean", "stripDoubleEmptyLine", "(Str.replace ['\\n', '\\n', '\\n'] ['\\n', '\\n'] s)", "(Str.replace ['\\n', '\\n', '\\n'] ['\\n'] s)", "the clean-up removes all blank lines", "C82 C83")
m("rd_5", "Markdown.lean", "stripDoubleEmptyLine", "(Str.replace ['\\n', '\\n', '\\n'] ['\\n', '\\n'] s)", "(Str.replace ['\\n', '\\n'] ['\\n'] s)", "the clean-up removes single blank lines", "C82 C83")
m("rd_6", "Markdown.lean", "indentOf", "Str.rep [' ', ' ', ' ', ' '] level", "Str.rep [' '] level", "nested lists are indented by one space", "C83")
m("rd_7", "Markdown.lean", "panelMd", "['*', '*'], [], s]", "['*', '*'], s]", "the panel label runs into the text", "C83")
m("rd_8", "Markdown.lean", "codeBlockMd", "code ++ ['\\n', '`', '`', '`']", "code ++ ['`', '`', '`']", "the closing fence has no line of its own", "C83")
m("rd_9", "Markdown.lean", "headingMd", "['\\n', '\\n'] ++ (Str.rep ['#'] n", "['\\n', '\\n'] ++ (Str.rep ['#'] (n + 1)", "the level of a heading is off by one", "C83")
m("rd_10", "Markdown.lean", "decisionListMd", "strJoin [Str.nl, Str.nl] blocks", "strJoin [Str.nl] blocks", "decisions run into each other", "C83")
m("rd_11", "Markdown.lean", "taskItemLine", "['-', ' '] ++ checkbox ++ [' ']", "['-', ' '] ++ checkbox", "no space after the checkbox", "C83")
m("rd_12", "Markdown.lean", "blockquoteMd", "Str.indentAll ['>', ' '] (stripDoubleEmptyLine 3 s)", "Str.indentAll ['>', ' '] (Str.lstripSpaces s)", "quoted text is not cleaned up", "")
m("rd_13", "Markdown.lean", "headingMd", "++ s) ++ ['\\n', '\\n'])", "++ s) ++ ['\\n'])", "one newline after a heading", "")
m("rd_14", "Markdown.lean", "dispatch", '| .rule => .ok (.str "\\n\\n---\\n\\n".toList)', '| .rule => .ok (.str "---\\n\\n".toList)', "no blank line before a rule (the text before becomes a heading)", "C82 C83")
m("rd_15", "Markdown.lean", "taskLines", "match item.render (some (level + 1)) ig with", "match item.render (some level) ig with", "nested tasks are not indented", "C83")
m("rd_16", "Markdown.lean", "orderedStart", "if order.asInt?.isSome then .ok order else", "if order.asInt?.isSome then .ok (nextNum order) else", "lists start one later", "C83")

# C84, C85
MK = "Marks.lean"
MD = "Markdown.lean"
m("wd_1", MK, "Mark.toMarkdown", "  | .strong => wrapNonBlank ['*', '*'] ['*', '*'] text", "  | .strong => wrapNonBlank ['*'] ['*'] text", "strong text is emphasized", "C84 C85")
m("wd_2", MK, "Mark.toMarkdown", "wrapNonBlank ['~', '~'] ['~', '~'] text", "wrapNonBlank ['~'] ['~'] text", "struck text has one tilde", "C84 C85")
m("wd_3", MK, "Mark.toMarkdown", "wrapNonBlank ['`', '`', ' '] [' ', '`', '`'] text", "wrapNonBlank ['`', '`'] ['`', '`'] text", "code without the padding spaces", "C84 C85")
m("wd_4", MK, "Mark.toMarkdown", "(['['] ++ (title.asStr?.getD (text.pyStr env)) ++ [']', '('] ++\n          href.pyStr env ++ [')'])", "(['['] ++ href.pyStr env ++ [']', '('] ++\n          (title.asStr?.getD (text.pyStr env)) ++ [')'])", "label and address of a link swapped", "C84 C85")
m("wd_5", MK, "addStyle", "| .val ms => applyMarks env md ms", "| .val ms => applyMarks env md ms.reverse", "marks are applied in reverse", "C84 C85")
m("wd_6", MD, "dispatch", '| .hardBreak => .ok (.str "  \\n".toList)', '| .hardBreak => .ok (.str " \\n".toList)', "a hard break has one space only", "C84 C85")
m("wd_7", MD, "statusMd", ".ok (['`'] ++ t.pyStr env ++ ['`'])", ".ok (t.pyStr env)", "a status is plain text", "C84 C85")
m("wd_8", MD, "inlineCardMd", ".ok (selfLink url)", ".ok url", "a card is not a link", "C84 C85")
m("wd_9", MD, "mentionMd", '.ok (t.asStr?.getD "@Unknown".toList)', ".ok (['@'] ++ t.asStr?.getD \"@Unknown\".toList)", "mentions get a second at sign", "C84 C85")
m("wd_10", MD, "emojiMd", "    | some s => .ok s\n    | none =>\n      match getAttr", "    | some s => .ok (['*'] ++ s ++ ['*'])\n    | none =>\n      match getAttr", "emojis are emphasized", "C84 C85")
m("wd_11", MK, "wrapNonBlank", ".ok (.str (pre ++ s ++ post))", ".ok (.str (pre ++ Str.strip s ++ post))", "styled text is stripped", "C84 C85")
m("wd_12", MK, "applyMarks", "| .ok md' => applyMarks env md' ms", "| .ok md' => .ok md'", "only the first mark is applied", "C84 C85")
m("pg_1", MD, "taskItemLine", "then ['[', 'x', ']'] else ['[', ' ', ']']", "then ['[', ' ', ']'] else ['[', 'x', ']']", "check boxes are inverted", "C85")
m("pg_2", MD, "cellMd", 'Str.join "<br>".toList', 'Str.join "<br/>".toList', "another spelling of the line break", "C83 C85")
m("pg_3", MD, "cellMd", "(Str.replace ['|'] ['\\\\', '|'] md)", "md", "pipes in cells are not escaped", "C83 C85")
m("pg_4", MD, "blockCardMd", ".ok (['\\n'] ++ selfLink url ++ ['\\n'])", ".ok (['\\n'] ++ url ++ ['\\n'])", "a block card is not a link", "C85")
m("pg_5", MD, "panelMd", "['*', '*'], [], s]", "['*'], [], s]", "the name of a panel is not strong", "C85")
m("pg_6", MD, "nextNum", "+ 1)", "+ 2)", "numbers of a list skip one", "C83 C85")
m("te_1", "TypeEnum.lean", "TypeEnum.value", '| .border => "border"', '| .border => "borders"', "the value of a member is misspelt", "C14")
m("gh_1", "GenCode.lean", "header", "from .exc import ParamError\\n", "from .exc import ParameterError\\n", "api.py imports a name that does not exist", "C44")
m("gh_2", "GenCode.lean", "header", "from .type_enum import TypeEnum\\n", "", "TypeEnum is missing from the api", "C44")
m("te_2", "TypeEnum.lean", "TypeEnum.value", '| .annotation => "annotation"', '| .annotation => "alignment"', "two members share a value", "C14")
m("in_1", "Interrupt.lean", "Node.cutItem", "if cut place then .error e else ", "", "a full stack is not noticed", "C87")
m("in_2", MD, "decisionBlocks", "| .error e => if ig then decisionBlocks ig items else .error e", "| .error e => if ig then (match decisionBlocks ig items with | .error e => .error e | .ok rest => .ok (.str ['?'] :: rest)) else .error e", "a failing decision leaves a placeholder", "C50 C86")
m("in_3", MD, "docBlock", "| .error e => .error e\n    | .ok md => padNewlines md", "| .error _ => .ok (.str [])\n    | .ok md => padNewlines md", "a failing list becomes an empty block, in strict mode too", "C42 C86")
m("in_4", MD, "taskLines", "| .error e => if ig then taskLines level ig items else .error e", "| .error _ => taskLines level ig items", "a nested task list that fails is skipped in strict mode", "C86")
m("in_5", "FromDict.lean", "skipUnimplemented", "| .error e => ⟨x.log, .error e⟩", "| .error _ => ⟨x.log, .ok none⟩", "any exception skips the child", "C88")
m("in_6", "Interrupt.lean", "cutParseMarks", "if cutM i then .err e else", "if cutM i then .err .keyError else", "another exception comes out", "C88")
m("se_1", "Settings.lean", "skip", "if s (x t).2 then [⟨ty, c⟩] else []", "if s t then [⟨ty, c⟩] else []", "the setting is read before the child is parsed", "C89")
m("se_2", "Settings.lean", "skip", ".ok none⟩, (x t).2 + 1)", "(if s (x t).2 then .ok none else .error (.unimplementedType ty c))⟩, (x t).2 + 1)", "with the setting off, unknown types raise", "C89")
m("se_3", "Settings.lean", "timedMarks", "Timed.skip s (.pure", "Timed.skip (fun _ => s 0) (.pure", "the setting is read once for the marks", "C89")
m("pl_1", "Pipeline.lean", "textToMarkdown", "| none => ⟨[], none⟩", "| none => ⟨[], some (.ok (.str []))⟩", "text that is no JSON gives an empty page", "C90")
m("pl_2", "Pipeline.lean", "textToMarkdown", "(n.toMarkdown env ig)⟩", "(n.toMarkdown env (ig || !w))⟩", "errors are ignored when warnings are off", "C90")
m("pl_3", "Pipeline.lean", "textToMarkdown", "| none => ⟨[], none⟩\n  | some v =>\n", "| none => ⟨[], none⟩\n  | some v => if s.length > 4000 then ⟨[], some (.error .keyError)⟩ else\n", "long texts are refused", "C90")
m("pl_4", "Pipeline.lean", "textToText", "| .ok d => Json.dumps indent d", "| .ok _ => Json.dumps indent v", "the input is stored instead of the parsed document", "C90")
m("rp_1", "Report.lean", "ownEnums", '| some (.list l) => addEnums l s', '| some (.list l) => addEnums (l.take 1) s', "only the first value of an enum is listed", "C91")
m("rp_2", "Report.lean", "extractEnums", '| .list l, s => enumItems l s', '| .list _, s => .ok s', "lists are not searched for types", "C91")
m("rp_3", "Report.lean", "orderLines", 'orderItems g 1 bases', 'orderItems g 0 bases', "the list is numbered from 0", "C91")
m("rp_4", "Report.lean", "orderItems", 'Str.join ", ".toList (sort (g.deps base))', 'Str.join ", ".toList (g.deps base)', "dependencies in set order", "C91")
m("rp_5", "Report.lean", "markLines", '(sort marks).map', 'marks.map', "marks in set order", "C91")
m("rp_6", "Report.lean", "phase4", 'g.deps b ≠ []', '(g.deps b).length > 1', "nodes with one dependency are in no phase", "C91")
m("rp_7", "Report.lean", "markNames", '!endsWith n "_node".toList && endsWith n "_mark".toList', 'endsWith n "mark".toList', "definitions ending in mark count as marks", "C91")
m("rp_8", "Report.lean", "otherNames", '&& !endsWith n "_mark".toList', '', "marks count as others", "C91")
m("rp_9", "Report.lean", "phase3", 'g.deps b = []', '(g.deps b).filter (endsWith · "_node".toList) = []', "everything is a leaf", "C91 C92")
m("rp_10", "Report.lean", "report", 'let marks := markBases defs', 'let marks := markNames defs', "full definition names instead of mark types", "C91")
m("rp_11", "Report.lean", "enumValues", "| (_, v) :: d, s => do enumValues d (← extractEnums v s)", "| (k, v) :: d, s => do enumValues d (← if k = \"type\" then .ok s else extractEnums v s)", "values of `type` keys are not searched", "C91")
m("im_1", MD, "imageLink", "['!', '['] ++ alt ++ [']', '('] ++ target ++ [')']", "['!', '['] ++ target ++ [']', '('] ++ alt ++ [')']", "address and alternative text are swapped", "C40 C84 C85")
m("im_2", MD, "mediaMd", "addStyle env (.str (imageLink alt (\"media:\".toList ++ id.pyStr env))) marks", ".ok (.str (imageLink alt (\"media:\".toList ++ id.pyStr env)))", "links of file images are lost", "C40 C84 C85")
m("im_3", MD, "mediaMd", "ty.asStr? = some \"external\".toList ∧ url.asStr?.isSome", "url.asStr?.isSome", "any media with a url is external", "C40 C84 C85")
m("ck_1", "Checks.lean", "marginStep", "else if indent.isPrefixOf m then some indent", "else if indent.isPrefixOf m then some m", "dedent keeps the margin of the first line", "C94")
m("ck_2", "Checks.lean", "cutMargin", "if x ≠ y then margin.take i", "if x ≠ y then margin.take (i + 1)", "the margin keeps one character that is not common", "C94")
m("ck_3", "Checks.lean", "dedent", "(ls.filter fun l => !l.isEmpty)", "ls", "empty lines count for the margin", "C94")
m("ck_4", "Checks.lean", "checkMarkdown", "if Str.strip s = Str.strip (dedent expected)", "if Str.strip s = dedent expected", "expected is not stripped", "C94")
m("ck_5", "Checks.lean", "checkMarkdown", "n.toMarkdown env false", "n.toMarkdown env true", "errors inside the node are ignored", "C94")
m("ck_6", "Checks.lean", "emptyBlank", "if l.all blankTab then [] else l", "l", "lines of spaces are kept", "C94")
m("ck_7", "Checks.lean", "checkSeder", "if n1.eq iv n then\n          match n1.toDict", "if true then\n          match n1.toDict", "the node read back is not compared", "C93")
m("ck_8", "Checks.lean", "checkSeder", "(n.cls.fromDict w data).out with", "(parseNode w data).out with", "parse_node instead of from_dict", "C93")
m("ck_9", "Checks.lean", "checkSederMark", "if m1.eq iv m then", "if m1.toDict.eq iv m.attrsEntry.head!.2 then", "the mark is compared with its attrs", "C93")
m("ck_10", "ToDict.lean", "removeOptional", "d.filter fun e => !e.2.isOpt", "d", "unset fields are written", "C93 C05")
m("dl_1", "Download.lean", "Step.notThere", "fs tmp = none →\n      Step served encode tmp ⟨fs, .start ids⟩ .silent ⟨fs, .cleared ids⟩", "True →\n      Step served encode tmp ⟨fs, .start ids⟩ .silent ⟨fs.set tmp none, .cleared ids⟩", "the directory itself is dropped without what is in it", "C95")
m("dl_2", "Download.lean", "Step.remove", "tmp <+: p → p ≠ tmp →", "tmp.dropLast <+: p → p ≠ tmp →", "rmtree of the parent directory", "C96")
m("dl_3", "Download.lean", "Step.answer", "⟨fs, .next (id :: ids)⟩ (.answer id title body) ⟨fs, .got title body ids⟩", "⟨fs, .next (id :: ids)⟩ (.answer id title body) ⟨fs, .got title body ids.tail⟩", "every other page is skipped", "C95")
m("dl_4", "Download.lean", "Step.opens", "⟨fs.set p (some (.file [])), .opened p text ids⟩", "⟨(if fs p = none then fs.set p (some (.file [])) else fs), .opened p text ids⟩", "the file is not truncated", "C95")
m("dl_5", "Download.lean", "Step.close", "{p : Path} :\n      Step served encode tmp ⟨fs, .writing p [] ids⟩ .silent", "{p : Path} {rest : Bytes} :\n      Step served encode tmp ⟨fs, .writing p rest ids⟩ .silent", "the file may be closed before everything is written", "C95")
m("dl_6", "Download.lean", "fileName", "title ++ \".json\".toList", "title", "files without extension", "C95")
m("dl_7", "Download.lean", "Step.opens", "Json.dumps (some 2) body = some text", "Json.dumps none body = some text", "no indentation", "C95")
m("dl_8", "Download.lean", "target", "if (fileName title).head? = some '/' then [] else tmp", "if (fileName title).head? = some '~' then [] else tmp", "a title starting with ~ is taken as a path elsewhere", "C95 C96")
m("dl_9", "Download.lean", "Step.returns", "{fs : Fs} : Step served encode tmp ⟨fs, .next []⟩ .returns", "{fs : Fs} {ids : List Int} : Step served encode tmp ⟨fs, .next ids⟩ .returns", "main may return early", "C95")
m("dl_10", "Download.lean", "Step.raises", "Step served encode tmp s .raises ⟨s.fs, .raised⟩", "Step served encode tmp s .raises ⟨s.fs.set tmp none, .raised⟩", "an exception removes the directory entry", "C95")
m("dl_11", "Download.lean", "Step.mkdir", "fs tmp = none →\n      Step served encode tmp ⟨fs, .cleared ids⟩", "False →\n      Step served encode tmp ⟨fs, .cleared ids⟩", "the directory cannot be made", "C95")
m("dl_12", "Download.lean", "Step.there", "⟨fs, .start ids⟩ .silent ⟨fs, .removing ids⟩", "⟨fs, .start ids⟩ .silent ⟨fs, .next ids⟩", "what is there is kept", "C95")
m("sz_1", MD, "cellMd", "Str.replace ['|'] ['\\\\', '|'] md", "Str.replace ['|'] ['\\\\', '|'] (Str.replace ['\\\\'] ['\\\\', '\\\\'] md)", "backslashes are escaped too: tables in tables double them at every level", "C97")
m("sz_2", MD, "indentOf", "Str.rep [' ', ' ', ' ', ' '] level", "Str.rep [' ', ' ', ' ', ' '] (level * level)", "indentation grows quadratically with the level", "C97")
m("sz_3", MD, "listItemChild", "k.render (some (level + 1)) false", "k.render (some (2 * level + 1)) false", "the level doubles", "C97")
m("sz_4", MD, "taskLines", "item.render (some (level + 1)) ig", "item.render (some (2 * level + 1)) ig", "the level of task lists doubles", "C97")
m("sz_5", MD, "cellMd", "Str.replace ['|'] ['\\\\', '|'] md", "Str.replace ['|'] ['|', '|'] md", "pipes are doubled instead of escaped", "C97")
m("sz_6", MD, "itemLines", "first :: rest => (marker ++ first) :: rest", "first :: rest => (marker ++ first) :: (first :: rest)", "the first line of an item is written twice", "C97")
m("co_1", "Heap.lean", "nodeFromDictH", "  let b ← copyDictH fuel v\n  attrsStepH c.attrsFields b", "  let _ ← copyDictH fuel v\n  let b ← copyDictH fuel v\n  attrsStepH c.attrsFields b", "every node is copied twice", "C98")
m("co_2", "Heap.lean", "loopH", "    let o ← skipH warn (f e.2)\n", "    let _ ← skipH warn (f e.2)\n    let o ← skipH warn (f e.2)\n", "each child is parsed twice (exponential)", "C98")
m("co_3", "HeapOut.lean", "mapH", "    let v ← f e.2\n    let vs ← mapH f rest", "    let _ ← f e.2\n    let v ← f e.2\n    let vs ← mapH f rest", "each child is serialised twice (exponential)", "C98")
m("co_4", "Heap.lean", "copyItems", "    copyItems fuel b memo' rest", "    copyItems fuel b memo rest", "deepcopy forgets the memo between siblings", "C11")
m("co_5", "HeapOut.lean", "toDictH", '      listFieldH "content" (toDictH fuel) o.items d\n', '      listFieldH "content" (toDictH fuel) o.items d\n      listFieldH "content" (toDictH fuel) o.items d\n', "the children are serialised twice (exponential)", "C98")
m("co_6", "Heap.lean", "skipH", "  match m s with\n  | (.ok v, s') => (.ok [v], s')", "  match m (m s).2 with\n  | (.ok v, s') => (.ok [v], s')", "a child is parsed, then parsed again (exponential)", "C98")
m("kw_1", "Kwargs.lean", "kwSlot", "| none => match dflt with | .lit v => .raw v | _ => .opt", "| none => .absent", "a field that is not given is missing", "C99")
m("kw_2", "Kwargs.lean", "unexpected", "!(fs.any fun f => f.name == e.1)", "(fs.any fun f => f.name == e.1)", "known keywords are refused", "C99")
m("kw_3", "Kwargs.lean", "NodeCls.new", 'attrs := kwSlot (fun _ => none) c.fields "attrs" d\n          marks', 'attrs := kwSlot (fun v => match v with | .dict d => some ⟨d⟩ | _ => none) c.fields "attrs" d\n          marks', "the constructor converts attrs", "C99 (the exact condition)")
m("kw_4", "Kwargs.lean", "Node.toKwargs", "(n : Node) : Except PyErr Val := n.toDict", "(n : Node) : Except PyErr Val := n.toDict.map fun v => match v with | .dict d => .dict (d.filter fun e => e.1 != \"type\") | v => v", "to_kwargs leaves the type out", "C99")
m("kw_5", "Kwargs.lean", "attrsNew", "if unexpected fs d then .error .typeError\n  else match checkRequired fs (hasKey d) with", "match checkRequired fs (fun _ => false) with", "required arguments are always missing", "C99")
m("kw_6", "Kwargs.lean", "Mark.toKwargs", "Val := m.toDict", "Val := .dict (removeOptional m.attrsEntry)", "to_kwargs of a mark has no type", "C99")
m("cw_1", "Crawl.lean", "hasH1", 'if c.name = some "h1".toList then true else hasH1 cs', 'if c.name = some "h1".toList then true else false', "only the first child is looked at", "C100")
m("cw_2", "Crawl.lean", "firstDiv", "if hasH1 d.kids then some d else firstDiv ds", "match firstDiv ds with | some e => some e | none => if hasH1 d.kids then some d else none", "the last div is taken (no break in the outer loop)", "C100")
m("cw_3", "Crawl.lean", "findAllL", "(if k.name = some name then [k] else []) ++ findAll name k ++ findAllL name ks", "findAll name k ++ (if k.name = some name then [k] else []) ++ findAllL name ks", "inner elements come first", "C100")
m("cw_4", "Crawl.lean", "Step.answer", "c url = none → served url html →", "served url html →", "use_cache=False: the server is asked although the page is in the cache", "C101 C102")
m("cw_5", "Crawl.lean", "Step.store", "⟨upd c url html, f, .page html g⟩", "⟨c, f, .page html g⟩", "the answer is not stored", "C101 C102")
m("cw_6", "Crawl.lean", "Step.begin", "⟨s.cache, fun _ => none, .start⟩", "⟨s.cache, s.files, .start⟩", "tmp is not reset", "C102")
m("cw_7", "Crawl.lean", "Step.begin", "⟨s.cache, fun _ => none, .start⟩", "⟨fun _ => none, fun _ => none, .start⟩", "the cache is reset as well", "C101 C102")
m("cw_8", "Crawl.lean", "Step.next", ".loop ((title, some href) :: rest)⟩ .silent\n        ⟨c, f, .get (urlOf href) (.link title rest)⟩", ".loop ((title, some href) :: rest)⟩ .silent\n        ⟨c, f, .get (urlOf title) (.link title rest)⟩", "the text of the link is used as its address", "C102")
m("cw_9", "Crawl.lean", "Step.write", "⟨c, upd f title text, .loop rest⟩", "⟨c, upd f title text, .loop rest.tail⟩", "every other link is left out", "C102")
m("cw_10", "Crawl.lean", "Step.link", ".writing title (pretty d) (some rest)", ".writing rootTitle (pretty d) (some rest)", "all pages are written to the same file", "C102")
m("cw_11", "Crawl.lean", "Step.hit", "c url = some html →\n", "c url ≠ none →\n", "the cache gives some other text", "C101")
m("tr_1", "Trace.lean", "docBlockT", "if b then (k.render none false).bind fun md => .of (padNewlines md) else k.render none false", "if b then (k.render none false).bind fun _ => (k.render none false).bind fun md => .of (padNewlines md) else k.render none false", "a nested list is converted twice", "C103")
m("tr_2", "Trace.lean", "collectPreT", "(fun e => if ig then collectPreT ig pre f as else .of (.error e))", "(fun e => if ig then collectPreT ig pre f as else (collectPreT ig pre f as).bind fun _ => .of (.error e))", "a strict loop goes on after a failure and raises at the end", "C103")
m("tr_3", "Trace.lean", "bulletLinesT", "      (listItemContentT .bulletList level ig item).bind fun itemContent =>", "      (item.render none ig).bind fun _ => (listItemContentT .bulletList level ig item).bind fun itemContent =>", "the item is converted, then its children again", "C103")
m("tr_4", "Trace.lean", "tableLinesT", "    (row.render none false).tryElse", "    (row.render none ig).tryElse", "the flag is passed on to the rows", "C103 (the record is not that of the code)")
m("tr_5", "Trace.lean", "tableLinesT", "(fun e => if ig then (tableLinesT ig rows).map (md :: ·) else .of (.error e)))", "(fun e => if ig then (row.render none false).bind fun md => (tableLinesT ig rows).map (md :: ·) else .of (.error e)))", "a row without a first cell is converted again", "C103")
m("tr_6", "Trace.lean", "rowCellsT", "(k.render none ig).bind fun md => (rowCellsT ig ks).map (md :: ·)", "(rowCellsT ig ks).bind fun l => (k.render none ig).map (· :: l)", "cells are converted from the right", "C103")
m("tr_7", "Trace.lean", "listT", "itemT env (place ++ [i]) n :: listT env place (i + 1) ns", "itemT env (place ++ [i]) n :: listT env place i ns", "all children have the same place", "C103")
m("tr_8", "Trace.lean", "dispatchT", "if level.isSome && !hd.cls.takesLevel then .of (.error .typeError)", "if level.isSome && !hd.cls.takesLevel then ⟨[place], .error .typeError, 0⟩", "the call counts although the arguments are refused", "none: the same calls for the caller, the failing one counted", )

m("st_1", "Trace.lean", "contentToMarkdownT", "(contentBodyT concat ig content).frame", "(contentBodyT concat ig content).frame.frame", "content_to_markdown gets a helper of its own: three frames per level", "C104")
m("st_2", "Trace.lean", "docContentToMarkdownT", "(docContentBodyT ig content).frame", "(docContentBodyT ig content)", "a frame is not counted", "C104 (attained)")
m("st_3", "Stack.lean", "copyFrames", "  | .dict d => copyDict d + 2", "  | .dict d => copyDict d + 1", "deepcopy without _deepcopy_dict's frame", "C104")
m("st_4", "Stack.lean", "nodeFromDictF", "Fr.after (copyFrames (.dict d)) <|", "Fr.after 0 <|", "from_dict does not copy its argument", "C104 (parse = copying + 2)")
m("st_5", "Stack.lean", "parseNodeF", "nodeFromDictF warn c d (contentStepF warn d)", "Fr.frame (Fr.frame (Fr.frame (nodeFromDictF warn c d (contentStepF warn d))))", "parse_node goes through three wrappers", "C104")
m("st_6", "Stack.lean", "Fr.bind", "  | .ok a => ⟨x.res.bind fun a => (f a).res, max x.deep (f a).deep⟩", "  | .ok a => ⟨x.res.bind fun a => (f a).res, x.deep + (f a).deep⟩", "frames of siblings add up", "C104")
m("st_7", "Stack.lean", "contentStepF", "    if k = \"content\" then (parseNodesF warn l).bind fun ns => .of (.ok (some (.val ns)))", "    if k = \"content\" then (parseNodesF warn l.reverse).bind fun ns => .of (.ok (some (.val ns)))", "children parsed from the last", "C104 (not the code)")
m("st_8", "Stack.lean", "parseMarkF", "Fr.frame (Fr.after (copyFrames (.dict d)) (.of (.ofExcept (markFromDict c d))))", "Fr.frame (Fr.after (2 * copyFrames (.dict d)) (.of (.ofExcept (markFromDict c d))))", "a mark is copied inside the copy of it", "C104")

m("hm_1", "HeapMd.lean", "contentToMarkdownH", "    newList.bind fun lst =>\n    (iterH c).bind fun xs =>\n    (collectH ig (fun _ => Prog.pure ()) (fun _ x => call x none false) lst xs).bind fun _ =>\n    joinH concat lst", "    (match c with | some (.ref a) => Prog.pure a | _ => newList).bind fun lst =>\n    (iterH c).bind fun xs =>\n    (collectH ig (fun _ => Prog.pure ()) (fun _ x => call x none false) lst xs).bind fun _ =>\n    joinH concat lst", "the converted children are appended to the content list itself", "C105 C106")
m("hm_2", "HeapMd.lean", "collectH", "    Prog.tryElse (f c x) (fun r => (push lst r).bind fun _ => collectH ig pre f lst xs)\n      (fun e => if ig then collectH ig pre f lst xs else Prog.throw e)", "    Prog.tryElse (f c x) (fun r => (push lst r).bind fun _ => collectH ig pre f lst xs)\n      (fun e => Prog.throw e)", "ignore_error is not looked at", "C105 (agreement)")
m("hm_3", "HeapMd.lean", "tableLinesH", "        (push lines md).bind fun _ =>\n        (headerWidthH fuel x).bind fun w =>\n        match w with\n        | some n => push lines (.imm (.str (separatorLine n)))\n        | none => Prog.pure ())", "        (headerWidthH fuel x).bind fun w =>\n        (push lines md).bind fun _ =>\n        match w with\n        | some n => push lines (.imm (.str (separatorLine n)))\n        | none => Prog.pure ())", "the row is appended only after its first cell was looked at", "C105 (agreement)")
m("hm_4", "HeapMd.lean", "listItemContentH", "  newList.bind fun contentLines =>\n  (iterContentH item).bind fun kids =>", "  (match item with | .ref a => Prog.pure a | _ => newList).bind fun contentLines =>\n  (iterContentH item).bind fun kids =>", "lines are kept in the item", "C105 C106")
m("hm_5", "HeapMd.lean", "markdownH", "      bodyH env fuel (markdownH env fuel) hd p.2 level ig", "      (bodyH env fuel (markdownH env fuel) hd p.2 level ig).bind fun r => match x with | .ref a => (Prog.append a (\"_md\", r)).bind fun _ => Prog.pure r | _ => Prog.pure r", "the result is remembered in the node", "C105 C106")
m("hm_7", "HeapMd.lean", "bulletLinesH", "pushAll lines (itemLines (indentOf level ++ ['-', ' ']) itemContent)", "pushAll lines (itemLines (indentOf (level + 1) ++ ['-', ' ']) itemContent)", "one level too deep", "C105 (agreement)")
m("hm_8", "HeapMd.lean", "taskItemLineH", "  newList.bind fun contentParts =>\n  (iterContentH item).bind fun kids =>\n  (collectH ig (fun _ => Prog.pure ()) (fun _ k => call k none false) contentParts kids).bind fun _ =>", "  newList.bind fun contentParts =>\n  (iterContentH item).bind fun kids =>\n  (collectH ig (fun _ => Prog.pure ()) (fun _ k => call k none ig) contentParts kids).bind fun _ =>", "the flag is passed on to the children", "C105 (agreement)")
m("hm_9", "HeapMd.lean", "strOr", "  | .str s => .imm (.str s)\n  | _ => x", "  | .str s => .imm (.str s)\n  | _ => .imm .none", "a text that is no string is returned as None", "C105 (agreement)")
m("hm_10", "HeapMd.lean", "rowCellsH", "(call x none ig).bind fun md => (push cells md).bind fun _ => rowCellsH call ig cells xs", "(rowCellsH call ig cells xs).bind fun _ => (call x none ig).bind fun md => push cells md", "cells from the right", "C105 (agreement)")
m("hm_11", "HeapMd.lean", "bodyH", "  | .tableCell => strValH (cellMdH call (itemGet items \"content\") ig)", "  | .tableCell => strValH (cellMdH call (itemGet items \"attrs\") ig)", "attrs are iterated instead of content", "C105 (agreement)")
m("hm_12", "HeapMd.lean", "readMarkList", "    | none => Prog.pure []\n    | some m", "    | none => readMarkList fuel rest\n    | some m", "elements that are no marks are skipped", "C105 (agreement)")
m("hm_13", "HeapMd.lean", "decisionBlocksH", "      Prog.tryElse (call x none ig) (fun md", "      Prog.tryElse (call x none false) (fun md", "the flag is not passed on", "C105 (agreement)")
m("th_1", "HeapMd.lean", "contentToMarkdownH", "    newList.bind fun lst =>\n    (iterH c).bind fun xs =>\n    (collectH ig (fun _ => Prog.pure ()) (fun _ x => call x none false) lst xs).bind fun _ =>\n    joinH concat lst", "    (Prog.pure 0).bind fun lst =>\n    (iterH c).bind fun xs =>\n    (collectH ig (fun _ => Prog.pure ()) (fun _ x => call x none false) lst xs).bind fun _ =>\n    joinH concat lst", "one list for all calls (a module-level buffer)", "C105 C106 C107")
m("th_2", "Prog.lean", "next", "    | some o => some (h.set a { o with items := o.items ++ [e] }, k true, [], [])", "    | some o => some (h.set a { o with items := [e] }, k true, [], [])", "append replaces the contents", "C107 C108")
m("th_3", "Prog.lean", "next", "  | make o k => some (h ++ [o], k h.length, [h.length], [])", "  | make o k => some (h ++ [o], k h.length, [], [])", "an object created is not counted as the call's own", "C107 (private) C108 (fresh)")
m("th_4", "Prog.lean", "run", "    | some o => (k true).run { s with heap := s.heap.set a { o with items := o.items ++ [e] } }", "    | some o => (k true).run { s with heap := s.heap.set a { o with items := e :: o.items } }", "append inserts in front", "C105 C107")
m("th_5", "Threads.lean", "Ran", "Ran c ⟨h', c.threads.set i { t with prog := p, own := t.own ++ new, log := t.log ++ ws }⟩", "Ran c ⟨h', c.threads.set 0 { t with prog := p, own := t.own ++ new, log := t.log ++ ws }⟩", "a step is booked on the first thread", "C107 C108")
m("th_6", "Threads.lean", "Call.prog", "  | .parse warn v => HeapProg.parseNode fuel warn v", "  | .parse warn v => HeapProg.parseNode fuel true v", "the setting is not looked at", "C108 (log)")
m("th_7", "Threads.lean", "Called", "⟨fuel, call, call.prog env fuel, [], [], c.heap, doc⟩", "⟨fuel, call, call.prog env fuel, [], (c.threads.map fun t => t.log).flatten, c.heap, doc⟩", "a new call starts with what the others have logged", "C108 (log)")
m("th_8", "Threads.lean", "Left", "(ho : t.Over) : Left", "(ho : True) : Left", "the caller goes on before the call is over", "none: the thread is just not looked at any more")
m("th_9", "Threads.lean", "Ran", "own := t.own ++ new, log := t.log ++ ws }", "own := t.own ++ new, log := t.log }", "warnings are lost", "C108 (log)")
m("hp_1", "HeapProg.lean", "deepcopy", "      (Prog.alloc ⟨o.kind, []⟩).bind fun b =>", "      (Prog.pure a).bind fun b =>", "deepcopy fills the original", "C108 C11")
m("hp_2", "HeapProg.lean", "copyDict", "  (deepcopy fuel [] v).bind fun p =>\n", "  (Prog.pure (v, ([] : Memo))).bind fun p =>\n", "from_dict does not copy its argument", "C108 (argument, fresh)")
m("hp_3", "HeapProg.lean", "copyItems", "    copyItems fuel b p.2 rest", "    copyItems fuel b memo rest", "the memo is forgotten between siblings", "C108 (sharing)")
m("hp_4", "HeapProg.lean", "listStep", "      (Prog.alloc ⟨.list, vs.map fun v => (\"\", v)⟩).bind fun n =>\n      setItem b key (.ref n)", "      (Prog.write l ⟨.list, vs.map fun v => (\"\", v)⟩).bind fun _ =>\n      setItem b key (.ref l)", "the list is converted in place", "C108 (agrees with the call alone: sharing)")
m("hp_5", "HeapProg.lean", "setItem", "itemSet o.items k v", "o.items ++ [(k, v)]", "the key occurs twice", "C108")
m("hp_6", "HeapProg.lean", "skip", "(Prog.log (if warn then [⟨t, c⟩] else []))", "(Prog.log [⟨t, c⟩])", "a warning although switched off", "C108 (log)")
m("hp_7", "HeapProg.lean", "removeOptional", "  (Prog.alloc ⟨.dict, o.items.filter fun e => !e.2.isOpt⟩).bind fun r => Prog.pure (.ref r)", "  (Prog.write 0 ⟨.dict, o.items.filter fun e => !e.2.isOpt⟩).bind fun _ => Prog.pure (.ref 0)", "one dict for all calls", "C108 (fresh, apart)")
m("hp_8", "HeapProg.lean", "asdict", "    (Prog.alloc ⟨o.kind.asdict, items⟩).bind fun r => Prog.pure (.ref r)", "    Prog.pure (.ref a)", "asdict gives the object itself", "C108 (fresh)")
m("hp_9", "HeapProg.lean", "listField", "(listToDict call v).bind fun r => setItem d key r", "setItem d key v", "children are not serialised but shared", "C108")
m("hp_10", "HeapProg.lean", "baseFromDict", "      (Prog.alloc ⟨.inst t, fs.map fun f => (f.name, fieldValueH o.items f)⟩).bind fun r =>", "      (Prog.alloc ⟨.inst t, o.items⟩).bind fun r =>", "unknown keys become attributes", "C108")
m("fp_1", "FieldsProg.lean", "nodeFromDict", "(c.attrsFields.map fun _ => .nodeAttrs c)", "(c.attrsFields.map fun _ => .node c)", "attrs are built with the fields of the node", "C109")
m("fp_2", "FieldsProg.lean", "markFromDict", "  baseFromDict (.mark c) (.mark c) (.ref b)", "  baseFromDict (.markAttrs c) (.mark c) (.ref b)", "the mark is built with the fields of its attrs", "C109")
m("fp_3", "FieldsProg.lean", "Step", "      mem := (Cache.step (Cls.fields user) c.mem p).1\n", "      mem := ⟨[], []⟩\n", "other code empties the cache", "C109 (KeyError)")
m("fp_4", "FieldsProg.lean", "FProg.next", "    | (m', pc') => some ⟨h, m', fields c k, .fields pc', [], [], []⟩", "    | (m', pc') => some ⟨h, m', k [], .fields pc', [], [], []⟩", "the cache entry is visible before it is filled", "C109")
m("fp_5", "FieldsProg.lean", "FProg.next", "      | some fs => some ⟨h, m', k fs, .start, [], [], []⟩", "      | some fs => some ⟨h, m', k fs, pos, [], [], []⟩", "the place in get_fields is not forgotten", "C109")
m("fp_9", "FieldsProg.lean", "FProg.next", "    | .on => some ⟨h, m, k, .start, [], [w], [(w, true)]⟩", "    | .on => some ⟨h, m, k, .start, [], if warn then [w] else [], [(w, true)]⟩", "the setting is read twice", "C110 (log)")
m("fp_10", "FieldsProg.lean", "FProg.next", "    | .on => some ⟨h, m, k, .start, [], [w], [(w, true)]⟩", "    | .on => some ⟨h, m, skipped w k, .start, [], [w], [(w, true)]⟩", "logs until the setting is off", "C110 (log) C109 (ends)")
m("fp_11", "FieldsProg.lean", "FProg.next", "some ⟨h, m, skipped w k, .on, [], [], []⟩ else some ⟨h, m, k, .start, [], [], [(w, false)]⟩", "some ⟨h, m, skipped w k, .on, [], [], []⟩ else some ⟨h, m, fail (.py (.unimplementedType w.typeValue w.category)), .start, [], [], [(w, false)]⟩", "a child is only skipped if the setting is on", "C109 C110 (result)")
m("fp_12", "FieldsProg.lean", "skip", "    | .py (.unimplementedType t c) => .skipped ⟨t, c⟩ (.ret [])", "    | .py (.unimplementedType t c) => .skipped ⟨t, c⟩ (.ret [.imm .none])", "a skipped child becomes None", "C109 C110")
m("fp_13", "FieldsProg.lean", "FProg.next", "if warn then some ⟨h, m, skipped w k, .on", "if !warn then some ⟨h, m, skipped w k, .on", "the setting is read the wrong way round", "C110 (always)")
m("fp_14", "FieldsProg.lean", "loop", "    (loop f rest).bind fun vs => .ret (o ++ vs)", "    match o with | [] => .ret [] | o => (loop f rest).bind fun vs => .ret (o ++ vs)", "the loop ends with a skipped child", "C109 C110")
m("fp_6", "FieldsProg.lean", "attrsStep", "    if fs.any fun f => f.name == \"attrs\" then", "    if fs.any fun f => f.name == \"content\" then", "the wrong field is looked for", "C109")
m("fp_7", "Cache.lean", "Mem.get", "(m.cache.find? fun e => e.1 = c).map (·.2)", "(m.cache.head?).map (·.2)", "the cache does not look at the class", "C12 C109")
m("fp_8", "Cache.lean", "step", "  | .missed c => (m.store fieldsOf c, .filled c)", "  | .missed c => ({ m.store fieldsOf c with objs := (m.store fieldsOf c).objs.set 0 (fieldsOf c) }, .filled c)", "the first dict of the cache is filled anew for every class", "C12 C109")
m("cy_1", "HeapOut.lean", "asdictH", "  | 0, .ref _ => HM.throw .recursion\n  | fuel + 1, .ref a => do\n    let o ← HM.read a\n    let items ← asdictItems", "  | 0, .ref _ => HM.pure (.imm .none)\n  | fuel + 1, .ref a => do\n    let o ← HM.read a\n    let items ← asdictItems", "what is nested too deeply is cut off silently", "C111 (to_dict)")
m("cy_2", "HeapOut.lean", "toDictH", "      listFieldH \"content\" (toDictH fuel) o.items d", "      listFieldH \"content\" (toDictH (fuel - 3)) o.items d", "each level of content costs more stack", "C111 (only then)")
m("cy_3", "Heap.lean", "skipH", "    HM.bind (HM.warn (if warn then [⟨t, c⟩] else [])) (fun _ => HM.pure []) s'\n  | (.error e, s') => (.error e, s')", "    HM.bind (HM.warn (if warn then [⟨t, c⟩] else [])) (fun _ => HM.pure []) s'\n  | (.error .recursion, s') => (.ok [], s')\n  | (.error e, s') => (.error e, s')", "the loop swallows RecursionError: a truncated node is returned", "C111 (parse)")
m("cy_4", "Heap.lean", "parseNodeH", "  | 0, _, _ => HM.throw .recursion", "  | 0, _, _ => HM.throw (.py (.unimplementedType (.str []) \"node\"))", "what is nested too deeply is reported as not implemented, and so skipped", "C111 (parse)")
m("cy_5", "HeapOut.lean", "asdictItems", "    let v' ← asdictH fuel v\n", "    let v' ← (match v with | .ref 0 => HM.pure (.ref 0) | v => asdictH fuel v)\n", "the root is not followed again", "C49 C111 (to_dict)")
m("cy_6", "HeapMd.lean", "collectH", "      (fun e => if ig then collectH ig pre f lst xs else Prog.throw e)", "      (fun e => match e with | .recursion => collectH ig pre f lst xs | e => if ig then collectH ig pre f lst xs else Prog.throw e)", "a child nested too deeply is left out of the markdown", "C105 C111 (to_markdown)")
m("cy_7", "HeapMd.lean", "taskLinesH", "          (fun e => if ig then taskLinesH fuel call level ig lines xs else Prog.throw e)", "          (fun _ => taskLinesH fuel call level ig lines xs)", "a nested task list that fails is left out although ignore_error is False", "C105 C111 (to_markdown)")
m("cy_8", "HeapMd.lean", "markdownH", "  | 0, _, _, _ => Prog.throw .recursion", "  | 0, _, _, _ => Prog.pure (.imm (.str \"...\".toList))", "what is nested too deeply is abbreviated", "C111 (to_markdown)")
m("cy_9", "HeapMd.lean", "isTypeOfH", "(readPlain fuel (itemGet p.2 \"type\"))", "(readPlain 0 (itemGet p.2 \"type\"))", "looking at the type costs all of the stack", "C105 C111 (to_markdown_shared)")
