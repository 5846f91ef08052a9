{"id": "C01", "title": "Unregistered child types are skipped, everything else is kept in order", "statement": "When a registered node's JSON is parsed and its `content` is a list, the parsed object's children are exactly the parses of those list entries whose `type` is registered, in the original order; entries with an unregistered (hashable) `type` contribute nothing. The same holds for `marks` with the mark registry.", "quantifier": "every node class, every JSON content/marks list of any length, entries of any shape, at any nesting depth", "why_tests_cant": "tests use a handful of sample pages; the claim ranges over every list and every placement of unregistered entries", "anchors": ["atlas_doc_parser/mark_or_node.py:BaseNode.from_dict", "atlas_doc_parser/nodes/parse_node.py:parse_node", "atlas_doc_parser/marks/parse_mark.py:parse_mark"]}
{"id": "C02", "title": "Unknown JSON keys never change what is parsed", "statement": "Adding keys that no ADF class knows (to a node, to a mark, or to an attrs object), at any number of places and any depth, changes neither the parsed object, nor the error raised, nor the warnings logged.", "quantifier": "every JSON value, every set of unknown keys with arbitrary values, every depth", "why_tests_cant": "forward compatibility means for keys that do not exist yet; no finite sample covers all placements", "anchors": ["atlas_doc_parser/mark_or_node.py:Base.from_dict", "atlas_doc_parser/mark_or_node.py:BaseNode.from_dict", "atlas_doc_parser/mark_or_node.py:BaseMark.from_dict"]}
{"id": "C03", "title": "parse_node / parse_mark build the class registered for the JSON type", "statement": "If parse_node(d) returns an object, d is a dict whose `type` is a registered string, the object's class is the one registered under that string, the object's own `type` attribute equals it, and is_type_of answers True exactly for that TypeEnum member. Likewise parse_mark.", "quantifier": "every JSON value d", "why_tests_cant": "must hold for every type string including unregistered, non-string and unhashable ones", "anchors": ["atlas_doc_parser/nodes/parse_node.py", "atlas_doc_parser/marks/parse_mark.py", "atlas_doc_parser/type_enum.py:check_type_match"]}
{"id": "C04", "title": "Object -> dict -> object round trip", "statement": "For every object x obtained by parsing (parse_node or any class's from_dict) whose content/marks, at every depth, came from lists (or were absent), x.to_dict() succeeds and from_dict of the result on the same class gives back an object equal to x without logging any warning.", "quantifier": "every JSON input that parses, every class, any depth", "why_tests_cant": "round trip must hold for every tree, not the sampled pages", "anchors": ["atlas_doc_parser/mark_or_node.py:BaseNode.to_dict", "atlas_doc_parser/mark_or_node.py:BaseMark.to_dict", "atlas_doc_parser/mark_or_node.py:Base.to_dict"]}
{"id": "C05", "title": "Serialisation is a normal form that keeps exactly the known data", "statement": "to_dict(from_dict(j)) is idempotent (re-parsing and re-serialising gives the same dict); each top-level field that the class declares and j provides with a scalar/attrs value is reproduced with its value; no key outside the class's declared fields appears; declared keys absent from j appear only for fields with a literal default (type, version).", "quantifier": "every JSON input that parses, every class", "why_tests_cant": "same as C04: unbounded trees and arbitrary payloads", "anchors": ["atlas_doc_parser/mark_or_node.py:BaseNode.to_dict", "atlas_doc_parser/mark_or_node.py:Base.from_dict"]}
{"id": "C06", "title": "to_dict returns plain JSON", "statement": "For every object parsed from plain JSON, to_dict() contains only JSON values, so json.dumps(x.to_dict()) works (no OPT sentinel leaks out).", "quantifier": "every JSON input that parses", "why_tests_cant": "a leak shows only for particular combinations of omitted optional fields in marks; equality based round-trip tests do not see it", "anchors": ["atlas_doc_parser/mark_or_node.py:BaseMark.to_dict", "atlas_doc_parser/marks/mark_link.py", "atlas_doc_parser/marks/mark_breakout.py", "atlas_doc_parser/marks/mark_fragment.py"]}
{"id": "C07", "title": "Required fields are enforced at construction, and only they", "statement": "from_dict on a dict fails with a missing-argument error (ParamError for REQ fields, TypeError for fields without default) when a required field of the class or of its attrs class is missing; when every required field is present and attrs/children/marks parse, from_dict succeeds. In particular no parsed object anywhere in a parsed tree lacks a required field.", "quantifier": "every class, every dict, every depth", "why_tests_cant": "must hold for every subset of missing fields of every class", "anchors": ["atlas_doc_parser/mark_or_node.py:Base.from_dict", "func_args BaseFrozenModel (external)"]}
{"id": "C08", "title": "WARN_UNIMPLEMENTED_TYPE affects only the log", "statement": "The object returned or exception raised by parsing does not depend on settings.WARN_UNIMPLEMENTED_TYPE; with the flag off nothing is logged; with the flag on a successful parse logs exactly one warning per skipped element, in document order (for each node: the skipped entries of its content interleaved with its kept children's own warnings, then its marks).", "quantifier": "every JSON value, both flag values", "why_tests_cant": "log contents must match for every placement of unregistered types", "anchors": ["atlas_doc_parser/settings.py", "atlas_doc_parser/mark_or_node.py:BaseNode.from_dict", "atlas_doc_parser/exc.py:UnimplementedTypeError"]}
{"id": "C09", "title": "Malformed registered children are never swallowed", "statement": "If some entry of a node's content (or marks) fails to parse with an error other than an unregistered type, parsing the node fails: with the error of the first such entry, content before marks, provided that attrs (converted first) is well-formed, and with some error in any case.", "quantifier": "every class, every content list, every position", "why_tests_cant": "any position in any list at any depth", "anchors": ["atlas_doc_parser/mark_or_node.py:BaseNode.from_dict"]}
{"id": "C10", "title": "UnimplementedTypeError escapes only for the root element", "statement": "parse_node(d) raises UnimplementedTypeError exactly when d is a dict whose own `type` is hashable and unregistered (and then carries that type and category 'node'); a class's from_dict never raises it. Every other parse failure is a KeyError, TypeError or ParamError. A value that is not a dict is refused with a TypeError by parse_node, parse_mark and every from_dict.", "quantifier": "every JSON value", "why_tests_cant": "exception classes must be right for all malformed inputs", "anchors": ["atlas_doc_parser/nodes/parse_node.py", "atlas_doc_parser/mark_or_node.py:BaseNode.from_dict", "atlas_doc_parser/exc.py"]}
{"id": "C11", "title": "Parsing does not modify the caller's dict and shares nothing with it", "statement": "parse_node, parse_mark and every node or mark class's from_dict leave every object that existed before the call unchanged - whether the call returns, raises, or runs into the recursion limit half-way -, return an object from which nothing that existed before the call can be reached, and no later change to anything but the objects the call itself created can be seen through the returned object. (An attrs class's own from_dict, which the library calls only on its private copy, makes no copy: it is outside this guarantee.)", "quantifier": "every heap (shared sub-objects and cycles included), every argument, every recursion limit, every later mutation", "why_tests_cant": "aliasing bugs show only for particular object graphs and particular later mutations", "anchors": ["atlas_doc_parser/mark_or_node.py:BaseNode.from_dict (copy.deepcopy)", "atlas_doc_parser/mark_or_node.py:BaseMark.from_dict", "atlas_doc_parser/nodes/parse_node.py:parse_node", "atlas_doc_parser/marks/parse_mark.py:parse_mark"]}
{"id": "C12", "title": "The class-field cache is invisible", "statement": "cls.get_fields() returns the class's own dataclass fields and never raises KeyError, whatever calls on whatever classes were made before or are in progress in other threads, interleaved in any way; every call finishes in a bounded number of its own steps. (The dict returned is the cached one: a caller who changes it changes later results.)", "quantifier": "every history and every interleaving of get_fields calls on any classes by any number of threads", "why_tests_cant": "histories and schedules are unbounded", "anchors": ["atlas_doc_parser/mark_or_node.py:Base.get_fields", "atlas_doc_parser/mark_or_node.py:_CLASS_FIELD"]}
{"id": "C13", "title": "Registries are consistent", "statement": "Every key of the node (mark) registry is a TypeEnum value; distinct keys map to distinct classes; every class's default `type` is the key it is registered under; no string is registered both as node and as mark.", "quantifier": "every registry entry and every string", "why_tests_cant": "finite but must be complete: no missing or crossed entry", "anchors": ["atlas_doc_parser/nodes/parse_node.py:NODE_TYPE_TO_CLASS_MAPPING", "atlas_doc_parser/marks/parse_mark.py:MARK_TYPE_TO_CLASS_MAPPING", "atlas_doc_parser/type_enum.py:TypeEnum"]}
{"id": "C14", "title": "is_type_of is membership", "statement": "x.is_type_of(ts) is True iff x.type is a string equal to the value of some member of ts; a single member behaves as a one-element list; the order and repetition of ts do not matter.", "quantifier": "every object, every list of TypeEnum members", "why_tests_cant": "all subsets of the enum, arbitrary type strings", "anchors": ["atlas_doc_parser/type_enum.py:check_type_match", "atlas_doc_parser/mark_or_node.py:BaseMarkOrNode.is_type_of"]}
{"id": "C15", "title": "strip_double_empty_line only shortens runs of newlines", "statement": "strip_double_empty_line(text, n) leaves every non-newline character and its order untouched, never lengthens a run of newlines nor removes one completely, maps a maximal run of k newlines to the n-fold iterate of k -> k - k//3, and therefore (n=3) leaves at most two consecutive newlines whenever no run in the input exceeds six.", "quantifier": "every text and every n", "why_tests_cant": "all texts; the docstring's bound (five) is about every input", "anchors": ["atlas_doc_parser/markdown_helpers.py:strip_double_empty_line"]}
{"id": "C16", "title": "Documents never contain two consecutive blank lines", "statement": "doc.to_markdown() has at most one consecutive blank line (never three newlines in a row), as documented for strip_double_empty_line / doc_content_to_markdown.", "quantifier": "every parsed document", "why_tests_cant": "depends on arbitrary sequences of blocks (e.g. runs of empty paragraphs)", "anchors": ["atlas_doc_parser/markdown_helpers.py:doc_content_to_markdown", "atlas_doc_parser/markdown_helpers.py:strip_double_empty_line", "atlas_doc_parser/nodes/node_doc.py"]}
{"id": "C17", "title": "ignore_error=True makes document conversion total", "statement": "NodeDoc.to_markdown(ignore_error=True) returns a string and never raises, for every parsed document whose content is a list of block nodes.", "quantifier": "every parsed document", "why_tests_cant": "any combination of failing nodes anywhere in the tree", "anchors": ["atlas_doc_parser/nodes/node_doc.py", "atlas_doc_parser/markdown_helpers.py:doc_content_to_markdown"]}
{"id": "C18", "title": "ignore_error=True drops exactly the failing blocks", "statement": "doc.to_markdown(ignore_error=True) equals the strict conversion of the document obtained by deleting the top-level blocks whose strict conversion raises. Likewise for every container that uses the shared loops (paragraph, heading, table cell, blockquote, expand, list item, decision item ...): its lenient conversion equals its strict conversion without the children that fail.", "quantifier": "every document and container, every subset of failing children", "why_tests_cant": "all failure patterns", "anchors": ["atlas_doc_parser/markdown_helpers.py:content_to_markdown", "atlas_doc_parser/markdown_helpers.py:doc_content_to_markdown"]}
{"id": "C19", "title": "Lenient mode never changes a successful conversion", "statement": "If node.to_markdown(ignore_error=False) succeeds with some text, node.to_markdown(ignore_error=True) returns the same text; for list nodes at every level argument.", "quantifier": "every node of every class, every level", "why_tests_cant": "must hold across the whole recursive converter", "anchors": ["atlas_doc_parser/nodes/*:to_markdown", "atlas_doc_parser/markdown_helpers.py"]}
{"id": "C20", "title": "ignore_error propagates to nested conversions", "statement": "As documented, ignore_error=True skips the failing node only: siblings of a failing node at any depth still appear in the output.", "quantifier": "every tree with failing nodes at any depth", "why_tests_cant": "depth of the failing node is unbounded", "anchors": ["atlas_doc_parser/mark_or_node.py:BaseNode.to_markdown (docstring)", "atlas_doc_parser/markdown_helpers.py:content_to_markdown"]}
{"id": "C21", "title": "Text is preserved, in order (supported constructs)", "statement": "For a document built from text with content-preserving marks, hard breaks, paragraphs, headings, code blocks, block quotes, panels, expands, lists of list items, task lists, decision lists and tables, whenever to_markdown succeeds, the non-whitespace characters of all text nodes, in document order, form a subsequence of the non-whitespace characters of the output.", "quantifier": "every such tree, any depth and size", "why_tests_cant": "an unbounded family of trees; escaping, indentation, stripping and joining all interact", "anchors": ["atlas_doc_parser/nodes/*:to_markdown", "atlas_doc_parser/markdown_helpers.py"]}
{"id": "C22", "title": "No text is ever lost", "statement": "The claim of C21 for every parsed document, with any registered marks and nodes ('content extraction over formatting').", "quantifier": "every parsed document", "why_tests_cant": "the loss happens only for particular marks/containers", "anchors": ["atlas_doc_parser/marks/mark_indentation.py:to_markdown", "atlas_doc_parser/marks/mark_link.py:to_markdown", "atlas_doc_parser/nodes/node_media_group.py", "atlas_doc_parser/nodes/node_caption.py", "atlas_doc_parser/nodes/node_bullet_list.py"]}
{"id": "C23", "title": "Marks are applied left to right and wrap exactly", "statement": "A text node's markdown is the left fold of its marks over its text; strong/em/strike put their delimiter on both sides of a text that has a non-whitespace character and leave whitespace-only text unchanged; link gives [label](href) with label = title if it is a string, else the text; marks without markdown form return the text unchanged. A mark that raises AttributeError (text that is no string) ends the fold with the text built so far; other exceptions are raised.", "quantifier": "every text, every list of marks", "why_tests_cant": "all texts and mark sequences", "anchors": ["atlas_doc_parser/markdown_helpers.py:add_style_to_markdown", "atlas_doc_parser/marks/*:to_markdown"]}
{"id": "C24", "title": "Inline code never spans lines", "statement": "MarkCode.to_markdown raises ValueError iff the text contains a newline; otherwise the result contains no newline, is the text unchanged if it is blank and ``` `` text `` ``` otherwise.", "quantifier": "every string", "why_tests_cant": "all strings", "anchors": ["atlas_doc_parser/marks/mark_code.py"]}
{"id": "C25", "title": "Bullet lists: one bullet per list item", "statement": "NodeBulletList.to_markdown(level) consists, for each child of type listItem in order, of a line starting with 4*level spaces and '- ' followed by the first line of the item's text, then the item's remaining lines verbatim; the item's text is its children joined by newlines (nested bullet lists rendered at level+1, other children right-stripped).", "quantifier": "every bullet list, every level, every content", "why_tests_cant": "arbitrary nesting and arbitrary item contents", "anchors": ["atlas_doc_parser/nodes/node_bullet_list.py"]}
{"id": "C26", "title": "Ordered lists number consecutively from attrs.order", "statement": "At level 0 the k-th list item (k=0,1,..) of an ordered list with integer attrs.order = s is introduced by the number s+k; nested levels start at 1; items that are not listItems do not consume numbers.", "quantifier": "every ordered list, any length and start", "why_tests_cant": "arbitrary lengths, starts and interleaved unknown items", "anchors": ["atlas_doc_parser/nodes/node_ordered_list.py"]}
{"id": "C27", "title": "Every schema-valid ordered list converts", "statement": "An ordered list without attrs (attrs is optional in the class and in the ADF schema) converts like one starting at 1.", "quantifier": "every ordered list without attrs", "why_tests_cant": "depends on presence of an optional field combined with level", "anchors": ["atlas_doc_parser/nodes/node_ordered_list.py"]}
{"id": "C28", "title": "Task lists: one checkbox line per task", "statement": "NodeTaskList.to_markdown(level) renders each taskItem child as one entry '<4*level spaces>- [x] text' if its state is DONE and '- [ ] text' otherwise, nested taskList children at level+1, in order, and nothing else; an item without content is rendered with empty text.", "quantifier": "every task list, every level", "why_tests_cant": "arbitrary nesting and states", "anchors": ["atlas_doc_parser/nodes/node_task_list.py", "atlas_doc_parser/nodes/node_task_item.py"]}
{"id": "C29", "title": "Decision items are clean block quotes", "statement": "Every line of NodeDecisionItem.to_markdown() is '>' or starts with '> '; no two consecutive lines are '>'; neither the first nor the second nor the last line is a bare '>'; no line has trailing whitespace; and the non-blank lines are exactly the right-stripped non-blank lines of the item's content, in order.", "quantifier": "every decision item content", "why_tests_cant": "all line patterns", "anchors": ["atlas_doc_parser/nodes/node_decision_item.py"]}
{"id": "C30", "title": "Decision lists separate decisions by one blank line", "statement": "NodeDecisionList.to_markdown() is its decisionItem children's markdown joined by a blank line, in order, other children ignored.", "quantifier": "every decision list", "why_tests_cant": "arbitrary lengths and failure patterns", "anchors": ["atlas_doc_parser/nodes/node_decision_list.py"]}
{"id": "C31", "title": "A table row is one line with the right number of cells", "statement": "For rows made of tableCell/tableHeader nodes, the row's markdown contains no newline and exactly max(n,1)+1 pipe characters that are not directly preceded by a backslash (a GFM reader's cell boundaries), where n is the number of cells: no cell content can break the table.", "quantifier": "every row, every cell content", "why_tests_cant": "content may contain pipes, newlines, backslashes, nested blocks", "anchors": ["atlas_doc_parser/nodes/node_table_row.py", "atlas_doc_parser/nodes/node_table_cell.py", "atlas_doc_parser/nodes/node_table_header.py"]}
{"id": "C32", "title": "Tables: header rows get a separator of the same width, every row one line", "statement": "NodeTable.to_markdown() is, for each row in order, the row's line followed by a '---' separator line with as many columns as the row has cells iff its first cell is a tableHeader; the number of lines is the number of rows plus the number of header rows.", "quantifier": "every table", "why_tests_cant": "arbitrary sizes", "anchors": ["atlas_doc_parser/nodes/node_table.py"]}
{"id": "C33", "title": "Block quotes prefix every line", "statement": "NodeBlockquote.to_markdown() is the converted content in which every line (in the sense of str.splitlines) is prefixed with '> ', followed by a newline; removing the prefixes gives the content back.", "quantifier": "every block quote", "why_tests_cant": "all texts with any line terminators", "anchors": ["atlas_doc_parser/nodes/node_blockquote.py"]}
{"id": "C34", "title": "Panels are labelled block quotes", "statement": "NodePanel.to_markdown() starts with the line '> **TYPE**' (TYPE the upper-cased panelType) and a quoted blank line, every line is prefixed with '> ', and the content follows.", "quantifier": "every panel", "why_tests_cant": "all contents", "anchors": ["atlas_doc_parser/nodes/node_panel.py"]}
{"id": "C35", "title": "Code blocks are fenced and verbatim", "statement": "NodeCodeBlock.to_markdown() is '```lang', newline, the concatenated text verbatim, newline, '```', where lang is attrs.language if it is a string other than 'none' and empty otherwise; the code can be recovered from the output, i.e. the closing fence is the first line that starts with '```' after the opening one.", "quantifier": "every code block", "why_tests_cant": "arbitrary code text, including back-tick fences", "anchors": ["atlas_doc_parser/nodes/node_code_block.py"]}
{"id": "C36", "title": "Headings are single '#' lines of the right level", "statement": "NodeHeading.to_markdown() is two newlines, level times '#', a space, the content and two newlines, and when no child's markdown contains a newline the heading occupies a single line.", "quantifier": "every heading, every integer level", "why_tests_cant": "all contents and levels", "anchors": ["atlas_doc_parser/nodes/node_heading.py"]}
{"id": "C37", "title": "Dates render the UTC calendar day", "statement": "NodeDate.to_markdown() with a timestamp of t milliseconds renders YYYY-MM-DD, the proleptic Gregorian UTC date whose day number is floor(t / 86400000), for every t in years 1..9999, although the division by 1000 and the split into seconds and microseconds are float computations; timestamps of the same UTC day render equally and later days render later dates; other timestamps raise.", "quantifier": "every integer timestamp (string or number)", "why_tests_cant": "calendar arithmetic over 3.6 million days and negative timestamps", "anchors": ["atlas_doc_parser/nodes/node_date.py"]}
{"id": "C38", "title": "Cards render their URL or raise", "statement": "inlineCard/blockCard with a string url render [url](url) (blockCard and embedCard surrounded by newlines); inlineCard/blockCard without a string url raise NotImplementedError.", "quantifier": "every card", "why_tests_cant": "all attr values", "anchors": ["atlas_doc_parser/nodes/node_inline_card.py", "atlas_doc_parser/nodes/node_block_card.py", "atlas_doc_parser/nodes/node_embed_card.py"]}
{"id": "C39", "title": "Inline atoms fall back as documented", "statement": "emoji renders text, else shortName, else raises; mention renders text, else '@Unknown'; status renders `text`; extension renders '[Extension: key] text' for a non-empty string text, else '[Extension: type/key]'; hardBreak and rule render fixed strings.", "quantifier": "every attrs value", "why_tests_cant": "all combinations of present/absent/null/non-string attributes", "anchors": ["atlas_doc_parser/nodes/node_emoji.py", "atlas_doc_parser/nodes/node_mention.py", "atlas_doc_parser/nodes/node_status.py", "atlas_doc_parser/nodes/node_extension.py", "atlas_doc_parser/nodes/node_hard_break.py", "atlas_doc_parser/nodes/node_rule.py"]}
{"id": "C40", "title": "Media renders by type", "statement": "media of type external with a string url renders ![alt](url), of type file ![alt](media:id), with its marks applied, alt defaulting to 'media'; of type link '[media]'; anything else raises TypeError.", "quantifier": "every media node", "why_tests_cant": "all attribute combinations", "anchors": ["atlas_doc_parser/nodes/node_media.py"]}
{"id": "C41", "title": "Nested lists are indented below their parent, whatever their kind", "statement": "A list nested in a list item is indented four spaces deeper than the list that contains it.", "quantifier": "every nesting of bullet and ordered lists", "why_tests_cant": "mixed nestings of arbitrary depth", "anchors": ["atlas_doc_parser/nodes/node_bullet_list.py", "atlas_doc_parser/nodes/node_ordered_list.py"]}
{"id": "C42", "title": "Documents are their blocks in order", "statement": "doc.to_markdown() is strip_double_empty_line of the newline-joined block conversions in order, where bulletList/orderedList/codeBlock blocks are padded with a newline on both sides; converting never depends on anything but the blocks themselves.", "quantifier": "every document", "why_tests_cant": "all block sequences", "anchors": ["atlas_doc_parser/markdown_helpers.py:doc_content_to_markdown", "atlas_doc_parser/nodes/node_doc.py"]}
{"id": "C43", "title": "to_markdown returns a string", "statement": "Whenever to_markdown returns, it returns a str, for every parsed node of every class other than a text node whose text is not a string; omitted content converts like an empty list for every class that goes through content_to_markdown.", "quantifier": "every parsed node", "why_tests_cant": "type confusion appears only for particular malformed inputs", "anchors": ["atlas_doc_parser/nodes/*:to_markdown", "atlas_doc_parser/markdown_helpers.py"]}
{"id": "C44", "title": "The public API re-exports every class exactly once", "statement": "When the package does not lie below a directory called marks, generate_api_py produces the fixed header, then the marks, then the nodes section; a section has one import line for every public name (Base subclass defined in the module, or T_NODE_*/T_MARK_* alias, not starting with an underscore) of every importable mark_*.py / node_*.py file and no other line, each once, from the module that has it, files in order and names in order within a file; so the text does not depend on the order in which the file system lists the files.", "quantifier": "every set of files, modules and members (unique names, no class called T_NODE_* or T_MARK_*, imports that succeed or raise ImportError)", "why_tests_cant": "must hold for modules added later", "anchors": ["atlas_doc_parser/gen_code.py:generate_api_py", "atlas_doc_parser/gen_code.py:scan_module_for_public_apis", "atlas_doc_parser/templates/api.py.jinja"]}
{"id": "C45", "title": "Nesting depth determines indentation", "statement": "In a bullet list nested through list items to depth k, every bullet line of the innermost list starts with exactly 4*k spaces followed by '- ' (or, for a list that is its item's first child, follows its parent's bullet on the same line).", "quantifier": "every depth k", "why_tests_cant": "depth is unbounded", "anchors": ["atlas_doc_parser/nodes/node_bullet_list.py"]}
{"id": "C46", "title": "Table cells survive readers in which an escaped backslash escapes nothing", "statement": "Under the reading in which a pipe is a cell boundary unless preceded by an odd number of backslashes, the markdown of a row of n cells has max(n,1)+1 cell boundaries.", "quantifier": "every row, every cell content", "why_tests_cant": "content may contain any mix of backslashes and pipes", "anchors": ["atlas_doc_parser/nodes/node_table_cell.py", "atlas_doc_parser/nodes/node_table_header.py", "atlas_doc_parser/nodes/node_table_row.py"]}
{"id": "C47", "title": "A table row contains no carriage return", "statement": "The markdown of a table row contains no carriage return, which Markdown readers take for a line ending.", "quantifier": "every row, every cell content", "why_tests_cant": "content may contain any control character", "anchors": ["atlas_doc_parser/nodes/node_table_cell.py", "atlas_doc_parser/nodes/node_table_row.py"]}
{"id": "C48", "title": "The generated API does not depend on where the checkout lies", "statement": "generate_api_py produces the same text whatever directory the package is in.", "quantifier": "every location of the package, every set of modules", "why_tests_cant": "tests run in one checkout; the failure needs a parent directory with a particular name", "anchors": ["atlas_doc_parser/gen_code.py:scan_module_for_public_apis (\"marks\" in module_path.parts)"]}
{"id": "C49", "title": "to_dict neither changes the object nor returns parts of it", "statement": "Calling to_dict() on a node or mark leaves every existing object as it was (also when it raises) and logs nothing; nothing reachable from the returned dict existed before, so later changes to the returned dict cannot be seen in the node, and later changes to the node cannot be seen in the returned dict.", "quantifier": "every object graph (shared or cyclic, any depth), every later sequence of changes", "why_tests_cant": "aliasing shows only when particular sub-objects are mutated later; there are infinitely many object graphs", "anchors": ["atlas_doc_parser/mark_or_node.py:Base.to_dict", "atlas_doc_parser/mark_or_node.py:BaseMark.to_dict", "atlas_doc_parser/mark_or_node.py:BaseNode.to_dict"]}
{"id": "C50", "title": "Lenient conversion is strict conversion of what remains", "statement": "For every parsed tree and every level argument, to_markdown(ignore_error=True) gives exactly (same text or same exception) what to_markdown() gives for the tree from which the following is removed: in documents, quotes, panels, expands, paragraphs, headings, code blocks, cells, list/task/decision items and mediaSingle the children that do not convert; in bullet and numbered lists the children of list items that do not convert (nested lists of the same kind tried one level deeper); in tables the rows that do not convert (a row without first cell keeps its line); in table rows, decision lists and nested task lists, recursively, what lenient conversion of the cell, item or nested list removes, and the item or nested list itself if that still fails.", "quantifier": "every parsed tree of any depth, every level", "why_tests_cant": "there are infinitely many trees and places where a conversion can fail", "anchors": ["atlas_doc_parser/markdown_helpers.py:content_to_markdown", "atlas_doc_parser/markdown_helpers.py:doc_content_to_markdown", "atlas_doc_parser/nodes/*:to_markdown(ignore_error)"]}
{"id": "C51", "title": "The order of keys in the JSON does not matter", "statement": "Rearranging the entries of a node's JSON object, of its attrs, of its marks, or of any of these in a node below it (keys being different) changes neither the parsed object, nor the exception, nor the log, of parse_node, parse_mark and from_dict of every class.", "quantifier": "every JSON value, every permutation at any depth", "why_tests_cant": "there are infinitely many documents and orders; JSON producers may emit any order", "anchors": ["atlas_doc_parser/mark_or_node.py:Base.from_dict", "atlas_doc_parser/mark_or_node.py:BaseNode.from_dict", "atlas_doc_parser/mark_or_node.py:BaseMark.from_dict"]}
{"id": "C52", "title": "The log names what was skipped", "statement": "With WARN_UNIMPLEMENTED_TYPE on, a successful parse whose skipped elements have string types hands the logger exactly one text per skipped element, in document order: \"Node type 'T' is not yet implemented. ...\" or \"Mark type 'T' ...\"; the text determines kind and type, so two documents with the same log skip the same elements; the same text is carried by the UnimplementedTypeError of an unsupported root or mark.", "quantifier": "every JSON document, every type string (with quotes or not)", "why_tests_cant": "the type strings are arbitrary; ambiguity would need particular names", "anchors": ["atlas_doc_parser/exc.py:UnimplementedTypeError", "atlas_doc_parser/mark_or_node.py:BaseNode.from_dict (logger.warning)", "atlas_doc_parser/nodes/parse_node.py", "atlas_doc_parser/marks/parse_mark.py"]}
{"id": "C53", "title": "Markdown depends only on shape, types, texts and a fixed list of attributes and marks", "statement": "Two parsed trees of the same shape, with the same node types and texts, that agree on: orderedList order, taskItem state, emoji text and shortName, date timestamp, mention/status text, heading level, codeBlock language, card url, media type/url/alt/id, extension key/type/text, panel panelType, and, on text, paragraph, media and expand nodes, the sequence of strong, em, strike, code, link (title, href) and indentation (level) marks, have the same Markdown or raise the same exception, strict or lenient, at every level. Ids, colours, widths, layout, version, marks elsewhere never matter. No attribute can be left out of the list.", "quantifier": "every pair of parsed trees of any depth that agree on the listed data", "why_tests_cant": "non-interference compares all pairs of trees; there are infinitely many", "anchors": ["atlas_doc_parser/nodes/*:to_markdown", "atlas_doc_parser/mark_or_node.py:BaseNode.add_style_to_markdown", "atlas_doc_parser/marks/*:to_markdown"]}
{"id": "C54", "title": "Parts with the same Markdown are interchangeable", "statement": "A node may be replaced by a node of the same type and the same Markdown anywhere in a tree, except directly below a bullet, numbered or task list or a table, without changing the Markdown (or exception) of any tree around it, in both modes at every level. In paragraphs, headings, code blocks, cells, items and mediaSingle, runs of children with the same concatenated Markdown are interchangeable: neighbouring text nodes without marks can be merged or split, empty ones left out.", "quantifier": "every tree, every position, every replacement", "why_tests_cant": "quantifies over all contexts a node can occur in", "anchors": ["atlas_doc_parser/markdown_helpers.py:content_to_markdown", "atlas_doc_parser/markdown_helpers.py:doc_content_to_markdown", "atlas_doc_parser/nodes/*:to_markdown"]}
{"id": "C55", "title": "Nesting depth determines the number of quote marks", "statement": "If a parsed tree converts, then every block inside it (through documents, expands, nested expands, block quotes and panels, k of which are quotes or panels) converts, and every non-empty line of the block's own Markdown is a line of the whole with exactly k times '> ' put in front (lines without the exotic line separators of str.splitlines).", "quantifier": "every parsed tree, every nesting depth k, every line", "why_tests_cant": "nesting is unbounded", "anchors": ["atlas_doc_parser/nodes/node_blockquote.py", "atlas_doc_parser/nodes/node_panel.py", "atlas_doc_parser/nodes/node_expand.py", "atlas_doc_parser/nodes/node_nested_expand.py", "atlas_doc_parser/nodes/node_doc.py", "atlas_doc_parser/markdown_helpers.py"]}
{"id": "C56", "title": "Inline code can be read back", "statement": "A Markdown reader (CommonMark rule for code spans) that reads the conversion of a text with a code mark, whatever text follows it, gets exactly the text.", "quantifier": "every text without newline that is not blank, every following text that does not start with a back tick", "why_tests_cant": "texts may contain any arrangement of back ticks", "anchors": ["atlas_doc_parser/marks/mark_code.py:MarkCode.to_markdown"]}
{"id": "C57", "title": "Links can be read back", "statement": "A Markdown reader (CommonMark rule for inline links: balanced brackets and parentheses, no white space in the destination) that reads the conversion of a link, whatever follows it, gets exactly the label and the href.", "quantifier": "every label, every href, every following text", "why_tests_cant": "labels and addresses may contain any brackets", "anchors": ["atlas_doc_parser/marks/mark_link.py:MarkLink.to_markdown"]}
{"id": "C58", "title": "Emphasised text is read as emphasised", "statement": "The delimiters that strong, em and strike put around a text are ones a Markdown reader takes as opening and closing (no white space after the opening, none before the closing delimiter).", "quantifier": "every text that is not blank", "why_tests_cant": "texts may start or end with any white space character", "anchors": ["atlas_doc_parser/marks/mark_strong.py", "atlas_doc_parser/marks/mark_em.py", "atlas_doc_parser/marks/mark_strike.py"]}
{"id": "C59", "title": "Equality of parsed objects is equality of the JSON", "statement": "Equal JSON values (==: key order does not matter, True == 1 == 1.0) parse to equal objects with equal warnings, or raise the same exception; == is an equivalence on parsed nodes; equal nodes have equal to_dict results; and two nodes parsed from JSON with list-valued content and marks are equal if and only if their to_dict results are.", "quantifier": "every pair of JSON values, every node class, both warning modes", "why_tests_cant": "quantifies over pairs of unbounded trees", "anchors": ["atlas_doc_parser/mark_or_node.py:BaseNode", "atlas_doc_parser/mark_or_node.py:BaseMark", "atlas_doc_parser/mark_or_node.py:Base.to_dict", "atlas_doc_parser/nodes/parse_node.py"]}
{"id": "C60", "title": "Equal nodes have equal Markdown", "statement": "If two parsed nodes are equal (==), to_markdown gives the same text or the same exception for both, in both modes.", "quantifier": "every pair of parsed nodes, every level, both modes", "why_tests_cant": "quantifies over pairs of unbounded trees", "anchors": ["atlas_doc_parser/mark_or_node.py:BaseNode", "atlas_doc_parser/nodes/node_ordered_list.py:NodeOrderedList.to_markdown", "atlas_doc_parser/nodes/*:to_markdown"]}
{"id": "C61", "title": "Hashing agrees with equality", "statement": "Equal nodes and marks have equal hashes, or hash() raises TypeError for both; it raises nothing else. A parsed node can be hashed (put in a set, used as a dict key) if and only if none of the values its class knows, inside attrs or outside, is a list or a dict; in particular never if its content is a list.", "quantifier": "every node and mark, every parsed JSON object", "why_tests_cant": "quantifies over all pairs of objects and all JSON objects", "anchors": ["atlas_doc_parser/mark_or_node.py:BaseNode", "atlas_doc_parser/mark_or_node.py:BaseMark", "atlas_doc_parser/mark_or_node.py:Base"]}
{"id": "C62", "title": "Containers are their children, in order", "statement": "A paragraph converts if and only if its children do, to their concatenation with its own marks applied and one newline; list items, task items and single media are the plain concatenation of their children; expand and nestedExpand are their blocks like a document (titles are not shown); media groups, captions and inline media are empty and never fail.", "quantifier": "every container, every list of children", "why_tests_cant": "quantifies over all lists of children", "anchors": ["atlas_doc_parser/nodes/node_paragraph.py", "atlas_doc_parser/nodes/node_list_item.py", "atlas_doc_parser/nodes/node_task_item.py", "atlas_doc_parser/nodes/node_media_single.py", "atlas_doc_parser/nodes/node_expand.py", "atlas_doc_parser/nodes/node_nested_expand.py", "atlas_doc_parser/nodes/node_media_group.py", "atlas_doc_parser/nodes/node_caption.py", "atlas_doc_parser/nodes/node_media_inline.py"]}
{"id": "C63", "title": "Strict conversion fails exactly at a faulty part", "statement": "Strict to_markdown of a parsed node gives a string if and only if none of the parts it converts has a fault of its own, the faults being listed per class: content that is not a list of nodes, a numbered list at level 0 without attrs, a panel without a string panelType, a heading level that is no integer, an undatable timestamp, a card without a url, a media that shows no image, a table row without cells, a mark that cannot be applied (code over a newline, indentation by a non-integer). Otherwise it raises.", "quantifier": "every parsed node, every level it can be converted at", "why_tests_cant": "quantifies over all trees and over every position in them", "anchors": ["atlas_doc_parser/markdown_helpers.py", "atlas_doc_parser/nodes/*:to_markdown", "atlas_doc_parser/marks/*:to_markdown"]}
{"id": "C64", "title": "Round trip is lossless exactly when nothing is unknown", "statement": "For JSON without sentinels or repeated keys that parses with list-valued content and marks, to_dict of the parse is equal (==) to the JSON if and only if every node and mark has a supported type, has only keys its class knows (also in attrs), documents have a version, and every mark lists all the attributes its class knows.", "quantifier": "every JSON value that parses", "why_tests_cant": "quantifies over all JSON trees; an iff over an inductive predicate", "anchors": ["atlas_doc_parser/mark_or_node.py:BaseNode.from_dict", "atlas_doc_parser/mark_or_node.py:Base.to_dict", "atlas_doc_parser/nodes/parse_node.py"]}
{"id": "C65", "title": "Documents that follow the published ADF reference are parsed", "statement": "Every document that follows the published Atlassian Document Format reference is parsed (by parse_node and by NodeDoc.from_dict, with the same result); only the two node types the reference lists without describing them cause warnings; without them nothing is skipped: the object tree has the same nodes, in order, with the same text.", "quantifier": "every document valid by the reference, both warning modes", "why_tests_cant": "the documents valid by the reference are an infinite set defined by another document", "anchors": ["atlas_doc_parser/mark_or_node.py:BaseNode.from_dict", "atlas_doc_parser/nodes/parse_node.py", "atlas_doc_parser/nodes/*", "atlas_doc_parser/marks/*", "scripts/crawl_atlas_doc_reference/Atlassian-Document-Format-Reference.md"]}
{"id": "C66", "title": "Documents of the ADF reference survive a round trip", "statement": "Parsing and then serialising gives back every document that follows the published reference and uses only the fields it describes.", "quantifier": "every such document", "why_tests_cant": "an infinite set of documents defined by another document", "anchors": ["atlas_doc_parser/mark_or_node.py:BaseNode.from_dict", "atlas_doc_parser/mark_or_node.py:BaseNode.to_dict", "atlas_doc_parser/mark_or_node.py:BaseMark.to_dict", "atlas_doc_parser/nodes/node_expand.py", "atlas_doc_parser/marks/mark_link.py"]}
{"id": "C67", "title": "Documents of the ADF reference convert to Markdown", "statement": "Every document that follows the published reference converts to Markdown without an exception; with ignore_error=True too, to at least the blocks that convert by themselves.", "quantifier": "every document valid by the reference", "why_tests_cant": "an infinite set of documents defined by another document", "anchors": ["atlas_doc_parser/markdown_helpers.py", "atlas_doc_parser/nodes/*:to_markdown", "atlas_doc_parser/marks/*:to_markdown"]}
{"id": "C68", "title": "Documents can be stored as JSON text", "statement": "A document read from JSON text can be written with json.dumps(node.to_dict()), with any indentation, and the text read back with json.loads gives the same data and parses to the same document again; text cut off before its end is never read as a document.", "quantifier": "every JSON text, every document in it, every indentation, every cut", "why_tests_cant": "quantifies over all texts and all documents; the text passes through the json encoder and decoder", "anchors": ["atlas_doc_parser/mark_or_node.py:BaseNode.from_dict", "atlas_doc_parser/mark_or_node.py:BaseNode.to_dict", "atlas_doc_parser/mark_or_node.py:BaseMark.to_dict", "atlas_doc_parser/nodes/parse_node.py"]}
{"id": "C69", "title": "The file cache returns only data from the server", "statement": "In every history of any number of processes using PageSample.adf or AdfJsonSchema.data, with crashes, failing requests and writes and deletions of the file at any moment, every value the property returns is one the server answered before.", "quantifier": "every interleaving of the system calls of any number of processes, every crash point, every sequence of answers", "why_tests_cant": "quantifies over schedules, crash points and histories", "anchors": ["atlas_doc_parser/tests/data/samples.py:PageSample.adf", "atlas_doc_parser/tests/data/samples.py:PageSample.adf_no_cache", "atlas_doc_parser/tests/data/schema.py:AdfJsonSchema.data"]}
{"id": "C70", "title": "An interrupted download does not break the cache", "statement": "Whatever happened before (processes killed while writing the cache file, failed writes), a later access obtains the data, without the file having to be deleted by hand.", "quantifier": "every history, every crash point", "why_tests_cant": "quantifies over histories and crash points", "anchors": ["atlas_doc_parser/tests/data/samples.py:PageSample.adf", "atlas_doc_parser/tests/data/schema.py:AdfJsonSchema.data"]}
{"id": "C71", "title": "The server is asked once", "statement": "As soon as the data is completely in the cache file and no process is in the middle of obtaining it, every access by every process returns it without asking the server, without raising and without changing the file, until the file is deleted. One process asks the server for a page sample at most once, however often reading or writing the file fails.", "quantifier": "every continuation of every such state, every history", "why_tests_cant": "quantifies over schedules and histories", "anchors": ["atlas_doc_parser/tests/data/samples.py:PageSample.adf", "atlas_doc_parser/tests/data/samples.py:PageSample.adf_no_cache", "atlas_doc_parser/tests/data/schema.py:AdfJsonSchema.data"]}
{"id": "C72", "title": "Regenerating api.py survives crashes and concurrent runs", "statement": "Whatever was in api.py and whichever other runs of the code generator are active, killed or failing: once the run that opened api.py last has returned, api.py is exactly what is generated, until it is opened again. Before it is opened it is unchanged; a generator that fails never opens it. After a crash one more run repairs the file.", "quantifier": "every interleaving of the system calls of any number of runs, every crash point, every earlier content", "why_tests_cant": "quantifies over schedules, crash points and histories", "anchors": ["atlas_doc_parser/gen_code.py:main", "scripts/s02-gen-code/s01_gen_code.py"]}
{"id": "C73", "title": "The implementation order puts dependencies first and is reproducible", "statement": "topological_sort ends for every dependency graph, with cycles, unknown dependencies and self-dependencies too; it lists every entry exactly once; an entry that is not on or behind a cycle comes after everything it needs; the rest comes last, alphabetically; the result does not depend on the order in which the dict was filled or in which sets are iterated (Python randomises it per run).", "quantifier": "every graph, every iteration order of its sets", "why_tests_cant": "quantifies over all graphs and over the hash seed of the interpreter", "anchors": ["scripts/s01-adf-json-schema-analysis/s2_analyze_adf_json_schema.py:topological_sort"]}
{"id": "C74", "title": "The schema analysis finds exactly the references of the schema", "statement": "extract_refs collects exactly the definitions referred to at any depth; for every schema the analysis lists each node base type (variants b_with_.._node count as b) exactly once, and, if it is not on or behind a cycle of references, after every base type that any of its definitions refers to; the same list in every run. It fails (AttributeError) exactly if a node definition contains a $ref that is not a string.", "quantifier": "every JSON schema, every iteration order of sets", "why_tests_cant": "quantifies over all schemas, at any depth, and over the hash seed", "anchors": ["scripts/s01-adf-json-schema-analysis/s2_analyze_adf_json_schema.py:extract_refs", "scripts/s01-adf-json-schema-analysis/s2_analyze_adf_json_schema.py:get_base_type", "scripts/s01-adf-json-schema-analysis/s2_analyze_adf_json_schema.py:main"]}
{"id": "C75", "title": "Generated names are systematic and distinct", "statement": "The module of a definition is its type name in snake case behind mark_ / node_, the class the type name in Pascal case behind Mark / Node (bulletList_node: node_bullet_list, NodeBulletList); different definitions get different modules and classes.", "quantifier": "every schema, every pair of definition names", "why_tests_cant": "quantifies over all names; the code uses two regular expressions", "anchors": ["scripts/s02-nodes-code-gen/s1_gen_code.py:camel_to_snake", "scripts/s02-nodes-code-gen/s1_gen_code.py:snake_to_pascal", "scripts/s02-nodes-code-gen/s1_gen_code.py:def_name_to_names"]}
{"id": "C76", "title": "Generated modules declare exactly what the schema declares", "statement": "For every definition the generated module is, line by line, determined by the schema: a class of attributes exactly if the definition (or an element of its allOf) declares attrs, with exactly the declared attributes as fields, each with the type of the schema, required ones without and optional ones with default OPT, required ones first, alphabetically; content, marks, text, version of a node exactly if declared; the type string is the first value the schema allows for type.", "quantifier": "every schema, every definition", "why_tests_cant": "quantifies over all JSON schemas", "anchors": ["scripts/s02-nodes-code-gen/s1_gen_code.py:extract_schema_info", "scripts/s02-nodes-code-gen/s1_gen_code.py:generate_mark_file", "scripts/s02-nodes-code-gen/s1_gen_code.py:generate_node_file", "scripts/s02-nodes-code-gen/s1_gen_code.py:json_type_to_python_type", "scripts/s02-nodes-code-gen/templates"]}
{"id": "C77", "title": "Generating nodes is reproducible", "statement": "What is generated for a definition depends on this definition only, not on the order of the schema, not on other definitions, and not on what was generated before although the loaded schema is modified in place; exactly the definitions x_mark / x_node that are not variants are generated, alphabetically, marks first, then parse.py, then mixin stubs; a run raises exactly if a definition cannot be generated, and has then written only modules.", "quantifier": "every schema, every order of it, every number of repetitions in one process", "why_tests_cant": "quantifies over all schemas and permutations of them", "anchors": ["scripts/s02-nodes-code-gen/s1_gen_code.py:main", "scripts/s02-nodes-code-gen/s1_gen_code.py:get_mark_definitions", "scripts/s02-nodes-code-gen/s1_gen_code.py:get_node_definitions", "scripts/s02-nodes-code-gen/s1_gen_code.py:extract_schema_info"]}
{"id": "C78", "title": "The generated registry finds every generated class", "statement": "parse.py imports every generated class, and its registries map the type string of each generated definition to its class.", "quantifier": "every schema", "why_tests_cant": "quantifies over all schemas", "anchors": ["scripts/s02-nodes-code-gen/s1_gen_code.py:generate_parse_file", "scripts/s02-nodes-code-gen/templates/parse.py.jinja2"]}
{"id": "C79", "title": "Hand-written mixins are never overwritten by the generator", "statement": "What somebody writes into a file in mixins stays there until somebody edits it again, whoever runs the generator, concurrently, killed or failing at any moment; files that belong to no definition (nodes/base.py) are never touched.", "quantifier": "every interleaving of the system calls of any number of runs and of edits, every crash point", "why_tests_cant": "quantifies over schedules, crash points and histories", "anchors": ["scripts/s02-nodes-code-gen/s1_gen_code.py:main", "scripts/s02-nodes-code-gen/s1_gen_code.py:generate_mixin_stub"]}
{"id": "C80", "title": "A complete run of the node generator leaves everything as generated", "statement": "After a run that returned and that nobody disturbed, whatever happened before (killed or failing runs, edits), every module is the generated text and every definition has a mixin, the stub unless somebody has written one; such a run is possible after every history; a second one changes nothing.", "quantifier": "every history before the run, every crash point in it", "why_tests_cant": "quantifies over histories and crash points", "anchors": ["scripts/s02-nodes-code-gen/s1_gen_code.py:main", "scripts/s02-nodes-code-gen/s1_gen_code.py:generate_mixin_stub"]}
{"id": "C81", "title": "JSON text is read as what it denotes", "statement": "json.loads accepts exactly the texts of the JSON grammar (RFC 8259, plus the words NaN, Infinity and -Infinity, with white space around them) and returns the value the text denotes: strings with every escape resolved, surrogate pairs included; integers exactly; lists in order; objects as dicts in which a repeated name keeps its first place and takes its last value.", "quantifier": "every text and every value", "why_tests_cant": "the texts are infinitely many, and what must be refused can only be covered by a statement about all of them", "anchors": ["atlas_doc_parser/tests/data/samples.py:75-89", "atlas_doc_parser/tests/data/schema.py:24-29"]}
{"id": "C82", "title": "Blocks of a document are separated", "statement": "No two blocks of a document share a paragraph of the Markdown: the groups of lines of doc.to_markdown() between blank lines are exactly those of the blocks' own Markdown, in order, whatever follows what.", "quantifier": "every parsed document and every pair of consecutive blocks", "why_tests_cant": "quantifies over all sequences of blocks with all texts", "anchors": ["atlas_doc_parser/markdown_helpers.py:doc_content_to_markdown", "atlas_doc_parser/nodes/node_doc.py:NodeDoc.to_markdown", "atlas_doc_parser/nodes/node_table.py", "atlas_doc_parser/nodes/node_task_list.py"]}
{"id": "C83", "title": "A Markdown reader finds the blocks of the document", "statement": "Read by the CommonMark rules for blocks, the Markdown of a parsed document has exactly one reading: its own blocks in order, each heading with its level, each list with its items, numbers and nesting, each code block verbatim, each quote and panel with its inner blocks, and each paragraph as a paragraph.", "quantifier": "every parsed document", "why_tests_cant": "quantifies over all documents, with all nestings and all texts, and over all readings of a text", "anchors": ["atlas_doc_parser/markdown_helpers.py:doc_content_to_markdown", "atlas_doc_parser/markdown_helpers.py:content_to_markdown", "atlas_doc_parser/nodes/node_bullet_list.py", "atlas_doc_parser/nodes/node_ordered_list.py", "atlas_doc_parser/nodes/node_task_list.py", "atlas_doc_parser/nodes/node_code_block.py", "atlas_doc_parser/nodes/node_blockquote.py", "atlas_doc_parser/nodes/node_panel.py"]}
{"id": "C84", "title": "A Markdown reader finds the inline content", "statement": "Read by the CommonMark rules for inline content (with GFM strikethrough), the Markdown of a paragraph or heading gives exactly the characters its inline nodes show, in order, each with the style of its marks: strong, emphasized, struck through, code, linked to the given address; hard breaks are line breaks, mentions, emojis and dates plain text, statuses code, cards links.", "quantifier": "every parsed paragraph and heading: all texts, all combinations and orders of marks, all neighbours", "why_tests_cant": "quantifies over all texts, marks and sequences of inline nodes; what disturbs a delimiter is in the neighbouring node", "anchors": ["atlas_doc_parser/nodes/node_text.py:NodeText.to_markdown", "atlas_doc_parser/markdown_helpers.py:add_style_to_markdown", "atlas_doc_parser/markdown_helpers.py:content_to_markdown", "atlas_doc_parser/marks/mark_strong.py", "atlas_doc_parser/marks/mark_code.py", "atlas_doc_parser/marks/mark_link.py", "atlas_doc_parser/nodes/node_hard_break.py"]}
{"id": "C85", "title": "A Markdown reader finds what the editor shows", "statement": "Read by the CommonMark and GFM rules, blocks and inline content together, the Markdown of a parsed document gives exactly what the editor shows: the same blocks with the same nesting (headings with their level, numbered lists with their first number, tasks with their check boxes, tables with their cells and the paragraphs in them, code verbatim, quotes, panels with their name, cards as links, images with their address, alternative text and link), and in every block the same characters, in order, with the same style.", "quantifier": "every parsed document, and every reading of its Markdown", "why_tests_cant": "quantifies over all documents, with all nestings, texts and marks, and over all readings of a text", "anchors": ["atlas_doc_parser/markdown_helpers.py:doc_content_to_markdown", "atlas_doc_parser/markdown_helpers.py:add_style_to_markdown", "atlas_doc_parser/nodes/node_doc.py:NodeDoc.to_markdown", "atlas_doc_parser/nodes/node_text.py:NodeText.to_markdown", "atlas_doc_parser/nodes/node_table.py", "atlas_doc_parser/nodes/node_table_cell.py", "atlas_doc_parser/nodes/node_ordered_list.py", "atlas_doc_parser/nodes/node_task_list.py"]}
{"id": "C86", "title": "An interrupted conversion gives no damaged text", "statement": "If calls of to_markdown inside a conversion raise (the stack is full, no memory), strict conversion either raises that exception or returns exactly the undisturbed text. With ignore_error=True it raises, or returns exactly the text of the tree with some whole nodes taken out; for documents, quotes, panels, expands and the inline containers these are exactly the children whose conversion did not get through. If no conversion inside the tree is interrupted, in particular if there is room for its depth, nothing changes.", "quantifier": "every node, every exception, every set of places at which it is raised, every level argument, both modes", "why_tests_cant": "quantifies over all trees and over all crash points of the recursion; which call fails depends on the interpreter's stack", "anchors": ["atlas_doc_parser/markdown_helpers.py:content_to_markdown", "atlas_doc_parser/markdown_helpers.py:doc_content_to_markdown", "atlas_doc_parser/nodes/node_bullet_list.py", "atlas_doc_parser/nodes/node_task_list.py", "atlas_doc_parser/nodes/node_decision_list.py", "atlas_doc_parser/nodes/node_table.py"]}
{"id": "C87", "title": "ignore_error does not hide a full stack", "statement": "ignore_error=True skips nodes that have something wrong with them; that the interpreter ran out of stack (RecursionError) inside a node that has nothing wrong with it is reported, not taken as a fault of the node.", "quantifier": "every parsed document, every depth of nesting, every stack limit", "why_tests_cant": "quantifies over all depths and stack limits", "anchors": ["atlas_doc_parser/markdown_helpers.py:doc_content_to_markdown", "atlas_doc_parser/markdown_helpers.py:content_to_markdown", "atlas_doc_parser/nodes/node_doc.py:NodeDoc.to_markdown"]}
{"id": "C88", "title": "Interrupted parsing is all or nothing", "statement": "If a call of parse_node or parse_mark inside parse_node / from_dict raises anything but UnimplementedTypeError (the stack is full, no memory), the whole parse raises that exception, after logging a beginning of the warnings it would have logged; otherwise the result and the warnings are the undisturbed ones. A tree with missing parts is never returned.", "quantifier": "every JSON value, every class, every exception other than UnimplementedTypeError, every set of places (nodes and marks) at which it is raised, both warning settings", "why_tests_cant": "quantifies over all trees and over all crash points of the recursion", "anchors": ["atlas_doc_parser/mark_or_node.py:BaseNode.from_dict", "atlas_doc_parser/nodes/parse_node.py:parse_node", "atlas_doc_parser/marks/parse_mark.py:parse_mark"]}
{"id": "C89", "title": "The warning setting may change during a parse", "statement": "settings.WARN_UNIMPLEMENTED_TYPE may be changed at any moment of a parse (by another thread, by a log handler): the result of the parse is the same, and exactly those of the warnings are logged for which it was True when their part was skipped.", "quantifier": "every JSON value, every class, every history of values of the setting", "why_tests_cant": "quantifies over all interleavings of a parse with changes of the setting", "anchors": ["atlas_doc_parser/settings.py:WARN_UNIMPLEMENTED_TYPE", "atlas_doc_parser/mark_or_node.py:BaseNode.from_dict"]}
{"id": "C90", "title": "From JSON text to Markdown, only the document matters", "statement": "NodeDoc.from_dict(json.loads(text)).to_markdown(..) depends only on the document the text denotes: texts that differ in white space, escapes, order of keys or in keys the format does not know give the same warnings and the same Markdown or exception; text that is no JSON is refused before anything is logged; and if the document is stored again (json.dumps of to_dict, any indent) and its content/marks were lists, the stored text gives the same Markdown or exception, with no warnings.", "quantifier": "every text, every document, both modes, both warning settings, every indent", "why_tests_cant": "quantifies over all texts and documents", "anchors": ["atlas_doc_parser/mark_or_node.py:Base.from_dict", "atlas_doc_parser/mark_or_node.py:Base.to_dict", "atlas_doc_parser/nodes/node_doc.py:NodeDoc.to_markdown", "README.rst"]}
{"id": "C91", "title": "The report of the schema analysis says what the schema says", "statement": "For every schema (type enums lists of strings, $refs strings) the analysis script writes a report whose numbers are the numbers of definitions, node and mark definitions, others and type values; whose lists are, alphabetically, exactly the type values found at any depth and exactly the mark types; whose implementation order lists every base type once, with exactly what its definitions refer to; and whose phases are such that whoever follows them has, at every node that is not on or behind a cycle, everything it needs. It is the same text in every run and for every order of the definitions.", "quantifier": "every schema, every iteration order of Python's sets", "why_tests_cant": "quantifies over all schemas and over the per-process random iteration order of sets", "anchors": ["scripts/s01-adf-json-schema-analysis/s2_analyze_adf_json_schema.py:main", "scripts/s01-adf-json-schema-analysis/s2_analyze_adf_json_schema.py:extract_type_enums"]}
{"id": "C92", "title": "Phase 3 of the report lists the nodes with no node dependencies", "statement": "The list under 'Phase 3: Leaf Nodes - Nodes with no node dependencies' contains exactly the base types whose definitions refer to no other node.", "quantifier": "every schema", "why_tests_cant": "quantifies over all schemas", "anchors": ["scripts/s01-adf-json-schema-analysis/s2_analyze_adf_json_schema.py:main"]}
{"id": "C93", "title": "A passing check_seder means the node survives storing", "statement": "tests.helper.check_seder(inst) passes exactly if inst.from_dict(inst.to_dict()) == inst, so nothing is concluded from its second comparison, which cannot fail; it passes for None, for every mark read from JSON, and for a node read from JSON exactly if every content and marks in it was a list.", "quantifier": "every node object, every JSON value, every class, both warning settings", "why_tests_cant": "the helper is itself the test: whether it raises false alarms or lets faults pass is a statement about all inputs", "anchors": ["atlas_doc_parser/tests/helper.py:check_seder", "atlas_doc_parser/mark_or_node.py:Base.to_dict", "atlas_doc_parser/mark_or_node.py:Base.from_dict"]}
{"id": "C94", "title": "check_markdown compares the Markdown with what the test shows", "statement": "tests.helper.check_markdown(node, expected) passes exactly if the Markdown of the node and the expected text without its common indentation are the same up to white space at both ends. How far the text is indented in the source of the test, and what its empty lines contain, does not matter; and every Markdown can be expected by writing it down.", "quantifier": "every node, every expected text, every indentation", "why_tests_cant": "the helper is itself the test: whether it accepts the right texts is a statement about all texts", "anchors": ["atlas_doc_parser/tests/helper.py:check_markdown"]}
{"id": "C95", "title": "A complete download leaves exactly the requested pages", "statement": "For every list of page ids, whatever was in the directory before: when main(ids) of the download script has returned, every page was asked for once per occurrence, in order, and the directory contains exactly one file title.json per title, with the body the server answered last for this title as indented JSON (read back it is the same data, where the locale is UTF-8), and nothing else. A complete run is possible from every directory. Killed or failing at any moment, the directory holds a part of what was there before, or the pages answered so far and at most a beginning of the last one. Titles are without '/'; a page titled 'a/b' ends the run with an error.", "quantifier": "every list of ids, every previous content of the directory, every answer of the server, every failing call and every moment of a crash", "why_tests_cant": "quantifies over all crash points, directory contents and answers of a server", "anchors": ["scripts/s02-download-unit-test-data/step1_download.py:main", "scripts/s02-download-unit-test-data/step1_download.py:get_page_by_id"]}
{"id": "C96", "title": "A download writes only below its own directory", "statement": "Whatever the pages are called, main of the download script changes nothing outside the directory tmp.", "quantifier": "every list of ids, every answer of the server, every file system, every moment of the run", "why_tests_cant": "quantifies over all titles a server can answer", "anchors": ["scripts/s02-download-unit-test-data/step1_download.py:main"]}
{"id": "C97", "title": "The Markdown is at most quadratic in the size of the document", "statement": "There is a constant C such that every document of size N whose conversion succeeds becomes a Markdown text of at most C*N^2 characters; the size counts the nodes, the marks, and the characters str() shows of texts and attributes. No nesting of lists, tables, quotes or tasks in one another makes the text explode.", "quantifier": "every document of any shape and depth, well-formed or not, both error settings", "why_tests_cant": "quantifies over documents of every size and depth; every test document is small", "anchors": ["atlas_doc_parser/markdown_helpers.py", "atlas_doc_parser/nodes/node_heading.py:NodeHeading.to_markdown", "atlas_doc_parser/marks/mark_indentation.py:MarkIndentation.to_markdown", "atlas_doc_parser/nodes/node_table_cell.py:NodeTableCell.to_markdown", "atlas_doc_parser/nodes/node_bullet_list.py:NodeBulletList.to_markdown"]}
{"id": "C98", "title": "Parsing and serialising create a number of objects proportional to the document", "statement": "There is a constant C such that parse_node, parse_mark and every from_dict create at most C objects per list and dict of the JSON data, and to_dict at most C objects per object of the node, however the data is nested and whichever parts of it are shared, whether the call returns or raises.", "quantifier": "every JSON value with any sharing of its parts, every node tree, every recursion limit, every heap before the call", "why_tests_cant": "quantifies over documents of every size and depth; the cost of copying at each level only shows in deep documents", "anchors": ["atlas_doc_parser/mark_or_node.py:BaseNode.from_dict", "atlas_doc_parser/mark_or_node.py:BaseNode.to_dict", "atlas_doc_parser/mark_or_node.py:BaseMark.from_dict"]}
{"id": "C99", "title": "to_kwargs gives the arguments that build the object again", "statement": "For every attrs object, mark and node x obtained from JSON data, x.to_kwargs() returns a dict of keyword arguments accepted by the class, and type(x)(**x.to_kwargs()) == x.", "quantifier": "every node, mark and attrs class, every JSON object", "why_tests_cant": "quantifies over all documents and all classes; constructing an object does not convert its arguments, which only shows for objects with parts", "anchors": ["atlas_doc_parser/mark_or_node.py:Base.to_kwargs", "atlas_doc_parser/mark_or_node.py:BaseMark.to_dict", "atlas_doc_parser/mark_or_node.py:BaseNode.to_dict"]}
{"id": "C100", "title": "The crawler takes the main part of a page", "statement": "For every HTML tree, extract_the_main_div returns the first div in document order one of whose children is an h1, and raises exactly when there is none.", "quantifier": "every HTML tree of any size and depth", "why_tests_cant": "quantifies over all trees; the two nested loops with a flag can stop too early or too late", "anchors": ["scripts/crawl_atlas_doc_reference/step1_crawl_document.py:extract_the_main_div"]}
{"id": "C101", "title": "The crawler asks for every page once", "statement": "Over any number of runs of the crawler, each ending in any way at any moment: the server is asked again for an address it has answered only if the run that got the answer was interrupted at that very moment, before storing it; and get_html_by_url_with_cache gives the same text for an address every time, the one the server answered or the one in the cache at first.", "quantifier": "every sequence of runs, every crash point and failing call, every answer of the server at any time, every cache at first", "why_tests_cant": "quantifies over all histories of runs and crashes", "anchors": ["scripts/crawl_atlas_doc_reference/step1_crawl_document.py:get_html_by_url_with_cache", "scripts/crawl_atlas_doc_reference/step1_crawl_document.py:main"]}
{"id": "C102", "title": "A complete crawl saves every page of the navigation and can be repeated without the network", "statement": "When the crawler has returned, after whatever earlier runs, tmp holds exactly the main part of the first page and of every page linked in its navigation, each under the text of its link (of links with the same text the last); later runs do not ask the server, however they end, and each one that returns leaves the same files. (Link texts without '/'.)", "quantifier": "every sequence of runs with crashes and failures, every site, every cache at first", "why_tests_cant": "quantifies over all histories and all sites", "anchors": ["scripts/crawl_atlas_doc_reference/step1_crawl_document.py:main", "scripts/crawl_atlas_doc_reference/step1_crawl_document.py:write_webpage"]}
{"id": "C103", "title": "Each node is converted at most once, in the order of the document", "statement": "During a call of to_markdown, strict or lenient, to_markdown is called at most once for each node of the tree, in document order and for no other object; a strict call that succeeds calls it for exactly the nodes the rules of the classes name (a list does not call its list items but their children, a task list its items' children, text-less classes call nothing, all others call every child); a strict call that fails has made the first of those calls and no other; a lenient call tries every child of a node of a joining class, whatever children fail. (So the number of conversions is linear in the document, at any nesting.)", "quantifier": "every tree of nodes, every level argument, strict and lenient", "why_tests_cant": "quantifies over all trees; converting a child twice, or going on after a failure, shows neither in the text nor in small tests", "anchors": ["atlas_doc_parser/markdown_helpers.py:content_to_markdown", "atlas_doc_parser/markdown_helpers.py:doc_content_to_markdown", "atlas_doc_parser/nodes/node_bullet_list.py:NodeBulletList.to_markdown", "atlas_doc_parser/nodes/node_ordered_list.py:NodeOrderedList.to_markdown", "atlas_doc_parser/nodes/node_task_list.py:NodeTaskList.to_markdown", "atlas_doc_parser/nodes/node_decision_list.py:NodeDecisionList.to_markdown", "atlas_doc_parser/nodes/node_table.py:NodeTable.to_markdown", "atlas_doc_parser/nodes/node_table_row.py:NodeTableRow.to_markdown"]}
{"id": "C104", "title": "What can be parsed can be converted on the same stack", "statement": "Counting the frames of the functions that call themselves (parse_node, parse_mark, from_dict, copy.deepcopy; to_markdown, content_to_markdown, doc_content_to_markdown): parsing a document needs exactly two frames more than one copy.deepcopy of its JSON, hence at most two per level of lists and dicts and two; converting the result, strict or lenient, needs at most two per level of nodes and less than half of what parsing needed. So a document that was parsed without RecursionError is converted without one, and ignore_error=True has none to hide. (Helpers that need a constant number of frames are not counted.)", "quantifier": "every JSON document, of any depth, every node parsed from it, strict and lenient", "why_tests_cant": "quantifies over all depths; a function that needs one frame more per level fails only on documents deeper than any test's", "anchors": ["atlas_doc_parser/mark_or_node.py:BaseNode.from_dict", "atlas_doc_parser/nodes/parse_node.py:parse_node", "atlas_doc_parser/marks/parse_mark.py:parse_mark", "atlas_doc_parser/markdown_helpers.py:content_to_markdown", "atlas_doc_parser/markdown_helpers.py:doc_content_to_markdown"]}
{"id": "C105", "title": "Converting changes nothing", "statement": "x.to_markdown(...), strict or lenient, with any level, on any object (with parts shared between places, built by hand, even cyclic): whether it returns, raises, swallows errors of children or runs into the recursion limit, every object that existed before the call (the node, its content lists, attrs, marks, the caller's other data) is exactly as it was, and nothing is logged. What is returned is the string that the value semantics of to_markdown gives, so converting again gives it again; only a text node whose text is no string can return an object, its own text.", "quantifier": "every heap of objects with any sharing and cycles, every recursion limit, every level and both modes", "why_tests_cant": "quantifies over all object graphs and all moments of failure; a list filled in place that is not the call's own shows only on the second call", "anchors": ["atlas_doc_parser/markdown_helpers.py:content_to_markdown", "atlas_doc_parser/markdown_helpers.py:doc_content_to_markdown", "atlas_doc_parser/markdown_helpers.py:add_style_to_markdown", "atlas_doc_parser/nodes/node_table.py:NodeTable.to_markdown", "atlas_doc_parser/nodes/node_bullet_list.py:NodeBulletList.to_markdown", "atlas_doc_parser/nodes/node_text.py:NodeText.to_markdown"]}
{"id": "C106", "title": "A parsed document stays what it is through any history", "statement": "After parse_node(d) returned a node, the program may change d and anything else it has, use the library on anything in any order with calls failing at any point, and change what to_dict returned: as long as it does not itself write to the objects that the call of parse_node created, to_markdown and to_dict of the node give at any later time what they would have given at once. Library calls alone never change an object that existed. Parsing has no memory: equal JSON gives equal nodes and the same warnings in any two states.", "quantifier": "every history of library calls (with any outcome) and of changes by the program, every JSON document", "why_tests_cant": "quantifies over all histories of calls and writes", "anchors": ["atlas_doc_parser/nodes/parse_node.py:parse_node", "atlas_doc_parser/mark_or_node.py:BaseNode.from_dict", "atlas_doc_parser/mark_or_node.py:BaseNode.to_dict", "atlas_doc_parser/mark_or_node.py:BaseNode.to_markdown", "atlas_doc_parser/markdown_helpers.py:content_to_markdown"]}
{"id": "C107", "title": "Threads can convert at the same time", "statement": "Any number of threads call to_markdown at any time, on the same document, on documents that share parts or on different ones, and take turns after any single operation on an object, while other code does anything that leaves the documents being converted alone, and any call may be broken off before any of its operations (KeyboardInterrupt, the end of a thread). Then every call that returns or raises does so with exactly the string or exception it would have given alone; every call ends after finitely many steps of its own; no step changes an object other than those its own call has created; so no locking is needed for conversions, and if nothing else runs no object that existed changes even for a moment.", "quantifier": "every number of threads, every interleaving of their single steps, every heap of objects, every recursion limit, level and mode", "why_tests_cant": "quantifies over all schedules; a buffer shared between calls fails only if a thread switch falls between two particular operations", "anchors": ["atlas_doc_parser/mark_or_node.py:BaseNode.to_markdown", "atlas_doc_parser/markdown_helpers.py:content_to_markdown", "atlas_doc_parser/markdown_helpers.py:doc_content_to_markdown", "atlas_doc_parser/nodes/node_table.py:NodeTable.to_markdown", "atlas_doc_parser/nodes/node_bullet_list.py:NodeBulletList.to_markdown"]}
{"id": "C108", "title": "Threads can parse, serialise and convert at the same time", "statement": "Any number of threads call parse_node, parse_mark, NodeXxx/MarkXxx.from_dict, to_dict and to_markdown at any time, on the same data, on data that shares parts or on different data, and take turns after any single operation on an object, while other code does anything that leaves the arguments of running calls alone, and any call may be broken off before any of its operations. Then every call that returns gives what the same call gives alone - the same tree of objects, shared in the same way - or raises the same exception, and logs the same warnings in the same order; its argument is what it was; a parsed node and a serialised dict consist of objects which their own call has created, so results of different calls never share an object, not even when both threads parse the same dict; parsing a JSON value gives the node or exception, and to_dict the JSON, which the value semantics says, which knows of no threads.", "quantifier": "every number of threads, every mix of calls, every interleaving of their single steps, every heap of objects, every recursion limit", "why_tests_cant": "quantifies over all schedules; a cache or a copy shared between calls fails only if a thread switch falls between two particular operations", "anchors": ["atlas_doc_parser/nodes/parse_node.py:parse_node", "atlas_doc_parser/marks/parse_mark.py:parse_mark", "atlas_doc_parser/mark_or_node.py:BaseNode.from_dict", "atlas_doc_parser/mark_or_node.py:BaseMark.from_dict", "atlas_doc_parser/mark_or_node.py:BaseNode.to_dict", "atlas_doc_parser/mark_or_node.py:BaseMark.to_dict", "atlas_doc_parser/mark_or_node.py:BaseNode.to_markdown"]}
{"id": "C109", "title": "The first calls of a process may come from several threads", "statement": "from_dict asks cls.get_fields(), which fills the module-level cache of class fields. Let any number of threads parse, serialise and convert from the first moment of the process, with an empty cache, while other code calls get_fields of any class, let a thread switch fall between any two operations on objects and on the cache, and let any call be broken off there, also within get_fields: every history is, but for the cache, a history of threads that have the fields at hand - the same objects created, the same children skipped, the same results. So each call returns and raises what it does alone, never a KeyError of the cache; the cache only ever holds the fields of the class they are stored for; and every call ends after finitely many steps of its own.", "quantifier": "every number of threads, every mix of calls, every interleaving of their single steps on objects and on the cache, every order of first uses of the classes", "why_tests_cant": "quantifies over all schedules; a cache that is visible before it is filled fails only if a switch falls between two particular operations at the first use of a class", "anchors": ["atlas_doc_parser/mark_or_node.py:Base.get_fields", "atlas_doc_parser/mark_or_node.py:Base.from_dict", "atlas_doc_parser/mark_or_node.py:BaseMark.from_dict", "atlas_doc_parser/mark_or_node.py:BaseNode.from_dict", "atlas_doc_parser/nodes/parse_node.py:parse_node", "atlas_doc_parser/marks/parse_mark.py:parse_mark"]}
{"id": "C110", "title": "The warning setting may change at any time", "statement": "When from_dict skips a child whose type is not implemented it reads settings.WARN_UNIMPLEMENTED_TYPE and logs if that is on. Let anybody change the setting at any time, between any two steps of any number of threads that parse, serialise and convert. Then what a call returns or raises and what it does to objects is the same as if the setting had always been on, or always off; it logs exactly the children for which the setting was on when it was read for this child, in the order of the document, none twice; the children it skips are all that it would have warned about with the setting always on; and if nobody changes the setting it logs all of them, or none.", "quantifier": "every history of changes of the setting, every number of threads, every interleaving, every document", "why_tests_cant": "quantifies over all moments at which the setting changes", "anchors": ["atlas_doc_parser/settings.py", "atlas_doc_parser/mark_or_node.py:BaseNode.from_dict", "atlas_doc_parser/nodes/parse_node.py:parse_node"]}
{"id": "C111", "title": "Objects that contain themselves are refused, shared objects are not", "statement": "JSON text cannot contain itself, but the dicts and nodes of a program can: a node appended to the content list of one of its descendants, a dict put into its own content list. to_dict of a node, mark or attrs object from which an object can be reached that contains itself raises RecursionError, whatever the recursion limit - it neither returns a truncated dict nor leaves out the part that repeats; and, with a recursion limit no smaller than the number of objects, it raises RecursionError only then: sharing (one mark in two texts, one node in two lists, to any depth) is no reason. parse_node and NodeXxx.from_dict of a dict that is its own descendant through content lists of supported nodes, or that has such a descendant, never return a node, whatever the recursion limit, and the exception is not one that the parsing of a surrounding node skips, so that no document is returned that lacks it. to_markdown with ignore_error=False of a node that would have to be converted in order to convert itself, or that would have to convert such a node, never returns a text, whatever the recursion limit and the level. Sharing alone is no reason for any of them to fail: lists and dicts of which none contains itself are a JSON value, nested no deeper than there are objects, so that everything said of JSON values is true of them, and with a recursion limit larger than the number of objects neither parse_node, parse_mark, from_dict nor to_markdown of nodes of which none contains itself raises RecursionError; and what parsing returns does not contain itself, so that it can be serialised and converted.", "quantifier": "every heap of objects with every kind of sharing and cycles, every recursion limit, every position of the cycle", "why_tests_cant": "quantifies over all graphs of objects and all recursion limits; a test can try only some cycles at some depth", "anchors": ["atlas_doc_parser/mark_or_node.py:Base.to_dict", "atlas_doc_parser/mark_or_node.py:BaseNode.to_dict", "atlas_doc_parser/mark_or_node.py:BaseMark.to_dict", "atlas_doc_parser/mark_or_node.py:BaseNode.from_dict", "atlas_doc_parser/nodes/parse_node.py:parse_node", "atlas_doc_parser/mark_or_node.py:BaseNode.to_markdown", "atlas_doc_parser/markdown_helpers.py:content_to_markdown", "atlas_doc_parser/markdown_helpers.py:doc_content_to_markdown"]}
