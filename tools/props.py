"""Source of properties.jsonl (run: python3 tools/props.py)."""
import json, os
P = []
def p(title, statement, quantifier, why, anchors):
    P.append(dict(id=f"C{len(P)+1:02d}", title=title, statement=statement,
                  quantifier=quantifier, why_tests_cant=why, anchors=anchors))
A = "atlas_doc_parser/"
N = A + "nodes/"
M = A + "marks/"

p("Unregistered child types are skipped, everything else is kept in order",
  "When a registered node's JSON is parsed and its `content` is a list, the parsed object's children are exactly the parses of those list entries whose `type` is registered, in the original order; entries with an unregistered (hashable) `type` contribute nothing. The same holds for `marks` with the mark registry.",
  "every node class, every JSON content/marks list of any length, entries of any shape, at any nesting depth",
  "tests use a handful of sample pages; the claim ranges over every list and every placement of unregistered entries",
  [A+"mark_or_node.py:BaseNode.from_dict", N+"parse_node.py:parse_node", M+"parse_mark.py:parse_mark"])
p("Unknown JSON keys never change what is parsed",
  "Adding keys that no ADF class knows (to a node, to a mark, or to an attrs object), at any number of places and any depth, changes neither the parsed object, nor the error raised, nor the warnings logged.",
  "every JSON value, every set of unknown keys with arbitrary values, every depth",
  "forward compatibility means for keys that do not exist yet; no finite sample covers all placements",
  [A+"mark_or_node.py:Base.from_dict", A+"mark_or_node.py:BaseNode.from_dict", A+"mark_or_node.py:BaseMark.from_dict"])
p("parse_node / parse_mark build the class registered for the JSON type",
  "If parse_node(d) returns an object, d is a dict whose `type` is a registered string, the object's class is the one registered under that string, the object's own `type` attribute equals it, and is_type_of answers True exactly for that TypeEnum member. Likewise parse_mark.",
  "every JSON value d", "must hold for every type string including unregistered, non-string and unhashable ones",
  [N+"parse_node.py", M+"parse_mark.py", A+"type_enum.py:check_type_match"])
p("Object -> dict -> object round trip",
  "For every object x obtained by parsing (parse_node or any class's from_dict) whose content/marks, at every depth, came from lists (or were absent), x.to_dict() succeeds and from_dict of the result on the same class gives back an object equal to x without logging any warning.",
  "every JSON input that parses, every class, any depth", "round trip must hold for every tree, not the sampled pages",
  [A+"mark_or_node.py:BaseNode.to_dict", A+"mark_or_node.py:BaseMark.to_dict", A+"mark_or_node.py:Base.to_dict"])
p("Serialisation is a normal form that keeps exactly the known data",
  "to_dict(from_dict(j)) is idempotent (re-parsing and re-serialising gives the same dict); each top-level field that the class declares and j provides with a scalar/attrs value is reproduced with its value; no key outside the class's declared fields appears; declared keys absent from j appear only for fields with a literal default (type, version).",
  "every JSON input that parses, every class", "same as C04: unbounded trees and arbitrary payloads",
  [A+"mark_or_node.py:BaseNode.to_dict", A+"mark_or_node.py:Base.from_dict"])
p("to_dict returns plain JSON",
  "For every object parsed from plain JSON, to_dict() contains only JSON values, so json.dumps(x.to_dict()) works (no OPT sentinel leaks out).",
  "every JSON input that parses", "a leak shows only for particular combinations of omitted optional fields in marks; equality based round-trip tests do not see it",
  [A+"mark_or_node.py:BaseMark.to_dict", M+"mark_link.py", M+"mark_breakout.py", M+"mark_fragment.py"])
p("Required fields are enforced at construction, and only they",
  "from_dict on a dict fails with a missing-argument error (ParamError for REQ fields, TypeError for fields without default) when a required field of the class or of its attrs class is missing; when every required field is present and attrs/children/marks parse, from_dict succeeds. In particular no parsed object anywhere in a parsed tree lacks a required field.",
  "every class, every dict, every depth", "must hold for every subset of missing fields of every class",
  [A+"mark_or_node.py:Base.from_dict", "func_args BaseFrozenModel (external)"])
p("WARN_UNIMPLEMENTED_TYPE affects only the log",
  "The object returned or exception raised by parsing does not depend on settings.WARN_UNIMPLEMENTED_TYPE; with the flag off nothing is logged; with the flag on a successful parse logs exactly one warning per skipped element, in document order (for each node: the skipped entries of its content interleaved with its kept children's own warnings, then its marks).",
  "every JSON value, both flag values", "log contents must match for every placement of unregistered types",
  [A+"settings.py", A+"mark_or_node.py:BaseNode.from_dict", A+"exc.py:UnimplementedTypeError"])
p("Malformed registered children are never swallowed",
  "If some entry of a node's content (or marks) fails to parse with an error other than an unregistered type, parsing the node fails: with the error of the first such entry, content before marks, provided that attrs (converted first) is well-formed, and with some error in any case.",
  "every class, every content list, every position", "any position in any list at any depth",
  [A+"mark_or_node.py:BaseNode.from_dict"])
p("UnimplementedTypeError escapes only for the root element",
  "parse_node(d) raises UnimplementedTypeError exactly when d is a dict whose own `type` is hashable and unregistered (and then carries that type and category 'node'); a class's from_dict never raises it. Every other parse failure is a KeyError, TypeError or ParamError. A value that is not a dict is refused with a TypeError by parse_node, parse_mark and every from_dict.",
  "every JSON value", "exception classes must be right for all malformed inputs",
  [N+"parse_node.py", A+"mark_or_node.py:BaseNode.from_dict", A+"exc.py"])
p("Parsing does not modify the caller's dict and shares nothing with it",
  "parse_node, parse_mark and every node or mark class's from_dict leave every object that existed before the call unchanged - whether the call returns, raises, or runs into the recursion limit half-way -, return an object from which nothing that existed before the call can be reached, and no later change to anything but the objects the call itself created can be seen through the returned object. (An attrs class's own from_dict, which the library calls only on its private copy, makes no copy: it is outside this guarantee.)",
  "every heap (shared sub-objects and cycles included), every argument, every recursion limit, every later mutation",
  "aliasing bugs show only for particular object graphs and particular later mutations",
  [A+"mark_or_node.py:BaseNode.from_dict (copy.deepcopy)", A+"mark_or_node.py:BaseMark.from_dict", N+"parse_node.py:parse_node", M+"parse_mark.py:parse_mark"])
p("The class-field cache is invisible",
  "cls.get_fields() returns the class's own dataclass fields and never raises KeyError, whatever calls on whatever classes were made before or are in progress in other threads, interleaved in any way; every call finishes in a bounded number of its own steps. (The dict returned is the cached one: a caller who changes it changes later results.)",
  "every history and every interleaving of get_fields calls on any classes by any number of threads",
  "histories and schedules are unbounded",
  [A+"mark_or_node.py:Base.get_fields", A+"mark_or_node.py:_CLASS_FIELD"])
p("Registries are consistent",
  "Every key of the node (mark) registry is a TypeEnum value; distinct keys map to distinct classes; every class's default `type` is the key it is registered under; no string is registered both as node and as mark.",
  "every registry entry and every string", "finite but must be complete: no missing or crossed entry",
  [N+"parse_node.py:NODE_TYPE_TO_CLASS_MAPPING", M+"parse_mark.py:MARK_TYPE_TO_CLASS_MAPPING", A+"type_enum.py:TypeEnum"])
p("is_type_of is membership",
  "x.is_type_of(ts) is True iff x.type is a string equal to the value of some member of ts; a single member behaves as a one-element list; the order and repetition of ts do not matter.",
  "every object, every list of TypeEnum members", "all subsets of the enum, arbitrary type strings",
  [A+"type_enum.py:check_type_match", A+"mark_or_node.py:BaseMarkOrNode.is_type_of"])
p("strip_double_empty_line only shortens runs of newlines",
  "strip_double_empty_line(text, n) leaves every non-newline character and its order untouched, never lengthens a run of newlines nor removes one completely, maps a maximal run of k newlines to the n-fold iterate of k -> k - k//3, and therefore (n=3) leaves at most two consecutive newlines whenever no run in the input exceeds six.",
  "every text and every n", "all texts; the docstring's bound (five) is about every input",
  [A+"markdown_helpers.py:strip_double_empty_line"])
p("Documents never contain two consecutive blank lines",
  "doc.to_markdown() has at most one consecutive blank line (never three newlines in a row), as documented for strip_double_empty_line / doc_content_to_markdown.",
  "every parsed document", "depends on arbitrary sequences of blocks (e.g. runs of empty paragraphs)",
  [A+"markdown_helpers.py:doc_content_to_markdown", A+"markdown_helpers.py:strip_double_empty_line", N+"node_doc.py"])
p("ignore_error=True makes document conversion total",
  "NodeDoc.to_markdown(ignore_error=True) returns a string and never raises, for every parsed document whose content is a list of block nodes.",
  "every parsed document", "any combination of failing nodes anywhere in the tree",
  [N+"node_doc.py", A+"markdown_helpers.py:doc_content_to_markdown"])
p("ignore_error=True drops exactly the failing blocks",
  "doc.to_markdown(ignore_error=True) equals the strict conversion of the document obtained by deleting the top-level blocks whose strict conversion raises. Likewise for every container that uses the shared loops (paragraph, heading, table cell, blockquote, expand, list item, decision item ...): its lenient conversion equals its strict conversion without the children that fail.",
  "every document and container, every subset of failing children", "all failure patterns",
  [A+"markdown_helpers.py:content_to_markdown", A+"markdown_helpers.py:doc_content_to_markdown"])
p("Lenient mode never changes a successful conversion",
  "If node.to_markdown(ignore_error=False) succeeds with some text, node.to_markdown(ignore_error=True) returns the same text; for list nodes at every level argument.",
  "every node of every class, every level", "must hold across the whole recursive converter",
  [N+"*:to_markdown", A+"markdown_helpers.py"])
p("ignore_error propagates to nested conversions",
  "As documented, ignore_error=True skips the failing node only: siblings of a failing node at any depth still appear in the output.",
  "every tree with failing nodes at any depth", "depth of the failing node is unbounded",
  [A+"mark_or_node.py:BaseNode.to_markdown (docstring)", A+"markdown_helpers.py:content_to_markdown"])
p("Text is preserved, in order (supported constructs)",
  "For a document built from text with content-preserving marks, hard breaks, paragraphs, headings, code blocks, block quotes, panels, expands, lists of list items, task lists, decision lists and tables, whenever to_markdown succeeds, the non-whitespace characters of all text nodes, in document order, form a subsequence of the non-whitespace characters of the output.",
  "every such tree, any depth and size", "an unbounded family of trees; escaping, indentation, stripping and joining all interact",
  [N+"*:to_markdown", A+"markdown_helpers.py"])
p("No text is ever lost",
  "The claim of C21 for every parsed document, with any registered marks and nodes ('content extraction over formatting').",
  "every parsed document", "the loss happens only for particular marks/containers",
  [M+"mark_indentation.py:to_markdown", M+"mark_link.py:to_markdown", N+"node_media_group.py", N+"node_caption.py", N+"node_bullet_list.py"])
p("Marks are applied left to right and wrap exactly",
  "A text node's markdown is the left fold of its marks over its text; strong/em/strike put their delimiter on both sides of a text that has a non-whitespace character and leave whitespace-only text unchanged; link gives [label](href) with label = title if it is a string, else the text; marks without markdown form return the text unchanged. A mark that raises AttributeError (text that is no string) ends the fold with the text built so far; other exceptions are raised.",
  "every text, every list of marks", "all texts and mark sequences",
  [A+"markdown_helpers.py:add_style_to_markdown", M+"*:to_markdown"])
p("Inline code never spans lines",
  "MarkCode.to_markdown raises ValueError iff the text contains a newline; otherwise the result contains no newline, is the text unchanged if it is blank and ``` `` text `` ``` otherwise.",
  "every string", "all strings", [M+"mark_code.py"])
p("Bullet lists: one bullet per list item",
  "NodeBulletList.to_markdown(level) consists, for each child of type listItem in order, of a line starting with 4*level spaces and '- ' followed by the first line of the item's text, then the item's remaining lines verbatim; the item's text is its children joined by newlines (nested bullet lists rendered at level+1, other children right-stripped).",
  "every bullet list, every level, every content", "arbitrary nesting and arbitrary item contents",
  [N+"node_bullet_list.py"])
p("Ordered lists number consecutively from attrs.order",
  "At level 0 the k-th list item (k=0,1,..) of an ordered list with integer attrs.order = s is introduced by the number s+k; nested levels start at 1; items that are not listItems do not consume numbers.",
  "every ordered list, any length and start", "arbitrary lengths, starts and interleaved unknown items",
  [N+"node_ordered_list.py"])
p("Every schema-valid ordered list converts",
  "An ordered list without attrs (attrs is optional in the class and in the ADF schema) converts like one starting at 1.",
  "every ordered list without attrs", "depends on presence of an optional field combined with level",
  [N+"node_ordered_list.py"])
p("Task lists: one checkbox line per task",
  "NodeTaskList.to_markdown(level) renders each taskItem child as one entry '<4*level spaces>- [x] text' if its state is DONE and '- [ ] text' otherwise, nested taskList children at level+1, in order, and nothing else; an item without content is rendered with empty text.",
  "every task list, every level", "arbitrary nesting and states",
  [N+"node_task_list.py", N+"node_task_item.py"])
p("Decision items are clean block quotes",
  "Every line of NodeDecisionItem.to_markdown() is '>' or starts with '> '; no two consecutive lines are '>'; neither the first nor the second nor the last line is a bare '>'; no line has trailing whitespace; and the non-blank lines are exactly the right-stripped non-blank lines of the item's content, in order.",
  "every decision item content", "all line patterns", [N+"node_decision_item.py"])
p("Decision lists separate decisions by one blank line",
  "NodeDecisionList.to_markdown() is its decisionItem children's markdown joined by a blank line, in order, other children ignored.",
  "every decision list", "arbitrary lengths and failure patterns", [N+"node_decision_list.py"])
p("A table row is one line with the right number of cells",
  "For rows made of tableCell/tableHeader nodes, the row's markdown contains no newline and exactly max(n,1)+1 pipe characters that are not directly preceded by a backslash (a GFM reader's cell boundaries), where n is the number of cells: no cell content can break the table.",
  "every row, every cell content", "content may contain pipes, newlines, backslashes, nested blocks",
  [N+"node_table_row.py", N+"node_table_cell.py", N+"node_table_header.py"])
p("Tables: header rows get a separator of the same width, every row one line",
  "NodeTable.to_markdown() is, for each row in order, the row's line followed by a '---' separator line with as many columns as the row has cells iff its first cell is a tableHeader; the number of lines is the number of rows plus the number of header rows.",
  "every table", "arbitrary sizes", [N+"node_table.py"])
p("Block quotes prefix every line",
  "NodeBlockquote.to_markdown() is the converted content in which every line (in the sense of str.splitlines) is prefixed with '> ', followed by a newline; removing the prefixes gives the content back.",
  "every block quote", "all texts with any line terminators", [N+"node_blockquote.py"])
p("Panels are labelled block quotes",
  "NodePanel.to_markdown() starts with the line '> **TYPE**' (TYPE the upper-cased panelType) and a quoted blank line, every line is prefixed with '> ', and the content follows.",
  "every panel", "all contents", [N+"node_panel.py"])
p("Code blocks are fenced and verbatim",
  "NodeCodeBlock.to_markdown() is '```lang', newline, the concatenated text verbatim, newline, '```', where lang is attrs.language if it is a string other than 'none' and empty otherwise; the code can be recovered from the output, i.e. the closing fence is the first line that starts with '```' after the opening one.",
  "every code block", "arbitrary code text, including back-tick fences", [N+"node_code_block.py"])
p("Headings are single '#' lines of the right level",
  "NodeHeading.to_markdown() is two newlines, level times '#', a space, the content and two newlines, and when no child's markdown contains a newline the heading occupies a single line.",
  "every heading, every integer level", "all contents and levels", [N+"node_heading.py"])
p("Dates render the UTC calendar day",
  "NodeDate.to_markdown() with a timestamp of t milliseconds renders YYYY-MM-DD, the proleptic Gregorian UTC date whose day number is floor(t / 86400000), for every t in years 1..9999, although the division by 1000 and the split into seconds and microseconds are float computations; timestamps of the same UTC day render equally and later days render later dates; other timestamps raise.",
  "every integer timestamp (string or number)", "calendar arithmetic over 3.6 million days and negative timestamps", [N+"node_date.py"])
p("Cards render their URL or raise",
  "inlineCard/blockCard with a string url render [url](url) (blockCard and embedCard surrounded by newlines); inlineCard/blockCard without a string url raise NotImplementedError.",
  "every card", "all attr values", [N+"node_inline_card.py", N+"node_block_card.py", N+"node_embed_card.py"])
p("Inline atoms fall back as documented",
  "emoji renders text, else shortName, else raises; mention renders text, else '@Unknown'; status renders `text`; extension renders '[Extension: key] text' for a non-empty string text, else '[Extension: type/key]'; hardBreak and rule render fixed strings.",
  "every attrs value", "all combinations of present/absent/null/non-string attributes",
  [N+"node_emoji.py", N+"node_mention.py", N+"node_status.py", N+"node_extension.py", N+"node_hard_break.py", N+"node_rule.py"])
p("Media renders by type",
  "media of type external with a string url renders ![alt](url), of type file ![alt](media:id), with its marks applied, alt defaulting to 'media'; of type link '[media]'; anything else raises TypeError.",
  "every media node", "all attribute combinations", [N+"node_media.py"])
p("Nested lists are indented below their parent, whatever their kind",
  "A list nested in a list item is indented four spaces deeper than the list that contains it.",
  "every nesting of bullet and ordered lists", "mixed nestings of arbitrary depth", [N+"node_bullet_list.py", N+"node_ordered_list.py"])
p("Documents are their blocks in order",
  "doc.to_markdown() is strip_double_empty_line of the newline-joined block conversions in order, where bulletList/orderedList/codeBlock blocks are padded with a newline on both sides; converting never depends on anything but the blocks themselves.",
  "every document", "all block sequences", [A+"markdown_helpers.py:doc_content_to_markdown", N+"node_doc.py"])
p("to_markdown returns a string",
  "Whenever to_markdown returns, it returns a str, for every parsed node of every class other than a text node whose text is not a string; omitted content converts like an empty list for every class that goes through content_to_markdown.",
  "every parsed node", "type confusion appears only for particular malformed inputs", [N+"*:to_markdown", A+"markdown_helpers.py"])
p("The public API re-exports every class exactly once",
  "When the package does not lie below a directory called marks, generate_api_py produces the fixed header, then the marks, then the nodes section; a section has one import line for every public name (Base subclass defined in the module, or T_NODE_*/T_MARK_* alias, not starting with an underscore) of every importable mark_*.py / node_*.py file and no other line, each once, from the module that has it, files in order and names in order within a file; so the text does not depend on the order in which the file system lists the files.",
  "every set of files, modules and members (unique names, no class called T_NODE_* or T_MARK_*, imports that succeed or raise ImportError)",
  "must hold for modules added later",
  [A+"gen_code.py:generate_api_py", A+"gen_code.py:scan_module_for_public_apis", A+"templates/api.py.jinja"])
p("Nesting depth determines indentation",
  "In a bullet list nested through list items to depth k, every bullet line of the innermost list starts with exactly 4*k spaces followed by '- ' (or, for a list that is its item's first child, follows its parent's bullet on the same line).",
  "every depth k", "depth is unbounded", [N+"node_bullet_list.py"])
p("Table cells survive readers in which an escaped backslash escapes nothing",
  "Under the reading in which a pipe is a cell boundary unless preceded by an odd number of backslashes, the markdown of a row of n cells has max(n,1)+1 cell boundaries.",
  "every row, every cell content", "content may contain any mix of backslashes and pipes", [N+"node_table_cell.py", N+"node_table_header.py", N+"node_table_row.py"])
p("A table row contains no carriage return",
  "The markdown of a table row contains no carriage return, which Markdown readers take for a line ending.",
  "every row, every cell content", "content may contain any control character", [N+"node_table_cell.py", N+"node_table_row.py"])
p("The generated API does not depend on where the checkout lies",
  "generate_api_py produces the same text whatever directory the package is in.",
  "every location of the package, every set of modules",
  "tests run in one checkout; the failure needs a parent directory with a particular name",
  [A+"gen_code.py:scan_module_for_public_apis (\"marks\" in module_path.parts)"])
p("to_dict neither changes the object nor returns parts of it",
  "Calling to_dict() on a node or mark leaves every existing object as it was (also when it raises) and logs nothing; nothing reachable from the returned dict existed before, so later changes to the returned dict cannot be seen in the node, and later changes to the node cannot be seen in the returned dict.",
  "every object graph (shared or cyclic, any depth), every later sequence of changes",
  "aliasing shows only when particular sub-objects are mutated later; there are infinitely many object graphs",
  [A+"mark_or_node.py:Base.to_dict", A+"mark_or_node.py:BaseMark.to_dict", A+"mark_or_node.py:BaseNode.to_dict"])
p("Lenient conversion is strict conversion of what remains",
  "For every parsed tree and every level argument, to_markdown(ignore_error=True) gives exactly (same text or same exception) what to_markdown() gives for the tree from which the following is removed: in documents, quotes, panels, expands, paragraphs, headings, code blocks, cells, list/task/decision items and mediaSingle the children that do not convert; in bullet and numbered lists the children of list items that do not convert (nested lists of the same kind tried one level deeper); in tables the rows that do not convert (a row without first cell keeps its line); in table rows, decision lists and nested task lists, recursively, what lenient conversion of the cell, item or nested list removes, and the item or nested list itself if that still fails.",
  "every parsed tree of any depth, every level",
  "there are infinitely many trees and places where a conversion can fail",
  [A+"markdown_helpers.py:content_to_markdown", A+"markdown_helpers.py:doc_content_to_markdown", N+"*:to_markdown(ignore_error)"])
p("The order of keys in the JSON does not matter",
  "Rearranging the entries of a node's JSON object, of its attrs, of its marks, or of any of these in a node below it (keys being different) changes neither the parsed object, nor the exception, nor the log, of parse_node, parse_mark and from_dict of every class.",
  "every JSON value, every permutation at any depth",
  "there are infinitely many documents and orders; JSON producers may emit any order",
  [A+"mark_or_node.py:Base.from_dict", A+"mark_or_node.py:BaseNode.from_dict", A+"mark_or_node.py:BaseMark.from_dict"])
p("The log names what was skipped",
  "With WARN_UNIMPLEMENTED_TYPE on, a successful parse whose skipped elements have string types hands the logger exactly one text per skipped element, in document order: \"Node type 'T' is not yet implemented. ...\" or \"Mark type 'T' ...\"; the text determines kind and type, so two documents with the same log skip the same elements; the same text is carried by the UnimplementedTypeError of an unsupported root or mark.",
  "every JSON document, every type string (with quotes or not)",
  "the type strings are arbitrary; ambiguity would need particular names",
  [A+"exc.py:UnimplementedTypeError", A+"mark_or_node.py:BaseNode.from_dict (logger.warning)", A+"nodes/parse_node.py", A+"marks/parse_mark.py"])
p("Markdown depends only on shape, types, texts and a fixed list of attributes and marks",
  "Two parsed trees of the same shape, with the same node types and texts, that agree on: orderedList order, taskItem state, emoji text and shortName, date timestamp, mention/status text, heading level, codeBlock language, card url, media type/url/alt/id, extension key/type/text, panel panelType, and, on text, paragraph, media and expand nodes, the sequence of strong, em, strike, code, link (title, href) and indentation (level) marks, have the same Markdown or raise the same exception, strict or lenient, at every level. Ids, colours, widths, layout, version, marks elsewhere never matter. No attribute can be left out of the list.",
  "every pair of parsed trees of any depth that agree on the listed data",
  "non-interference compares all pairs of trees; there are infinitely many",
  [N+"*:to_markdown", A+"mark_or_node.py:BaseNode.add_style_to_markdown", A+"marks/*:to_markdown"])
p("Parts with the same Markdown are interchangeable",
  "A node may be replaced by a node of the same type and the same Markdown anywhere in a tree, except directly below a bullet, numbered or task list or a table, without changing the Markdown (or exception) of any tree around it, in both modes at every level. In paragraphs, headings, code blocks, cells, items and mediaSingle, runs of children with the same concatenated Markdown are interchangeable: neighbouring text nodes without marks can be merged or split, empty ones left out.",
  "every tree, every position, every replacement",
  "quantifies over all contexts a node can occur in",
  [A+"markdown_helpers.py:content_to_markdown", A+"markdown_helpers.py:doc_content_to_markdown", N+"*:to_markdown"])
p("Nesting depth determines the number of quote marks",
  "If a parsed tree converts, then every block inside it (through documents, expands, nested expands, block quotes and panels, k of which are quotes or panels) converts, and every non-empty line of the block's own Markdown is a line of the whole with exactly k times '> ' put in front (lines without the exotic line separators of str.splitlines).",
  "every parsed tree, every nesting depth k, every line",
  "nesting is unbounded",
  [N+"node_blockquote.py", N+"node_panel.py", N+"node_expand.py", N+"node_nested_expand.py", N+"node_doc.py", A+"markdown_helpers.py"])
p("Inline code can be read back",
  "A Markdown reader (CommonMark rule for code spans) that reads the conversion of a text with a code mark, whatever text follows it, gets exactly the text.",
  "every text without newline that is not blank, every following text that does not start with a back tick",
  "texts may contain any arrangement of back ticks",
  ["atlas_doc_parser/marks/mark_code.py:MarkCode.to_markdown"])
p("Links can be read back",
  "A Markdown reader (CommonMark rule for inline links: balanced brackets and parentheses, no white space in the destination) that reads the conversion of a link, whatever follows it, gets exactly the label and the href.",
  "every label, every href, every following text",
  "labels and addresses may contain any brackets",
  ["atlas_doc_parser/marks/mark_link.py:MarkLink.to_markdown"])
p("Emphasised text is read as emphasised",
  "The delimiters that strong, em and strike put around a text are ones a Markdown reader takes as opening and closing (no white space after the opening, none before the closing delimiter).",
  "every text that is not blank",
  "texts may start or end with any white space character",
  ["atlas_doc_parser/marks/mark_strong.py", "atlas_doc_parser/marks/mark_em.py", "atlas_doc_parser/marks/mark_strike.py"])
p("Equality of parsed objects is equality of the JSON",
  "Equal JSON values (==: key order does not matter, True == 1 == 1.0) parse to equal objects with equal warnings, or raise the same exception; == is an equivalence on parsed nodes; equal nodes have equal to_dict results; and two nodes parsed from JSON with list-valued content and marks are equal if and only if their to_dict results are.",
  "every pair of JSON values, every node class, both warning modes",
  "quantifies over pairs of unbounded trees",
  [A+"mark_or_node.py:BaseNode", A+"mark_or_node.py:BaseMark", A+"mark_or_node.py:Base.to_dict", N+"parse_node.py"])
p("Equal nodes have equal Markdown",
  "If two parsed nodes are equal (==), to_markdown gives the same text or the same exception for both, in both modes.",
  "every pair of parsed nodes, every level, both modes",
  "quantifies over pairs of unbounded trees",
  [A+"mark_or_node.py:BaseNode", N+"node_ordered_list.py:NodeOrderedList.to_markdown", N+"*:to_markdown"])
p("Hashing agrees with equality",
  "Equal nodes and marks have equal hashes, or hash() raises TypeError for both; it raises nothing else. A parsed node can be hashed (put in a set, used as a dict key) if and only if none of the values its class knows, inside attrs or outside, is a list or a dict; in particular never if its content is a list.",
  "every node and mark, every parsed JSON object",
  "quantifies over all pairs of objects and all JSON objects",
  [A+"mark_or_node.py:BaseNode", A+"mark_or_node.py:BaseMark", A+"mark_or_node.py:Base"])
p("Containers are their children, in order",
  "A paragraph converts if and only if its children do, to their concatenation with its own marks applied and one newline; list items, task items and single media are the plain concatenation of their children; expand and nestedExpand are their blocks like a document (titles are not shown); media groups, captions and inline media are empty and never fail.",
  "every container, every list of children",
  "quantifies over all lists of children",
  [N+"node_paragraph.py", N+"node_list_item.py", N+"node_task_item.py", N+"node_media_single.py", N+"node_expand.py", N+"node_nested_expand.py", N+"node_media_group.py", N+"node_caption.py", N+"node_media_inline.py"])
p("Strict conversion fails exactly at a faulty part",
  "Strict to_markdown of a parsed node gives a string if and only if none of the parts it converts has a fault of its own, the faults being listed per class: content that is not a list of nodes, a numbered list at level 0 without attrs, a panel without a string panelType, a heading level that is no integer, an undatable timestamp, a card without a url, a media that shows no image, a table row without cells, a mark that cannot be applied (code over a newline, indentation by a non-integer). Otherwise it raises.",
  "every parsed node, every level it can be converted at",
  "quantifies over all trees and over every position in them",
  [A+"markdown_helpers.py", N+"*:to_markdown", "atlas_doc_parser/marks/*:to_markdown"])
p("Round trip is lossless exactly when nothing is unknown",
  "For JSON without sentinels or repeated keys that parses with list-valued content and marks, to_dict of the parse is equal (==) to the JSON if and only if every node and mark has a supported type, has only keys its class knows (also in attrs), documents have a version, and every mark lists all the attributes its class knows.",
  "every JSON value that parses",
  "quantifies over all JSON trees; an iff over an inductive predicate",
  [A+"mark_or_node.py:BaseNode.from_dict", A+"mark_or_node.py:Base.to_dict", N+"parse_node.py"])
p("Documents that follow the published ADF reference are parsed",
  "Every document that follows the published Atlassian Document Format reference is parsed (by parse_node and by NodeDoc.from_dict, with the same result); only the two node types the reference lists without describing them cause warnings; without them nothing is skipped: the object tree has the same nodes, in order, with the same text.",
  "every document valid by the reference, both warning modes",
  "the documents valid by the reference are an infinite set defined by another document",
  [A+"mark_or_node.py:BaseNode.from_dict", N+"parse_node.py", N+"*", "atlas_doc_parser/marks/*", "scripts/crawl_atlas_doc_reference/Atlassian-Document-Format-Reference.md"])
p("Documents of the ADF reference survive a round trip",
  "Parsing and then serialising gives back every document that follows the published reference and uses only the fields it describes.",
  "every such document",
  "an infinite set of documents defined by another document",
  [A+"mark_or_node.py:BaseNode.from_dict", A+"mark_or_node.py:BaseNode.to_dict", A+"mark_or_node.py:BaseMark.to_dict", N+"node_expand.py", "atlas_doc_parser/marks/mark_link.py"])
p("Documents of the ADF reference convert to Markdown",
  "Every document that follows the published reference converts to Markdown without an exception; with ignore_error=True too, to at least the blocks that convert by themselves.",
  "every document valid by the reference",
  "an infinite set of documents defined by another document",
  [A+"markdown_helpers.py", N+"*:to_markdown", "atlas_doc_parser/marks/*:to_markdown"])
p("Documents can be stored as JSON text",
  "A document read from JSON text can be written with json.dumps(node.to_dict()), with any indentation, and the text read back with json.loads gives the same data and parses to the same document again; text cut off before its end is never read as a document.",
  "every JSON text, every document in it, every indentation, every cut",
  "quantifies over all texts and all documents; the text passes through the json encoder and decoder",
  [A+"mark_or_node.py:BaseNode.from_dict", A+"mark_or_node.py:BaseNode.to_dict", A+"mark_or_node.py:BaseMark.to_dict", N+"parse_node.py"])
T_ = "atlas_doc_parser/tests/data/"
p("The file cache returns only data from the server",
  "In every history of any number of processes using PageSample.adf or AdfJsonSchema.data, with crashes, failing requests and writes and deletions of the file at any moment, every value the property returns is one the server answered before.",
  "every interleaving of the system calls of any number of processes, every crash point, every sequence of answers",
  "quantifies over schedules, crash points and histories",
  [T_+"samples.py:PageSample.adf", T_+"samples.py:PageSample.adf_no_cache", T_+"schema.py:AdfJsonSchema.data"])
p("An interrupted download does not break the cache",
  "Whatever happened before (processes killed while writing the cache file, failed writes), a later access obtains the data, without the file having to be deleted by hand.",
  "every history, every crash point",
  "quantifies over histories and crash points",
  [T_+"samples.py:PageSample.adf", T_+"schema.py:AdfJsonSchema.data"])
p("The server is asked once",
  "As soon as the data is completely in the cache file and no process is in the middle of obtaining it, every access by every process returns it without asking the server, without raising and without changing the file, until the file is deleted. One process asks the server for a page sample at most once, however often reading or writing the file fails.",
  "every continuation of every such state, every history",
  "quantifies over schedules and histories",
  [T_+"samples.py:PageSample.adf", T_+"samples.py:PageSample.adf_no_cache", T_+"schema.py:AdfJsonSchema.data"])
p("Regenerating api.py survives crashes and concurrent runs",
  "Whatever was in api.py and whichever other runs of the code generator are active, killed or failing: once the run that opened api.py last has returned, api.py is exactly what is generated, until it is opened again. Before it is opened it is unchanged; a generator that fails never opens it. After a crash one more run repairs the file.",
  "every interleaving of the system calls of any number of runs, every crash point, every earlier content",
  "quantifies over schedules, crash points and histories",
  ["atlas_doc_parser/gen_code.py:main", "scripts/s02-gen-code/s01_gen_code.py"])
S_ = "scripts/s01-adf-json-schema-analysis/s2_analyze_adf_json_schema.py"
p("The implementation order puts dependencies first and is reproducible",
  "topological_sort ends for every dependency graph, with cycles, unknown dependencies and self-dependencies too; it lists every entry exactly once; an entry that is not on or behind a cycle comes after everything it needs; the rest comes last, alphabetically; the result does not depend on the order in which the dict was filled or in which sets are iterated (Python randomises it per run).",
  "every graph, every iteration order of its sets",
  "quantifies over all graphs and over the hash seed of the interpreter",
  [S_+":topological_sort"])
p("The schema analysis finds exactly the references of the schema",
  "extract_refs collects exactly the definitions referred to at any depth; for every schema the analysis lists each node base type (variants b_with_.._node count as b) exactly once, and, if it is not on or behind a cycle of references, after every base type that any of its definitions refers to; the same list in every run. It fails (AttributeError) exactly if a node definition contains a $ref that is not a string.",
  "every JSON schema, every iteration order of sets",
  "quantifies over all schemas, at any depth, and over the hash seed",
  [S_+":extract_refs", S_+":get_base_type", S_+":main"])
G_ = "scripts/s02-nodes-code-gen/s1_gen_code.py"
p("Generated names are systematic and distinct",
  "The module of a definition is its type name in snake case behind mark_ / node_, the class the type name in Pascal case behind Mark / Node (bulletList_node: node_bullet_list, NodeBulletList); different definitions get different modules and classes.",
  "every schema, every pair of definition names",
  "quantifies over all names; the code uses two regular expressions",
  [G_+":camel_to_snake", G_+":snake_to_pascal", G_+":def_name_to_names"])
p("Generated modules declare exactly what the schema declares",
  "For every definition the generated module is, line by line, determined by the schema: a class of attributes exactly if the definition (or an element of its allOf) declares attrs, with exactly the declared attributes as fields, each with the type of the schema, required ones without and optional ones with default OPT, required ones first, alphabetically; content, marks, text, version of a node exactly if declared; the type string is the first value the schema allows for type.",
  "every schema, every definition",
  "quantifies over all JSON schemas",
  [G_+":extract_schema_info", G_+":generate_mark_file", G_+":generate_node_file", G_+":json_type_to_python_type", "scripts/s02-nodes-code-gen/templates"])
p("Generating nodes is reproducible",
  "What is generated for a definition depends on this definition only, not on the order of the schema, not on other definitions, and not on what was generated before although the loaded schema is modified in place; exactly the definitions x_mark / x_node that are not variants are generated, alphabetically, marks first, then parse.py, then mixin stubs; a run raises exactly if a definition cannot be generated, and has then written only modules.",
  "every schema, every order of it, every number of repetitions in one process",
  "quantifies over all schemas and permutations of them",
  [G_+":main", G_+":get_mark_definitions", G_+":get_node_definitions", G_+":extract_schema_info"])
p("The generated registry finds every generated class",
  "parse.py imports every generated class, and its registries map the type string of each generated definition to its class.",
  "every schema",
  "quantifies over all schemas",
  [G_+":generate_parse_file", "scripts/s02-nodes-code-gen/templates/parse.py.jinja2"])
p("Hand-written mixins are never overwritten by the generator",
  "What somebody writes into a file in mixins stays there until somebody edits it again, whoever runs the generator, concurrently, killed or failing at any moment; files that belong to no definition (nodes/base.py) are never touched.",
  "every interleaving of the system calls of any number of runs and of edits, every crash point",
  "quantifies over schedules, crash points and histories",
  [G_+":main", G_+":generate_mixin_stub"])
p("A complete run of the node generator leaves everything as generated",
  "After a run that returned and that nobody disturbed, whatever happened before (killed or failing runs, edits), every module is the generated text and every definition has a mixin, the stub unless somebody has written one; such a run is possible after every history; a second one changes nothing.",
  "every history before the run, every crash point in it",
  "quantifies over histories and crash points",
  [G_+":main", G_+":generate_mixin_stub"])
p("JSON text is read as what it denotes",
  "json.loads accepts exactly the texts of the JSON grammar (RFC 8259, plus the words NaN, Infinity and -Infinity, with white space around them) and returns the value the text denotes: strings with every escape resolved, surrogate pairs included; integers exactly; lists in order; objects as dicts in which a repeated name keeps its first place and takes its last value.",
  "every text and every value",
  "the texts are infinitely many, and what must be refused can only be covered by a statement about all of them",
  ["atlas_doc_parser/tests/data/samples.py:75-89", "atlas_doc_parser/tests/data/schema.py:24-29"])
p("Blocks of a document are separated",
  "No two blocks of a document share a paragraph of the Markdown: the groups of lines of doc.to_markdown() between blank lines are exactly those of the blocks' own Markdown, in order, whatever follows what.",
  "every parsed document and every pair of consecutive blocks",
  "quantifies over all sequences of blocks with all texts",
  ["atlas_doc_parser/markdown_helpers.py:doc_content_to_markdown", "atlas_doc_parser/nodes/node_doc.py:NodeDoc.to_markdown", "atlas_doc_parser/nodes/node_table.py", "atlas_doc_parser/nodes/node_task_list.py"])

p("A Markdown reader finds the blocks of the document",
  "Read by the CommonMark rules for blocks, the Markdown of a parsed document has exactly one reading: its own blocks in order, each heading with its level, each list with its items, numbers and nesting, each code block verbatim, each quote and panel with its inner blocks, and each paragraph as a paragraph.",
  "every parsed document",
  "quantifies over all documents, with all nestings and all texts, and over all readings of a text",
  ["atlas_doc_parser/markdown_helpers.py:doc_content_to_markdown", "atlas_doc_parser/markdown_helpers.py:content_to_markdown", "atlas_doc_parser/nodes/node_bullet_list.py", "atlas_doc_parser/nodes/node_ordered_list.py", "atlas_doc_parser/nodes/node_task_list.py", "atlas_doc_parser/nodes/node_code_block.py", "atlas_doc_parser/nodes/node_blockquote.py", "atlas_doc_parser/nodes/node_panel.py"])

p("A Markdown reader finds the inline content",
  "Read by the CommonMark rules for inline content (with GFM strikethrough), the Markdown of a paragraph or heading gives exactly the characters its inline nodes show, in order, each with the style of its marks: strong, emphasized, struck through, code, linked to the given address; hard breaks are line breaks, mentions, emojis and dates plain text, statuses code, cards links.",
  "every parsed paragraph and heading: all texts, all combinations and orders of marks, all neighbours",
  "quantifies over all texts, marks and sequences of inline nodes; what disturbs a delimiter is in the neighbouring node",
  ["atlas_doc_parser/nodes/node_text.py:NodeText.to_markdown", "atlas_doc_parser/markdown_helpers.py:add_style_to_markdown", "atlas_doc_parser/markdown_helpers.py:content_to_markdown", "atlas_doc_parser/marks/mark_strong.py", "atlas_doc_parser/marks/mark_code.py", "atlas_doc_parser/marks/mark_link.py", "atlas_doc_parser/nodes/node_hard_break.py"])

p("A Markdown reader finds what the editor shows",
  "Read by the CommonMark and GFM rules, blocks and inline content together, the Markdown of a parsed document gives exactly what the editor shows: the same blocks with the same nesting (headings with their level, numbered lists with their first number, tasks with their check boxes, tables with their cells and the paragraphs in them, code verbatim, quotes, panels with their name, cards as links, images with their address, alternative text and link), and in every block the same characters, in order, with the same style.",
  "every parsed document, and every reading of its Markdown",
  "quantifies over all documents, with all nestings, texts and marks, and over all readings of a text",
  ["atlas_doc_parser/markdown_helpers.py:doc_content_to_markdown", "atlas_doc_parser/markdown_helpers.py:add_style_to_markdown", "atlas_doc_parser/nodes/node_doc.py:NodeDoc.to_markdown", "atlas_doc_parser/nodes/node_text.py:NodeText.to_markdown", "atlas_doc_parser/nodes/node_table.py", "atlas_doc_parser/nodes/node_table_cell.py", "atlas_doc_parser/nodes/node_ordered_list.py", "atlas_doc_parser/nodes/node_task_list.py"])

p("An interrupted conversion gives no damaged text",
  "If calls of to_markdown inside a conversion raise (the stack is full, no memory), strict conversion either raises that exception or returns exactly the undisturbed text. With ignore_error=True it raises, or returns exactly the text of the tree with some whole nodes taken out; for documents, quotes, panels, expands and the inline containers these are exactly the children whose conversion did not get through. If no conversion inside the tree is interrupted, in particular if there is room for its depth, nothing changes.",
  "every node, every exception, every set of places at which it is raised, every level argument, both modes",
  "quantifies over all trees and over all crash points of the recursion; which call fails depends on the interpreter's stack",
  ["atlas_doc_parser/markdown_helpers.py:content_to_markdown", "atlas_doc_parser/markdown_helpers.py:doc_content_to_markdown", "atlas_doc_parser/nodes/node_bullet_list.py", "atlas_doc_parser/nodes/node_task_list.py", "atlas_doc_parser/nodes/node_decision_list.py", "atlas_doc_parser/nodes/node_table.py"])

p("ignore_error does not hide a full stack",
  "ignore_error=True skips nodes that have something wrong with them; that the interpreter ran out of stack (RecursionError) inside a node that has nothing wrong with it is reported, not taken as a fault of the node.",
  "every parsed document, every depth of nesting, every stack limit",
  "quantifies over all depths and stack limits",
  ["atlas_doc_parser/markdown_helpers.py:doc_content_to_markdown", "atlas_doc_parser/markdown_helpers.py:content_to_markdown", "atlas_doc_parser/nodes/node_doc.py:NodeDoc.to_markdown"])

p("Interrupted parsing is all or nothing",
  "If a call of parse_node or parse_mark inside parse_node / from_dict raises anything but UnimplementedTypeError (the stack is full, no memory), the whole parse raises that exception, after logging a beginning of the warnings it would have logged; otherwise the result and the warnings are the undisturbed ones. A tree with missing parts is never returned.",
  "every JSON value, every class, every exception other than UnimplementedTypeError, every set of places (nodes and marks) at which it is raised, both warning settings",
  "quantifies over all trees and over all crash points of the recursion",
  ["atlas_doc_parser/mark_or_node.py:BaseNode.from_dict", "atlas_doc_parser/nodes/parse_node.py:parse_node", "atlas_doc_parser/marks/parse_mark.py:parse_mark"])

p("The warning setting may change during a parse",
  "settings.WARN_UNIMPLEMENTED_TYPE may be changed at any moment of a parse (by another thread, by a log handler): the result of the parse is the same, and exactly those of the warnings are logged for which it was True when their part was skipped.",
  "every JSON value, every class, every history of values of the setting",
  "quantifies over all interleavings of a parse with changes of the setting",
  ["atlas_doc_parser/settings.py:WARN_UNIMPLEMENTED_TYPE", "atlas_doc_parser/mark_or_node.py:BaseNode.from_dict"])

p("From JSON text to Markdown, only the document matters",
  "NodeDoc.from_dict(json.loads(text)).to_markdown(..) depends only on the document the text denotes: texts that differ in white space, escapes, order of keys or in keys the format does not know give the same warnings and the same Markdown or exception; text that is no JSON is refused before anything is logged; and if the document is stored again (json.dumps of to_dict, any indent) and its content/marks were lists, the stored text gives the same Markdown or exception, with no warnings.",
  "every text, every document, both modes, both warning settings, every indent",
  "quantifies over all texts and documents",
  ["atlas_doc_parser/mark_or_node.py:Base.from_dict", "atlas_doc_parser/mark_or_node.py:Base.to_dict", "atlas_doc_parser/nodes/node_doc.py:NodeDoc.to_markdown", "README.rst"])

p("The report of the schema analysis says what the schema says",
  "For every schema (type enums lists of strings, $refs strings) the analysis script writes a report whose numbers are the numbers of definitions, node and mark definitions, others and type values; whose lists are, alphabetically, exactly the type values found at any depth and exactly the mark types; whose implementation order lists every base type once, with exactly what its definitions refer to; and whose phases are such that whoever follows them has, at every node that is not on or behind a cycle, everything it needs. It is the same text in every run and for every order of the definitions.",
  "every schema, every iteration order of Python's sets",
  "quantifies over all schemas and over the per-process random iteration order of sets",
  ["scripts/s01-adf-json-schema-analysis/s2_analyze_adf_json_schema.py:main", "scripts/s01-adf-json-schema-analysis/s2_analyze_adf_json_schema.py:extract_type_enums"])

p("Phase 3 of the report lists the nodes with no node dependencies",
  "The list under 'Phase 3: Leaf Nodes - Nodes with no node dependencies' contains exactly the base types whose definitions refer to no other node.",
  "every schema",
  "quantifies over all schemas",
  ["scripts/s01-adf-json-schema-analysis/s2_analyze_adf_json_schema.py:main"])

p("A passing check_seder means the node survives storing",
  "tests.helper.check_seder(inst) passes exactly if inst.from_dict(inst.to_dict()) == inst, so nothing is concluded from its second comparison, which cannot fail; it passes for None, for every mark read from JSON, and for a node read from JSON exactly if every content and marks in it was a list.",
  "every node object, every JSON value, every class, both warning settings",
  "the helper is itself the test: whether it raises false alarms or lets faults pass is a statement about all inputs",
  ["atlas_doc_parser/tests/helper.py:check_seder", "atlas_doc_parser/mark_or_node.py:Base.to_dict", "atlas_doc_parser/mark_or_node.py:Base.from_dict"])

p("check_markdown compares the Markdown with what the test shows",
  "tests.helper.check_markdown(node, expected) passes exactly if the Markdown of the node and the expected text without its common indentation are the same up to white space at both ends. How far the text is indented in the source of the test, and what its empty lines contain, does not matter; and every Markdown can be expected by writing it down.",
  "every node, every expected text, every indentation",
  "the helper is itself the test: whether it accepts the right texts is a statement about all texts",
  ["atlas_doc_parser/tests/helper.py:check_markdown"])

p("A complete download leaves exactly the requested pages",
  "For every list of page ids, whatever was in the directory before: when main(ids) of the download script has returned, every page was asked for once per occurrence, in order, and the directory contains exactly one file title.json per title, with the body the server answered last for this title as indented JSON (read back it is the same data, where the locale is UTF-8), and nothing else. A complete run is possible from every directory. Killed or failing at any moment, the directory holds a part of what was there before, or the pages answered so far and at most a beginning of the last one. Titles are without '/'; a page titled 'a/b' ends the run with an error.",
  "every list of ids, every previous content of the directory, every answer of the server, every failing call and every moment of a crash",
  "quantifies over all crash points, directory contents and answers of a server",
  ["scripts/s02-download-unit-test-data/step1_download.py:main", "scripts/s02-download-unit-test-data/step1_download.py:get_page_by_id"])

p("A download writes only below its own directory",
  "Whatever the pages are called, main of the download script changes nothing outside the directory tmp.",
  "every list of ids, every answer of the server, every file system, every moment of the run",
  "quantifies over all titles a server can answer",
  ["scripts/s02-download-unit-test-data/step1_download.py:main"])

p("The Markdown is at most quadratic in the size of the document",
  "There is a constant C such that every document of size N whose conversion succeeds becomes a Markdown text of at most C*N^2 characters; the size counts the nodes, the marks, and the characters str() shows of texts and attributes. No nesting of lists, tables, quotes or tasks in one another makes the text explode.",
  "every document of any shape and depth, well-formed or not, both error settings",
  "quantifies over documents of every size and depth; every test document is small",
  ["atlas_doc_parser/markdown_helpers.py", "atlas_doc_parser/nodes/node_heading.py:NodeHeading.to_markdown", "atlas_doc_parser/marks/mark_indentation.py:MarkIndentation.to_markdown", "atlas_doc_parser/nodes/node_table_cell.py:NodeTableCell.to_markdown", "atlas_doc_parser/nodes/node_bullet_list.py:NodeBulletList.to_markdown"])

p("Parsing and serialising create a number of objects proportional to the document",
  "There is a constant C such that parse_node, parse_mark and every from_dict create at most C objects per list and dict of the JSON data, and to_dict at most C objects per object of the node, however the data is nested and whichever parts of it are shared, whether the call returns or raises.",
  "every JSON value with any sharing of its parts, every node tree, every recursion limit, every heap before the call",
  "quantifies over documents of every size and depth; the cost of copying at each level only shows in deep documents",
  ["atlas_doc_parser/mark_or_node.py:BaseNode.from_dict", "atlas_doc_parser/mark_or_node.py:BaseNode.to_dict", "atlas_doc_parser/mark_or_node.py:BaseMark.from_dict"])

p("to_kwargs gives the arguments that build the object again",
  "For every attrs object, mark and node x obtained from JSON data, x.to_kwargs() returns a dict of keyword arguments accepted by the class, and type(x)(**x.to_kwargs()) == x.",
  "every node, mark and attrs class, every JSON object",
  "quantifies over all documents and all classes; constructing an object does not convert its arguments, which only shows for objects with parts",
  ["atlas_doc_parser/mark_or_node.py:Base.to_kwargs", "atlas_doc_parser/mark_or_node.py:BaseMark.to_dict", "atlas_doc_parser/mark_or_node.py:BaseNode.to_dict"])

p("The crawler takes the main part of a page",
  "For every HTML tree, extract_the_main_div returns the first div in document order one of whose children is an h1, and raises exactly when there is none.",
  "every HTML tree of any size and depth",
  "quantifies over all trees; the two nested loops with a flag can stop too early or too late",
  ["scripts/crawl_atlas_doc_reference/step1_crawl_document.py:extract_the_main_div"])

p("The crawler asks for every page once",
  "Over any number of runs of the crawler, each ending in any way at any moment: the server is asked again for an address it has answered only if the run that got the answer was interrupted at that very moment, before storing it; and get_html_by_url_with_cache gives the same text for an address every time, the one the server answered or the one in the cache at first.",
  "every sequence of runs, every crash point and failing call, every answer of the server at any time, every cache at first",
  "quantifies over all histories of runs and crashes",
  ["scripts/crawl_atlas_doc_reference/step1_crawl_document.py:get_html_by_url_with_cache", "scripts/crawl_atlas_doc_reference/step1_crawl_document.py:main"])

p("A complete crawl saves every page of the navigation and can be repeated without the network",
  "When the crawler has returned, after whatever earlier runs, tmp holds exactly the main part of the first page and of every page linked in its navigation, each under the text of its link (of links with the same text the last); later runs do not ask the server, however they end, and each one that returns leaves the same files. (Link texts without '/'.)",
  "every sequence of runs with crashes and failures, every site, every cache at first",
  "quantifies over all histories and all sites",
  ["scripts/crawl_atlas_doc_reference/step1_crawl_document.py:main", "scripts/crawl_atlas_doc_reference/step1_crawl_document.py:write_webpage"])

p("Each node is converted at most once, in the order of the document",
  "During a call of to_markdown, strict or lenient, to_markdown is called at most once for each node of the tree, in document order and for no other object; a strict call that succeeds calls it for exactly the nodes the rules of the classes name (a list does not call its list items but their children, a task list its items' children, text-less classes call nothing, all others call every child); a strict call that fails has made the first of those calls and no other; a lenient call tries every child of a node of a joining class, whatever children fail. (So the number of conversions is linear in the document, at any nesting.)",
  "every tree of nodes, every level argument, strict and lenient",
  "quantifies over all trees; converting a child twice, or going on after a failure, shows neither in the text nor in small tests",
  ["atlas_doc_parser/markdown_helpers.py:content_to_markdown", "atlas_doc_parser/markdown_helpers.py:doc_content_to_markdown", "atlas_doc_parser/nodes/node_bullet_list.py:NodeBulletList.to_markdown", "atlas_doc_parser/nodes/node_ordered_list.py:NodeOrderedList.to_markdown", "atlas_doc_parser/nodes/node_task_list.py:NodeTaskList.to_markdown", "atlas_doc_parser/nodes/node_decision_list.py:NodeDecisionList.to_markdown", "atlas_doc_parser/nodes/node_table.py:NodeTable.to_markdown", "atlas_doc_parser/nodes/node_table_row.py:NodeTableRow.to_markdown"])

p("What can be parsed can be converted on the same stack",
  "Counting the frames of the functions that call themselves (parse_node, parse_mark, from_dict, copy.deepcopy; to_markdown, content_to_markdown, doc_content_to_markdown): parsing a document needs exactly two frames more than one copy.deepcopy of its JSON, hence at most two per level of lists and dicts and two; converting the result, strict or lenient, needs at most two per level of nodes and less than half of what parsing needed. So a document that was parsed without RecursionError is converted without one, and ignore_error=True has none to hide. (Helpers that need a constant number of frames are not counted.)",
  "every JSON document, of any depth, every node parsed from it, strict and lenient",
  "quantifies over all depths; a function that needs one frame more per level fails only on documents deeper than any test's",
  ["atlas_doc_parser/mark_or_node.py:BaseNode.from_dict", "atlas_doc_parser/nodes/parse_node.py:parse_node", "atlas_doc_parser/marks/parse_mark.py:parse_mark", "atlas_doc_parser/markdown_helpers.py:content_to_markdown", "atlas_doc_parser/markdown_helpers.py:doc_content_to_markdown"])

p("Converting changes nothing",
  "x.to_markdown(...), strict or lenient, with any level, on any object (with parts shared between places, built by hand, even cyclic): whether it returns, raises, swallows errors of children or runs into the recursion limit, every object that existed before the call (the node, its content lists, attrs, marks, the caller's other data) is exactly as it was, and nothing is logged. What is returned is the string that the value semantics of to_markdown gives, so converting again gives it again; only a text node whose text is no string can return an object, its own text.",
  "every heap of objects with any sharing and cycles, every recursion limit, every level and both modes",
  "quantifies over all object graphs and all moments of failure; a list filled in place that is not the call's own shows only on the second call",
  ["atlas_doc_parser/markdown_helpers.py:content_to_markdown", "atlas_doc_parser/markdown_helpers.py:doc_content_to_markdown", "atlas_doc_parser/markdown_helpers.py:add_style_to_markdown", "atlas_doc_parser/nodes/node_table.py:NodeTable.to_markdown", "atlas_doc_parser/nodes/node_bullet_list.py:NodeBulletList.to_markdown", "atlas_doc_parser/nodes/node_text.py:NodeText.to_markdown"])

p("A parsed document stays what it is through any history",
  "After parse_node(d) returned a node, the program may change d and anything else it has, use the library on anything in any order with calls failing at any point, and change what to_dict returned: as long as it does not itself write to the objects that the call of parse_node created, to_markdown and to_dict of the node give at any later time what they would have given at once. Library calls alone never change an object that existed. Parsing has no memory: equal JSON gives equal nodes and the same warnings in any two states.",
  "every history of library calls (with any outcome) and of changes by the program, every JSON document",
  "quantifies over all histories of calls and writes",
  ["atlas_doc_parser/nodes/parse_node.py:parse_node", "atlas_doc_parser/mark_or_node.py:BaseNode.from_dict", "atlas_doc_parser/mark_or_node.py:BaseNode.to_dict", "atlas_doc_parser/mark_or_node.py:BaseNode.to_markdown", "atlas_doc_parser/markdown_helpers.py:content_to_markdown"])

p("Threads can convert at the same time",
  "Any number of threads call to_markdown at any time, on the same document, on documents that share parts or on different ones, and take turns after any single operation on an object, while other code does anything that leaves the documents being converted alone, and any call may be broken off before any of its operations (KeyboardInterrupt, the end of a thread). Then every call that returns or raises does so with exactly the string or exception it would have given alone; every call ends after finitely many steps of its own; no step changes an object other than those its own call has created; so no locking is needed for conversions, and if nothing else runs no object that existed changes even for a moment.",
  "every number of threads, every interleaving of their single steps, every heap of objects, every recursion limit, level and mode",
  "quantifies over all schedules; a buffer shared between calls fails only if a thread switch falls between two particular operations",
  ["atlas_doc_parser/mark_or_node.py:BaseNode.to_markdown", "atlas_doc_parser/markdown_helpers.py:content_to_markdown", "atlas_doc_parser/markdown_helpers.py:doc_content_to_markdown", "atlas_doc_parser/nodes/node_table.py:NodeTable.to_markdown", "atlas_doc_parser/nodes/node_bullet_list.py:NodeBulletList.to_markdown"])

p("Threads can parse, serialise and convert at the same time",
  "Any number of threads call parse_node, parse_mark, NodeXxx/MarkXxx.from_dict, to_dict and to_markdown at any time, on the same data, on data that shares parts or on different data, and take turns after any single operation on an object, while other code does anything that leaves the arguments of running calls alone, and any call may be broken off before any of its operations. Then every call that returns gives what the same call gives alone - the same tree of objects, shared in the same way - or raises the same exception, and logs the same warnings in the same order; its argument is what it was; a parsed node and a serialised dict consist of objects which their own call has created, so results of different calls never share an object, not even when both threads parse the same dict; parsing a JSON value gives the node or exception, and to_dict the JSON, which the value semantics says, which knows of no threads.",
  "every number of threads, every mix of calls, every interleaving of their single steps, every heap of objects, every recursion limit",
  "quantifies over all schedules; a cache or a copy shared between calls fails only if a thread switch falls between two particular operations",
  ["atlas_doc_parser/nodes/parse_node.py:parse_node", "atlas_doc_parser/marks/parse_mark.py:parse_mark", "atlas_doc_parser/mark_or_node.py:BaseNode.from_dict", "atlas_doc_parser/mark_or_node.py:BaseMark.from_dict", "atlas_doc_parser/mark_or_node.py:BaseNode.to_dict", "atlas_doc_parser/mark_or_node.py:BaseMark.to_dict", "atlas_doc_parser/mark_or_node.py:BaseNode.to_markdown"])

p("The first calls of a process may come from several threads",
  "from_dict asks cls.get_fields(), which fills the module-level cache of class fields. Let any number of threads parse, serialise and convert from the first moment of the process, with an empty cache, while other code calls get_fields of any class, let a thread switch fall between any two operations on objects and on the cache, and let any call be broken off there, also within get_fields: every history is, but for the cache, a history of threads that have the fields at hand - the same objects created, the same children skipped, the same results. So each call returns and raises what it does alone, never a KeyError of the cache; the cache only ever holds the fields of the class they are stored for; and every call ends after finitely many steps of its own.",
  "every number of threads, every mix of calls, every interleaving of their single steps on objects and on the cache, every order of first uses of the classes",
  "quantifies over all schedules; a cache that is visible before it is filled fails only if a switch falls between two particular operations at the first use of a class",
  ["atlas_doc_parser/mark_or_node.py:Base.get_fields", "atlas_doc_parser/mark_or_node.py:Base.from_dict", "atlas_doc_parser/mark_or_node.py:BaseMark.from_dict", "atlas_doc_parser/mark_or_node.py:BaseNode.from_dict", "atlas_doc_parser/nodes/parse_node.py:parse_node", "atlas_doc_parser/marks/parse_mark.py:parse_mark"])

p("The warning setting may change at any time",
  "When from_dict skips a child whose type is not implemented it reads settings.WARN_UNIMPLEMENTED_TYPE and logs if that is on. Let anybody change the setting at any time, between any two steps of any number of threads that parse, serialise and convert. Then what a call returns or raises and what it does to objects is the same as if the setting had always been on, or always off; it logs exactly the children for which the setting was on when it was read for this child, in the order of the document, none twice; the children it skips are all that it would have warned about with the setting always on; and if nobody changes the setting it logs all of them, or none.",
  "every history of changes of the setting, every number of threads, every interleaving, every document",
  "quantifies over all moments at which the setting changes",
  ["atlas_doc_parser/settings.py", "atlas_doc_parser/mark_or_node.py:BaseNode.from_dict", "atlas_doc_parser/nodes/parse_node.py:parse_node"])

p("Objects that contain themselves are refused, shared objects are not",
  "JSON text cannot contain itself, but the dicts and nodes of a program can: a node appended to the content list of one of its descendants, a dict put into its own content list. to_dict of a node, mark or attrs object from which an object can be reached that contains itself raises RecursionError, whatever the recursion limit - it neither returns a truncated dict nor leaves out the part that repeats; and, with a recursion limit no smaller than the number of objects, it raises RecursionError only then: sharing (one mark in two texts, one node in two lists, to any depth) is no reason. parse_node and NodeXxx.from_dict of a dict that is its own descendant through content lists of supported nodes, or that has such a descendant, never return a node, whatever the recursion limit, and the exception is not one that the parsing of a surrounding node skips, so that no document is returned that lacks it. to_markdown with ignore_error=False of a node that would have to be converted in order to convert itself, or that would have to convert such a node, never returns a text, whatever the recursion limit and the level. Sharing alone is no reason for any of them to fail: lists and dicts of which none contains itself are a JSON value, nested no deeper than there are objects, so that everything said of JSON values is true of them, and with a recursion limit larger than the number of objects neither parse_node, parse_mark, from_dict nor to_markdown of nodes of which none contains itself raises RecursionError; and what parsing returns does not contain itself, so that it can be serialised and converted.",
  "every heap of objects with every kind of sharing and cycles, every recursion limit, every position of the cycle",
  "quantifies over all graphs of objects and all recursion limits; a test can try only some cycles at some depth",
  ["atlas_doc_parser/mark_or_node.py:Base.to_dict", "atlas_doc_parser/mark_or_node.py:BaseNode.to_dict", "atlas_doc_parser/mark_or_node.py:BaseMark.to_dict", "atlas_doc_parser/mark_or_node.py:BaseNode.from_dict", "atlas_doc_parser/nodes/parse_node.py:parse_node", "atlas_doc_parser/mark_or_node.py:BaseNode.to_markdown", "atlas_doc_parser/markdown_helpers.py:content_to_markdown", "atlas_doc_parser/markdown_helpers.py:doc_content_to_markdown"])

if __name__ == "__main__":
    with open(os.path.join(os.path.dirname(os.path.abspath(__file__)), "..", "properties.jsonl"), "w") as f:
        for x in P:
            f.write(json.dumps(x, ensure_ascii=False) + "\n")
    print(len(P))
