# Formal model of atlas_doc_parser in Lean 4

The library turns Atlassian Document Format (ADF) JSON into frozen dataclass trees (`from_dict`,
`parse_node`, `parse_mark`), back into dicts (`to_dict`) and into Markdown (`to_markdown`).
All of that is pure logic over JSON trees and strings, so almost everything can be modelled as
total computable Lean functions with exceptions as values.

## Layout (lean/Verif)

| module | content |
|---|---|
| `Py/Str.lean` | Python `str` operations used by the code: `replace`, `split("\n")`, `splitlines(True)`, `join`, `strip/rstrip/lstrip(" ")`, `*`, `str(int)`, `int(str)` |
| `Py/Val.lean` | Python values that can occur in a (de)serialised document: JSON values plus the `OPT` sentinel; exceptions; environment of un-modelled runtime functions |
| `Model/TypeEnum.lean` | `TypeEnum`, `check_type_match`, the two registries |
| `Model/Schema.lean` | every mark/node class's dataclass fields with their defaults |
| `Model/Objects.lean` | mark / node / attrs instances |
| `Model/FromDict.lean` | `Base/BaseMark/BaseNode.from_dict`, `parse_mark`, `parse_node`, logging |
| `Model/ToDict.lean` | `to_dict` |
| `Model/Marks.lean` | every mark's `to_markdown`, `add_style_to_markdown` |
| `Model/Date.lean` | the calendar arithmetic behind `NodeDate.to_markdown` |
| `Model/Float.lean` | the double arithmetic behind `NodeDate.to_markdown` |
| `Model/Markdown.lean` | the loops of `markdown_helpers.py`, every node's `to_markdown`, dynamic dispatch |
| `Model/Interrupt.lean` | `to_markdown`, `parse_node`, `from_dict` where the calls at given places of the tree raise (full stack, no memory) |
| `Model/Settings.lean` | `from_dict` while `settings.WARN_UNIMPLEMENTED_TYPE` changes |
| `Model/Pipeline.lean` | README.rst:55-66: text to Markdown, text to text |
| `Model/Heap.lean` | the same `from_dict` functions as programs over a heap of mutable objects (`copy.deepcopy` with its memo, in-place updates), for aliasing |
| `Model/HeapOut.lean` | the same for `to_dict` (`dataclasses.asdict`, `remove_optional`, in-place updates of `data`) |
| `Model/HeapMd.lean` | the same for `to_markdown`: reads of attributes, content lists and marks, lists filled in place. Simplified: a list made and joined without a conversion in between is a value; the elements of a content list are read when its loop starts, attrs and marks when `to_markdown` starts |
| `Model/Prog.lean` | programs as trees of single operations on objects (look at an object, create one, append to a list, replace one, log): run to the end, or one step at a time |
| `Model/HeapProg.lean` | parsing and `to_dict` over the heap (`Model/Heap.lean`, `Model/HeapOut.lean`) as such programs |
| `Model/Threads.lean` | threads that have called `parse_node`, `parse_mark`, `from_dict`, `to_dict` or `to_markdown` and take turns after any single operation; other code that leaves the documents in use alone. Assumes what CPython's GIL gives: an attribute lookup, the creation of a list or dict, `list.append` and an item assignment are atomic; iterating over a container that nobody may change meanwhile is one look at it |
| `Model/Cache.lean` | the `_CLASS_FIELD` cache, with any number of threads |
| `Model/FieldsProg.lean` | parsing as in `Model/HeapProg.lean`, asking `get_fields` and reading the setting where the code does; threads of such calls |
| `Model/Message.lean` | `exc.py`: text of UnimplementedTypeError and of the warnings |
| `Model/Equality.lean` | the generated `__eq__` of the dataclasses, `==` of JSON values |
| `Model/Kwargs.lean` | `Base.to_kwargs`, calling a class with keyword arguments (generated `__init__`, `__post_init__` of func_args) |
| `Model/Hash.lean` | the generated `__hash__` |
| `Model/Json.lean` | `json.dumps` and `json.loads` of the standard library |
| `Model/FileCache.lean` | `PageSample.adf`, `AdfJsonSchema.data`: processes, system calls, crashes; UTF-8 text files |
| `Model/GenMain.lean` | `gen_code.main`: any number of runs, system calls, crashes |
| `Model/Analyze.lean` | scripts/s01-adf-json-schema-analysis: `extract_refs`, `get_base_type`, `topological_sort`, the dependency graph of `main` |
| `Model/Report.lean` | the same script: `extract_type_enums`, the text of the report |
| `Model/Checks.lean` | tests/helper.py: `check_seder`, `check_markdown` (without printing) |
| `Model/Download.lean` | scripts/s02-download-unit-test-data/step1_download.py: `main` against a file system and a server (no symbolic links; the requests of `get_page_by_id` are any answer) |
| `Model/Crawl.lean` | scripts/crawl_atlas_doc_reference/step1_crawl_document.py (the HTML parser and `prettify` are parameters; `use_cache=False` and `reset_dir_cache`, which nothing calls, are left out; diskcache = atomic, durable, evicts nothing) |
| `Model/Trace.lean` | the same code as `Model/Markdown.lean`, with the calls of `to_markdown` recorded and the frames on the stack counted (proved equal to it without the record) |
| `Model/Stack.lean` | `parse_node`, `parse_mark`, `from_dict` and `copy.deepcopy` again, with the frames on the stack counted (proved equal to `Model/FromDict.lean` without the count); helpers with a constant number of frames are not counted |
| `Model/NodeGen.lean` | scripts/s02-nodes-code-gen/s1_gen_code.py and its templates: names, merging of `allOf`, attributes, module texts, parse.py, mixin stubs, the plan of `main` |
| `Model/NodeGenMain.lean` | `main` of that script as processes over files, with crashes and other people's edits |
| `Model/GenCode.lean` | `gen_code.py` and its template: scanning, grouping, rendering api.py |
| `Spec/*.lean` | small independent specifications used in statements: `Registry`, `Parse`, `Keys`, `Serial`, `Text`, `Md`, `Calendar`, `Lists`, `Tables`, `Preserve`, `Heap`, `Gen`, `Lenient`, `Message`, `Relevant`, `Context`, `Nesting`, `Inline`, `Equality`, `Timestamp`, `Failure`, `Lossless`, `Reference` (the ADF reference), `RefMarkdown`, `Json`, `FileCache`, `Analyze`, `NodeGen`, `JsonGrammar`, `Chunks`, `Reading` (block rules of CommonMark), `Shows` |
| `Lemmas/*.lean` | helper lemmas, `Samples.lean` = concrete documents used in examples and counterexamples |
| `Conform/*.lean` | generated: the model gives what the project's own tests expect of 65 samples (round trip and Markdown), checked by the kernel; tests of the model, not theorems |
| `Props/*.lean` | the property theorems, one file per area, with non-vacuity examples |

Outside `lean/`: `tools/props.py` writes `properties.jsonl`, `tools/status.py` + `tools/manifest.py` write
`MANIFEST.json`, `tools/conform.py` writes `Conform/`, `tools/conformance.py` evaluates the model on the repository's own 58 ADF
samples (not part of any proof), `tools/json_conformance.py` compares the model's
`json` with the interpreter's on random texts, `tools/mutants.py` + `tools/mutate.py` +
`tools/seedlog.py` are the seeded-bug campaign whose outcome is `seeded/LOG.jsonl`.

## How values and control flow are represented

* A Python `str` is `List Char` (lone surrogates are not representable).
* A JSON number is `int n` or `float r` with `r` the Python repr text; the float's numeric value is
  used only through the environment (`int(float)`).
* A dict is an association list, lookup = first match; Python dicts have unique keys, which is stated as
  a hypothesis where it matters.
* Exceptions are values of `PyErr`; `except Exception` catches all of them; logging is a writer.
* A loop is structural recursion / a fold; dynamic dispatch on the object's class is a match on `NodeCls`.
* Runtime functions whose result the code only passes on are parameters (`Env`): `str()` of a float /
  list / dict / sentinel, upper-casing of non-ASCII characters, digit value of non-ASCII digits,
  truncation of floats. All theorems hold for every `Env`.

## Plan per property

| id | modelled by | proof |
|---|---|---|
| C01, C08, C09, C10 | `Model/FromDict` with a writer for warnings | induction on the content list; mutual induction over JSON trees for the log |
| C02 | `Model/FromDict` + an inductive relation "same JSON up to unknown keys" | mutual induction |
| C03, C13, C14 | `Model/TypeEnum`, registries as finite tables lifted to all strings | case analysis |
| C04, C05, C06 | `Model/ToDict` | mutual induction over parsed trees; C06 is false in the code (mark attrs keep OPT): negation proved by witness + `_partial` |
| C07 | constructor model over field specs | iff characterisation, then "well-formed everywhere" by induction |
| C11 | heap model with addresses, deepcopy, in-place dict update | frame / freshness invariant |
| C12 | cache as state machine | induction over call histories |
| C15, C16 | `replace` model | run-length decomposition; C16 false in the code: witness + `_partial` |
| C17, C18, C19, C20 | `Model/Markdown` | loop lemmas, mutual induction over trees; C20 false: witness + what does hold |
| C21, C22 | `Model/Markdown` + spec of text extraction | mutual induction with `List.Sublist`; C22 false: witnesses |
| C23, C24 | `Model/Marks` | fold laws, case analysis |
| C25, C26, C27, C28, C41, C45 | list renderers | characterisation by independent spec; C27, C28 (content-less task) and C41 are false in the code: witnesses + partial |
| C29, C30 | decision renderers | invariant of the line loop |
| C31, C32 | table renderers | counting unescaped pipes; line counts |
| C33, C34 | `textwrap.indent` model over `splitlines` | round trip |
| C35, C36 | code block, heading | exact form; the fence-recovery half of C35 is false for code containing a fence: witness + partial |
| C37 | civil-from-days arithmetic (`Model/Date`), the float division and the split into microseconds (`Model/Float`); `Spec/Calendar`, `Spec/Timestamp` (which values `int()` accepts) | round trip between day number and (y, m, d), `omega`; rounding-error bounds over the rationals; `int(str)` by reverse induction on the string |
| C38, C39, C40, C42, C43 | per-class renderers | case analysis / induction |
| C44, C48 | `Model/GenCode` | a section's lines = exactly the belonging names, sorted, no duplicates; C48 false: witness + `_partial` |
| C49 | `Model/HeapOut` | writes only to new objects (`Safe`), result built from new objects; refinement: the heap program agrees with `Model/ToDict` on every finite object graph |
| C50 | `Model/Markdown`; `Spec/Lenient` | induction on the tree: each loop with `ignore_error` equals the strict loop over the remaining children (errors included) |
| C51 | `Model/FromDict`; `Spec.SameKeys` | every field is looked up by name: lookups agree after a swap of neighbours; induction on the place of the swap; swaps generate all permutations (`C51_permutations`) |
| C52 | `Model/Message`; `Spec/Message` | text of each warning computed from `C08_warnings`; cancellation on both sides of the type |
| C53 | `Model/Markdown`; `Spec/Relevant` | `norm` erases what no parent reads; induction on the tree: agreeing trees have the same normal form; minimality by two nodes per attribute |
| C54 | `Model/Markdown`; `Spec/Context` | what a parent reads of a child is its type and rendering (`outer`); induction on the context; runs via concatenation |
| C55 | `Model/Markdown`; `Spec/Nesting` | the clean-up and `indent` keep non-empty lines; induction on the nesting |
| C56 | `Model/Marks`; `Spec/Inline` | relational reader, proved functional; exact condition via maximal runs |
| C57 | `Model/Marks`; `Spec/Inline` | executable reader with depth counter; exact condition by induction on label and address |
| C58 | `Model/Marks`; `Spec/Inline` | exact condition: first and last character |
| C59 | `Model/Equality`; `Spec/Equality` | parsing respects `==`: induction on the JSON value, `==` of dicts via lookups; to_dict respects `==`: induction on the node; iff via the round trip C04 |
| C60 | `Model/Equality`, `Model/Markdown`; `Spec/Equality`, `Spec/Relevant` | equal nodes with simple values satisfy the hypothesis of C53 |
| C73, C74 | `Model/Analyze`; `Spec/Analyze` (greedy order, cycles as transitive closure, references as an inductive predicate) | loop invariant (in-degree = open dependencies, queue = ready entries), pigeonhole for the left-over entries, uniqueness of the order |
| C75 | `Model/NodeGen.camelToSnake` (two regex substitutions as folds); `Spec/NodeGen.snake`, `pascal` (one local rule) | induction over the name; injectivity of the rule on camelCase names |
| C76 | `Model/NodeGen.extract`, templates; `Spec/NodeGen.Declares`, `Requires`, `hint`, lines | invariants of merging `allOf` in place; text = unlines of the specified lines |
| C77, C78 | `Model/NodeGen.plan`; `Spec/NodeGen.Wanted`, `parseLines`, `Display` | the in-place changes are invisible (an equivalence of schemas preserved by every step), permutation invariance of lookup and sort |
| C79, C80 | `Model/NodeGenMain` (labelled transition system over files) | invariants over histories (who can be about to write a mixin); a run alone computes `doAll`; progress by induction over the plan; concrete histories for the counterexamples |
| C72 | `Model/GenMain` (labelled transition system) | invariant after the last open: all writers write the same bytes, what the last opener has written is there |
| C69, C70, C71 | `Model/FileCache` (labelled transition system, any number of processes); `Spec/FileCache` | invariants over all executions: every file is the content with missing bytes; zero bytes and beginnings cannot be decoded (C68); UTF-8 facts from Lean's `String` library |
| C81 | `Model/Json`; `Spec/JsonGrammar` (the grammar of RFC 8259 as inductive relations between text and value) | soundness by induction on the decoder's recursion bound, completeness by induction on derivations of the grammar |
| C68 | `Model/Json`, `Model/FromDict`, `Model/ToDict`; `Spec/Json` (plain data) | the parser depends only on what it consumes; parse after encode by induction on the value; `to_dict` keeps data plain by induction on the node; truncation by comparing the two runs |
| C67 | `Model/Markdown`; `Spec/RefMarkdown` (four reasons not to convert, as an inductive predicate on the JSON) | per section of the reference: faults of C63 are exactly the reasons; then induction on the JSON tree, list levels as an invariant |
| C66 | `Model/FromDict`, `Model/ToDict`; `Spec/Reference` (`Strict`, `NoExpandMarks`, `FullLinks`) | C64 plus induction on validity |
| C65 | `Model/FromDict`; `Spec/Reference` (the reference, transcribed section by section, and validity as an inductive predicate) | the library's required fields are among the reference's (finite tables, `decide`); then induction on validity |
| C64 | `Model/FromDict`, `Model/ToDict`, `Model/Equality`; `Spec/Lossless` | `Val.eq` on dicts as agreement of lookups; induction on the JSON tree |
| C63 | `Model/Markdown`; `Spec/Failure` (which parts are converted with which level, the faults of each class) | per-class characterisation, then induction on the size of the tree; marks by induction on the list |
| C62 | `Model/Markdown`; `Spec/Md` | the two shared loops characterised by `MdAll`; marks by a fold |
| C61 | `Model/Hash`; `Spec/Equality` | field by field; `parse_node` inverted for the JSON-level condition |
| C82 | `Model/Markdown`; `Spec/Chunks` (blank lines, groups of lines) | what the clean-up does to lines (`Squeeze`), counting groups over appends; per class how its text begins and ends |
| C83 | `Model/Markdown`; `Spec/Reading` (a relation: the CommonMark block rules the output needs, with lazy continuation lines, and GFM tables), `Spec/Shows` (the blocks a node stands for) | a reading is unique (strong induction on the text's size); texts that can be put in a row (`Good`) closed under padding, joining and the clean-up; lists by induction over the nesting |
| C84 | `Model/Marks`, `Model/Markdown`; `Spec/Glyphs` (a reader of inline Markdown: code spans, links, images, delimiter runs with the flanking rules and the rule of three), `Spec/Words` (what inline nodes show; readable words) | induction on the layers of a text with the stack of open delimiters as invariant; then induction on the words; marks to layers by a fold |
| C85 | everything above; `Spec/Page` (what the editor shows: blocks of styled text; inline content of the blocks a reader finds; readable pages) | C83 and C84 composed: induction over what a node shows (`Shows`), the inline content of each block by C84 |
| C86, C87 | `Model/Interrupt` (a conversion in which the calls at given places of the tree raise); `Spec/Prune` (trees with parts taken out, places) | relation `Same` (the same or the exception) through every loop, induction on trees; lenient loops: what is skipped is taken out |
| C88 | `Model/Interrupt` (`parse_node` where given calls raise) | relation `AllOrNothing` (the same, or the exception after a prefix of the log) is a congruence for `bind` and the `except` clause; structural recursion on JSON |
| C89 | `Model/Settings` (a parse that reads the setting again for every skipped part) | the timed parse follows the plain one (`Follows`), a congruence for `bind`; structural recursion on JSON |
| C90 | `Model/Pipeline` (`json.loads`, `from_dict`, `to_markdown` in a row; `json.dumps(to_dict())`) | from C81 (JSON grammar), C51, C02 (`SameDoc`), C04 and the text round trip of C68 |
| C91, C92 | `Model/Report` (`extract_type_enums`, the text `main` writes) | `Spec/Report`: the facts of a schema as relations, the lines of the report as a function of the facts; induction on JSON, C73/C74 for the order; uniqueness of the facts gives reproducibility; C92 is false: nodes that refer to marks only are missing, exact condition + witness |
| C93, C94 | `Model/Checks` (`check_seder`, `check_markdown`, `textwrap.dedent` of CPython 3.10-3.13) | C93: C04 (round trip), C59 (`==`), induction that what `to_dict` writes is read without unconverted parts. C94: `Spec/Checks`: the text without its common indentation as a relation (unique); the loop of `dedent` computes the longest common prefix; the last part is false: lines of spaces, exact condition + witness |
| C95, C96 | `Model/Download`: one step is one system call or one request; every step may fail or be the last | C95: `Spec/Download`: `Saved` says what is at every path below the directory (unique); invariant over runs; a complete run is constructed from every finite directory (removal of longest paths first); reading back from C68's lemmas. C96: invariant (only paths below the directory are touched if no title goes up); the full claim is false: title `../x` |
| C97 | `Model/Markdown` (whole) | `Spec/Size`: size of a document. `Lemmas/Weight`: weighted lengths of texts (a newline, a leading space or a pipe costs more, because a parent may indent, escape or replace it), with the weight of every string operation; `Lemmas/SizeNode`, `Lemmas/SizeTree`: induction over the tree with a potential that depends on the list level. The full claim is false (`heading.level` and `indentation.level` are not checked); proved for levels ≤ L. Assumption `EnvOk` on Python's `str` of the unset value and on `upper`: an explicit hypothesis |
| C98 | `Model/Heap`, `Model/HeapOut` (every allocation) | `Spec/Cost`: lists and dicts of a value, objects of a tree, objects created. Upper bounds by induction over the value with the simulation of C11 / C49 (`Lemmas/HeapCost`, `Lemmas/HeapOutCost`: `Most m s k`); lower bounds for nested blockquotes (`Lemmas/HeapCostLow`, `Lemmas/HeapOutCostLow`: the objects of a copied chain are different and new, programs never remove objects). The linear claim is false. Only lists, dicts and instances are counted, not strings, stack frames or the argument dicts of `cls(**kwargs)` |
| C99 | `Model/Kwargs` (`to_kwargs`; the generated constructors with keyword arguments, which store what they are given) | entries of the serialised dict one by one (`Props/Kwargs.node_kwargs`, from the round trip C04 and C05); exact condition for attrs objects, marks and nodes |
| C100 | `Model/Crawl`: trees of BeautifulSoup, `find_all`, the two loops | `Spec/Crawl`: places of a tree, `IsMain`; `find_all` lists the places in lexicographic order (mutual induction over trees), then the first one with the property |
| C101, C102 | `Model/Crawl`: histories of runs with a cache that survives; one step is one request, one operation of the cache or one file; every step may fail or be the last | C101: what follows an answer in a trace; the cache only grows. C102: invariant of a run (pages done so far, files built from them), which determines the files; with a full cache no request; `C102_possible`: a run can return |
| C103 | `Model/Trace`: the functions of `Model/Markdown` with a record of the calls | `C103_same`: without the record they are the functions of `Model/Markdown` (refinement, induction over trees); `Spec/Trace`: the places of a tree, the rule of each class; the record is a sublist of the places (`C103_order`), the places are strictly increasing (`C103_places`); a strict record is a prefix of the calls the rules name (`C103_stops`), all of them on success (`C103_exact`) |
| C104 | `Model/Stack`, `Model/Trace`: the greatest number of frames of self-calling functions at one time | `C104_same`: without the count they are the functions of `Model/FromDict`; `Spec/Stack`: the levels of a tree; `C104_convert` (≤ 2 per level), `C104_parse` (copying and two), `C104_linear`, `C104_half` by induction over trees and JSON; `C104_attained`: both bounds are reached at every depth; `C104_no_overflow`: with `C86_undisturbed`, no call of a conversion lies deeper than the stack that sufficed for parsing |
| C105 | `Model/HeapMd`: `to_markdown` of every class as a program over the heap of objects | `C105_unchanged` for every heap, object and recursion limit: each program writes only to lists it made (`Keep`); `C105_agrees`: a simulation of `Model/Markdown` (induction on the depth, `Sim` for programs, `LoopSim` for loops that append), so strings come out equal; `C105_again`; boundary `C105_text_object` |
| C106 | the heap models of parsing, `to_dict`, `to_markdown`; `History`: any sequence of their calls and of writes by the program | `C106_keeps` by induction over the history from C11, C49, C105; `C106_parsed`: with the agreement theorems, the value semantics holds at every later time; the program's promise is only not to write to the objects the one `parse_node` call created |
| C107 | `Model/Threads`: any number of calls, interleaved step by step (`Model/Prog`), with arbitrary other code; a call may be broken off before any of its operations (`Left`); here the calls of `to_markdown` | rely–guarantee: `TInv` (what a call creates is its own, programs write to nothing else) and `Fine` (a weakest precondition over all behaviours of the environment, `wp`) are invariants of `Reach`; `C107_result` (value semantics for every thread in every schedule), `C107_alone`, `C107_private`, `C107_unchanged`, `C107_ends` (well-founded steps), `C107_sequential` (`run` is iterated `next`) |
| C108 | the same, calls of `parse_node`, `parse_mark`, `from_dict`, `to_dict`, `to_markdown` (`Model/HeapProg`: the programs of `Model/Heap` and `Model/HeapOut` step by step, `run_*`: equal to them when uninterrupted) | `Par`: a program run in lockstep with itself, with objects at other addresses (induction over the programs: no function depends on where its objects are); invariant `Same` of `Reach`: what is left of a call and what is left of it alone are `Par` and the heaps correspond (`Two`), hence `C108_returns` (isomorphic results, `Spec/Iso`), `C108_raises`, `C108_log`, `C108_argument`, `C108_fresh`, `C108_apart`; with C11 and C49 the value semantics: `C108_parse`, `C108_to_dict` |
| C109 | `Model/FieldsProg`: the same threads, where `get_fields` is up to three operations on the shared cache (`Model/Cache`), from an empty cache; other code calls `get_fields` too | refinement: `erase` (fields at hand) commutes with the programs (`erase_*`, induction on the recursion bound); a step with the cache is a step without it or leaves the rest alone (`next_erase`, with the invariant of C12); so `Reach` erases to `Threads.Reach` (`C109_unseen`) and C108 holds: `C109_returns`, `C109_raises`, `C109_parse`; `C109_fields`; `C109_ends` (well-founded steps for arbitrary heaps and caches) |
| C110 | the same model: a skipped child reads the setting in one step and logs in the next; `Step.set` changes it at any time; a ghost list records each skipped child with the value read | the erasure of C109 for either constant value of the setting (`Call.const`); `Quiet`: nothing but skipped children is logged (induction over the programs); `C110_result` (value of the setting makes no difference), `C110_log` (exactly the children whose read was on; complete when over), `C110_parse` (value semantics), `C110_always` |
| C111 | `Model/HeapOut.lean` and `Model/Heap.lean` unchanged (they never assumed acyclic heaps); `Spec/Cycle.lean`: `Inside`, `HasCycle`, `HasNodeCycle` | `asdict` on a heap without dangling references either returns, and then nothing reachable is in a cycle, or hits the limit (induction on the limit and the items); without a cycle the objects below `x` are levels of a finite tree (the set of reachable objects shrinks), so no call in `to_dict` hits a limit that is no smaller than the number of objects; for parsing: a set of dicts each of which has a child in the set survives `deepcopy` (partial correctness of `deepcopy` on arbitrary graphs: the memo is an isomorphism) and the attrs step, so the conversion loop reaches one with a smaller limit; for `to_markdown` (`Converts`: which children a class converts): each class runs the conversion of a child that fails, or has failed before, since its loop only creates objects and reads the content as it was; conversely a heap part without a cycle is a tree of a depth bounded by the number of objects (`Fin`), lists and dicts that are such a tree are a `Json` value (so C11 applies), and `to_markdown` of such a tree descends with the limit (`C111_*`) |
| C46, C47 | table renderers under two stricter readings of Markdown | false in the code: exact count + witness |

Nothing is declared not expressible.

## Properties that are false of the code

The theorems named `_false` prove that a property a user would expect (usually one the docstrings state) does not
hold, with a concrete document that `parse_node` really produces; `_partial` theorems say what does hold, wherever
possible as an "if and only if".

| id | what fails | where |
|---|---|---|
| C06 | `to_dict` leaves the `OPT` sentinel inside the attrs of link / breakout / fragment marks | mark_or_node.py:163-168 |
| C16 | two blank lines survive when seven or more newlines meet (three passes are not enough) | markdown_helpers.py:28-55 |
| C20 | `ignore_error=True` reaches only one level: one bad grandchild drops the whole block | markdown_helpers.py:58-163 |
| C22 | indentation marks and titled links replace the text; captions, media groups and stray list children vanish | mark_indentation.py:35-39, mark_link.py:44-52, node_caption.py, node_media_group.py |
| C27 | an ordered list without attrs raises AttributeError at the top level | node_ordered_list.py:88-91 |
| C28 | a task without content raises TypeError | node_task_list.py:91-111 |
| C35 | code containing a line that starts with three back ticks cannot be recovered | node_code_block.py:54-71 |
| C41 | a bullet list inside an ordered list (or vice versa) is rendered at level 0 | node_bullet_list.py:75-95, node_ordered_list.py:97-117 |
| C46, C47 | `\\|` in a cell and carriage returns break the row for stricter Markdown readers | node_table_cell.py:85-104 |
| C82 | a table, task list, image, extension or decision list runs into the paragraph after it (no blank line is put between) | markdown_helpers.py:141-163 |
| C83 | text is not escaped (`# a` becomes a heading), two lists in a row are one list, blank lines in code are lost, a fence in code ends it, a list in an item of a list of the other kind is not indented, nor is code or a second paragraph in an item, tasks, decisions and tables run into the paragraph after them, a header column gives a separator below each row | markdown_helpers.py:17-38, 141-163, node_code_block.py, node_ordered_list.py |
| C84 | text is not escaped (`*a*`, `` `a` ``, `[a](u)`); two strong (or code) texts in a row run together; strong text that ends with a space, or with punctuation before a letter, keeps its stars; `code` after `link` or `strong` (the order of the editor) shows their Markdown; a title replaces the text | node_text.py, mark_strong.py:19-26, mark_code.py:22-33, mark_link.py:44-52, markdown_helpers.py:166-200 |
| C85 | what C83 and C84 list; a numbered list in an item always starts with 1; an item whose text begins with `[ ] ` becomes a task; `<br>` in the text of a cell breaks the line; lists in a cell are plain text; the link of a single media block is dropped, and the title of a link replaces the image in it | node_ordered_list.py:88-117, node_bullet_list.py, node_table_cell.py:85-104, node_media_single.py:83-87, mark_link.py:44-52 |
| C87 | with `ignore_error=True` a block nested too deeply for the stack is silently missing (RecursionError is an Exception) | markdown_helpers.py:88-99, 141-158 |
| C48 | a checkout below a directory called `marks` generates an api.py without nodes | gen_code.py:52-112 |
| C56 | inline code containing exactly two neighbouring back ticks ends early | mark_code.py:22-33 |
| C57 | brackets in a label, parentheses or spaces in an address are not escaped | mark_link.py:44-52 |
| C60 | `order: true` starts a list at `True.` and equals `order: 1` (bools are ints) | node_ordered_list.py:88-91, mark_or_node.py:206 |
| C66 | a link without `title` gets the `OPT` sentinel; marks of an `expand` are dropped | mark_or_node.py:163-168, node_expand.py |
| C70 | a process killed while it writes the cache file leaves a file that every later access fails on | tests/data/samples.py:85-91, tests/data/schema.py:23-31 |
| C69 | concurrent writers of different versions of a page can leave a mixture that is returned as data | tests/data/samples.py:88-90 |
| C75 | two definitions can get the same module name; the later one overwrites the earlier | s1_gen_code.py:camel_to_snake, main |
| C78 | two definitions with the same first `type` value share a registry key; one class is never used | s1_gen_code.py:472-480, templates/parse.py.jinja2 |
| C79 | `exists()` and `open(.., "w")` are two steps: a mixin created in between is lost | s1_gen_code.py:567-573, 579-585 |
| C80 | a run killed inside `open(path_mixin, "w")` leaves an empty mixin that all later runs keep; without the directory mixins (as in this checkout) the script overwrites nodes/ and then raises | s1_gen_code.py:560-585 |
| C68 | a link without `title` cannot be written as JSON text (TypeError) | mark_or_node.py:163-168 |
| C67 | strict conversion of valid documents raises: numbered list without `attrs`, card with `data` instead of `url`, timestamp without a date, inline code over a newline | node_ordered_list.py:88-91, node_inline_card.py, node_date.py, mark_code.py:26-29 |
| C58 | `**bold **` is not emphasis: the delimiters are put outside of leading/trailing white space | mark_strong.py:19-26, mark_em.py, mark_strike.py |
| C92 | the report's list of base types without node dependencies leaves out those whose definitions refer to marks | scripts/s01-adf-json-schema-analysis |
| C94 | no expected text matches the Markdown of a code block with a line of spaces (`textwrap.dedent` empties such lines) | tests/helper.py |
| C96 | a page whose title starts with `/` or contains `..` is written outside the directory | scripts/s02-download-unit-test-data/step1_download.py |
| C97 | `heading.level` and `indentation.level` are not checked: a level of a million gives a million `#` (or indentation) | node_heading.py, mark_indentation.py |
| C98 | every level of nesting copies everything below it again: quadratic in the depth | mark_or_node.py:222-304 |
| C99 | the constructors do not convert their arguments: an object with attrs, children or marks is not equal to `cls(**x.to_kwargs())` | mark_or_node.py:61-65 |

## Trusted base

**Kernel and axioms.** Lean 4.33.0's kernel; no axioms besides Lean's own `propext`, `Classical.choice` and
`Quot.sound` (a theorem uses a subset of these; `vcheck` prints them). No `native_decide`, no `bv_decide`, no
compiled code, no axioms of our own. Mathlib is used only for list lemmas.

**The model is written by hand** from the Python text; each definition cites the lines it stands for. What connects
model and code is reading, and tests of the model against data in /repo, which was only read: `tools/conform.py` turns each of the
67 samples that the project's tests use (tests/data/samples.py, tests/adf_samples/) into a check that the model parses it,
serialises it to the same JSON after a round trip and renders the Markdown the test expects. 65 of them are in `Conform/`, checked by the kernel
at every build; two (a draw.io page, a large table) only by `#eval`, since the kernel needs too much memory. Nothing in /repo was executed.

**Modelled code**: type_enum.py; mark_or_node.py (all of `Base`, `BaseMarkOrNode`, `BaseMark`, `BaseNode` except
`__repr__`-like inherited helpers and `is_opt`, which is `is OPT`); exc.py (`UnimplementedTypeError`'s attributes and text); settings.py (the flag);
markdown_helpers.py; marks/*.py; nodes/*.py; gen_code.py with templates/api.py.jinja (without the printed progress messages and
the final `write_text`).

**Not modelled**: paths.py, logger configuration, `_version.py`, scripts/ (except what the layout table lists), bin/, tests (except the cache in tests/data and the two checks of tests/helper.py), documentation, packaging.

**Assumptions about libraries and the interpreter** (they are not proved, the model builds them in):

* `func_args`: a field left at `REQ` raises `ParamError` in `__post_init__`; `remove_optional(**d)` drops exactly the top-level
  keys whose value is the `OPT` object; `OPT` keeps its identity through `copy.deepcopy` and `dataclasses.asdict`, has no
  attributes of ours, is not iterable and not subscriptable.
* A dict is an association list with string keys; JSON objects have unique keys (a hypothesis where it matters).
* `str` is a sequence of Unicode scalar values (no lone surrogates); `str.isspace`, `splitlines` line ends and
  ASCII upper-casing / digits are spelled out, non-ASCII upper-casing and digits are parameters.
* Files: `open(path, "w")` truncates in place or creates, `write` writes some of the bytes at the descriptor's offset (a gap
  reads as zeros), deleting a path leaves open files alone; system calls are atomic; UTF-8 decoding is strict (Lean's
  `ByteArray.utf8Decode?`); text files translate newlines as Python does.
* `json`: `Model/Json.lean` follows CPython's Lib/json (pure-Python encoder and decoder, `ensure_ascii=False`); `float(text)` is
  a parameter, of which C68 assumes that its `repr` has the usual shape and is read back to itself; the recursion limit and
  escaped lone surrogates are not modelled.
* Doubles are modelled by the rationals they denote: every operation is rounded to 53 bits, ties to even (`Model/Float.lean`).
  The exponent range is unbounded in the model (only instants far outside the years 1..9999 differ, and they raise either way).
  That CPython's int/int division is correctly rounded and that `fromtimestamp` takes the steps modelled is trusted; both were
  compared with CPython on 4000 instants (no difference).
* `==`: which integer a float is equal to is a parameter; two floats that are not integers are equal iff their `repr` is
  (CPython prints floats injectively; NaN, which JSON does not have, would be equal to itself). A field left unconverted is
  not equal to a converted one. The hash functions of atoms and tuples are parameters.
* NaN/infinite floats are only passed through. The 4300-digit limit of `int(str)` is not modelled.
* RecursionError and MemoryError are not modelled in the value model; `Model/Interrupt.lean` adds them: any set of calls of `to_markdown`,
  `parse_node`, `parse_mark` may raise; the heap model has a recursion bound and its
  theorems hold for every bound; `Model/Stack.lean` and `Model/Trace.lean` count the frames.
* In the value model nothing is shared or mutable. `Model/Heap.lean`, `Model/HeapOut.lean` and `Model/HeapMd.lean` remove that assumption for parsing, `to_dict` and
  `to_markdown`; `C11_agrees_*`, `C49_agrees_*`, `C105_agrees` prove that the models agree.
* Concurrency: only `get_fields` touches shared state, and is modelled with interleaving at the granularity of one dict
  operation (atomic under the GIL). Calls in different threads are interleaved at the granularity of one operation on an object (`Model/Threads.lean`). Mutating an input while a call is running is outside the model (`settings` may change at any moment: `Model/Settings.lean`).
* `attrs` left unconverted (`Slot.raw`) cannot be produced by `from_dict`; it exists in the model for objects built by hand.
* The node generator: `re.sub` with the two patterns of `camel_to_snake` is modelled by left-to-right scans; `[a-z]`, `[A-Z]`, `[0-9]` are ASCII; lower/upper-casing of non-ASCII letters is
  that of `Char.toLower/toUpper` (ASCII only), jinja2 renders with `trim_blocks` as in `Model/NodeGen.lean`; the loaded schema is a tree (no sharing between definitions).
* Generated code: `glob`, `Path.stem`, `inspect.getmembers` order and jinja whitespace control are modelled as described in `Model/GenCode.lean`.
