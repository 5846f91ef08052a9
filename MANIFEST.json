{
 "claims": [
  {
   "property": "C01",
   "status": "proved",
   "theorems": [
    "Verif.Props.C01_content",
    "Verif.Props.C01_marks",
    "Verif.Props.C01_prune"
   ],
   "note": ""
  },
  {
   "property": "C02",
   "status": "proved",
   "theorems": [
    "Verif.Props.C02_parse_node",
    "Verif.Props.C02_from_dict",
    "Verif.Props.C02_parse_mark"
   ],
   "note": ""
  },
  {
   "property": "C03",
   "status": "proved",
   "theorems": [
    "Verif.Props.C03_parse_node_class",
    "Verif.Props.C03_parse_mark_class"
   ],
   "note": ""
  },
  {
   "property": "C04",
   "status": "proved",
   "theorems": [
    "Verif.Props.C04_from_dict",
    "Verif.Props.C04_parse_node",
    "Verif.Props.C04_mark"
   ],
   "note": ""
  },
  {
   "property": "C05",
   "status": "proved",
   "theorems": [
    "Verif.Props.C05_idempotent",
    "Verif.Props.C05_fields",
    "Verif.Props.C05_mark"
   ],
   "note": ""
  },
  {
   "property": "C06",
   "status": "partial",
   "theorems": [
    "Verif.Props.C06_false",
    "Verif.Props.C06_partial",
    "Verif.Props.C06_only_three"
   ],
   "note": "False of the code: BaseMark.to_dict does not drop OPT inside attrs (C06_false). C06_partial: exact condition under which it holds; C06_only_three: which marks are affected."
  },
  {
   "property": "C07",
   "status": "proved",
   "theorems": [
    "Verif.Props.C07_from_dict_iff",
    "Verif.Props.C07_missing_key",
    "Verif.Props.C07_missing_attr",
    "Verif.Props.C07_mark_iff",
    "Verif.Props.C07_mark_missing",
    "Verif.Props.C07_complete"
   ],
   "note": ""
  },
  {
   "property": "C08",
   "status": "proved",
   "theorems": [
    "Verif.Props.C08_flag_irrelevant",
    "Verif.Props.C08_flag_irrelevant_from_dict",
    "Verif.Props.C08_silent",
    "Verif.Props.C08_warnings"
   ],
   "note": ""
  },
  {
   "property": "C09",
   "status": "proved",
   "theorems": [
    "Verif.Props.C09_content",
    "Verif.Props.C09_marks",
    "Verif.Props.C09_never"
   ],
   "note": ""
  },
  {
   "property": "C10",
   "status": "proved",
   "theorems": [
    "Verif.Props.C10_unimplemented_iff",
    "Verif.Props.C10_from_dict_errors",
    "Verif.Props.C10_parse_node_errors",
    "Verif.Props.C10_mark_unimplemented_iff",
    "Verif.Props.C10_not_a_dict"
   ],
   "note": ""
  },
  {
   "property": "C11",
   "status": "proved",
   "theorems": [
    "Verif.Props.C11_unchanged",
    "Verif.Props.C11_input_same",
    "Verif.Props.C11_fresh",
    "Verif.Props.C11_isolated",
    "Verif.Props.C11_agrees_node",
    "Verif.Props.C11_agrees_class",
    "Verif.Props.C11_agrees_mark",
    "Verif.Props.C11_attrs_class_shares"
   ],
   "note": ""
  },
  {
   "property": "C12",
   "status": "proved",
   "theorems": [
    "Verif.Props.C12_every_schedule",
    "Verif.Props.C12_finishes",
    "Verif.Props.C12_every_history",
    "Verif.Props.C12_result_is_the_cache"
   ],
   "note": ""
  },
  {
   "property": "C13",
   "status": "proved",
   "theorems": [
    "Verif.Props.C13_node_registry",
    "Verif.Props.C13_mark_registry",
    "Verif.Props.C13_disjoint"
   ],
   "note": ""
  },
  {
   "property": "C14",
   "status": "proved",
   "theorems": [
    "Verif.Props.C14_is_type_of",
    "Verif.Props.C14_order_irrelevant",
    "Verif.Props.C14_members"
   ],
   "note": ""
  },
  {
   "property": "C15",
   "status": "proved",
   "theorems": [
    "Verif.Props.C15_runs",
    "Verif.Props.C15_other_chars",
    "Verif.Props.C15_bounds",
    "Verif.Props.C15_at_most_two",
    "Verif.Props.C15_clean"
   ],
   "note": ""
  },
  {
   "property": "C16",
   "status": "partial",
   "theorems": [
    "Verif.Props.C16_false",
    "Verif.Props.C16_partial",
    "Verif.Props.C16_partial_visible_blocks"
   ],
   "note": "False of the code (C16_false): clean-up happens inside blocks that already end in newlines. C16_partial: exact condition; C16_partial_visible_blocks: a sufficient condition on the blocks."
  },
  {
   "property": "C17",
   "status": "proved",
   "theorems": [
    "Verif.Props.C17_total"
   ],
   "note": ""
  },
  {
   "property": "C18",
   "status": "proved",
   "theorems": [
    "Verif.Props.C18_block_containers",
    "Verif.Props.C18_plain_containers"
   ],
   "note": ""
  },
  {
   "property": "C19",
   "status": "proved",
   "theorems": [
    "Verif.Props.C19_lenient_same"
   ],
   "note": ""
  },
  {
   "property": "C20",
   "status": "partial",
   "theorems": [
    "Verif.Props.C20_false",
    "Verif.Props.C20_partial"
   ],
   "note": "False of the code (C20_false): ignore_error is not passed to most children. C20_partial: the document level: every block that converts contributes its text. C50_exact: what exactly is skipped, for every tree."
  },
  {
   "property": "C21",
   "status": "proved",
   "theorems": [
    "Verif.Props.C21_preserved",
    "Verif.Props.C21_parsed"
   ],
   "note": ""
  },
  {
   "property": "C22",
   "status": "partial",
   "theorems": [
    "Verif.Props.C22_partial",
    "Verif.Props.C22_partial_classes",
    "Verif.Props.C22_false_indentation",
    "Verif.Props.C22_false_link",
    "Verif.Props.C22_false_caption",
    "Verif.Props.C22_false_stray"
   ],
   "note": "False of the code (C22_false_indentation, _link, _caption, _stray). C22_partial: text is lost only if one of the listed constructs occurs; C22_partial_classes: which classes ignore their children."
  },
  {
   "property": "C23",
   "status": "proved",
   "theorems": [
    "Verif.Props.C23_all_marks",
    "Verif.Props.C23_wraps",
    "Verif.Props.C23_blank",
    "Verif.Props.C23_link",
    "Verif.Props.C23_plain",
    "Verif.Props.C23_indentation",
    "Verif.Props.C23_fold",
    "Verif.Props.C23_input",
    "Verif.Props.C23_no_marks",
    "Verif.Props.C23_any_text"
   ],
   "note": ""
  },
  {
   "property": "C24",
   "status": "proved",
   "theorems": [
    "Verif.Props.C24_raises_iff",
    "Verif.Props.C24_result",
    "Verif.Props.C24_single_line"
   ],
   "note": ""
  },
  {
   "property": "C25",
   "status": "proved",
   "theorems": [
    "Verif.Props.C25_bullets",
    "Verif.Props.C25_line_by_line"
   ],
   "note": ""
  },
  {
   "property": "C26",
   "status": "proved",
   "theorems": [
    "Verif.Props.C26_numbers",
    "Verif.Props.C26_kth",
    "Verif.Props.C26_decimal",
    "Verif.Props.C26_start_exists"
   ],
   "note": ""
  },
  {
   "property": "C27",
   "status": "partial",
   "theorems": [
    "Verif.Props.C27_false",
    "Verif.Props.C27_false_reachable",
    "Verif.Props.C27_partial",
    "Verif.Props.C27_partial_exact"
   ],
   "note": "False of the code (C27_false; C27_false_reachable for a parsed document). C27_partial: the exact rendering of nested lists under the hypothesis that excludes the counterexample; C27_partial_exact: a list converts iff it is nested or has attrs and its items convert."
  },
  {
   "property": "C28",
   "status": "partial",
   "theorems": [
    "Verif.Props.C28_partial",
    "Verif.Props.C28_false",
    "Verif.Props.C28_checkbox",
    "Verif.Props.C28_state"
   ],
   "note": "The last clause is false of the code (C28_false: a task without content raises TypeError). C28_partial: exact output for every task list whose tasks have content."
  },
  {
   "property": "C29",
   "status": "proved",
   "theorems": [
    "Verif.Props.C29_decision",
    "Verif.Props.C29_converts"
   ],
   "note": ""
  },
  {
   "property": "C30",
   "status": "proved",
   "theorems": [
    "Verif.Props.C30_decisions"
   ],
   "note": ""
  },
  {
   "property": "C31",
   "status": "proved",
   "theorems": [
    "Verif.Props.C31_cell",
    "Verif.Props.C31_row",
    "Verif.Props.C31_one_line"
   ],
   "note": ""
  },
  {
   "property": "C32",
   "status": "proved",
   "theorems": [
    "Verif.Props.C32_table",
    "Verif.Props.C32_same_width",
    "Verif.Props.C32_line_count",
    "Verif.Props.C32_empty_row"
   ],
   "note": ""
  },
  {
   "property": "C33",
   "status": "proved",
   "theorems": [
    "Verif.Props.C33_prefixed",
    "Verif.Props.C33_recover",
    "Verif.Props.C33_lines_exist"
   ],
   "note": ""
  },
  {
   "property": "C34",
   "status": "proved",
   "theorems": [
    "Verif.Props.C34_prefixed",
    "Verif.Props.C34_label_then_content",
    "Verif.Props.C34_label",
    "Verif.Props.C34_types"
   ],
   "note": ""
  },
  {
   "property": "C35",
   "status": "partial",
   "theorems": [
    "Verif.Props.C35_verbatim",
    "Verif.Props.C35_attrs",
    "Verif.Props.C35_partial_recover",
    "Verif.Props.C35_false"
   ],
   "note": "Verbatim half proved (C35_verbatim). The fence can be closed by the code itself (C35_false); C35_partial_recover: the exact condition under which the code can be read back."
  },
  {
   "property": "C36",
   "status": "proved",
   "theorems": [
    "Verif.Props.C36_heading",
    "Verif.Props.C36_single_line",
    "Verif.Props.C36_level"
   ],
   "note": ""
  },
  {
   "property": "C37",
   "status": "proved",
   "theorems": [
    "Verif.Props.C37_utc_date",
    "Verif.Props.C37_one_date",
    "Verif.Props.C37_every_day",
    "Verif.Props.C37_order",
    "Verif.Props.C37_raises",
    "Verif.Props.C37_one_instant",
    "Verif.Props.C37_timestamp",
    "Verif.Props.C37_has_timestamp"
   ],
   "note": ""
  },
  {
   "property": "C38",
   "status": "proved",
   "theorems": [
    "Verif.Props.C38_inlineCard",
    "Verif.Props.C38_blockCard",
    "Verif.Props.C38_embedCard",
    "Verif.Props.C38_raises"
   ],
   "note": ""
  },
  {
   "property": "C39",
   "status": "proved",
   "theorems": [
    "Verif.Props.C39_emoji",
    "Verif.Props.C39_mention",
    "Verif.Props.C39_status",
    "Verif.Props.C39_extension",
    "Verif.Props.C39_fixed",
    "Verif.Props.C39_attrs_exist"
   ],
   "note": ""
  },
  {
   "property": "C40",
   "status": "proved",
   "theorems": [
    "Verif.Props.C40_media",
    "Verif.Props.C40_marks",
    "Verif.Props.C40_attrs_exist"
   ],
   "note": ""
  },
  {
   "property": "C41",
   "status": "partial",
   "theorems": [
    "Verif.Props.C41_false",
    "Verif.Props.C41_partial",
    "Verif.Props.C41_partial_other"
   ],
   "note": "False of the code (C41_false). C41_partial: holds for lists of the same class; C41_partial_other: all other children are rendered at level 0."
  },
  {
   "property": "C42",
   "status": "proved",
   "theorems": [
    "Verif.Props.C42_blocks_in_order",
    "Verif.Props.C42_only_blocks"
   ],
   "note": ""
  },
  {
   "property": "C43",
   "status": "proved",
   "theorems": [
    "Verif.Props.C43_returns_str",
    "Verif.Props.C43_text_exception",
    "Verif.Props.C43_omitted_content"
   ],
   "note": ""
  },
  {
   "property": "C44",
   "status": "proved",
   "theorems": [
    "Verif.Props.C44_exports",
    "Verif.Props.C44_statements",
    "Verif.Props.C44_deterministic"
   ],
   "note": ""
  },
  {
   "property": "C45",
   "status": "proved",
   "theorems": [
    "Verif.Props.C45_depth",
    "Verif.Props.C45_indent"
   ],
   "note": ""
  },
  {
   "property": "C46",
   "status": "partial",
   "theorems": [
    "Verif.Props.C46_partial_count",
    "Verif.Props.C46_partial",
    "Verif.Props.C46_false"
   ],
   "note": "False of the code (C46_false: content a\\|b). C46_partial_count: the exact number of cell boundaries; C46_partial: holds iff no pipe of the content is itself escaped."
  },
  {
   "property": "C47",
   "status": "partial",
   "theorems": [
    "Verif.Props.C47_partial_count",
    "Verif.Props.C47_partial",
    "Verif.Props.C47_false"
   ],
   "note": "False of the code (C47_false). C47_partial: a row has a carriage return iff the content of a cell has one; C47_partial_count: how many."
  },
  {
   "property": "C48",
   "status": "partial",
   "theorems": [
    "Verif.Props.C48_partial",
    "Verif.Props.C48_nodes_lost",
    "Verif.Props.C48_false"
   ],
   "note": "False of the code (C48_false): below a directory called marks no node class is exported (C48_nodes_lost). C48_partial: all other locations give the same text."
  },
  {
   "property": "C49",
   "status": "proved",
   "theorems": [
    "Verif.Props.C49_unchanged",
    "Verif.Props.C49_fresh",
    "Verif.Props.C49_result_isolated",
    "Verif.Props.C49_object_isolated",
    "Verif.Props.C49_agrees_node",
    "Verif.Props.C49_agrees_mark",
    "Verif.Props.C49_parse_then_serialise"
   ],
   "note": ""
  },
  {
   "property": "C50",
   "status": "proved",
   "theorems": [
    "Verif.Props.C50_exact",
    "Verif.Props.C50_from_dict"
   ],
   "note": ""
  },
  {
   "property": "C51",
   "status": "proved",
   "theorems": [
    "Verif.Props.C51_parse_node",
    "Verif.Props.C51_from_dict",
    "Verif.Props.C51_parse_mark",
    "Verif.Props.C51_permutations"
   ],
   "note": ""
  },
  {
   "property": "C52",
   "status": "proved",
   "theorems": [
    "Verif.Props.C52_injective",
    "Verif.Props.C52_logged",
    "Verif.Props.C52_log_determines",
    "Verif.Props.C52_root",
    "Verif.Props.C52_mark"
   ],
   "note": ""
  },
  {
   "property": "C53",
   "status": "proved",
   "theorems": [
    "Verif.Props.C53_relevant",
    "Verif.Props.C53_parsed",
    "Verif.Props.C53_minimal"
   ],
   "note": ""
  },
  {
   "property": "C54",
   "status": "proved",
   "theorems": [
    "Verif.Props.C54_exchange",
    "Verif.Props.C54_runs",
    "Verif.Props.C54_split_text",
    "Verif.Props.C54_empty_text",
    "Verif.Props.C54_lists_look_inside"
   ],
   "note": ""
  },
  {
   "property": "C55",
   "status": "proved",
   "theorems": [
    "Verif.Props.C55_lines",
    "Verif.Props.C55_converts"
   ],
   "note": ""
  },
  {
   "property": "C56",
   "status": "partial",
   "theorems": [
    "Verif.Props.C56_partial",
    "Verif.Props.C56_false"
   ],
   "note": "False of the code (C56_false: text a``b). C56_partial: holds iff the text has no run of exactly two back ticks; the reading is unique (reads_unique)."
  },
  {
   "property": "C57",
   "status": "partial",
   "theorems": [
    "Verif.Props.C57_partial",
    "Verif.Props.C57_false"
   ],
   "note": "False of the code (C57_false: label a]b, address u)). C57_partial: the exact condition."
  },
  {
   "property": "C58",
   "status": "partial",
   "theorems": [
    "Verif.Props.C58_partial",
    "Verif.Props.C58_false"
   ],
   "note": "False of the code (C58_false: bold text with a trailing space). C58_partial: holds iff strip() leaves the text unchanged."
  },
  {
   "property": "C59",
   "status": "proved",
   "theorems": [
    "Verif.Props.C59_parse_node",
    "Verif.Props.C59_from_dict",
    "Verif.Props.C59_parse_mark",
    "Verif.Props.C59_equivalence",
    "Verif.Props.C59_to_dict",
    "Verif.Props.C59_to_dict_iff"
   ],
   "note": ""
  },
  {
   "property": "C60",
   "status": "partial",
   "theorems": [
    "Verif.Props.C60_partial",
    "Verif.Props.C60_false"
   ],
   "note": "False of the code (C60_false: numbered lists with order 1 and True are equal, their Markdown is 1. and True.). C60_partial: holds if the text and the attributes the Markdown reads are not bools, floats, lists or dicts."
  },
  {
   "property": "C61",
   "status": "proved",
   "theorems": [
    "Verif.Props.C61_hash",
    "Verif.Props.C61_hash_mark",
    "Verif.Props.C61_error",
    "Verif.Props.C61_hashable_iff",
    "Verif.Props.C61_content"
   ],
   "note": ""
  },
  {
   "property": "C62",
   "status": "proved",
   "theorems": [
    "Verif.Props.C62_paragraph",
    "Verif.Props.C62_transparent",
    "Verif.Props.C62_expand",
    "Verif.Props.C62_nested_expand",
    "Verif.Props.C62_silent",
    "Verif.Props.C62_child_fails",
    "Verif.Props.C62_parsed_marks"
   ],
   "note": ""
  },
  {
   "property": "C63",
   "status": "proved",
   "theorems": [
    "Verif.Props.C63_string",
    "Verif.Props.C63_raises_iff",
    "Verif.Props.C63_fault_fails",
    "Verif.Props.C63_levels",
    "Verif.Props.C63_mark",
    "Verif.Props.C63_marks"
   ],
   "note": ""
  },
  {
   "property": "C64",
   "status": "proved",
   "theorems": [
    "Verif.Props.C64_lossless_iff",
    "Verif.Props.C64_mark_iff"
   ],
   "note": ""
  },
  {
   "property": "C65",
   "status": "proved",
   "theorems": [
    "Verif.Props.C65_parses",
    "Verif.Props.C65_warnings",
    "Verif.Props.C65_described_silent",
    "Verif.Props.C65_described_whole"
   ],
   "note": ""
  },
  {
   "property": "C66",
   "status": "partial",
   "theorems": [
    "Verif.Props.C66_partial",
    "Verif.Props.C66_false"
   ],
   "note": "False of the code (C66_false: a link without title, an expand with marks). C66_partial: the exact condition, no expand has marks and every link has all five attributes."
  },
  {
   "property": "C67",
   "status": "partial",
   "theorems": [
    "Verif.Props.C67_partial",
    "Verif.Props.C67_lenient",
    "Verif.Props.C67_false"
   ],
   "note": "False of the code in strict mode (C67_false: four documents). C67_partial: the exact condition, none of the four reasons of Spec.Ref.Blocks anywhere in the document. The lenient half is proved (C67_lenient)."
  },
  {
   "property": "C68",
   "status": "partial",
   "theorems": [
    "Verif.Props.C68_false",
    "Verif.Props.C68_partial",
    "Verif.Props.C68_data",
    "Verif.Props.C68_cut"
   ],
   "note": "False of the code (C68_false: a link mark that leaves out an optional attribute puts the OPT sentinel in the dict and json.dumps raises TypeError). C68_partial: writable iff no mark leaves out an attribute, and then text, data and document survive; C68_data: data in general; C68_cut: cut-off text."
  },
  {
   "property": "C69",
   "status": "partial",
   "theorems": [
    "Verif.Props.C69_false",
    "Verif.Props.C69_partial",
    "Verif.Props.C69_partial_sequential"
   ],
   "note": "False of the code (C69_false): two processes fill the cache while the page is edited, one is killed, the file is a mixture that parses. C69_partial: holds in every interleaving if the answer does not change; C69_partial_sequential: holds for changing answers if processes do not overlap (crashes allowed)."
  },
  {
   "property": "C70",
   "status": "partial",
   "theorems": [
    "Verif.Props.C70_false",
    "Verif.Props.C70_partial",
    "Verif.Props.C70_partial_ends",
    "Verif.Props.C70_partial_downloads"
   ],
   "note": "False of the code, of both programs and every document (C70_false): a process killed after open(path, \"w\") leaves a file nobody can read and nobody replaces. C70_partial: exact: a complete file serves everybody for ever, an incomplete one makes every access raise a decoding error for ever; C70_partial_ends, C70_partial_downloads: accesses terminate; without a file the data is obtained."
  },
  {
   "property": "C71",
   "status": "proved",
   "theorems": [
    "Verif.Props.C71_cached",
    "Verif.Props.C71_downloaded",
    "Verif.Props.C71_once",
    "Verif.Props.C71_schema_asks_again"
   ],
   "note": "C71_once is about page samples, as the property says; C71_schema_asks_again shows that it is not true of the schema."
  },
  {
   "property": "C72",
   "status": "proved",
   "theorems": [
    "Verif.Props.C72_last",
    "Verif.Props.C72_untouched",
    "Verif.Props.C72_failed",
    "Verif.Props.C72_recovers"
   ],
   "note": ""
  },
  {
   "property": "C73",
   "status": "proved",
   "theorems": [
    "Verif.Props.C73_order",
    "Verif.Props.C73_needs_first",
    "Verif.Props.C73_deterministic",
    "Verif.Props.C73_unique"
   ],
   "note": ""
  },
  {
   "property": "C74",
   "status": "proved",
   "theorems": [
    "Verif.Props.C74_refs",
    "Verif.Props.C74_base_type",
    "Verif.Props.C74_order",
    "Verif.Props.C74_bad_ref",
    "Verif.Props.C74_needs_first",
    "Verif.Props.C74_deterministic"
   ],
   "note": "References are compared by base type, as the script does: a reference to a mark x_mark counts as a reference to a node type x if there is one."
  },
  {
   "property": "C75",
   "status": "partial",
   "theorems": [
    "Verif.Props.C75_names",
    "Verif.Props.C75_false",
    "Verif.Props.C75_partial"
   ],
   "note": "Distinctness is false of the code (C75_false: bulletList_node and bullet_list_node). C75_names: the names exactly; C75_partial: the exact condition for a clash, and no clash among camelCase names."
  },
  {
   "property": "C76",
   "status": "proved",
   "theorems": [
    "Verif.Props.C76_module",
    "Verif.Props.C76_type"
   ],
   "note": ""
  },
  {
   "property": "C77",
   "status": "proved",
   "theorems": [
    "Verif.Props.C77_again",
    "Verif.Props.C77_local",
    "Verif.Props.C77_which",
    "Verif.Props.C77_order",
    "Verif.Props.C77_files",
    "Verif.Props.C77_raises"
   ],
   "note": ""
  },
  {
   "property": "C78",
   "status": "partial",
   "theorems": [
    "Verif.Props.C78_partial",
    "Verif.Props.C78_false"
   ],
   "note": "False of the code (C78_false: two definitions with one type string). C78_partial: parse.py line by line, and what its registries give: of several definitions with a type string the alphabetically last."
  },
  {
   "property": "C79",
   "status": "partial",
   "theorems": [
    "Verif.Props.C79_initial",
    "Verif.Props.C79_partial",
    "Verif.Props.C79_others",
    "Verif.Props.C79_false"
   ],
   "note": "False of the code (C79_false: a mixin created between exists() and open() is emptied). C79_initial, C79_partial: holds for what was there at the beginning, or was written while no run was active; C79_others: the untouched files."
  },
  {
   "property": "C80",
   "status": "partial",
   "theorems": [
    "Verif.Props.C80_run",
    "Verif.Props.C80_possible",
    "Verif.Props.C80_again",
    "Verif.Props.C80_partial",
    "Verif.Props.C80_false",
    "Verif.Props.C80_no_mixins"
   ],
   "note": "False of the code (C80_false: a killed run leaves an empty mixin which all later runs keep). C80_run, C80_partial: what a complete run leaves in each file; C80_possible, C80_again; C80_no_mixins: without the directory mixins (as in this checkout) no run returns."
  },
  {
   "property": "C81",
   "status": "proved",
   "theorems": [
    "Verif.Props.C81_reads",
    "Verif.Props.C81_strings"
   ],
   "note": "Of the code only the calls of json.loads belong to this repository; lone surrogates, which a Lean string cannot hold, are refused by the model."
  },
  {
   "property": "C82",
   "status": "partial",
   "theorems": [
    "Verif.Props.C82_partial_count",
    "Verif.Props.C82_partial",
    "Verif.Props.C82_partial_classes",
    "Verif.Props.C82_joined",
    "Verif.Props.C82_false"
   ],
   "note": "False of the code (C82_false: table, task list, image, extension, decision or expand before a paragraph; C82_joined: every table and every task list). C82_partial_count, C82_partial: the exact condition; C82_partial_classes: which classes of blocks are always separated."
  },
  {
   "property": "C83",
   "status": "partial",
   "theorems": [
    "Verif.Props.C83_false",
    "Verif.Props.C83_unique",
    "Verif.Props.C83_partial",
    "Verif.Props.C83_plain_line"
   ],
   "note": "False of the code (C83_false: 19 documents that are read as other blocks, e.g. two lists in a row, plain text \"# a\", code with two empty lines, an item with two paragraphs, a table before a paragraph, a table with a header column). C83_partial: documents that show their blocks (Spec/Shows: conditions on the texts and on neighbours) are read as these blocks and as nothing else; C83_unique: at most one reading; C83_plain_line. Missing: items with other content than a paragraph and a list of the same class, nested lists under numbers of three digits, tables without a header row; what C83_false shows is read wrongly."
  },
  {
   "property": "C84",
   "status": "partial",
   "theorems": [
    "Verif.Props.C84_partial",
    "Verif.Props.C84_false"
   ],
   "note": "False of the code (C84_false: 16 paragraphs that are read otherwise, e.g. two strong texts in a row, strong text that ends with a space or with punctuation before a letter, a link with code whose marks are in the order of the editor, a link with a title, plain text \"*a*\"). C84_partial: inline content whose words are fine (Spec/Words: no character that would be a delimiter, no delimiter disturbed by its neighbours) is read as exactly what the nodes show. Missing: what C84_false shows is read wrongly; escapes, entities, HTML and bare addresses (the reader gives up or does not look for them), brackets in plain text, the same delimiter nested in itself."
  },
  {
   "property": "C85",
   "status": "partial",
   "theorems": [
    "Verif.Props.C85_partial",
    "Verif.Props.C85_false"
   ],
   "note": "False of the code (C85_false: a nested numbered list always starts with 1, an item whose text looks like a check box becomes a task, `<br>` in the text of a cell, lists in cells, the link of a single media block is dropped, a link with a title replaces the image in it, and what C83_false and C84_false show). C85_partial: holds for every parsed document that shows blocks (Shows, the conditions of C83) and whose inline content is readable (Clear, the conditions of C84, and the cells hold paragraphs of one line each)."
  },
  {
   "property": "C86",
   "status": "proved",
   "theorems": [
    "Verif.Props.C86_strict",
    "Verif.Props.C86_lenient",
    "Verif.Props.C86_block_containers",
    "Verif.Props.C86_plain_containers",
    "Verif.Props.C86_undisturbed",
    "Verif.Props.C86_deep_enough"
   ],
   "note": ""
  },
  {
   "property": "C87",
   "status": "partial",
   "theorems": [
    "Verif.Props.C87_reported",
    "Verif.Props.C87_lost",
    "Verif.Props.C87_partial",
    "Verif.Props.C87_false"
   ],
   "note": "False of the code (C87_false: the loops catch Exception, which RecursionError is a subclass of; C87_lost: for every stack there is a quote that disappears from a document without an exception). C87_partial: holds whenever there is room for the depth of the document; C87_reported: in strict mode the exception always comes out."
  },
  {
   "property": "C88",
   "status": "proved",
   "theorems": [
    "Verif.Props.C88_all_or_nothing",
    "Verif.Props.C88_from_dict",
    "Verif.Props.C88_undisturbed"
   ],
   "note": ""
  },
  {
   "property": "C89",
   "status": "proved",
   "theorems": [
    "Verif.Props.C89_parse_node",
    "Verif.Props.C89_from_dict"
   ],
   "note": ""
  },
  {
   "property": "C90",
   "status": "proved",
   "theorems": [
    "Verif.Props.C90_text_independent",
    "Verif.Props.C90_no_json",
    "Verif.Props.C90_stored"
   ],
   "note": ""
  },
  {
   "property": "C91",
   "status": "proved",
   "theorems": [
    "Verif.Props.C91_report",
    "Verif.Props.C91_unique",
    "Verif.Props.C91_deterministic",
    "Verif.Props.C91_phases"
   ],
   "note": ""
  },
  {
   "property": "C92",
   "status": "partial",
   "theorems": [
    "Verif.Props.C92_leaves_partial",
    "Verif.Props.C92_false"
   ],
   "note": "False of the code (C92_false): base types whose definitions refer only to marks are not listed. C92_leaves_partial: exactly the base types that refer to neither nodes nor marks are listed; so all that are listed have no node dependencies, and for schemas whose nodes refer to no marks the statement holds."
  },
  {
   "property": "C93",
   "status": "proved",
   "theorems": [
    "Verif.Props.C93_meaning",
    "Verif.Props.C93_second_comparison",
    "Verif.Props.C93_from_dict",
    "Verif.Props.C93_mark",
    "Verif.Props.C93_none"
   ],
   "note": "Nodes and marks; attrs objects are not checked by the tests."
  },
  {
   "property": "C94",
   "status": "partial",
   "theorems": [
    "Verif.Props.C94_meaning",
    "Verif.Props.C94_shifted",
    "Verif.Props.C94_writable_partial",
    "Verif.Props.C94_false"
   ],
   "note": "The last part is false of the code (C94_false: dedent empties lines of spaces, so no text matches the Markdown of a code block with such a line). C94_writable_partial: a Markdown can be expected exactly if no line between its first and last visible character has only spaces and tabs. The rest is proved in full (C94_meaning, C94_shifted)."
  },
  {
   "property": "C95",
   "status": "proved",
   "theorems": [
    "Verif.Props.Download.C95_complete",
    "Verif.Props.Download.C95_interrupted",
    "Verif.Props.Download.C95_unique",
    "Verif.Props.Download.C95_readable",
    "Verif.Props.Download.C95_possible",
    "Verif.Props.Download.C95_slash"
   ],
   "note": "C95_complete (+ C95_unique: it determines the directory), C95_readable, C95_interrupted, C95_possible (the hypotheses can be met), C95_slash (titles a/b)."
  },
  {
   "property": "C96",
   "status": "partial",
   "theorems": [
    "Verif.Props.Download.C96_partial",
    "Verif.Props.Download.C96_false"
   ],
   "note": "False of the code (C96_false: a page titled ../x is written beside the directory). C96_partial: holds for titles that, as paths, do not start with / and have no part \"..\"."
  },
  {
   "property": "C97",
   "status": "partial",
   "theorems": [
    "Verif.Props.Size.C97_partial",
    "Verif.Props.Size.C97_false",
    "Verif.Props.Size.C97_partial_attained"
   ],
   "note": "False of the code (C97_false: the level of a heading is not checked, so seven characters of JSON can ask for a million #). C97_partial: at most (10000 + L) N^2 characters for documents of size N whose heading and indentation levels are at most L (Atlassian: 6), for every str and upper that show the unset value in at most 60 characters and the capital form of a character in at most 3; C97_partial_attained: less than quadratic it is not (nested lists)."
  },
  {
   "property": "C98",
   "status": "partial",
   "theorems": [
    "Verif.Props.Cost.C98_partial",
    "Verif.Props.Cost.C98_partial_to_dict",
    "Verif.Props.Cost.C98_partial_attained",
    "Verif.Props.Cost.C98_false",
    "Verif.Props.Cost.C98_false_to_dict"
   ],
   "note": "False of the code (C98_false, C98_false_to_dict: BaseNode.from_dict deep-copies, and to_dict calls asdict on, everything below at every level, so k nested blockquotes cost (k+1)^2 objects). C98_partial: at most 5 objects per level and list or dict for every entry point, with any sharing and whether it fails or not; C98_partial_to_dict: at most 6 per level and object; C98_partial_attained: quadratic growth occurs wherever the data is in memory."
  },
  {
   "property": "C99",
   "status": "partial",
   "theorems": [
    "Verif.Props.Kwargs.C99_attrs",
    "Verif.Props.Kwargs.C99_node_partial",
    "Verif.Props.Kwargs.C99_to_dict_partial",
    "Verif.Props.Kwargs.C99_mark_partial",
    "Verif.Props.Kwargs.C99_false"
   ],
   "note": "False of the code (C99_false: a paragraph with a text). C99_attrs: holds for attrs objects. C99_node_partial, C99_mark_partial: the call always succeeds and gives the same object iff it has no attrs, children or marks; otherwise the new object is not equal to the old one. C99_to_dict_partial: it serialises like the old one unless there are children or marks; then to_dict raises AttributeError."
  },
  {
   "property": "C100",
   "status": "proved",
   "theorems": [
    "Verif.Props.Crawl.C100_main_div"
   ],
   "note": ""
  },
  {
   "property": "C101",
   "status": "proved",
   "theorems": [
    "Verif.Props.Crawl.C101_once",
    "Verif.Props.Crawl.C101_same"
   ],
   "note": ""
  },
  {
   "property": "C102",
   "status": "proved",
   "theorems": [
    "Verif.Props.Crawl.C102_complete",
    "Verif.Props.Crawl.C102_again",
    "Verif.Props.Crawl.C102_possible"
   ],
   "note": ""
  },
  {
   "property": "C103",
   "status": "proved",
   "theorems": [
    "Verif.Trace.C103_same",
    "Verif.Trace.C103_order",
    "Verif.Trace.C103_places",
    "Verif.Trace.C103_once",
    "Verif.Trace.C103_exact",
    "Verif.Trace.C103_stops",
    "Verif.Trace.C103_lenient"
   ],
   "note": ""
  },
  {
   "property": "C104",
   "status": "proved",
   "theorems": [
    "Verif.Stack.C104_convert",
    "Verif.Stack.C104_same",
    "Verif.Stack.C104_parse",
    "Verif.Stack.C104_half",
    "Verif.Stack.C104_attained",
    "Verif.Stack.C104_linear",
    "Verif.Stack.C104_no_overflow"
   ],
   "note": ""
  },
  {
   "property": "C105",
   "status": "proved",
   "theorems": [
    "Verif.Props.C105_unchanged",
    "Verif.Props.C105_object_same",
    "Verif.Props.C105_agrees",
    "Verif.Props.C105_string",
    "Verif.Props.C105_text_object",
    "Verif.Props.C105_again"
   ],
   "note": ""
  },
  {
   "property": "C106",
   "status": "proved",
   "theorems": [
    "Verif.Props.C106_keeps",
    "Verif.Props.C106_node",
    "Verif.Props.C106_parsed",
    "Verif.Props.C106_calls_only",
    "Verif.Props.C106_parse_again"
   ],
   "note": ""
  },
  {
   "property": "C107",
   "status": "proved",
   "theorems": [
    "Verif.Props.C107_result",
    "Verif.Props.C107_alone",
    "Verif.Props.C107_private",
    "Verif.Props.C107_unchanged",
    "Verif.Props.C107_ends",
    "Verif.Props.C107_sequential"
   ],
   "note": ""
  },
  {
   "property": "C108",
   "status": "proved",
   "theorems": [
    "Verif.Props.C108_returns",
    "Verif.Props.C108_raises",
    "Verif.Props.C108_log",
    "Verif.Props.C108_argument",
    "Verif.Props.C108_fresh",
    "Verif.Props.C108_apart",
    "Verif.Props.C108_parse",
    "Verif.Props.C108_to_dict"
   ],
   "note": ""
  },
  {
   "property": "C109",
   "status": "proved",
   "theorems": [
    "Verif.Props.C109_unseen",
    "Verif.Props.C109_returns",
    "Verif.Props.C109_raises",
    "Verif.Props.C109_parse",
    "Verif.Props.C109_fields",
    "Verif.Props.C109_ends"
   ],
   "note": ""
  },
  {
   "property": "C110",
   "status": "proved",
   "theorems": [
    "Verif.Props.C110_result",
    "Verif.Props.C110_log",
    "Verif.Props.C110_parse",
    "Verif.Props.C110_always"
   ],
   "note": ""
  },
  {
   "property": "C111",
   "status": "proved",
   "theorems": [
    "Verif.Props.C111_to_dict_cycle",
    "Verif.Props.C111_to_dict",
    "Verif.Props.C111_parse",
    "Verif.Props.C111_from_dict",
    "Verif.Props.C111_data",
    "Verif.Props.C111_parse_shared",
    "Verif.Props.C111_parsed",
    "Verif.Props.C111_to_markdown",
    "Verif.Props.C111_to_markdown_shared"
   ],
   "note": ""
  }
 ]
}