STATUS = {k: 'proved' for k in ('C01 C02 C03 C04 C05 C07 C08 C09 C10 C13 C14 C15 C17 C18 C19 C21 C23 C24 C25 C26 '
                                'C11 C12 C44 C29 C30 C31 C32 C33 C34 C36 C37 C38 C39 C40 C42 C43 C45 C49 C50 C51 C52 C53 C54 C55 C59 C61 C62 C63 C64 C65 C71 C72 C73 C74 C76 C77 C81 C86 C88 C89 C90 C91 C93 C95 C100 C101 C102 C103 C104 C105 C106 C107 C108 C109 C110 C111').split()}
for _k in 'C06 C16 C20 C22 C27 C28 C35 C41 C46 C47 C48 C56 C57 C58 C60 C66 C67 C68 C69 C70 C75 C78 C79 C80 C82 C83 C84 C85 C87 C92 C94 C96 C97 C98 C99'.split():
    STATUS[_k] = 'partial'
NOTE = {
 'C94': 'The last part is false of the code (C94_false: dedent empties lines of spaces, so no text matches the Markdown of a code block with such a line). C94_writable_partial: a Markdown can be expected exactly if no line between its first and last visible character has only spaces and tabs. The rest is proved in full (C94_meaning, C94_shifted).',
 'C93': 'Nodes and marks; attrs objects are not checked by the tests.',
 'C92': 'False of the code (C92_false): base types whose definitions refer only to marks are not listed. C92_leaves_partial: exactly the base types that refer to neither nodes nor marks are listed; so all that are listed have no node dependencies, and for schemas whose nodes refer to no marks the statement holds.',
 'C87': 'False of the code (C87_false: the loops catch Exception, which RecursionError is a subclass of; C87_lost: for every stack there is a quote that disappears from a document without an exception). C87_partial: holds whenever there is room for the depth of the document; C87_reported: in strict mode the exception always comes out.',
 'C85': 'False of the code (C85_false: a nested numbered list always starts with 1, an item whose text looks like a check box becomes a task, `<br>` in the text of a cell, lists in cells, the link of a single media block is dropped, a link with a title replaces the image in it, and what C83_false and C84_false show). C85_partial: holds for every parsed document that shows blocks (Shows, the conditions of C83) and whose inline content is readable (Clear, the conditions of C84, and the cells hold paragraphs of one line each).',
 'C75': 'Distinctness is false of the code (C75_false: bulletList_node and bullet_list_node). C75_names: the names exactly; C75_partial: the exact condition for a clash, and no clash among camelCase names.',
 'C78': 'False of the code (C78_false: two definitions with one type string). C78_partial: parse.py line by line, and what its registries give: of several definitions with a type string the alphabetically last.',
 'C79': 'False of the code (C79_false: a mixin created between exists() and open() is emptied). C79_initial, C79_partial: holds for what was there at the beginning, or was written while no run was active; C79_others: the untouched files.',
 'C80': 'False of the code (C80_false: a killed run leaves an empty mixin which all later runs keep). C80_run, C80_partial: what a complete run leaves in each file; C80_possible, C80_again; C80_no_mixins: without the directory mixins (as in this checkout) no run returns.',
 'C74': 'References are compared by base type, as the script does: a reference to a mark x_mark counts as a reference to a node type x if there is one.',
 'C69': 'False of the code (C69_false): two processes fill the cache while the page is edited, one is killed, the file is a mixture that parses. C69_partial: holds in every interleaving if the answer does not change; C69_partial_sequential: holds for changing answers if processes do not overlap (crashes allowed).',
 'C70': 'False of the code, of both programs and every document (C70_false): a process killed after open(path, "w") leaves a file nobody can read and nobody replaces. C70_partial: exact: a complete file serves everybody for ever, an incomplete one makes every access raise a decoding error for ever; C70_partial_ends, C70_partial_downloads: accesses terminate; without a file the data is obtained.',
 'C71': 'C71_once is about page samples, as the property says; C71_schema_asks_again shows that it is not true of the schema.',
 'C81': 'Of the code only the calls of json.loads belong to this repository; lone surrogates, which a Lean string cannot hold, are refused by the model.',
 'C68': 'False of the code (C68_false: a link mark that leaves out an optional attribute puts the OPT sentinel in the dict and json.dumps raises TypeError). C68_partial: writable iff no mark leaves out an attribute, and then text, data and document survive; C68_data: data in general; C68_cut: cut-off text.',
 'C66': 'False of the code (C66_false: a link without title, an expand with marks). C66_partial: the exact condition, no expand has marks and every link has all five attributes.',
 'C67': 'False of the code in strict mode (C67_false: four documents). C67_partial: the exact condition, none of the four reasons of Spec.Ref.Blocks anywhere in the document. The lenient half is proved (C67_lenient).',
 'C60': 'False of the code (C60_false: numbered lists with order 1 and True are equal, their Markdown is 1. and True.). C60_partial: holds if the text and the attributes the Markdown reads are not bools, floats, lists or dicts.',
 'C56': 'False of the code (C56_false: text a``b). C56_partial: holds iff the text has no run of exactly two back ticks; the reading is unique (reads_unique).',
 'C57': 'False of the code (C57_false: label a]b, address u)). C57_partial: the exact condition.',
 'C58': 'False of the code (C58_false: bold text with a trailing space). C58_partial: holds iff strip() leaves the text unchanged.',
 'C48': 'False of the code (C48_false): below a directory called marks no node class is exported '
        '(C48_nodes_lost). C48_partial: all other locations give the same text.',
 'C06': 'False of the code: BaseMark.to_dict does not drop OPT inside attrs (C06_false). C06_partial: '
        'exact condition under which it holds; C06_only_three: which marks are affected.',
 'C16': 'False of the code (C16_false): clean-up happens inside blocks that already end in newlines. '
        'C16_partial: exact condition; C16_partial_visible_blocks: a sufficient condition on the blocks.',
 'C20': 'False of the code (C20_false): ignore_error is not passed to most children. C20_partial: the '
        'document level: every block that converts contributes its text. C50_exact: what exactly is skipped, for every tree.',
 'C22': 'False of the code (C22_false_indentation, _link, _caption, _stray). C22_partial: text is lost only '
        'if one of the listed constructs occurs; C22_partial_classes: which classes ignore their children.',
 'C27': 'False of the code (C27_false; C27_false_reachable for a parsed document). C27_partial: the exact '
        'rendering of nested lists under the hypothesis that excludes the counterexample; C27_partial_exact: a list '
        'converts iff it is nested or has attrs and its items convert.',
 'C28': 'The last clause is false of the code (C28_false: a task without content raises TypeError). '
        'C28_partial: exact output for every task list whose tasks have content.',
 'C35': 'Verbatim half proved (C35_verbatim). The fence can be closed by the code itself (C35_false); '
        'C35_partial_recover: the exact condition under which the code can be read back.',
 'C82': 'False of the code (C82_false: table, task list, image, extension, decision or expand before a paragraph; C82_joined: every table and every task list). '
        'C82_partial_count, C82_partial: the exact condition; C82_partial_classes: which classes of blocks are always separated.',
 'C84': 'False of the code (C84_false: 16 paragraphs that are read otherwise, e.g. two strong texts in a row, strong text that ends with a space or with punctuation before a letter, a link with code whose marks are in the order of the editor, a link with a title, plain text "*a*"). '
        'C84_partial: inline content whose words are fine (Spec/Words: no character that would be a delimiter, no delimiter disturbed by its neighbours) is read as exactly what the nodes show. '
        'Missing: what C84_false shows is read wrongly; escapes, entities, HTML and bare addresses (the reader gives up or does not look for them), brackets in plain text, the same delimiter nested in itself.',
 'C83': 'False of the code (C83_false: 19 documents that are read as other blocks, e.g. two lists in a row, plain text "# a", code with two empty lines, an item with two paragraphs, a table before a paragraph, a table with a header column). '
        'C83_partial: documents that show their blocks (Spec/Shows: conditions on the texts and on neighbours) are read as these blocks and as nothing else; C83_unique: at most one reading; C83_plain_line. '
        'Missing: items with other content than a paragraph and a list of the same class, nested lists under numbers of three digits, tables without a header row; what C83_false shows is read wrongly.',
 'C46': 'False of the code (C46_false: content a\\|b). C46_partial_count: the exact number of cell boundaries; '
        'C46_partial: holds iff no pipe of the content is itself escaped.',
 'C47': 'False of the code (C47_false). C47_partial: a row has a carriage return iff the content of a cell has one; C47_partial_count: how many.',
 'C41': 'False of the code (C41_false). C41_partial: holds for lists of the same class; C41_partial_other: all other '
        'children are rendered at level 0.',
 'C95': 'C95_complete (+ C95_unique: it determines the directory), C95_readable, C95_interrupted, C95_possible (the hypotheses can be met), C95_slash (titles a/b).',
 'C96': 'False of the code (C96_false: a page titled ../x is written beside the directory). C96_partial: holds for titles that, as paths, do not start with / and have no part "..".',
 'C98': 'False of the code (C98_false, C98_false_to_dict: BaseNode.from_dict deep-copies, and to_dict calls asdict on, everything below at every level, so k nested blockquotes cost (k+1)^2 objects). '
        'C98_partial: at most 5 objects per level and list or dict for every entry point, with any sharing and whether it fails or not; C98_partial_to_dict: at most 6 per level and object; C98_partial_attained: quadratic growth occurs wherever the data is in memory.',
 'C99': 'False of the code (C99_false: a paragraph with a text). C99_attrs: holds for attrs objects. C99_node_partial, C99_mark_partial: the call always succeeds and gives the same object iff it has no attrs, children or marks; '
        'otherwise the new object is not equal to the old one. C99_to_dict_partial: it serialises like the old one unless there are children or marks; then to_dict raises AttributeError.',
 'C97': 'False of the code (C97_false: the level of a heading is not checked, so seven characters of JSON can ask for a million #). '
        'C97_partial: at most (10000 + L) N^2 characters for documents of size N whose heading and indentation levels are at most L (Atlassian: 6), for every str and upper that show the unset value in at most 60 characters and the capital form of a character in at most 3; '
        'C97_partial_attained: less than quadratic it is not (nested lists).',
}
