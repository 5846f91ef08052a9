# id -> theorems of /verif added or strengthened because of this attempt
TIGHTENED = {
 "te_1": ["C14_members"],
 "gh_1": ["C44_statements"],
 "v2_5": ["C10_unimplemented_iff", "C10_mark_unimplemented_iff"],
 "fd2_8": ["C10_not_a_dict"],
 "js_15": ["C81_reads", "C81_strings"],
 "fc_12": ["C71_downloaded"],
 "im_2": ["C40_marks"],
}
# id -> remark
REMARK = {
 "te_1": "A mechanical mutant of this kind survived before: the values of the enum were only required to be distinct. C14_members now lists them.",
 "gh_1": "A mechanical mutant of this kind survived before: the fixed part of api.py was not described. C44_statements now lists its statements.",
 "v2_5": "C10 was stated with the model's own notion of hashable; now it says: neither a list nor a dict.",
 "fd2_8": "First attempt survived: C10 only said that the error is one of three kinds; a theorem for values that are not dicts was added.",
 "js_15": "scanStr_sound and scanStr_complete fail; the example in Props/Json then exhausts memory, so the audit is incomplete. First attempt survived: the decoder was only characterised on what the encoder writes, which never uses surrogate pairs; it is now characterised on the whole grammar.",
 "fc_12": "First attempt survived: nothing was said about the file of a process that is not disturbed; C71_downloaded was added.",
 "d2_2": "Equivalent: the table is read for year 1 only, which is no leap year, so no claim is broken.",
 "st_7": "Not a program: Lean cannot show that the edited definition terminates.",
 "js_23": "Lemmas/Json fails directly; Props/Json was killed for memory, which counts as caught only because of the lemma.",
 "js_24": "Lemmas/Json fails directly; Props/Json was killed for memory, which counts as caught only because of the lemma.",
}
