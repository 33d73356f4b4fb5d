{
 "C10": {
  "note": "False in the code: for the hidden title-case twin (C10_twin_left) and with COMPOUNDRULE (C10_rule_left). Proved otherwise: what is still accepted after the removal of a stem is accepted because of other stems."
 },
 "C13": {
  "note": "check: proved for all word lists whose repeated stems have equal flags. suggest: proved without similarity; with it the claim is false (C13_ngram_negation)."
 },
 "C24": {
  "note": "False under CHECKSHARPS (C24_negation); proved where no sharp s is looked for."
 },
 "C26": {
  "note": "False as a whole (three witnesses). Proved: the default checker never panics; termination for dictionaries without SIMPLIFIEDTRIPLE and without replacements that grow the word."
 },
 "C29": {
  "note": "CHECKCOMPOUNDTRIPLE is proved for all dictionaries (at every joint as it is written); CHECKCOMPOUNDCASE at all joints which are not replaced by CHECKCOMPOUNDPATTERN, where it is false (C29_case_replaced); CHECKCOMPOUNDDUP without COMPOUNDSYLLABLE, with which it is false."
 },
 "C30": {
  "note": "Soundness proved in full, and the exact set of accepted words for every dictionary (C30_rule_exact: one entry per text is looked at); the completeness claimed holds for dictionaries without homonyms and is false with them (witness)."
 },
 "C31": {
  "note": "False for COMPOUNDRULE (witness); proved for compounds without rules."
 },
 "C32": {
  "note": "False under COMPLEXPREFIXES (witness); proved without, and for all other shapes with it."
 },
 "C33": {
  "note": "False for the middle one of three interleaved affixes (witness); proved for all other affixes."
 },
 "C35": {
  "note": "The claim is proved for lines without white space directly behind the slash, where the two code paths disagree (witnesses); C35_line_exact says what every line denotes, C35_line_error what is wrong with every other line."
 },
 "C36": {
  "note": "Panics exist (C36_panics, and C36_panic_iff says exactly when); everything else is proved."
 },
 "C38": {
  "note": "Proved for the lines the statement names (a line at the end of the text; C78 for any number of lines at any place); for stems with a hidden twin the two differ (C38_twin says how, C38_twin_missing is a witness)."
 },
 "C39": {
  "note": "Proved as stated; C39_oconv_negation shows that the restriction to no OCONV is needed."
 },
 "C40": {
  "note": "Proved for the methods named in the statement; the three exceptions named there are proved to be exceptions."
 },
 "C41": {
  "note": "doubled_two_chars_suggest misses patterns at the end of the word (witness); all other methods are proved exact."
 },
 "C44": {
  "note": "False for more than 16 earlier suggestions (witness); proved otherwise."
 },
 "C45": {
  "note": "False (five witnesses). Proved under conditions which exclude them."
 },
 "C46": {
  "note": "False for edits (witness), proved for similarity."
 },
 "C47": {
  "note": "Proved for plain compounds (C61_limits: also with COMPOUNDSYLLABLE), and for the number of parts at replaced boundaries, where COMPOUNDROOT is not counted (C47_root_replaced); false with SIMPLIFIEDTRIPLE (witness)."
 },
 "C61": {
  "note": "For all dictionaries; the readings looked at are given by a choice function. C61_commits: valid compounds which the search misses."
 },
 "C66": {
  "note": "Equivalence for dictionaries on which the search for compounds ends (C26 shows others diverge), soundness for all. The readings looked at are given by a choice function."
 },
 "C67": {
  "note": "C66 without its hypotheses: dictionaries whose search for compounds does not end and checkers which also try title and upper case are included; gives panics and divergence exactly."
 },
 "C68": {
  "note": "Puts C39-C41, C45, C56-C60 together with C67: Spec.Suggested gives the list or the panic from the content; nothing is assumed of the dictionary beyond having been loaded."
 },
 "C69": {
  "note": "Suggestions by similarity depend on the hasher (C13_ngram_negation) and are left out. C69_order_matters: calls for the same stem may not be swapped. Entries with the same stem and different flags: C13_duplicates_negation."
 },
 "C70": {
  "note": "C66 for the plainest dictionaries, with parse included and everything told from the list of words: no flags, entries, tables or lookups in the statement. Mixed-case words whose title form would be longer than 65535 bytes are excluded (adding such a stem panics, C37)."
 },
 "C71": {
  "note": "The specifications of C02, C60, C66-C68, C70 use lower, upper and title case of the model; here these are told from the letters. C71_sigma_negation: title case has no rule for the last sigma, so Greek names ending in sigma are not found in capitals."
 },
 "C72": {
  "note": "The specification (Spec/FlagFaults, Spec/Faults) is written with the grammars of C34, C53 and C58 and does not use the readers of the model. Panics: C36_panic_iff."
 },
 "C73": {
  "note": "C73_layout is the general statement, the others its everyday cases. C73_blank_aff_witness and C73_blank_dic_witness show which blank lines matter."
 },
 "C74": {
  "note": "The messages of ParseIntError are those of the standard library. The two kinds of errors the parser never makes (UnexpectedNonWhitespace, Empty) are left out."
 },
 "C75": {
  "note": "Overflow of usize additions of lengths and counts is taken as impossible. For suggest see C80."
 },
 "C78": {
  "note": "Twins longer than 65535 bytes, with which loading panics (C36), are excluded. For suggestions by similarity see C13_ngram_negation."
 },
 "C79": {
  "note": "Depth of calls, not bytes of stack. The other recursions of check have constant bounds in the code (BREAK 9, sharp s 5)."
 },
 "C80": {
  "note": "Counterexample for stem lengths as in C75. Case mappings are taken to yield at least one character, as in the standard library."
 },
 "C81": {
  "note": "False (witnesses: inner capitals, FORCEUCASE, ICONV, OCONV). Proved under conditions which exclude them."
 },
 "C82": {
  "note": "C82_same: the counting program gives the answers of check."
 },
 "C83": {
  "note": "C83_same: the counting program gives the suggestions of suggest. The search for similar words (ngram.rs) makes no lookups; what it costs is not counted."
 },
 "C84": {
  "note": "The unconditional statement is false (C84_forbidden_negation, C84_compound_negation, C84_title_negation, C84_similar_negation)."
 },
 "C85": {
  "note": "The bound of the lookups is one number for each dictionary; it is not computed (there are finitely many words of at most 360 bytes, and each has a bound)."
 },
 "C87": {
  "note": "The hypothesis ByScore on the heaps holds for the real BinaryHeap, whose comparison reads the score only; it is proved for the heap of the examples."
 },
 "C88": {
  "note": "ByAppending (the order of affixes with the same text does not depend on their flags) holds for sort_unstable_by_key, whose comparison reads the appended text only; it is proved for the sort of the examples. The same layout of the hash table is assumed on both machines (for other layouts see C66). C88_order_needed and C88_nul_needed show that the two conditions on the texts are needed."
 },
 "C89": {
  "note": "SuffixFlagsStay is needed with COMPLEXPREFIXES only (C89_complex_needed). The bound of 1000 rules keeps the number of attempts at its upper limit, which more rules would lower (C89_effort); check needs no bound."
 },
 "C90": {
  "note": "NoConflict is needed (C90_conflict_needed); with similarity switched on the claim is false (C90_similarity); with thousands of repeated rules suggest tries fewer edits (C90_effort)."
 },
 "C91": {
  "note": "Both hypotheses are needed (C91_compounds, C91_flag_needed)."
 },
 "C92": {
  "note": "Both hypotheses are needed (C92_marks_needed, C92_compounds). Suggestions are not covered: the number of edits tried depends on the number of affixes."
 },
 "C93": {
  "note": "C93_asked_needed: a flag something asks about cannot be removed. The hypothesis ByScore on the heaps is as in C87."
 },
 "C94": {
  "note": "C94_text and C94_idle_text speak about the .aff texts; Without (Spec/Hints.lean) says that one text is the other without a block of one directive. C94_rep_needed: with CHECKCOMPOUNDREP the replacements matter."
 },
 "C95": {
  "note": "Block, WellCut and HasLines (Spec/Blocks.lean) say what the blocks of a text are. order_example and last_example apply the theorems to texts with tables, affixes and a comment. C95_flags_first: why FLAG and AF are excepted."
 },
 "C96": {
  "note": "TextsAlike (Spec/Respell.lean) says what differing in the spelling of flags only means. respell_alike: a text with AF and characters as flags, and the same with numbers."
 },
 "C97": {
  "note": "MoreRules, SameRuleSet and HasRow (Spec/MoreRules.lean) say what more rules, the same rules and the rows of a text are. rules_example and rules_more_example apply the theorems to texts with reordered, repeated and further rules. C97_marks_negation and C97_compound_negation: the conditions are needed."
 },
 "C98": {
  "note": "Block.Shuffled and NoTies (Spec/TableOrder.lean) say what a block with reordered rows and what competing conversions are. The example after tables_settings applies C98_check to two texts with three reordered tables. C98_iconv_negation, C98_pattern_negation and C98_alias_negation: the conditions are needed."
 },
 "C99": {
  "note": "CorrectByParts and OfParts (Spec/PartList.lean) speak of the list only. The example after partWords_long applies C99_part_list to a list with five words, accepts Haustorhaus-ist. and rejects hausist."
 },
 "C100": {
  "note": "Form, FormedSo, Formed and CorrectBy (Spec/FormList.lean) speak of the list and the rules only. The last example applies C100_form_list to a text with NEEDAFFIX, a prefix and two suffixes: Unhappily-unkemp. is accepted, kemp is not."
 },
 "C101": {
  "note": "PlaceRules, PlacedParts, PlacedSo and Placed (Spec/PlaceList.lean) speak of the list and the settings only. CHECKCOMPOUNDDUP compares the last two parts only, as the code does (see C29). The last example applies C101_place_list to a text with nine settings: Hausumstor is accepted; umshaus, ums, hausumstorhaus and haushaus are not."
 },
 "C102": {
  "note": "RulePart, RuledParts, RuledSo and RuledAny (Spec/RuleList.lean) speak of the list, the rules and the settings only; RuleAccepts is Mathlib's regular expressions. The last example is the ordinal numbers of the English dictionary: 21st, 12th and 201ST are accepted, 1th and 11st are not. Texts with two sets of flags are left out because the search looks at one entry of a text only (C30)."
 },
 "C103": {
  "note": "triedForms, Meets, Allowed, ListVerdict and GuardedWord (Spec/GuardList.lean) speak of the list and the flags only. Words in mixed case have a title form of their own unless they are forbidden, words in capitals even then (GuardTitle), as the parser does. Examples apply all four theorems to a text with all four settings."
 },
 "C104": {
  "note": "CutBy, MadeOfKnown and CorrectPrepared (Spec/PrepList.lean) speak of the list, the break lines and the ignored letters only; the conversion is any function whose results Converts (Spec/Tables.lean) allows. A word with dots at its end is also tried as it is, then with its ignored letters, as the code does. Sharpened and SharpBy (Spec/Sharp.lean) say which texts with sharp s count under CHECKSHARPS. Examples apply all five theorems."
 },
 "C105": {
  "note": "SlipOf and FarSlipOf (Spec/HintList.lean) are relations between two texts and the lines of the affix file; CorrectPrepared is that of C104. C105_returns needs of Unicode that no character becomes empty in another case or longer than four bytes in lower case. The exception for words with inner capitals behind a capital is real (C81_pascal_negation). Examples apply all five theorems."
 },
 "C106": {
  "note": "CorrectedTo and FixBy (Spec/CaseHints.lean) are relations between two texts, the list and the lines of the affix file; CorrectPrepared is that of C104. The condition that a suggestion is correct with its capitals is needed: suggestions which are not are looked up again in other cases. An example applies all five theorems."
 }
}