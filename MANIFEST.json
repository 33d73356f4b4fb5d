{
 "claims": [
  {
   "property": "C01",
   "status": "proved",
   "theorems": [
    "Spellbook.Props.C01_check_overlong",
    "Spellbook.Props.C01_suggest_overlong"
   ],
   "note": ""
  },
  {
   "property": "C02",
   "status": "proved",
   "theorems": [
    "Spellbook.Props.C02_check_empty",
    "Spellbook.Props.C02_suggest_empty"
   ],
   "note": ""
  },
  {
   "property": "C03",
   "status": "proved",
   "theorems": [
    "Spellbook.Props.C03_numbers_accepted",
    "Spellbook.Props.C03_number_grammar"
   ],
   "note": ""
  },
  {
   "property": "C04",
   "status": "proved",
   "theorems": [
    "Spellbook.Props.C04_listed_words"
   ],
   "note": ""
  },
  {
   "property": "C05",
   "status": "proved",
   "theorems": [
    "Spellbook.Props.C05_no_invented_words",
    "Spellbook.Props.C05_exact"
   ],
   "note": ""
  },
  {
   "property": "C06",
   "status": "proved",
   "theorems": [
    "Spellbook.Props.C06_completeness",
    "Spellbook.Props.C06_one_affix"
   ],
   "note": ""
  },
  {
   "property": "C07",
   "status": "proved",
   "theorems": [
    "Spellbook.Props.C07_forbidden_entry",
    "Spellbook.Props.C07_forbidden_listed"
   ],
   "note": ""
  },
  {
   "property": "C08",
   "status": "proved",
   "theorems": [
    "Spellbook.Props.C08_break_exact",
    "Spellbook.Props.C08_break_sound"
   ],
   "note": ""
  },
  {
   "property": "C09",
   "status": "proved",
   "theorems": [
    "Spellbook.Props.C09_result",
    "Spellbook.Props.C09_effect",
    "Spellbook.Props.C09_again",
    "Spellbook.Props.C09_rejected"
   ],
   "note": ""
  },
  {
   "property": "C10",
   "status": "partial",
   "theorems": [
    "Spellbook.Props.C10_lookup_partial",
    "Spellbook.Props.C10_removed_partial",
    "Spellbook.Props.C10_twin_left",
    "Spellbook.Props.C10_rule_left"
   ],
   "note": "False in the code: for the hidden title-case twin (C10_twin_left) and with COMPOUNDRULE (C10_rule_left). Proved otherwise: what is still accepted after the removal of a stem is accepted because of other stems."
  },
  {
   "property": "C11",
   "status": "proved",
   "theorems": [
    "Spellbook.Props.C11_added",
    "Spellbook.Props.C11_refused",
    "Spellbook.Props.C11_line"
   ],
   "note": ""
  },
  {
   "property": "C12",
   "status": "proved",
   "theorems": [
    "Spellbook.Props.C12_wordlist_is_multimap",
    "Spellbook.Props.C12_wordlist_length",
    "Spellbook.Props.C12_wordlist_iter"
   ],
   "note": ""
  },
  {
   "property": "C13",
   "status": "partial",
   "theorems": [
    "Spellbook.Props.C13_check_partial",
    "Spellbook.Props.C13_unique_stems",
    "Spellbook.Props.C13_duplicates_negation",
    "Spellbook.Props.C13_suggest_partial",
    "Spellbook.Props.C13_ngram_negation"
   ],
   "note": "check: proved for all word lists whose repeated stems have equal flags. suggest: proved without similarity; with it the claim is false (C13_ngram_negation)."
  },
  {
   "property": "C14",
   "status": "proved",
   "theorems": [
    "Spellbook.Props.C14_contains",
    "Spellbook.Props.C14_hasIntersection",
    "Spellbook.Props.C14_withFlag",
    "Spellbook.Props.C14_ext",
    "Spellbook.Props.C14_hasIntersection_any",
    "Spellbook.Props.C14_never_too_long"
   ],
   "note": ""
  },
  {
   "property": "C15",
   "status": "proved",
   "theorems": [
    "Spellbook.Props.C15_roundtrip",
    "Spellbook.Props.C15_eq",
    "Spellbook.Props.C15_too_long"
   ],
   "note": ""
  },
  {
   "property": "C16",
   "status": "proved",
   "theorems": [
    "Spellbook.Props.C16_prefixes_of",
    "Spellbook.Props.C16_suffixes_of",
    "Spellbook.Props.C16_index_of_any_list"
   ],
   "note": ""
  },
  {
   "property": "C17",
   "status": "proved",
   "theorems": [
    "Spellbook.Props.C17_parse_accepts",
    "Spellbook.Props.C17_prefix_condition",
    "Spellbook.Props.C17_suffix_condition",
    "Spellbook.Props.C17_no_condition"
   ],
   "note": ""
  },
  {
   "property": "C18",
   "status": "proved",
   "theorems": [
    "Spellbook.Props.C18_prefix_stem_of_derived",
    "Spellbook.Props.C18_suffix_stem_of_derived",
    "Spellbook.Props.C18_prefix_derived_of_stem",
    "Spellbook.Props.C18_suffix_derived_of_stem",
    "Spellbook.Props.C18_prefix_derived",
    "Spellbook.Props.C18_suffix_derived",
    "Spellbook.Props.C18_scratch_buffer",
    "Spellbook.Props.C18_scratch_buffer_utf8"
   ],
   "note": ""
  },
  {
   "property": "C19",
   "status": "proved",
   "theorems": [
    "Spellbook.Props.C19_break_line_kind",
    "Spellbook.Props.C19_break_table",
    "Spellbook.Props.C19_rep_line_kind",
    "Spellbook.Props.C19_replacement_table",
    "Spellbook.Props.C19_only_whole"
   ],
   "note": ""
  },
  {
   "property": "C20",
   "status": "proved",
   "theorems": [
    "Spellbook.Props.C20_conversion",
    "Spellbook.Props.C20_conversion_unique",
    "Spellbook.Props.C20_conversion_unchanged"
   ],
   "note": ""
  },
  {
   "property": "C21",
   "status": "proved",
   "theorems": [
    "Spellbook.Props.C21_rule_is_regex",
    "Spellbook.Props.C21_any_rule"
   ],
   "note": ""
  },
  {
   "property": "C22",
   "status": "proved",
   "theorems": [
    "Spellbook.Props.C22_casing"
   ],
   "note": ""
  },
  {
   "property": "C23",
   "status": "proved",
   "theorems": [
    "Spellbook.Props.C23_title_case",
    "Spellbook.Props.C23_all_capitals",
    "Spellbook.Props.C23_keepcase_title"
   ],
   "note": ""
  },
  {
   "property": "C24",
   "status": "partial",
   "theorems": [
    "Spellbook.Props.C24_keepcase_capitals_partial",
    "Spellbook.Props.C24_negation"
   ],
   "note": "False under CHECKSHARPS (C24_negation); proved where no sharp s is looked for."
  },
  {
   "property": "C25",
   "status": "proved",
   "theorems": [
    "Spellbook.Props.C25_sharp_search",
    "Spellbook.Props.C25_sharp_undo"
   ],
   "note": ""
  },
  {
   "property": "C26",
   "status": "partial",
   "theorems": [
    "Spellbook.Props.C26_one_outcome",
    "Spellbook.Props.C26_default_no_panic",
    "Spellbook.Props.C26_terminates_partial",
    "Spellbook.Props.C26_default_decides_partial",
    "Spellbook.Props.C26_panic_negation",
    "Spellbook.Props.C26_triple_diverges",
    "Spellbook.Props.C26_pattern_diverges",
    "Spellbook.Props.C26_triple_loaded",
    "Spellbook.Props.C26_pattern_loaded"
   ],
   "note": "False as a whole (three witnesses). Proved: the default checker never panics; termination for dictionaries without SIMPLIFIEDTRIPLE and without replacements that grow the word."
  },
  {
   "property": "C27",
   "status": "proved",
   "theorems": [
    "Spellbook.Props.C27_compound_sound",
    "Spellbook.Props.C27_plain_sound",
    "Spellbook.Props.C27_part_is_word",
    "Spellbook.Props.C27_parts",
    "Spellbook.Props.C27_pattern_short_part"
   ],
   "note": ""
  },
  {
   "property": "C28",
   "status": "proved",
   "theorems": [
    "Spellbook.Props.C28_split_positions"
   ],
   "note": ""
  },
  {
   "property": "C29",
   "status": "partial",
   "theorems": [
    "Spellbook.Props.C29_case",
    "Spellbook.Props.C29_triple",
    "Spellbook.Props.C29_joints_partial",
    "Spellbook.Props.C29_case_replaced",
    "Spellbook.Props.C29_duplicate_partial",
    "Spellbook.Props.C29_duplicate_with_syllables"
   ],
   "note": "CHECKCOMPOUNDTRIPLE is proved for all dictionaries (at every joint as it is written); CHECKCOMPOUNDCASE at all joints which are not replaced by CHECKCOMPOUNDPATTERN, where it is false (C29_case_replaced); CHECKCOMPOUNDDUP without COMPOUNDSYLLABLE, with which it is false."
  },
  {
   "property": "C30",
   "status": "partial",
   "theorems": [
    "Spellbook.Props.C30_rule_sound",
    "Spellbook.Props.C30_rule_exact",
    "Spellbook.Props.C30_rule_complete_partial",
    "Spellbook.Props.C30_rule_exact_partial",
    "Spellbook.Props.C30_homonym_missed"
   ],
   "note": "Soundness proved in full, and the exact set of accepted words for every dictionary (C30_rule_exact: one entry per text is looked at); the completeness claimed holds for dictionaries without homonyms and is false with them (witness)."
  },
  {
   "property": "C31",
   "status": "partial",
   "theorems": [
    "Spellbook.Props.C31_no_forbidden_part_partial",
    "Spellbook.Props.C31_forbidden_part_accepted"
   ],
   "note": "False for COMPOUNDRULE (witness); proved for compounds without rules."
  },
  {
   "property": "C32",
   "status": "partial",
   "theorems": [
    "Spellbook.Props.C32_fast_lanes_partial",
    "Spellbook.Props.C32_complex_prefixes_partial",
    "Spellbook.Props.C32_negation"
   ],
   "note": "False under COMPLEXPREFIXES (witness); proved without, and for all other shapes with it."
  },
  {
   "property": "C33",
   "status": "partial",
   "theorems": [
    "Spellbook.Props.C33_conditions_partial",
    "Spellbook.Props.C33_without_middle_conditions_partial",
    "Spellbook.Props.C33_negation"
   ],
   "note": "False for the middle one of three interleaved affixes (witness); proved for all other affixes."
  },
  {
   "property": "C34",
   "status": "proved",
   "theorems": [
    "Spellbook.Props.C34_flags",
    "Spellbook.Props.C34_flag",
    "Spellbook.Props.C34_no_panic",
    "Spellbook.Props.C34_aliases",
    "Spellbook.Props.C34_texts_distinct_bytes",
    "Spellbook.Props.C34_texts_distinct_utf8",
    "Spellbook.Props.C34_flag_names_distinct",
    "Spellbook.Props.C34_collision_beyond_ascii"
   ],
   "note": ""
  },
  {
   "property": "C35",
   "status": "partial",
   "theorems": [
    "Spellbook.Props.C35_stem_end",
    "Spellbook.Props.C35_line_exact",
    "Spellbook.Props.C35_line_error",
    "Spellbook.Props.C35_line_partial",
    "Spellbook.Props.C35_too_long",
    "Spellbook.Props.C35_space_after_slash",
    "Spellbook.Props.C35_blank_flags",
    "Spellbook.Props.C35_round_trip",
    "Spellbook.Props.C35_plain_stem"
   ],
   "note": "The claim is proved for lines without white space directly behind the slash, where the two code paths disagree (witnesses); C35_line_exact says what every line denotes, C35_line_error what is wrong with every other line."
  },
  {
   "property": "C36",
   "status": "partial",
   "theorems": [
    "Spellbook.Props.C36_not_endless",
    "Spellbook.Props.C36_panic_iff",
    "Spellbook.Props.C36_total_partial",
    "Spellbook.Props.C36_no_panic",
    "Spellbook.Props.C36_panics",
    "Spellbook.Props.C36_aff_error_local",
    "Spellbook.Props.C36_aff_error_cut",
    "Spellbook.Props.C36_dic_error_iff"
   ],
   "note": "Panics exist (C36_panics, and C36_panic_iff says exactly when); everything else is proved."
  },
  {
   "property": "C37",
   "status": "proved",
   "theorems": [
    "Spellbook.Props.C37_entries",
    "Spellbook.Props.C37_accepted"
   ],
   "note": ""
  },
  {
   "property": "C38",
   "status": "proved",
   "theorems": [
    "Spellbook.Props.C38_twin_missing",
    "Spellbook.Props.C38_add",
    "Spellbook.Props.C38_twin"
   ],
   "note": "Proved for the lines the statement names (a line at the end of the text; C78 for any number of lines at any place); for stems with a hidden twin the two differ (C38_twin says how, C38_twin_missing is a witness)."
  },
  {
   "property": "C39",
   "status": "proved",
   "theorems": [
    "Spellbook.Props.C39_one_outcome",
    "Spellbook.Props.C39_out_irrelevant",
    "Spellbook.Props.C39_deduplicate",
    "Spellbook.Props.C39_no_duplicates",
    "Spellbook.Props.C39_oconv_negation"
   ],
   "note": "Proved as stated; C39_oconv_negation shows that the restriction to no OCONV is needed."
  },
  {
   "property": "C40",
   "status": "proved",
   "theorems": [
    "Spellbook.Props.C40_ngram_no_cross",
    "Spellbook.Props.C40_ngram_negation",
    "Spellbook.Props.C40_edits",
    "Spellbook.Props.C40_rep",
    "Spellbook.Props.C40_proposals",
    "Spellbook.Props.C40_single_words",
    "Spellbook.Props.C40_rep_negation",
    "Spellbook.Props.C40_two_words_negation"
   ],
   "note": "Proved for the methods named in the statement; the three exceptions named there are proved to be exceptions."
  },
  {
   "property": "C41",
   "status": "partial",
   "theorems": [
    "Spellbook.Props.C41_swap_adjacent",
    "Spellbook.Props.C41_swap_distant",
    "Spellbook.Props.C41_replace_char",
    "Spellbook.Props.C41_adjacent_swap",
    "Spellbook.Props.C41_distant_swap",
    "Spellbook.Props.C41_keyboard",
    "Spellbook.Props.C41_extra_char",
    "Spellbook.Props.C41_forgotten_char",
    "Spellbook.Props.C41_move_char",
    "Spellbook.Props.C41_wrong_char",
    "Spellbook.Props.C41_doubled_chars_partial",
    "Spellbook.Props.C41_doubled_chars_negation",
    "Spellbook.Props.C41_buffer",
    "Spellbook.Props.C41_match_indices",
    "Spellbook.Props.C41_rep",
    "Spellbook.Props.C41_map",
    "Spellbook.Props.C41_map_chars"
   ],
   "note": "doubled_two_chars_suggest misses patterns at the end of the word (witness); all other methods are proved exact."
  },
  {
   "property": "C42",
   "status": "proved",
   "theorems": [
    "Spellbook.Props.C42_lcs",
    "Spellbook.Props.C42_lcs_unique",
    "Spellbook.Props.C42_common_prefix",
    "Spellbook.Props.C42_common_prefix_zero",
    "Spellbook.Props.C42_same_position",
    "Spellbook.Props.C42_transposition",
    "Spellbook.Props.C42_ngram",
    "Spellbook.Props.C42_ngram_bounds",
    "Spellbook.Props.C42_ngram_weighted",
    "Spellbook.Props.C42_penalties"
   ],
   "note": ""
  },
  {
   "property": "C43",
   "status": "proved",
   "theorems": [
    "Spellbook.Props.C43_heap",
    "Spellbook.Props.C43_ties",
    "Spellbook.Props.C43_roots",
    "Spellbook.Props.C43_guesses"
   ],
   "note": ""
  },
  {
   "property": "C44",
   "status": "partial",
   "theorems": [
    "Spellbook.Props.C44_limit_partial",
    "Spellbook.Props.C44_negation",
    "Spellbook.Props.C44_no_extensions"
   ],
   "note": "False for more than 16 earlier suggestions (witness); proved otherwise."
  },
  {
   "property": "C45",
   "status": "partial",
   "theorems": [
    "Spellbook.Props.C45_expansion_partial",
    "Spellbook.Props.C45_ngram_negation",
    "Spellbook.Props.C45_edits_partial",
    "Spellbook.Props.C45_similarity_partial",
    "Spellbook.Props.C45_terminates_partial",
    "Spellbook.Props.C45_returns_partial",
    "Spellbook.Props.C45_returns_similarity_partial",
    "Spellbook.Props.C45_empty_negation",
    "Spellbook.Props.C45_ignore_negation",
    "Spellbook.Props.C45_prefix_negation",
    "Spellbook.Props.C45_iconv_negation",
    "Spellbook.Props.C45_iconv_long_negation"
   ],
   "note": "False (five witnesses). Proved under conditions which exclude them."
  },
  {
   "property": "C46",
   "status": "partial",
   "theorems": [
    "Spellbook.Props.C46_ngram_partial",
    "Spellbook.Props.C46_negation"
   ],
   "note": "False for edits (witness), proved for similarity."
  },
  {
   "property": "C47",
   "status": "partial",
   "theorems": [
    "Spellbook.Props.C47_word_max_partial",
    "Spellbook.Props.C47_parts_partial",
    "Spellbook.Props.C47_root_replaced",
    "Spellbook.Props.C47_word_max_triple"
   ],
   "note": "Proved for plain compounds (C61_limits: also with COMPOUNDSYLLABLE), and for the number of parts at replaced boundaries, where COMPOUNDROOT is not counted (C47_root_replaced); false with SIMPLIFIEDTRIPLE (witness)."
  },
  {
   "property": "C48",
   "status": "proved",
   "theorems": [
    "Spellbook.Props.C48_circumfix",
    "Spellbook.Props.C48_half"
   ],
   "note": ""
  },
  {
   "property": "C49",
   "status": "proved",
   "theorems": [
    "Spellbook.Props.C49_search_complete",
    "Spellbook.Props.C49_search_exact"
   ],
   "note": ""
  },
  {
   "property": "C50",
   "status": "proved",
   "theorems": [
    "Spellbook.Props.C50_pattern_rep_force"
   ],
   "note": ""
  },
  {
   "property": "C53",
   "status": "proved",
   "theorems": [
    "Spellbook.Props.C53_accepted_iff",
    "Spellbook.Props.C53_unique",
    "Spellbook.Props.C53_settings"
   ],
   "note": ""
  },
  {
   "property": "C51",
   "status": "proved",
   "theorems": [
    "Spellbook.Props.C51_preparation_sound",
    "Spellbook.Props.C51_preparation"
   ],
   "note": ""
  },
  {
   "property": "C52",
   "status": "proved",
   "theorems": [
    "Spellbook.Props.C52_decided",
    "Spellbook.Props.C52_undecided"
   ],
   "note": ""
  },
  {
   "property": "C54",
   "status": "proved",
   "theorems": [
    "Spellbook.Props.C54_well_made",
    "Spellbook.Props.C54_aff_unchanged",
    "Spellbook.Props.C54_no_invented_words"
   ],
   "note": ""
  },
  {
   "property": "C55",
   "status": "proved",
   "theorems": [
    "Spellbook.Props.C55_found",
    "Spellbook.Props.C55_found_limited",
    "Spellbook.Props.C55_attempts"
   ],
   "note": ""
  },
  {
   "property": "C56",
   "status": "proved",
   "theorems": [
    "Spellbook.Props.C56_rechecked"
   ],
   "note": ""
  },
  {
   "property": "C57",
   "status": "proved",
   "theorems": [
    "Spellbook.Props.C57_kinds",
    "Spellbook.Props.C57_force_title"
   ],
   "note": ""
  },
  {
   "property": "C58",
   "status": "proved",
   "theorems": [
    "Spellbook.Props.C58_rule",
    "Spellbook.Props.C58_rule_unambiguous",
    "Spellbook.Props.C58_rule_round_trip",
    "Spellbook.Props.C58_map",
    "Spellbook.Props.C58_lines",
    "Spellbook.Props.C58_words"
   ],
   "note": ""
  },
  {
   "property": "C59",
   "status": "proved",
   "theorems": [
    "Spellbook.Props.C59_exact",
    "Spellbook.Props.C59_init_found",
    "Spellbook.Props.C59_all_found",
    "Spellbook.Props.C59_camel_found",
    "Spellbook.Props.C59_pascal_found"
   ],
   "note": ""
  },
  {
   "property": "C60",
   "status": "proved",
   "theorems": [
    "Spellbook.Props.C60_exact",
    "Spellbook.Props.C60_measures",
    "Spellbook.Props.C60_root_score",
    "Spellbook.Props.C60_form_score",
    "Spellbook.Props.C60_scores_determined",
    "Spellbook.Props.C60_bad_alone"
   ],
   "note": ""
  },
  {
   "property": "C61",
   "status": "proved",
   "theorems": [
    "Spellbook.Props.C61_exact",
    "Spellbook.Props.C61_one_answer",
    "Spellbook.Props.C61_accepts",
    "Spellbook.Props.C61_limits",
    "Spellbook.Props.C61_commits"
   ],
   "note": "For all dictionaries; the readings looked at are given by a choice function. C61_commits: valid compounds which the search misses."
  },
  {
   "property": "C62",
   "status": "proved",
   "theorems": [
    "Spellbook.Props.C62_no_undefined_behaviour",
    "Spellbook.Props.C62_program",
    "Spellbook.Props.C62_no_leak"
   ],
   "note": ""
  },
  {
   "property": "C63",
   "status": "proved",
   "theorems": [
    "Spellbook.Props.C63_check",
    "Spellbook.Props.C63_no_panic",
    "Spellbook.Props.C63_compound",
    "Spellbook.Props.C63_sharps_restored",
    "Spellbook.Props.C63_stem",
    "Spellbook.Props.C63_suffix_condition"
   ],
   "note": ""
  },
  {
   "property": "C64",
   "status": "proved",
   "theorems": [
    "Spellbook.Props.C64_refused",
    "Spellbook.Props.C64_characters",
    "Spellbook.Props.C64_suggest"
   ],
   "note": ""
  },
  {
   "property": "C65",
   "status": "proved",
   "theorems": [
    "Spellbook.Props.C65_suggest",
    "Spellbook.Props.C65_no_panic",
    "Spellbook.Props.C65_dash_parts",
    "Spellbook.Props.C65_hyphen",
    "Spellbook.Props.C65_slash",
    "Spellbook.Props.C65_dic_line",
    "Spellbook.Props.C65_aff_readers",
    "Spellbook.Props.C65_convert"
   ],
   "note": ""
  },
  {
   "property": "C66",
   "status": "proved",
   "theorems": [
    "Spellbook.Props.C66_correct",
    "Spellbook.Props.C66_texts",
    "Spellbook.Props.C66_sound",
    "Spellbook.Props.C66_no_choice",
    "Spellbook.Props.C66_choices_agree",
    "Spellbook.Props.C66_rules"
   ],
   "note": "Equivalence for dictionaries on which the search for compounds ends (C26 shows others diverge), soundness for all. The readings looked at are given by a choice function."
  },
  {
   "property": "C67",
   "status": "proved",
   "theorems": [
    "Spellbook.Props.C67_outcome",
    "Spellbook.Props.C67_unique"
   ],
   "note": "C66 without its hypotheses: dictionaries whose search for compounds does not end and checkers which also try title and upper case are included; gives panics and divergence exactly."
  },
  {
   "property": "C68",
   "status": "proved",
   "theorems": [
    "Spellbook.Props.C68_outcome",
    "Spellbook.Props.C68_unique"
   ],
   "note": "Puts C39-C41, C45, C56-C60 together with C67: Spec.Suggested gives the list or the panic from the content; nothing is assumed of the dictionary beyond having been loaded."
  },
  {
   "property": "C69",
   "status": "proved",
   "theorems": [
    "Spellbook.Props.C69_stem",
    "Spellbook.Props.C69_calls",
    "Spellbook.Props.C69_calls_suggest",
    "Spellbook.Props.C69_swap",
    "Spellbook.Props.C69_lines",
    "Spellbook.Props.C69_lines_check",
    "Spellbook.Props.C69_runs",
    "Spellbook.Props.C69_order_matters"
   ],
   "note": "Suggestions by similarity depend on the hasher (C13_ngram_negation) and are left out. C69_order_matters: calls for the same stem may not be swapped. Entries with the same stem and different flags: C13_duplicates_negation."
  },
  {
   "property": "C70",
   "status": "proved",
   "theorems": [
    "Spellbook.Props.C70_plain_list",
    "Spellbook.Props.C70_more_words"
   ],
   "note": "C66 for the plainest dictionaries, with parse included and everything told from the list of words: no flags, entries, tables or lookups in the statement. Mixed-case words whose title form would be longer than 65535 bytes are excluded (adding such a stem panics, C37)."
  },
  {
   "property": "C71",
   "status": "proved",
   "theorems": [
    "Spellbook.Props.C71_lower",
    "Spellbook.Props.C71_upper",
    "Spellbook.Props.C71_title",
    "Spellbook.Props.C71_title_panic",
    "Spellbook.Props.C71_lower_first",
    "Spellbook.Props.C71_upper_at",
    "Spellbook.Props.C71_same_letter",
    "Spellbook.Props.C71_round_trip",
    "Spellbook.Props.C71_sigma_negation"
   ],
   "note": "The specifications of C02, C60, C66-C68, C70 use lower, upper and title case of the model; here these are told from the letters. C71_sigma_negation: title case has no rule for the last sigma, so Greek names ending in sigma are not found in capitals."
  },
  {
   "property": "C72",
   "status": "proved",
   "theorems": [
    "Spellbook.Props.C72_aff",
    "Spellbook.Props.C72_dic",
    "Spellbook.Props.C72_exhaustive",
    "Spellbook.Props.C72_exclusive",
    "Spellbook.Props.C72_unique"
   ],
   "note": "The specification (Spec/FlagFaults, Spec/Faults) is written with the grammars of C34, C53 and C58 and does not use the readers of the model. Panics: C36_panic_iff."
  },
  {
   "property": "C73",
   "status": "proved",
   "theorems": [
    "Spellbook.Props.C73_layout",
    "Spellbook.Props.C73_mark_aff",
    "Spellbook.Props.C73_mark_dic",
    "Spellbook.Props.C73_white_aff",
    "Spellbook.Props.C73_white_dic",
    "Spellbook.Props.C73_comment_aff",
    "Spellbook.Props.C73_comment_dic",
    "Spellbook.Props.C73_blank_dic",
    "Spellbook.Props.C73_line_ends",
    "Spellbook.Props.C73_blank_aff_witness",
    "Spellbook.Props.C73_blank_dic_witness"
   ],
   "note": "C73_layout is the general statement, the others its everyday cases. C73_blank_aff_witness and C73_blank_dic_witness show which blank lines matter."
  },
  {
   "property": "C74",
   "status": "proved",
   "theorems": [
    "Spellbook.Props.C74_message",
    "Spellbook.Props.C74_add_message",
    "Spellbook.Props.C74_line",
    "Spellbook.Props.C74_fault"
   ],
   "note": "The messages of ParseIntError are those of the standard library. The two kinds of errors the parser never makes (UnexpectedNonWhitespace, Empty) are left out."
  },
  {
   "property": "C75",
   "status": "proved",
   "theorems": [
    "Spellbook.Props.C75_check",
    "Spellbook.Props.C75_same",
    "Spellbook.Props.C75_answer",
    "Spellbook.Props.C75_short",
    "Spellbook.Props.C75_long_stem",
    "Spellbook.Props.C75_negative_modifier",
    "Spellbook.Props.C75_many_syllables"
   ],
   "note": "Overflow of usize additions of lengths and counts is taken as impossible. For suggest see C80."
  },
  {
   "property": "C76",
   "status": "proved",
   "theorems": [
    "Spellbook.Props.C76_widens",
    "Spellbook.Props.C76_single",
    "Spellbook.Props.C76_capitals",
    "Spellbook.Props.C76_exact",
    "Spellbook.Props.C76_forbidden_negation",
    "Spellbook.Props.C76_panic_negation"
   ],
   "note": ""
  },
  {
   "property": "C77",
   "status": "proved",
   "theorems": [
    "Spellbook.Props.C77_prefix",
    "Spellbook.Props.C77_more",
    "Spellbook.Props.C77_dash_negation"
   ],
   "note": ""
  },
  {
   "property": "C78",
   "status": "proved",
   "theorems": [
    "Spellbook.Props.C78_entries",
    "Spellbook.Props.C78_refused",
    "Spellbook.Props.C78_check",
    "Spellbook.Props.C78_suggest"
   ],
   "note": "Twins longer than 65535 bytes, with which loading panics (C36), are excluded. For suggestions by similarity see C13_ngram_negation."
  },
  {
   "property": "C79",
   "status": "proved",
   "theorems": [
    "Spellbook.Props.C79_depth",
    "Spellbook.Props.C79_depth_all",
    "Spellbook.Props.C79_constant",
    "Spellbook.Props.C79_no_depth",
    "Spellbook.Props.C79_sample_growth"
   ],
   "note": "Depth of calls, not bytes of stack. The other recursions of check have constant bounds in the code (BREAK 9, sharp s 5)."
  },
  {
   "property": "C80",
   "status": "proved",
   "theorems": [
    "Spellbook.Props.C80_suggest",
    "Spellbook.Props.C80_same",
    "Spellbook.Props.C80_answer",
    "Spellbook.Props.C80_long_stem"
   ],
   "note": "Counterexample for stem lengths as in C75. Case mappings are taken to yield at least one character, as in the standard library."
  },
  {
   "property": "C81",
   "status": "partial",
   "theorems": [
    "Spellbook.Props.C81_accepted_partial",
    "Spellbook.Props.C81_pascal_partial",
    "Spellbook.Props.C81_not_itself_partial",
    "Spellbook.Props.C81_not_itself_capitals",
    "Spellbook.Props.C81_pascal_negation",
    "Spellbook.Props.C81_force_negation",
    "Spellbook.Props.C81_conversion_negation"
   ],
   "note": "False (witnesses: inner capitals, FORCEUCASE, ICONV, OCONV). Proved under conditions which exclude them."
  },
  {
   "property": "C82",
   "status": "proved",
   "theorems": [
    "Spellbook.Props.C82_same",
    "Spellbook.Props.C82_bound",
    "Spellbook.Props.C82_bound_all",
    "Spellbook.Props.C82_no_compounds",
    "Spellbook.Props.C82_exponential",
    "Spellbook.Props.C82_rules_exponential"
   ],
   "note": "C82_same: the counting program gives the answers of check."
  },
  {
   "property": "C83",
   "status": "proved",
   "theorems": [
    "Spellbook.Props.C83_same",
    "Spellbook.Props.C83_bound",
    "Spellbook.Props.C83_few",
    "Spellbook.Props.C83_constant",
    "Spellbook.Props.C83_every_text",
    "Spellbook.Props.C83_map_budget"
   ],
   "note": "C83_same: the counting program gives the suggestions of suggest. The search for similar words (ngram.rs) makes no lookups; what it costs is not counted."
  },
  {
   "property": "C84",
   "status": "proved",
   "theorems": [
    "Spellbook.Props.C84_check",
    "Spellbook.Props.C84_add",
    "Spellbook.Props.C84_suggest",
    "Spellbook.Props.C84_forbidden_negation",
    "Spellbook.Props.C84_compound_negation",
    "Spellbook.Props.C84_title_negation",
    "Spellbook.Props.C84_similar_negation"
   ],
   "note": "The unconditional statement is false (C84_forbidden_negation, C84_compound_negation, C84_title_negation, C84_similar_negation)."
  },
  {
   "property": "C85",
   "status": "proved",
   "theorems": [
    "Spellbook.Props.C85_map",
    "Spellbook.Props.C85_constant",
    "Spellbook.Props.C85_no_dash",
    "Spellbook.Props.C85_iconv_negation"
   ],
   "note": "The bound of the lookups is one number for each dictionary; it is not computed (there are finitely many words of at most 360 bytes, and each has a bound)."
  },
  {
   "property": "C86",
   "status": "proved",
   "theorems": [
    "Spellbook.Props.C86_no_undefined_behaviour",
    "Spellbook.Props.C86_program",
    "Spellbook.Props.C86_no_leak",
    "Spellbook.Props.C86_bag"
   ],
   "note": ""
  },
  {
   "property": "C87",
   "status": "proved",
   "theorems": [
    "Spellbook.Props.C87_check",
    "Spellbook.Props.C87_suggest",
    "Spellbook.Props.C87_writing",
    "Spellbook.Props.C87_syllables_needed",
    "Spellbook.Props.C87_hidden_needed",
    "Spellbook.Props.C87_injective_needed"
   ],
   "note": "The hypothesis ByScore on the heaps holds for the real BinaryHeap, whose comparison reads the score only; it is proved for the heap of the examples."
  },
  {
   "property": "C88",
   "status": "proved",
   "theorems": [
    "Spellbook.Props.C88_load",
    "Spellbook.Props.C88_memory",
    "Spellbook.Props.C88_add",
    "Spellbook.Props.C88_remove",
    "Spellbook.Props.C88_check",
    "Spellbook.Props.C88_suggest",
    "Spellbook.Props.C88_order_needed",
    "Spellbook.Props.C88_nul_needed"
   ],
   "note": "ByAppending (the order of affixes with the same text does not depend on their flags) holds for sort_unstable_by_key, whose comparison reads the appended text only; it is proved for the sort of the examples. The same layout of the hash table is assumed on both machines (for other layouts see C66). C88_order_needed and C88_nul_needed show that the two conditions on the texts are needed."
  },
  {
   "property": "C89",
   "status": "proved",
   "theorems": [
    "Spellbook.Props.C89_check",
    "Spellbook.Props.C89_suggest",
    "Spellbook.Props.C89_complex_needed",
    "Spellbook.Props.C89_effort"
   ],
   "note": "SuffixFlagsStay is needed with COMPLEXPREFIXES only (C89_complex_needed). The bound of 1000 rules keeps the number of attempts at its upper limit, which more rules would lower (C89_effort); check needs no bound."
  },
  {
   "property": "C90",
   "status": "proved",
   "theorems": [
    "Spellbook.Props.C90_check",
    "Spellbook.Props.C90_suggest",
    "Spellbook.Props.C90_lines",
    "Spellbook.Props.C90_add",
    "Spellbook.Props.C90_conflict_needed",
    "Spellbook.Props.C90_similarity",
    "Spellbook.Props.C90_effort"
   ],
   "note": "NoConflict is needed (C90_conflict_needed); with similarity switched on the claim is false (C90_similarity); with thousands of repeated rules suggest tries fewer edits (C90_effort)."
  },
  {
   "property": "C91",
   "status": "proved",
   "theorems": [
    "Spellbook.Props.C91_check",
    "Spellbook.Props.C91_removals",
    "Spellbook.Props.C91_changed",
    "Spellbook.Props.C91_compounds",
    "Spellbook.Props.C91_flag_needed"
   ],
   "note": "Both hypotheses are needed (C91_compounds, C91_flag_needed)."
  },
  {
   "property": "C92",
   "status": "proved",
   "theorems": [
    "Spellbook.Props.C92_check",
    "Spellbook.Props.C92_finite",
    "Spellbook.Props.C92_list",
    "Spellbook.Props.C92_marks_needed",
    "Spellbook.Props.C92_compounds"
   ],
   "note": "Both hypotheses are needed (C92_marks_needed, C92_compounds). Suggestions are not covered: the number of edits tried depends on the number of affixes."
  },
  {
   "property": "C93",
   "status": "proved",
   "theorems": [
    "Spellbook.Props.C93_check",
    "Spellbook.Props.C93_suggest",
    "Spellbook.Props.C93_plain",
    "Spellbook.Props.C93_asked_needed"
   ],
   "note": "C93_asked_needed: a flag something asks about cannot be removed. The hypothesis ByScore on the heaps is as in C87."
  },
  {
   "property": "C94",
   "status": "proved",
   "theorems": [
    "Spellbook.Props.C94_check",
    "Spellbook.Props.C94_idle",
    "Spellbook.Props.C94_text",
    "Spellbook.Props.C94_idle_text",
    "Spellbook.Props.C94_rep_needed"
   ],
   "note": "C94_text and C94_idle_text speak about the .aff texts; Without (Spec/Hints.lean) says that one text is the other without a block of one directive. C94_rep_needed: with CHECKCOMPOUNDREP the replacements matter."
  },
  {
   "property": "C95",
   "status": "proved",
   "theorems": [
    "Spellbook.Props.C95_order",
    "Spellbook.Props.C95_last",
    "Spellbook.Props.C95_flags_first"
   ],
   "note": "Block, WellCut and HasLines (Spec/Blocks.lean) say what the blocks of a text are. order_example and last_example apply the theorems to texts with tables, affixes and a comment. C95_flags_first: why FLAG and AF are excepted."
  },
  {
   "property": "C96",
   "status": "proved",
   "theorems": [
    "Spellbook.Props.C96_parse",
    "Spellbook.Props.C96_answers"
   ],
   "note": "TextsAlike (Spec/Respell.lean) says what differing in the spelling of flags only means. respell_alike: a text with AF and characters as flags, and the same with numbers."
  },
  {
   "property": "C97",
   "status": "proved",
   "theorems": [
    "Spellbook.Props.C97_check",
    "Spellbook.Props.C97_order",
    "Spellbook.Props.C97_texts_order",
    "Spellbook.Props.C97_texts_more",
    "Spellbook.Props.C97_marks_negation",
    "Spellbook.Props.C97_compound_negation"
   ],
   "note": "MoreRules, SameRuleSet and HasRow (Spec/MoreRules.lean) say what more rules, the same rules and the rows of a text are. rules_example and rules_more_example apply the theorems to texts with reordered, repeated and further rules. C97_marks_negation and C97_compound_negation: the conditions are needed."
  },
  {
   "property": "C98",
   "status": "proved",
   "theorems": [
    "Spellbook.Props.C98_check",
    "Spellbook.Props.C98_exact",
    "Spellbook.Props.C98_suggest",
    "Spellbook.Props.C98_iconv_negation",
    "Spellbook.Props.C98_pattern_negation",
    "Spellbook.Props.C98_alias_negation"
   ],
   "note": "Block.Shuffled and NoTies (Spec/TableOrder.lean) say what a block with reordered rows and what competing conversions are. The example after tables_settings applies C98_check to two texts with three reordered tables. C98_iconv_negation, C98_pattern_negation and C98_alias_negation: the conditions are needed."
  },
  {
   "property": "C99",
   "status": "proved",
   "theorems": [
    "Spellbook.Props.C99_part_list",
    "Spellbook.Props.C99_more",
    "Spellbook.Props.C99_joined"
   ],
   "note": "CorrectByParts and OfParts (Spec/PartList.lean) speak of the list only. The example after partWords_long applies C99_part_list to a list with five words, accepts Haustorhaus-ist. and rejects hausist."
  },
  {
   "property": "C100",
   "status": "proved",
   "theorems": [
    "Spellbook.Props.C100_form_list",
    "Spellbook.Props.C100_more",
    "Spellbook.Props.C100_bare"
   ],
   "note": "Form, FormedSo, Formed and CorrectBy (Spec/FormList.lean) speak of the list and the rules only. The last example applies C100_form_list to a text with NEEDAFFIX, a prefix and two suffixes: Unhappily-unkemp. is accepted, kemp is not."
  },
  {
   "property": "C101",
   "status": "proved",
   "theorems": [
    "Spellbook.Props.C101_place_list",
    "Spellbook.Props.C101_more",
    "Spellbook.Props.C101_any_place"
   ],
   "note": "PlaceRules, PlacedParts, PlacedSo and Placed (Spec/PlaceList.lean) speak of the list and the settings only. CHECKCOMPOUNDDUP compares the last two parts only, as the code does (see C29). The last example applies C101_place_list to a text with nine settings: Hausumstor is accepted; umshaus, ums, hausumstorhaus and haushaus are not."
  },
  {
   "property": "C102",
   "status": "proved",
   "theorems": [
    "Spellbook.Props.C102_rule_list",
    "Spellbook.Props.C102_more",
    "Spellbook.Props.C102_no_rules"
   ],
   "note": "RulePart, RuledParts, RuledSo and RuledAny (Spec/RuleList.lean) speak of the list, the rules and the settings only; RuleAccepts is Mathlib's regular expressions. The last example is the ordinal numbers of the English dictionary: 21st, 12th and 201ST are accepted, 1th and 11st are not. Texts with two sets of flags are left out because the search looks at one entry of a text only (C30)."
  },
  {
   "property": "C103",
   "status": "proved",
   "theorems": [
    "Spellbook.Props.C103_guard_list",
    "Spellbook.Props.C103_forbidden",
    "Spellbook.Props.C103_listed",
    "Spellbook.Props.C103_keepcase"
   ],
   "note": "triedForms, Meets, Allowed, ListVerdict and GuardedWord (Spec/GuardList.lean) speak of the list and the flags only. Words in mixed case have a title form of their own unless they are forbidden, words in capitals even then (GuardTitle), as the parser does. Examples apply all four theorems to a text with all four settings."
  },
  {
   "property": "C104",
   "status": "proved",
   "theorems": [
    "Spellbook.Props.C104_prep_list",
    "Spellbook.Props.C104_ignored",
    "Spellbook.Props.C104_joined",
    "Spellbook.Props.C104_sharp",
    "Spellbook.Props.C104_converted"
   ],
   "note": "CutBy, MadeOfKnown and CorrectPrepared (Spec/PrepList.lean) speak of the list, the break lines and the ignored letters only; the conversion is any function whose results Converts (Spec/Tables.lean) allows. A word with dots at its end is also tried as it is, then with its ignored letters, as the code does. Sharpened and SharpBy (Spec/Sharp.lean) say which texts with sharp s count under CHECKSHARPS. Examples apply all five theorems."
  },
  {
   "property": "C105",
   "status": "proved",
   "theorems": [
    "Spellbook.Props.C105_returns",
    "Spellbook.Props.C105_sound",
    "Spellbook.Props.C105_slips",
    "Spellbook.Props.C105_far_slips",
    "Spellbook.Props.C105_missing_space"
   ],
   "note": "SlipOf and FarSlipOf (Spec/HintList.lean) are relations between two texts and the lines of the affix file; CorrectPrepared is that of C104. C105_returns needs of Unicode that no character becomes empty in another case or longer than four bytes in lower case. The exception for words with inner capitals behind a capital is real (C81_pascal_negation). Examples apply all five theorems."
  },
  {
   "property": "C106",
   "status": "proved",
   "theorems": [
    "Spellbook.Props.C106_small",
    "Spellbook.Props.C106_title",
    "Spellbook.Props.C106_capitals",
    "Spellbook.Props.C106_inner",
    "Spellbook.Props.C106_pascal"
   ],
   "note": "CorrectedTo and FixBy (Spec/CaseHints.lean) are relations between two texts, the list and the lines of the affix file; CorrectPrepared is that of C104. The condition that a suggestion is correct with its capitals is needed: suggestions which are not are looked up again in other cases. An example applies all five theorems."
  }
 ]
}