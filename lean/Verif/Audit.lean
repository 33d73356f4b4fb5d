import Verif.Props.Accepted
import Verif.Props.Api
import Verif.Props.BlockOrder
import Verif.Props.ByteOrder
import Verif.Props.CaseHints
import Verif.Props.Check
import Verif.Props.CheckBytes
import Verif.Props.Compound
import Verif.Props.Data
import Verif.Props.Debug
import Verif.Props.DebugSuggest
import Verif.Props.Depth
import Verif.Props.Dictionary
import Verif.Props.Display
import Verif.Props.Edits
import Verif.Props.Faults
import Verif.Props.FormList
import Verif.Props.Growth
import Verif.Props.GuardList
import Verif.Props.Happens
import Verif.Props.HintList
import Verif.Props.Hints
import Verif.Props.Layout
import Verif.Props.Letters
import Verif.Props.Lookups
import Verif.Props.MoreRules
import Verif.Props.Ngram
import Verif.Props.NgramBytes
import Verif.Props.Order
import Verif.Props.Parser
import Verif.Props.PartList
import Verif.Props.Personal
import Verif.Props.PlaceList
import Verif.Props.Plain
import Verif.Props.PrepList
import Verif.Props.Prepare
import Verif.Props.Prune
import Verif.Props.Removal
import Verif.Props.Rename
import Verif.Props.Repeat
import Verif.Props.Respell
import Verif.Props.RuleList
import Verif.Props.Search
import Verif.Props.Similar
import Verif.Props.Simple
import Verif.Props.Suggest
import Verif.Props.SuggestBytes
import Verif.Props.SuggestCase
import Verif.Props.SuggestDepth
import Verif.Props.Suggestions
import Verif.Props.TableOrder
import Verif.Props.Tables
import Verif.Props.Text
import Verif.Props.UmbraMem
import Verif.Props.Unmunch
import Verif.Props.Unused
import Verif.Props.Whole
import Verif.Props.WordMem
import Verif.Props.Work
/-!
# The axioms each property theorem depends on

Generated by `tools/audit.py`. The build fails if a theorem comes to depend on other axioms.
-/

set_option format.width 10000

/-- info: 'Spellbook.Props.C01_check_overlong' depends on axioms: [propext, Quot.sound] -/
#guard_msgs (whitespace := lax) in
#print axioms Spellbook.Props.C01_check_overlong
/-- info: 'Spellbook.Props.C01_suggest_overlong' depends on axioms: [propext, Classical.choice, Quot.sound] -/
#guard_msgs (whitespace := lax) in
#print axioms Spellbook.Props.C01_suggest_overlong
/-- info: 'Spellbook.Props.C02_check_empty' depends on axioms: [propext, Quot.sound] -/
#guard_msgs (whitespace := lax) in
#print axioms Spellbook.Props.C02_check_empty
/-- info: 'Spellbook.Props.C02_suggest_empty' depends on axioms: [propext, Classical.choice, Quot.sound] -/
#guard_msgs (whitespace := lax) in
#print axioms Spellbook.Props.C02_suggest_empty
/-- info: 'Spellbook.Props.C03_numbers_accepted' depends on axioms: [propext, Classical.choice, Quot.sound] -/
#guard_msgs (whitespace := lax) in
#print axioms Spellbook.Props.C03_numbers_accepted
/-- info: 'Spellbook.Props.C03_number_grammar' depends on axioms: [propext, Classical.choice, Quot.sound] -/
#guard_msgs (whitespace := lax) in
#print axioms Spellbook.Props.C03_number_grammar
/-- info: 'Spellbook.Props.C04_listed_words' depends on axioms: [propext, Classical.choice, Quot.sound] -/
#guard_msgs (whitespace := lax) in
#print axioms Spellbook.Props.C04_listed_words
/-- info: 'Spellbook.Props.C05_no_invented_words' depends on axioms: [propext, Classical.choice, Quot.sound] -/
#guard_msgs (whitespace := lax) in
#print axioms Spellbook.Props.C05_no_invented_words
/-- info: 'Spellbook.Props.C05_exact' depends on axioms: [propext, Classical.choice, Quot.sound] -/
#guard_msgs (whitespace := lax) in
#print axioms Spellbook.Props.C05_exact
/-- info: 'Spellbook.Props.C06_completeness' depends on axioms: [propext, Classical.choice, Quot.sound] -/
#guard_msgs (whitespace := lax) in
#print axioms Spellbook.Props.C06_completeness
/-- info: 'Spellbook.Props.C06_one_affix' depends on axioms: [propext, Classical.choice, Quot.sound] -/
#guard_msgs (whitespace := lax) in
#print axioms Spellbook.Props.C06_one_affix
/-- info: 'Spellbook.Props.C07_forbidden_entry' depends on axioms: [propext, Classical.choice, Quot.sound] -/
#guard_msgs (whitespace := lax) in
#print axioms Spellbook.Props.C07_forbidden_entry
/-- info: 'Spellbook.Props.C07_forbidden_listed' depends on axioms: [propext, Classical.choice, Quot.sound] -/
#guard_msgs (whitespace := lax) in
#print axioms Spellbook.Props.C07_forbidden_listed
/-- info: 'Spellbook.Props.C08_break_exact' depends on axioms: [propext, Classical.choice, Quot.sound] -/
#guard_msgs (whitespace := lax) in
#print axioms Spellbook.Props.C08_break_exact
/-- info: 'Spellbook.Props.C08_break_sound' depends on axioms: [propext, Classical.choice, Quot.sound] -/
#guard_msgs (whitespace := lax) in
#print axioms Spellbook.Props.C08_break_sound
/-- info: 'Spellbook.Props.C09_result' depends on axioms: [propext, Classical.choice, Quot.sound] -/
#guard_msgs (whitespace := lax) in
#print axioms Spellbook.Props.C09_result
/-- info: 'Spellbook.Props.C09_effect' depends on axioms: [propext, Classical.choice, Quot.sound] -/
#guard_msgs (whitespace := lax) in
#print axioms Spellbook.Props.C09_effect
/-- info: 'Spellbook.Props.C09_again' depends on axioms: [propext, Classical.choice, Quot.sound] -/
#guard_msgs (whitespace := lax) in
#print axioms Spellbook.Props.C09_again
/-- info: 'Spellbook.Props.C09_rejected' depends on axioms: [propext, Classical.choice, Quot.sound] -/
#guard_msgs (whitespace := lax) in
#print axioms Spellbook.Props.C09_rejected
/-- info: 'Spellbook.Props.C10_lookup_partial' depends on axioms: [propext, Classical.choice, Quot.sound] -/
#guard_msgs (whitespace := lax) in
#print axioms Spellbook.Props.C10_lookup_partial
/-- info: 'Spellbook.Props.C10_removed_partial' depends on axioms: [propext, Classical.choice, Quot.sound] -/
#guard_msgs (whitespace := lax) in
#print axioms Spellbook.Props.C10_removed_partial
/-- info: 'Spellbook.Props.C10_twin_left' depends on axioms: [propext, Classical.choice, Quot.sound] -/
#guard_msgs (whitespace := lax) in
#print axioms Spellbook.Props.C10_twin_left
/-- info: 'Spellbook.Props.C10_rule_left' depends on axioms: [propext, Classical.choice, Quot.sound] -/
#guard_msgs (whitespace := lax) in
#print axioms Spellbook.Props.C10_rule_left
/-- info: 'Spellbook.Props.C11_added' depends on axioms: [propext, Classical.choice, Quot.sound] -/
#guard_msgs (whitespace := lax) in
#print axioms Spellbook.Props.C11_added
/-- info: 'Spellbook.Props.C11_refused' depends on axioms: [propext, Classical.choice, Quot.sound] -/
#guard_msgs (whitespace := lax) in
#print axioms Spellbook.Props.C11_refused
/-- info: 'Spellbook.Props.C11_line' depends on axioms: [propext, Classical.choice, Quot.sound] -/
#guard_msgs (whitespace := lax) in
#print axioms Spellbook.Props.C11_line
/-- info: 'Spellbook.Props.C12_wordlist_is_multimap' depends on axioms: [propext, Classical.choice, Quot.sound] -/
#guard_msgs (whitespace := lax) in
#print axioms Spellbook.Props.C12_wordlist_is_multimap
/-- info: 'Spellbook.Props.C12_wordlist_length' depends on axioms: [propext, Classical.choice, Quot.sound] -/
#guard_msgs (whitespace := lax) in
#print axioms Spellbook.Props.C12_wordlist_length
/-- info: 'Spellbook.Props.C12_wordlist_iter' depends on axioms: [propext, Quot.sound] -/
#guard_msgs (whitespace := lax) in
#print axioms Spellbook.Props.C12_wordlist_iter
/-- info: 'Spellbook.Props.C13_check_partial' depends on axioms: [propext, Classical.choice, Quot.sound] -/
#guard_msgs (whitespace := lax) in
#print axioms Spellbook.Props.C13_check_partial
/-- info: 'Spellbook.Props.C13_unique_stems' depends on axioms: [propext, Quot.sound] -/
#guard_msgs (whitespace := lax) in
#print axioms Spellbook.Props.C13_unique_stems
/-- info: 'Spellbook.Props.C13_duplicates_negation' depends on axioms: [propext, Classical.choice, Quot.sound] -/
#guard_msgs (whitespace := lax) in
#print axioms Spellbook.Props.C13_duplicates_negation
/-- info: 'Spellbook.Props.C13_suggest_partial' depends on axioms: [propext, Classical.choice, Quot.sound] -/
#guard_msgs (whitespace := lax) in
#print axioms Spellbook.Props.C13_suggest_partial
/-- info: 'Spellbook.Props.C13_ngram_negation' depends on axioms: [propext, Classical.choice, Quot.sound] -/
#guard_msgs (whitespace := lax) in
#print axioms Spellbook.Props.C13_ngram_negation
/-- info: 'Spellbook.Props.C14_contains' depends on axioms: [propext, Quot.sound] -/
#guard_msgs (whitespace := lax) in
#print axioms Spellbook.Props.C14_contains
/-- info: 'Spellbook.Props.C14_hasIntersection' depends on axioms: [propext, Quot.sound] -/
#guard_msgs (whitespace := lax) in
#print axioms Spellbook.Props.C14_hasIntersection
/-- info: 'Spellbook.Props.C14_withFlag' depends on axioms: [propext, Quot.sound] -/
#guard_msgs (whitespace := lax) in
#print axioms Spellbook.Props.C14_withFlag
/-- info: 'Spellbook.Props.C14_ext' depends on axioms: [propext, Quot.sound] -/
#guard_msgs (whitespace := lax) in
#print axioms Spellbook.Props.C14_ext
/-- info: 'Spellbook.Props.C14_hasIntersection_any' depends on axioms: [propext, Quot.sound] -/
#guard_msgs (whitespace := lax) in
#print axioms Spellbook.Props.C14_hasIntersection_any
/-- info: 'Spellbook.Props.C14_never_too_long' depends on axioms: [propext, Quot.sound] -/
#guard_msgs (whitespace := lax) in
#print axioms Spellbook.Props.C14_never_too_long
/-- info: 'Spellbook.Props.C15_roundtrip' depends on axioms: [propext, Quot.sound] -/
#guard_msgs (whitespace := lax) in
#print axioms Spellbook.Props.C15_roundtrip
/-- info: 'Spellbook.Props.C15_eq' depends on axioms: [propext, Classical.choice, Quot.sound] -/
#guard_msgs (whitespace := lax) in
#print axioms Spellbook.Props.C15_eq
/-- info: 'Spellbook.Props.C15_too_long' depends on axioms: [propext, Quot.sound] -/
#guard_msgs (whitespace := lax) in
#print axioms Spellbook.Props.C15_too_long
/-- info: 'Spellbook.Props.C16_prefixes_of' depends on axioms: [propext, Classical.choice, Quot.sound] -/
#guard_msgs (whitespace := lax) in
#print axioms Spellbook.Props.C16_prefixes_of
/-- info: 'Spellbook.Props.C16_suffixes_of' depends on axioms: [propext, Classical.choice, Quot.sound] -/
#guard_msgs (whitespace := lax) in
#print axioms Spellbook.Props.C16_suffixes_of
/-- info: 'Spellbook.Props.C16_index_of_any_list' depends on axioms: [propext, Quot.sound] -/
#guard_msgs (whitespace := lax) in
#print axioms Spellbook.Props.C16_index_of_any_list
/-- info: 'Spellbook.Props.C17_parse_accepts' depends on axioms: [propext, Quot.sound] -/
#guard_msgs (whitespace := lax) in
#print axioms Spellbook.Props.C17_parse_accepts
/-- info: 'Spellbook.Props.C17_prefix_condition' depends on axioms: [propext, Classical.choice, Quot.sound] -/
#guard_msgs (whitespace := lax) in
#print axioms Spellbook.Props.C17_prefix_condition
/-- info: 'Spellbook.Props.C17_suffix_condition' depends on axioms: [propext, Classical.choice, Quot.sound] -/
#guard_msgs (whitespace := lax) in
#print axioms Spellbook.Props.C17_suffix_condition
/-- info: 'Spellbook.Props.C17_no_condition' depends on axioms: [propext, Quot.sound] -/
#guard_msgs (whitespace := lax) in
#print axioms Spellbook.Props.C17_no_condition
/-- info: 'Spellbook.Props.C18_prefix_stem_of_derived' depends on axioms: [propext, Quot.sound] -/
#guard_msgs (whitespace := lax) in
#print axioms Spellbook.Props.C18_prefix_stem_of_derived
/-- info: 'Spellbook.Props.C18_suffix_stem_of_derived' depends on axioms: [propext, Quot.sound] -/
#guard_msgs (whitespace := lax) in
#print axioms Spellbook.Props.C18_suffix_stem_of_derived
/-- info: 'Spellbook.Props.C18_prefix_derived_of_stem' depends on axioms: [propext, Quot.sound] -/
#guard_msgs (whitespace := lax) in
#print axioms Spellbook.Props.C18_prefix_derived_of_stem
/-- info: 'Spellbook.Props.C18_suffix_derived_of_stem' depends on axioms: [propext, Quot.sound] -/
#guard_msgs (whitespace := lax) in
#print axioms Spellbook.Props.C18_suffix_derived_of_stem
/-- info: 'Spellbook.Props.C18_prefix_derived' depends on axioms: [propext, Quot.sound] -/
#guard_msgs (whitespace := lax) in
#print axioms Spellbook.Props.C18_prefix_derived
/-- info: 'Spellbook.Props.C18_suffix_derived' depends on axioms: [propext, Quot.sound] -/
#guard_msgs (whitespace := lax) in
#print axioms Spellbook.Props.C18_suffix_derived
/-- info: 'Spellbook.Props.C18_scratch_buffer' depends on axioms: [propext, Quot.sound] -/
#guard_msgs (whitespace := lax) in
#print axioms Spellbook.Props.C18_scratch_buffer
/-- info: 'Spellbook.Props.C18_scratch_buffer_utf8' depends on axioms: [propext, Quot.sound] -/
#guard_msgs (whitespace := lax) in
#print axioms Spellbook.Props.C18_scratch_buffer_utf8
/-- info: 'Spellbook.Props.C19_break_line_kind' depends on axioms: [propext, Quot.sound] -/
#guard_msgs (whitespace := lax) in
#print axioms Spellbook.Props.C19_break_line_kind
/-- info: 'Spellbook.Props.C19_break_table' depends on axioms: [propext, Classical.choice, Quot.sound] -/
#guard_msgs (whitespace := lax) in
#print axioms Spellbook.Props.C19_break_table
/-- info: 'Spellbook.Props.C19_rep_line_kind' depends on axioms: [propext, Classical.choice, Quot.sound] -/
#guard_msgs (whitespace := lax) in
#print axioms Spellbook.Props.C19_rep_line_kind
/-- info: 'Spellbook.Props.C19_replacement_table' depends on axioms: [propext, Classical.choice, Quot.sound] -/
#guard_msgs (whitespace := lax) in
#print axioms Spellbook.Props.C19_replacement_table
/-- info: 'Spellbook.Props.C19_only_whole' depends on axioms: [propext, Classical.choice, Quot.sound] -/
#guard_msgs (whitespace := lax) in
#print axioms Spellbook.Props.C19_only_whole
/-- info: 'Spellbook.Props.C20_conversion' depends on axioms: [propext, Classical.choice, Quot.sound] -/
#guard_msgs (whitespace := lax) in
#print axioms Spellbook.Props.C20_conversion
/-- info: 'Spellbook.Props.C20_conversion_unique' depends on axioms: [propext, Quot.sound] -/
#guard_msgs (whitespace := lax) in
#print axioms Spellbook.Props.C20_conversion_unique
/-- info: 'Spellbook.Props.C20_conversion_unchanged' depends on axioms: [propext, Classical.choice, Quot.sound] -/
#guard_msgs (whitespace := lax) in
#print axioms Spellbook.Props.C20_conversion_unchanged
/-- info: 'Spellbook.Props.C21_rule_is_regex' depends on axioms: [propext, Classical.choice, Quot.sound] -/
#guard_msgs (whitespace := lax) in
#print axioms Spellbook.Props.C21_rule_is_regex
/-- info: 'Spellbook.Props.C21_any_rule' depends on axioms: [propext, Classical.choice, Quot.sound] -/
#guard_msgs (whitespace := lax) in
#print axioms Spellbook.Props.C21_any_rule
/-- info: 'Spellbook.Props.C22_casing' depends on axioms: [propext, Classical.choice, Quot.sound] -/
#guard_msgs (whitespace := lax) in
#print axioms Spellbook.Props.C22_casing
/-- info: 'Spellbook.Props.C23_title_case' depends on axioms: [propext, Classical.choice, Quot.sound] -/
#guard_msgs (whitespace := lax) in
#print axioms Spellbook.Props.C23_title_case
/-- info: 'Spellbook.Props.C23_all_capitals' depends on axioms: [propext, Classical.choice, Quot.sound] -/
#guard_msgs (whitespace := lax) in
#print axioms Spellbook.Props.C23_all_capitals
/-- info: 'Spellbook.Props.C23_keepcase_title' depends on axioms: [propext, Classical.choice, Quot.sound] -/
#guard_msgs (whitespace := lax) in
#print axioms Spellbook.Props.C23_keepcase_title
/-- info: 'Spellbook.Props.C24_keepcase_capitals_partial' depends on axioms: [propext, Classical.choice, Quot.sound] -/
#guard_msgs (whitespace := lax) in
#print axioms Spellbook.Props.C24_keepcase_capitals_partial
/-- info: 'Spellbook.Props.C24_negation' depends on axioms: [propext, Classical.choice, Quot.sound] -/
#guard_msgs (whitespace := lax) in
#print axioms Spellbook.Props.C24_negation
/-- info: 'Spellbook.Props.C25_sharp_search' depends on axioms: [propext, Classical.choice, Quot.sound] -/
#guard_msgs (whitespace := lax) in
#print axioms Spellbook.Props.C25_sharp_search
/-- info: 'Spellbook.Props.C25_sharp_undo' depends on axioms: [propext] -/
#guard_msgs (whitespace := lax) in
#print axioms Spellbook.Props.C25_sharp_undo
/-- info: 'Spellbook.Props.C26_one_outcome' depends on axioms: [propext, Classical.choice, Quot.sound] -/
#guard_msgs (whitespace := lax) in
#print axioms Spellbook.Props.C26_one_outcome
/-- info: 'Spellbook.Props.C26_default_no_panic' depends on axioms: [propext, Quot.sound] -/
#guard_msgs (whitespace := lax) in
#print axioms Spellbook.Props.C26_default_no_panic
/-- info: 'Spellbook.Props.C26_terminates_partial' depends on axioms: [propext, Classical.choice, Quot.sound] -/
#guard_msgs (whitespace := lax) in
#print axioms Spellbook.Props.C26_terminates_partial
/-- info: 'Spellbook.Props.C26_default_decides_partial' depends on axioms: [propext, Classical.choice, Quot.sound] -/
#guard_msgs (whitespace := lax) in
#print axioms Spellbook.Props.C26_default_decides_partial
/-- info: 'Spellbook.Props.C26_panic_negation' depends on axioms: [propext, Classical.choice, Quot.sound] -/
#guard_msgs (whitespace := lax) in
#print axioms Spellbook.Props.C26_panic_negation
/-- info: 'Spellbook.Props.C26_triple_diverges' depends on axioms: [propext, Classical.choice, Quot.sound] -/
#guard_msgs (whitespace := lax) in
#print axioms Spellbook.Props.C26_triple_diverges
/-- info: 'Spellbook.Props.C26_pattern_diverges' depends on axioms: [propext, Classical.choice, Quot.sound] -/
#guard_msgs (whitespace := lax) in
#print axioms Spellbook.Props.C26_pattern_diverges
/-- info: 'Spellbook.Props.C26_triple_loaded' depends on axioms: [propext, Classical.choice, Quot.sound] -/
#guard_msgs (whitespace := lax) in
#print axioms Spellbook.Props.C26_triple_loaded
/-- info: 'Spellbook.Props.C26_pattern_loaded' depends on axioms: [propext, Classical.choice, Quot.sound] -/
#guard_msgs (whitespace := lax) in
#print axioms Spellbook.Props.C26_pattern_loaded
/-- info: 'Spellbook.Props.C27_compound_sound' depends on axioms: [propext, Classical.choice, Quot.sound] -/
#guard_msgs (whitespace := lax) in
#print axioms Spellbook.Props.C27_compound_sound
/-- info: 'Spellbook.Props.C27_plain_sound' depends on axioms: [propext, Classical.choice, Quot.sound] -/
#guard_msgs (whitespace := lax) in
#print axioms Spellbook.Props.C27_plain_sound
/-- info: 'Spellbook.Props.C27_part_is_word' depends on axioms: [propext] -/
#guard_msgs (whitespace := lax) in
#print axioms Spellbook.Props.C27_part_is_word
/-- info: 'Spellbook.Props.C27_parts' depends on axioms: [propext, Classical.choice, Quot.sound] -/
#guard_msgs (whitespace := lax) in
#print axioms Spellbook.Props.C27_parts
/-- info: 'Spellbook.Props.C27_pattern_short_part' depends on axioms: [propext, Classical.choice, Quot.sound] -/
#guard_msgs (whitespace := lax) in
#print axioms Spellbook.Props.C27_pattern_short_part
/-- info: 'Spellbook.Props.C28_split_positions' depends on axioms: [propext, Classical.choice, Quot.sound] -/
#guard_msgs (whitespace := lax) in
#print axioms Spellbook.Props.C28_split_positions
/-- info: 'Spellbook.Props.C29_case' depends on axioms: [propext, Classical.choice, Quot.sound] -/
#guard_msgs (whitespace := lax) in
#print axioms Spellbook.Props.C29_case
/-- info: 'Spellbook.Props.C29_triple' depends on axioms: [propext, Classical.choice, Quot.sound] -/
#guard_msgs (whitespace := lax) in
#print axioms Spellbook.Props.C29_triple
/-- info: 'Spellbook.Props.C29_joints_partial' depends on axioms: [propext, Classical.choice, Quot.sound] -/
#guard_msgs (whitespace := lax) in
#print axioms Spellbook.Props.C29_joints_partial
/-- info: 'Spellbook.Props.C29_case_replaced' depends on axioms: [propext, Classical.choice, Quot.sound] -/
#guard_msgs (whitespace := lax) in
#print axioms Spellbook.Props.C29_case_replaced
/-- info: 'Spellbook.Props.C29_duplicate_partial' depends on axioms: [propext, Classical.choice, Quot.sound] -/
#guard_msgs (whitespace := lax) in
#print axioms Spellbook.Props.C29_duplicate_partial
/-- info: 'Spellbook.Props.C29_duplicate_with_syllables' depends on axioms: [propext, Classical.choice, Quot.sound] -/
#guard_msgs (whitespace := lax) in
#print axioms Spellbook.Props.C29_duplicate_with_syllables
/-- info: 'Spellbook.Props.C30_rule_sound' depends on axioms: [propext, Classical.choice, Quot.sound] -/
#guard_msgs (whitespace := lax) in
#print axioms Spellbook.Props.C30_rule_sound
/-- info: 'Spellbook.Props.C30_rule_exact' depends on axioms: [propext, Classical.choice, Quot.sound] -/
#guard_msgs (whitespace := lax) in
#print axioms Spellbook.Props.C30_rule_exact
/-- info: 'Spellbook.Props.C30_rule_complete_partial' depends on axioms: [propext, Classical.choice, Quot.sound] -/
#guard_msgs (whitespace := lax) in
#print axioms Spellbook.Props.C30_rule_complete_partial
/-- info: 'Spellbook.Props.C30_rule_exact_partial' depends on axioms: [propext, Classical.choice, Quot.sound] -/
#guard_msgs (whitespace := lax) in
#print axioms Spellbook.Props.C30_rule_exact_partial
/-- info: 'Spellbook.Props.C30_homonym_missed' depends on axioms: [propext, Classical.choice, Quot.sound] -/
#guard_msgs (whitespace := lax) in
#print axioms Spellbook.Props.C30_homonym_missed
/-- info: 'Spellbook.Props.C31_no_forbidden_part_partial' depends on axioms: [propext, Classical.choice, Quot.sound] -/
#guard_msgs (whitespace := lax) in
#print axioms Spellbook.Props.C31_no_forbidden_part_partial
/-- info: 'Spellbook.Props.C31_forbidden_part_accepted' depends on axioms: [propext, Classical.choice, Quot.sound] -/
#guard_msgs (whitespace := lax) in
#print axioms Spellbook.Props.C31_forbidden_part_accepted
/-- info: 'Spellbook.Props.C32_fast_lanes_partial' depends on axioms: [propext, Classical.choice, Quot.sound] -/
#guard_msgs (whitespace := lax) in
#print axioms Spellbook.Props.C32_fast_lanes_partial
/-- info: 'Spellbook.Props.C32_complex_prefixes_partial' depends on axioms: [propext, Classical.choice, Quot.sound] -/
#guard_msgs (whitespace := lax) in
#print axioms Spellbook.Props.C32_complex_prefixes_partial
/-- info: 'Spellbook.Props.C32_negation' depends on axioms: [propext, Classical.choice, Quot.sound] -/
#guard_msgs (whitespace := lax) in
#print axioms Spellbook.Props.C32_negation
/-- info: 'Spellbook.Props.C33_conditions_partial' depends on axioms: [propext, Classical.choice, Quot.sound] -/
#guard_msgs (whitespace := lax) in
#print axioms Spellbook.Props.C33_conditions_partial
/-- info: 'Spellbook.Props.C33_without_middle_conditions_partial' depends on axioms: [propext, Classical.choice, Quot.sound] -/
#guard_msgs (whitespace := lax) in
#print axioms Spellbook.Props.C33_without_middle_conditions_partial
/-- info: 'Spellbook.Props.C33_negation' depends on axioms: [propext, Classical.choice, Quot.sound] -/
#guard_msgs (whitespace := lax) in
#print axioms Spellbook.Props.C33_negation
/-- info: 'Spellbook.Props.C34_flags' depends on axioms: [propext, Classical.choice, Quot.sound] -/
#guard_msgs (whitespace := lax) in
#print axioms Spellbook.Props.C34_flags
/-- info: 'Spellbook.Props.C34_flag' depends on axioms: [propext, Classical.choice, Quot.sound] -/
#guard_msgs (whitespace := lax) in
#print axioms Spellbook.Props.C34_flag
/-- info: 'Spellbook.Props.C34_no_panic' depends on axioms: [propext] -/
#guard_msgs (whitespace := lax) in
#print axioms Spellbook.Props.C34_no_panic
/-- info: 'Spellbook.Props.C34_aliases' depends on axioms: [propext, Quot.sound] -/
#guard_msgs (whitespace := lax) in
#print axioms Spellbook.Props.C34_aliases
/-- info: 'Spellbook.Props.C34_texts_distinct_bytes' depends on axioms: [propext, Classical.choice, Quot.sound] -/
#guard_msgs (whitespace := lax) in
#print axioms Spellbook.Props.C34_texts_distinct_bytes
/-- info: 'Spellbook.Props.C34_texts_distinct_utf8' depends on axioms: [propext, Classical.choice, Quot.sound] -/
#guard_msgs (whitespace := lax) in
#print axioms Spellbook.Props.C34_texts_distinct_utf8
/-- info: 'Spellbook.Props.C34_flag_names_distinct' depends on axioms: [propext, Classical.choice, Quot.sound] -/
#guard_msgs (whitespace := lax) in
#print axioms Spellbook.Props.C34_flag_names_distinct
/-- info: 'Spellbook.Props.C34_collision_beyond_ascii' depends on axioms: [propext, Classical.choice, Quot.sound] -/
#guard_msgs (whitespace := lax) in
#print axioms Spellbook.Props.C34_collision_beyond_ascii
/-- info: 'Spellbook.Props.C35_stem_end' depends on axioms: [propext, Classical.choice, Quot.sound] -/
#guard_msgs (whitespace := lax) in
#print axioms Spellbook.Props.C35_stem_end
/-- info: 'Spellbook.Props.C35_line_exact' depends on axioms: [propext, Classical.choice, Quot.sound] -/
#guard_msgs (whitespace := lax) in
#print axioms Spellbook.Props.C35_line_exact
/-- info: 'Spellbook.Props.C35_line_error' depends on axioms: [propext, Classical.choice, Quot.sound] -/
#guard_msgs (whitespace := lax) in
#print axioms Spellbook.Props.C35_line_error
/-- info: 'Spellbook.Props.C35_line_partial' depends on axioms: [propext, Classical.choice, Quot.sound] -/
#guard_msgs (whitespace := lax) in
#print axioms Spellbook.Props.C35_line_partial
/-- info: 'Spellbook.Props.C35_too_long' depends on axioms: [propext, Quot.sound] -/
#guard_msgs (whitespace := lax) in
#print axioms Spellbook.Props.C35_too_long
/-- info: 'Spellbook.Props.C35_space_after_slash' depends on axioms: [propext, Classical.choice, Quot.sound] -/
#guard_msgs (whitespace := lax) in
#print axioms Spellbook.Props.C35_space_after_slash
/-- info: 'Spellbook.Props.C35_blank_flags' depends on axioms: [propext, Classical.choice, Quot.sound] -/
#guard_msgs (whitespace := lax) in
#print axioms Spellbook.Props.C35_blank_flags
/-- info: 'Spellbook.Props.C35_round_trip' depends on axioms: [propext, Classical.choice, Quot.sound] -/
#guard_msgs (whitespace := lax) in
#print axioms Spellbook.Props.C35_round_trip
/-- info: 'Spellbook.Props.C35_plain_stem' depends on axioms: [propext, Classical.choice, Quot.sound] -/
#guard_msgs (whitespace := lax) in
#print axioms Spellbook.Props.C35_plain_stem
/-- info: 'Spellbook.Props.C36_not_endless' depends on axioms: [propext, Classical.choice, Quot.sound] -/
#guard_msgs (whitespace := lax) in
#print axioms Spellbook.Props.C36_not_endless
/-- info: 'Spellbook.Props.C36_panic_iff' depends on axioms: [propext, Classical.choice, Quot.sound] -/
#guard_msgs (whitespace := lax) in
#print axioms Spellbook.Props.C36_panic_iff
/-- info: 'Spellbook.Props.C36_total_partial' depends on axioms: [propext, Classical.choice, Quot.sound] -/
#guard_msgs (whitespace := lax) in
#print axioms Spellbook.Props.C36_total_partial
/-- info: 'Spellbook.Props.C36_no_panic' depends on axioms: [propext, Classical.choice, Quot.sound] -/
#guard_msgs (whitespace := lax) in
#print axioms Spellbook.Props.C36_no_panic
/-- info: 'Spellbook.Props.C36_panics' depends on axioms: [propext, Classical.choice, Quot.sound] -/
#guard_msgs (whitespace := lax) in
#print axioms Spellbook.Props.C36_panics
/-- info: 'Spellbook.Props.C36_aff_error_local' depends on axioms: [propext, Classical.choice, Quot.sound] -/
#guard_msgs (whitespace := lax) in
#print axioms Spellbook.Props.C36_aff_error_local
/-- info: 'Spellbook.Props.C36_aff_error_cut' depends on axioms: [propext, Classical.choice, Quot.sound] -/
#guard_msgs (whitespace := lax) in
#print axioms Spellbook.Props.C36_aff_error_cut
/-- info: 'Spellbook.Props.C36_dic_error_iff' depends on axioms: [propext, Classical.choice, Quot.sound] -/
#guard_msgs (whitespace := lax) in
#print axioms Spellbook.Props.C36_dic_error_iff
/-- info: 'Spellbook.Props.C37_entries' depends on axioms: [propext, Classical.choice, Quot.sound] -/
#guard_msgs (whitespace := lax) in
#print axioms Spellbook.Props.C37_entries
/-- info: 'Spellbook.Props.C37_accepted' depends on axioms: [propext, Classical.choice, Quot.sound] -/
#guard_msgs (whitespace := lax) in
#print axioms Spellbook.Props.C37_accepted
/-- info: 'Spellbook.Props.C38_twin_missing' depends on axioms: [propext, Classical.choice, Quot.sound] -/
#guard_msgs (whitespace := lax) in
#print axioms Spellbook.Props.C38_twin_missing
/-- info: 'Spellbook.Props.C38_add' depends on axioms: [propext, Classical.choice, Quot.sound] -/
#guard_msgs (whitespace := lax) in
#print axioms Spellbook.Props.C38_add
/-- info: 'Spellbook.Props.C38_twin' depends on axioms: [propext, Classical.choice, Quot.sound] -/
#guard_msgs (whitespace := lax) in
#print axioms Spellbook.Props.C38_twin
/-- info: 'Spellbook.Props.C39_one_outcome' depends on axioms: [propext, Classical.choice, Quot.sound] -/
#guard_msgs (whitespace := lax) in
#print axioms Spellbook.Props.C39_one_outcome
/-- info: 'Spellbook.Props.C39_out_irrelevant' depends on axioms: [propext, Classical.choice, Quot.sound] -/
#guard_msgs (whitespace := lax) in
#print axioms Spellbook.Props.C39_out_irrelevant
/-- info: 'Spellbook.Props.C39_deduplicate' depends on axioms: [propext, Classical.choice, Quot.sound] -/
#guard_msgs (whitespace := lax) in
#print axioms Spellbook.Props.C39_deduplicate
/-- info: 'Spellbook.Props.C39_no_duplicates' depends on axioms: [propext, Classical.choice, Quot.sound] -/
#guard_msgs (whitespace := lax) in
#print axioms Spellbook.Props.C39_no_duplicates
/-- info: 'Spellbook.Props.C39_oconv_negation' depends on axioms: [propext, Classical.choice, Quot.sound] -/
#guard_msgs (whitespace := lax) in
#print axioms Spellbook.Props.C39_oconv_negation
/-- info: 'Spellbook.Props.C40_ngram_no_cross' depends on axioms: [propext, Classical.choice, Quot.sound] -/
#guard_msgs (whitespace := lax) in
#print axioms Spellbook.Props.C40_ngram_no_cross
/-- info: 'Spellbook.Props.C40_ngram_negation' depends on axioms: [propext, Classical.choice, Quot.sound] -/
#guard_msgs (whitespace := lax) in
#print axioms Spellbook.Props.C40_ngram_negation
/-- info: 'Spellbook.Props.C40_edits' depends on axioms: [propext, Classical.choice, Quot.sound] -/
#guard_msgs (whitespace := lax) in
#print axioms Spellbook.Props.C40_edits
/-- info: 'Spellbook.Props.C40_rep' depends on axioms: [propext, Classical.choice, Quot.sound] -/
#guard_msgs (whitespace := lax) in
#print axioms Spellbook.Props.C40_rep
/-- info: 'Spellbook.Props.C40_proposals' depends on axioms: [propext, Classical.choice, Quot.sound] -/
#guard_msgs (whitespace := lax) in
#print axioms Spellbook.Props.C40_proposals
/-- info: 'Spellbook.Props.C40_single_words' depends on axioms: [propext, Classical.choice, Quot.sound] -/
#guard_msgs (whitespace := lax) in
#print axioms Spellbook.Props.C40_single_words
/-- info: 'Spellbook.Props.C40_rep_negation' depends on axioms: [propext, Classical.choice, Quot.sound] -/
#guard_msgs (whitespace := lax) in
#print axioms Spellbook.Props.C40_rep_negation
/-- info: 'Spellbook.Props.C40_two_words_negation' depends on axioms: [propext, Classical.choice, Quot.sound] -/
#guard_msgs (whitespace := lax) in
#print axioms Spellbook.Props.C40_two_words_negation
/-- info: 'Spellbook.Props.C41_swap_adjacent' depends on axioms: [propext, Classical.choice, Quot.sound] -/
#guard_msgs (whitespace := lax) in
#print axioms Spellbook.Props.C41_swap_adjacent
/-- info: 'Spellbook.Props.C41_swap_distant' depends on axioms: [propext, Classical.choice, Quot.sound] -/
#guard_msgs (whitespace := lax) in
#print axioms Spellbook.Props.C41_swap_distant
/-- info: 'Spellbook.Props.C41_replace_char' depends on axioms: [propext, Classical.choice, Quot.sound] -/
#guard_msgs (whitespace := lax) in
#print axioms Spellbook.Props.C41_replace_char
/-- info: 'Spellbook.Props.C41_adjacent_swap' depends on axioms: [propext, Classical.choice, Quot.sound] -/
#guard_msgs (whitespace := lax) in
#print axioms Spellbook.Props.C41_adjacent_swap
/-- info: 'Spellbook.Props.C41_distant_swap' depends on axioms: [propext, Classical.choice, Quot.sound] -/
#guard_msgs (whitespace := lax) in
#print axioms Spellbook.Props.C41_distant_swap
/-- info: 'Spellbook.Props.C41_keyboard' depends on axioms: [propext, Classical.choice, Quot.sound] -/
#guard_msgs (whitespace := lax) in
#print axioms Spellbook.Props.C41_keyboard
/-- info: 'Spellbook.Props.C41_extra_char' depends on axioms: [propext, Classical.choice, Quot.sound] -/
#guard_msgs (whitespace := lax) in
#print axioms Spellbook.Props.C41_extra_char
/-- info: 'Spellbook.Props.C41_forgotten_char' depends on axioms: [propext, Classical.choice, Quot.sound] -/
#guard_msgs (whitespace := lax) in
#print axioms Spellbook.Props.C41_forgotten_char
/-- info: 'Spellbook.Props.C41_move_char' depends on axioms: [propext, Classical.choice, Quot.sound] -/
#guard_msgs (whitespace := lax) in
#print axioms Spellbook.Props.C41_move_char
/-- info: 'Spellbook.Props.C41_wrong_char' depends on axioms: [propext, Classical.choice, Quot.sound] -/
#guard_msgs (whitespace := lax) in
#print axioms Spellbook.Props.C41_wrong_char
/-- info: 'Spellbook.Props.C41_doubled_chars_partial' depends on axioms: [propext, Classical.choice, Quot.sound] -/
#guard_msgs (whitespace := lax) in
#print axioms Spellbook.Props.C41_doubled_chars_partial
/-- info: 'Spellbook.Props.C41_doubled_chars_negation' depends on axioms: [propext, Classical.choice, Quot.sound] -/
#guard_msgs (whitespace := lax) in
#print axioms Spellbook.Props.C41_doubled_chars_negation
/-- info: 'Spellbook.Props.C41_buffer' depends on axioms: [propext, Classical.choice, Quot.sound] -/
#guard_msgs (whitespace := lax) in
#print axioms Spellbook.Props.C41_buffer
/-- info: 'Spellbook.Props.C41_match_indices' depends on axioms: [propext, Quot.sound] -/
#guard_msgs (whitespace := lax) in
#print axioms Spellbook.Props.C41_match_indices
/-- info: 'Spellbook.Props.C41_rep' depends on axioms: [propext, Classical.choice, Quot.sound] -/
#guard_msgs (whitespace := lax) in
#print axioms Spellbook.Props.C41_rep
/-- info: 'Spellbook.Props.C41_map' depends on axioms: [propext, Classical.choice, Quot.sound] -/
#guard_msgs (whitespace := lax) in
#print axioms Spellbook.Props.C41_map
/-- info: 'Spellbook.Props.C41_map_chars' depends on axioms: [propext, Classical.choice, Quot.sound] -/
#guard_msgs (whitespace := lax) in
#print axioms Spellbook.Props.C41_map_chars
/-- info: 'Spellbook.Props.C42_lcs' depends on axioms: [propext, Quot.sound] -/
#guard_msgs (whitespace := lax) in
#print axioms Spellbook.Props.C42_lcs
/-- info: 'Spellbook.Props.C42_lcs_unique' depends on axioms: [propext, Quot.sound] -/
#guard_msgs (whitespace := lax) in
#print axioms Spellbook.Props.C42_lcs_unique
/-- info: 'Spellbook.Props.C42_common_prefix' depends on axioms: [propext, Quot.sound] -/
#guard_msgs (whitespace := lax) in
#print axioms Spellbook.Props.C42_common_prefix
/-- info: 'Spellbook.Props.C42_common_prefix_zero' depends on axioms: [propext, Classical.choice, Quot.sound] -/
#guard_msgs (whitespace := lax) in
#print axioms Spellbook.Props.C42_common_prefix_zero
/-- info: 'Spellbook.Props.C42_same_position' depends on axioms: [propext, Quot.sound] -/
#guard_msgs (whitespace := lax) in
#print axioms Spellbook.Props.C42_same_position
/-- info: 'Spellbook.Props.C42_transposition' depends on axioms: [propext, Classical.choice, Quot.sound] -/
#guard_msgs (whitespace := lax) in
#print axioms Spellbook.Props.C42_transposition
/-- info: 'Spellbook.Props.C42_ngram' depends on axioms: [propext, Classical.choice, Quot.sound] -/
#guard_msgs (whitespace := lax) in
#print axioms Spellbook.Props.C42_ngram
/-- info: 'Spellbook.Props.C42_ngram_bounds' depends on axioms: [propext, Classical.choice, Quot.sound] -/
#guard_msgs (whitespace := lax) in
#print axioms Spellbook.Props.C42_ngram_bounds
/-- info: 'Spellbook.Props.C42_ngram_weighted' depends on axioms: [propext, Classical.choice, Quot.sound] -/
#guard_msgs (whitespace := lax) in
#print axioms Spellbook.Props.C42_ngram_weighted
/-- info: 'Spellbook.Props.C42_penalties' depends on axioms: [propext, Quot.sound] -/
#guard_msgs (whitespace := lax) in
#print axioms Spellbook.Props.C42_penalties
/-- info: 'Spellbook.Props.C43_heap' depends on axioms: [propext, Classical.choice, Quot.sound] -/
#guard_msgs (whitespace := lax) in
#print axioms Spellbook.Props.C43_heap
/-- info: 'Spellbook.Props.C43_ties' depends on axioms: [propext, Quot.sound] -/
#guard_msgs (whitespace := lax) in
#print axioms Spellbook.Props.C43_ties
/-- info: 'Spellbook.Props.C43_roots' depends on axioms: [propext, Classical.choice, Quot.sound] -/
#guard_msgs (whitespace := lax) in
#print axioms Spellbook.Props.C43_roots
/-- info: 'Spellbook.Props.C43_guesses' depends on axioms: [propext, Classical.choice, Quot.sound] -/
#guard_msgs (whitespace := lax) in
#print axioms Spellbook.Props.C43_guesses
/-- info: 'Spellbook.Props.C44_limit_partial' depends on axioms: [propext, Classical.choice, Quot.sound] -/
#guard_msgs (whitespace := lax) in
#print axioms Spellbook.Props.C44_limit_partial
/-- info: 'Spellbook.Props.C44_negation' depends on axioms: [propext, Classical.choice, Quot.sound] -/
#guard_msgs (whitespace := lax) in
#print axioms Spellbook.Props.C44_negation
/-- info: 'Spellbook.Props.C44_no_extensions' depends on axioms: [propext, Classical.choice, Quot.sound] -/
#guard_msgs (whitespace := lax) in
#print axioms Spellbook.Props.C44_no_extensions
/-- info: 'Spellbook.Props.C45_expansion_partial' depends on axioms: [propext, Classical.choice, Quot.sound] -/
#guard_msgs (whitespace := lax) in
#print axioms Spellbook.Props.C45_expansion_partial
/-- info: 'Spellbook.Props.C45_ngram_negation' depends on axioms: [propext, Classical.choice, Quot.sound] -/
#guard_msgs (whitespace := lax) in
#print axioms Spellbook.Props.C45_ngram_negation
/-- info: 'Spellbook.Props.C45_edits_partial' depends on axioms: [propext, Classical.choice, Quot.sound] -/
#guard_msgs (whitespace := lax) in
#print axioms Spellbook.Props.C45_edits_partial
/-- info: 'Spellbook.Props.C45_similarity_partial' depends on axioms: [propext, Classical.choice, Quot.sound] -/
#guard_msgs (whitespace := lax) in
#print axioms Spellbook.Props.C45_similarity_partial
/-- info: 'Spellbook.Props.C45_terminates_partial' depends on axioms: [propext, Classical.choice, Quot.sound] -/
#guard_msgs (whitespace := lax) in
#print axioms Spellbook.Props.C45_terminates_partial
/-- info: 'Spellbook.Props.C45_returns_partial' depends on axioms: [propext, Classical.choice, Quot.sound] -/
#guard_msgs (whitespace := lax) in
#print axioms Spellbook.Props.C45_returns_partial
/-- info: 'Spellbook.Props.C45_returns_similarity_partial' depends on axioms: [propext, Classical.choice, Quot.sound] -/
#guard_msgs (whitespace := lax) in
#print axioms Spellbook.Props.C45_returns_similarity_partial
/-- info: 'Spellbook.Props.C45_empty_negation' depends on axioms: [propext, Classical.choice, Quot.sound] -/
#guard_msgs (whitespace := lax) in
#print axioms Spellbook.Props.C45_empty_negation
/-- info: 'Spellbook.Props.C45_ignore_negation' depends on axioms: [propext, Classical.choice, Quot.sound] -/
#guard_msgs (whitespace := lax) in
#print axioms Spellbook.Props.C45_ignore_negation
/-- info: 'Spellbook.Props.C45_prefix_negation' depends on axioms: [propext, Classical.choice, Quot.sound] -/
#guard_msgs (whitespace := lax) in
#print axioms Spellbook.Props.C45_prefix_negation
/-- info: 'Spellbook.Props.C45_iconv_negation' depends on axioms: [propext, Classical.choice, Quot.sound] -/
#guard_msgs (whitespace := lax) in
#print axioms Spellbook.Props.C45_iconv_negation
/-- info: 'Spellbook.Props.C45_iconv_long_negation' depends on axioms: [propext, Classical.choice, Quot.sound] -/
#guard_msgs (whitespace := lax) in
#print axioms Spellbook.Props.C45_iconv_long_negation
/-- info: 'Spellbook.Props.C46_ngram_partial' depends on axioms: [propext, Classical.choice, Quot.sound] -/
#guard_msgs (whitespace := lax) in
#print axioms Spellbook.Props.C46_ngram_partial
/-- info: 'Spellbook.Props.C46_negation' depends on axioms: [propext, Classical.choice, Quot.sound] -/
#guard_msgs (whitespace := lax) in
#print axioms Spellbook.Props.C46_negation
/-- info: 'Spellbook.Props.C47_word_max_partial' depends on axioms: [propext, Classical.choice, Quot.sound] -/
#guard_msgs (whitespace := lax) in
#print axioms Spellbook.Props.C47_word_max_partial
/-- info: 'Spellbook.Props.C47_parts_partial' depends on axioms: [propext, Classical.choice, Quot.sound] -/
#guard_msgs (whitespace := lax) in
#print axioms Spellbook.Props.C47_parts_partial
/-- info: 'Spellbook.Props.C47_root_replaced' depends on axioms: [propext, Classical.choice, Quot.sound] -/
#guard_msgs (whitespace := lax) in
#print axioms Spellbook.Props.C47_root_replaced
/-- info: 'Spellbook.Props.C47_word_max_triple' depends on axioms: [propext, Classical.choice, Quot.sound] -/
#guard_msgs (whitespace := lax) in
#print axioms Spellbook.Props.C47_word_max_triple
/-- info: 'Spellbook.Props.C48_circumfix' depends on axioms: [propext, Classical.choice, Quot.sound] -/
#guard_msgs (whitespace := lax) in
#print axioms Spellbook.Props.C48_circumfix
/-- info: 'Spellbook.Props.C48_half' depends on axioms: [propext, Classical.choice, Quot.sound] -/
#guard_msgs (whitespace := lax) in
#print axioms Spellbook.Props.C48_half
/-- info: 'Spellbook.Props.C49_search_complete' depends on axioms: [propext, Classical.choice, Quot.sound] -/
#guard_msgs (whitespace := lax) in
#print axioms Spellbook.Props.C49_search_complete
/-- info: 'Spellbook.Props.C49_search_exact' depends on axioms: [propext, Classical.choice, Quot.sound] -/
#guard_msgs (whitespace := lax) in
#print axioms Spellbook.Props.C49_search_exact
/-- info: 'Spellbook.Props.C50_pattern_rep_force' depends on axioms: [propext, Classical.choice, Quot.sound] -/
#guard_msgs (whitespace := lax) in
#print axioms Spellbook.Props.C50_pattern_rep_force
/-- info: 'Spellbook.Props.C53_accepted_iff' depends on axioms: [propext, Classical.choice, Quot.sound] -/
#guard_msgs (whitespace := lax) in
#print axioms Spellbook.Props.C53_accepted_iff
/-- info: 'Spellbook.Props.C53_unique' depends on axioms: [propext, Classical.choice, Quot.sound] -/
#guard_msgs (whitespace := lax) in
#print axioms Spellbook.Props.C53_unique
/-- info: 'Spellbook.Props.C53_settings' depends on axioms: [propext, Classical.choice, Quot.sound] -/
#guard_msgs (whitespace := lax) in
#print axioms Spellbook.Props.C53_settings
/-- info: 'Spellbook.Props.C51_preparation_sound' depends on axioms: [propext, Classical.choice, Quot.sound] -/
#guard_msgs (whitespace := lax) in
#print axioms Spellbook.Props.C51_preparation_sound
/-- info: 'Spellbook.Props.C51_preparation' depends on axioms: [propext, Classical.choice, Quot.sound] -/
#guard_msgs (whitespace := lax) in
#print axioms Spellbook.Props.C51_preparation
/-- info: 'Spellbook.Props.C52_decided' depends on axioms: [propext, Classical.choice, Quot.sound] -/
#guard_msgs (whitespace := lax) in
#print axioms Spellbook.Props.C52_decided
/-- info: 'Spellbook.Props.C52_undecided' depends on axioms: [propext, Classical.choice, Quot.sound] -/
#guard_msgs (whitespace := lax) in
#print axioms Spellbook.Props.C52_undecided
/-- info: 'Spellbook.Props.C54_well_made' depends on axioms: [propext, Classical.choice, Quot.sound] -/
#guard_msgs (whitespace := lax) in
#print axioms Spellbook.Props.C54_well_made
/-- info: 'Spellbook.Props.C54_aff_unchanged' depends on axioms: [propext, Classical.choice, Quot.sound] -/
#guard_msgs (whitespace := lax) in
#print axioms Spellbook.Props.C54_aff_unchanged
/-- info: 'Spellbook.Props.C54_no_invented_words' depends on axioms: [propext, Classical.choice, Quot.sound] -/
#guard_msgs (whitespace := lax) in
#print axioms Spellbook.Props.C54_no_invented_words
/-- info: 'Spellbook.Props.C55_found' depends on axioms: [propext, Classical.choice, Quot.sound] -/
#guard_msgs (whitespace := lax) in
#print axioms Spellbook.Props.C55_found
/-- info: 'Spellbook.Props.C55_found_limited' depends on axioms: [propext, Classical.choice, Quot.sound] -/
#guard_msgs (whitespace := lax) in
#print axioms Spellbook.Props.C55_found_limited
/-- info: 'Spellbook.Props.C55_attempts' depends on axioms: [propext, Classical.choice, Quot.sound] -/
#guard_msgs (whitespace := lax) in
#print axioms Spellbook.Props.C55_attempts
/-- info: 'Spellbook.Props.C56_rechecked' depends on axioms: [propext, Classical.choice, Quot.sound] -/
#guard_msgs (whitespace := lax) in
#print axioms Spellbook.Props.C56_rechecked
/-- info: 'Spellbook.Props.C57_kinds' depends on axioms: [propext, Classical.choice, Quot.sound] -/
#guard_msgs (whitespace := lax) in
#print axioms Spellbook.Props.C57_kinds
/-- info: 'Spellbook.Props.C57_force_title' depends on axioms: [propext, Classical.choice, Quot.sound] -/
#guard_msgs (whitespace := lax) in
#print axioms Spellbook.Props.C57_force_title
/-- info: 'Spellbook.Props.C58_rule' depends on axioms: [propext, Classical.choice, Quot.sound] -/
#guard_msgs (whitespace := lax) in
#print axioms Spellbook.Props.C58_rule
/-- info: 'Spellbook.Props.C58_rule_unambiguous' depends on axioms: [propext, Classical.choice, Quot.sound] -/
#guard_msgs (whitespace := lax) in
#print axioms Spellbook.Props.C58_rule_unambiguous
/-- info: 'Spellbook.Props.C58_rule_round_trip' depends on axioms: [propext, Classical.choice, Quot.sound] -/
#guard_msgs (whitespace := lax) in
#print axioms Spellbook.Props.C58_rule_round_trip
/-- info: 'Spellbook.Props.C58_map' depends on axioms: [propext, Classical.choice, Quot.sound] -/
#guard_msgs (whitespace := lax) in
#print axioms Spellbook.Props.C58_map
/-- info: 'Spellbook.Props.C58_lines' depends on axioms: [propext, Classical.choice, Quot.sound] -/
#guard_msgs (whitespace := lax) in
#print axioms Spellbook.Props.C58_lines
/-- info: 'Spellbook.Props.C58_words' depends on axioms: [propext, Quot.sound] -/
#guard_msgs (whitespace := lax) in
#print axioms Spellbook.Props.C58_words
/-- info: 'Spellbook.Props.C59_exact' depends on axioms: [propext, Classical.choice, Quot.sound] -/
#guard_msgs (whitespace := lax) in
#print axioms Spellbook.Props.C59_exact
/-- info: 'Spellbook.Props.C59_init_found' depends on axioms: [propext, Classical.choice, Quot.sound] -/
#guard_msgs (whitespace := lax) in
#print axioms Spellbook.Props.C59_init_found
/-- info: 'Spellbook.Props.C59_all_found' depends on axioms: [propext, Classical.choice, Quot.sound] -/
#guard_msgs (whitespace := lax) in
#print axioms Spellbook.Props.C59_all_found
/-- info: 'Spellbook.Props.C59_camel_found' depends on axioms: [propext, Classical.choice, Quot.sound] -/
#guard_msgs (whitespace := lax) in
#print axioms Spellbook.Props.C59_camel_found
/-- info: 'Spellbook.Props.C59_pascal_found' depends on axioms: [propext, Classical.choice, Quot.sound] -/
#guard_msgs (whitespace := lax) in
#print axioms Spellbook.Props.C59_pascal_found
/-- info: 'Spellbook.Props.C60_exact' depends on axioms: [propext, Classical.choice, Quot.sound] -/
#guard_msgs (whitespace := lax) in
#print axioms Spellbook.Props.C60_exact
/-- info: 'Spellbook.Props.C60_measures' depends on axioms: [propext, Classical.choice, Quot.sound] -/
#guard_msgs (whitespace := lax) in
#print axioms Spellbook.Props.C60_measures
/-- info: 'Spellbook.Props.C60_root_score' depends on axioms: [propext, Classical.choice, Quot.sound] -/
#guard_msgs (whitespace := lax) in
#print axioms Spellbook.Props.C60_root_score
/-- info: 'Spellbook.Props.C60_form_score' depends on axioms: [propext, Classical.choice, Quot.sound] -/
#guard_msgs (whitespace := lax) in
#print axioms Spellbook.Props.C60_form_score
/-- info: 'Spellbook.Props.C60_scores_determined' depends on axioms: [propext, Quot.sound] -/
#guard_msgs (whitespace := lax) in
#print axioms Spellbook.Props.C60_scores_determined
/-- info: 'Spellbook.Props.C60_bad_alone' depends on axioms: [propext, Classical.choice, Quot.sound] -/
#guard_msgs (whitespace := lax) in
#print axioms Spellbook.Props.C60_bad_alone
/-- info: 'Spellbook.Props.C61_exact' depends on axioms: [propext, Classical.choice, Quot.sound] -/
#guard_msgs (whitespace := lax) in
#print axioms Spellbook.Props.C61_exact
/-- info: 'Spellbook.Props.C61_one_answer' depends on axioms: [propext, Classical.choice, Quot.sound] -/
#guard_msgs (whitespace := lax) in
#print axioms Spellbook.Props.C61_one_answer
/-- info: 'Spellbook.Props.C61_accepts' depends on axioms: [propext, Classical.choice, Quot.sound] -/
#guard_msgs (whitespace := lax) in
#print axioms Spellbook.Props.C61_accepts
/-- info: 'Spellbook.Props.C61_limits' depends on axioms: [propext, Classical.choice, Quot.sound] -/
#guard_msgs (whitespace := lax) in
#print axioms Spellbook.Props.C61_limits
/-- info: 'Spellbook.Props.C61_commits' depends on axioms: [propext, Classical.choice, Quot.sound] -/
#guard_msgs (whitespace := lax) in
#print axioms Spellbook.Props.C61_commits
/-- info: 'Spellbook.Props.C62_no_undefined_behaviour' depends on axioms: [propext, Classical.choice, Quot.sound] -/
#guard_msgs (whitespace := lax) in
#print axioms Spellbook.Props.C62_no_undefined_behaviour
/-- info: 'Spellbook.Props.C62_program' depends on axioms: [propext, Classical.choice, Quot.sound] -/
#guard_msgs (whitespace := lax) in
#print axioms Spellbook.Props.C62_program
/-- info: 'Spellbook.Props.C62_no_leak' depends on axioms: [propext, Classical.choice, Quot.sound] -/
#guard_msgs (whitespace := lax) in
#print axioms Spellbook.Props.C62_no_leak
/-- info: 'Spellbook.Props.C63_check' depends on axioms: [propext, Classical.choice, Quot.sound] -/
#guard_msgs (whitespace := lax) in
#print axioms Spellbook.Props.C63_check
/-- info: 'Spellbook.Props.C63_no_panic' depends on axioms: [propext, Classical.choice, Quot.sound] -/
#guard_msgs (whitespace := lax) in
#print axioms Spellbook.Props.C63_no_panic
/-- info: 'Spellbook.Props.C63_compound' depends on axioms: [propext, Classical.choice, Quot.sound] -/
#guard_msgs (whitespace := lax) in
#print axioms Spellbook.Props.C63_compound
/-- info: 'Spellbook.Props.C63_sharps_restored' depends on axioms: [propext, Classical.choice, Quot.sound] -/
#guard_msgs (whitespace := lax) in
#print axioms Spellbook.Props.C63_sharps_restored
/-- info: 'Spellbook.Props.C63_stem' depends on axioms: [propext, Classical.choice, Quot.sound] -/
#guard_msgs (whitespace := lax) in
#print axioms Spellbook.Props.C63_stem
/-- info: 'Spellbook.Props.C63_suffix_condition' depends on axioms: [propext, Classical.choice, Quot.sound] -/
#guard_msgs (whitespace := lax) in
#print axioms Spellbook.Props.C63_suffix_condition
/-- info: 'Spellbook.Props.C64_refused' depends on axioms: [propext, Classical.choice, Quot.sound] -/
#guard_msgs (whitespace := lax) in
#print axioms Spellbook.Props.C64_refused
/-- info: 'Spellbook.Props.C64_characters' depends on axioms: [propext, Classical.choice, Quot.sound] -/
#guard_msgs (whitespace := lax) in
#print axioms Spellbook.Props.C64_characters
/-- info: 'Spellbook.Props.C64_suggest' depends on axioms: [propext, Classical.choice, Quot.sound] -/
#guard_msgs (whitespace := lax) in
#print axioms Spellbook.Props.C64_suggest
/-- info: 'Spellbook.Props.C65_suggest' depends on axioms: [propext, Classical.choice, Quot.sound] -/
#guard_msgs (whitespace := lax) in
#print axioms Spellbook.Props.C65_suggest
/-- info: 'Spellbook.Props.C65_no_panic' depends on axioms: [propext, Classical.choice, Quot.sound] -/
#guard_msgs (whitespace := lax) in
#print axioms Spellbook.Props.C65_no_panic
/-- info: 'Spellbook.Props.C65_dash_parts' depends on axioms: [propext, Classical.choice, Quot.sound] -/
#guard_msgs (whitespace := lax) in
#print axioms Spellbook.Props.C65_dash_parts
/-- info: 'Spellbook.Props.C65_hyphen' depends on axioms: [propext, Classical.choice, Quot.sound] -/
#guard_msgs (whitespace := lax) in
#print axioms Spellbook.Props.C65_hyphen
/-- info: 'Spellbook.Props.C65_slash' depends on axioms: [propext, Classical.choice, Quot.sound] -/
#guard_msgs (whitespace := lax) in
#print axioms Spellbook.Props.C65_slash
/-- info: 'Spellbook.Props.C65_dic_line' depends on axioms: [propext, Classical.choice, Quot.sound] -/
#guard_msgs (whitespace := lax) in
#print axioms Spellbook.Props.C65_dic_line
/-- info: 'Spellbook.Props.C65_aff_readers' depends on axioms: [propext, Classical.choice, Quot.sound] -/
#guard_msgs (whitespace := lax) in
#print axioms Spellbook.Props.C65_aff_readers
/-- info: 'Spellbook.Props.C65_convert' depends on axioms: [propext, Classical.choice, Quot.sound] -/
#guard_msgs (whitespace := lax) in
#print axioms Spellbook.Props.C65_convert
/-- info: 'Spellbook.Props.C66_correct' depends on axioms: [propext, Classical.choice, Quot.sound] -/
#guard_msgs (whitespace := lax) in
#print axioms Spellbook.Props.C66_correct
/-- info: 'Spellbook.Props.C66_texts' depends on axioms: [propext, Classical.choice, Quot.sound] -/
#guard_msgs (whitespace := lax) in
#print axioms Spellbook.Props.C66_texts
/-- info: 'Spellbook.Props.C66_sound' depends on axioms: [propext, Classical.choice, Quot.sound] -/
#guard_msgs (whitespace := lax) in
#print axioms Spellbook.Props.C66_sound
/-- info: 'Spellbook.Props.C66_no_choice' depends on axioms: [propext, Classical.choice, Quot.sound] -/
#guard_msgs (whitespace := lax) in
#print axioms Spellbook.Props.C66_no_choice
/-- info: 'Spellbook.Props.C66_choices_agree' depends on axioms: [propext, Classical.choice, Quot.sound] -/
#guard_msgs (whitespace := lax) in
#print axioms Spellbook.Props.C66_choices_agree
/-- info: 'Spellbook.Props.C66_rules' depends on axioms: [propext, Classical.choice, Quot.sound] -/
#guard_msgs (whitespace := lax) in
#print axioms Spellbook.Props.C66_rules
/-- info: 'Spellbook.Props.C67_outcome' depends on axioms: [propext, Classical.choice, Quot.sound] -/
#guard_msgs (whitespace := lax) in
#print axioms Spellbook.Props.C67_outcome
/-- info: 'Spellbook.Props.C67_unique' depends on axioms: [propext, Classical.choice, Quot.sound] -/
#guard_msgs (whitespace := lax) in
#print axioms Spellbook.Props.C67_unique
/-- info: 'Spellbook.Props.C68_outcome' depends on axioms: [propext, Classical.choice, Quot.sound] -/
#guard_msgs (whitespace := lax) in
#print axioms Spellbook.Props.C68_outcome
/-- info: 'Spellbook.Props.C68_unique' depends on axioms: [propext, Classical.choice, Quot.sound] -/
#guard_msgs (whitespace := lax) in
#print axioms Spellbook.Props.C68_unique
/-- info: 'Spellbook.Props.C69_stem' depends on axioms: [propext, Classical.choice, Quot.sound] -/
#guard_msgs (whitespace := lax) in
#print axioms Spellbook.Props.C69_stem
/-- info: 'Spellbook.Props.C69_calls' depends on axioms: [propext, Classical.choice, Quot.sound] -/
#guard_msgs (whitespace := lax) in
#print axioms Spellbook.Props.C69_calls
/-- info: 'Spellbook.Props.C69_calls_suggest' depends on axioms: [propext, Classical.choice, Quot.sound] -/
#guard_msgs (whitespace := lax) in
#print axioms Spellbook.Props.C69_calls_suggest
/-- info: 'Spellbook.Props.C69_swap' depends on axioms: [propext, Classical.choice, Quot.sound] -/
#guard_msgs (whitespace := lax) in
#print axioms Spellbook.Props.C69_swap
/-- info: 'Spellbook.Props.C69_lines' depends on axioms: [propext, Classical.choice, Quot.sound] -/
#guard_msgs (whitespace := lax) in
#print axioms Spellbook.Props.C69_lines
/-- info: 'Spellbook.Props.C69_lines_check' depends on axioms: [propext, Classical.choice, Quot.sound] -/
#guard_msgs (whitespace := lax) in
#print axioms Spellbook.Props.C69_lines_check
/-- info: 'Spellbook.Props.C69_runs' depends on axioms: [propext, Quot.sound] -/
#guard_msgs (whitespace := lax) in
#print axioms Spellbook.Props.C69_runs
/-- info: 'Spellbook.Props.C69_order_matters' depends on axioms: [propext, Classical.choice, Quot.sound] -/
#guard_msgs (whitespace := lax) in
#print axioms Spellbook.Props.C69_order_matters
/-- info: 'Spellbook.Props.C70_plain_list' depends on axioms: [propext, Classical.choice, Quot.sound] -/
#guard_msgs (whitespace := lax) in
#print axioms Spellbook.Props.C70_plain_list
/-- info: 'Spellbook.Props.C70_more_words' depends on axioms: [propext, Classical.choice, Quot.sound] -/
#guard_msgs (whitespace := lax) in
#print axioms Spellbook.Props.C70_more_words
/-- info: 'Spellbook.Props.C71_lower' depends on axioms: [propext, Quot.sound] -/
#guard_msgs (whitespace := lax) in
#print axioms Spellbook.Props.C71_lower
/-- info: 'Spellbook.Props.C71_upper' depends on axioms: [propext, Quot.sound] -/
#guard_msgs (whitespace := lax) in
#print axioms Spellbook.Props.C71_upper
/-- info: 'Spellbook.Props.C71_title' depends on axioms: [propext] -/
#guard_msgs (whitespace := lax) in
#print axioms Spellbook.Props.C71_title
/-- info: 'Spellbook.Props.C71_title_panic' depends on axioms: [propext] -/
#guard_msgs (whitespace := lax) in
#print axioms Spellbook.Props.C71_title_panic
/-- info: 'Spellbook.Props.C71_lower_first' does not depend on any axioms -/
#guard_msgs (whitespace := lax) in
#print axioms Spellbook.Props.C71_lower_first
/-- info: 'Spellbook.Props.C71_upper_at' depends on axioms: [propext, Quot.sound] -/
#guard_msgs (whitespace := lax) in
#print axioms Spellbook.Props.C71_upper_at
/-- info: 'Spellbook.Props.C71_same_letter' depends on axioms: [propext] -/
#guard_msgs (whitespace := lax) in
#print axioms Spellbook.Props.C71_same_letter
/-- info: 'Spellbook.Props.C71_round_trip' depends on axioms: [propext, Quot.sound] -/
#guard_msgs (whitespace := lax) in
#print axioms Spellbook.Props.C71_round_trip
/-- info: 'Spellbook.Props.C71_sigma_negation' depends on axioms: [propext, Classical.choice, Quot.sound] -/
#guard_msgs (whitespace := lax) in
#print axioms Spellbook.Props.C71_sigma_negation
/-- info: 'Spellbook.Props.C72_aff' depends on axioms: [propext, Classical.choice, Quot.sound] -/
#guard_msgs (whitespace := lax) in
#print axioms Spellbook.Props.C72_aff
/-- info: 'Spellbook.Props.C72_dic' depends on axioms: [propext, Classical.choice, Quot.sound] -/
#guard_msgs (whitespace := lax) in
#print axioms Spellbook.Props.C72_dic
/-- info: 'Spellbook.Props.C72_exhaustive' depends on axioms: [propext, Classical.choice, Quot.sound] -/
#guard_msgs (whitespace := lax) in
#print axioms Spellbook.Props.C72_exhaustive
/-- info: 'Spellbook.Props.C72_exclusive' depends on axioms: [propext, Classical.choice, Quot.sound] -/
#guard_msgs (whitespace := lax) in
#print axioms Spellbook.Props.C72_exclusive
/-- info: 'Spellbook.Props.C72_unique' depends on axioms: [propext, Classical.choice, Quot.sound] -/
#guard_msgs (whitespace := lax) in
#print axioms Spellbook.Props.C72_unique
/-- info: 'Spellbook.Props.C73_layout' depends on axioms: [propext, Classical.choice, Quot.sound] -/
#guard_msgs (whitespace := lax) in
#print axioms Spellbook.Props.C73_layout
/-- info: 'Spellbook.Props.C73_mark_aff' depends on axioms: [propext, Classical.choice, Quot.sound] -/
#guard_msgs (whitespace := lax) in
#print axioms Spellbook.Props.C73_mark_aff
/-- info: 'Spellbook.Props.C73_mark_dic' depends on axioms: [propext, Classical.choice, Quot.sound] -/
#guard_msgs (whitespace := lax) in
#print axioms Spellbook.Props.C73_mark_dic
/-- info: 'Spellbook.Props.C73_white_aff' depends on axioms: [propext, Classical.choice, Quot.sound] -/
#guard_msgs (whitespace := lax) in
#print axioms Spellbook.Props.C73_white_aff
/-- info: 'Spellbook.Props.C73_white_dic' depends on axioms: [propext, Classical.choice, Quot.sound] -/
#guard_msgs (whitespace := lax) in
#print axioms Spellbook.Props.C73_white_dic
/-- info: 'Spellbook.Props.C73_comment_aff' depends on axioms: [propext, Classical.choice, Quot.sound] -/
#guard_msgs (whitespace := lax) in
#print axioms Spellbook.Props.C73_comment_aff
/-- info: 'Spellbook.Props.C73_comment_dic' depends on axioms: [propext, Classical.choice, Quot.sound] -/
#guard_msgs (whitespace := lax) in
#print axioms Spellbook.Props.C73_comment_dic
/-- info: 'Spellbook.Props.C73_blank_dic' depends on axioms: [propext, Classical.choice, Quot.sound] -/
#guard_msgs (whitespace := lax) in
#print axioms Spellbook.Props.C73_blank_dic
/-- info: 'Spellbook.Props.C73_line_ends' depends on axioms: [propext, Classical.choice, Quot.sound] -/
#guard_msgs (whitespace := lax) in
#print axioms Spellbook.Props.C73_line_ends
/-- info: 'Spellbook.Props.C73_blank_aff_witness' depends on axioms: [propext, Classical.choice, Quot.sound] -/
#guard_msgs (whitespace := lax) in
#print axioms Spellbook.Props.C73_blank_aff_witness
/-- info: 'Spellbook.Props.C73_blank_dic_witness' depends on axioms: [propext, Classical.choice, Quot.sound] -/
#guard_msgs (whitespace := lax) in
#print axioms Spellbook.Props.C73_blank_dic_witness
/-- info: 'Spellbook.Props.C74_message' depends on axioms: [propext, Classical.choice, Quot.sound] -/
#guard_msgs (whitespace := lax) in
#print axioms Spellbook.Props.C74_message
/-- info: 'Spellbook.Props.C74_add_message' depends on axioms: [propext, Classical.choice, Quot.sound] -/
#guard_msgs (whitespace := lax) in
#print axioms Spellbook.Props.C74_add_message
/-- info: 'Spellbook.Props.C74_line' depends on axioms: [propext, Classical.choice, Quot.sound] -/
#guard_msgs (whitespace := lax) in
#print axioms Spellbook.Props.C74_line
/-- info: 'Spellbook.Props.C74_fault' depends on axioms: [propext, Classical.choice, Quot.sound] -/
#guard_msgs (whitespace := lax) in
#print axioms Spellbook.Props.C74_fault
/-- info: 'Spellbook.Props.C75_check' depends on axioms: [propext, Classical.choice, Quot.sound] -/
#guard_msgs (whitespace := lax) in
#print axioms Spellbook.Props.C75_check
/-- info: 'Spellbook.Props.C75_same' depends on axioms: [propext, Classical.choice, Quot.sound] -/
#guard_msgs (whitespace := lax) in
#print axioms Spellbook.Props.C75_same
/-- info: 'Spellbook.Props.C75_answer' depends on axioms: [propext, Classical.choice, Quot.sound] -/
#guard_msgs (whitespace := lax) in
#print axioms Spellbook.Props.C75_answer
/-- info: 'Spellbook.Props.C75_short' depends on axioms: [propext, Classical.choice, Quot.sound] -/
#guard_msgs (whitespace := lax) in
#print axioms Spellbook.Props.C75_short
/-- info: 'Spellbook.Props.C75_long_stem' depends on axioms: [propext, Classical.choice, Quot.sound] -/
#guard_msgs (whitespace := lax) in
#print axioms Spellbook.Props.C75_long_stem
/-- info: 'Spellbook.Props.C75_negative_modifier' depends on axioms: [propext, Classical.choice, Quot.sound] -/
#guard_msgs (whitespace := lax) in
#print axioms Spellbook.Props.C75_negative_modifier
/-- info: 'Spellbook.Props.C75_many_syllables' depends on axioms: [propext, Classical.choice, Quot.sound] -/
#guard_msgs (whitespace := lax) in
#print axioms Spellbook.Props.C75_many_syllables
/-- info: 'Spellbook.Props.C76_widens' depends on axioms: [propext, Classical.choice, Quot.sound] -/
#guard_msgs (whitespace := lax) in
#print axioms Spellbook.Props.C76_widens
/-- info: 'Spellbook.Props.C76_single' depends on axioms: [propext, Classical.choice, Quot.sound] -/
#guard_msgs (whitespace := lax) in
#print axioms Spellbook.Props.C76_single
/-- info: 'Spellbook.Props.C76_capitals' depends on axioms: [propext, Classical.choice, Quot.sound] -/
#guard_msgs (whitespace := lax) in
#print axioms Spellbook.Props.C76_capitals
/-- info: 'Spellbook.Props.C76_exact' depends on axioms: [propext, Classical.choice, Quot.sound] -/
#guard_msgs (whitespace := lax) in
#print axioms Spellbook.Props.C76_exact
/-- info: 'Spellbook.Props.C76_forbidden_negation' depends on axioms: [propext, Classical.choice, Quot.sound] -/
#guard_msgs (whitespace := lax) in
#print axioms Spellbook.Props.C76_forbidden_negation
/-- info: 'Spellbook.Props.C76_panic_negation' depends on axioms: [propext, Classical.choice, Quot.sound] -/
#guard_msgs (whitespace := lax) in
#print axioms Spellbook.Props.C76_panic_negation
/-- info: 'Spellbook.Props.C77_prefix' depends on axioms: [propext, Classical.choice, Quot.sound] -/
#guard_msgs (whitespace := lax) in
#print axioms Spellbook.Props.C77_prefix
/-- info: 'Spellbook.Props.C77_more' depends on axioms: [propext, Classical.choice, Quot.sound] -/
#guard_msgs (whitespace := lax) in
#print axioms Spellbook.Props.C77_more
/-- info: 'Spellbook.Props.C77_dash_negation' depends on axioms: [propext, Classical.choice, Quot.sound] -/
#guard_msgs (whitespace := lax) in
#print axioms Spellbook.Props.C77_dash_negation
/-- info: 'Spellbook.Props.C78_entries' depends on axioms: [propext, Classical.choice, Quot.sound] -/
#guard_msgs (whitespace := lax) in
#print axioms Spellbook.Props.C78_entries
/-- info: 'Spellbook.Props.C78_refused' depends on axioms: [propext, Classical.choice, Quot.sound] -/
#guard_msgs (whitespace := lax) in
#print axioms Spellbook.Props.C78_refused
/-- info: 'Spellbook.Props.C78_check' depends on axioms: [propext, Classical.choice, Quot.sound] -/
#guard_msgs (whitespace := lax) in
#print axioms Spellbook.Props.C78_check
/-- info: 'Spellbook.Props.C78_suggest' depends on axioms: [propext, Classical.choice, Quot.sound] -/
#guard_msgs (whitespace := lax) in
#print axioms Spellbook.Props.C78_suggest
/-- info: 'Spellbook.Props.C79_depth' depends on axioms: [propext, Classical.choice, Quot.sound] -/
#guard_msgs (whitespace := lax) in
#print axioms Spellbook.Props.C79_depth
/-- info: 'Spellbook.Props.C79_depth_all' depends on axioms: [propext, Classical.choice, Quot.sound] -/
#guard_msgs (whitespace := lax) in
#print axioms Spellbook.Props.C79_depth_all
/-- info: 'Spellbook.Props.C79_constant' depends on axioms: [propext, Classical.choice, Quot.sound] -/
#guard_msgs (whitespace := lax) in
#print axioms Spellbook.Props.C79_constant
/-- info: 'Spellbook.Props.C79_no_depth' depends on axioms: [propext, Classical.choice, Quot.sound] -/
#guard_msgs (whitespace := lax) in
#print axioms Spellbook.Props.C79_no_depth
/-- info: 'Spellbook.Props.C79_sample_growth' depends on axioms: [propext, Classical.choice, Quot.sound] -/
#guard_msgs (whitespace := lax) in
#print axioms Spellbook.Props.C79_sample_growth
/-- info: 'Spellbook.Props.C80_suggest' depends on axioms: [propext, Classical.choice, Quot.sound] -/
#guard_msgs (whitespace := lax) in
#print axioms Spellbook.Props.C80_suggest
/-- info: 'Spellbook.Props.C80_same' depends on axioms: [propext, Classical.choice, Quot.sound] -/
#guard_msgs (whitespace := lax) in
#print axioms Spellbook.Props.C80_same
/-- info: 'Spellbook.Props.C80_answer' depends on axioms: [propext, Classical.choice, Quot.sound] -/
#guard_msgs (whitespace := lax) in
#print axioms Spellbook.Props.C80_answer
/-- info: 'Spellbook.Props.C80_long_stem' depends on axioms: [propext, Classical.choice, Quot.sound] -/
#guard_msgs (whitespace := lax) in
#print axioms Spellbook.Props.C80_long_stem
/-- info: 'Spellbook.Props.C81_accepted_partial' depends on axioms: [propext, Classical.choice, Quot.sound] -/
#guard_msgs (whitespace := lax) in
#print axioms Spellbook.Props.C81_accepted_partial
/-- info: 'Spellbook.Props.C81_pascal_partial' depends on axioms: [propext, Classical.choice, Quot.sound] -/
#guard_msgs (whitespace := lax) in
#print axioms Spellbook.Props.C81_pascal_partial
/-- info: 'Spellbook.Props.C81_not_itself_partial' depends on axioms: [propext, Classical.choice, Quot.sound] -/
#guard_msgs (whitespace := lax) in
#print axioms Spellbook.Props.C81_not_itself_partial
/-- info: 'Spellbook.Props.C81_not_itself_capitals' depends on axioms: [propext, Classical.choice, Quot.sound] -/
#guard_msgs (whitespace := lax) in
#print axioms Spellbook.Props.C81_not_itself_capitals
/-- info: 'Spellbook.Props.C81_pascal_negation' depends on axioms: [propext, Classical.choice, Quot.sound] -/
#guard_msgs (whitespace := lax) in
#print axioms Spellbook.Props.C81_pascal_negation
/-- info: 'Spellbook.Props.C81_force_negation' depends on axioms: [propext, Classical.choice, Quot.sound] -/
#guard_msgs (whitespace := lax) in
#print axioms Spellbook.Props.C81_force_negation
/-- info: 'Spellbook.Props.C81_conversion_negation' depends on axioms: [propext, Classical.choice, Quot.sound] -/
#guard_msgs (whitespace := lax) in
#print axioms Spellbook.Props.C81_conversion_negation
/-- info: 'Spellbook.Props.C82_same' depends on axioms: [propext, Quot.sound] -/
#guard_msgs (whitespace := lax) in
#print axioms Spellbook.Props.C82_same
/-- info: 'Spellbook.Props.C82_bound' depends on axioms: [propext, Classical.choice, Quot.sound] -/
#guard_msgs (whitespace := lax) in
#print axioms Spellbook.Props.C82_bound
/-- info: 'Spellbook.Props.C82_bound_all' depends on axioms: [propext, Classical.choice, Quot.sound] -/
#guard_msgs (whitespace := lax) in
#print axioms Spellbook.Props.C82_bound_all
/-- info: 'Spellbook.Props.C82_no_compounds' depends on axioms: [propext, Classical.choice, Quot.sound] -/
#guard_msgs (whitespace := lax) in
#print axioms Spellbook.Props.C82_no_compounds
/-- info: 'Spellbook.Props.C82_exponential' depends on axioms: [propext, Classical.choice, Quot.sound] -/
#guard_msgs (whitespace := lax) in
#print axioms Spellbook.Props.C82_exponential
/-- info: 'Spellbook.Props.C82_rules_exponential' depends on axioms: [propext, Classical.choice, Quot.sound] -/
#guard_msgs (whitespace := lax) in
#print axioms Spellbook.Props.C82_rules_exponential
/-- info: 'Spellbook.Props.C83_same' depends on axioms: [propext, Classical.choice, Quot.sound] -/
#guard_msgs (whitespace := lax) in
#print axioms Spellbook.Props.C83_same
/-- info: 'Spellbook.Props.C83_bound' depends on axioms: [propext, Classical.choice, Quot.sound] -/
#guard_msgs (whitespace := lax) in
#print axioms Spellbook.Props.C83_bound
/-- info: 'Spellbook.Props.C83_few' depends on axioms: [propext, Classical.choice, Quot.sound] -/
#guard_msgs (whitespace := lax) in
#print axioms Spellbook.Props.C83_few
/-- info: 'Spellbook.Props.C83_constant' depends on axioms: [propext, Classical.choice, Quot.sound] -/
#guard_msgs (whitespace := lax) in
#print axioms Spellbook.Props.C83_constant
/-- info: 'Spellbook.Props.C83_every_text' depends on axioms: [propext, Classical.choice, Quot.sound] -/
#guard_msgs (whitespace := lax) in
#print axioms Spellbook.Props.C83_every_text
/-- info: 'Spellbook.Props.C83_map_budget' depends on axioms: [propext, Classical.choice, Quot.sound] -/
#guard_msgs (whitespace := lax) in
#print axioms Spellbook.Props.C83_map_budget
/-- info: 'Spellbook.Props.C84_check' depends on axioms: [propext, Classical.choice, Quot.sound] -/
#guard_msgs (whitespace := lax) in
#print axioms Spellbook.Props.C84_check
/-- info: 'Spellbook.Props.C84_add' depends on axioms: [propext, Classical.choice, Quot.sound] -/
#guard_msgs (whitespace := lax) in
#print axioms Spellbook.Props.C84_add
/-- info: 'Spellbook.Props.C84_suggest' depends on axioms: [propext, Classical.choice, Quot.sound] -/
#guard_msgs (whitespace := lax) in
#print axioms Spellbook.Props.C84_suggest
/-- info: 'Spellbook.Props.C84_forbidden_negation' depends on axioms: [propext, Classical.choice, Quot.sound] -/
#guard_msgs (whitespace := lax) in
#print axioms Spellbook.Props.C84_forbidden_negation
/-- info: 'Spellbook.Props.C84_compound_negation' depends on axioms: [propext, Classical.choice, Quot.sound] -/
#guard_msgs (whitespace := lax) in
#print axioms Spellbook.Props.C84_compound_negation
/-- info: 'Spellbook.Props.C84_title_negation' depends on axioms: [propext, Classical.choice, Quot.sound] -/
#guard_msgs (whitespace := lax) in
#print axioms Spellbook.Props.C84_title_negation
/-- info: 'Spellbook.Props.C84_similar_negation' depends on axioms: [propext, Classical.choice, Quot.sound] -/
#guard_msgs (whitespace := lax) in
#print axioms Spellbook.Props.C84_similar_negation
/-- info: 'Spellbook.Props.C85_map' depends on axioms: [propext, Classical.choice, Quot.sound] -/
#guard_msgs (whitespace := lax) in
#print axioms Spellbook.Props.C85_map
/-- info: 'Spellbook.Props.C85_constant' depends on axioms: [propext, Classical.choice, Quot.sound] -/
#guard_msgs (whitespace := lax) in
#print axioms Spellbook.Props.C85_constant
/-- info: 'Spellbook.Props.C85_no_dash' depends on axioms: [propext, Classical.choice, Quot.sound] -/
#guard_msgs (whitespace := lax) in
#print axioms Spellbook.Props.C85_no_dash
/-- info: 'Spellbook.Props.C85_iconv_negation' depends on axioms: [propext, Classical.choice, Quot.sound] -/
#guard_msgs (whitespace := lax) in
#print axioms Spellbook.Props.C85_iconv_negation
/-- info: 'Spellbook.Props.C86_no_undefined_behaviour' depends on axioms: [propext, Classical.choice, Quot.sound] -/
#guard_msgs (whitespace := lax) in
#print axioms Spellbook.Props.C86_no_undefined_behaviour
/-- info: 'Spellbook.Props.C86_program' depends on axioms: [propext, Classical.choice, Quot.sound] -/
#guard_msgs (whitespace := lax) in
#print axioms Spellbook.Props.C86_program
/-- info: 'Spellbook.Props.C86_no_leak' depends on axioms: [propext, Classical.choice, Quot.sound] -/
#guard_msgs (whitespace := lax) in
#print axioms Spellbook.Props.C86_no_leak
/-- info: 'Spellbook.Props.C86_bag' depends on axioms: [propext, Classical.choice, Quot.sound] -/
#guard_msgs (whitespace := lax) in
#print axioms Spellbook.Props.C86_bag
/-- info: 'Spellbook.Props.C87_check' depends on axioms: [propext, Classical.choice, Quot.sound] -/
#guard_msgs (whitespace := lax) in
#print axioms Spellbook.Props.C87_check
/-- info: 'Spellbook.Props.C87_suggest' depends on axioms: [propext, Classical.choice, Quot.sound] -/
#guard_msgs (whitespace := lax) in
#print axioms Spellbook.Props.C87_suggest
/-- info: 'Spellbook.Props.C87_writing' depends on axioms: [propext, Classical.choice, Quot.sound] -/
#guard_msgs (whitespace := lax) in
#print axioms Spellbook.Props.C87_writing
/-- info: 'Spellbook.Props.C87_syllables_needed' depends on axioms: [propext, Classical.choice, Quot.sound] -/
#guard_msgs (whitespace := lax) in
#print axioms Spellbook.Props.C87_syllables_needed
/-- info: 'Spellbook.Props.C87_hidden_needed' depends on axioms: [propext, Classical.choice, Quot.sound] -/
#guard_msgs (whitespace := lax) in
#print axioms Spellbook.Props.C87_hidden_needed
/-- info: 'Spellbook.Props.C87_injective_needed' depends on axioms: [propext, Classical.choice, Quot.sound] -/
#guard_msgs (whitespace := lax) in
#print axioms Spellbook.Props.C87_injective_needed
/-- info: 'Spellbook.Props.C88_load' depends on axioms: [propext, Classical.choice, Quot.sound] -/
#guard_msgs (whitespace := lax) in
#print axioms Spellbook.Props.C88_load
/-- info: 'Spellbook.Props.C88_memory' depends on axioms: [propext, Classical.choice, Quot.sound] -/
#guard_msgs (whitespace := lax) in
#print axioms Spellbook.Props.C88_memory
/-- info: 'Spellbook.Props.C88_add' depends on axioms: [propext, Classical.choice, Quot.sound] -/
#guard_msgs (whitespace := lax) in
#print axioms Spellbook.Props.C88_add
/-- info: 'Spellbook.Props.C88_remove' depends on axioms: [propext, Classical.choice, Quot.sound] -/
#guard_msgs (whitespace := lax) in
#print axioms Spellbook.Props.C88_remove
/-- info: 'Spellbook.Props.C88_check' depends on axioms: [propext, Classical.choice, Quot.sound] -/
#guard_msgs (whitespace := lax) in
#print axioms Spellbook.Props.C88_check
/-- info: 'Spellbook.Props.C88_suggest' depends on axioms: [propext, Classical.choice, Quot.sound] -/
#guard_msgs (whitespace := lax) in
#print axioms Spellbook.Props.C88_suggest
/-- info: 'Spellbook.Props.C88_order_needed' depends on axioms: [propext, Classical.choice, Quot.sound] -/
#guard_msgs (whitespace := lax) in
#print axioms Spellbook.Props.C88_order_needed
/-- info: 'Spellbook.Props.C88_nul_needed' depends on axioms: [propext, Classical.choice, Quot.sound] -/
#guard_msgs (whitespace := lax) in
#print axioms Spellbook.Props.C88_nul_needed
/-- info: 'Spellbook.Props.C89_check' depends on axioms: [propext, Classical.choice, Quot.sound] -/
#guard_msgs (whitespace := lax) in
#print axioms Spellbook.Props.C89_check
/-- info: 'Spellbook.Props.C89_suggest' depends on axioms: [propext, Classical.choice, Quot.sound] -/
#guard_msgs (whitespace := lax) in
#print axioms Spellbook.Props.C89_suggest
/-- info: 'Spellbook.Props.C89_complex_needed' depends on axioms: [propext, Classical.choice, Quot.sound] -/
#guard_msgs (whitespace := lax) in
#print axioms Spellbook.Props.C89_complex_needed
/-- info: 'Spellbook.Props.C89_effort' depends on axioms: [propext, Classical.choice, Quot.sound] -/
#guard_msgs (whitespace := lax) in
#print axioms Spellbook.Props.C89_effort
/-- info: 'Spellbook.Props.C90_check' depends on axioms: [propext, Classical.choice, Quot.sound] -/
#guard_msgs (whitespace := lax) in
#print axioms Spellbook.Props.C90_check
/-- info: 'Spellbook.Props.C90_suggest' depends on axioms: [propext, Classical.choice, Quot.sound] -/
#guard_msgs (whitespace := lax) in
#print axioms Spellbook.Props.C90_suggest
/-- info: 'Spellbook.Props.C90_lines' depends on axioms: [propext, Classical.choice, Quot.sound] -/
#guard_msgs (whitespace := lax) in
#print axioms Spellbook.Props.C90_lines
/-- info: 'Spellbook.Props.C90_add' depends on axioms: [propext, Classical.choice, Quot.sound] -/
#guard_msgs (whitespace := lax) in
#print axioms Spellbook.Props.C90_add
/-- info: 'Spellbook.Props.C90_conflict_needed' depends on axioms: [propext, Classical.choice, Quot.sound] -/
#guard_msgs (whitespace := lax) in
#print axioms Spellbook.Props.C90_conflict_needed
/-- info: 'Spellbook.Props.C90_similarity' depends on axioms: [propext, Classical.choice, Quot.sound] -/
#guard_msgs (whitespace := lax) in
#print axioms Spellbook.Props.C90_similarity
/-- info: 'Spellbook.Props.C90_effort' depends on axioms: [propext, Classical.choice, Quot.sound] -/
#guard_msgs (whitespace := lax) in
#print axioms Spellbook.Props.C90_effort
/-- info: 'Spellbook.Props.C91_check' depends on axioms: [propext, Classical.choice, Quot.sound] -/
#guard_msgs (whitespace := lax) in
#print axioms Spellbook.Props.C91_check
/-- info: 'Spellbook.Props.C91_removals' depends on axioms: [propext, Classical.choice, Quot.sound] -/
#guard_msgs (whitespace := lax) in
#print axioms Spellbook.Props.C91_removals
/-- info: 'Spellbook.Props.C91_changed' depends on axioms: [propext, Classical.choice, Quot.sound] -/
#guard_msgs (whitespace := lax) in
#print axioms Spellbook.Props.C91_changed
/-- info: 'Spellbook.Props.C91_compounds' depends on axioms: [propext, Classical.choice, Quot.sound] -/
#guard_msgs (whitespace := lax) in
#print axioms Spellbook.Props.C91_compounds
/-- info: 'Spellbook.Props.C91_flag_needed' depends on axioms: [propext, Classical.choice, Quot.sound] -/
#guard_msgs (whitespace := lax) in
#print axioms Spellbook.Props.C91_flag_needed
/-- info: 'Spellbook.Props.C92_check' depends on axioms: [propext, Classical.choice, Quot.sound] -/
#guard_msgs (whitespace := lax) in
#print axioms Spellbook.Props.C92_check
/-- info: 'Spellbook.Props.C92_finite' depends on axioms: [propext, Classical.choice, Quot.sound] -/
#guard_msgs (whitespace := lax) in
#print axioms Spellbook.Props.C92_finite
/-- info: 'Spellbook.Props.C92_list' depends on axioms: [propext, Classical.choice, Quot.sound] -/
#guard_msgs (whitespace := lax) in
#print axioms Spellbook.Props.C92_list
/-- info: 'Spellbook.Props.C92_marks_needed' depends on axioms: [propext, Classical.choice, Quot.sound] -/
#guard_msgs (whitespace := lax) in
#print axioms Spellbook.Props.C92_marks_needed
/-- info: 'Spellbook.Props.C92_compounds' depends on axioms: [propext, Classical.choice, Quot.sound] -/
#guard_msgs (whitespace := lax) in
#print axioms Spellbook.Props.C92_compounds
/-- info: 'Spellbook.Props.C93_check' depends on axioms: [propext, Classical.choice, Quot.sound] -/
#guard_msgs (whitespace := lax) in
#print axioms Spellbook.Props.C93_check
/-- info: 'Spellbook.Props.C93_suggest' depends on axioms: [propext, Classical.choice, Quot.sound] -/
#guard_msgs (whitespace := lax) in
#print axioms Spellbook.Props.C93_suggest
/-- info: 'Spellbook.Props.C93_plain' depends on axioms: [propext, Classical.choice, Quot.sound] -/
#guard_msgs (whitespace := lax) in
#print axioms Spellbook.Props.C93_plain
/-- info: 'Spellbook.Props.C93_asked_needed' depends on axioms: [propext, Classical.choice, Quot.sound] -/
#guard_msgs (whitespace := lax) in
#print axioms Spellbook.Props.C93_asked_needed
/-- info: 'Spellbook.Props.C94_check' depends on axioms: [propext, Classical.choice, Quot.sound] -/
#guard_msgs (whitespace := lax) in
#print axioms Spellbook.Props.C94_check
/-- info: 'Spellbook.Props.C94_idle' depends on axioms: [propext, Classical.choice, Quot.sound] -/
#guard_msgs (whitespace := lax) in
#print axioms Spellbook.Props.C94_idle
/-- info: 'Spellbook.Props.C94_text' depends on axioms: [propext, Classical.choice, Quot.sound] -/
#guard_msgs (whitespace := lax) in
#print axioms Spellbook.Props.C94_text
/-- info: 'Spellbook.Props.C94_idle_text' depends on axioms: [propext, Classical.choice, Quot.sound] -/
#guard_msgs (whitespace := lax) in
#print axioms Spellbook.Props.C94_idle_text
/-- info: 'Spellbook.Props.C94_rep_needed' depends on axioms: [propext, Classical.choice, Quot.sound] -/
#guard_msgs (whitespace := lax) in
#print axioms Spellbook.Props.C94_rep_needed
/-- info: 'Spellbook.Props.C95_order' depends on axioms: [propext, Classical.choice, Quot.sound] -/
#guard_msgs (whitespace := lax) in
#print axioms Spellbook.Props.C95_order
/-- info: 'Spellbook.Props.C95_last' depends on axioms: [propext, Classical.choice, Quot.sound] -/
#guard_msgs (whitespace := lax) in
#print axioms Spellbook.Props.C95_last
/-- info: 'Spellbook.Props.C95_flags_first' depends on axioms: [propext, Classical.choice, Quot.sound] -/
#guard_msgs (whitespace := lax) in
#print axioms Spellbook.Props.C95_flags_first
/-- info: 'Spellbook.Props.C96_parse' depends on axioms: [propext, Classical.choice, Quot.sound] -/
#guard_msgs (whitespace := lax) in
#print axioms Spellbook.Props.C96_parse
/-- info: 'Spellbook.Props.C96_answers' depends on axioms: [propext, Classical.choice, Quot.sound] -/
#guard_msgs (whitespace := lax) in
#print axioms Spellbook.Props.C96_answers
/-- info: 'Spellbook.Props.C97_check' depends on axioms: [propext, Classical.choice, Quot.sound] -/
#guard_msgs (whitespace := lax) in
#print axioms Spellbook.Props.C97_check
/-- info: 'Spellbook.Props.C97_order' depends on axioms: [propext, Classical.choice, Quot.sound] -/
#guard_msgs (whitespace := lax) in
#print axioms Spellbook.Props.C97_order
/-- info: 'Spellbook.Props.C97_texts_order' depends on axioms: [propext, Classical.choice, Quot.sound] -/
#guard_msgs (whitespace := lax) in
#print axioms Spellbook.Props.C97_texts_order
/-- info: 'Spellbook.Props.C97_texts_more' depends on axioms: [propext, Classical.choice, Quot.sound] -/
#guard_msgs (whitespace := lax) in
#print axioms Spellbook.Props.C97_texts_more
/-- info: 'Spellbook.Props.C97_marks_negation' depends on axioms: [propext, Classical.choice, Quot.sound] -/
#guard_msgs (whitespace := lax) in
#print axioms Spellbook.Props.C97_marks_negation
/-- info: 'Spellbook.Props.C97_compound_negation' depends on axioms: [propext, Classical.choice, Quot.sound] -/
#guard_msgs (whitespace := lax) in
#print axioms Spellbook.Props.C97_compound_negation
/-- info: 'Spellbook.Props.C98_check' depends on axioms: [propext, Classical.choice, Quot.sound] -/
#guard_msgs (whitespace := lax) in
#print axioms Spellbook.Props.C98_check
/-- info: 'Spellbook.Props.C98_exact' depends on axioms: [propext, Classical.choice, Quot.sound] -/
#guard_msgs (whitespace := lax) in
#print axioms Spellbook.Props.C98_exact
/-- info: 'Spellbook.Props.C98_suggest' depends on axioms: [propext, Classical.choice, Quot.sound] -/
#guard_msgs (whitespace := lax) in
#print axioms Spellbook.Props.C98_suggest
/-- info: 'Spellbook.Props.C98_iconv_negation' depends on axioms: [propext, Classical.choice, Quot.sound] -/
#guard_msgs (whitespace := lax) in
#print axioms Spellbook.Props.C98_iconv_negation
/-- info: 'Spellbook.Props.C98_pattern_negation' depends on axioms: [propext, Classical.choice, Quot.sound] -/
#guard_msgs (whitespace := lax) in
#print axioms Spellbook.Props.C98_pattern_negation
/-- info: 'Spellbook.Props.C98_alias_negation' depends on axioms: [propext, Classical.choice, Quot.sound] -/
#guard_msgs (whitespace := lax) in
#print axioms Spellbook.Props.C98_alias_negation
/-- info: 'Spellbook.Props.C99_part_list' depends on axioms: [propext, Classical.choice, Quot.sound] -/
#guard_msgs (whitespace := lax) in
#print axioms Spellbook.Props.C99_part_list
/-- info: 'Spellbook.Props.C99_more' does not depend on any axioms -/
#guard_msgs (whitespace := lax) in
#print axioms Spellbook.Props.C99_more
/-- info: 'Spellbook.Props.C99_joined' depends on axioms: [propext, Quot.sound] -/
#guard_msgs (whitespace := lax) in
#print axioms Spellbook.Props.C99_joined
/-- info: 'Spellbook.Props.C100_form_list' depends on axioms: [propext, Classical.choice, Quot.sound] -/
#guard_msgs (whitespace := lax) in
#print axioms Spellbook.Props.C100_form_list
/-- info: 'Spellbook.Props.C100_more' does not depend on any axioms -/
#guard_msgs (whitespace := lax) in
#print axioms Spellbook.Props.C100_more
/-- info: 'Spellbook.Props.C100_bare' does not depend on any axioms -/
#guard_msgs (whitespace := lax) in
#print axioms Spellbook.Props.C100_bare
/-- info: 'Spellbook.Props.C101_place_list' depends on axioms: [propext, Classical.choice, Quot.sound] -/
#guard_msgs (whitespace := lax) in
#print axioms Spellbook.Props.C101_place_list
/-- info: 'Spellbook.Props.C101_more' does not depend on any axioms -/
#guard_msgs (whitespace := lax) in
#print axioms Spellbook.Props.C101_more
/-- info: 'Spellbook.Props.C101_any_place' depends on axioms: [propext, Quot.sound] -/
#guard_msgs (whitespace := lax) in
#print axioms Spellbook.Props.C101_any_place
/-- info: 'Spellbook.Props.C102_rule_list' depends on axioms: [propext, Classical.choice, Quot.sound] -/
#guard_msgs (whitespace := lax) in
#print axioms Spellbook.Props.C102_rule_list
/-- info: 'Spellbook.Props.C102_more' does not depend on any axioms -/
#guard_msgs (whitespace := lax) in
#print axioms Spellbook.Props.C102_more
/-- info: 'Spellbook.Props.C102_no_rules' does not depend on any axioms -/
#guard_msgs (whitespace := lax) in
#print axioms Spellbook.Props.C102_no_rules
/-- info: 'Spellbook.Props.C103_guard_list' depends on axioms: [propext, Classical.choice, Quot.sound] -/
#guard_msgs (whitespace := lax) in
#print axioms Spellbook.Props.C103_guard_list
/-- info: 'Spellbook.Props.C103_forbidden' depends on axioms: [propext] -/
#guard_msgs (whitespace := lax) in
#print axioms Spellbook.Props.C103_forbidden
/-- info: 'Spellbook.Props.C103_listed' depends on axioms: [propext, Classical.choice, Quot.sound] -/
#guard_msgs (whitespace := lax) in
#print axioms Spellbook.Props.C103_listed
/-- info: 'Spellbook.Props.C103_keepcase' depends on axioms: [propext, Classical.choice, Quot.sound] -/
#guard_msgs (whitespace := lax) in
#print axioms Spellbook.Props.C103_keepcase
/-- info: 'Spellbook.Props.C104_prep_list' depends on axioms: [propext, Classical.choice, Quot.sound] -/
#guard_msgs (whitespace := lax) in
#print axioms Spellbook.Props.C104_prep_list
/-- info: 'Spellbook.Props.C104_ignored' depends on axioms: [propext, Classical.choice, Quot.sound] -/
#guard_msgs (whitespace := lax) in
#print axioms Spellbook.Props.C104_ignored
/-- info: 'Spellbook.Props.C104_joined' depends on axioms: [propext, Classical.choice, Quot.sound] -/
#guard_msgs (whitespace := lax) in
#print axioms Spellbook.Props.C104_joined
/-- info: 'Spellbook.Props.C104_sharp' depends on axioms: [propext, Classical.choice, Quot.sound] -/
#guard_msgs (whitespace := lax) in
#print axioms Spellbook.Props.C104_sharp
/-- info: 'Spellbook.Props.C104_converted' depends on axioms: [propext, Classical.choice, Quot.sound] -/
#guard_msgs (whitespace := lax) in
#print axioms Spellbook.Props.C104_converted
/-- info: 'Spellbook.Props.C105_returns' depends on axioms: [propext, Classical.choice, Quot.sound] -/
#guard_msgs (whitespace := lax) in
#print axioms Spellbook.Props.C105_returns
/-- info: 'Spellbook.Props.C105_sound' depends on axioms: [propext, Classical.choice, Quot.sound] -/
#guard_msgs (whitespace := lax) in
#print axioms Spellbook.Props.C105_sound
/-- info: 'Spellbook.Props.C105_slips' depends on axioms: [propext, Classical.choice, Quot.sound] -/
#guard_msgs (whitespace := lax) in
#print axioms Spellbook.Props.C105_slips
/-- info: 'Spellbook.Props.C105_far_slips' depends on axioms: [propext, Classical.choice, Quot.sound] -/
#guard_msgs (whitespace := lax) in
#print axioms Spellbook.Props.C105_far_slips
/-- info: 'Spellbook.Props.C105_missing_space' depends on axioms: [propext, Classical.choice, Quot.sound] -/
#guard_msgs (whitespace := lax) in
#print axioms Spellbook.Props.C105_missing_space
/-- info: 'Spellbook.Props.C106_small' depends on axioms: [propext, Classical.choice, Quot.sound] -/
#guard_msgs (whitespace := lax) in
#print axioms Spellbook.Props.C106_small
/-- info: 'Spellbook.Props.C106_title' depends on axioms: [propext, Classical.choice, Quot.sound] -/
#guard_msgs (whitespace := lax) in
#print axioms Spellbook.Props.C106_title
/-- info: 'Spellbook.Props.C106_capitals' depends on axioms: [propext, Classical.choice, Quot.sound] -/
#guard_msgs (whitespace := lax) in
#print axioms Spellbook.Props.C106_capitals
/-- info: 'Spellbook.Props.C106_inner' depends on axioms: [propext, Classical.choice, Quot.sound] -/
#guard_msgs (whitespace := lax) in
#print axioms Spellbook.Props.C106_inner
/-- info: 'Spellbook.Props.C106_pascal' depends on axioms: [propext, Classical.choice, Quot.sound] -/
#guard_msgs (whitespace := lax) in
#print axioms Spellbook.Props.C106_pascal
