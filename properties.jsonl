{"id": "C01", "title": "Overlong words are rejected everywhere", "statement": "For every dictionary and every checker setting, `check` returns false for any word longer than 360 bytes of UTF-8, and `suggest` leaves the output vector empty for such a word, whatever it contained before.", "quantifier": "all dictionaries, all checker/suggester settings, all words of more than 360 bytes, all prior contents of the output vector", "why_tests_cant": "the bound must hold for every word and every dictionary (including ones whose ICONV shrinks the word); tests sample one repeated word", "anchors": ["src/lib.rs: MAX_WORD_LEN", "src/checker.rs: Checker::check", "src/suggester.rs: Suggester::suggest"]}
{"id": "C02", "title": "The empty word is always accepted and never gets suggestions", "statement": "`check(\"\")` is true for every dictionary and every checker setting and `suggest(\"\")` returns an empty list.", "quantifier": "all dictionaries and all checker/suggester settings", "why_tests_cant": "must hold whatever the tables, flags and word list are", "anchors": ["src/checker.rs: Checker::check", "src/suggester.rs: Suggester::suggest_impl"]}
{"id": "C03", "title": "Number grammar", "statement": "A word is treated as a number exactly when it is an optional single leading '-' followed by one or more digit groups joined by single '.', ',' or '-' separators; every such word that ICONV leaves alone (with any number of trailing dots) is accepted by every dictionary.", "quantifier": "all strings, all dictionaries", "why_tests_cant": "a scanner with mutable state over unbounded input; a test can only sample separator patterns", "anchors": ["src/checker.rs: is_number", "src/checker.rs: Checker::check"]}
{"id": "C04", "title": "Listed words are accepted", "statement": "If the word list has an entry for w which is not marked NEEDAFFIX, ONLYINCOMPOUND, forbidden (or WARN under FORBIDWARN), no other entry of w is, and ICONV/IGNORE/trailing dots leave w alone and w has no capital letters, then check(w) is true.", "quantifier": "all dictionaries, all words, all orders in which the hash table yields duplicate entries", "why_tests_cant": "quantifies over all dictionaries and all hash orders", "anchors": ["src/checker.rs: Checker::check, spell_casing, check_simple_word"]}
{"id": "C05", "title": "No invented words: every accepted simple word has a derivation", "statement": "Whenever the simple-word lookup succeeds for w, w is derivable from a listed stem: the stem is in the word list with the flags reported, and w is the stem itself or is obtained from the stem by applying at most three affixes, at most two of each kind (each of them in the affix tables), each licensed by a flag of the stem or by a continuation flag of another affix used, at least one of them by the stem.", "quantifier": "all dictionaries, all words, all hash orders, both values of COMPLEXPREFIXES", "why_tests_cant": "a search over all affix combinations for arbitrary dictionaries; tests try a handful of words", "anchors": ["src/checker.rs: check_simple_word, strip_suffix_only, strip_prefix_only, strip_prefix_then_suffix_commutative, strip_suffix_then_suffix, strip_prefix_then_prefix, strip_prefix_then_2_suffixes, strip_suffix_then_prefix_then_suffix, strip_suffix_then_2_prefixes, strip_prefix_then_suffix_then_prefix"]}
{"id": "C06", "title": "Completeness of affix lookup", "statement": "If a listed stem carries the flag of a suffix (or prefix, or cross-product pair) whose condition matches the stem, whose strip text the stem ends (starts) with, and none of whose markers (NEEDAFFIX, CIRCUMFIX, ONLYINCOMPOUND, hidden homonym) forbid it, then the derived word is found by the simple-word lookup.", "quantifier": "all dictionaries, stems, affixes and hash orders", "why_tests_cant": "a miss in the table search for one byte pattern would be invisible to example tests", "anchors": ["src/checker.rs: strip_suffix_only, strip_prefix_only, strip_prefix_then_suffix_commutative", "src/aff.rs: AffixIndex, AffixesIter"]}
{"id": "C07", "title": "Forbidden words stay forbidden", "statement": "If the entry that decides a word carries the forbidden flag (or the WARN flag under FORBIDWARN), check is false for it, and breaking the word at BREAK patterns is not attempted.", "quantifier": "all dictionaries and words", "why_tests_cant": "must hold for every dictionary; interacts with break patterns and casing", "anchors": ["src/checker.rs: do_spell_break, spell_casing"]}
{"id": "C08", "title": "BREAK semantics", "statement": "A word without a direct verdict is accepted exactly when it can be cut by start, end or middle break patterns (middle: at the first occurrence, non-empty right part) into accepted pieces, with nesting depth at most 9; a middle break pattern at the very end does not count.", "quantifier": "all words, all break tables, all lookup outcomes of the pieces", "why_tests_cant": "recursion over unbounded inputs", "anchors": ["src/checker.rs: do_spell_break", "src/aff.rs: BreakTable"]}
{"id": "C09", "title": "remove_stem marks exactly the given stem", "statement": "remove_stem(s) returns true iff some entry of s was not yet forbidden; afterwards every entry of s is forbidden and keeps all its other flags, entries of all other stems are untouched, a second call returns false and changes nothing; and check(s) (lower-case s, no ICONV/IGNORE/dots) is false whenever some entry of s could decide it.", "quantifier": "all dictionaries, all stems, all histories of add/remove calls, all hash orders", "why_tests_cant": "needs all dictionaries and all histories; duplicates and hash order matter", "anchors": ["src/lib.rs: Dictionary::remove_stem, FlagSet::with_flag"]}
{"id": "C10", "title": "Removed stems and capitalised forms", "statement": "After remove_stem(s) no conjugation or casing of s is accepted because of s. (False in the code: for stems with inner capitals or all-capital stems with flags, the extra title-case entry made while loading is not removed.)", "quantifier": "all dictionaries and stems", "why_tests_cant": "requires knowing every way an entry can be reached", "anchors": ["src/lib.rs: Dictionary::remove_stem", "src/aff/parser.rs: parse"]}
{"id": "C11", "title": "add is atomic and only adds", "statement": "A failed add leaves the dictionary unchanged; a successful add(line) adds exactly one entry (the stem and flags the line denotes), keeps every existing entry with its flags and multiplicity, and only fails for malformed flags or lines over 65535 bytes.", "quantifier": "all dictionaries, all input lines, all histories", "why_tests_cant": "universal over inputs and histories", "anchors": ["src/lib.rs: Dictionary::add", "src/aff/parser.rs: parse_dic_line", "src/hash_bag.rs: HashBag::insert"]}
{"id": "C12", "title": "Word list is a multimap", "statement": "The word list never loses, merges or overwrites entries: after any history of inserts and in-place updates, looking up a key yields exactly the values inserted for that key (with multiplicity), each updated as requested, and nothing of other keys, even under hash collisions.", "quantifier": "all histories of operations, all hash functions", "why_tests_cant": "depends on all collision patterns and histories", "anchors": ["src/hash_bag.rs: HashBag::insert, get, get_mut"]}
{"id": "C13", "title": "Hash order does not matter", "statement": "check and suggest give the same answer whatever hasher is used, for word lists without duplicate stems. (With duplicate stems of different flags the answer can depend on the hasher.)", "quantifier": "all pairs of hashers, all words, all dictionaries", "why_tests_cant": "requires comparing all orders", "anchors": ["src/hash_bag.rs", "src/checker.rs: check_simple_word"]}
{"id": "C14", "title": "Flag sets behave as sets", "statement": "A flag set built from any list of flags contains exactly those flags; membership, intersection and adding a flag agree with set semantics, for small (inline) and large (heap) sets, and building a set never fails however many flags are given.", "quantifier": "all lists of flags of any length", "why_tests_cant": "two storage layouts, merge walk and binary search over unbounded lists; capacity panic must be ruled out by counting", "anchors": ["src/lib.rs: FlagSet::from, has_intersection, contains, with_flag", "src/umbra_slice.rs: sorted_contains"]}
{"id": "C15", "title": "Compact string storage is faithful", "statement": "Storing a string or flag slice of up to 65535 elements and reading it back gives the same content; two stored values compare equal exactly when their contents are equal, across the inline/heap boundary; longer input is reported as an error.", "quantifier": "all byte strings and flag slices of every length", "why_tests_cant": "layout-dependent comparison (prefix word + suffix word) for all contents including zero bytes", "anchors": ["src/umbra_slice.rs: UmbraSlice::try_from, as_slice, eq, clone"]}
{"id": "C16", "title": "Affix table lookup is exact", "statement": "Looking up affixes for a word yields exactly the affixes whose added text the word starts (prefix) or ends (suffix) with, each once, in particular all affixes that add nothing; matching byte by byte never yields a match that is not aligned to characters.", "quantifier": "all affix tables, all words (all Unicode), any order an unstable sort may leave equal keys in", "why_tests_cant": "binary search over a derived index with first-byte table; all table shapes and multi-byte characters", "anchors": ["src/aff.rs: AffixIndex::from, AffixesIter::next, AffixKind::nth_byte"]}
{"id": "C17", "title": "Affix conditions are regular expressions", "statement": "A condition is accepted by the parser iff its brackets are well formed, and a prefix (suffix) condition matches a stem iff the first (last) n characters match the n elements of the pattern (literal, '.', [..], [^..]); the literal fast path and the byte-length shortcut never change the result.", "quantifier": "all patterns and all stems", "why_tests_cant": "a hand written matcher with iterators and two fast paths over arbitrary strings", "anchors": ["src/aff.rs: Condition::matches, Prefix::condition_matches, Suffix::condition_matches", "src/aff/parser.rs: Condition::from_str"]}
{"id": "C18", "title": "Applying and removing an affix are inverse", "statement": "For every affix and stem that starts/ends with the strip text, removing the affix from the derived word gives back the stem, and for every word with the added text, applying the affix to the stripped stem gives back the word; both storage paths of the scratch buffer give the same text.", "quantifier": "all affixes and all words of any length", "why_tests_cant": "inline (<=64 bytes) and heap paths, all lengths", "anchors": ["src/aff.rs: StemBuf::concat, Prefix::to_stem_into, to_derived, Suffix::to_stem_into, to_derived"]}
{"id": "C19", "title": "Break and replacement tables are faithful partitions", "statement": "Every BREAK/REP line of the .aff file ends up in exactly the section its anchors denote (^ start, $ end, both whole word, none anywhere), in file order, with the anchors removed, and nothing else is in the tables.", "quantifier": "all lists of patterns", "why_tests_cant": "index arithmetic over concatenated sections for all inputs", "anchors": ["src/aff.rs: BreakTable::new, ReplacementTable::from"]}
{"id": "C20", "title": "ICONV/OCONV do leftmost-longest replacement", "statement": "Conversion scans left to right replacing the longest pattern matching at each position (an end-anchored pattern only if it reaches the end), never re-scans replaced text, always terminates, and none of the three fast paths changes the result.", "quantifier": "all tables and all words; any order an unstable sort may leave", "why_tests_cant": "in-place mutation loop with binary search and three shortcuts", "anchors": ["src/aff.rs: ConversionTable::from, match_at, convert, ByteSet"]}
{"id": "C21", "title": "COMPOUNDRULE matching is regular-expression matching", "statement": "A sequence of flag sets matches a rule iff it can be read as a word of the regular expression given by the rule (element, element?, element*), although the matcher gives up the search at the first completed pattern.", "quantifier": "all rules and all sequences of flag sets", "why_tests_cant": "back-tracking search with an early return; correctness needs an exchange argument over all search paths", "anchors": ["src/aff.rs: compound_rule_matches, CompoundRuleTable::any_rule_matches"]}
{"id": "C22", "title": "Casing classification", "statement": "Casing classification depends only on which letters are upper/lower case: none iff no capitals; init iff only the first letter is a capital; all iff no lower case letter and not init; otherwise pascal/camel by the first letter; and classification never fails.", "quantifier": "all words, all Unicode case tables", "why_tests_cant": "counts over unbounded strings, unwrap on first char", "anchors": ["src/lib.rs: classify_casing"]}
{"id": "C23", "title": "Case-insensitive acceptance of plain words", "statement": "If the lower-case word w is accepted by a deciding entry without KEEPCASE, forbidden or warn flags and no entry forbids the other spellings, then its title-case and all-capital spellings are accepted; a KEEPCASE word is not accepted in title case without CHECKSHARPS.", "quantifier": "all dictionaries, all words and case tables satisfying the stated laws", "why_tests_cant": "interplay of three casing paths", "anchors": ["src/checker.rs: spell_casing, spell_casing_title, spell_casing_upper"]}
{"id": "C24", "title": "KEEPCASE with CHECKSHARPS", "statement": "A KEEPCASE word without ß is not accepted in all capitals. (False in the code under CHECKSHARPS: for words containing \"ss\" the sharp-s search also tries the unreplaced word and bypasses the KEEPCASE filter.)", "quantifier": "all dictionaries and words", "why_tests_cant": "needs all permutations of replacements", "anchors": ["src/checker.rs: do_spell_sharps, spell_casing_upper"]}
{"id": "C25", "title": "Sharp-s search is exhaustive and bounded", "statement": "The sharp-s search tries every way of replacing the first five non-overlapping \"ss\" by ß, leaves all other text alone, and always terminates.", "quantifier": "all words", "why_tests_cant": "exponential recursion with in-place byte mutation", "anchors": ["src/checker.rs: do_spell_sharps"]}
{"id": "C26", "title": "check never panics and always terminates (default checker)", "statement": "check terminates without panicking for every word on every dictionary the parser accepts. (False: SIMPLIFIEDTRIPLE with one-letter parts, and CHECKCOMPOUNDPATTERN replacements that grow the word, recurse forever; check_lower_as_title panics on words that become empty.) Proved for dictionaries without those features.", "quantifier": "all dictionaries, all words", "why_tests_cant": "non-termination and panics over unbounded inputs", "anchors": ["src/checker.rs: check_compound_classic, check_compound_classic_try_simplified_triple, check_compound_with_pattern_replacements, spell_casing"]}
{"id": "C27", "title": "Compound parts are real words of at least COMPOUNDMIN characters", "statement": "Every accepted classic compound (without triple simplification or pattern replacement) splits into at least two parts, each of at least COMPOUNDMIN (default 3) characters, each part being a listed or affixed word allowed at its position (begin, middle, end), none of them forbidden.", "quantifier": "all dictionaries, all words", "why_tests_cant": "recursive splitting over all positions of unbounded words", "anchors": ["src/checker.rs: check_compound_impl, check_compound_classic, check_word_in_compound, bytes_within"]}
{"id": "C28", "title": "Split positions respect the margin", "statement": "The split positions tried for a compound are exactly the character boundaries with at least the margin number of characters between the start position and the boundary and between the boundary and the end of the word; never inside a multi-byte character.", "quantifier": "all words, start positions and margins >= 1", "why_tests_cant": "byte arithmetic over variable-width characters", "anchors": ["src/checker.rs: bytes_within"]}
{"id": "C29", "title": "Compound boundary checks", "statement": "With CHECKCOMPOUNDCASE no accepted boundary has an upper-case letter next to it (hyphens excepted); with CHECKCOMPOUNDTRIPLE no accepted boundary lies inside three equal letters; with CHECKCOMPOUNDDUP no two adjacent parts in two-part compounds are the same entry.", "quantifier": "all dictionaries and words", "why_tests_cant": "boundary predicates over all positions", "anchors": ["src/checker.rs: are_three_chars_equal, has_uppercase_at_compound_word_boundary, check_compound_classic"]}
{"id": "C30", "title": "COMPOUNDRULE compounds", "statement": "Every compound accepted by COMPOUNDRULE is a concatenation of at least two listed stems (none marked NEEDAFFIX), each of at least COMPOUNDMIN characters, whose flag sets match some rule, and every such concatenation is accepted by the search.", "quantifier": "all dictionaries, all words", "why_tests_cant": "exponential search with shared mutable state", "anchors": ["src/checker.rs: check_compound_with_rules_impl", "src/aff.rs: CompoundRuleTable"]}
{"id": "C31", "title": "Forbidden parts in COMPOUNDRULE compounds", "statement": "A compound containing a forbidden (removed) stem is rejected. (False in the code for COMPOUNDRULE: only the flags of one part are looked at.)", "quantifier": "all dictionaries and words", "why_tests_cant": "needs all splits", "anchors": ["src/checker.rs: check_compound_with_rules_impl"]}
{"id": "C32", "title": "Fast lanes never change answers", "statement": "Skipping affixes whose flag is no continuation flag of any affix never loses a word. (False in the code for suffix + two prefixes under COMPLEXPREFIXES, where the suffix table's flags are consulted instead of the prefix table's.)", "quantifier": "all dictionaries and words", "why_tests_cant": "claims equivalence of two algorithms on all inputs", "anchors": ["src/checker.rs: strip_suffix_then_suffix, strip_prefix_then_prefix, strip_prefix_then_2_suffixes, strip_suffix_then_2_prefixes, strip_suffix_then_prefix_then_suffix, strip_prefix_then_suffix_then_prefix", "src/aff.rs: AffixIndex::all_flags"]}
{"id": "C33", "title": "Conditions hold on the stem they are written for", "statement": "Whenever a word is accepted through affixes, each affix's condition holds on the text the affix is applied to. (False in the code for the middle prefix of suffix-prefix-suffix and the middle suffix of prefix-suffix-prefix, where the condition is tested before stripping.)", "quantifier": "all dictionaries and words", "why_tests_cant": "needs all affix combinations", "anchors": ["src/checker.rs: strip_suffix_then_prefix_then_suffix, strip_prefix_then_suffix_then_prefix"]}
{"id": "C34", "title": "Flag syntax", "statement": "Every flag string is read as its FLAG type prescribes: one flag per byte (default), per byte pair (long), per decimal number between commas (num), per UTF-16 unit (UTF-8); distinct flags of one type never collide (within ASCII/BMP), and anything else is reported as an error, never a panic.", "quantifier": "all flag strings of all four types", "why_tests_cant": "parsers over arbitrary strings", "anchors": ["src/aff/parser.rs: parse_flag_from_str, parse_flags_from_str, decode_flagset"]}
{"id": "C35", "title": "Dictionary line syntax", "statement": "A .dic line or add() argument denotes the stem before the first unescaped '/' (not at the start), with \\/ read as '/', cut at a tab or at a morphological field, IGNORE characters removed, and the flags after the slash up to white space; numeric aliases refer to the 1-based AF table. Stems without special characters round-trip.", "quantifier": "all lines", "why_tests_cant": "escape handling with three fast lanes that must agree with the slow path", "anchors": ["src/aff/parser.rs: parse_dic_line, decode_flagset"]}
{"id": "C36", "title": "Parsing is total and errors point at the right line", "statement": "Dictionary::new never panics: for all pairs of texts it returns a dictionary or an error; an error's line number is the 1-based number of an existing line of the named file (or none at end of file), and table directives consume exactly the announced number of rows.", "quantifier": "all pairs of texts", "why_tests_cant": "arbitrary input text", "anchors": ["src/aff/parser.rs: parse, Lines"]}
{"id": "C37", "title": "Hidden homonyms", "statement": "Loading a word list adds, for each entry with inner capitals that is not forbidden and for each all-capital entry with flags, exactly one extra title-case entry with the same flags plus the hidden mark, and nothing else; the word list otherwise has exactly one entry per non-comment line.", "quantifier": "all word lists", "why_tests_cant": "all entries and casings", "anchors": ["src/aff/parser.rs: parse"]}
{"id": "C38", "title": "add versus .dic lines", "statement": "Adding a line at run time has the same effect as having it in the .dic file, for lines without surrounding white space, not starting with '/' or '#', whose stem has no inner or all capitals. (False for stems with inner capitals: no title-case twin is added.)", "quantifier": "all dictionaries and lines", "why_tests_cant": "equivalence over all lines", "anchors": ["src/lib.rs: Dictionary::add", "src/aff/parser.rs: parse"]}
{"id": "C39", "title": "Suggestions replace the output", "statement": "suggest's result does not depend on what was in the output vector, contains no duplicates when there is no OCONV table, and deduplication keeps the first occurrence of each suggestion in order.", "quantifier": "all dictionaries, words, prior contents", "why_tests_cant": "in-place swap-and-truncate algorithm over all vectors", "anchors": ["src/suggester.rs: suggest, deduplicate"]}
{"id": "C40", "title": "Edit suggestions are real words", "statement": "Every suggestion made by a single-edit method (swap, keyboard, extra, forgotten, moved, wrong character, doubled pair, upper case, map, REP without spaces) is a word the dictionary's word lookup accepts and is neither forbidden nor warned against. (False for the last word of multi-word REP suggestions, for forbidden halves in two-word suggestions, and for ngram suggestions.)", "quantifier": "all dictionaries and words", "why_tests_cant": "all edits of all words", "anchors": ["src/suggester.rs: add_suggestion_if_correct, try_rep_suggestion, two_words_suggest", "src/suggester/ngram.rs: ngram_suggest"]}
{"id": "C41", "title": "Edits are exactly the advertised edits, on characters", "statement": "Each edit method tries exactly the advertised set of single edits of the word as a character sequence, the byte-level swaps and replacements always leave valid UTF-8, and the buffer equals the word again after every attempt.", "quantifier": "all words over all Unicode characters of mixed widths", "why_tests_cant": "unsafe byte rotation over variable-width characters", "anchors": ["src/suggester.rs: swap_adjacent_chars, swap_distant_chars, replace_char_at, move_char_suggest, adjacent_swap_suggest, distant_swap_suggest, extra_char_suggest, forgotten_char_suggest, wrong_char_suggest, doubled_two_chars_suggest, keyboard_suggest"]}
{"id": "C42", "title": "Similarity metrics", "statement": "The longest-common-subsequence score equals the true length of a longest common subsequence; the common-prefix score, same-position count and transposition test equal their mathematical definitions; n-gram scores are bounded by the number of n-grams.", "quantifier": "all pairs of strings", "why_tests_cant": "dynamic programming with a rolling row", "anchors": ["src/suggester/ngram.rs: longest_common_subsequence_length, left_common_substring_length, count_eq_at_same_pos, ngram_similarity"]}
{"id": "C43", "title": "Best candidates are kept", "statement": "The bounded heap keeps the best 100 (200) candidates: no dropped candidate scores strictly higher than a kept one, and nothing is dropped while there is room.", "quantifier": "all score sequences, all tie-breaking choices of the heap", "why_tests_cant": "all sequences of insertions", "anchors": ["src/suggester/ngram.rs: ngram_suggest"]}
{"id": "C44", "title": "Number of ngram suggestions is bounded", "statement": "ngram suggestion adds at most MAXNGRAMSUGS suggestions. (False in the code when more than 16 suggestions exist already: the limit is then never hit.)", "quantifier": "all dictionaries, words and earlier suggestions", "why_tests_cant": "loop exit by equality test", "anchors": ["src/suggester/ngram.rs: ngram_suggest", "src/aff.rs: MAX_SUGGESTIONS"]}
{"id": "C45", "title": "suggest never panics", "statement": "suggest returns normally for every word on every accepted dictionary. (False: the ngram expansion applies a prefix to the bare stem after testing it on the suffixed stem, title-casing an empty suggestion panics, ICONV may make a word too long for the similarity search, and ICONV with dashes recurses for ever.)", "quantifier": "all dictionaries and words", "why_tests_cant": "panics on rare combinations", "anchors": ["src/suggester/ngram.rs: expand_stem_for_ngram", "src/aff.rs: Prefix::to_derived, CaseHandling::upper_char_at"]}
{"id": "C46", "title": "NOSUGGEST words are not suggested", "statement": "A stem marked NOSUGGEST is never suggested. (Only true for ngram suggestions; edit suggestions ignore the mark.)", "quantifier": "all dictionaries and words", "why_tests_cant": "all suggestion methods", "anchors": ["src/suggester.rs: add_suggestion_if_correct", "src/suggester/ngram.rs: ngram_suggest"]}
{"id": "C47", "title": "Compound length limits", "statement": "With COMPOUNDWORDMAX n (and no syllable limit) no accepted classic compound is counted as more than n words.", "quantifier": "all dictionaries and words", "why_tests_cant": "counter threaded through recursion", "anchors": ["src/checker.rs: check_compound_classic"]}
{"id": "C48", "title": "Circumfixes come in pairs", "statement": "A word accepted with exactly one circumfix-marked affix among a prefix and suffix pair does not exist: a circumfix prefix is only accepted together with a circumfix suffix and vice versa.", "quantifier": "all dictionaries and words", "why_tests_cant": "all affix combinations", "anchors": ["src/checker.rs: is_circumfix, strip_prefix_then_suffix_commutative, strip_suffix_only, strip_prefix_only"]}
{"id": "C49", "title": "The compound search is exact", "statement": "For dictionaries without CHECKCOMPOUNDPATTERN, CHECKCOMPOUNDREP, COMPOUNDSYLLABLE, SIMPLIFIEDTRIPLE and COMPOUNDRULE, whose parts with equal text come from the same entry, the backtracking search accepts a word exactly if it can be cut into at least two parts satisfying all compound conditions: the early returns of the search never lose a compound.", "quantifier": "all such dictionaries, all words, any number of parts", "why_tests_cant": "The search returns None early (COMPOUNDWORDMAX) and recurses; whether some cut of some word is lost cannot be seen from examples.", "anchors": ["src/checker.rs:1408-1666"]}
{"id": "C50", "title": "CHECKCOMPOUNDPATTERN, CHECKCOMPOUNDREP and FORCEUCASE are honoured", "statement": "In every accepted plain compound no boundary matches a CHECKCOMPOUNDPATTERN line; with CHECKCOMPOUNDREP the word and every remainder of at least two parts is not one REP replacement away from a simple word; and where upper case is required the last part is not marked FORCEUCASE.", "quantifier": "all dictionaries, all words, any number of parts", "why_tests_cant": "The tests sit on several paths of a recursive search (direct second part, recursion) and must hold at every boundary of every accepted word.", "anchors": ["src/checker.rs:1447-1666", "src/checker.rs:2300-2351"]}
{"id": "C53", "title": "The .aff text means what its lines say", "statement": "The .aff text is accepted exactly if its content lines (all but comments) can be read, one directive after the other, by the rules of the directives: flags, numbers, tables with their announced rows, and unknown directives which are skipped. The settings so read are unique, and a loaded dictionary holds exactly them: every affix (without ignored characters), conversion, pattern, replacement, rule, option and alias, and nothing else.", "quantifier": "all .aff and .dic texts", "why_tests_cant": "The tests load a few fixed .aff files; the claim covers every sequence of directives, tables interrupted by comments, repeated directives and truncated tables.", "anchors": ["src/aff/parser.rs:153-245", "src/aff/parser.rs:247-728", "src/aff/parser.rs:730-1050"]}
{"id": "C51", "title": "Preparation of the checked word", "statement": "check accepts a word exactly if it has at most 360 bytes and, after ICONV, it is empty, or without its trailing dots a number, or accepted (via BREAK) without trailing dots and ignored characters, or, when there were trailing dots, accepted with them (abbreviations, where ignored characters are kept).", "quantifier": "all dictionaries on which lookups end, all words", "why_tests_cant": "The tests check a few abbreviations and ICONV lines; the claim is an equivalence over all words, conversion tables and ignored characters.", "anchors": ["src/checker.rs:98-131"]}
{"id": "C52", "title": "Letter case: the spellings tried and their order", "statement": "For each letter case of the word (none, camel, Pascal, initial, all capitals) there is a fixed list of spellings (as is, apostrophe article forms, sharp s forms, title case, lower case), each with its treatment of KEEPCASE, hidden entries and FORCEUCASE; the word is decided by the first spelling whose lookup has a result that counts, and undecided exactly if all miss.", "quantifier": "all dictionaries, all checker settings, all words", "why_tests_cant": "The order and the side conditions of up to 70 lookups matter for every word; the tests exercise a handful of words.", "anchors": ["src/checker.rs:196-402"]}
{"id": "C54", "title": "Reachable dictionaries meet the assumptions of the check theorems", "statement": "Every dictionary obtained by loading texts and any sequence of add and remove_stem calls has parsed affix conditions, a positive minimal length of compound parts, flags between 1 and 65535 everywhere, stems of at most 65535 bytes and BREAK patterns without empty text; and its affix data are those of the loaded texts.", "quantifier": "all texts, all histories of add and remove_stem, all hash orders", "why_tests_cant": "It is an invariant over all inputs of the parser and all call sequences.", "anchors": ["src/lib.rs:247-304", "src/aff/parser.rs:153-245"]}
{"id": "C55", "title": "Single-edit corrections are found", "statement": "For a word in lower case, every accepted, not forbidden text which is one swap of neighbours, neighbouring key, superfluous character, doubled pair, upper-casing or REP replacement away, and every split into two accepted words, is suggested, however many other suggestions there are; so is every correction by swapping two distant characters, inserting or replacing a TRY character, moving a character, or replacing letters by similar ones of MAP groups of letters, if the attempt limit of the word is large enough.", "quantifier": "all dictionaries a program can hold, all lower-case words of at most 360 bytes, all corrections", "why_tests_cant": "Tests look for one suggestion of one word; that no correction is ever lost is a statement about all words, all dictionaries and all edits, including the interplay of the methods and the limit on attempts.", "anchors": ["src/suggester.rs: suggest_low, max_attempts_for_long_alogs"]}
{"id": "C56", "title": "Suggestions for capitalised words are rechecked", "statement": "For a word with an initial capital or in all capitals, every suggestion (before OCONV) is accepted by check or contains a space.", "quantifier": "all suggesters and all such words", "why_tests_cant": "The suggestions of all methods, of similarity search and of the parts between dashes run through the same filter; a test sees only the few that occur in its dictionary.", "anchors": ["src/suggester.rs: suggest_impl"]}
{"id": "C57", "title": "Kinds and order of suggestions", "statement": "For a word in lower case the suggestions are, in this order and without duplicates: proposals by edits, replacements and splitting; forms of listed entries found by similarity; and, for words with dashes and only if no suggestion has a dash, exactly the texts with one incorrect part replaced by a suggestion for it which are not forbidden. A compound that only lacks the capital required by FORCEUCASE gets its title case as only suggestion.", "quantifier": "all dictionaries a program can hold and all lower-case words", "why_tests_cant": "It describes the complete result of suggest, not the presence of some suggestion, for every dictionary.", "anchors": ["src/suggester.rs: suggest_impl"]}
{"id": "C58", "title": "Compound rules, similarity groups, lines and words are read by their grammars", "statement": "COMPOUNDRULE texts are accepted exactly if they are sequences of flags, spelled as the FLAG type says (an ASCII character, any character, two ASCII characters in parentheses, digits in parentheses), each within 1-65535 and each followed by at most one of ? and *; the rule read is that sequence. A MAP group is read as its single characters and the texts in parentheses, where parentheses around at most one character mean nothing. Texts are cut into lines at LF or CRLF, lines into words at white space.", "quantifier": "all texts and all flag types", "why_tests_cant": "the unit tests parse four rules and a few groups; malformed and mixed texts are unbounded", "anchors": ["src/aff/parser.rs:1362-1519", "src/aff/parser.rs:684-721", "src/aff/parser.rs:730-810"]}
{"id": "C59", "title": "The suggestions for every letter case, in order", "statement": "For a word of any letter case the suggestions are made in these steps, in this order: the proposals of all methods for the spellings of its case (as it is; initial capital: also in lower case; capitals: lower case and initial capital, put in capitals; inner capitals: as it is, lower case, and with a capital first letter also with a small one and with an initial capital only), each method trying no more texts than its budget, with a space added behind a dot and second words capitalised again for words with inner capitals; similar words only if similarity is on and no proposal is of high quality; parts between dashes; capital first letters restored; a second lookup for initial capitals and capitals; duplicates removed; OCONV. In consequence every correction of one of these spellings is found.", "quantifier": "all dictionaries a program can hold, all words of all letter cases (except compounds lacking only a capital)", "why_tests_cant": "it fixes the complete list of suggestions and its order for all dictionaries and words, where a test fixes it for one word", "anchors": ["src/suggester.rs:83-372", "src/suggester.rs:405-503", "src/suggester.rs:975-997"]}
{"id": "C60", "title": "Suggestions by similarity follow their scores", "statement": "The suggestions by similarity are exactly the choice made from these steps: every listed entry that may be suggested gets a score (common start, common texts of up to three characters, penalty for longer stems) and the best 100 are kept; all their forms (bare, suffixed, prefixed) get a score, those below the threshold (a third of the score of three damaged copies of the word) are dropped and the best 200 kept; these, from the best one on until one equals the word but for capitals, get a second score (longest common subsequence, length, start, weighted bigrams, 4-grams, equal positions, exchange of two letters, MAXDIFF); in descending order those above 1000, if any, else those from -100 on are chosen unless they contain an earlier suggestion; if there are none, one bad form may be chosen, unless ONLYMAXDIFF is set; and the number is limited by MAXNGRAMSUGS and 16.", "quantifier": "all dictionaries a program can hold, all words, all earlier suggestions, all tie-breaking behaviours of heap and sort", "why_tests_cant": "The scores are sums of many terms, most of which do not change the outcome for a given test word, and the order of equal scores depends on the hash order.", "anchors": ["src/suggester/ngram.rs:72-421", "src/suggester/ngram.rs:568-730"]}
{"id": "C61", "title": "The search for compounds, exactly", "statement": "For every dictionary the search for compounds answers, for every word, what this procedure answers: boundaries are tried from the left with COMPOUNDMIN characters on both sides; at each, one reading of the first part is looked at; it must not be forbidden and must pass CHECKCOMPOUNDTRIPLE and CHECKCOMPOUNDCASE; then the rest is tried as a last part (CHECKCOMPOUNDPATTERN, CHECKCOMPOUNDDUP, CHECKCOMPOUNDREP, FORCEUCASE, COMPOUNDWORDMAX, COMPOUNDSYLLABLE), then as a compound whose first-found reading is final, then both again with a letter put back (SIMPLIFIEDTRIPLE); then the same with each boundary replaced by CHECKCOMPOUNDPATTERN. It has at most one answer. In consequence plain compounds keep to the limit of words or of syllables.", "quantifier": "all dictionaries with parsed conditions, all words, all depths of recursion", "why_tests_cant": "the recursion combines seven options, affixed parts and counters; a wrong syllable count or a wrong order of attempts shows only for particular words", "anchors": ["src/checker.rs:1387-1826", "src/checker.rs:1921-2145", "src/checker.rs:2235-2298"]}
{"id": "C62", "title": "UmbraSlice is memory safe", "statement": "In any program which creates, clones, drops, reads and compares UmbraSlices in any order, the unsafe code never reads memory that is freed, uninitialised or out of bounds, never frees a block twice or with another size than it was allocated with, and never allocates zero bytes; the program sees the same values as one using plain lists; and the memory held is exactly one block per live slice that does not fit inline, so nothing leaks.", "quantifier": "all sequences of operations, all contents, 32- and 64-bit targets of both byte orders, u8 and u16 elements, all allocators", "why_tests_cant": "use after free, double free and leaks need not change any result a test looks at, and depend on the sequence of operations and on the allocator", "anchors": ["src/umbra_slice.rs:97-343"]}
{"id": "C63", "title": "Byte positions of the checker are right", "statement": "While checking a word, every slice of a text is in bounds and at character boundaries, every in-place change (sharp s, CHECKCOMPOUNDREP, CHECKCOMPOUNDPATTERN replacement, dropped letter, stem buffer) leaves valid UTF-8, changes are undone when they lead to nothing, and the answer is the one of the same algorithm on characters.", "quantifier": "all dictionaries that can be loaded and changed, all words, all checker options", "why_tests_cant": "byte arithmetic goes wrong only for particular combinations of multi-byte characters, positions and options; an unsafe write of invalid UTF-8 need not be visible", "anchors": ["src/checker.rs:227-400", "src/checker.rs:1387-2514", "src/aff.rs:43-62,348-362,420-434,459-491"]}
{"id": "C64", "title": "CharsStr offsets are safe and exact", "statement": "CharsStr::new refuses exactly the texts of more than 65535 bytes; for all others char_slice, char_at and char_iter return the whole characters asked for, and every use of them by ngram_suggest is in bounds and at character boundaries, so the unsafe slices are never undefined behaviour and the suggestions are those computed on characters.", "quantifier": "all texts, dictionaries, words, earlier suggestions, heap implementations", "why_tests_cant": "the unsafe get_unchecked does not fail visibly, and the offsets are truncated to 16 bits", "anchors": ["src/suggester/ngram.rs:477-566", "src/suggester/ngram.rs:568-730", "src/suggester/ngram.rs:72-292"]}
{"id": "C65", "title": "Byte positions of the suggester and of the readers are right", "statement": "While making suggestions (cutting at dashes, REP lines, two words, upper and lower case of single characters, conversions) and while reading word list lines, similarity groups, numeric flags and conditions, every slice is in bounds and at character boundaries, every unsafe one-byte write replaces an ASCII character and leaves valid UTF-8, every loop over byte positions ends, and the result is the one of the same algorithm on characters.", "quantifier": "all dictionaries that can be loaded and changed, all words, all lines, all conversion tables", "why_tests_cant": "byte arithmetic goes wrong only for particular combinations of multi-byte characters and positions; an unsafe write need not fail visibly", "anchors": ["src/suggester.rs:60-330", "src/suggester.rs:440-520", "src/suggester.rs:900-1010", "src/aff/parser.rs:1190-1330", "src/aff.rs:1202-1249"]}
{"id": "C66", "title": "check, told from the content of the dictionary alone", "statement": "For every dictionary that was loaded and changed by add and remove_stem, check returns true exactly for the correct words and false exactly for the others, where correct is defined from the entries, the affixes and the settings of the .aff text only: at most 360 bytes; after ICONV empty, or without trailing dots a number, or cut by BREAK lines into pieces decided, in the order of the spellings for their letter case, by a derivation from an entry with affixes, by a compound found in the order of the search, or by the first COMPOUNDRULE compound.", "quantifier": "all words, all dictionaries on which the search for compounds ends, all layouts of the word list (soundness: all dictionaries)", "why_tests_cant": "the answer depends on the interplay of all features; tests look at one dictionary and a few words", "anchors": ["src/lib.rs:170-230", "src/checker.rs:90-640", "src/checker.rs:640-2514"]}
{"id": "C67", "title": "Every outcome of check", "statement": "For every dictionary that was loaded and changed and for every setting of the checker (also those the suggester uses), a call of check returns true, returns false, panics or recurses without end exactly when the content of the dictionary says so: the spellings, the BREAK cuts and the two readings of trailing dots are tried in order, a step which panics or never ends makes the whole call do so, and steps after the deciding one have no influence. The first three outcomes exclude each other.", "quantifier": "all words, all reachable dictionaries (also those with endless searches), all checker options, all layouts of the word list", "why_tests_cant": "panics and endless recursion cannot be observed by a test which has to end, and depend on all features together", "anchors": ["src/lib.rs:170-230", "src/checker.rs:45-330", "src/checker.rs:640-2514"]}
{"id": "C68", "title": "Every outcome of suggest", "statement": "For every dictionary that was loaded and changed and for every suggester, a call of suggest leaves exactly one list of suggestions in the vector, panics, or recurses without end, exactly when the content of the dictionary says so, whatever the vector held before. The steps are: ICONV; FORCEUCASE; by letter case the spellings of the word, for each of which upper case, REP, MAP, the edits and the splits are tried in order and kept if they are words; similar words if nothing good was found; corrected parts between dashes; capitals; a second lookup; removal of duplicates; OCONV. A step which panics or never ends makes the whole call do so. Only the choice among several derivations of a text and among forms of equal score is left open.", "quantifier": "all words, all reachable dictionaries (also those with endless searches and those on which suggest panics), all suggester settings, all layouts of the word list and heaps, all contents of the vector", "why_tests_cant": "a test fixes one dictionary and word; the order of hundreds of proposals, panics deep in one branch and endless recursion depend on all features together", "anchors": ["src/suggester.rs:74-1031", "src/suggester/ngram.rs:72-292"]}
{"id": "C69", "title": "The order of independent changes does not matter", "statement": "The entries of a stem after a sequence of `add` and `remove_stem` calls depend only on the calls which concern this stem (an `add` whose line is refused concerns none). Hence two sequences which contain, for every stem, the same calls in the same order make dictionaries with the same answers of `check` for every word, and the same suggestions by edits, whatever the hashers of the two are, provided entries with the same stem have the same flags in the end; in particular two neighbouring calls for different stems may be swapped. Calls for the same stem may not. Likewise the lines of a `.dic` text below its first line can be put in any order (and its comments removed): the text is still accepted, with the same settings and the same entries, and all words get the same answer.", "quantifier": "for all dictionaries, all sequences of calls, all layouts of the hash table at each call, all pairs of texts and all orders of their lines, all words", "why_tests_cant": "The claim compares all interleavings of unboundedly many calls and all permutations of unboundedly many lines, under every hash function.", "anchors": ["src/lib.rs:247-304", "src/hash_bag.rs:65-102", "src/aff/parser.rs:105-185", "src/checker.rs:60-140"]}
{"id": "C70", "title": "A plain word list, from the text to the answer", "statement": "An empty .aff text and a .dic text which is a number and words without flags, one on each line, are always accepted, whatever the number is. With the dictionary made of them check answers true exactly for the words which are correct by the list, and false for all others: words of at most 360 bytes which are, up to dots at their end, empty, numbers, or known words joined by dashes up to a nesting of nine. Known are: a word without capitals or with mixed case if it is in the list; a word in title case if it or its lower case is; a word in capitals if it, its title form, its lower case, or its reading as article and name is; in all but the plain title case the title form of a mixed-case word counts as listed. With more words in the list no correct word becomes wrong, and neither the order of the list, repetitions nor the number matter.", "quantifier": "all lists of words (at most 65535 bytes each, without white space, slash, backslash and number sign), all words to check, all hashers, all Unicode tables", "why_tests_cant": "the claim is about every list and every word at once, from the bytes of the text to the answer, both ways: that nothing else is accepted cannot be observed on samples", "anchors": ["src/aff/parser.rs:63-185", "src/lib.rs:170-240", "src/checker.rs:60-330"]}
{"id": "C71", "title": "Lower, upper, and title case", "statement": "Lower case turns every letter into its small form, upper case into its capital form, title case the first into its capital and all others into their small forms; lower_first_char and upper_char_at change one letter and keep the others. In Turkish, Azerbaijani and Crimean Tatar i and İ, ı and I are the pairs; all other letters and languages follow Unicode. In lower case a capital sigma behind a letter and not before one (marks which do not count for case left out) becomes the form for the end of words. If every letter of a word is the small form of its own capital, its upper case turned into lower case is the word again. Only the empty text makes title case panic. The comparison of first letters in the similarity score accepts a letter and its small form in the language or in Unicode.", "quantifier": "all texts, all Unicode tables (for the Turkic rules: those which know the four letters), both ways to handle case, all positions", "why_tests_cant": "all texts and all tables of letters; the context rule for sigma looks arbitrarily far to both sides", "anchors": ["src/aff.rs:1261-1347"]}
{"id": "C72", "title": "Errors name the first wrong line and say what is wrong with it", "statement": "Dictionary::new fails with an error about the .aff text exactly if the lines of that text, comments left out, are fine up to a line which is not, and the error names that line and what is wrong with it: a missing or malformed argument, an unknown flag type, a flag which is zero, unfinished or too large, a number which is empty, too large or has a foreign character, a compound rule or condition which cannot be read, too few rows in a table (no line is named if the text ends there). Later faults, and the .dic text, play no part. It fails with an error about the .dic text exactly if the .aff text is fine and the .dic text does not start with a number or has a line which is too long or has malformed flags, and names the first such line. Every .aff text is either fine or has exactly one such fault. add() fails exactly if the line is too long or its flags are malformed, and says which.", "quantifier": "all .aff and .dic texts, all Unicode tables", "why_tests_cant": "tests try single faults; which of many faults is reported, and that nothing else is, is a claim about all texts", "anchors": ["src/aff/parser.rs:85-1200", "src/aff/parser.rs:1440-1690"]}
{"id": "C73", "title": "The layout of the texts does not matter", "statement": "Dictionary::new gives the same outcome (the very same dictionary, a panic, or an error of the same kind at the same place) for two pairs of texts which differ in layout only: a byte order mark, comment lines wherever they are (even between the rows of a table), \\r\\n instead of \\n, a missing line end at the end, indentation and white space between the words of .aff lines, white space around .dic lines, blank lines and lines with a slash in front in the .dic text below the number. An inserted line moves the line number of an error below it by one and changes nothing else. Blank lines between the rows of an .aff table, or in front of the number of the .dic text, do matter: they are errors.", "quantifier": "all texts, all Unicode tables", "why_tests_cant": "tests compare a few layouts of a few texts", "anchors": ["src/aff/parser.rs:153-245", "src/aff/parser.rs:725-800"]}
{"id": "C74", "title": "Messages of errors tell everything", "statement": "Two different errors of Dictionary::new never have the same message: the message tells the file, whether there is a line number and which, and the kind of the error with all its details (the offending character, word or numbers). The line number stands in it in decimal digits. Two faulty .aff texts that are reported with the same message have the same fault (C72) at a line of the same number. The same holds for the messages of the errors of add().", "quantifier": "all errors, all texts", "why_tests_cant": "no test compares all pairs of messages, and numbers and words in them are unbounded", "anchors": ["src/aff/parser.rs:1341-1348", "src/aff/parser.rs:1528-1710"]}
{"id": "C75", "title": "Debug builds and release builds", "statement": "In a debug build, where debug assertions and arithmetic overflow panic, check() gives every word the outcome it has in a release build or panics at one of three places: the assertion in StemBuf::concat that a stem is at most 360 bytes long (only if the dictionary has an affix which strips something), the addition of the syllable modifier and the i16 arithmetic of that modifier (only with COMPOUNDSYLLABLE). All three do happen. All other assertions (an affix is of the word it is removed from, is_rep_similar restores its buffer, margins are not zero) hold and no subtraction goes below zero. If no affix strips more than n bytes more than it adds, words of at most 360 - 3n bytes are looked up as simple words alike in both builds.", "quantifier": "all dictionaries that can be loaded and changed, all words, all Unicode tables", "why_tests_cant": "tests run in debug builds with words of ordinary length; that assertions hold for all words and dictionaries is not testable", "anchors": ["src/aff.rs:43-62", "src/aff.rs:340-430", "src/checker.rs:1560-1580", "src/checker.rs:1855-1900", "src/checker.rs:2255-2284", "src/checker.rs:2540-2575"]}
{"id": "C76", "title": "Checking other letter cases as well", "statement": "check_lower_as_title and check_lower_as_upper only widen what is accepted: a word accepted as one by the default checker is accepted by every checker; where no entry of the dictionary forbids a word, this also holds for words cut by BREAK lines, unless the call panics on an empty piece. A lower-case word is accepted exactly if the word, or (with check_lower_as_title) its title-case form, or (with check_lower_as_upper) its upper-case form is accepted by the default checker. Words with an initial capital or in all capitals are not affected. With a forbidden entry or the word '.' the settings can take an accepted word away.", "quantifier": "all dictionaries that can be loaded and changed, all words, all Unicode tables", "why_tests_cant": "the documentation has one example per setting; that no accepted word is lost is a statement about pairs of calls for all words", "anchors": ["src/checker.rs:48-95", "src/checker.rs:196-225"]}
{"id": "C77", "title": "Suggestions by similarity come last", "statement": "For a word without a dash, the suggestions of a suggester with with_ngram_suggestions(false) are the first of those of the same suggester with with_ngram_suggestions(true), in the same order: switching suggestions by similarity on only adds suggestions at the end. For a word with a dash this is false, because a similar word with a dash keeps the parts of the word from being corrected.", "quantifier": "all dictionaries, all words without a dash after ICONV, all Unicode tables and heaps", "why_tests_cant": "a relation between two calls with different settings, for all words; capitals, rechecking, duplicates and OCONV come behind the similarity search", "anchors": ["src/suggester.rs:54-81", "src/suggester.rs:205-328"]}
{"id": "C78", "title": "A personal dictionary", "statement": "Adding the lines of a personal file one by one to a loaded dictionary is the same as loading the .dic text with these lines among its lines, at whatever place and in whatever order: it has the same settings and the same entries but for the hidden title-case twins of these lines. If no line has a twin, and entries with the same stem have the same flags, every word gets the same answer and the same suggestions (those by similarity left out). A text with a line which add refuses is refused.", "quantifier": "all pairs of texts, all lists of lines, all words, hashers and settings", "why_tests_cant": "equivalence of two ways to build a dictionary over all texts, lines and words", "anchors": ["src/lib.rs: Dictionary::add", "src/aff/parser.rs: parse"]}
{"id": "C79", "title": "The recursion of check is bounded", "statement": "With a dictionary as in C26 (no SIMPLIFIEDTRIPLE with one-letter parts, no replacement that grows the word) the compound search never calls itself deeper than the letter-case variants of the word (behind ICONV) have characters, and one; without ICONV never deeper than a constant, 1081 for the default checker (case mappings of at most 3 characters), whatever the word. (For other dictionaries no depth is enough.)", "quantifier": "all such dictionaries, all words, all settings", "why_tests_cant": "a bound over all words and dictionaries", "anchors": ["src/checker.rs: check_compound_impl", "src/checker.rs: Checker::check", "src/lib.rs: MAX_WORD_LEN"]}
{"id": "C80", "title": "Suggestions in a debug build", "statement": "In a debug build, where assertions are checked and arithmetic overflow panics, suggest gives every word the list of a release build, or panics at an assertion which check may violate too (C75: the length of a stem, if an affix strips something; the arithmetic of syllables under COMPOUNDSYLLABLE). None of the assertions of the suggester itself ever fails: no edit method is given an empty word, every edit method restores its buffer, and the byte overwritten by a hyphen is a space. (That every stem is short enough is false: a text that is tried can have a stem of more than 360 bytes.)", "quantifier": "all loaded dictionaries, all words, all settings", "why_tests_cant": "assertions of all lookups of all texts tried for all words", "anchors": ["src/suggester.rs: suggest_low", "src/suggester.rs: two_words_suggest", "src/suggester.rs: adjacent_swap_suggest", "src/aff.rs: StemBuf::concat"]}
{"id": "C81", "title": "Suggestions are words; a wrong word is not its own correction", "statement": "Every suggestion of one word (no spaces or dashes) is accepted by check, and so a word which check rejects is never suggested for itself. False in general: a word with inner capitals behind a capital (IPhone with the entry iPhone) gets suggestions whose first letter was put in upper case afterwards, unchecked; FORCEUCASE, ICONV and OCONV have similar effects. Proved for the other words and dictionaries without these lines, where similarity is off or no entry is forbidden or may have two affixes.", "quantifier": "all loaded dictionaries, all words, all settings", "why_tests_cant": "relates two searches over all texts near all words", "anchors": ["src/suggester.rs: Suggester::suggest_impl", "src/suggester.rs: suggest_low", "src/checker.rs: Checker::check", "src/checker.rs: Checker::check_word"]}
{"id": "C82", "title": "The work of check is bounded, but exponential", "statement": "With a dictionary as in C26, check starts at most 144 (b+1)^9 ((c+1)^n + 2^n) searches for compounds (calls of check_compound_impl and check_compound_with_rules_impl), where b counts the lines of BREAK (those in the middle of a word twice), c the ways to go on behind a part (one, and one for every CHECKCOMPOUNDPATTERN with a replacement; twice as many with SIMPLIFIEDTRIPLE), and n the characters of the letter-case variants of the word behind ICONV; the first power is missing without compound flags, the second without COMPOUNDRULE. Without both, no search is started. No polynomial is enough: with two compound parts aaa and aaaa, by COMPOUNDFLAG or by COMPOUNDRULE, the work doubles with every four characters of a word, up to more than 2^89 searches for 359 bytes.", "quantifier": "all such dictionaries, all words, all settings", "why_tests_cant": "a bound over all words and dictionaries; the words which show it to be exponential cannot be run", "anchors": ["src/checker.rs: check_compound_impl", "src/checker.rs: check_compound_with_rules_impl", "src/checker.rs: Checker::check", "src/checker.rs: do_spell_break", "src/checker.rs: spell_casing"]}
{"id": "C83", "title": "The work of suggest is bounded by a polynomial in lookups", "statement": "suggest asks the checker (check, check_word, check_simple_word, check_compound) at most a number of times which is a polynomial of the length of the word, of its letter-case variants behind ICONV, of the numbers of REP, KEY and TRY, and of the longest REP text; the methods with a budget (MAP, distant swaps, insertions, moves, replacements) ask at most 100000 times each per spelling. The number of suggestions is bounded likewise. Without ICONV one number bounds the lookups for all words, since longer words than 360 bytes get none. From below: every text which the edits make is looked up, up to the budget, and MAP uses its budget of 100000 up for a word of 17 letters. (Excluded: ICONV lines which insert a dash, where suggest may not terminate, C45.)", "quantifier": "all loaded dictionaries, all words, all previous outputs, similarity on or off", "why_tests_cant": "a bound over all words and dictionaries", "anchors": ["src/suggester.rs: Suggester::suggest", "src/suggester.rs: suggest_impl", "src/suggester.rs: suggest_low", "src/suggester.rs: max_attempts_for_long_alogs", "src/suggester.rs: map_suggest"]}
{"id": "C84", "title": "More words make no correct word wrong", "statement": "Let a second dictionary have the same affix file and all entries of the first, and further entries without FORBIDDENWORD, without WARN (if FORBIDWARN is set) and without KEEPCASE; for instance, it is the result of add with such a line. If the dictionary has no compounds and no text of the first dictionary has two derivations which differ in these marks, then check accepts every word with the second dictionary which it accepts with the first, in every letter case and with BREAK. For words in lower case without a dash, suggest without similarity loses no suggestion either. Each condition is needed: a forbidden homonym takes a word away; with CHECKCOMPOUNDREP an added word without any flags makes a compound wrong; an added capitalized word takes away a suggestion for a capitalized word; and a good suggestion takes away those by similarity.", "quantifier": "all loaded dictionaries, all larger word lists, all words", "why_tests_cant": "quantifies over pairs of dictionaries and over all words; the lookup takes the first derivation found in the order of a hash table, which the added entries change", "anchors": ["src/lib.rs: Dictionary::add", "src/lib.rs: Dictionary::check", "src/checker.rs: Checker::check", "src/checker.rs: check_simple_word", "src/checker.rs: is_rep_similar", "src/suggester.rs: Suggester::suggest"]}
{"id": "C85", "title": "The recursion of suggest is bounded for all words", "statement": "Three parts of suggest call themselves: suggest_impl, map_suggest_impl, and the compound search of every lookup. With a well-behaved dictionary (that of C26) of which no ICONV line inserts a dash, at most two calls of suggest_impl are open at the same time, only one if the word has no dash, and there is one number which bounds the open calls of the compound search for all words, with or without similarity. map_suggest_impl finds nothing to replace in calls nested deeper than the word has characters, whatever its budget. Where ICONV inserts a dash, no depth is enough.", "quantifier": "all loaded dictionaries, all words, all budgets", "why_tests_cant": "a bound over all words; a stack overflow aborts the process, and the budget of MAP hides its depth", "anchors": ["src/suggester.rs: suggest_impl", "src/suggester.rs: map_suggest_impl", "src/checker.rs: check_compound_impl"]}
{"id": "C86", "title": "The word list keeps its promise in memory", "statement": "In any program which makes word lists, inserts entries, looks up, removes stems, iterates, copies and drops, in any order, the word list in memory (texts as UmbraString, flags as UmbraSlice, in a hash table whose hashes are computed from the texts read back) behaves as plain lists of pairs: a lookup finds exactly the entries inserted with this text, each with its set of flags in increasing order, whatever the hash function and its collisions; removing a stem adds the flag to exactly these entries and says whether one lacked it; a copy is independent of its original. No operation reads, writes or frees memory it must not, reads bytes as text which are not UTF-8, or panics. The memory held is exactly one block for each text and each flag set which does not fit inline, so nothing leaks.", "quantifier": "all sequences of operations, all texts of at most 65535 bytes, all flags, all hash functions and table layouts, all allocators, 32- and 64-bit targets of both byte orders", "why_tests_cant": "unsafe code over all histories, contents and layouts; undefined behaviour and leaks do not show in results", "anchors": ["src/umbra_slice.rs: UmbraString", "src/umbra_slice.rs: sorted_contains", "src/hash_bag.rs: HashBag", "src/lib.rs: FlagSet", "src/lib.rs: Dictionary::remove_stem"]}
{"id": "C87", "title": "The names of flags do not matter", "statement": "A flag is only a mark which connects words, affixes and options. If all flags of a dictionary are renamed so that different flags stay different, and its FLAG type and AF aliases are changed in any way, check and suggest give the same answers for all words. Only these flags are known to the library by their number and have to keep it: 65535, the mark of the entries it adds on its own, and in a dictionary with COMPOUNDSYLLABLE the flags c, I and J.", "quantifier": "all checkers and suggesters, all renamings, all words", "why_tests_cant": "compares two dictionaries over all renamings and all words; a number hidden in the code shows only for a dictionary which uses that flag", "anchors": ["src/checker.rs: Checker::check", "src/checker.rs: check_compound", "src/suggester.rs: suggest_impl", "src/lib.rs: FlagSet", "src/aff.rs: HIDDEN_HOMONYM_FLAG"]}
{"id": "C88", "title": "The answers do not depend on the byte order of the machine", "statement": "With FLAG long a flag is two bytes, which the library reads as a number in the byte order of the machine. A pair of .aff and .dic texts is nevertheless loaded on big-endian machines exactly if it is on little-endian ones, and refused with the same error in the same line otherwise; after the same calls of add and remove_stem, which report the same, check and suggest give the same answers for all words. The texts have no NUL characters and name flags behind the line FLAG long only, if there is one.", "quantifier": "all .aff and .dic texts without NUL in which FLAG long, if used, precedes all flags; all sequences of calls; all words", "why_tests_cant": "tests run on the one machine at hand", "anchors": ["src/aff/parser.rs: parse_flag_from_str", "src/aff/parser.rs: parse_flags_from_str", "src/aff/parser.rs: parse_compound_rule", "src/lib.rs: Dictionary::new", "src/lib.rs: Dictionary::add"]}
{"id": "C89", "title": "An affix rule which nothing refers to changes nothing", "statement": "If no word and no other affix rule has the flag of an affix rule, or of several, then these rules can be removed and check and suggest give the same answers for all words. With COMPLEXPREFIXES the continuation flags of the removed suffixes have to be on other suffixes too, and for suggest there are less than 1000 rules of each kind, since the number of rules lowers the number of edits which are tried.", "quantifier": "all checkers and suggesters, all sets of affix rules which nothing refers to, all words", "why_tests_cant": "compares two dictionaries over all words; a rule which does nothing can only be told from one which does by all words", "anchors": ["src/checker.rs: strip_suffix_then_suffix", "src/checker.rs: strip_suffix_then_2_prefixes", "src/aff.rs: AffixIndex", "src/suggester.rs: max_attempts_for_long_alogs"]}
{"id": "C90", "title": "Saying something twice changes no answer", "statement": "A line which stands in the word list several times, an entry which is added again, and an affix rule which is given again in the table change no answer of check and no suggestion made by editing, whatever the order of the lines and the hashers, if entries with the same stem have the same flags (for suggest: if there are equally many affix rules, or less than 1000 of each kind). Suggestions by similarity are an exception.", "quantifier": "all dictionaries, all repetitions, all layouts of the hash tables, all words", "why_tests_cant": "compares two dictionaries of different size over all words and all layouts", "anchors": ["src/hash_bag.rs: get", "src/checker.rs: check_simple_word", "src/aff.rs: AffixIndex", "src/suggester/ngram.rs: ngram_suggest"]}
{"id": "C91", "title": "Removing a stem only takes words away", "statement": "With a dictionary without compounds whose FORBIDDENWORD flag is used for nothing else, every word which is correct after remove_stem was correct before, and a correct word becomes wrong only if some piece of it, in one of the spellings in which it is looked up, is made from the removed stem by affixes. With compounds, or if the flag has a second use, a removal can make a wrong word correct.", "quantifier": "all dictionaries a program can hold, all removed stems (any number), all words, all layouts", "why_tests_cant": "compares the answers of two dictionaries on all words", "anchors": ["src/lib.rs: remove_stem", "src/checker.rs: check"]}
{"id": "C92", "title": "Affixes only abbreviate the word list", "statement": "For a dictionary without compounds in which the marks of a word (forbidden, WARN under FORBIDWARN, KEEPCASE) do not depend on how it was made, the finite list of all words its affixes can make, each with the flags of its stem, under the same settings without PFX, SFX and NEEDAFFIX, gives the same answer to every check, in whatever order the list is.", "quantifier": "all dictionaries a program can hold, all words, all orders and layouts of the list", "why_tests_cant": "compares the answers of two dictionaries on all words", "anchors": ["src/checker.rs: check_simple_word", "src/checker.rs: check"]}
{"id": "C93", "title": "Flags nothing asks about do nothing", "statement": "If flags are removed from the words and affixes of a dictionary, and no option, affix, COMPOUNDRULE or CHECKCOMPOUNDPATTERN refers to any of them (nor are they 65535 or, when syllables are counted, I and J), then check and suggest give the same answers for every word. SUBSTANDARD does not count: its flag can be removed.", "quantifier": "all dictionaries, all sets of flags nothing refers to, all words, all hash table layouts", "why_tests_cant": "compares the answers of two dictionaries on all words", "anchors": ["src/checker.rs: check_simple_word", "src/checker.rs: check_word_in_compound", "src/suggester/ngram.rs: expand_stem_for_ngram"]}
{"id": "C94", "title": "Advice for suggestions does not change what is correct", "statement": "Deleting or changing the parts of an affix file that are about suggestions (TRY, KEY, MAP, OCONV, NOSUGGEST, MAXNGRAMSUGS, MAXDIFF, ONLYMAXDIFF, NOSPLITSUGS, and REP unless CHECKCOMPOUNDREP is on) does not change whether the dictionary loads or what check says about any word. FULLSTRIP, COMPOUNDMORESUFFIXES, MAXCPDSUGS, SUBSTANDARD and SUGSWITHDOTS change neither check nor suggest.", "quantifier": "all dictionaries, all affix texts, all blocks of these directives anywhere in the text, all words, all hash table layouts", "why_tests_cant": "compares the answers of two dictionaries on all words", "anchors": ["src/checker.rs: check", "src/aff/parser.rs: parse", "src/aff.rs: AffOptions", "src/suggester.rs: suggest"]}
{"id": "C95", "title": "The order of the blocks of an affix file does not matter", "statement": "An affix file is a list of blocks, each a directive with the rows it announces. If two files have the same blocks, and the blocks of each single directive come in the same order in both, then one makes a dictionary iff the other does, and it is the same dictionary. FLAG and AF are excepted: they tell how to read the flags below them. If a directive with one value occurs twice, the last one counts and the first can be left out.", "quantifier": "all affix texts cut into blocks, all orders of the blocks, all .dic texts", "why_tests_cant": "the orders of the blocks cannot be enumerated, and the two dictionaries must be equal in every part", "anchors": ["src/aff/parser.rs: parse", "src/aff/parser.rs: AFF_PARSERS"]}
{"id": "C96", "title": "The spelling of flags does not matter", "statement": "If two pairs of .aff and .dic texts differ only in how they write flags (FLAG short, long, num or UTF-8; sets of flags by their AF number or written out) and the first pair makes a dictionary, so does the second. The word lists are equal, the affix data differ only in the record of the spelling, and check and suggest give the same results on all words.", "quantifier": "all pairs of texts whose flags denote the same flags, in any two spellings, all words, all hash table layouts", "why_tests_cant": "relates two parsers of flags on all texts and compares the dictionaries on all words", "anchors": ["src/aff/parser.rs: parse_flag_from_str", "src/aff/parser.rs: decode_flagset", "src/aff/parser.rs: parse_compound_rule", "src/aff/parser.rs: parse"]}
{"id": "C97", "title": "The order of affix rules does not matter, and more rules make no correct word wrong", "statement": "Let two affix files have the same blocks except those of PFX and SFX, with FLAG and AF at the beginning. If both have the same affix rows under the same flags, in whatever order, however often, and however divided into blocks, then check accepts and rejects the same words with both, provided that the dictionary has no compounds and no text has two derivations which differ in FORBIDDENWORD, WARN (with FORBIDWARN) or KEEPCASE. If the second has the rows of the first and further ones, and the further ones make nothing of entries with such marks (for instance, no entry has one), then every word accepted with the first is accepted with the second. Each condition is needed: the order decides between a good and a forbidden derivation of the same text, and with CHECKCOMPOUNDREP a further rule makes a compound wrong.", "quantifier": "all pairs of affix texts with the same or more affix rows, all word lists, all words, all hash table layouts", "why_tests_cant": "quantifies over all pairs of affix files and all words; the lookup takes the first derivation it finds, in an order that changes with the sorted table of affixes", "anchors": ["src/aff.rs: AffixIndex::new", "src/aff/parser.rs: parse_affix_table", "src/checker.rs: check_simple_word", "src/checker.rs: strip_affix_only", "src/lib.rs: Dictionary::check"]}
{"id": "C98", "title": "The order of the rows of a table does not matter", "statement": "Let two affix files differ only in the order of the rows inside their tables BREAK, COMPOUNDRULE, CHECKCOMPOUNDPATTERN, REP, MAP, ICONV and OCONV. If no two rows of ICONV that change places convert the same characters to different texts, and no row of CHECKCOMPOUNDPATTERN that changes places has a replacement, then check gives every word the same answer with both. If the rows of BREAK stay in place, every run of check is the same, with every option. If only rows of COMPOUNDRULE, CHECKCOMPOUNDPATTERN and ICONV change places, suggest gives the same suggestions in the same order. Each condition is needed: competing ICONV rows, pattern rows with the same replacement, and the rows of AF, which have numbers, decide answers by their order.", "quantifier": "all pairs of affix texts which differ in the order of table rows, all word lists, all words, all hash table layouts", "why_tests_cant": "quantifies over all affix files, all orders of their rows and all words; every one of these loops stops at the first row that fits", "anchors": ["src/aff/parser.rs: parse_table", "src/checker.rs: check_compound_with_rules", "src/checker.rs: is_rep_similar", "src/lib.rs: Dictionary::check", "src/aff.rs: ConversionTable::from", "src/aff.rs: BreakTable"]}
{"id": "C99", "title": "A list of words and parts of compounds, from the text to the answer", "statement": "An affix file that sets COMPOUNDFLAG and perhaps COMPOUNDMIN and nothing else, with a word list whose lines are words or words followed by that flag, loads. Then check answers true exactly for the words which are correct by the list: words of at most 360 bytes which are empty, a number, or made with dashes, nested at most nine deep, of known words, perhaps before dots; a text is known if it, or a smaller casing of it, is a listed word, the title form of a mixed-case word or of a flagged word in capitals, or the concatenation of two or more flagged words of at least COMPOUNDMIN characters each (three if not set). All other words get false. More words, more flags and a smaller COMPOUNDMIN make no correct word wrong.", "quantifier": "all such affix texts, all flags of one byte, all lists of words, all words, all hash table layouts", "why_tests_cant": "an exact description of the whole path from two texts to every answer, for unboundedly many parts in a compound", "anchors": ["src/lib.rs: Dictionary::new", "src/aff/parser.rs: parse", "src/checker.rs: check_compound", "src/checker.rs: check_compound_impl", "src/checker.rs: check_compound_classic", "src/checker.rs: check_word_in_compound"]}
{"id": "C100", "title": "A list of stems with affixes, from the text to the answer", "statement": "An affix file with prefix and suffix rules without continuation flags, perhaps NEEDAFFIX, and nothing else, with a word list whose lines are stems with flags, loads. Then check answers true exactly for the words which are correct by the forms of the stems: words of at most 360 bytes which are empty, a number, or made with dashes, nested at most nine deep, of known words, perhaps before dots. A form of a stem is the stem, unless it has the NEEDAFFIX flag, the stem with one prefix or suffix which a flag of it allows and whose condition holds on it, or with a suffix and then a prefix if both allow combination; mixed-case stems and flagged stems in capitals count in title case as well; known words are such forms in the usual letter cases. All other words get false. More rules, more stems and more flags other than NEEDAFFIX make no correct word wrong; a stem without flags has no form but itself.", "quantifier": "all such affix texts, all lists of stems with flags of one ASCII character, all words, all hash table layouts", "why_tests_cant": "an exact description of the whole path from two texts to every answer, for all rules, stems and words", "anchors": ["src/lib.rs: Dictionary::new", "src/aff/parser.rs: parse", "src/aff/parser.rs: parse_flags_from_str", "src/checker.rs: check_word", "src/checker.rs: strip_suffix_only", "src/checker.rs: strip_prefix_then_suffix_commutative"]}
{"id": "C101", "title": "A list of parts for certain places in compounds, from the text to the answer", "statement": "An affix file which says any of COMPOUNDFLAG, COMPOUNDBEGIN, COMPOUNDMIDDLE, COMPOUNDEND, ONLYINCOMPOUND, COMPOUNDMIN, COMPOUNDWORDMAX, CHECKCOMPOUNDDUP, CHECKCOMPOUNDTRIPLE and CHECKCOMPOUNDCASE and nothing else, with a list of words with flags, loads. If no word is listed with two different sets of flags, check answers true exactly for the words which are correct by the list: words of at most 360 bytes which are empty, a number, or made with dashes, nested at most nine deep, of known words, perhaps before dots. Known, in the usual letter cases, are the listed words without the ONLYINCOMPOUND flag and the compounds: two or more listed words, each of at least COMPOUNDMIN characters and with COMPOUNDFLAG or the flag of its place, at most COMPOUNDWORDMAX of them, the last two different, with no three equal letters and no capital letter where two parts meet, as far as the file asks for it. All other words get false. More words and milder limits make no correct word wrong. With COMPOUNDFLAG and COMPOUNDMIN alone the compounds are those of C99.", "quantifier": "all such affix texts, all lists of words with flags of one ASCII character, all words, all hash table layouts", "why_tests_cant": "an exact description of the whole path from two texts to every answer, for all settings, lists and words", "anchors": ["src/lib.rs: Dictionary::new", "src/aff/parser.rs: parse", "src/checker.rs: check_word", "src/checker.rs: check_compound_classic", "src/checker.rs: check_word_in_compound"]}
{"id": "C102", "title": "A list of words with compound rules, from the text to the answer", "statement": "An affix file with COMPOUNDRULE lines, perhaps the settings of C101, and nothing else, with a list of words with flags, loads. If no text has two different sets of flags in the list, check answers true exactly for the words which are correct by the list, as in C101, where also compounds by a rule are known: two or more words of the list (or title forms which the list implies), each of at least COMPOUNDMIN characters, from whose flags one each can be picked so that the picked flags are a word of the rule read as a regular expression. All other words get false. More words, more rules and milder limits make no correct word wrong, and without rules the correct words are those of C101.", "quantifier": "all such affix texts, all rules, all lists of words with flags of one ASCII character, all words, all hash table layouts", "why_tests_cant": "an exact description of the whole path from two texts to every answer, for all rules, lists and words", "anchors": ["src/lib.rs: Dictionary::new", "src/aff/parser.rs: parse", "src/checker.rs: check_word", "src/checker.rs: check_compound_with_rules", "src/aff.rs: compound_rule_matches"]}
{"id": "C103", "title": "A list with forbidden words and words which keep their letter case, from the text to the answer", "statement": "An affix file which says FORBIDDENWORD, KEEPCASE, WARN or FORBIDWARN and nothing else, with a list of words with flags, loads. If no text has two different sets of flags in the list, check answers true exactly for the words which are correct by the list: words of at most 360 bytes which are empty, a number, or have a positive verdict, or have no verdict and are cut at dashes, nested at most nine deep, into such words, perhaps before dots. The verdict is that of the first spelling of the word in the list (in the usual order of letter cases; a spelling in another case does not count for a word with the KEEPCASE flag): positive unless the word has the FORBIDDENWORD flag or, with FORBIDWARN, the WARN flag. All other words get false. Hence a listed forbidden word is wrong even if a dash would cut it into correct words, a listed allowed word is correct, and the title form of a word with the KEEPCASE flag is wrong unless it is listed or has a dash.", "quantifier": "all such affix texts, all lists of words with flags of one ASCII character, all words, all hash table layouts", "why_tests_cant": "an exact description of the whole path from two texts to every answer, for all flags, lists and words", "anchors": ["src/lib.rs: Dictionary::new", "src/aff/parser.rs: parse", "src/checker.rs: check", "src/checker.rs: spell_break", "src/checker.rs: spell_casing", "src/checker.rs: spell_casing_upper", "src/checker.rs: spell_casing_title"]}
{"id": "C104", "title": "A list with BREAK, ICONV, OCONV, IGNORE and CHECKSHARPS, from the text to the answer", "statement": "An affix file which says BREAK, ICONV, OCONV, IGNORE, CHECKSHARPS, TRY, KEY, REP or MAP and nothing else, with a list of words without flags, loads. With it check answers true exactly for the words of at most 360 bytes whose conversion by the ICONV lines (leftmost, longest, in one pass) is empty, or without the dots at its end a number, or without these dots and the ignored letters made of known words, or, if it has dots at its end, made of known words as it is. Made of known words means: known by the list read without ignored letters (with the usual letter cases, and with CHECKSHARPS a word in capitals with SS also if ß stands in the list for some of its first five ss, in small letters or with an initial capital), or left by dropping the text of a break line for the start or the end there, or cut around the first place of the text of another break line with something behind it, nested at most nine deep. All other words get false. Hence ignored letters may stand anywhere in the word or in the list, words joined by the text of a break line are correct, and words with the same conversion get the same answer.", "quantifier": "all such affix texts, all lists of words, all words, all hash table layouts", "why_tests_cant": "an exact description of the whole path from two texts to every answer, for all tables, lists and words", "anchors": ["src/lib.rs: Dictionary::new", "src/aff/parser.rs: parse", "src/aff/parser.rs: parse_break_patterns", "src/aff.rs: ConversionTable::convert", "src/aff.rs: BreakTable", "src/checker.rs: check", "src/checker.rs: spell_break"]}
{"id": "C105", "title": "Suggestions from a list of words, from the text to the suggestions", "statement": "Take an affix file which says BREAK, CHECKSHARPS, TRY, KEY, REP or MAP and nothing else, and a list of words without flags. suggest returns for every word (if no listed word or title form has more than 8000 bytes). Every suggestion which is one word (no space, no dash, at most 360 bytes, no dot at its end) is correct by the list, unless the word has inner capitals behind a capital. For a word without capitals of at most 360 bytes, every listed word is suggested which differs from it by two neighbours swapped, a letter too many, one letter or all letters written small, a neighbouring key, or two letters written twice before the end; and every one which differs by a missing or wrong letter of the TRY line, two letters swapped anywhere, or a letter moved by two places or more, if (letters of the word + letters of the TRY line) times (letters of the word + 1) is at most 100000. If the word is two listed words written together, these are suggested with a space.", "quantifier": "all such affix texts, all lists of words, all words, all hash table layouts and heap orders, with and without similarity", "why_tests_cant": "what is and what is not suggested, for all pairs of a list and a word, from the two texts on", "anchors": ["src/lib.rs: Dictionary::suggest", "src/aff/parser.rs: parse", "src/suggester.rs: suggest", "src/suggester.rs: suggest_low", "src/suggester.rs: extra_char_suggest", "src/suggester.rs: forgotten_char_suggest", "src/suggester.rs: two_words_suggest"]}
{"id": "C106", "title": "Corrections from a list of words for words of every letter case, with REP lines", "statement": "Take an affix file which says BREAK, CHECKSHARPS, TRY, KEY, REP or MAP and nothing else, a list of words without flags, and a word of at most 360 bytes. A correction of a text is a listed word which differs by one slip (swapped neighbours, two swapped pairs in words of four or five letters, a letter too many, small letters, a neighbouring key, two letters written twice), or by one slip of which there are many (a letter of the TRY line missing or replaced, two letters far apart swapped, a letter too early or too late) if (n + k)(n + 1) is at most 100000 for n letters of the text and k letters of the TRY line; a listed word with similar letters in place of some letters, if the MAP groups have letters only and at most 100000 texts are so similar; the text with one REP line applied (to all of it, its start, its end, or any place which does not overlap with an earlier one) if the result is listed words with spaces between them, or two listed words for the text written together (with a dash instead of a space if both have two letters and the TRY line has the letter a or a dash). For a word without capitals every correction is suggested. For a word with an initial capital every correction of it, or of it in small letters, is suggested with a capital, if it has a space or is then correct by the list. For a word in capitals the corrections of the word in small letters, and of these with an initial capital, are suggested in capitals, under the same condition. For a word with inner capitals the corrections without spaces of the word and of its other spellings are suggested, with a capital if the word has one, and so are these spellings if they are correct by the list.", "quantifier": "all such affix texts, all lists of words, all words, all hash table layouts and heap orders, with and without similarity", "why_tests_cant": "no correction is lost, for any pair of a list and a word of any letter case, from the two texts on", "anchors": ["src/lib.rs: Dictionary::suggest", "src/aff/parser.rs: parse", "src/aff.rs: ReplacementTable", "src/suggester.rs: suggest", "src/suggester.rs: try_rep_suggestion", "src/suggester.rs: suggest_low"]}
