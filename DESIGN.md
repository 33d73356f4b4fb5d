# Formal model of spellbook in Lean 4 — design

The code under study is `/repo` (helix-editor/spellbook, Rust). It is read as text only. The model
is written function by function; every definition cites the file and lines it models and says where
it simplifies.

## Layout

| Directory | Contents |
|---|---|
| `lean/Verif/Model` | the model: one Lean definition per Rust function or loop |
| `lean/Verif/Spec` | specifications: what the properties mean, in relations and grammars which do not use the model's algorithms (they do use its data types) |
| `lean/Verif/Proof` | lemmas |
| `lean/Verif/Props` | the property theorems `Cnn_…`, each followed by examples which meet its hypotheses |
| `lean/Verif/Tests` | the crate's own unit tests, run on the model (tests of the model, not proofs) |
| `lean/Verif/Audit.lean` | generated: the axioms of every property theorem, compared on each build |
| `seeded/LOG.jsonl` | the wrong programs tried on the theorems |
| `tools/` | scripts which generate `MANIFEST.json` and `Audit.lean`; `en_us.py` and `legacy.py` run the compiled model on `en_US` and on `tests/legacy` |

Names: `…_partial` proves part of a property (its comment says what is missing);
`…_negation` and a few telling names (`C26_triple_diverges`, `C10_twin_left`, …) prove that the
code violates the property, by a concrete dictionary and word.

## Trusted base

* Lean 4.33.0's kernel. The axioms of each property theorem are listed in `Verif/Audit.lean`
  (`#guard_msgs` on `#print axioms`): never more than `propext`, `Classical.choice`, `Quot.sound`. No
  own axioms, no `sorry`, no `native_decide`, no `bv_decide`. Concrete witnesses are evaluated with
  `decide` or `decide +kernel`, both of which run in the kernel.
* My reading of the Rust code: the model is written by hand. The Rust code was not compiled or run. As
  evidence, the crate's own unit tests are run on the model: `Verif/Tests` repeats those with small
  dictionaries (they are evaluated by the kernel at each build), and `tools/en_us.py` compiles the model
  and runs those which need `en_US` (49468 entries). `tools/legacy.py` does the same with the integration
  tests `tests/legacy.rs` (139 cases from Hunspell with 1321 expected answers, including whole lists of
  suggestions in order). All pass.
* Rust's standard library behaves as documented (`str` slicing and searching, `Vec`, sorting,
  integer parsing, `Peekable`, `BinaryHeap`), and `hashbrown` finds what was inserted.
* The specifications in `Verif/Spec` say what `properties.jsonl` says in English.

## What is modelled, and how

* **Text.** `Str := List Char`: a Rust `&str` is a list of Unicode scalar values. Byte lengths are
  those of UTF-8. Algorithms which work on bytes (affix index, swaps and replacements of the
  suggester, `bytes_within`, `UmbraSlice`, conversion table, flags) are modelled on bytes or byte
  offsets and proved equal to their reading on characters. The checker is modelled twice: with
  character positions (`Model/Check`, `Model/Compound`, which the other theorems are about) and with the
  byte positions, slices and in-place changes of the code (`Model/CheckBytes`); C63 proves that both have
  the same outcome. C64 does the same for suggestions by similarity (`Model/NgramBytes`), C65 for the rest of
  the suggester, the readers of lines and the conversion tables (`Model/SuggestBytes`).
* **Unicode** (`char::to_lowercase`, `is_uppercase`, `is_whitespace`, …) is a parameter, `structure
  Unicode`, about which nothing is assumed; what a theorem needs is among its hypotheses, and
  `Unicode.sample` (ASCII and some letters) meets them.
* **Hash table.** `HashBag` is a table of slots with an arbitrary hash function and an arbitrary
  probe order; a `Layout` gives the order in which entries with the same stem are found. Theorems
  quantify over all layouts.
* **Unstable sorts** are any function that returns a sorted permutation (`Sorts`). **Binary heaps**
  (`Heaps`) are any structure which pops a least element; theorems quantify over all of them.
* **Panics** are values (`Option`, or `Stop.panic` in `Run`). Where the Rust code could index out of
  bounds, slice inside a character, unwrap a `None` or overflow a `u16`, the model has a panic.
* **Recursion** not obviously bounded takes fuel; running out of it is the value `Stop.fuel`,
  distinct from every answer. More fuel never changes an outcome (C26, C39), so *returns*, *panics*
  and *recurses without end* are well defined: `Accepts`, `Rejects`, `Panics`, `Diverges`, `Suggests`.
* **Mutation.** `&mut` arguments become results. `&mut self` histories are lists of operations
  (`Spec/History`).

| Rust | Model |
|---|---|
| `src/lib.rs` (dictionary, casing, flag sets) | `Dictionary`, `Casing`, `FlagSet` |
| `src/umbra_slice.rs` | `Umbra` (contents), `UmbraMem` (bytes, union, allocator, `Clone`, `Drop`; 32 and 64 bits, both byte orders), `WordMem` (`UmbraString`, the flag sets) |
| `src/hash_bag.rs` | `HashBag`, `Words`, `WordMem` (in memory) |
| `src/aff.rs` | `Affix`, `AffixIndex`, `Condition`, `Conversion`, `Tables`, `AffData` |
| `src/aff/parser.rs` | `FlagText`, `RuleText`, `DicLine`, `AffText`, `Display` (the texts of the errors) |
| `src/checker.rs` | `Simple` (affix stripping), `Compound`, `Check`, `CheckBytes`, `Debug` (a debug build), `Work` (counting searches) |
| `src/suggester.rs` | `Edits`, `Suggest`, `SuggestBytes`, `DebugSuggest` (a debug build), `Lookups` (counting lookups) |
| `src/suggester/ngram.rs` | `Ngram`, `NgramBytes` |

## What is not modelled

* The `unsafe` blocks outside `src/umbra_slice.rs` are all modelled by what they do to bytes (C41, C62–C65: in
  bounds, valid UTF-8 afterwards); not modelled are aliasing rules and provenance, allocation failure except in `UmbraMem` and `WordMem`,
  `Debug` output, `Display` other than of the errors of parsing (C74), iterators' size hints, performance (except the number of searches for compounds, C82, and of lookups in `suggest`, C83),
  `Send`/`Sync`.
* `debug_assert!`s and arithmetic overflow are panics in `Model/Debug` and `Model/DebugSuggest` only, which cover
  `check` (C75) and `suggest` (C80). The assertions that edits restore their buffer (`Model/Edits`) and those of
  `parse_dic_line` are panics in every build there; none fails (C41, C65). Elsewhere overflow is
  modelled where it can occur (`num_syllable_modifier as usize`, `u16` lengths), and numbers are `Nat`, bounded
  by the length of the word (at most 360 bytes) or the size of the dictionary.
* The stack: a recursion which ends is counted as returning, however deep (C79 and C85 bound the depth of `check` and `suggest`, but say nothing about the bytes of a frame).

## Properties

Full statements are in `properties.jsonl`, the theorems in `MANIFEST.json`. Nothing was found
inexpressible. Where the code violates the English property, the negation is proved on a witness and
the rest is proved as `_partial`.

| | Modelled by | How |
|---|---|---|
| C01, C02 | `Check.check`, `Suggest.suggest` | for all dictionaries, by unfolding the guards |
| C03 | `isNumber`, `check` | grammar `Spec.IsNumber`; loop invariant of the fold |
| C04, C07, C08 | `check`, `doSpellBreak`, `spellCasing*` | relation `Spec.Breaks` with depth; iff by induction on depth |
| C05, C06, C32, C33, C48 | the nine strip functions | relation `Spec.Derives` of affix applications; each function is equivalent to one shape |
| C09–C11, C38, C54 | `add`, `removeStem`, `parse` | invariants over all histories of operations |
| C12, C13 | `HashBag` | refinement to a multimap; congruence of every function of checker and suggester under "same lookups" |
| C14, C15 | `FlagSet`, `Umbra` | set and list semantics; round trip of the packed words |
| C62 | `Mem.run`: programs on bytes and blocks | simulation by programs on lists (`Spec.sliceRun`), with an invariant which gives each block one owner |
| C16–C20 | tables | lookup exact for every sorted permutation; conditions against a class-list semantics; leftmost-longest rewriting as a relation |
| C21, C30, C31 | rule matcher | regular language of the rule |
| C22–C25, C52 | casing | classification; spellings tried, as a list `Spec.attempts` |
| C26 | whole checker | no panic by induction on fuel (`Run.Safe`); termination by a measure (`Ends`); divergence witnesses by an invariant of the loop |
| C27–C29, C47, C49, C50 | compound search | relations `Spec.Compound`, `Spec.PlainCompound` of parts; soundness for all dictionaries, completeness for those where it holds |
| C34, C35, C58 | text readers | grammars; parse iff in grammar; round trips |
| C36, C37, C53 | `parse` | relation `Spec.Reads` between lines and settings; locality of errors |
| C39–C46, C55–C57, C59 | suggester | sets of edited texts; every method is equivalent to filtering one list of texts; structure of the result |
| C61 | `check_compound`, `check_compound_impl` and all it calls | relation `Spec.Answers` (which boundary, which reading, which way, in which order), equivalence for every dictionary and depth |
| C63 | `Bytes.check` and all it calls | equal to `check` function by function; each slice is shown to be at a character boundary |
| C64 | `Bytes.CharsStr`, `Bytes.ngramSuggest` | offsets are those of the characters; equal to `ngramSuggest` function by function |
| C65 | `Bytes.suggest`, `Bytes.parseDicLine`, `Bytes.convert`, … | equal to the model on characters function by function; loops over positions are shown to end |
| C60 | `ngram_suggest` | explicit formulas for the scores, relation `Spec.BySimilarity` for the four steps, for all heaps and sorts |
| C66 | `check` and all it calls | definition `Spec.Correct` from entries, affixes and settings only; composed from C05, C61, C30, C52, C51, C20 and C53. Where several derivations or readings of a text exist a `Spec.Choice` says which is looked at; `C66_no_choice` needs none |
| C67 | `check` and all it calls, with every option of the checker | `Spec.Happens` gives the outcome (yes, no, panic) of each step from the content of the dictionary; no outcome is divergence. Lookups by C66's lemmas, which need no termination; order of steps by `AnyOf`, `AllOf` |
| C68 | `suggest` and all it calls, with every option of the suggester | `Spec.Suggested` gives the list of suggestions or the panic, step by step (`Then`), from the content of the dictionary; no outcome is divergence. `Does g R`: the results of `g` for sufficient fuel are those of `R`; one lemma per function, put together by `Does.bind`. Similar words are a parameter of the specification, constrained by `BySimilarity` (C60) if they are found and by `SimilarityPanics` if not |
| C69 | `add`, `remove_stem`, `parse` | entries of a stem as a fold over the calls for that stem; lines by C37; answers by the congruence of C13 |
| C70 | `parse`, `check` on an empty `.aff` text and a plain word list | C37 gives the entries, C66 the answer; both unfolded for a dictionary without affixes and flags, until only the list of words is left |
| C71 | `CaseHandling` and `str::to_lowercase` | letter by letter as an inductive relation (`Spec.SmallText` with the sigma rule, `Each`, `TitleText`), shown equal to the functions |
| C72 | errors of `parse` and `add` | faults as inductive relations beside the grammars (`Spec/FlagFaults`, `Spec/Faults`), shown equal to the errors of the readers: texts, rows, tables, lines, the whole text |
| C73 | `parse` on differently laid out texts | the relations of C13/C72 carried over along corresponding lines (`Spec/Layout`); corollaries for marks, line ends, white space, comments, blank lines; witnesses for the blank lines that matter |
| C74 | `Display` of the errors (`Model/Display`) | injectivity by comparing first characters, and of decimal digits; with C72 the message determines the fault |
| C75 | `check` once more with assertions and overflow (`Model/Debug`) | every function agrees with the one of the release build or fails at an allowed assertion; parsed dictionaries as witnesses for each of the three |
| C76 | the settings of a checker (`Model/Api`), `check` | if the checker finds an entry, one with more settings finds one, or stops; entries found are entries of the dictionary, hence not forbidding; parsed dictionaries as witnesses that a forbidden entry and the word `.` break it |
| C77 | the settings of a suggester (`Model/Api`), `suggest` | the similarity search appends; capitals, rechecking, removal of duplicates and OCONV keep prefixes; a parsed dictionary as witness for words with a dash |
| C78 | `add`, `parse` | the entries of a text are those of its lines (C37); permutations of lines permute entries; own entries and twins told apart |
| C79 | `check`, its fuel as the number of open calls of the compound search | every lookup ends with as much fuel as its text has characters, and one; letter case, sharp s, apostrophes, BREAK and IGNORE make no longer texts than the case mappings allow |
| C80 | `suggest` once more with the lookups of `Model/Debug` and its own assertions (`Model/DebugSuggest`) | as for C75; no word becomes empty by ICONV or a change of case; the space is where the first part ends |
| C81 | `suggest` and `check` | partial: suggestions come from a lookup which accepts them (C59), and `check` finds what that lookup finds, or something sooner; four witnesses that the rest is false |
| C82 | `check` and all between it and the compound search once more, counting its calls (`Model/Work`) | the results are those of `check`; behind a place `i` the search has less text left, so the calls are bounded by a sum of powers; lower bound by induction on the text left, for two loaded dictionaries |
| C83 | `suggest` once more, method by method, counting the calls of the checker (`Model/Lookups`) | the results are those of `suggest`; every method makes at most as many texts as its specification has (C41–C43), the budget cuts; four spellings at most, dashes recur once (hence no ICONV line which inserts a dash); lower bound from the same lists; `MAP ab` on `a…a` makes 2ⁿ − 1 texts |
| C84 | two dictionaries with the same settings, the entries of one among those of the other (`Spec/Growth`) | every derivation of the small list is one of the large list, the further ones are unmarked; so the derivation which is found, whichever it is, decides no worse in each letter case (C20) and for each BREAK part (C66, C51); suggestions by the exact lists of C59 |
| C85 | the limits of the models of `suggest`, `mapImpl` and the compound search, read as depths (`Spec/SuggestDepth`) | C45's proof that the outcome does not change any more, and the finiteness of the words of at most 360 bytes; the texts of MAP groups have two characters or more, so every replacement of MAP uses up a character |
| C86 | `Mem.wordRun`: programs on tables of `UmbraSlice`s in one memory | simulation by `Bag` (`Model/HashBag`), with C62's invariant for two element types; then by lists of pairs (`Spec.wordRunSpec`), up to the order of the table |
| C87 | a checker with the flags of all tables renamed (`Spec.renameChecker`) | every function of `check` and `suggest` commutes with the renaming, one by one; the heaps of the n-gram search hold renamed entries |
| C88 | the byte order is part of the platform (`Unicode.byteOrder`) and is read by `from_ne_bytes` | the two parsers are compared line by line through their exact specifications (`Reads`, `ReadsFault`, `LineMeans`, `EntryFault`): the settings differ by `swapBytes`, which is a renaming in the sense of C87 |
| C89 | nothing new | a removed rule finds nothing in any of the nested loops, because an entry or a rule which stays would need its flag; three of the four early exits on continuation flags are shown to avoid work only, the fourth (C32) needs the condition on COMPLEXPREFIXES; the rest by congruence (`Checker.Alike`, `Suggester.Alike`) |
| C90 | nothing new | every search for an entry or an affix takes the first that fits, which does not see repetitions (`List.eraseDups`); the rest by congruence (`SameTries`, `Alike`); lines by the relations of C69 |
| C91 | nothing new | no test on an entry but the one for the FORBIDDENWORD flag changes, so every lookup finds the same entry, marked if its stem is the removed one (`Both`); carried through letter case, BREAK and `check` (`Fewer`) |
| C92 | nothing new | by the exact description of the lookups (C05) a word is found in the list iff it can be made in the dictionary (`Unmunch.derives`), with equal marks by `SameMarks`; carried through letter case, BREAK and `check`. The list is finite since a rule makes at most one text of a stem and at most three affixes are used |
| C93 | nothing new | every function of the checker and the suggester gives the same result with fewer flags (`Pruned.*`). Two points need an argument: the fast lanes for empty flag sets (`stripTwo_loop`, `expandStem_loop`), and CHECKCOMPOUNDDUP, which compares whole flag sets: entries which differ only in removed flags are never compared, since lookups find the first of them (`Early`) |
| C94 | nothing new | each function of the checker and the suggester is shown to read only the settings listed with its lemma (`SameRules`, `SameReads`). In the text: what a block of lines does is determined by the block (`effect_unique`, `Reads.split`), and every block does the same to settings that differ in advice (`Hint.effect`) |
| C95 | nothing new | the settings have one part for each directive (`Blocks.slots`); a block changes its own part, depending on this part and the reading of flags only (`Blocks.effect_local`), so two blocks of different directives commute; any two orders differ by such exchanges (`Blocks.Runs.order`). `C95_flags_first`: with FLAG or AF below the flags, the dictionary is another one |
| C96 | nothing new | block by block and line by line: each text denotes the flags its spelling says (`FlagOf`, `AliasFlags`, `RuleText` are functional), so both texts run through the same settings but for the spelling (`Respell.runs`, `Respell.entries`); that nothing reads the spelling afterwards is `C94_idle` |
| C97 | two dictionaries which differ in the affix tables only (`Spec/MoreRules`) | a derivation stays one with more rules (`derives_more`), so the argument of C84 applies, which now speaks of any two dictionaries where one derives what the other does (`Grows`); for texts the blocks are sorted by C95, and the set of affixes made by the PFX and SFX blocks is told by their rows (`Blocks.runs_affix`) |
| C98 | two affix texts which differ in the order of the rows of tables (`Spec/TableOrder`) | the parser states differ by permutations only (`Blocks.Shuf`, `runs_shuffled`); each loop over a table asks whether some row fits (`Checker.SameWords.shuffled`), a conversion without ties has one result (`convert_perm`), and breaking is told by a relation that only speaks of membership (C51) |
| C99 | both texts and `check`, for affix files with COMPOUNDFLAG and COMPOUNDMIN only (`Spec/PartList`) | the text parsers give one entry per line and the title twins (`part_parse`); the derivations and the compound search of such a dictionary are told exactly by C27 and C49 (`PartDict.derives`, `PartDict.compound`), casing, breaks and dots as in C70 |
| C100 | both texts and `check`, for affix files with PFX, SFX (without continuation flags) and NEEDAFFIX only (`Spec/FormList`) | the text parsers give one entry per line and the title twins (`form_parse`); the general derivations of C05/C06 become the forms of the stems (`FormDict.forms`), casing, breaks and dots as in C70 (`Finds.verdict`) |
| C101 | both texts and `check`, for affix files with the flags of places in compounds and the limits COMPOUNDMIN, COMPOUNDWORDMAX, CHECKCOMPOUNDDUP, CHECKCOMPOUNDTRIPLE, CHECKCOMPOUNDCASE only (`Spec/PlaceList`) | the text parsers give one entry per line and the title twins (`listed_parse`); parts are listed words allowed at their place (`PlaceDict.part`), so the search is exact by C49 (`PlaceDict.compound`); casing, breaks and dots as in C100 (`Finds.verdict`) |
| C102 | both texts and `check`, for affix files with COMPOUNDRULE lines and the settings of C101 only (`Spec/RuleList`) | entries of a text agree on the flags of rules (`PlaceDict.rulePart`), and a rule looks at its own flags only (`RuleAccepts.map`), so the search by rules is exact by C30 (`PlaceDict.ruleComplete`); the rest as in C101 (`PlaceDict.finds_of`, `placed_verdict`) |
| C103 | both texts and `check`, for affix files with FORBIDDENWORD, KEEPCASE, WARN and FORBIDWARN only (`Spec/GuardList`) | the text parsers give one entry per line and the title twins (`listed_parse`, `guard_hasTwin`); the spellings tried are those of C52 (`GuardDict.attempts`), each decided by the flags of the list (`GuardDict.fails`, `GuardDict.meets`), so the verdicts agree (`GuardDict.verdict`); breaks and dots as in C51 |
| C104 | both texts and `check`, for affix files with BREAK, ICONV, OCONV, IGNORE, CHECKSHARPS, TRY, KEY, REP and MAP only (`Spec/PrepList`, `Spec/Sharp`) | the text parsers give one entry per line without ignored letters, and the title twins (`prep_parse`); what can be derived from them is the list (`PrepDict.derives`), so the verdicts are `KnownBy` and `SharpBy` (`PrepDict.finds`, `FindsAny.verdict`) and cutting by verdicts is `CutBy` (`breaks_cutBy`); preparation as in C51, conversion as in C20 |
| C105 | both texts and `suggest`, for affix files with BREAK, CHECKSHARPS, TRY, KEY, REP and MAP only (`Spec/HintList`) | the dictionary of the texts is that of C104; a listed word is accepted by the lookup of `suggest` (`hint_suggestable`), so the slips are edits of C55 with a known number of attempts (`C55_attempts`); soundness from C81 and C104, the end from C45 |
| C106 | both texts and `suggest` for words of every letter case, for the affix files of C105 (`Spec/CaseHints`) | the corrections of the list are the corrections of C55 and C59 (`hint_correction`); REP lines by C19 and the places of a pattern (`matchIndices_of_apart`); MAP lines by C41 and the number of similar texts (`similarTexts_length`); correct by the list means accepted by C104 |
| C51 | `check` | the stages of the preparation as a disjunction |

## Findings

Deviations of the code from its documentation, from Hunspell/Nuspell, or from what a caller would
expect; each is a theorem about the model.

**Panics and endless recursion**

1. `check_lower_as_title(true)`/`check_lower_as_upper(true)` panic on the word `.`
   (`C26_panic_negation`).
2. `SIMPLIFIEDTRIPLE` with `COMPOUNDMIN 1` recurses for ever (`C26_triple_diverges`); so does a
   `CHECKCOMPOUNDPATTERN` replacement which makes the word longer (`C26_pattern_diverges`). Both
   dictionaries can be loaded from texts (`C26_triple_loaded`, `C26_pattern_loaded`).
3. `suggest` panics when the dictionary accepts the empty word (a suffix which strips the whole stem,
   for which `FULLSTRIP` is not needed since it is parsed but never used, or a stem of ignored
   characters) and the word is one capital letter (`C45_empty_negation`, `C45_ignore_negation`).
4. `suggest` panics with similarity if a prefix fits a suffixed form but not the stem: the prefix is
   applied to the stem (`C45_prefix_negation`, `C45_ngram_negation`). If it does not panic the form
   suggested need not be a word (`C40_ngram_negation`).
5. `suggest` recurses for ever if ICONV introduces a dash (`C45_iconv_negation`), and panics if ICONV makes the
   word longer than 65535 bytes (`C45_iconv_long_negation`).
6. `Dictionary::new` panics for an entry in capitals whose title-case twin exceeds 65535 bytes
   (`C36_panics`); never for lines of at most 21845 bytes (`C36_no_panic`).

**Wrong answers of `check`**

7. Under COMPLEXPREFIXES a word with two prefixes and a suffix is lost, because the continuation
   flags of the wrong table are consulted (`C32_negation`).
8. The condition of the middle one of three interleaved affixes is tested on the wrong text
   (`C33_negation`).
9. KEEPCASE is not respected for words with `ss` under CHECKSHARPS (`C24_negation`).
10. `remove_stem` leaves the hidden title-case twin (`C10_twin_left`); `add` does not make one
    (`C38_twin_missing`).
11. With repeated stems, the answer depends on the hasher (`C13_duplicates_negation`); COMPOUNDRULE
    tries only the first homonym (`C30_homonym_missed`) and accepts forbidden parts
    (`C31_forbidden_part_accepted`), hence removed stems (`C10_rule_left`).
12. CHECKCOMPOUNDDUP misses duplicates with COMPOUNDSYLLABLE (`C29_duplicate_with_syllables`);
    COMPOUNDWORDMAX is not kept with SIMPLIFIEDTRIPLE (`C47_word_max_triple`). At a boundary replaced by
    CHECKCOMPOUNDPATTERN, parts may be shorter than COMPOUNDMIN (`C27_pattern_short_part`), capitals are
    not noticed (`C29_case_replaced`), and COMPOUNDROOT is not counted (`C47_root_replaced`).
13. `num_syllable_modifier as usize` wraps for negative numbers (see `Model/Compound`).

**Suggestions**

14. The last word of a multi-word REP replacement is not looked up (`C40_rep_negation`); halves of a
    two-word suggestion may be forbidden (`C40_two_words_negation`).
15. NOSUGGEST is only honoured by similarity (`C46_negation`).
16. More than 16 earlier suggestions switch the limit MAXNGRAMSUGS off (`C44_negation`).
17. Duplicates are removed before OCONV, so OCONV can bring them back (`C39_oconv_negation`).
18. A doubled pair at the end of a word is not found (`C41_doubled_chars_negation`).
19. Suggestions by similarity depend on the hasher (`C13_ngram_negation`).

**Reading**

20. White space directly behind the slash of a `.dic` line is read in two ways
    (`C35_space_after_slash`). In a plain line with nothing but white space behind the slash the white space
    itself is read as flags (`C35_blank_flags`; only through `add`, lines of a text are trimmed).
21. Flags beyond ASCII collide under the default flag type (`C34_collision_beyond_ascii`); a user
    flag 65535 is the hidden mark, 65510 the default forbidden flag; numeric flags may have a plus sign.
22. Lines of ICONV/OCONV with the same text: which one wins is left to the unstable sort
    (`C20_conversion_unique` needs distinct texts).
23. The first reading found for what remains of a compound is final: if it may not follow the part before
    it (CHECKCOMPOUNDPATTERN, CHECKCOMPOUNDREP), other readings of the rest are not tried, and a valid
    compound is rejected (`C61_commits`).
24. Title case has no rule for a sigma at the end of a word (lower case has one): a Greek name listed in
    title case which ends in sigma is rejected in capitals (`C71_sigma_negation`).
25. Debug builds panic where release builds answer (C75): `StemBuf::concat` asserts that a stem has at most
    360 bytes, but undoing an affix that strips more than it adds lengthens a word of up to 359 bytes; and adding a
    negative `num_syllable_modifier as usize` overflows for every compound which reaches COMPOUNDWORDMAX in a
    dictionary like the Hungarian one.
26. `check_lower_as_title` can take accepted words away (C76): with the forbidden entry `Foo-bar`, `foo-bar` is
    accepted as two words by default and rejected with the setting; and in a dictionary with the entry `.`, the word
    `.` is accepted by default, while `check` panics with either setting.
27. Suggestions by similarity can take others away (C77): if a similar word contains a dash, the parts of a word
    with dashes are not corrected any more.
28. A wrong word can be its own only correction (C81). With the entry `iPhone`, `IPhone` is rejected and `suggest`
    gives `IPhone`: the correction `iPhone` gets the capital of the word and is not looked up again
    (`C81_pascal_negation`). With FORCEUCASE, a compound beginning with a digit is suggested for itself, since a digit
    has no capital (`C81_force_negation`). ICONV and OCONV can do the same (`C81_conversion_negation`).
29. `check` takes exponential time for some dictionaries and words: nothing is remembered between the searches for
    compounds, and there is no limit on their number. With the compound parts `aaa` and `aaaa`, a word of 359 bytes
    starts more than 2^89 searches (`C82_exponential`, `C82_rules_exponential`).
30. `add` of a word without flags can make another word wrong: with CHECKCOMPOUNDREP a compound is rejected as soon as a
    word which REP makes of it is listed (`C84_compound_negation`; so meant by CHECKCOMPOUNDREP). It can also take
    suggestions away (`C84_title_negation`, `C84_similar_negation`).
31. With COMPOUNDSYLLABLE the flags with the numbers of `c`, `I` and `J` count syllables, as in Hunspell for Hungarian, in
    every dictionary and with every FLAG type; they cannot be used for anything else (`C87_syllables_needed`).
32. `u16::from_ne_bytes` makes the meaning of a few odd files depend on the machine: a flag named as a number in front of a
    second FLAG line (`C88_order_needed`), and, with COMPOUNDSYLLABLE, the flags `c`, `I`, `J`, which a file with FLAG
    long can name on little-endian machines only, with a NUL (`C88_nul_needed`).
33. A rule which nothing refers to can make a word correct: with COMPLEXPREFIXES the search for two prefixes and a suffix
    asks the table of *suffixes* whether the continuation flag exists (item on C32), so an unused suffix which mentions
    the flag switches the search on (`C89_complex_needed`). Such rules also lower the number of edits `suggest` tries,
    once a dictionary has thousands of them (`C89_effort`).
34. An entry listed a hundred times drives other words out of the suggestions by similarity, since the search keeps the
    hundred most similar *entries* (`C90_similarity`). Adding an entry again can turn an answer if the stem is listed
    with other flags too, depending on the hasher (`C90_conflict_needed`, compare item 11).
35. `remove_stem` can make a wrong word correct: with compounds, when the removed part hid another way to take the word
    apart (`C91_compounds`); and if FORBIDDENWORD and NEEDAFFIX name the same flag, when the entry is then passed over
    instead of forbidden (`C91_flag_needed`). No warning is given for a flag with two uses.
36. FULLSTRIP, COMPOUNDMORESUFFIXES, MAXCPDSUGS, SUBSTANDARD and SUGSWITHDOTS are parsed and stored, and nothing reads
    them (`C94_idle`, `C94_idle_text`).
37. If a text can be derived from a good entry and from a forbidden one by suffixes with the same text, the order of the two
    rules in the affix file decides whether it is correct (`C97_marks_negation`).
38. Two rows of CHECKCOMPOUNDPATTERN with the same replacement: the first which gives a known part decides, so that their
    order decides whether a compound is correct (`C98_pattern_negation`); the same holds of two ICONV rows for the same
    characters (`C98_iconv_negation`).

## Wrong programs

`seeded/LOG.jsonl` lists the wrong programs which were tried: one edited definition each, in a scratch
copy. Where all theorems still held, a theorem was added or tightened (field `tightened`).
