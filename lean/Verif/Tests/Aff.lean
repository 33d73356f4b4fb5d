import Verif.Tests.Common
/-!
# The unit tests of `src/aff.rs` (1482–1814) and `src/aff/parser.rs` (1775–2182)
-/

namespace Spellbook.Tests

/-- The condition parses, matches all texts of `good` and none of `bad`. -/
def condition (c : String) (good bad : List String) : Bool :=
  match Condition.parse c.toList with
  | .ok c => (good.all fun s => c.matches' s.toList) && bad.all fun s => !c.matches' s.toList
  | .error _ => false

/-- `condition_matches`. -/
example : condition "foo" ["foo"] ["fo"] ∧ condition "xx[abc]x" ["xxax", "xxbx", "xxcx"] ["xxdx"] ∧
    condition "xx[^abc]x" ["xxdx"] ["xxax", "xxbx", "xxcx"] := by decide +kernel

/-- `condition_nuspell_unit_test`. -/
example :
    condition "abcd" ["abcd", "abcdXYZ", "abcdБВГДШꯍ"] ["", "abc", "abcX", "XYZ", "АаБбВвГгШшꯍ"] ∧
    condition "[vbn]" ["v", "vAAш", "b", "bBBш", "n", "nCCш"] ["", "Q", "Qqqq", "1342234", "V", "бвгдш"] ∧
    condition "[бшሴ]" ["б", "бeT", "ш", "шок", "ሴкош"] ["", "Q", "Qqqq", "пан", "ꯍሴ", "вбгдш"] ∧
    condition "[^zшሴ⍅]" ["q", "r", "�", "qљње", "фabc", "� ytyty"]
      ["z", "ш", "ሴ", "⍅", "zљње", "шabc", "ሴ ytyty", "⍅ tytyty"] ∧
    condition "abc АБВ..[zбшሴ][^zшሴ⍅]X" ["abc АБВ ⍅zᄑX", "abc АБВ⍅ шᄒXопop"]
      ["abc ШШШ ⍅zᄑX", "abc АБВ⍅ tᄒXопop", "abc АБВ ⍅zሴX"] := by decide +kernel

/-- `break_table_nuspell_unit_test`. -/
example : ((BreakTable.new (["bsd", "zxc", "asd", "^bar", "^zoo", "^abc", "car$", "yoyo$", "air$"].map
    String.toList)).map fun t => (t.startBreaks.map String.ofList, t.middleBreaks.map String.ofList,
      t.endBreaks.map String.ofList)) =
    some (["bar", "zoo", "abc"], ["bsd", "zxc", "asd"], ["car", "yoyo", "air"]) := by decide +kernel

/-- An affix, or none if the condition is malformed. -/
def affix? (flag : Char) (cross : Bool) (strip : Option String) (add : String) (cond : Option String) :
    Option Affix :=
  (Affix.new flag.toNat cross (strip.map String.toList) add.toList (cond.map String.toList) .empty).toOption

/-- `prefix_suffix_nuspell_unit_test`. -/
example : ((affix? 'F' false (some "qw") "Qwe" none).any fun a =>
      a.toDerived .pfx "qwrty".toList == some "Qwerty".toList && a.toStem .pfx "Qwerty".toList == "qwrty".toList) ∧
    ((affix? 'F' false (some "ie") "ying" none).any fun a =>
      a.toDerived .sfx "pie".toList == some "pying".toList && a.toStem .sfx "pying".toList == "pie".toList) := by
  decide +kernel

/-- The additions of the affixes found for a word. -/
def additions (k : Kind) (adds : List String) (word : String) : Option (List String) :=
  let l := adds.filterMap fun a => affix? 'A' true none a none
  (AffixIndex.affixesOf? (k := k) ⟨sortAffixes k l, sortAffixes_sorted k l⟩ word.toList).map
    (·.map fun a => String.ofList a.add)

/-- `empty_affix_index` and the two `affix_index_…_multiset_nuspell_unit_test`s. -/
example : additions .pfx [] "anything" = some [] ∧ additions .sfx [] "anything" = some [] ∧
    additions .pfx ["", "a", "", "ab", "abx", "as", "asdf", "axx", "as", "bqwe", "ba", "rqwe"] "asdfg" =
      some ["", "", "a", "as", "as", "asdf"] ∧
    additions .sfx ["", "", "a", "b", "b", "ab", "ub", "zb", "aub", "uub", "xub", "huub"] "ahahuub" =
      some ["", "", "b", "b", "ub", "uub", "huub"] := by decide +kernel

/-- `affix_index_en_us_suffix_example`. -/
example : ((do
    let s1 ← affix? 'D' true none "d" (some "e")
    let s2 ← affix? 'D' true (some "y") "ied" (some "[^aeiou]y")
    let s3 ← affix? 'D' true none "ed" (some "[^ey]")
    let s4 ← affix? 'D' true none "ed" (some "[aeiou]y")
    let l := [s1, s2, s3, s4]
    let found ← AffixIndex.affixesOf? (k := .sfx) ⟨sortAffixes .sfx l, sortAffixes_sorted .sfx l⟩ "aced".toList
    pure (found == [s1, s3, s4] && s1.toStem .sfx "aced".toList == "ace".toList &&
      s1.conditionMatches .sfx "ace".toList && s3.toStem .sfx "aced".toList == "ac".toList &&
      s3.conditionMatches .sfx "ac".toList && s4.toStem .sfx "aced".toList == "ac".toList &&
      !s4.conditionMatches .sfx "ac".toList)) : Option Bool) = some true := by decide +kernel

/-- The rule parses, matches all texts of `good` and none of `bad`; a character stands for its flag. -/
def rule (r : String) (good bad : List String) : Bool :=
  let data (s : String) : List FlagSet := s.toList.map fun c => .ofList [c.toNat]
  match parseCompoundRule r.toList .short with
  | .ok r => (good.all fun s => compoundRuleMatches r (data s)) && bad.all fun s => !compoundRuleMatches r (data s)
  | .error _ => false

/-- The four tests of `compound_rule_matches`. -/
example : rule "abc" ["abc"] ["ac", "abcd"] ∧
    rule "ab?c" ["ac", "abc"] ["ab", "bc", "abb", "abbc"] ∧
    rule "ab*c" ["ac", "abc", "abbc", "abbbc"] ["ab", "abb", "abbcc"] ∧
    rule "abc?de*ff" ["abdff", "abcdff", "abdeeff", "abcdeff"] ["abcdeeeefff", "qwerty"] := by decide +kernel

/-- `casing_conversions_nuspell_unit_test`. -/
example : CaseHandling.lowercase latin .standard "grüßEN".toList = "grüßen".toList ∧
    CaseHandling.uppercase latin .standard "grüßEN".toList = "GRÜSSEN".toList ∧
    CaseHandling.titlecase latin .standard "grüßEN".toList = some "Grüßen".toList ∧
    CaseHandling.lowercase latin .standard "isTAnbulI".toList = "istanbuli".toList ∧
    CaseHandling.uppercase latin .standard "isTAnbulI".toList = "ISTANBULI".toList ∧
    CaseHandling.titlecase latin .standard "isTAnbulI".toList = some "Istanbuli".toList ∧
    CaseHandling.lowercase latin .turkic "isTAnbulI".toList = "istanbulı".toList ∧
    CaseHandling.uppercase latin .turkic "isTAnbulI".toList = "İSTANBULI".toList ∧
    CaseHandling.titlecase latin .turkic "isTAnbulI".toList = some "İstanbulı".toList := by decide +kernel

/-! ## `src/aff/parser.rs` -/

/-- `naive_word_flagset_split_test`. -/
example : splitWordAndFlags "word/flags".toList = ("word".toList, "flags".toList) ∧
    splitWordAndFlags "word".toList = ("word".toList, []) ∧ splitWordAndFlags [] = ([], []) := by decide +kernel

/-- `parse_flagset_test`. -/
example : parseFlag? .short "a".toList = some (.ok 97) ∧ parseFlag? .short "À".toList = some (.ok 195) ∧
    parseFlag? .short "À".toList = parseFlag? .short "Ã".toList ∧ parseFlag? .numeric "1".toList = some (.ok 1) ∧
    parseFlag? .utf8 "🔭".toList = parseFlag? .utf8 "🔮".toList ∧
    ((parseFlag? .utf8 "🔭".toList).any fun r => r matches .ok _) ∧
    parseFlags .numeric "1".toList = .ok (.ofList [1]) ∧
    parseFlags .numeric "1001,2002".toList = .ok (.ofList [1001, 2002]) ∧
    parseFlags .numeric "214,216,54321".toList = .ok (.ofList [214, 216, 54321]) ∧
    parseFlags .numeric "123,,789".toList = .error .duplicateComma := by decide +kernel

/-- `decode_flagset_test`. -/
example :
    let aliases := [FlagSet.ofList [1], .ofList [2], .ofList [3, 4]]
    decodeFlagset "1".toList .short aliases = .ok (.ofList [1]) ∧
    decodeFlagset "2".toList .short aliases = .ok (.ofList [2]) ∧
    decodeFlagset "3".toList .short aliases = .ok (.ofList [3, 4]) ∧
    decodeFlagset "a".toList .short aliases = .ok (.ofList [97]) ∧
    decodeFlagset "1".toList .numeric aliases = .ok (.ofList [1]) ∧
    decodeFlagset "1".toList .short [] = .ok (.ofList [49]) := by decide +kernel

/-- `parse_condition_test`. -/
example : Condition.parse "[]".toList = .error .emptyCharacterClass ∧
    Condition.parse "[foo".toList = .error .unclosedCharacterClass ∧
    Condition.parse "foo]".toList = .error .unopenedCharacterClass ∧
    Condition.parse "foo".toList = .ok ⟨"foo".toList, 3, true⟩ ∧
    Condition.parse "foo[bar]".toList = .ok ⟨"foo[bar]".toList, 4, false⟩ ∧
    Condition.parse "[foo]bar".toList = .ok ⟨"[foo]bar".toList, 4, false⟩ ∧
    Condition.parse "foo[bar]baz".toList = .ok ⟨"foo[bar]baz".toList, 7, false⟩ := by decide +kernel

/-- `parse_compound_rule_test`. -/
example :
    parseCompoundRule "ab?c*d".toList .short =
      .ok [⟨97, none⟩, ⟨98, some .zeroOrOne⟩, ⟨99, some .zeroOrMore⟩, ⟨100, none⟩] ∧
    parseCompoundRule "#*0{".toList .utf8 = .ok [⟨35, some .zeroOrMore⟩, ⟨48, none⟩, ⟨123, none⟩] ∧
    parseCompoundRule "(5)(6)*(11)?(99)".toList .numeric =
      .ok [⟨5, none⟩, ⟨6, some .zeroOrMore⟩, ⟨11, some .zeroOrOne⟩, ⟨99, none⟩] ∧
    parseCompoundRule "(L')(D')*(H')?(BC)".toList (.long .little) =
      .ok [⟨10060, none⟩, ⟨10052, some .zeroOrMore⟩, ⟨10056, some .zeroOrOne⟩, ⟨17218, none⟩] ∧
    parseCompoundRule "*".toList .short = .error .invalidFormat ∧
    parseCompoundRule "?".toList .short = .error .invalidFormat := by decide +kernel

/-- `basic_prefix_test`. -/
example : ((load "\n        PFX A Y 2\n        PFX A 0 re [^e]\n        PFX A 0 re- e\n        " "0").map fun C =>
    C.dict.aff.prefixes.table.map some) =
    some [affix? 'A' true none "re" (some "[^e]"), affix? 'A' true none "re-" (some "e")] := by decide +kernel

/-- `parse_dic_line`, with the default flags. -/
def dicLine (s : String) : Option (String × FlagSet) :=
  match parseDicLine latin s.toList .short [] [] with
  | .ok (w, f) => some (String.ofList w, f)
  | .error _ => none

/-- The flags with these characters. -/
def chars (s : String) : FlagSet := .ofList (s.toList.map Char.toNat)

/-- `parse_dic_line_test`. -/
example : dicLine "stem" = some ("stem", chars "") ∧ dicLine "stem/" = some ("stem", chars "") ∧
    dicLine "fox-bax/!" = some ("fox-bax", chars "!") ∧ dicLine "stem/FLAGS" = some ("stem", chars "FLAGS") ∧
    dicLine "Oost\\/Watergraafsmeer" = some ("Oost/Watergraafsmeer", chars "") ∧
    dicLine "Håkon/J\\" = some ("Håkon", chars "J\\") ∧ dicLine "devon kor" = some ("devon kor", chars "") ∧
    dicLine "activewear/M\tNoun: uncountable" = some ("activewear", chars "M") ∧
    dicLine "Aguileño po:nome is:ngrama_Movimiento_Aguileño_Socialdemócrata" = some ("Aguileño", chars "") ∧
    dicLine "devon  kor/A" = some ("devon  kor", chars "A") ∧
    dicLine "activewear/M po: nome" = some ("activewear", chars "M") ∧
    dicLine "activewear\tpo:name" = some ("activewear", chars "") := by decide +kernel

/-- `basic_flag_parsing`. -/
example : ((load ("FORBIDDENWORD a\nCIRCUMFIX b\nKEEPCASE c\nNEEDAFFIX d\nNOSUGGEST e\nSUBSTANDARD f\nWARN g\n" ++
    "COMPOUNDFLAG h\nCOMPOUNDBEGIN i\nCOMPOUNDMIDDLE j\nCOMPOUNDEND k\nONLYINCOMPOUND l\nCOMPOUNDPERMITFLAG m\n" ++
    "COMPOUNDFORBIDFLAG n\nCOMPOUNDROOT o\nFORCEUCASE p\n") "0").map fun C => C.opts) =
    some { forbiddenWordFlag := 97, circumfixFlag := some 98, keepCaseFlag := some 99, needAffixFlag := some 100,
           noSuggestFlag := some 101, substandardFlag := some 102, warnFlag := some 103, compoundFlag := some 104,
           compoundBeginFlag := some 105, compoundMiddleFlag := some 106, compoundEndFlag := some 107,
           onlyInCompoundFlag := some 108, compoundPermitFlag := some 109, compoundForbidFlag := some 110,
           compoundRootFlag := some 111, compoundForceUppercaseFlag := some 112 } := by decide +kernel

/-- `break_pattern_parsing`. -/
example : ((load "" "0").map fun C => C.aff.breakTable.table.length) = some 3 ∧
    ((load "BREAK 0" "0").map fun C => C.aff.breakTable.table.length) = some 0 := by decide +kernel

/-- `similarity_group_parsing`. -/
example : SimilarityGroup.ofText "uúü".toList = ⟨"uúü".toList, []⟩ ∧
    SimilarityGroup.ofText "ß(ss)".toList = ⟨['ß'], ["ss".toList]⟩ ∧
    SimilarityGroup.ofText "(o)(ö)".toList = ⟨"oö".toList, []⟩ := by decide +kernel

end Spellbook.Tests
