import Verif.Model.DicLine
import Verif.Model.RuleText
import Verif.Model.Simple
/-!
# Parsing the `.aff` and `.dic` files

Models `src/aff/parser.rs` 34–682, 723–1050: `AffLineParser`, `AFF_PARSERS`, `parse`, the directive
parsers and `Lines`, with the errors of 1521–1636.

A parser function of the code takes the scratch pad (`&mut AffLineParser`) and the line reader
(`&mut Lines`); here it takes the scratch pad and returns the new one in `P`, a state monad over the
line reader with errors. Error values which carry a text or an error of another type keep it.
-/

namespace Spellbook

/-- `enum ParseDictionaryErrorSource` (`src/aff/parser.rs` 1542–1546). -/
inductive Source
  | dic | aff
deriving DecidableEq, Repr

/-- `enum ParseDictionaryErrorKind` (`src/aff/parser.rs` 1558–1571). -/
inductive ErrorKind
  | unknownFlagType (s : Str) | malformedFlag (e : FlagError) | malformedNumber (e : IntError)
  | mismatchedArity (expected actual : Nat) | mismatchedRowCount (expected actual : Nat)
  | malformedCompoundRule (e : RuleError) | malformedAffix | malformedCondition (e : ConditionError)
  | wordTooLong
deriving DecidableEq, Repr

/-- `struct ParseDictionaryError` (`src/aff/parser.rs` 1522–1526). -/
structure ParseError where
  kind : ErrorKind
  source : Source
  lineNumber : Option Nat
deriving DecidableEq, Repr

/-- How parsing can stop early: with an error, with a panic, or (never, see `Props.C36_not_endless`) for lack
of fuel in the model. Part of the model only, for `src/aff/parser.rs` 153–245. -/
inductive Halt
  | error (e : ParseError) | panic | fuel
deriving DecidableEq, Repr

/-! ## Lines -/

/-- `str::lines`, as a pair of the current piece and the remaining text.
Standard library, used at `src/aff/parser.rs` 741. -/
def linesLoop : Str → Str → List Str
  | cur, [] => if cur.isEmpty then [] else [cur]
  | cur, c :: rest =>
    if c = '\n' then ((stripSuffix? cur ['\r']).getD cur) :: linesLoop [] rest
    else linesLoop (cur ++ [c]) rest

/-- `str::lines`: the pieces ended by a line feed, which is removed together with a carriage return
before it, and the text behind the last line feed unless it is empty.
Standard library, used at `src/aff/parser.rs` 741. -/
def textLines (s : Str) : List Str := linesLoop [] s

/-- `str::trim_start`. Standard library, used at `src/aff/parser.rs` 743, 763. -/
def trimStart (U : Unicode) (s : Str) : Str := s.dropWhile U.isWs

/-- `str::trim`. Standard library, used at `src/aff/parser.rs` 184. -/
def trim (U : Unicode) (s : Str) : Str := ((trimStart U s).reverse.dropWhile U.isWs).reverse

/-- `line.trim_start().starts_with('#')`. `src/aff/parser.rs` 743, 763. -/
def isComment (U : Unicode) (line : Str) : Bool := (trimStart U line).head? == some '#'

/-- `struct Lines` (`src/aff/parser.rs` 730–735): the remaining numbered lines (the head is what `peek` sees), the
remaining words of the current line, and the name of the file. -/
structure Lines where
  lines : List (Nat × Str)
  words : Option (List Str)
  source : Source

namespace Lines

/-- The `while lines.next_if(comment)` loops (`src/aff/parser.rs` 742–745, 761–764) and the words of the line then
seen. -/
def settle (U : Unicode) (lines : List (Nat × Str)) (source : Source) : Lines :=
  let lines := lines.dropWhile fun l => isComment U l.2
  { lines, words := lines.head?.map fun l => splitWhitespace U l.2, source }

/-- `.enumerate()`. Standard library, used at `src/aff/parser.rs` 741. -/
def enumerate {α : Type} (start : Nat) : List α → List (Nat × α)
  | [] => []
  | a :: as => (start, a) :: enumerate (start + 1) as

/-- `Lines::new` (`src/aff/parser.rs` 738–753). -/
def new (U : Unicode) (text : Str) (source : Source) : Lines :=
  let text := (stripPrefix? text [Char.ofNat 0xFEFF]).getD text
  settle U (enumerate 0 (textLines text)) source

/-- `Lines::is_finished` (`src/aff/parser.rs` 755–757). -/
def isFinished (s : Lines) : Bool := s.lines.isEmpty

/-- `Lines::advance_line` (`src/aff/parser.rs` 759–770). -/
def advance (U : Unicode) (s : Lines) : Lines := settle U s.lines.tail s.source

/-- `Lines::line` (`src/aff/parser.rs` 772–774). -/
def line (s : Lines) : Option Str := s.lines.head?.map (·.2)

/-- `Lines::error` (`src/aff/parser.rs` 1039–1049). -/
def error (s : Lines) (kind : ErrorKind) : ParseError :=
  { kind, source := s.source, lineNumber := s.lines.head?.map (·.1 + 1) }

/-- `Lines::next_word` (`src/aff/parser.rs` 776–781). -/
def nextWord (s : Lines) : Option Str × Lines :=
  match s.words with
  | some (w :: ws) => (some w, { s with words := some ws })
  | _ => (none, { s with words := none })

end Lines

/-- A parser step: `&mut Lines` and `Result`. Part of the model only, for `src/aff/parser.rs` 247–1037. -/
abbrev P (α : Type) := StateT Lines (Except Halt) α

namespace P

/-- `return Err(lines.error(kind))`. Used for `src/aff/parser.rs` 1039–1049. -/
def fail {α : Type} (kind : ErrorKind) : P α := fun s => .error (.error (s.error kind))

/-- A panic. Part of the model only, for `src/aff/parser.rs` 1069. -/
def panic {α : Type} : P α := fun _ => .error .panic

/-- Lack of fuel. Part of the model only, for `src/aff/parser.rs` 165–214. -/
def noFuel {α : Type} : P α := fun _ => .error .fuel

/-- `.map_err(|err| lines.error(kind(err)))?`. `src/aff/parser.rs` 178, 202, 252 and others. -/
def lift {ε α : Type} (kind : ε → ErrorKind) (x : Except ε α) : P α :=
  match x with
  | .ok a => pure a
  | .error e => fail (kind e)

/-- `lines.words.take()`. `src/aff/parser.rs` 527, 624, 777 and others. -/
def takeWords : P (Option (List Str)) := fun s => .ok (s.words, { s with words := none })

/-- `lines.next_word()`. `src/aff/parser.rs` 776–781 as a parser step. -/
def nextWord : P (Option Str) := fun s => .ok s.nextWord

/-- `lines.advance_line()`. `src/aff/parser.rs` 759–770 as a parser step. -/
def advance (U : Unicode) : P Unit := fun s => .ok ((), s.advance U)

/-- `lines.is_finished()`. `src/aff/parser.rs` 755–757 as a parser step. -/
def isFinished : P Bool := fun s => .ok (s.isFinished, s)

/-- `Lines::take_exactly_one_word` (`src/aff/parser.rs` 783–798). -/
def takeOneWord : P Str := fun s =>
  match s.words with
  | some (w :: ws) => .ok (w, { s with words := some ws })
  | _ => .error (.error (s.error (.mismatchedArity 1 0)))

/-- `parse_flag_from_str` with its errors located, and its panic. `src/aff/parser.rs` 656–663, 800–804, 945–947. -/
def flagOf (ty : FlagType) (s : Str) : P Nat :=
  match parseFlag? ty s with
  | none => panic
  | some r => lift .malformedFlag r

/-- `Lines::parse_flag` (`src/aff/parser.rs` 800–804). -/
def flag (ty : FlagType) : P Nat := do flagOf ty (← takeOneWord)

/-- `Lines::parse_bool` (`src/aff/parser.rs` 806–808). -/
def bool : P Bool := pure true

/-- `take_exactly_one_word()?.parse::<usize>()` with its error (`src/aff/parser.rs` 820–823, 865–868, 610–613). -/
def count : P Nat := do lift .malformedNumber (parseUInt usizeMax (← takeOneWord))

/-- `Lines::parse_short` (`src/aff/parser.rs` 810–814). -/
def short : P Nat := do lift .malformedNumber (parseUInt u16Max (← takeOneWord))

/-- The head of each row of a table (`src/aff/parser.rs` 826–832, 870–876, 615–622, 977–983): the next line must start
with the key. Returns the remaining words of the line (`self.words.take()`), which exist because
`next_word` has found the key; the numbers in the error of the unreachable case differ between the
four copies in the code. -/
def row (U : Unicode) (key : Str) (expected row : Nat) : P (List Str) := do
  advance U
  if ← isFinished then fail (.mismatchedRowCount expected row)
  let w ← nextWord
  if w ≠ some key then fail (.mismatchedRowCount expected row)
  match ← takeWords with
  | some words => pure words
  | none => fail (.mismatchedArity 1 0)

/-- The `for row in 1..=row_count` loop: `n` rows remain, `i` is the number of the next one. `f`
parses the words behind the key. `src/aff/parser.rs` 615, 825, 869, 973. -/
def rows {σ : Type} (U : Unicode) (key : Str) (expected : Nat) (f : σ → List Str → P σ) :
    Nat → Nat → σ → P σ
  | 0, _, cx => pure cx
  | n + 1, i, cx => do
    let words ← row U key expected i
    let cx ← f cx words
    rows U key expected f n (i + 1) cx

/-- `Lines::parse_table1` (`src/aff/parser.rs` 816–858). -/
def table1 {σ : Type} (U : Unicode) (key : Str) (f : σ → Str → Except ErrorKind σ) (cx : σ) :
    P σ := do
  let n ← count
  rows U key n (fun cx words =>
    match words with
    | word :: _ => lift id (f cx word)
    | [] => fail (.mismatchedArity 1 0)) n 1 cx

/-- `Lines::parse_table2` (`src/aff/parser.rs` 860–911). -/
def table2 {σ : Type} (U : Unicode) (key : Str) (f : σ → Str → Str → Except ErrorKind σ) (cx : σ) :
    P σ := do
  let n ← count
  rows U key n (fun cx words =>
    match words with
    | word1 :: word2 :: _ => lift id (f cx word1 word2)
    | [_] => fail (.mismatchedArity 2 1)
    | [] => fail (.mismatchedArity 2 0)) n 1 cx

/-- One row of an affix table (`src/aff/parser.rs` 985–1033): the words behind the key. -/
def affixRow {σ : Type} (flagStr : Str)
    (f : σ → Option Str → Str → Option Str → Str → Except ErrorKind σ) (cx : σ) (words : List Str) :
    P σ :=
  if words.head? ≠ some flagStr then fail .malformedAffix
  else
    match words.tail with
    | [] => fail (.mismatchedArity 3 1)
    | [_] => fail (.mismatchedArity 3 2)
    | strip :: add :: more =>
      let strip := if strip = ['0'] then none else some strip
      let (add, flagset) := splitWordAndFlags add
      let add := if add = ['0'] then [] else add
      let condition := more.head?.filter fun c => c ≠ ['.']
      lift id (f cx strip add condition flagset)

/-- `Lines::parse_affix_table` (`src/aff/parser.rs` 913–1037). `f` gets the flag and the cross product mark of the
header and the columns of a row. -/
def affixTable {σ : Type} (U : Unicode) (key : Str) (ty : FlagType)
    (f : Nat → Bool → σ → Option Str → Str → Option Str → Str → Except ErrorKind σ) (cx : σ) :
    P σ := do
  match ← takeWords with
  | none => fail (.mismatchedArity 3 0)
  | some [] => fail (.mismatchedArity 3 0)
  | some (flagStr :: words) =>
    let flag ← flagOf ty flagStr
    match words with
    | [] => fail (.mismatchedArity 3 1)
    | cross :: words =>
      if cross ≠ ['Y'] ∧ cross ≠ ['N'] then fail .malformedAffix
      match words with
      | [] => fail (.mismatchedArity 3 2)
      | cnt :: _ =>
        let n ← lift .malformedNumber (parseUInt usizeMax cnt)
        rows U key n (affixRow flagStr (f flag (cross = ['Y']))) n 1 cx

end P

/-! ## The scratch pad and the directives -/

/-- `struct AffLineParser` with its `Default` (`src/aff/parser.rs` 40–86). -/
structure Cx where
  options : AffOptions := {}
  flagType : FlagType := .short
  flagAliases : List FlagSet := []
  replacements : List (Str × Str) := []
  similarities : List SimilarityGroup := []
  inputConversions : List (Str × Str) := []
  outputConversions : List (Str × Str) := []
  breakPatterns : List Str := [['^', '-'], ['-'], ['-', '$']]
  compoundSyllableVowels : Str := []
  ignoreChars : List Char := []
  tryChars : Str := []
  keyboardCloseness : Str := []
  prefixes : List Affix := []
  suffixes : List Affix := []
  compoundRules : List CompoundRule := []
  compoundPatterns : List CompoundPattern := []

/-- `type Parser` (`src/aff/parser.rs` 88). -/
abbrev Directive := Unicode → Cx → P Cx

/-- A directive which sets a flag: `parse_forbidden_word_flag` … `parse_compound_force_uppercase_flag`
(`src/aff/parser.rs` 255–349). -/
def flagDirective (set : AffOptions → Nat → AffOptions) : Directive := fun _ cx => do
  let f ← P.flag cx.flagType
  pure { cx with options := set cx.options f }

/-- A directive which sets a switch: `parse_complex_prefixes` … `parse_suggest_with_dots`
(`src/aff/parser.rs` 351–421). -/
def boolDirective (set : AffOptions → Bool → AffOptions) : Directive := fun _ cx => do
  let b ← P.bool
  pure { cx with options := set cx.options b }

/-- A directive which sets a small number: `parse_compound_min_length` … `parse_max_diff_factor`
(`src/aff/parser.rs` 423–451). -/
def shortDirective (set : AffOptions → Nat → AffOptions) : Directive := fun _ cx => do
  let n ← P.short
  pure { cx with options := set cx.options n }

/-- `NonZeroU16::new`. Standard library, used at `src/aff/parser.rs` 426, 432, 558. -/
def nonZero (n : Nat) : Option Nat := if n = 0 then none else some n

/-- `parse_flag_type` (`src/aff/parser.rs` 247–253) with `impl FromStr for FlagType` (1625–1636). -/
def flagTypeDirective : Directive := fun U cx => do
  let word ← P.takeOneWord
  if word = "long".toList then pure { cx with flagType := .long U.byteOrder }
  else if word = "num".toList then pure { cx with flagType := .numeric }
  else if word = "UTF-8".toList then pure { cx with flagType := .utf8 }
  else P.fail (.unknownFlagType word)

/-- A directive which takes one word: `parse_ignore_chars`, `parse_keyboard_closeness`,
`parse_try_chars`, `parse_language` (`src/aff/parser.rs` 453–479). -/
def wordDirective (set : Cx → Str → Cx) : Directive := fun _ cx => do
  let w ← P.takeOneWord
  pure (set cx w)

/-- The languages with Turkic case rules (`src/aff/parser.rs` 473). -/
def isTurkic (lang : Str) : Bool :=
  lang = "tr".toList || lang = "tr_TR".toList || lang = "az".toList || lang = "crh".toList

/-- `parse_break_patterns` (`src/aff/parser.rs` 507–519). -/
def breakDirective : Directive := fun U cx =>
  P.table1 U "BREAK".toList (fun (cx : Cx) s => .ok { cx with breakPatterns := cx.breakPatterns ++ [s] })
    { cx with breakPatterns := [] }

/-- `parse_compound_syllable` (`src/aff/parser.rs` 521–563). -/
def syllableDirective : Directive := fun _ cx => do
  match ← P.takeWords with
  | none => P.fail (.mismatchedArity 2 0)
  | some [] => P.fail (.mismatchedArity 2 0)
  | some [_] => P.fail (.mismatchedArity 2 1)
  | some (max :: vowels :: _) =>
    let n ← P.lift .malformedNumber (parseUInt u16Max max)
    pure { cx with options.compoundSyllableMax := nonZero n, compoundSyllableVowels := vowels }

/-- `parse_flag_aliases` (`src/aff/parser.rs` 565–571). -/
def aliasDirective : Directive := fun U cx =>
  P.table1 U "AF".toList (fun (cx : Cx) alias =>
    match parseFlags cx.flagType alias with
    | .ok flagset => .ok { cx with flagAliases := cx.flagAliases ++ [flagset] }
    | .error e => .error (.malformedFlag e)) cx

/-- The closure of `parse_prefix_table` and `parse_suffix_table` (`src/aff/parser.rs` 573–597): decode the continuation
flags, then build the affix. -/
def makeAffix (ty : FlagType) (aliases : List FlagSet) (flag : Nat) (cross : Bool)
    (strip : Option Str) (add : Str) (condition : Option Str) (flagset : Str) :
    Except ErrorKind Affix :=
  match decodeFlagset flagset ty aliases with
  | .error e => .error (.malformedFlag e)
  | .ok flags =>
    match Affix.new flag cross strip add condition flags with
    | .error e => .error (.malformedCondition e)
    | .ok a => .ok a

/-- `parse_prefix_table` (`src/aff/parser.rs` 573–584). -/
def prefixDirective : Directive := fun U cx =>
  P.affixTable U "PFX".toList cx.flagType (fun flag cross (cx : Cx) strip add condition flagset =>
    match makeAffix cx.flagType cx.flagAliases flag cross strip add condition flagset with
    | .ok a => .ok { cx with prefixes := cx.prefixes ++ [a] }
    | .error e => .error e) cx

/-- `parse_suffix_table` (`src/aff/parser.rs` 586–597). -/
def suffixDirective : Directive := fun U cx =>
  P.affixTable U "SFX".toList cx.flagType (fun flag cross (cx : Cx) strip add condition flagset =>
    match makeAffix cx.flagType cx.flagAliases flag cross strip add condition flagset with
    | .ok a => .ok { cx with suffixes := cx.suffixes ++ [a] }
    | .error e => .error e) cx

/-- `parse_compound_rule_table` (`src/aff/parser.rs` 599–605). -/
def ruleDirective : Directive := fun U cx =>
  P.table1 U "COMPOUNDRULE".toList (fun (cx : Cx) word =>
    match parseCompoundRule word cx.flagType with
    | .ok rule => .ok { cx with compoundRules := cx.compoundRules ++ [rule] }
    | .error e => .error (.malformedCompoundRule e)) cx

/-- `(!flag.is_empty()).then(|| parse_flag_from_str(..)).transpose()` (`src/aff/parser.rs` 656–663). -/
def optFlag (ty : FlagType) (s : Str) : P (Option Nat) :=
  if s.isEmpty then pure none
  else do
    let f ← P.flagOf ty s
    pure (some f)

/-- One row of `parse_compound_pattern_table` (`src/aff/parser.rs` 624–678). -/
def patternRow (cx : Cx) (words : List Str) : P Cx :=
  match words with
  | [] => P.fail (.mismatchedArity 2 0)
  | [_] => P.fail (.mismatchedArity 2 1)
  | a :: b :: more => do
    let (firstWordEnd, flag1) := splitWordAndFlags a
    let (secondWordBegin, flag2) := splitWordAndFlags b
    let firstWordFlag ← optFlag cx.flagType flag1
    let secondWordFlag ← optFlag cx.flagType flag2
    let unaffixed : Bool := firstWordEnd = ['0']
    let firstWordEnd := if unaffixed then [] else firstWordEnd
    let pattern : CompoundPattern :=
      { first := firstWordEnd, second := secondWordBegin, replacement := more.head?
        firstWordFlag, secondWordFlag, matchFirstOnlyUnaffixed := unaffixed }
    pure { cx with compoundPatterns := cx.compoundPatterns ++ [pattern] }

/-- `parse_compound_pattern_table` (`src/aff/parser.rs` 607–682). -/
def patternDirective : Directive := fun U cx => do
  let n ← P.count
  P.rows U "CHECKCOMPOUNDPATTERN".toList n patternRow n 1 cx

/-- `AFF_PARSERS` (`src/aff/parser.rs` 91–150) with the field each of the small parsers sets. -/
def affParsers : List (Str × Directive) := [
  ("FLAG".toList, flagTypeDirective),
  ("FORBIDDENWORD".toList, flagDirective fun o f => { o with forbiddenWordFlag := f }),
  ("CIRCUMFIX".toList, flagDirective fun o f => { o with circumfixFlag := some f }),
  ("KEEPCASE".toList, flagDirective fun o f => { o with keepCaseFlag := some f }),
  ("NEEDAFFIX".toList, flagDirective fun o f => { o with needAffixFlag := some f }),
  ("NOSUGGEST".toList, flagDirective fun o f => { o with noSuggestFlag := some f }),
  ("SUBSTANDARD".toList, flagDirective fun o f => { o with substandardFlag := some f }),
  ("WARN".toList, flagDirective fun o f => { o with warnFlag := some f }),
  ("COMPOUNDFLAG".toList, flagDirective fun o f => { o with compoundFlag := some f }),
  ("COMPOUNDBEGIN".toList, flagDirective fun o f => { o with compoundBeginFlag := some f }),
  ("COMPOUNDMIDDLE".toList, flagDirective fun o f => { o with compoundMiddleFlag := some f }),
  ("COMPOUNDEND".toList, flagDirective fun o f => { o with compoundEndFlag := some f }),
  ("ONLYINCOMPOUND".toList, flagDirective fun o f => { o with onlyInCompoundFlag := some f }),
  ("COMPOUNDPERMITFLAG".toList, flagDirective fun o f => { o with compoundPermitFlag := some f }),
  ("COMPOUNDFORBIDFLAG".toList, flagDirective fun o f => { o with compoundForbidFlag := some f }),
  ("COMPOUNDROOT".toList, flagDirective fun o f => { o with compoundRootFlag := some f }),
  ("FORCEUCASE".toList, flagDirective fun o f => { o with compoundForceUppercaseFlag := some f }),
  ("COMPLEXPREFIXES".toList, boolDirective fun o b => { o with complexPrefixes := b }),
  ("FULLSTRIP".toList, boolDirective fun o b => { o with fullstrip := b }),
  ("CHECKSHARPS".toList, boolDirective fun o b => { o with checksharps := b }),
  ("FORBIDWARN".toList, boolDirective fun o b => { o with forbidWarn := b }),
  ("COMPOUNDMORESUFFIXES".toList, boolDirective fun o b => { o with compoundMoreSuffixes := b }),
  ("CHECKCOMPOUNDDUP".toList, boolDirective fun o b => { o with compoundCheckDuplicate := b }),
  ("CHECKCOMPOUNDREP".toList, boolDirective fun o b => { o with compoundCheckRep := b }),
  ("CHECKCOMPOUNDCASE".toList, boolDirective fun o b => { o with compoundCheckCase := b }),
  ("CHECKCOMPOUNDTRIPLE".toList, boolDirective fun o b => { o with compoundCheckTriple := b }),
  ("SIMPLIFIEDTRIPLE".toList, boolDirective fun o b => { o with compoundSimplifiedTriple := b }),
  ("SYLLABLENUM".toList, boolDirective fun o b => { o with compoundSyllableNum := b }),
  ("ONLYMAXDIFF".toList, boolDirective fun o b => { o with onlyMaxDiff := b }),
  ("NOSPLITSUGS".toList, boolDirective fun o b => { o with noSplitSuggestions := b }),
  ("SUGSWITHDOTS".toList, boolDirective fun o b => { o with suggestWithDots := b }),
  ("COMPOUNDMIN".toList,
    shortDirective fun o n => { o with compoundMinLength := nonZero (max n 1) }),
  ("COMPOUNDWORDMAX".toList, shortDirective fun o n => { o with compoundMaxWordCount := nonZero n }),
  ("MAXCPDSUGS".toList, shortDirective fun o n => { o with maxCompoundSuggestions := n }),
  ("MAXNGRAMSUGS".toList, shortDirective fun o n => { o with maxNgramSuggestions := n }),
  ("MAXDIFF".toList, shortDirective fun o n => { o with maxDiffFactor := if n > 10 then 5 else n }),
  ("IGNORE".toList, wordDirective fun cx w => { cx with ignoreChars := w }),
  ("KEY".toList, wordDirective fun cx w => { cx with keyboardCloseness := w }),
  ("TRY".toList, wordDirective fun cx w => { cx with tryChars := w }),
  ("LANG".toList, wordDirective fun cx w =>
    { cx with options.caseHandling := if isTurkic w then .turkic else .standard }),
  ("REP".toList, fun U cx => P.table2 U "REP".toList (fun (cx : Cx) a b =>
    .ok { cx with replacements := cx.replacements ++ [(a, replaceChar b '_' [' '])] }) cx),
  ("ICONV".toList, fun U cx => P.table2 U "ICONV".toList (fun (cx : Cx) a b =>
    .ok { cx with inputConversions := cx.inputConversions ++ [(a, b)] }) cx),
  ("OCONV".toList, fun U cx => P.table2 U "OCONV".toList (fun (cx : Cx) a b =>
    .ok { cx with outputConversions := cx.outputConversions ++ [(a, b)] }) cx),
  ("BREAK".toList, breakDirective),
  ("COMPOUNDSYLLABLE".toList, syllableDirective),
  ("AF".toList, aliasDirective),
  ("PFX".toList, prefixDirective),
  ("SFX".toList, suffixDirective),
  ("COMPOUNDRULE".toList, ruleDirective),
  ("CHECKCOMPOUNDPATTERN".toList, patternDirective),
  ("MAP".toList, fun U cx => P.table1 U "MAP".toList (fun (cx : Cx) s =>
    .ok { cx with similarities := cx.similarities ++ [SimilarityGroup.ofText s] }) cx)]

/-- `aff_parsers.get(key)` (`src/aff/parser.rs` 166): a hash map of the parsers, whose keys are distinct. -/
def findDirective (key : Str) : Option Directive :=
  (affParsers.find? fun p => p.1 == key).map (·.2)

/-- One turn of the `.aff` loop (`src/aff/parser.rs` 166–168), before `advance_line`. -/
def affStep (U : Unicode) (cx : Cx) : P Cx := do
  match (← P.nextWord).bind findDirective with
  | some d => d U cx
  | none => pure cx

/-- The `while !lines.is_finished()` loop over the `.aff` file (`src/aff/parser.rs` 165–171). Each turn ends with
`advance_line`, so the number of lines bounds the number of turns. -/
def affLoop (U : Unicode) : Nat → Cx → P Cx
  | 0, _ => P.noFuel
  | fuel + 1, cx => do
    if ← P.isFinished then pure cx
    else
      let cx ← affStep U cx
      P.advance U
      affLoop U fuel cx

/-! ## The word list -/

/-- `words.insert(stem, flagset)`; the conversion of the text into a `Stem` (`UmbraString`) panics
for texts over 65535 bytes (`src/umbra_slice.rs` 431–450, see `Umbra.tryFrom`). -/
def insertStem (words : Bag FlagSet) (stem : Str) (flags : FlagSet) : Except Halt (Bag FlagSet) :=
  if byteLen stem > u16Max then .error .panic else .ok (words.insert stem flags)

/-- Whether an entry gets a hidden title-case twin (`src/aff/parser.rs` 205–208). -/
def needsTwin (U : Unicode) (o : AffOptions) (stem : Str) (flags : FlagSet) : Bool :=
  let casing := classifyCasing U stem
  ((casing == .pascal || casing == .camel) && !flags.contains o.forbiddenWordFlag)
    || (casing == .all && !flags.isEmpty)

/-- The insertion of a parsed line (`src/aff/parser.rs` 203–213). `titlecase` panics on an empty text. -/
def insertEntry (U : Unicode) (o : AffOptions) (words : Bag FlagSet) (stem : Str) (flags : FlagSet) :
    Except Halt (Bag FlagSet) :=
  if needsTwin U o stem flags then
    match o.caseHandling.titlecase U stem with
    | none => .error .panic
    | some title => do
      let words ← insertStem words title (flags.withFlag hiddenHomonymFlag)
      insertStem words stem flags
  else insertStem words stem flags

/-- What the loop over the `.dic` file does with a (trimmed) line (`src/aff/parser.rs` 184–213). -/
def dicStep (U : Unicode) (cx : Cx) (words : Bag FlagSet) (line : Str) : P (Bag FlagSet) := do
  if line.isEmpty then pure words
  else if line.head? = some '/' ∧ byteLen line > 1 then pure words
  else if byteLen line > u16Max then P.fail .wordTooLong
  else
    let (stem, flags) ←
      P.lift .malformedFlag (parseDicLine U line cx.flagType cx.flagAliases cx.ignoreChars)
    fun s =>
      match insertEntry U cx.options words stem flags with
      | .ok words => .ok (words, s)
      | .error h => .error h

/-- The `while !lines.is_finished()` loop over the `.dic` file (`src/aff/parser.rs` 181–214). -/
def dicLoop (U : Unicode) (cx : Cx) : Nat → Bag FlagSet → P (Bag FlagSet)
  | 0, _ => P.noFuel
  | fuel + 1, words => do
    if ← P.isFinished then pure words
    else
      P.advance U
      let s ← get
      match s.line with
      | none => dicLoop U cx fuel words
      | some line =>
        let words ← dicStep U cx words (trim U line)
        dicLoop U cx fuel words

/-! ## Assembling the dictionary -/

/-- What `sort_unstable_by` may choose when several affixes or conversions have the same key.
Used for `src/aff.rs` 558, 1146. -/
structure Sorts where
  affixes : (k : Kind) → List Affix → List Affix
  conversions : List Conversion → List Conversion
  affixes_perm : ∀ k l, (affixes k l).Perm l
  affixes_sorted : ∀ k l, (affixes k l).Pairwise fun a b => keyLe k a.appending b.appending
  conversions_perm : ∀ l, (conversions l).Perm l
  conversions_sorted : ∀ l,
    (conversions l).Pairwise fun a b => bytesLe (utf8 a.src) (utf8 b.src)

/-- `impl From<Vec<Affix<C>>> for AffixIndex<C>` (`src/aff.rs` 547–603) with the panics of the first
byte tables. -/
def Sorts.index? (S : Sorts) (k : Kind) (l : List Affix) : Option (AffixIndex k) :=
  (firstTables k (S.affixes k l)).map fun _ => ⟨S.affixes k l, S.affixes_sorted k l⟩

/-- `impl From<Vec<(&str, &str)>> for ConversionTable` (`src/aff.rs` 1121–1155). -/
def Sorts.table (S : Sorts) (l : List (Str × Str)) : ConversionTable :=
  ⟨S.conversions (l.map Conversion.ofPair), S.conversions_sorted _⟩

/-- The end of `parse` (`src/aff/parser.rs` 216–244): erase the ignored characters and collect the tables. -/
def assemble (S : Sorts) (cx : Cx) (words : Bag FlagSet) : Option Dict := do
  let erase := fun (l : List Affix) =>
    if cx.ignoreChars.isEmpty then l else l.map fun a => a.eraseIgnored cx.ignoreChars
  let prefixes ← S.index? .pfx (erase cx.prefixes)
  let suffixes ← S.index? .sfx (erase cx.suffixes)
  let breakTable ← BreakTable.new cx.breakPatterns
  let replacements ← ReplacementTable.from' cx.replacements
  let aff : AffData :=
    { prefixes, suffixes, breakTable, replacements
      similarities := cx.similarities
      inputConversions := S.table cx.inputConversions
      outputConversions := S.table cx.outputConversions
      compoundRules := ⟨cx.compoundRules⟩
      compoundSyllableVowels := cx.compoundSyllableVowels
      compoundPatterns := cx.compoundPatterns
      ignoreChars := cx.ignoreChars
      keyboardCloseness := cx.keyboardCloseness
      tryChars := cx.tryChars
      options := cx.options
      flagType := cx.flagType
      flagAliases := cx.flagAliases }
  pure { words, aff }

/-- The first part of `parse` (`src/aff/parser.rs` 158–171): the `.aff` file. -/
def parseAff (U : Unicode) (aff : Str) : Except Halt Cx :=
  let s := Lines.new U aff .aff
  match affLoop U (s.lines.length + 1) {} s with
  | .ok (cx, _) => .ok cx
  | .error h => .error h

/-- The second part of `parse` (`src/aff/parser.rs` 173–214): the `.dic` file. -/
def parseDic (U : Unicode) (cx : Cx) (dic : Str) : Except Halt (Bag FlagSet) :=
  let s := Lines.new U dic .dic
  let body : P (Bag FlagSet) := do
    let _ ← P.count
    dicLoop U cx (s.lines.length + 1) Bag.empty
  match body s with
  | .ok (words, _) => .ok words
  | .error h => .error h

/-- `parse` (153–245), which is `Dictionary::new` and `new_with_hasher` (`src/lib.rs` 138–169). -/
def parse (U : Unicode) (S : Sorts) (aff dic : Str) : Except Halt Dict := do
  let cx ← parseAff U aff
  let words ← parseDic U cx dic
  match assemble S cx words with
  | some d => pure d
  | none => throw .panic

end Spellbook
