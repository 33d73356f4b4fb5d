import Verif.Model.AffText
import Verif.Spec.FlagText
import Verif.Spec.DicText
import Verif.Spec.RuleText
import Verif.Spec.Condition
/-!
# Specification of the `.aff` text

A relation between the lines of an `.aff` text that are no comments and the settings they make. It
speaks about whole lines: a line names a directive and its arguments, and table directives own the
rows below them. There is no reader, no error and no loop.
-/

namespace Spellbook.Spec

/-- The directives that set one flag, and the setting. -/
def flagKeys : List (String × (AffOptions → Nat → AffOptions)) := [
  ("FORBIDDENWORD", fun o f => { o with forbiddenWordFlag := f }),
  ("ONLYINCOMPOUND", fun o f => { o with onlyInCompoundFlag := some f }),
  ("CIRCUMFIX", fun o f => { o with circumfixFlag := some f }),
  ("KEEPCASE", fun o f => { o with keepCaseFlag := some f }),
  ("NEEDAFFIX", fun o f => { o with needAffixFlag := some f }),
  ("WARN", fun o f => { o with warnFlag := some f }),
  ("NOSUGGEST", fun o f => { o with noSuggestFlag := some f }),
  ("SUBSTANDARD", fun o f => { o with substandardFlag := some f }),
  ("COMPOUNDFLAG", fun o f => { o with compoundFlag := some f }),
  ("COMPOUNDBEGIN", fun o f => { o with compoundBeginFlag := some f }),
  ("COMPOUNDMIDDLE", fun o f => { o with compoundMiddleFlag := some f }),
  ("COMPOUNDEND", fun o f => { o with compoundEndFlag := some f }),
  ("COMPOUNDPERMITFLAG", fun o f => { o with compoundPermitFlag := some f }),
  ("COMPOUNDFORBIDFLAG", fun o f => { o with compoundForbidFlag := some f }),
  ("COMPOUNDROOT", fun o f => { o with compoundRootFlag := some f }),
  ("FORCEUCASE", fun o f => { o with compoundForceUppercaseFlag := some f })]

/-- The directives that switch something on. -/
def switchKeys : List (String × (AffOptions → AffOptions)) := [
  ("COMPLEXPREFIXES", fun o => { o with complexPrefixes := true }),
  ("FULLSTRIP", fun o => { o with fullstrip := true }),
  ("CHECKSHARPS", fun o => { o with checksharps := true }),
  ("FORBIDWARN", fun o => { o with forbidWarn := true }),
  ("COMPOUNDMORESUFFIXES", fun o => { o with compoundMoreSuffixes := true }),
  ("CHECKCOMPOUNDDUP", fun o => { o with compoundCheckDuplicate := true }),
  ("CHECKCOMPOUNDREP", fun o => { o with compoundCheckRep := true }),
  ("CHECKCOMPOUNDCASE", fun o => { o with compoundCheckCase := true }),
  ("CHECKCOMPOUNDTRIPLE", fun o => { o with compoundCheckTriple := true }),
  ("SIMPLIFIEDTRIPLE", fun o => { o with compoundSimplifiedTriple := true }),
  ("SYLLABLENUM", fun o => { o with compoundSyllableNum := true }),
  ("ONLYMAXDIFF", fun o => { o with onlyMaxDiff := true }),
  ("NOSPLITSUGS", fun o => { o with noSplitSuggestions := true }),
  ("SUGSWITHDOTS", fun o => { o with suggestWithDots := true })]

/-- The directives that set a number (of at most 16 bits). `COMPOUNDMIN 0` means 1,
`COMPOUNDWORDMAX 0` means no limit, a `MAXDIFF` over 10 means 5. -/
def numberKeys : List (String × (AffOptions → Nat → AffOptions)) := [
  ("COMPOUNDMIN", fun o n => { o with compoundMinLength := some (if n = 0 then 1 else n) }),
  ("COMPOUNDWORDMAX", fun o n => { o with compoundMaxWordCount := if n = 0 then none else some n }),
  ("MAXCPDSUGS", fun o n => { o with maxCompoundSuggestions := n }),
  ("MAXNGRAMSUGS", fun o n => { o with maxNgramSuggestions := n }),
  ("MAXDIFF", fun o n => { o with maxDiffFactor := if n ≤ 10 then n else 5 })]

/-- All directives. -/
def knownKeys : List String :=
  flagKeys.map (·.1) ++ switchKeys.map (·.1) ++ numberKeys.map (·.1) ++
    ["FLAG", "IGNORE", "KEY", "TRY", "LANG", "COMPOUNDSYLLABLE", "REP", "ICONV", "OCONV", "BREAK", "AF",
     "PFX", "SFX", "COMPOUNDRULE", "CHECKCOMPOUNDPATTERN", "MAP"]

/-- The names of the flag types. -/
inductive FlagTypeName (U : Unicode) : Str → FlagType → Prop
  | long : FlagTypeName U "long".toList (.long U.byteOrder)
  | num : FlagTypeName U "num".toList .numeric
  | utf8 : FlagTypeName U "UTF-8".toList .utf8

/-- A word is a text, a slash and a second text, or a text without slash. -/
inductive SlashPair : Str → Str → Str → Prop
  | plain {w} : '/' ∉ w → SlashPair w w []
  | pair {a b} : '/' ∉ a → SlashPair (a ++ '/' :: b) a b

/-- The condition a text denotes: its elements are counted, and it is marked whether there are other elements
than letters. -/
structure ConditionOf (s : Str) (c : Condition) : Prop where
  pattern : c.pattern = s
  chars : ∃ es, IsCondition s es ∧ c.chars = es.length
  literal : c.isLiteral = true ↔ '.' ∉ s ∧ '[' ∉ s

/-- The affix a row `SFX flag strip add[/flags] [condition]` denotes. -/
structure AffixRow (cx : Cx) (flag : Nat) (cross : Bool) (strip add : Str) (more : List Str) (a : Affix) :
    Prop where
  flag : a.flag = flag
  cross : a.crossproduct = cross
  strip : a.strip = if strip = ['0'] then none else some strip
  add : ∃ text flags, SlashPair add text flags ∧ a.add = (if text = ['0'] then [] else text) ∧
    AliasFlags cx.flagType cx.flagAliases flags a.flags
  condition : (a.condition = none ∧ (more = [] ∨ ∃ r, more = ['.'] :: r)) ∨
    ∃ s r c, more = s :: r ∧ s ≠ ['.'] ∧ a.condition = some c ∧ ConditionOf s c

/-- An optional flag behind the slash of a compound pattern. -/
inductive OptFlag (ty : FlagType) : Str → Option Nat → Prop
  | none : OptFlag ty [] none
  | some {s f} : FlagOf ty s f → Flag.Valid f → OptFlag ty s (some f)

/-- The compound pattern a row `CHECKCOMPOUNDPATTERN end[/flag] begin[/flag] [replacement]` denotes. -/
structure PatternRow (cx : Cx) (a b : Str) (more : List Str) (p : CompoundPattern) : Prop where
  first : ∃ text flag, SlashPair a text flag ∧ OptFlag cx.flagType flag p.firstWordFlag ∧
    (p.matchFirstOnlyUnaffixed = true ↔ text = ['0']) ∧ p.first = if text = ['0'] then [] else text
  second : ∃ flag, SlashPair b p.second flag ∧ OptFlag cx.flagType flag p.secondWordFlag
  replacement : p.replacement = more.head?

/-- What one row of a table adds; `head` are the arguments of the directive. -/
inductive Row : String → List Str → Cx → List Str → Cx → Prop
  | rep {head cx a b more} : Row "REP" head cx (a :: b :: more)
      { cx with replacements := cx.replacements ++ [(a, b.map fun c => if c = '_' then ' ' else c)] }
  | iconv {head cx a b more} : Row "ICONV" head cx (a :: b :: more)
      { cx with inputConversions := cx.inputConversions ++ [(a, b)] }
  | oconv {head cx a b more} : Row "OCONV" head cx (a :: b :: more)
      { cx with outputConversions := cx.outputConversions ++ [(a, b)] }
  | brk {head cx a more} : Row "BREAK" head cx (a :: more)
      { cx with breakPatterns := cx.breakPatterns ++ [a] }
  | af {head cx a more l F} : FlagsOf cx.flagType a l → (∀ f ∈ l, Flag.Valid f) →
      (∀ f, F.contains f = true ↔ f ∈ l) →
      Row "AF" head cx (a :: more) { cx with flagAliases := cx.flagAliases ++ [F] }
  | map {head cx a more g} : MapText a g → Row "MAP" head cx (a :: more)
      { cx with similarities := cx.similarities ++ [g] }
  | rule {head cx a more r} : RuleText cx.flagType a r → (∀ e ∈ r, Flag.Valid e.flag) →
      Row "COMPOUNDRULE" head cx (a :: more) { cx with compoundRules := cx.compoundRules ++ [r] }
  | pattern {head cx a b more p} : PatternRow cx a b more p →
      Row "CHECKCOMPOUNDPATTERN" head cx (a :: b :: more)
        { cx with compoundPatterns := cx.compoundPatterns ++ [p] }
  | pfx {name cross head f cx strip add more a} : FlagOf cx.flagType name f → Flag.Valid f →
      AffixRow cx f (cross = ['Y']) strip add more a →
      Row "PFX" (name :: cross :: head) cx (name :: strip :: add :: more)
        { cx with prefixes := cx.prefixes ++ [a] }
  | sfx {name cross head f cx strip add more a} : FlagOf cx.flagType name f → Flag.Valid f →
      AffixRow cx f (cross = ['Y']) strip add more a →
      Row "SFX" (name :: cross :: head) cx (name :: strip :: add :: more)
        { cx with suffixes := cx.suffixes ++ [a] }

/-- The rows of a table, one after the other; each line starts with the directive. -/
inductive Rows (U : Unicode) (key : String) (head : List Str) : Cx → List Str → Cx → Prop
  | nil {cx} : Rows U key head cx [] cx
  | cons {cx line args cx₁ lines cx₂} : splitWhitespace U line = key.toList :: args →
      Row key head cx args cx₁ → Rows U key head cx₁ lines cx₂ → Rows U key head cx (line :: lines) cx₂

/-- The directives with a plain table: the announced number follows the name. -/
def tableKeys : List String := ["REP", "ICONV", "OCONV", "BREAK", "AF", "MAP", "COMPOUNDRULE",
  "CHECKCOMPOUNDPATTERN"]

/-- The languages with a dotless i. -/
def turkicLanguages : List Str := ["tr".toList, "tr_TR".toList, "az".toList, "crh".toList]

/-- A directive with arguments `args` and rows `rows` changes the settings. -/
inductive Effect (U : Unicode) : String → List Str → Cx → List Str → Cx → Prop
  | flagType {cx w args ty} : FlagTypeName U w ty →
      Effect U "FLAG" (w :: args) cx [] { cx with flagType := ty }
  | flag {key set cx w args f} : (key, set) ∈ flagKeys → FlagOf cx.flagType w f → Flag.Valid f →
      Effect U key (w :: args) cx [] { cx with options := set cx.options f }
  | switch {key set cx args} : (key, set) ∈ switchKeys →
      Effect U key args cx [] { cx with options := set cx.options }
  | number {key set cx w args n} : (key, set) ∈ numberKeys → IsNumeral w n → n ≤ 65535 →
      Effect U key (w :: args) cx [] { cx with options := set cx.options n }
  | ignore {cx w args} : Effect U "IGNORE" (w :: args) cx [] { cx with ignoreChars := w }
  | keyboard {cx w args} : Effect U "KEY" (w :: args) cx [] { cx with keyboardCloseness := w }
  | tryChars {cx w args} : Effect U "TRY" (w :: args) cx [] { cx with tryChars := w }
  | turkic {cx w args} : w ∈ turkicLanguages →
      Effect U "LANG" (w :: args) cx [] { cx with options.caseHandling := .turkic }
  | notTurkic {cx w args} : w ∉ turkicLanguages →
      Effect U "LANG" (w :: args) cx [] { cx with options.caseHandling := .standard }
  | syllable {cx w vowels args n} : IsNumeral w n → n ≤ 65535 →
      Effect U "COMPOUNDSYLLABLE" (w :: vowels :: args) cx []
        { cx with options.compoundSyllableMax := if n = 0 then none else some n,
                  compoundSyllableVowels := vowels }
  /-- A table owns as many rows as announced. `BREAK` drops the patterns there were. -/
  | table {key w args cx rows cx'} : key ∈ tableKeys → IsNumeral w rows.length →
      rows.length < 2 ^ 64 →
      Rows U key (w :: args) (if key = "BREAK" then { cx with breakPatterns := [] } else cx) rows cx' →
      Effect U key (w :: args) cx rows cx'
  | affixes {key name f cross w args cx rows cx'} : key ∈ ["PFX", "SFX"] →
      FlagOf cx.flagType name f → Flag.Valid f →
      cross ∈ [['Y'], ['N']] → IsNumeral w rows.length → rows.length < 2 ^ 64 →
      Rows U key (name :: cross :: w :: args) cx rows cx' →
      Effect U key (name :: cross :: w :: args) cx rows cx'

/-- Reading the lines of an `.aff` text (without the comments) leads from one state of the settings
to another. -/
inductive Reads (U : Unicode) : Cx → List Str → Cx → Prop
  | done {cx} : Reads U cx [] cx
  /-- Blank lines and unknown directives mean nothing. -/
  | ignored {cx line rest cx'} :
      (∀ key args, splitWhitespace U line = key :: args → ∀ k ∈ knownKeys, key ≠ k.toList) →
      Reads U cx rest cx' → Reads U cx (line :: rest) cx'
  | directive {cx line key args rows cx₁ rest cx'} : splitWhitespace U line = key.toList :: args →
      Effect U key args cx rows cx₁ → Reads U cx₁ rest cx' → Reads U cx (line :: (rows ++ rest)) cx'

/-- The lines of a text that are no comments, in order. -/
def Content (U : Unicode) (text : Str) (lines : List (Nat × Str)) : Prop :=
  lines.Sublist (numbered text) ∧ ∀ l ∈ numbered text, l ∈ lines ↔ ¬ Comment U l.2

end Spellbook.Spec
