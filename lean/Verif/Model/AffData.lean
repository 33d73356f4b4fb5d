import Verif.Model.AffixIndex
import Verif.Model.Conversion
import Verif.Model.Tables
/-!
# The affix data and its options

Models `src/aff.rs` 64–106 (`HIDDEN_HOMONYM_FLAG`, `FlagType`), 1349–1480 (`SimilarityGroup`,
`AffData`, `AffOptions`), the affixing modes of `src/lib.rs` 419–430 and `AffixKind::is_valid`
(`src/aff.rs` 291–332).
-/

namespace Spellbook

/-- `HIDDEN_HOMONYM_FLAG` (`src/aff.rs` 70). -/
def hiddenHomonymFlag : Nat := 65535

/-- `enum FlagType` (`src/aff.rs` 83–106). `Long` remembers the byte order of the machine, for `u16::from_ne_bytes`. -/
inductive FlagType
  | short | long (order : ByteOrder) | numeric | utf8
deriving DecidableEq, Repr

/-- `AffixingMode` and its four constants (`src/lib.rs` 426–430). -/
inductive Mode
  | full | atBegin | atMiddle | atEnd
deriving DecidableEq, Repr

/-- `struct AffOptions` with its `Default` (`src/aff.rs` 1381–1470). Flags and counts are numbers. -/
structure AffOptions where
  complexPrefixes : Bool := false
  fullstrip : Bool := false
  checksharps : Bool := false
  forbidWarn : Bool := false
  onlyInCompoundFlag : Option Nat := none
  circumfixFlag : Option Nat := none
  forbiddenWordFlag : Nat := 65510
  keepCaseFlag : Option Nat := none
  needAffixFlag : Option Nat := none
  warnFlag : Option Nat := none
  compoundFlag : Option Nat := none
  compoundBeginFlag : Option Nat := none
  compoundMiddleFlag : Option Nat := none
  compoundEndFlag : Option Nat := none
  compoundMinLength : Option Nat := none
  compoundMaxWordCount : Option Nat := none
  compoundPermitFlag : Option Nat := none
  compoundForbidFlag : Option Nat := none
  compoundRootFlag : Option Nat := none
  compoundForceUppercaseFlag : Option Nat := none
  compoundMoreSuffixes : Bool := false
  compoundCheckDuplicate : Bool := false
  compoundCheckRep : Bool := false
  compoundCheckCase : Bool := false
  compoundCheckTriple : Bool := false
  compoundSimplifiedTriple : Bool := false
  compoundSyllableNum : Bool := false
  compoundSyllableMax : Option Nat := none
  maxCompoundSuggestions : Nat := 3
  noSuggestFlag : Option Nat := none
  substandardFlag : Option Nat := none
  maxNgramSuggestions : Nat := 5
  maxDiffFactor : Nat := 5
  onlyMaxDiff : Bool := false
  noSplitSuggestions : Bool := false
  suggestWithDots : Bool := false
  caseHandling : CaseHandling := .standard
deriving DecidableEq

/-- `AffOptions::allows_compounding` (`src/aff.rs` 1472–1479). -/
def AffOptions.allowsCompounding (o : AffOptions) : Bool :=
  o.compoundFlag.isSome || o.compoundBeginFlag.isSome || o.compoundMiddleFlag.isSome
    || o.compoundEndFlag.isSome

/-- `compound_min_length.map(get).unwrap_or(3)` (`src/checker.rs` 1415–1420, 2386–2391). -/
def AffOptions.minChars (o : AffOptions) : Nat := o.compoundMinLength.getD 3

/-- `struct SimilarityGroup` (`src/aff.rs` 1350–1353). -/
structure SimilarityGroup where
  chars : Str
  strings : List Str
deriving DecidableEq

/-- The break table of a dictionary without BREAK lines after parsing an empty list.
Used for `src/aff.rs` 718–756. -/
def BreakTable.empty : BreakTable := { table := [], startLast := 0, middleLast := 0 }

/-- The replacement table of a dictionary without REP lines. Used for `src/aff.rs` 780–844. -/
def ReplacementTable.empty : ReplacementTable :=
  { table := [], wholeLast := 0, startLast := 0, endLast := 0 }

/-- An affix index without affixes. Used for `src/aff.rs` 552–602. -/
def AffixIndex.empty (k : Kind) : AffixIndex k := ⟨[], List.Pairwise.nil⟩

/-- `struct AffData` (`src/aff.rs` 1356–1379). -/
structure AffData where
  prefixes : AffixIndex .pfx := AffixIndex.empty .pfx
  suffixes : AffixIndex .sfx := AffixIndex.empty .sfx
  breakTable : BreakTable := BreakTable.empty
  compoundRules : CompoundRuleTable := ⟨[]⟩
  compoundSyllableVowels : Str := []
  compoundPatterns : List CompoundPattern := []
  inputConversions : ConversionTable := ConversionTable.empty
  outputConversions : ConversionTable := ConversionTable.empty
  replacements : ReplacementTable := ReplacementTable.empty
  similarities : List SimilarityGroup := []
  ignoreChars : List Char := []
  keyboardCloseness : Str := []
  tryChars : Str := []
  options : AffOptions := {}
  flagType : FlagType := .short
  flagAliases : List FlagSet := []

/-- `AffixKind::is_valid` for `Pfx` (`src/aff.rs` 291–305) and `Sfx` (318–332). -/
def isValid (k : Kind) (m : Mode) (a : Affix) (o : AffOptions) : Bool :=
  if m == .full && hasFlag a.flags o.onlyInCompoundFlag then false
  else if (match k with
      | .pfx => m == .atEnd
      | .sfx => m == .atBegin) && !hasFlag a.flags o.compoundPermitFlag then false
  else if m != .full && hasFlag a.flags o.compoundForbidFlag then false
  else true

end Spellbook
