import Verif.Model.Suggest
import Verif.Spec.AffText
/-!
# The parts of an affix file which are about suggestions

Besides what makes a word correct, an affix file has advice for suggestions, such as the letters to try and
the keys which are close to each other. `hintedChecker` replaces all of this advice. Some settings are kept by
the library and read by nothing; `idleChecker` replaces those.
-/

namespace Spellbook
namespace Spec

/-- The settings which no part of the library reads once the dictionary is loaded: `FULLSTRIP`, `COMPOUNDMORESUFFIXES`,
`MAXCPDSUGS`, `SUBSTANDARD`, `SUGSWITHDOTS`, and the way flags are written (`FLAG` and `AF`). -/
structure Idle where
  fullstrip : Bool
  compoundMoreSuffixes : Bool
  maxCompoundSuggestions : Nat
  substandardFlag : Option Nat
  suggestWithDots : Bool
  flagType : FlagType
  flagAliases : List FlagSet

/-- The settings which are about suggestions: `OCONV`, `MAP`, `KEY`, `TRY`, `NOSUGGEST`, `MAXNGRAMSUGS`, `MAXDIFF`,
`ONLYMAXDIFF`, `NOSPLITSUGS`, and `REP`. -/
structure Hints where
  outputConversions : ConversionTable
  similarities : List SimilarityGroup
  keyboardCloseness : Str
  tryChars : Str
  noSuggestFlag : Option Nat
  maxNgramSuggestions : Nat
  maxDiffFactor : Nat
  onlyMaxDiff : Bool
  noSplitSuggestions : Bool
  replacements : ReplacementTable

/-- The directives whose settings are read by nothing. -/
def idleKeys : List String := ["FULLSTRIP", "COMPOUNDMORESUFFIXES", "MAXCPDSUGS", "SUBSTANDARD", "SUGSWITHDOTS"]

/-- The directives which are about suggestions only. -/
def adviceKeys : List String :=
  ["OCONV", "MAP", "KEY", "TRY", "NOSUGGEST", "MAXNGRAMSUGS", "MAXDIFF", "ONLYMAXDIFF", "NOSPLITSUGS"]

/-- The second `.aff` text is the first without one block of the directive `key`: a line which names it and the rows
it announces. The lines before the block are fine by themselves, and so is the block. -/
def Without (U : Unicode) (key : String) (aff aff' : Str) : Prop :=
  ∃ lines lines' before line args rows after cx₁ cx₂, Content U aff lines ∧ Content U aff' lines' ∧
    lines.map (·.2) = before ++ line :: (rows ++ after) ∧ lines'.map (·.2) = before ++ after ∧
    Reads U {} before cx₁ ∧ splitWhitespace U line = key.toList :: args ∧ Effect U key args cx₁ rows cx₂

/-- The affix file with other settings that are read by nothing. -/
def idleAff (i : Idle) (d : AffData) : AffData :=
  { d with
    flagType := i.flagType
    flagAliases := i.flagAliases
    options := { d.options with
      fullstrip := i.fullstrip
      compoundMoreSuffixes := i.compoundMoreSuffixes
      maxCompoundSuggestions := i.maxCompoundSuggestions
      substandardFlag := i.substandardFlag
      suggestWithDots := i.suggestWithDots } }

/-- The affix file with other advice for suggestions. -/
def hintedAff (h : Hints) (d : AffData) : AffData :=
  { d with
    outputConversions := h.outputConversions
    similarities := h.similarities
    keyboardCloseness := h.keyboardCloseness
    tryChars := h.tryChars
    replacements := h.replacements
    options := { d.options with
      noSuggestFlag := h.noSuggestFlag
      maxNgramSuggestions := h.maxNgramSuggestions
      maxDiffFactor := h.maxDiffFactor
      onlyMaxDiff := h.onlyMaxDiff
      noSplitSuggestions := h.noSplitSuggestions } }

/-- A checker for the same words with other settings that are read by nothing. -/
def idleChecker (i : Idle) (C : Checker) : Checker := { C with dict := { C.dict with aff := idleAff i C.dict.aff } }

/-- A checker for the same words with other advice for suggestions. -/
def hintedChecker (h : Hints) (C : Checker) : Checker :=
  { C with dict := { C.dict with aff := hintedAff h C.dict.aff } }

/-- A suggester for the same words with other settings that are read by nothing. -/
def idleSuggester (i : Idle) (S : Suggester) : Suggester := { S with C := idleChecker i S.C }

end Spec
end Spellbook
