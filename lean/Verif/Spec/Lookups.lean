import Verif.Model.Lookups
import Verif.Spec.Depth
import Verif.Spec.SuggestCase
/-!
# The work of `suggest`

Measured in lookups: calls of the checker.
-/

namespace Spellbook.Spec

/-- However long `S` is left to work on the word, it asks the checker at most `n` times. -/
def LookupsAtMost (S : Suggester) (word : Str) (n : Nat) : Prop :=
  ∀ fuel depth out, (Lookups.suggest S fuel depth word out).calls ≤ n

/-- The length of the longest text which a REP line puts in. -/
def longestRep (D : Dict) : Nat := (D.aff.replacements.table.map fun r => r.2.length).foldr max 0

/-- How many texts the methods may try which have a limit: 100000 at most. -/
def atMost (n : Nat) : Nat := min 100000 n

/-- The lookups of the MAP lines. -/
def mapLookups (D : Dict) : Nat := if D.aff.similarities = [] then 0 else 100000

/-- The lookups of the edits of one spelling of `n` characters, method by method. -/
def lookupsPerSpelling (D : Dict) (n : Nat) : Nat :=
  -- upper case, and the spelling itself
  1 + 1 +
  -- REP: every line at every place, and every part of the text
  D.aff.replacements.table.length * (n + 1) * (n + longestRep D + 1) +
  -- MAP, which tries every combination
  mapLookups D +
  -- neighbours and pairs of neighbours swapped
  (n + 2) +
  -- any two characters swapped
  atMost (n * n) +
  -- KEY: upper case, and both neighbours of every occurrence on the keyboard
  n * (1 + 2 * D.aff.keyboardCloseness.length) +
  -- a character dropped
  n +
  -- a character of TRY inserted
  atMost (D.aff.tryChars.length * (n + 1)) +
  -- a character moved
  atMost (2 * n * n) +
  -- a character replaced by one of TRY
  atMost (D.aff.tryChars.length * n) +
  -- a doubled pair
  n +
  -- both halves of the word split in two
  2 * n

/-- How many suggestions there may be for a word without a dash: the edits of four spellings, four more texts,
and 200 similar words. -/
def suggestionsPerPart (D : Dict) (n : Nat) : Nat := 4 * lookupsPerSpelling D n + 204

/-- The lookups for a word without a dash: at most three more for every suggestion. -/
def lookupsPerPart (D : Dict) (n : Nat) : Nat := 4 * lookupsPerSpelling D n + 3 + 3 * suggestionsPerPart D n

/-- How many suggestions there may be for a word of `n` characters, of which all may be dashes. -/
def suggestionsFor (D : Dict) (n : Nat) : Nat := suggestionsPerPart D n + (n + 1) * suggestionsPerPart D n

/-- The lookups for a word of `n` characters, of which all may be dashes. -/
def lookupsFor (D : Dict) (n : Nat) : Nat :=
  4 * lookupsPerSpelling D n + 3 + (n + 1) * (1 + lookupsPerPart D n + suggestionsPerPart D n) +
    3 * suggestionsFor D n

/-- How many texts the edits of one spelling make: those of the methods with a limit only as long as the budget
lasts. -/
def textsTried (C : Checker) (w : Str) : Nat :=
  1 + ((reworded C.aff.replacements.whole C.aff.replacements.start C.aff.replacements.stop
    C.aff.replacements.anywhere w).length +
  (min (editBudget C w) (similarTexts C.aff.similarities (editBudget C w + 1) w).length +
  ((neighboursSwapped w ++ pairsSwapped w).length + (min (editBudget C w) (swapped w).length +
  ((mistyped C.U C.aff.keyboardCloseness w).length + ((dropped w).length +
  (min (editBudget C w) (inserted C.aff.tryChars w).length +
  (min (editBudget C w) (movedRight w ++ movedLeft w).length +
  (min (editBudget C w) (replaced C.aff.tryChars w).length + ((undoubled w).length +
  (if C.opts.noSplitSuggestions then 0 else w.length)))))))))))

end Spellbook.Spec
