import Verif.Model.Suggest
/-!
# The settings of checkers and suggesters

Models the small public functions with which a checker or a suggester is made from a dictionary and
configured: `src/lib.rs` 191–217, `src/checker.rs` 48–95 and `src/suggester.rs` 38–69.
-/

namespace Spellbook

/-- `Dictionary::checker` and `Checker::new` (`src/lib.rs` 198–200, `src/checker.rs` 48–55). -/
def Dict.checker (D : Dict) (U : Unicode) (L : Layout) : Checker :=
  { U, L, dict := D, checkLowerAsTitle := false, checkLowerAsUpper := false }

/-- `Dictionary::check` (`src/lib.rs` 191–193). -/
def Dict.check (D : Dict) (U : Unicode) (L : Layout) (fuel : Nat) (word : Str) : Run Bool :=
  (D.checker U L).check fuel word

/-- `Checker::check_lower_as_title` (`src/checker.rs` 73–76). -/
def Checker.lowerAsTitle (C : Checker) (yes : Bool) : Checker := { C with checkLowerAsTitle := yes }

/-- `Checker::check_lower_as_upper` (`src/checker.rs` 92–95). -/
def Checker.lowerAsUpper (C : Checker) (yes : Bool) : Checker := { C with checkLowerAsUpper := yes }

/-- `Dictionary::suggester` (`src/lib.rs` 215–217). -/
def Dict.suggester (D : Dict) (U : Unicode) (L : Layout) (H : Heaps) : Suggester :=
  (D.checker U L).intoSuggester H

/-- `Dictionary::suggest` (`src/lib.rs` 207–209). -/
def Dict.suggest (D : Dict) (U : Unicode) (L : Layout) (H : Heaps) (fuel depth : Nat) (word : Str)
    (out : List Str) : Run (List Str) :=
  (D.suggester U L H).suggest fuel depth word out

/-- `Suggester::into_checker` (`src/suggester.rs` 54–56). -/
def Suggester.intoChecker (S : Suggester) : Checker := S.C

/-- `Suggester::with_ngram_suggestions` (`src/suggester.rs` 66–69). -/
def Suggester.withNgram (S : Suggester) (yes : Bool) : Suggester := { S with ngram := yes }

end Spellbook
