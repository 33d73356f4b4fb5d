import Verif.Spec.Outcome
import Verif.Model.Api
/-! # Specification for the settings of checkers and suggesters -/

namespace Spellbook.Spec

/-- The word is looked at as it is and as one: nothing is taken from it (`Untouched`), it is not a number, and
none of the BREAK lines cuts it. -/
structure Single (C : Checker) (lines : List Str) (word : Str) : Prop where
  untouched : Untouched C word
  number : ¬ IsNumber word
  uncut : ∀ line ∈ lines, ∀ place pieces, ¬ CutInto place line word pieces

/-- No entry of the dictionary forbids a word: none is marked FORBIDDENWORD or, under FORBIDWARN, WARN. -/
def NothingForbidden (D : Dict) : Prop := ∀ e ∈ D.words.slots, Good D e.2

end Spellbook.Spec
