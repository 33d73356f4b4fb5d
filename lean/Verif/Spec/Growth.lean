import Verif.Spec.Derivation
import Verif.Spec.Check
/-!
# Larger word lists
-/

namespace Spellbook.Spec

/-- The flags mark a form which is wrong in itself or in some letter case: by FORBIDDENWORD, by WARN together with
FORBIDWARN, or by KEEPCASE. -/
def Marked (D : Dict) (F : FlagSet) : Prop := ¬ Good D F ∨ KeepsCase D F

/-- `C'` differs from `C` in its word list (and hasher) only; it has the entries of `C`, and its further entries are
not marked. -/
structure MoreWords (C C' : Checker) : Prop where
  unicode : C'.U = C.U
  settings : C'.dict.aff = C.dict.aff
  title : C'.checkLowerAsTitle = C.checkLowerAsTitle
  upper : C'.checkLowerAsUpper = C.checkLowerAsUpper
  old : ∀ e ∈ C.dict.words.slots, e ∈ C'.dict.words.slots
  new : ∀ e ∈ C'.dict.words.slots, e ∈ C.dict.words.slots ∨ ¬ Marked C.dict e.2

/-- All derivations of a text have the same marks. -/
def SameMarks (D : Dict) : Prop :=
  ∀ skipHidden w stem F steps stem' F' steps', Derives .code D skipHidden w stem F steps →
    Derives .code D skipHidden w stem' F' steps' → (Good D F ↔ Good D F') ∧ (KeepsCase D F ↔ KeepsCase D F')

end Spellbook.Spec
