import Verif.Spec.Growth
import Verif.Spec.Blocks
/-!
# More affix rules
-/

namespace Spellbook
namespace Spec

/-- `C'` differs from `C` in its affix rules (and hasher) only; it has the rules of `C`, and the further ones make nothing
of marked entries. -/
structure MoreRules (C C' : Checker) : Prop where
  unicode : C'.U = C.U
  settings : ∃ p s, C'.dict.aff = { C.dict.aff with prefixes := p, suffixes := s }
  title : C'.checkLowerAsTitle = C.checkLowerAsTitle
  upper : C'.checkLowerAsUpper = C.checkLowerAsUpper
  entries : ∀ e, e ∈ C'.dict.words.slots ↔ e ∈ C.dict.words.slots
  old : ∀ k, ∀ a ∈ tableOf C.dict k, a ∈ tableOf C'.dict k
  new : ∀ {sk w stem F steps}, Derives .code C'.dict sk w stem F steps →
    Derives .code C.dict sk w stem F steps ∨ ¬ Marked C.dict F

/-- `C'` differs from `C` in the order of the affix rules (and in how often each is given) and in the hasher only. -/
structure SameRuleSet (C C' : Checker) : Prop where
  unicode : C'.U = C.U
  settings : ∃ p s, C'.dict.aff = { C.dict.aff with prefixes := p, suffixes := s }
  title : C'.checkLowerAsTitle = C.checkLowerAsTitle
  upper : C'.checkLowerAsUpper = C.checkLowerAsUpper
  entries : ∀ e, e ∈ C'.dict.words.slots ↔ e ∈ C.dict.words.slots
  rules : ∀ k a, a ∈ tableOf C.dict k ↔ a ∈ tableOf C'.dict k

/-- One of the blocks has a row with these words (behind the name of the directive), below a line with this name of a
flag and this `Y` or `N`. -/
def HasRow (U : Unicode) (blocks : List Block) (key : String) (name cross : Str) (row : List Str) : Prop :=
  ∃ b ∈ blocks, b.key = key ∧ b.args.take 2 = [name, cross] ∧
    ∃ line ∈ b.rows, splitWhitespace U line = key.toList :: row

end Spec
end Spellbook
