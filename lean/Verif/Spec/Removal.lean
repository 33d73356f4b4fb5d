import Verif.Model.Dictionary
import Verif.Spec.Check
/-!
# Removing a stem
-/

namespace Spellbook.Spec

/-- The flag of FORBIDDENWORD is used for nothing else that the lookup of a whole word asks an entry for: it is not
the flag of NEEDAFFIX, ONLYINCOMPOUND or KEEPCASE, not 65535 (the hidden homonyms), and not the flag of an affix. -/
structure ForbidApart (D : Dict) : Prop where
  needAffix : D.aff.options.needAffixFlag ≠ some D.aff.options.forbiddenWordFlag
  onlyInCompound : D.aff.options.onlyInCompoundFlag ≠ some D.aff.options.forbiddenWordFlag
  keepCase : D.aff.options.keepCaseFlag ≠ some D.aff.options.forbiddenWordFlag
  hidden : D.aff.options.forbiddenWordFlag ≠ 65535
  prefixes : ∀ a ∈ D.aff.prefixes.table, a.flag ≠ D.aff.options.forbiddenWordFlag
  suffixes : ∀ a ∈ D.aff.suffixes.table, a.flag ≠ D.aff.options.forbiddenWordFlag

/-- The checker after `remove_stem(s)`. -/
def removed (C : Checker) (s : Str) : Checker := { C with dict := (C.dict.removeStem C.L s).2 }

end Spellbook.Spec
