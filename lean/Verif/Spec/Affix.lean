import Verif.Model.Str
/-!
# Specification of applying an affix to a text
-/

namespace Spellbook.Spec

/-- A prefix rule "strip `strip`, add `add`" turns `stem` into `word`. -/
def PrefixApplies (strip add stem word : Str) : Prop :=
  ∃ r, stem = strip ++ r ∧ word = add ++ r

/-- A suffix rule "strip `strip`, add `add`" turns `stem` into `word`. -/
def SuffixApplies (strip add stem word : Str) : Prop :=
  ∃ r, stem = r ++ strip ∧ word = r ++ add

end Spellbook.Spec
