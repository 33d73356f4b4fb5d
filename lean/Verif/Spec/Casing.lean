import Verif.Model.Casing
/-!
# Specification of casing classes
-/

namespace Spellbook.Spec

/-- What each casing class means. -/
def HasCasing (U : Unicode) (w : Str) : Casing → Prop
  | .none => ∀ c ∈ w, U.isUpper c = false
  | .init => ∃ c r, w = c :: r ∧ U.isUpper c = true ∧ ∀ x ∈ r, U.isUpper x = false
  | .all => (∃ c ∈ w, U.isUpper c = true) ∧ (∀ c ∈ w, U.isLower c = false) ∧
      ¬ ∃ c r, w = c :: r ∧ U.isUpper c = true ∧ ∀ x ∈ r, U.isUpper x = false
  | .pascal => (∃ c ∈ w, U.isLower c = true) ∧
      ∃ c r, w = c :: r ∧ U.isUpper c = true ∧ ∃ x ∈ r, U.isUpper x = true
  | .camel => (∃ c ∈ w, U.isLower c = true) ∧
      ∃ c r, w = c :: r ∧ U.isUpper c = false ∧ ∃ x ∈ r, U.isUpper x = true

end Spellbook.Spec
