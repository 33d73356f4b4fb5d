import Verif.Spec.History
/-!
# Dictionaries which differ in repetitions

`List.eraseDups` keeps the first of several equal items.
-/

namespace Spellbook
namespace Spec

/-- Two dictionaries with the same settings, the same entries, however often each is listed and in whatever order, and
the same affix rules, if every rule is left out which stands in the table before. -/
structure SameOnce (D D' : Dict) : Prop where
  settings : D'.aff = { D.aff with prefixes := D'.aff.prefixes, suffixes := D'.aff.suffixes }
  words : ∀ e, e ∈ D.words.slots ↔ e ∈ D'.words.slots
  prefixes : D.aff.prefixes.table.eraseDups = D'.aff.prefixes.table.eraseDups
  suffixes : D.aff.suffixes.table.eraseDups = D'.aff.suffixes.table.eraseDups

end Spec
end Spellbook
