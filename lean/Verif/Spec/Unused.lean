import Verif.Model.Suggest
/-!
# A dictionary without some of its affix rules

`keep` says which flags stay: the affix rules whose flag does not are removed, and nothing else changes.
-/

namespace Spellbook
namespace Spec

/-- The affix rules of one kind which stay, in the same order. -/
def keepRules (keep : Nat → Bool) {k : Kind} (idx : AffixIndex k) : AffixIndex k :=
  ⟨idx.table.filter fun a => keep a.flag, idx.sorted.filter _⟩

/-- A dictionary without the other affix rules. -/
def keepDict (keep : Nat → Bool) (d : Dict) : Dict :=
  { d with aff := { d.aff with prefixes := keepRules keep d.aff.prefixes, suffixes := keepRules keep d.aff.suffixes } }

/-- A checker for that dictionary. -/
def keepChecker (keep : Nat → Bool) (C : Checker) : Checker := { C with dict := keepDict keep C.dict }

/-- A suggester for that dictionary. -/
def keepSuggester (keep : Nat → Bool) (S : Suggester) : Suggester := { S with C := keepChecker keep S.C }

/-- Nothing refers to the flags which do not stay: no word has one of them, and none of the rules which stay
lists one of them among its continuation flags. -/
structure NotUsed (keep : Nat → Bool) (d : Dict) : Prop where
  words : ∀ e ∈ d.words.slots, ∀ f ∈ e.2.elems, keep f = true
  prefixes : ∀ a ∈ d.aff.prefixes.table, keep a.flag = true → ∀ f ∈ a.flags.elems, keep f = true
  suffixes : ∀ a ∈ d.aff.suffixes.table, keep a.flag = true → ∀ f ∈ a.flags.elems, keep f = true

/-- Every continuation flag of a suffix is one of a suffix which stays. -/
def SuffixFlagsStay (keep : Nat → Bool) (d : Dict) : Prop :=
  ∀ a ∈ d.aff.suffixes.table, ∀ f ∈ a.flags.elems,
    ∃ b ∈ d.aff.suffixes.table, keep b.flag = true ∧ f ∈ b.flags.elems

end Spec
end Spellbook
