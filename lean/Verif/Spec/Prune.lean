import Verif.Model.Suggest
/-!
# A dictionary without the flags nothing asks about

A flag in the list of a word or of an affix has a meaning only if something in the affix file refers to
it. Here flags are dropped from these lists; nothing else changes.
-/

namespace Spellbook
namespace Spec

/-- The flags of an option, if it is set. -/
def flagOptions (o : AffOptions) : List (Option Nat) :=
  [some o.forbiddenWordFlag, o.onlyInCompoundFlag, o.circumfixFlag, o.keepCaseFlag, o.needAffixFlag,
    o.warnFlag, o.compoundFlag, o.compoundBeginFlag, o.compoundMiddleFlag, o.compoundEndFlag,
    o.compoundPermitFlag, o.compoundForbidFlag, o.compoundRootFlag, o.compoundForceUppercaseFlag,
    o.noSuggestFlag]

/-- The flags something asks about: the flag of an option (but SUBSTANDARD has no effect), of an affix, in
a COMPOUNDRULE or a CHECKCOMPOUNDPATTERN, the mark of entries the library adds on its own, 65535, and, in
a dictionary which counts syllables, `I` and `J`. -/
inductive Asked (d : AffData) : Nat → Prop
  | option {f : Nat} : some f ∈ flagOptions d.options → Asked d f
  | pfx {a : Affix} : a ∈ d.prefixes.table → Asked d a.flag
  | sfx {a : Affix} : a ∈ d.suffixes.table → Asked d a.flag
  | rule {r : CompoundRule} {e : RuleElement} : r ∈ d.compoundRules.rules → e ∈ r → Asked d e.flag
  | first {c : CompoundPattern} {f : Nat} : c ∈ d.compoundPatterns → c.firstWordFlag = some f → Asked d f
  | second {c : CompoundPattern} {f : Nat} : c ∈ d.compoundPatterns → c.secondWordFlag = some f → Asked d f
  | hidden : Asked d 65535
  | syllables {f : Nat} : d.compoundSyllableVowels ≠ [] → f = 73 ∨ f = 74 → Asked d f

/-- Only flags nothing asks about are dropped. -/
def Keeps (p : Nat → Bool) (d : AffData) : Prop := ∀ f, Asked d f → p f = true

/-- A set of flags without the flags which are dropped. -/
def pruneFlags (p : Nat → Bool) (s : FlagSet) : FlagSet := FlagSet.ofList (s.elems.filter p)

/-- An affix with fewer continuation flags. -/
def pruneAffix (p : Nat → Bool) (a : Affix) : Affix := { a with flags := pruneFlags p a.flags }

/-- The affixes of one kind, in the same order. -/
def pruneIndex (p : Nat → Bool) {k : Kind} (idx : AffixIndex k) : AffixIndex k :=
  ⟨idx.table.map (pruneAffix p), List.pairwise_map.2 idx.sorted⟩

/-- A word of the word list with fewer flags. -/
def pruneEntry (p : Nat → Bool) (e : Str × FlagSet) : Str × FlagSet := (e.1, pruneFlags p e.2)

/-- A dictionary whose words and affixes have fewer flags. -/
def pruneDict (p : Nat → Bool) (d : Dict) : Dict :=
  ⟨⟨d.words.slots.map (pruneEntry p)⟩,
    { d.aff with prefixes := pruneIndex p d.aff.prefixes, suffixes := pruneIndex p d.aff.suffixes }⟩

/-- A checker for the dictionary with fewer flags. -/
def pruneChecker (p : Nat → Bool) (C : Checker) : Checker := { C with dict := pruneDict p C.dict }

/-- A suggester for the dictionary with fewer flags. -/
def pruneSuggester (p : Nat → Bool) (S : Suggester) : Suggester := { S with C := pruneChecker p S.C }

end Spec
end Spellbook
