import Verif.Spec.Derivation
/-!
# Which forms of a stem are candidates for a misspelt word
-/

namespace Spellbook.Spec

/-- The word has, at the side of the affix, the text the affix adds. -/
def Shows (k : Kind) (word : Str) (a : Affix) : Prop :=
  match k with
  | .pfx => a.add <+: word
  | .sfx => a.add <:+ word

/-- An affix for a stem with the flags `F` in a full word; the misspelt word already has the text it
adds. -/
structure Candidate (D : Dict) (k : Kind) (word : Str) (F : FlagSet) (a : Affix) : Prop where
  mem : a ∈ tableOf D k
  licence : a.flag ∈ F.elems
  full : InFullWord D a
  alone : ¬ NeedsAffix D a
  nocirc : ¬ Circumfix D a
  shows : Shows k word a

/-- The candidates made from the entry `(stem, F)` for the misspelt word `word`. -/
inductive Expansion (D : Dict) (word stem : Str) (F : FlagSet) : Str → Prop
  /-- The stem. -/
  | bare (plain : ¬ Has F D.aff.options.needAffixFlag) : Expansion D word stem F stem
  /-- The stem with one affix. -/
  | one {k a form} (cand : Candidate D k word F a) (cond : CondHolds k a stem)
      (applies : Applies k a stem form) : Expansion D word stem F form
  /-- A prefix that fits the stem with a suffix, but is put in front of the stem alone. -/
  | cross {s p mid mid' form} (suffix : Candidate D .sfx word F s) (cond1 : CondHolds .sfx s stem)
      (applies1 : Applies .sfx s stem mid) (crossing : s.crossproduct = true)
      (prefix' : Candidate D .pfx word F p) (cond2 : CondHolds .pfx p mid)
      (applies2 : Applies .pfx p mid mid')
      (applies : Applies .pfx p stem form) : Expansion D word stem F form

end Spellbook.Spec
