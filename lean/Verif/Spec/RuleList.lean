import Verif.Spec.PlaceList
/-!
# Specification of lists of words with rules for compounds

A word list with the settings for compounds of `Spec/PlaceList` and with COMPOUNDRULE lines: which words are correct, told
from the list and the rules.
-/

namespace Spellbook.Spec

/-- The settings of an `.aff` text which says this about compounds, has these COMPOUNDRULE lines, and nothing else. -/
def ruleSettings (r : PlaceRules) (rules : List CompoundRule) : Cx := { placeSettings r with compoundRules := rules }

/-- The text, with these flags, can be a part of a compound by a rule: it is a word of the list or the title form of one which
has a title form of its own. -/
def RulePart (U : Unicode) (words : List (Str × Str)) (p : Str × Str) : Prop :=
  ∃ e ∈ words, p.2 = e.2 ∧ (p.1 = e.1 ∨ (HasTitle U e ∧ p.1 = titleForm U e.1))

/-- The parts, one after the other, are a compound by a rule: two or more, each long enough, and from the flags of each one can
be picked so that the picked flags are a word of the regular expression of the rule. -/
structure RuledParts (U : Unicode) (r : PlaceRules) (rules : List CompoundRule) (words parts : List (Str × Str)) : Prop where
  atLeastTwo : 2 ≤ parts.length
  listed : ∀ p ∈ parts, RulePart U words p
  long : ∀ p ∈ parts, r.min.getD 3 ≤ p.1.length
  rule : ∃ rule ∈ rules, RuleAccepts (CompoundRule.spec rule) (parts.map fun p => p.2.map Char.toNat)

/-- The text is such a compound. -/
def OfRule (U : Unicode) (r : PlaceRules) (rules : List CompoundRule) (words : List (Str × Str)) (w : Str) : Prop :=
  ∃ parts, RuledParts U r rules words parts ∧ w = wordsText parts

/-- The text is a word of the list which may stand alone, or a compound of parts at their places, or a compound by a rule. -/
def RuledSo (U : Unicode) (r : PlaceRules) (rules : List CompoundRule) (words : List (Str × Str)) (w : Str) : Prop :=
  (∃ e ∈ words, StandsAlone r e.2 ∧ w = e.1) ∨ (OfPlaced U r words w ∨ OfRule U r rules words w)

/-- The text is such a word, perhaps by its title form, or a compound. -/
def RuledAny (U : Unicode) (r : PlaceRules) (rules : List CompoundRule) (words : List (Str × Str)) (w : Str) : Prop :=
  RuledSo U r rules words w ∨ ∃ e ∈ words, HasTitle U e ∧ StandsAlone r e.2 ∧ w = titleForm U e.1

end Spellbook.Spec
