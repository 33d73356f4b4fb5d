import Verif.Spec.PartList
import Verif.Spec.Derivation
/-!
# Specification of lists of stems with affixes

A word list whose only other settings are prefixes and suffixes without continuation flags (and NEEDAFFIX): which words are
correct, told from the list and the rules.
-/

namespace Spellbook.Spec

/-- The settings of an `.aff` text with these prefixes and suffixes, perhaps NEEDAFFIX, and nothing else. -/
def formSettings (need : Option Char) (prefixes suffixes : List Affix) : Cx :=
  { options := { needAffixFlag := need.map Char.toNat }, prefixes, suffixes }

/-- The rule has a flag of one byte and no continuation flags. -/
def SimpleRule (a : Affix) : Prop := a.flag < 256 ∧ a.flags = .empty

/-- A line of the list: a stem, with its flags if it has some. -/
def formLine (e : Str × Str) : Str := if e.2 = [] then e.1 else e.1 ++ '/' :: e.2

/-- The flags allow the rule. -/
def Licensed (flags : Str) (a : Affix) : Prop := ∃ c ∈ flags, c.toNat = a.flag

/-- The forms of a stem: itself, unless it needs an affix; with one prefix or suffix that its flags allow and whose condition
holds on it; with a suffix and then a prefix, if both rules say Y. -/
inductive Form (need : Option Char) (prefixes suffixes : List Affix) (stem flags : Str) : Str → Prop
  | bare : (∀ c, need = some c → c ∉ flags) → Form need prefixes suffixes stem flags stem
  | pfx {a w} : a ∈ prefixes → Licensed flags a → CondHolds .pfx a stem →
      PrefixApplies (a.strip.getD []) a.add stem w → Form need prefixes suffixes stem flags w
  | sfx {a w} : a ∈ suffixes → Licensed flags a → CondHolds .sfx a stem →
      SuffixApplies (a.strip.getD []) a.add stem w → Form need prefixes suffixes stem flags w
  | both {s p mid w} : s ∈ suffixes → p ∈ prefixes → Licensed flags s → Licensed flags p →
      s.crossproduct = true → p.crossproduct = true →
      CondHolds .sfx s stem → SuffixApplies (s.strip.getD []) s.add stem mid →
      CondHolds .pfx p mid → PrefixApplies (p.strip.getD []) p.add mid w → Form need prefixes suffixes stem flags w

/-- The stem counts in its title form as well: it has mixed case, or it is in capitals and has flags. -/
def HasTitle (U : Unicode) (e : Str × Str) : Prop := MixedCase U e.1 ∨ (HasCasing U e.1 .all ∧ e.2 ≠ [])

/-- The text is a form of a stem of the list. -/
def FormedSo (need : Option Char) (prefixes suffixes : List Affix) (words : List (Str × Str)) (w : Str) : Prop :=
  ∃ e ∈ words, Form need prefixes suffixes e.1 e.2 w

/-- The text is a form of a stem of the list or of the title form of one. -/
def Formed (U : Unicode) (need : Option Char) (prefixes suffixes : List Affix) (words : List (Str × Str)) (w : Str) : Prop :=
  FormedSo need prefixes suffixes words w ∨
    ∃ e ∈ words, HasTitle U e ∧ Form need prefixes suffixes (titleForm U e.1) e.2 w

/-- The word is correct by the texts which may be written: it has at most 360 bytes and is empty, or without the dots at its
end a number, or made of known words, without the dots at its end or with them. -/
def CorrectBy (U : Unicode) (exact any : Str → Prop) (w : Str) : Prop :=
  (utf8 w).length ≤ 360 ∧
  (w = [] ∨ ∃ t n, w = t ++ List.replicate n '.' ∧ (∀ s, t ≠ s ++ ['.']) ∧
    (IsNumber t ∨ DashedBy (KnownBy U exact any) 9 t ∨ DashedBy (KnownBy U exact any) 9 w))

end Spellbook.Spec
