import Verif.Model.Simple
import Verif.Spec.Affix
import Verif.Spec.Condition
/-!
# Specification of derived words

Which words can be made from the entries of a word list with the rules of an affix file. Nothing
here searches: there are no tables of bytes, no fast lanes, no order of lookups.
-/

namespace Spellbook.Spec

/-- A set of flags has an optional special flag (NEEDAFFIX, CIRCUMFIX, …): the affix file defines it
and it is in the set. -/
def Has (F : FlagSet) (f : Option Nat) : Prop := ∃ x, f = some x ∧ x ∈ F.elems

/-- The affixes of one kind. -/
def tableOf (D : Dict) : Kind → List Affix
  | .pfx => D.aff.prefixes.table
  | .sfx => D.aff.suffixes.table

/-- The affix turns `stem` into `word`. -/
def Applies (k : Kind) (a : Affix) (stem word : Str) : Prop :=
  match k with
  | .pfx => PrefixApplies (a.strip.getD []) a.add stem word
  | .sfx => SuffixApplies (a.strip.getD []) a.add stem word

/-- The condition of the affix holds at the start (prefix) or end (suffix) of the text. -/
def CondHolds (k : Kind) (a : Affix) (text : Str) : Prop :=
  ∀ c, a.condition = some c → ∃ es, IsCondition c.pattern es ∧
    match k with
    | .pfx => MatchesStart es text
    | .sfx => MatchesEnd es text

/-- The affix is in the affix file, turns `stem` into `word`, and its condition holds on `stem`. -/
structure Step (D : Dict) (k : Kind) (a : Affix) (stem word : Str) : Prop where
  mem : a ∈ tableOf D k
  applies : Applies k a stem word
  cond : CondHolds k a stem

/-- An entry of the word list that may be used for a full word: not marked ONLYINCOMPOUND, and not
one of the hidden title-case twins when those are to be skipped. -/
structure Usable (D : Dict) (skipHidden : Bool) (stem : Str) (F : FlagSet) : Prop where
  listed : (stem, F) ∈ D.words.slots
  not_only_in_compound : ¬ Has F D.aff.options.onlyInCompoundFlag
  not_hidden : skipHidden = true → 65535 ∉ F.elems

/-- The affix may be used in a full word. -/
def InFullWord (D : Dict) (a : Affix) : Prop := ¬ Has a.flags D.aff.options.onlyInCompoundFlag
/-- The affix needs another affix. -/
def NeedsAffix (D : Dict) (a : Affix) : Prop := Has a.flags D.aff.options.needAffixFlag
/-- The affix is one half of a circumfix. -/
def Circumfix (D : Dict) (a : Affix) : Prop := Has a.flags D.aff.options.circumfixFlag

/-- Which kind of affix may occur twice: prefixes under COMPLEXPREFIXES, suffixes otherwise. -/
def doubled (D : Dict) : Kind := if D.aff.options.complexPrefixes then .pfx else .sfx

/-- Two places where the code does something else than documented.

* `midCond`: the condition of the middle affix of an interleaved triple is tested on the text with
  that affix already applied.
* `lane`: for two affixes of one kind and then one of the other kind, the flag of the second affix
  must be a continuation flag of some *suffix* (with two prefixes: a wrong "fast lane"). -/
structure Quirks where
  midCond : Bool
  lane : Bool

/-- The documented meaning. -/
def Quirks.none : Quirks := ⟨false, false⟩
/-- The meaning the code has. -/
def Quirks.code : Quirks := ⟨true, true⟩

/-- The word can be made from the entry `(stem, F)` with the given affixes, innermost first. -/
inductive Derives (quirks : Quirks) (D : Dict) (skipHidden : Bool) (word stem : Str) (F : FlagSet) :
    List (Kind × Affix) → Prop
  /-- A listed word. -/
  | listed (entry : Usable D skipHidden stem F) (same : word = stem)
      (plain : ¬ Has F D.aff.options.needAffixFlag) : Derives quirks D skipHidden word stem F []
  /-- One affix, licensed by a flag of the stem. -/
  | one {k a} (entry : Usable D skipHidden stem F) (step : Step D k a stem word)
      (licence : a.flag ∈ F.elems)
      (full : InFullWord D a) (alone : ¬ NeedsAffix D a) (nocirc : ¬ Circumfix D a) :
      Derives quirks D skipHidden word stem F [(k, a)]
  /-- A suffix and a prefix. One of them is licensed by the stem, the other one by the stem or by
  the first, and the second one does not need a further affix. -/
  | pair {s p mid} (entry : Usable D skipHidden stem F)
      (step1 : Step D .sfx s stem mid) (step2 : Step D .pfx p mid word)
      (cross : s.crossproduct = true ∧ p.crossproduct = true)
      (full : InFullWord D s ∧ InFullWord D p)
      (circ : Circumfix D s ↔ Circumfix D p)
      (licence :
        (¬ NeedsAffix D p ∧ s.flag ∈ F.elems ∧ (p.flag ∈ s.flags.elems ∨ p.flag ∈ F.elems)) ∨
        (¬ NeedsAffix D s ∧ p.flag ∈ F.elems ∧ (s.flag ∈ p.flags.elems ∨ s.flag ∈ F.elems))) :
      Derives quirks D skipHidden word stem F [(.sfx, s), (.pfx, p)]
  /-- Two affixes of the same kind, the outer licensed by the inner. -/
  | two {inner outer mid} (entry : Usable D skipHidden stem F)
      (step1 : Step D (doubled D) inner stem mid) (step2 : Step D (doubled D) outer mid word)
      (full : InFullWord D inner ∧ InFullWord D outer)
      (alone : ¬ NeedsAffix D outer)
      (nocirc : ¬ Circumfix D inner ∧ ¬ Circumfix D outer)
      (licence : inner.flag ∈ F.elems ∧ outer.flag ∈ inner.flags.elems) :
      Derives quirks D skipHidden word stem F [(doubled D, inner), (doubled D, outer)]
  /-- Two affixes of the same kind, then one of the other kind, the latter licensed by the stem or
  by the second. -/
  | twoThenOne {inner outer last mid1 mid2} (entry : Usable D skipHidden stem F)
      (step1 : Step D (doubled D) inner stem mid1) (step2 : Step D (doubled D) outer mid1 mid2)
      (step3 : Step D (doubled D).other last mid2 word)
      (cross : outer.crossproduct = true ∧ last.crossproduct = true)
      (full : InFullWord D inner ∧ InFullWord D outer ∧ InFullWord D last)
      (alone : ¬ NeedsAffix D last)
      (circ : ¬ Circumfix D inner ∧ (Circumfix D outer ↔ Circumfix D last))
      (licence : inner.flag ∈ F.elems ∧ outer.flag ∈ inner.flags.elems ∧
        (last.flag ∈ outer.flags.elems ∨ last.flag ∈ F.elems))
      (quirk : quirks.lane = true → ∃ s ∈ tableOf D .sfx, outer.flag ∈ s.flags.elems) :
      Derives quirks D skipHidden word stem F
        [(doubled D, inner), (doubled D, outer), ((doubled D).other, last)]
  /-- Two affixes of the same kind with one of the other kind applied in between. -/
  | sandwich {inner mid outer mid1 mid2} (entry : Usable D skipHidden stem F)
      (step1 : Step D (doubled D) inner stem mid1)
      (mem2 : mid ∈ tableOf D (doubled D).other) (applies2 : Applies (doubled D).other mid mid1 mid2)
      (cond2 : CondHolds (doubled D).other mid (if quirks.midCond then mid2 else mid1))
      (step3 : Step D (doubled D) outer mid2 word)
      (cross : inner.crossproduct = true ∧ mid.crossproduct = true ∧ outer.crossproduct = true)
      (full : InFullWord D inner ∧ InFullWord D mid ∧ InFullWord D outer)
      (alone : ¬ NeedsAffix D outer)
      (circ : ((Circumfix D mid ↔ Circumfix D outer) ∧ ¬ Circumfix D inner) ∨
        ((Circumfix D mid ↔ Circumfix D inner) ∧ ¬ Circumfix D outer))
      (licence : inner.flag ∈ F.elems ∧ (mid.flag ∈ inner.flags.elems ∨ mid.flag ∈ F.elems) ∧
        (outer.flag ∈ inner.flags.elems ∨ outer.flag ∈ mid.flags.elems)) :
      Derives quirks D skipHidden word stem F
        [(doubled D, inner), ((doubled D).other, mid), (doubled D, outer)]

/-- The text `word` is made from `stem` by applying the affixes one after the other, each of them in
the affix file. Conditions and flags are not looked at. -/
inductive MadeBy (D : Dict) : Str → List (Kind × Affix) → Str → Prop
  | nil {s} : MadeBy D s [] s
  | cons {k a s t w rest} : a ∈ tableOf D k → Applies k a s t → MadeBy D t rest w →
      MadeBy D s ((k, a) :: rest) w

/-- Every condition in the affix tables is the result of parsing its text. The parser
(`src/aff/parser.rs`) makes conditions in no other way. -/
def _root_.Spellbook.Dict.CondsParsed (D : Dict) : Prop :=
  ∀ k, ∀ a ∈ tableOf D k, ∀ c, a.condition = some c → Condition.parse c.pattern = .ok c

end Spellbook.Spec
