import Verif.Model.Suggest
/-!
# The same dictionary with other names for its flags

A dictionary marks words and affixes with flags, which are numbers. Here every flag `f` of a
dictionary becomes `p f`; nothing else changes.
-/

namespace Spellbook
namespace Spec

/-- A set of flags in which every flag `f` is called `p f`. -/
def renameFlags (p : Nat → Nat) (s : FlagSet) : FlagSet := FlagSet.ofList (s.elems.map p)

/-- An affix with its own flag and its continuation flags renamed. -/
def renameAffix (p : Nat → Nat) (a : Affix) : Affix :=
  { a with flag := p a.flag, flags := renameFlags p a.flags }

/-- The affixes of one kind, in the same order. -/
def renameIndex (p : Nat → Nat) {k : Kind} (idx : AffixIndex k) : AffixIndex k :=
  ⟨idx.table.map (renameAffix p), List.pairwise_map.2 idx.sorted⟩

/-- The options which name a flag. -/
def renameOptions (p : Nat → Nat) (o : AffOptions) : AffOptions :=
  { o with
    onlyInCompoundFlag := o.onlyInCompoundFlag.map p
    circumfixFlag := o.circumfixFlag.map p
    forbiddenWordFlag := p o.forbiddenWordFlag
    keepCaseFlag := o.keepCaseFlag.map p
    needAffixFlag := o.needAffixFlag.map p
    warnFlag := o.warnFlag.map p
    compoundFlag := o.compoundFlag.map p
    compoundBeginFlag := o.compoundBeginFlag.map p
    compoundMiddleFlag := o.compoundMiddleFlag.map p
    compoundEndFlag := o.compoundEndFlag.map p
    compoundPermitFlag := o.compoundPermitFlag.map p
    compoundForbidFlag := o.compoundForbidFlag.map p
    compoundRootFlag := o.compoundRootFlag.map p
    compoundForceUppercaseFlag := o.compoundForceUppercaseFlag.map p
    noSuggestFlag := o.noSuggestFlag.map p
    substandardFlag := o.substandardFlag.map p }

/-- The flags in a COMPOUNDRULE. -/
def renameRule (p : Nat → Nat) (r : CompoundRule) : CompoundRule :=
  r.map fun e => { e with flag := p e.flag }

/-- The flags in a CHECKCOMPOUNDPATTERN. -/
def renamePattern (p : Nat → Nat) (c : CompoundPattern) : CompoundPattern :=
  { c with firstWordFlag := c.firstWordFlag.map p, secondWordFlag := c.secondWordFlag.map p }

/-- How the flags of a dictionary are written in its files: the FLAG type and the AF aliases. -/
structure Writing where
  flagType : FlagType
  aliases : List FlagSet

/-- The data of an affix file, with the flags renamed and written in another way. -/
def renameAff (p : Nat → Nat) (W : Writing) (d : AffData) : AffData :=
  { d with
    prefixes := renameIndex p d.prefixes
    suffixes := renameIndex p d.suffixes
    compoundRules := ⟨d.compoundRules.rules.map (renameRule p)⟩
    compoundPatterns := d.compoundPatterns.map (renamePattern p)
    options := renameOptions p d.options
    flagType := W.flagType
    flagAliases := W.aliases }

/-- A word of the word list with its flags. -/
def renameEntry (p : Nat → Nat) (e : Str × FlagSet) : Str × FlagSet := (e.1, renameFlags p e.2)

/-- A dictionary. -/
def renameDict (p : Nat → Nat) (W : Writing) (d : Dict) : Dict :=
  ⟨⟨d.words.slots.map (renameEntry p)⟩, renameAff p W d.aff⟩

/-- A checker for the dictionary with other names for its flags. -/
def renameChecker (p : Nat → Nat) (W : Writing) (C : Checker) : Checker :=
  { C with dict := renameDict p W C.dict }

/-- A suggester for the dictionary with other names for its flags. -/
def renameSuggester (p : Nat → Nat) (W : Writing) (S : Suggester) : Suggester :=
  { S with C := renameChecker p W S.C }

/-- What a renaming has to respect: different flags stay different, and the flags which the library
itself knows by their number keep it. These are the mark of entries it adds on its own, 65535, and, in
a dictionary which counts syllables, the flags `c`, `I` and `J`. -/
structure Renaming (p : Nat → Nat) (d : AffData) : Prop where
  injective : ∀ f g, p f = p g → f = g
  hidden : p 65535 = 65535
  syllables : d.compoundSyllableVowels ≠ [] → p 99 = 99 ∧ p 73 = 73 ∧ p 74 = 74

/-- The heaps order their entries by score alone: what is stored with the scores does not matter. -/
structure ByScore (H : Heaps) : Prop where
  push : ∀ {α β : Type} (g : α → β) (h : List (MinScored α)) (x : MinScored α),
    H.push (h.map fun e => ⟨e.score, g e.inner⟩) ⟨x.score, g x.inner⟩
      = (H.push h x).map fun e => ⟨e.score, g e.inner⟩
  pop : ∀ {α β : Type} (g : α → β) (h : List (MinScored α)),
    H.pop (h.map fun e => ⟨e.score, g e.inner⟩)
      = (H.pop h).map fun r => (⟨r.1.score, g r.1.inner⟩, r.2.map fun e => ⟨e.score, g e.inner⟩)

end Spec
end Spellbook
