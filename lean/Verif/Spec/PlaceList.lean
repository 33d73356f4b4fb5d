import Verif.Spec.FormList
import Verif.Spec.Compound
/-!
# Specification of lists of parts for certain places in compounds

A word list whose only other settings are the flags for parts of compounds (COMPOUNDFLAG, COMPOUNDBEGIN, COMPOUNDMIDDLE,
COMPOUNDEND, ONLYINCOMPOUND) and limits (COMPOUNDMIN, COMPOUNDWORDMAX, CHECKCOMPOUNDDUP, CHECKCOMPOUNDTRIPLE,
CHECKCOMPOUNDCASE): which words are correct, told from the list.
-/

namespace Spellbook.Spec

/-- What an `.aff` text says about compounds. -/
structure PlaceRules where
  /-- COMPOUNDFLAG -/
  any : Option Char := none
  /-- COMPOUNDBEGIN -/
  first : Option Char := none
  /-- COMPOUNDMIDDLE -/
  middle : Option Char := none
  /-- COMPOUNDEND -/
  last : Option Char := none
  /-- ONLYINCOMPOUND -/
  only : Option Char := none
  /-- COMPOUNDMIN -/
  min : Option Nat := none
  /-- COMPOUNDWORDMAX -/
  max : Option Nat := none
  /-- CHECKCOMPOUNDDUP -/
  dup : Bool := false
  /-- CHECKCOMPOUNDTRIPLE -/
  triple : Bool := false
  /-- CHECKCOMPOUNDCASE -/
  capital : Bool := false

/-- The settings of an `.aff` text which says this about compounds, and nothing else. -/
def placeSettings (r : PlaceRules) : Cx :=
  { options := {
      compoundFlag := r.any.map Char.toNat
      compoundBeginFlag := r.first.map Char.toNat
      compoundMiddleFlag := r.middle.map Char.toNat
      compoundEndFlag := r.last.map Char.toNat
      onlyInCompoundFlag := r.only.map Char.toNat
      compoundMinLength := r.min
      compoundMaxWordCount := r.max
      compoundCheckDuplicate := r.dup
      compoundCheckTriple := r.triple
      compoundCheckCase := r.capital } }

/-- A word with these flags may stand at the place with this flag. -/
def FlagsAllow (r : PlaceRules) (place : Option Char) (flags : Str) : Prop :=
  ∃ c ∈ flags, r.any = some c ∨ place = some c

/-- The text of words of the list written one after the other. -/
def wordsText (parts : List (Str × Str)) : Str := (parts.map Prod.fst).flatten

/-- The words of the list, one after the other, are a compound: two or more, each long enough and allowed where it stands,
not too many; the last two are not the same, no three equal letters and no capital letter stand where two parts meet, if that
is checked. -/
structure PlacedParts (U : Unicode) (r : PlaceRules) (words parts : List (Str × Str)) : Prop where
  atLeastTwo : 2 ≤ parts.length
  listed : ∀ e ∈ parts, e ∈ words
  long : ∀ e ∈ parts, r.min.getD 3 ≤ e.1.length
  begins : ∀ e behind, parts = e :: behind → FlagsAllow r r.first e.2
  inside : ∀ before e behind, parts = before ++ e :: behind → before ≠ [] → behind ≠ [] → FlagsAllow r r.middle e.2
  ends : ∀ before e, parts = before ++ [e] → FlagsAllow r r.last e.2
  notTooMany : ∀ n, r.max = some n → parts.length ≤ n
  notDouble : r.dup = true → ∀ before e e', parts = before ++ [e, e'] → e.1 ≠ e'.1
  notTriple : r.triple = true → ∀ before behind, parts = before ++ behind → before ≠ [] → behind ≠ [] →
    ¬ ThreeEqual (wordsText before) (wordsText behind)
  notCapital : r.capital = true → ∀ before behind, parts = before ++ behind → before ≠ [] → behind ≠ [] →
    ¬ CapitalAt U (wordsText before) (wordsText behind)

/-- The text is such a compound. -/
def OfPlaced (U : Unicode) (r : PlaceRules) (words : List (Str × Str)) (w : Str) : Prop :=
  ∃ parts, PlacedParts U r words parts ∧ w = wordsText parts

/-- The word may stand alone. -/
def StandsAlone (r : PlaceRules) (flags : Str) : Prop := ∀ c, r.only = some c → c ∉ flags

/-- The text is a word of the list which may stand alone, or a compound. -/
def PlacedSo (U : Unicode) (r : PlaceRules) (words : List (Str × Str)) (w : Str) : Prop :=
  (∃ e ∈ words, StandsAlone r e.2 ∧ w = e.1) ∨ OfPlaced U r words w

/-- The text is such a word, perhaps by its title form, or a compound. -/
def Placed (U : Unicode) (r : PlaceRules) (words : List (Str × Str)) (w : Str) : Prop :=
  PlacedSo U r words w ∨ ∃ e ∈ words, HasTitle U e ∧ StandsAlone r e.2 ∧ w = titleForm U e.1

end Spellbook.Spec
