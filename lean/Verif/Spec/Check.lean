import Verif.Spec.Compound
import Verif.Spec.Casing
import Verif.Model.Check
/-!
# Specification of `check`

The outcome of a call, words which the preparation leaves alone, and the searches for BREAK pieces
and for sharp s.
-/

namespace Spellbook.Spec

/-! ### Outcomes

The model of `check` is given the depth of recursion it may use. A call of the real function has an
outcome if some depth suffices; more never changes it (C26). -/

/-- `check(word)` returns true. -/
def Accepts (C : Checker) (word : Str) : Prop := ∃ fuel, C.check fuel word = .ok true
/-- `check(word)` returns false. -/
def Rejects (C : Checker) (word : Str) : Prop := ∃ fuel, C.check fuel word = .ok false
/-- `check(word)` panics. -/
def Panics (C : Checker) (word : Str) : Prop := ∃ fuel, C.check fuel word = .error .panic
/-- `check(word)` recurses without end. -/
def Diverges (C : Checker) (word : Str) : Prop := ∀ fuel, C.check fuel word = .error .fuel

/-- The lookup of a simple word or a compound decides `word` by an entry with flags `F`. -/
def Finds (C : Checker) (fc : Forceucase) (hh : HiddenHomonym) (word : Str) (F : FlagSet) : Prop :=
  ∃ fuel, C.checkWord fuel word fc hh = .ok (some F)

/-- The lookup of a simple word or a compound finds nothing. -/
def FindsNothing (C : Checker) (fc : Forceucase) (hh : HiddenHomonym) (word : Str) : Prop :=
  ∃ fuel, C.checkWord fuel word fc hh = .ok none

/-- An entry with these flags accepts the word: it is neither forbidden nor, under FORBIDWARN, marked
WARN. -/
def Good (D : Dict) (F : FlagSet) : Prop :=
  D.aff.options.forbiddenWordFlag ∉ F.elems ∧
  ¬ (D.aff.options.forbidWarn = true ∧ Has F D.aff.options.warnFlag)

/-- The word is looked at as it is: at most 360 bytes, not changed by ICONV, without ignored
characters, not empty and not ending with a dot. -/
structure Untouched (C : Checker) (word : Str) : Prop where
  short : (utf8 word).length ≤ 360
  iconv : C.dict.aff.inputConversions.convert word = word
  ignore : ∀ c ∈ word, c ∉ C.dict.aff.ignoreChars
  nonempty : word ≠ []
  dot : ∀ t, word ≠ t ++ ['.']

/-- A lookup of the word either finds nothing or a good entry. -/
def NotBad (C : Checker) (fc : Forceucase) (hh : HiddenHomonym) (word : Str) : Prop :=
  FindsNothing C fc hh word ∨ ∃ F, Finds C fc hh word F ∧ Good C.dict F

/-- The word has the KEEPCASE flag. -/
def KeepsCase (D : Dict) (F : FlagSet) : Prop := Has F D.aff.options.keepCaseFlag

/-! ### BREAK -/

/-- The word is cut around the first occurrence of the pattern. -/
def FirstSplit (pat word a b : Str) : Prop :=
  word = a ++ pat ++ b ∧ ∀ a' b', word = a' ++ pat ++ b' → a.length ≤ a'.length

/-- The word can be cut by BREAK lines, nested at most `depth` deep, into pieces with a positive
verdict, where only words without a verdict are cut. -/
inductive Breaks (lines : List Str) (verdict : Str → Option Bool → Prop) : Nat → Str → Prop
  | direct {depth word} : verdict word (some true) → Breaks lines verdict depth word
  | start {depth word line pat rest} : verdict word none → line ∈ lines → BreakLine line .start pat →
      word = pat ++ rest → Breaks lines verdict depth rest → Breaks lines verdict (depth + 1) word
  | stop {depth word line pat rest} : verdict word none → line ∈ lines → BreakLine line .stop pat →
      word = rest ++ pat → Breaks lines verdict depth rest → Breaks lines verdict (depth + 1) word
  | middle {depth word line pat a b} : verdict word none → line ∈ lines → BreakLine line .middle pat →
      FirstSplit pat word a b → b ≠ [] → Breaks lines verdict depth a → Breaks lines verdict depth b →
      Breaks lines verdict (depth + 1) word

/-- The verdict on a word as a whole, whatever its letter case: that of the entry which decides it. -/
def WholeVerdict (C : Checker) (word : Str) : Option Bool → Prop
  | none => ∃ fuel, C.spellCasing fuel word = .ok none
  | some b => ∃ fuel F, C.spellCasing fuel word = .ok (some F) ∧ (b = true ↔ Good C.dict F)

/-! ### Sharp s -/

/-- `t` is `s` with some of its first `k` occurrences of `ss` (from the left, not overlapping)
replaced by `ß`. -/
inductive Sharp : Nat → Str → Str → Prop
  | all {s} : Sharp 0 s s
  | done {k s} : (∀ a b, s ≠ a ++ ['s', 's'] ++ b) → Sharp (k + 1) s s
  | replace {k s a b t} : FirstSplit ['s', 's'] s a b → Sharp k b t → Sharp (k + 1) s (a ++ ['ß'] ++ t)
  | keep {k s a b t} : FirstSplit ['s', 's'] s a b → Sharp k b t →
      Sharp (k + 1) s (a ++ ['s', 's'] ++ t)

/-! ### All capitals -/

/-- The spellings under which a word in all capitals is looked up besides its lower-case form: as it
is, as an article with apostrophe before a name (`sant'Elia`, `Sant'Elia`), with sharp s, and in
title case. -/
inductive CapsSpelling (C : Checker) (word : Str) : Str → Prop
  | same : CapsSpelling C word word
  | article {a b t} : FirstSplit ['\''] word a b → C.opts.caseHandling.titlecase C.U b = some t →
      CapsSpelling C word (C.lowercase (a ++ ['\'']) ++ t)
  | name {a b s t} : FirstSplit ['\''] word a b →
      C.opts.caseHandling.titlecase C.U (a ++ ['\'']) = some s →
      C.opts.caseHandling.titlecase C.U b = some t → CapsSpelling C word (s ++ t)
  | sharp {s} : C.opts.checksharps = true → (∃ a b, word = a ++ ['S', 'S'] ++ b) →
      Sharp 5 (C.lowercase word) s → CapsSpelling C word s
  | sharpTitle {s t} : C.opts.checksharps = true → (∃ a b, word = a ++ ['S', 'S'] ++ b) →
      C.opts.caseHandling.titlecase C.U word = some t → Sharp 5 t s → CapsSpelling C word s
  | title {t} : C.opts.caseHandling.titlecase C.U word = some t → CapsSpelling C word t

end Spellbook.Spec
