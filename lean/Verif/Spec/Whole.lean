import Verif.Spec.Search
import Verif.Spec.Attempts
/-!
# Specification of the whole of `check`

When a word is correct, told from the content of the dictionary alone: the entries, the affixes, the
options and the tables. Where several entries or readings could decide a text, a `Choice` says which
of them does; nothing else is left open.

Of the model only the data types are used (and `minChars` and `allowsCompounding`, which are options).
-/

namespace Spellbook.Spec

/-- Which of the derivations of a simple word, of the readings of a part of a compound, and of the
entries for a part of a COMPOUNDRULE compound is looked at. -/
structure Choice where
  simple : HiddenHomonym → Str → Option FlagSet
  read : Mode → Str → Option Piece
  pick : Str → Option (Str × FlagSet)

/-- One is looked at whenever there is one. -/
structure Choice.Fits (D : Dict) (c : Choice) : Prop where
  simple_some : ∀ hh w F, c.simple hh w = some F → ∃ stem steps, Derives .code D hh.skips w stem F steps
  simple_none : ∀ hh w, c.simple hh w = none → ¬ ∃ stem F steps, Derives .code D hh.skips w stem F steps
  read : Readings D c.read
  pick : RulePicks D c.pick

/-- The order in which ways to cut a word are tried by the search with COMPOUNDRULE: where they differ
first, all that remains comes first, and then shorter parts come before longer ones. -/
def Earlier (parts parts' : List (Str × FlagSet)) : Prop :=
  ∃ l x r x' r', parts = l ++ x :: r ∧ parts' = l ++ x' :: r' ∧
    x.1.length ≠ x'.1.length ∧ (r = [] ∨ (r' ≠ [] ∧ x.1.length < x'.1.length))

/-- The word is a COMPOUNDRULE compound of the entries looked at, the first one in order; the last part
but one decides. -/
def RuleDecides (D : Dict) (c : Choice) (fc : Forceucase) (word : Str) (F : FlagSet) : Prop :=
  ∃ l p q, RuleCompound D fc word (l ++ [p, q]) ∧ (∀ e ∈ l ++ [p, q], c.pick e.1 = some e) ∧
    (∀ parts, RuleCompound D fc word parts → (∀ e ∈ parts, c.pick e.1 = some e) →
      parts = l ++ [p, q] ∨ Earlier (l ++ [p, q]) parts) ∧ F = p.2

/-- The flags by which the word is decided as a compound: those of the first part found by the search,
or else those of a COMPOUNDRULE compound. -/
def CompoundDecides (U : Unicode) (D : Dict) (c : Choice) (fc : Forceucase) (word : Str) :
    Option FlagSet → Prop
  | some F =>
    (D.aff.options.allowsCompounding = true ∧
      ∃ depth p, Answers U D fc c.read depth .atBegin 0 [] word (some p) ∧ p.flags = F) ∨
    ((D.aff.options.allowsCompounding = true → ∃ depth, Answers U D fc c.read depth .atBegin 0 [] word none) ∧
      RuleDecides D c fc word F)
  | none =>
    (D.aff.options.allowsCompounding = true → ∃ depth, Answers U D fc c.read depth .atBegin 0 [] word none) ∧
    ¬ ∃ parts, RuleCompound D fc word parts ∧ ∀ e ∈ parts, c.pick e.1 = some e

/-- The flags by which a text is decided: as a simple word, or else as a compound. -/
def Decides (U : Unicode) (D : Dict) (c : Choice) (fc : Forceucase) (hh : HiddenHomonym) (word : Str)
    (o : Option FlagSet) : Prop :=
  (c.simple hh word = o ∧ o ≠ none) ∨ (c.simple hh word = none ∧ CompoundDecides U D c fc word o)

/-- The attempt finds nothing which counts. -/
def Attempt.Fails (C : Checker) (c : Choice) (a : Attempt) : Prop :=
  Decides C.U C.dict c a.upper a.hidden a.text none ∨
  ∃ F, Decides C.U C.dict c a.upper a.hidden a.text (some F) ∧ a.keepCase = false ∧ KeepsCase C.dict F

/-- The attempt finds flags which count. -/
def Attempt.Succeeds (C : Checker) (c : Choice) (a : Attempt) (F : FlagSet) : Prop :=
  Decides C.U C.dict c a.upper a.hidden a.text (some F) ∧ (a.keepCase = true ∨ ¬ KeepsCase C.dict F)

/-- The verdict on a whole word of any letter case: that of the first attempt which finds something. -/
def WordVerdict (C : Checker) (c : Choice) (word : Str) : Option Bool → Prop
  | none => ∃ casing, HasCasing C.U word casing ∧ ∀ a ∈ attempts C word casing, a.Fails C c
  | some b => ∃ casing before a after F, HasCasing C.U word casing ∧
      attempts C word casing = before ++ a :: after ∧ (∀ x ∈ before, x.Fails C c) ∧
      a.Succeeds C c F ∧ (b = true ↔ Good C.dict F)

/-- The word is correct: it has at most 360 bytes, and after ICONV (`converted`) it is empty, or without
the dots at its end a number, or it can be cut by BREAK lines into pieces with a positive verdict,
without dots and ignored characters, or, if there were dots, as it is. -/
def Correct (C : Checker) (c : Choice) (breakLines : List Str) (word converted : Str) : Prop :=
  (utf8 word).length ≤ 360 ∧
  (converted = [] ∨
   ∃ t n, converted = t ++ List.replicate n '.' ∧ (∀ s, t ≠ s ++ ['.']) ∧
    (IsNumber t ∨
     Breaks breakLines (WordVerdict C c) 9 (t.filter fun x => x ∉ C.dict.aff.ignoreChars) ∨
     (0 < n ∧ Breaks breakLines (WordVerdict C c) 9 (t ++ List.replicate n '.'))))

end Spellbook.Spec
