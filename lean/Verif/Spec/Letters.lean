import Verif.Model.Casing
/-!
# Specification of lower, upper, and title case

What the letters of a text become, told letter by letter. In Turkish, Azerbaijani and Crimean Tatar the i
with a dot and the i without one are two letters, each with a small and a capital form.
-/

namespace Spellbook.Spec

/-- The two letters, small and capital. -/
def TurkicPair (small capital : Char) : Prop :=
  (small = 'i' ∧ capital = 'İ') ∨ (small = 'ı' ∧ capital = 'I')

/-- `t` is the letter `c` in lower case. -/
inductive Small (U : Unicode) : CaseHandling → Char → Str → Prop
  | pair {s c} : TurkicPair s c → Small U .turkic c [s]
  | other {c} : (∀ s, ¬ TurkicPair s c) → Small U .turkic c (U.lower c)
  | standard {c} : Small U .standard c (U.lower c)

/-- `t` is the letter `c` in upper case. -/
inductive Large (U : Unicode) : CaseHandling → Char → Str → Prop
  | pair {s c} : TurkicPair s c → Large U .turkic s [c]
  | other {s} : (∀ c, ¬ TurkicPair s c) → Large U .turkic s (U.upper s)
  | standard {s} : Large U .standard s (U.upper s)

/-- Letter by letter. -/
inductive Each (P : Char → Str → Prop) : Str → Str → Prop
  | nil : Each P [] []
  | cons {c s p t} : P c p → Each P s t → Each P (c :: s) (p ++ t)

/-- The text starts with a letter which has case, up to marks which do not count for it. -/
def StartsCased (U : Unicode) (s : Str) : Prop :=
  ∃ a c b, s = a ++ c :: b ∧ (∀ x ∈ a, U.caseIgnorable x = true) ∧ U.caseIgnorable c = false ∧ U.cased c = true

/-- A sigma between these texts ends a word: there is a letter before it and none after it. -/
def EndsWord (U : Unicode) (before after : Str) : Prop :=
  StartsCased U before.reverse ∧ ¬ StartsCased U after

/-- `t` is the lower case of the text `s`, which stands behind `before`: letter by letter, but a capital
sigma has two small forms, one of them at the end of words. -/
inductive SmallText (U : Unicode) (h : CaseHandling) : Str → Str → Str → Prop
  | nil {before} : SmallText U h before [] []
  | last {before s t} : EndsWord U before s → SmallText U h (before ++ ['Σ']) s t →
      SmallText U h before ('Σ' :: s) ('ς' :: t)
  | sigma {before s t} : ¬ EndsWord U before s → SmallText U h (before ++ ['Σ']) s t →
      SmallText U h before ('Σ' :: s) ('σ' :: t)
  | letter {before c s p t} : c ≠ 'Σ' → Small U h c p → SmallText U h (before ++ [c]) s t →
      SmallText U h before (c :: s) (p ++ t)

/-- `t` is the title case of `w`: the first letter in upper case, the others in lower case. -/
def TitleText (U : Unicode) (h : CaseHandling) (w t : Str) : Prop :=
  ∃ c s p q, w = c :: s ∧ Large U h c p ∧ Each (Small U h) s q ∧ t = p ++ q

/-- What Unicode says about the four letters: the small ones stay as they are in lower case and the capital
ones in upper case, and all four have case. -/
structure KnowsI (U : Unicode) : Prop where
  lower : U.lower 'i' = ['i'] ∧ U.lower 'ı' = ['ı']
  upper : U.upper 'I' = ['I'] ∧ U.upper 'İ' = ['İ']
  cased : ∀ c ∈ ['i', 'ı', 'I', 'İ'], U.cased c = true ∧ U.caseIgnorable c = false

end Spellbook.Spec
