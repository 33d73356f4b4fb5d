import Verif.Spec.Ngram
import Verif.Spec.Expansion
import Verif.Spec.Attempts
import Verif.Spec.Letters
/-!
# Suggestions by similarity: the scores and the choice
-/

namespace Spellbook.Spec

/-! ## Measures -/

/-- For each length up to `n`, as long as all smaller ones have at least two, the number of texts of this
length in `a` which occur in `b`. -/
def likeness (n : Nat) (a b : Str) : Nat :=
  ((List.range' 1 (min n a.length)).map fun k =>
    if ∀ j < k, 1 ≤ j → 2 ≤ hits a b j then hits a b k else 0).sum

/-- By how many characters more than two `b` is longer than `a`. -/
def longer (a b : Str) : Nat := b.length - a.length - 2

/-- By how many characters more than two the lengths differ. -/
def apart (a b : Str) : Nat := max a.length b.length - min a.length b.length - 2

/-- Likeness less the difference of length. -/
def similarity (n : Nat) (a b : Str) : Int := if b = [] then 0 else (likeness n a b : Int) - apart a b

/-- The texts of length `k` in `a` which do not occur in `b`. -/
def misses (a b : Str) (k : Nat) : Nat :=
  ((List.range (grams a k)).filter fun i => ¬ gram a k i <:+: b).length

/-- How many of the two ends of `a` of length `k` do not occur in `b`, where `a` itself is one end only. -/
def endMisses (a b : Str) (k : Nat) : Nat :=
  ((List.range (grams a k)).filter fun i => ¬ gram a k i <:+: b ∧ (i = 0 ∨ i + k = a.length)).length

/-- For each length up to `n` the texts of `a` which occur in `b` less the other ones, of which the ends count
twice; less the difference of length. -/
def weighted (n : Nat) (a b : Str) : Int :=
  if b = [] then 0
  else ((List.range' 1 (min n a.length)).map fun k =>
    (hits a b k : Int) - misses a b k - endMisses a b k).sum - apart a b

/-- The two characters are equal, or the first one is the lower case of the second one, in the language of the
dictionary or in others. -/
def SameLetter (C : Checker) (l r : Char) : Prop :=
  l = r ∨ Small C.U C.opts.caseHandling r [l] ∨ C.U.lower r = [l]

/-- `n` is the length of the common start of `a` and `b`; the first letter of `b` may be a capital. -/
def CommonStart (C : Checker) (a b : Str) (n : Nat) : Prop :=
  (∃ l ls r rs m, a = l :: ls ∧ b = r :: rs ∧ SameLetter C l r ∧ CommonPrefix ls rs m ∧ n = m + 1) ∨
  (n = 0 ∧ ∀ l ls r rs, a = l :: ls → b = r :: rs → ¬ SameLetter C l r)

/-! ## Scores -/

/-- The score of a stem. -/
def RootScore (C : Checker) (w stem : Str) (n : Int) : Prop :=
  ∃ m, CommonStart C w stem m ∧
    n = (m : Int) + likeness 3 w (lowerOf C stem) - longer w (lowerOf C stem)

/-- The first score of a form. -/
def FormScore (C : Checker) (w form : Str) (n : Int) : Prop :=
  ∃ m, CommonStart C w form m ∧ n = (m : Int) + similarity w.length w (lowerOf C form)

/-- The word, where from the `k`-th character on every fourth one is a star. -/
def starred (w : Str) (k : Nat) : Str :=
  (List.range w.length).zipWith (fun i c => if k ≤ i ∧ (i - k) % 4 = 0 then '*' else c) w

/-- The score a form must reach: a third of what three damaged copies of the word reach, which start to be
damaged at the second, third, and fourth character (if there are as many). -/
def threshold (w : Str) : Int :=
  (((([1, 2, 3] : List Nat).filter (· ≤ w.length)).map fun k => likeness w.length w (starred w k)).sum / 3 : Nat)

/-- The second score of a form, by its lower case `low`. -/
def SecondScore (C : Checker) (w low : Str) (n : Int) : Prop :=
  ∃ lcs start bonus swap bad : Nat, LongestCommon w low lcs ∧ CommonStart C w low start ∧
    (bonus = 1 ∧ agreements w low ≠ 0 ∨ bonus = 0 ∧ agreements w low = 0) ∧
    (swap = 10 ∧ Exchanged w low ∨ swap = 0 ∧ ¬ Exchanged w low) ∧
    (bad = 1000 ∧ 5 * (weighted 2 w low + weighted 2 low w) <
        ((w.length : Int) + low.length) * (10 - C.opts.maxDiffFactor) ∨
      bad = 0 ∧ ((w.length : Int) + low.length) * (10 - C.opts.maxDiffFactor) ≤
        5 * (weighted 2 w low + weighted 2 low w)) ∧
    n = 2 * (lcs : Int) - ((max w.length low.length - min w.length low.length : Nat) : Int) + start +
      (weighted 2 w low + weighted 2 low w) + similarity 4 w low + bonus + swap - bad

/-- The forms get their second scores, up to the first one which is the word but for capitals; its first score
is raised by 2000, and the remaining forms keep theirs. -/
inductive Rescored (C : Checker) (w : Str) : List (MinScored Str) → List (MinScored Str) → Prop
  | nil : Rescored C w [] []
  | exact {g gs} : lowerOf C g.inner = w → Rescored C w (g :: gs) (⟨g.score + 2000, g.inner⟩ :: gs)
  | other {g gs gs' n} : lowerOf C g.inner ≠ w → SecondScore C w (lowerOf C g.inner) n → Rescored C w gs gs' →
      Rescored C w (g :: gs) (⟨n, g.inner⟩ :: gs')

/-! ## Choice -/

/-- The texts in turn, except those which contain one that is already there. -/
def unrelated (old : List Str) : List Str → List Str
  | [] => []
  | t :: ts => if ∃ s ∈ old, s <:+: t then unrelated old ts else t :: unrelated (old ++ [t]) ts

/-- There is a form with a score above 1000. -/
def excellent (l : List (MinScored Str)) : Prop := ∃ g ∈ l, 1000 < g.score

instance (l : List (MinScored Str)) : Decidable (excellent l) := by unfold excellent; infer_instance

/-- The forms which are good enough: those above 1000, if there are such forms, else those from -100. -/
def goodForms (l : List (MinScored Str)) : List Str :=
  (l.filter fun g => if excellent l then 1000 < g.score else -100 ≤ g.score).map (·.inner)

/-- The forms below -100. -/
def badForms (l : List (MinScored Str)) : List Str := (l.filter fun g => g.score < -100).map (·.inner)

/-- What is chosen from the forms `l`, in descending order of their scores: the good forms which do not
contain a suggestion; if there is none (and ONLYMAXDIFF is not set), the best of the bad forms, unless it
contains a suggestion. -/
def allChosen (C : Checker) (old : List Str) (l : List (MinScored Str)) : List Str :=
  if unrelated old (goodForms l) = [] ∧ ¬ excellent l ∧ C.opts.onlyMaxDiff = false then
    unrelated old ((badForms l).take 1)
  else unrelated old (goodForms l)

/-- At most MAXNGRAMSUGS are chosen, and no more than 16 with the earlier ones; if there are more than 16
earlier ones, there is no limit. -/
def chosen (C : Checker) (old : List Str) (l : List (MinScored Str)) : List Str :=
  if 16 < old.length then allChosen C old l
  else (allChosen C old l).take (min C.opts.maxNgramSuggestions (16 - old.length))

/-! ## All -/

/-- A listed entry which may be suggested. -/
def Listed (C : Checker) (e : Str × FlagSet) : Prop :=
  e ∈ C.dict.words.slots ∧ C.opts.forbiddenWordFlag ∉ e.2.elems ∧ ¬ Has e.2 C.opts.noSuggestFlag ∧
    ¬ Has e.2 C.opts.onlyInCompoundFlag ∧ 65535 ∉ e.2.elems

open scoped Classical in
/-- The affixes of one kind for a stem with the flags `F` which fit `text`. -/
noncomputable def fitting (D : Dict) (k : Kind) (w : Str) (F : FlagSet) (text : Str) : List Affix :=
  (tableOf D k).filter fun a => Candidate D k w F a ∧ CondHolds k a text ∧ ∃ t, Applies k a text t

open scoped Classical in
/-- `l` are the forms of the entry `(stem, F)`, in order: the stem, if it needs no affix; with a suffix; with a
prefix that fits the form with a suffix which may be combined (but put in front of the stem alone); with a
prefix. -/
def Forms (D : Dict) (w stem : Str) (F : FlagSet) (l : List Str) : Prop :=
  ∃ (suf : List (Affix × Str)) (cross : List (List Str)) (pre : List Str),
    suf.map (·.1) = fitting D .sfx w F stem ∧ (∀ p ∈ suf, Applies .sfx p.1 stem p.2) ∧
    List.Forall₂ (fun p fs => List.Forall₂ (fun a t => Applies .pfx a stem t) (fitting D .pfx w F p.2) fs)
      (suf.filter (·.1.crossproduct)) cross ∧
    List.Forall₂ (fun a t => Applies .pfx a stem t) (fitting D .pfx w F stem) pre ∧
    l = (if Has F D.aff.options.needAffixFlag then [] else [stem]) ++ suf.map (·.2) ++ cross.flatten ++ pre

/-- Highest scores first. -/
def Descending (l : List (MinScored Str)) : Prop := l.Pairwise fun a b => b.score ≤ a.score

open scoped Classical in
/-- `new` are the suggestions by similarity for `w`, if there are the suggestions `old` already: the best 100
listed entries; of their forms, those which reach the threshold, and of these the best 200; these with a second
score; and the choice from these. Which of several texts with the same score comes first is left open. -/
def BySimilarity (C : Checker) (w : Str) (old new : List Str) : Prop :=
  ∃ (entries roots : List (MinScored (Str × FlagSet))) (forms : List (List Str))
    (scored guesses first second last : List (MinScored Str)),
    (entries.map (·.inner)).Perm (C.dict.words.slots.filter fun e => Listed C e) ∧
    (∀ x ∈ entries, RootScore C w x.inner.1 x.score) ∧ BestOf 100 entries roots ∧
    List.Forall₂ (fun root fs => Forms C.dict w root.inner.1 root.inner.2 fs) roots forms ∧
    scored.map (·.inner) = forms.flatten ∧ (∀ x ∈ scored, FormScore C w x.inner x.score) ∧
    BestOf 200 (scored.filter fun x => threshold w ≤ x.score) guesses ∧
    first.Perm guesses ∧ Descending first ∧ Rescored C w first second ∧
    last.Perm second ∧ Descending last ∧ new = chosen C old last

/-! ## Panics -/

/-- `CharsStr` has no room for the text. -/
def TooLong (t : Str) : Prop := 65535 < (utf8 t).length

open scoped Classical in
/-- `roots` are the best 100 listed entries. -/
def BestRoots (C : Checker) (w : Str) (roots : List (MinScored (Str × FlagSet))) : Prop :=
  ∃ entries : List (MinScored (Str × FlagSet)),
    (entries.map (·.inner)).Perm (C.dict.words.slots.filter fun e => Listed C e) ∧
    (∀ x ∈ entries, RootScore C w x.inner.1 x.score) ∧ BestOf 100 entries roots

/-- `first` are the best 200 of those forms of the roots which reach the threshold, the best first. -/
def BestForms (C : Checker) (w : Str) (roots : List (MinScored (Str × FlagSet))) (first : List (MinScored Str)) :
    Prop :=
  ∃ (forms : List (List Str)) (scored guesses : List (MinScored Str)),
    List.Forall₂ (fun root fs => Forms C.dict w root.inner.1 root.inner.2 fs) roots forms ∧
    scored.map (·.inner) = forms.flatten ∧ (∀ x ∈ scored, FormScore C w x.inner x.score) ∧
    BestOf 200 (scored.filter fun x => threshold w ≤ x.score) guesses ∧ first.Perm guesses ∧ Descending first

/-- The search for words similar to `w` panics. -/
inductive SimilarityPanics (C : Checker) (w : Str) : Prop
  /-- The word is too long. -/
  | word : TooLong w → SimilarityPanics C w
  /-- A listed stem is too long, or becomes too long in lower case. -/
  | stem {e} : Listed C e → TooLong e.1 ∨ TooLong (lowerOf C e.1) → SimilarityPanics C w
  /-- A prefix fits one of the best stems with a suffix, but cannot be put in front of the stem alone. -/
  | cross {roots r s p mid mid'} : BestRoots C w roots → r ∈ roots →
      Candidate C.dict .sfx w r.inner.2 s → CondHolds .sfx s r.inner.1 → Applies .sfx s r.inner.1 mid →
      s.crossproduct = true → Candidate C.dict .pfx w r.inner.2 p → CondHolds .pfx p mid → Applies .pfx p mid mid' →
      (¬ ∃ form, Applies .pfx p r.inner.1 form) → SimilarityPanics C w
  /-- A form of one of the best stems is too long. -/
  | form {roots r t} : BestRoots C w roots → r ∈ roots → Expansion C.dict w r.inner.1 r.inner.2 t → TooLong t →
      SimilarityPanics C w
  /-- One of the best forms becomes too long in lower case; or MAXDIFF is above 10, and it is not the word but
  for capitals. No form before it is the word but for capitals. -/
  | score {roots before g after} : BestRoots C w roots → BestForms C w roots (before ++ g :: after) →
      (∀ x ∈ before, lowerOf C x.inner ≠ w) →
      TooLong (lowerOf C g.inner) ∨ (lowerOf C g.inner ≠ w ∧ 10 < C.opts.maxDiffFactor) → SimilarityPanics C w

end Spellbook.Spec
