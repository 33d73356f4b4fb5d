import Verif.Spec.Suggest
import Verif.Spec.Attempts
import Verif.Spec.Similar
/-!
# The suggestions for a word, by its letter case

The proposals for one spelling of a word, in order, and which spellings count for which letter case.
-/

namespace Spellbook.Spec

/-! ## One spelling -/

open scoped Classical in
/-- The texts that may be suggested. -/
noncomputable def suggestables (C : Checker) (fuel : Nat) (texts : List Str) : List Str :=
  texts.filter fun t => Suggestable C fuel t

open scoped Classical in
/-- The REP replacements which are words, or sequences of words. -/
noncomputable def repWords (C : Checker) (fuel : Nat) (w : Str) : List Str :=
  (reworded C.aff.replacements.whole C.aff.replacements.start C.aff.replacements.stop
    C.aff.replacements.anywhere w).filter fun t => Suggestable C fuel t ∨ SpacedWords C fuel t

/-- The word in two, with a space or a dash. -/
def inTwo (C : Checker) (a b : Str) : List Str :=
  if (C.checkSimpleWord a .skip).isSome = true ∧ (C.checkSimpleWord b .skip).isSome = true then
    (a ++ ' ' :: b) ::
      if 2 ≤ a.length ∧ 2 ≤ b.length ∧ ('a' ∈ C.aff.tryChars ∨ '-' ∈ C.aff.tryChars) then [a ++ '-' :: b] else []
  else []

/-- All ways to split the word in two words. -/
def splitWords (C : Checker) (w : Str) : List Str :=
  if C.opts.noSplitSuggestions = true then [] else (splits w).flatMap fun s => inTwo C s.1 (s.2.1 :: s.2.2)

/-- The proposals of high quality: upper case, REP, MAP; `n` is the number of attempts. -/
noncomputable def goodProposals (C : Checker) (fuel n : Nat) (w : Str) : List Str :=
  suggestables C fuel [upperOf C w] ++ repWords C fuel w ++
    suggestables C fuel ((similarTexts C.aff.similarities (n + 1) w).take n)

/-- All proposals, in the order of the methods. -/
noncomputable def proposals (C : Checker) (fuel n : Nat) (w : Str) : List Str :=
  goodProposals C fuel n w ++
  suggestables C fuel (neighboursSwapped w ++ pairsSwapped w) ++
  suggestables C fuel ((swapped w).take n) ++
  suggestables C fuel (mistyped C.U C.aff.keyboardCloseness w) ++
  suggestables C fuel (dropped w) ++
  suggestables C fuel ((inserted C.aff.tryChars w).take n) ++
  suggestables C fuel ((movedRight w ++ movedLeft w).take n) ++
  suggestables C fuel ((replaced C.aff.tryChars w).take n) ++
  suggestables C fuel (undoubled w) ++
  splitWords C w

/-- There are proposals of high quality; or there are MAP groups and the word itself is found, if parts
marked FORCEUCASE may end a compound. -/
def HighQuality (C : Checker) (fuel n : Nat) (w : Str) : Prop :=
  goodProposals C fuel n w ≠ [] ∨
    (C.aff.similarities ≠ [] ∧ ∃ F, C.checkWord fuel w .allowBad .skip = .ok (some F))

/-- An estimate of the cost of looking up one word, by the number `p` of twenties of prefixes and `s` of
suffixes: all combinations of at most one of each, and of two affixes of the kind which may be doubled (at the
front if COMPLEXPREFIXES is set, else at the end) with at most one of the other kind, on either side. -/
def lookupCost (C : Checker) : Nat :=
  let p := C.aff.prefixes.table.length / 20
  let s := C.aff.suffixes.table.length / 20
  (1 + p) * (1 + s) + if C.opts.complexPrefixes = true then p ^ 2 * (1 + 2 * s) else s ^ 2 * (1 + 2 * p)

/-- How many texts the limited methods try: 25·10⁹ by the cost of a lookup, at least 1 and at most 100000;
with compounds also by the number of bytes of the word. -/
def editBudget (C : Checker) (w : Str) : Nat :=
  let n := max 1 (min 100000 (25000000000 / lookupCost C))
  if C.opts.compoundFlag ≠ none ∨ C.opts.compoundBeginFlag ≠ none ∨ C.opts.compoundMiddleFlag ≠ none ∨
    C.opts.compoundEndFlag ≠ none then n / (utf8 w).length else n

/-- `l` are the proposals for the spelling `w`, and `good` says whether their quality is high. -/
def Proposed (C : Checker) (fuel : Nat) (w : Str) (good : Prop) (l : List Str) : Prop :=
  l = proposals C fuel (editBudget C w) w ∧ (good ↔ HighQuality C fuel (editBudget C w) w)

/-- How many letters may stand for `c`: the other letters of the groups with `c`. -/
def otherLetters (sims : List SimilarityGroup) (c : Char) : Nat :=
  (sims.map fun g => if c ∈ g.chars then (g.chars.filter fun d => d ≠ c).length else 0).sum

/-- `t` is another text with the letters of `w` or similar ones, the MAP groups have letters only, and not more than `n`
texts are such. -/
def SimilarLetters (sims : List SimilarityGroup) (n : Nat) (w t : Str) : Prop :=
  (∀ g ∈ sims, g.strings = []) ∧ w.length ≤ n ∧ (w.map fun c => 1 + otherLetters sims c).prod ≤ n + 1 ∧ t ≠ w ∧
  List.Forall₂ (fun c d => c = d ∨ ∃ g ∈ sims, c ∈ g.chars ∧ d ∈ g.chars) w t

/-- `t` is an accepted text, neither forbidden nor warned against, one edit or REP replacement away from
`w`; or a REP replacement that is a sequence of words; or `w` split in two. Edits of which only a limited number
is tried, and MAP for groups of letters, count if the budget reaches for all of them. -/
def Correction (C : Checker) (fuel : Nat) (w t : Str) : Prop :=
  (SmallEdit C w t ∧ Suggestable C fuel t) ∨
  (Replaced C w t ∧ (Suggestable C fuel t ∨ SpacedWords C fuel t)) ∨ TwoWords C w t ∨
  ((w.length + C.aff.tryChars.length) * (w.length + 1) ≤ editBudget C w ∧ LongEdit C w t ∧ Suggestable C fuel t) ∨
  (SimilarLetters C.aff.similarities (editBudget C w) w t ∧ Suggestable C fuel t)

/-! ## The spellings -/

/-- The spelling itself, if it is correct. -/
def IfCorrect (C : Checker) (fuel : Nat) (w : Str) (l : List Str) : Prop :=
  (C.check fuel w = .ok true ∧ l = [w]) ∨ (C.check fuel w = .ok false ∧ l = [])

/-- The word with a space behind its first dot, if an initial capital follows. -/
def DotSpace (U : Unicode) (w : Str) (l : List Str) : Prop :=
  (∃ a b, w = a ++ '.' :: b ∧ '.' ∉ a ∧ classifyCasing U b = .init ∧ l = [a ++ '.' :: ' ' :: b]) ∨
  (l = [] ∧ ∀ a b, w = a ++ '.' :: b → '.' ∉ a → classifyCasing U b ≠ .init)

/-- `s` is `t` with a capital behind its first space; what follows the space is no end of `w`. -/
def SecondCapital (C : Checker) (w t s : Str) : Prop :=
  ∃ a c b, t = a ++ ' ' :: c :: b ∧ ' ' ∉ a ∧ ¬ (c :: b) <:+ w ∧
    s = a ++ ' ' :: (C.opts.caseHandling.upperChar C.U c ++ b)

/-- The texts are divided into those which get a second capital, and the others. -/
inductive Divided (C : Checker) (w : Str) : List Str → List Str → List Str → Prop
  | nil : Divided C w [] [] []
  | moved {t s ts ms ks} : SecondCapital C w t s → Divided C w ts ms ks → Divided C w (t :: ts) (s :: ms) ks
  | kept {t ts ms ks} : (∀ s, ¬ SecondCapital C w t s) → Divided C w ts ms ks → Divided C w (t :: ts) ms (t :: ks)

/-- Texts with a second capital come first, the last one at the front. -/
def SecondFirst (C : Checker) (w : Str) (l l' : List Str) : Prop :=
  ∃ ms ks, Divided C w l ms ks ∧ l' = ms.reverse ++ ks

/-- The suggestions for the spellings of a word of the given letter case, in order, and whether some of
them are good. -/
inductive Spellings (C : Checker) (fuel : Nat) (w : Str) : Casing → Prop → List Str → Prop
  /-- Lower case: as it is. -/
  | none {g p} : Proposed C fuel w g p → Spellings C fuel w .none g p
  /-- Initial capital: as it is, and in lower case. -/
  | init {g p g' p'} : Proposed C fuel w g p → Proposed C fuel (lowerOf C w) g' p' →
      Spellings C fuel w .init (g ∨ g') (p ++ p')
  /-- All capitals: in lower case and with an initial capital, all put in capitals. In front, under
  KEEPCASE, the correct word in lower case. -/
  | all {l g p g' p'} :
      (C.opts.keepCaseFlag = none ∧ l = [] ∨
        C.opts.keepCaseFlag ≠ none ∧ IfCorrect C fuel (lowerOf C w) l) →
      Proposed C fuel (lowerOf C w) g p → Proposed C fuel (titleOf C (lowerOf C w)) g' p' →
      Spellings C fuel w .all (g ∨ g') ((l ++ p ++ p').map (upperOf C))
  /-- Inner capitals, first letter in lower case: as it is and in lower case. -/
  | camel {d g p l g' p' r} : Proposed C fuel w g p → DotSpace C.U w d →
      Proposed C fuel (lowerOf C w) g' p' → IfCorrect C fuel (lowerOf C w) l →
      SecondFirst C w (l ++ d ++ p ++ p') r → Spellings C fuel w .camel (g ∨ g') r
  /-- Inner capitals, first letter a capital: as it is, with the first letter in lower case, in lower case
  and with an initial capital. -/
  | pascal {d g p f f' gf pf l g' p' t gt pt r} : Proposed C fuel w g p → DotSpace C.U w d →
      C.opts.caseHandling.lowerFirstChar C.U w = some f →
      Proposed C fuel f gf pf → IfCorrect C fuel f f' →
      Proposed C fuel (lowerOf C w) g' p' → IfCorrect C fuel (lowerOf C w) l →
      Proposed C fuel (titleOf C w) gt pt → IfCorrect C fuel (titleOf C w) t →
      SecondFirst C w (t ++ l ++ f' ++ d ++ p ++ pf ++ p' ++ pt) r →
      Spellings C fuel w .pascal (g ∨ gf ∨ g' ∨ gt) r

/-! ## Similar words -/

/-- The text compared with the listed words. -/
def compared (C : Checker) (w : Str) : Casing → Str
  | .none => w
  | _ => lowerOf C w

/-- `new` are the suggestions by similarity: only if similarity is on, there is no good suggestion, and
MAXNGRAMSUGS is not 0; in capitals for a word in capitals. Each is a form of a listed entry. There are at most
MAXNGRAMSUGS, and no more than 16 with the other ones (unless there are more than 16 already). -/
structure SimilarWords (S : Suggester) (w : Str) (casing : Casing) (good : Prop) (old new : List Str) : Prop where
  none : ¬ (S.ngram = true ∧ ¬ good ∧ S.C.opts.maxNgramSuggestions ≠ 0) → new = []
  some : S.ngram = true → ¬ good → S.C.opts.maxNgramSuggestions ≠ 0 →
    ∃ l, BySimilarity S.C (compared S.C w casing) old l ∧ new = if casing = .all then l.map (upperOf S.C) else l
  listed : ∀ t ∈ new, ∃ s, Lookalike S.C (compared S.C w casing) s ∧
    t = if casing = .all then upperOf S.C s else s
  few : old.length ≤ 16 → new.length ≤ S.C.opts.maxNgramSuggestions ∧ old.length + new.length ≤ 16

/-! ## The end -/

/-- `s` is `t` with its first character in upper case. -/
def Capital (C : Checker) (t s : Str) : Prop :=
  ∃ c b, t = c :: b ∧ s = C.opts.caseHandling.upperChar C.U c ++ b

/-- What becomes of a suggestion which is looked up again: texts with a space stay; others stay if they are
correct; if not, they are replaced by their lower case or their title case if that is correct; if that is not
correct either, they are dropped. -/
inductive Rechecked (C : Checker) (fuel : Nat) : Str → List Str → Prop
  | space {t} : ' ' ∈ t → Rechecked C fuel t [t]
  | correct {t} : ' ' ∉ t → C.check fuel t = .ok true → Rechecked C fuel t [t]
  | lower {t} : ' ' ∉ t → C.check fuel t = .ok false → C.check fuel (lowerOf C t) = .ok true →
      Rechecked C fuel t [lowerOf C t]
  | title {t} : ' ' ∉ t → t ≠ [] → C.check fuel t = .ok false → C.check fuel (lowerOf C t) = .ok false →
      C.check fuel (titleOf C t) = .ok true → Rechecked C fuel t [titleOf C t]
  | wrong {t} : ' ' ∉ t → t ≠ [] → C.check fuel t = .ok false → C.check fuel (lowerOf C t) = .ok false →
      C.check fuel (titleOf C t) = .ok false → Rechecked C fuel t []

/-- What becomes of the suggestions in the end, before duplicates are removed. -/
inductive Ending (C : Checker) (fuel : Nat) : Casing → List Str → List Str → Prop
  | none {l} : Ending C fuel .none l l
  | camel {l} : Ending C fuel .camel l l
  | pascal {l caps} : List.Forall₂ (Capital C) l caps → Ending C fuel .pascal l caps
  | init {l caps parts} : List.Forall₂ (Capital C) l caps → List.Forall₂ (Rechecked C fuel) caps parts →
      Ending C fuel .init l parts.flatten
  | all {l parts} : List.Forall₂ (Rechecked C fuel) l parts → Ending C fuel .all l parts.flatten

end Spellbook.Spec
