import Verif.Spec.Edits
import Verif.Spec.Expansion
import Verif.Spec.History
import Verif.Model.Suggest
/-!
# What a suggestion is

The sense in which a text is one edit away from a word, and in which a text may be suggested.
-/

namespace Spellbook.Spec

/-- `suggest(word, out)` leaves `r` in the vector. -/
def Suggests (S : Suggester) (word : Str) (out r : List Str) : Prop :=
  ∃ fuel depth, S.suggest fuel depth word out = .ok r
/-- `suggest(word, out)` panics. -/
def SuggestPanics (S : Suggester) (word : Str) (out : List Str) : Prop :=
  ∃ fuel depth, S.suggest fuel depth word out = .error .panic
/-- `suggest(word, out)` recurses without end. -/
def SuggestDiverges (S : Suggester) (word : Str) (out : List Str) : Prop :=
  ∀ fuel depth, S.suggest fuel depth word out = .error .fuel

/-- The items which are not in `seen` and did not occur before. -/
def firsts {α : Type} [DecidableEq α] : (seen : List α) → List α → List α
  | _, [] => []
  | seen, x :: xs => if x ∈ seen then firsts seen xs else x :: firsts (x :: seen) xs

/-- The word lookup accepts the text, and it is neither forbidden nor warned against. -/
def Suggestable (C : Checker) (fuel : Nat) (t : Str) : Prop :=
  ∃ F, C.checkWord fuel t .forbidBad .skip = .ok (some F) ∧ C.opts.forbiddenWordFlag ∉ F.elems ∧
    ¬ (C.opts.forbidWarn = true ∧ Has F C.opts.warnFlag)

/-- `t` is `w` in upper case, or with one edit that is always tried. -/
inductive SmallEdit (C : Checker) (w : Str) : Str → Prop
  /-- Upper case. -/
  | upper : SmallEdit C w (C.opts.caseHandling.uppercase C.U w)
  /-- Two neighbours swapped. -/
  | swap {a x y b} : w = a ++ x :: y :: b → SmallEdit C w (a ++ y :: x :: b)
  /-- Two pairs of neighbours swapped in a word of four characters. -/
  | swap4 {a b c d} : w = [a, b, c, d] → SmallEdit C w [b, a, d, c]
  /-- Two pairs of neighbours swapped in a word of five characters. -/
  | swap5 {a b c d e} : w = [a, b, c, d, e] → SmallEdit C w [b, a, c, e, d]
  /-- Two pairs of neighbours swapped in a word of five characters. -/
  | swap5' {a b c d e} : w = [a, b, c, d, e] → SmallEdit C w [a, c, b, e, d]
  /-- One character in upper case. -/
  | shift {a c b} : w = a ++ c :: b → C.U.upper c ≠ [c] → SmallEdit C w (a ++ (C.U.upper c ++ b))
  /-- A key beside the right one. -/
  | key {a c k b} : w = a ++ c :: b → k ≠ '|' →
      [k, c] <:+: C.aff.keyboardCloseness ∨ [c, k] <:+: C.aff.keyboardCloseness →
      SmallEdit C w (a ++ k :: b)
  /-- One character too many. -/
  | extra {a c b} : w = a ++ c :: b → SmallEdit C w (a ++ b)
  /-- A pair of characters typed twice, not at the end of the word. -/
  | doubled {a x y b} : w = a ++ ([x, y, x, y, x] ++ b) → b ≠ [] →
      SmallEdit C w (a ++ ([x, y, x] ++ b))

/-- `t` is `w` with one edit of which only a limited number is tried. -/
inductive LongEdit (C : Checker) (w : Str) : Str → Prop
  /-- Any two characters swapped. -/
  | swapAny {a x m y b} : w = a ++ x :: (m ++ y :: b) → LongEdit C w (a ++ y :: (m ++ x :: b))
  /-- A character missing. -/
  | forgotten {a c b} : w = a ++ b → c ∈ C.aff.tryChars → LongEdit C w (a ++ c :: b)
  /-- A wrong character. -/
  | wrong {a d c b} : w = a ++ d :: b → c ∈ C.aff.tryChars → c ≠ d → LongEdit C w (a ++ c :: b)
  /-- A character to be moved to the right. -/
  | right {a x m b} : w = a ++ x :: (m ++ b) → 2 ≤ m.length → LongEdit C w (a ++ (m ++ x :: b))
  /-- A character to be moved to the left. -/
  | left {a x m b} : w = a ++ (m ++ x :: b) → 2 ≤ m.length → LongEdit C w (a ++ x :: (m ++ b))

/-- `t` is `w` with one replacement according to REP. -/
def Replaced (C : Checker) (w t : Str) : Prop :=
  (w, t) ∈ C.aff.replacements.whole ∨
  (∃ f r b, (f, r) ∈ C.aff.replacements.start ∧ w = f ++ b ∧ t = r ++ b) ∨
  (∃ f r a, (f, r) ∈ C.aff.replacements.stop ∧ w = a ++ f ∧ t = a ++ r) ∨
  (∃ f r a b, (f, r) ∈ C.aff.replacements.anywhere ∧ w = a ++ (f ++ b) ∧ a.length ∈ matchIndices w f ∧
    t = a ++ (r ++ b))

/-- `t` is a sequence of texts separated by spaces, at least two, and all of them but the last one are
accepted by the word lookup. -/
def SpacedWords (C : Checker) (fuel : Nat) (t : Str) : Prop :=
  ∃ parts last, parts ≠ [] ∧ t = parts.flatMap (· ++ [' ']) ++ last ∧ ' ' ∉ last ∧
    ∀ p ∈ parts, ' ' ∉ p ∧ ∃ F, C.checkWord fuel p .forbidBad .skip = .ok (some F)

/-- `t` is `w` split into two words which the lookup of words without compounds accepts, with a space in
between; or with a dash, if both have two or more characters and the TRY characters have `a` or `-`. -/
def TwoWords (C : Checker) (w t : Str) : Prop :=
  C.opts.noSplitSuggestions = false ∧ ∃ a b, w = a ++ b ∧ b ≠ [] ∧
    (C.checkSimpleWord a .skip).isSome = true ∧ (C.checkSimpleWord b .skip).isSome = true ∧
    (t = a ++ ' ' :: b ∨
      t = a ++ '-' :: b ∧ 2 ≤ a.length ∧ 2 ≤ b.length ∧ ('a' ∈ C.aff.tryChars ∨ '-' ∈ C.aff.tryChars))

/-- `t` may be proposed for `w` without looking at similar words. -/
def Proposal (C : Checker) (fuel : Nat) (w t : Str) : Prop :=
  (Suggestable C fuel t ∧
    (SmallEdit C w t ∨ LongEdit C w t ∨ Similar C.aff.similarities w t ∨ Replaced C w t)) ∨
  (Replaced C w t ∧ SpacedWords C fuel t) ∨
  TwoWords C w t

/-- `part` is a part of `w` between dashes, `pre` and `post` are the text before and after it. -/
structure DashPart (w pre part post : Str) : Prop where
  whole : w = pre ++ (part ++ post)
  noDash : '-' ∉ part
  left : pre = [] ∨ ∃ p, pre = p ++ ['-']
  right : post = [] ∨ ∃ q, post = '-' :: q

/-- The word lookup finds the text to be forbidden. -/
def Forbidden (C : Checker) (fuel : Nat) (t : Str) : Prop :=
  ∃ F, C.checkWord fuel t .forbidBad .accept = .ok (some F) ∧ C.opts.forbiddenWordFlag ∈ F.elems

/-- `t` is `w` with one part between dashes, which is not correct, replaced by one of the texts
suggested for it. -/
def DashFix (C : Checker) (fuel : Nat) (suggested : Str → Str → Prop) (w t : Str) : Prop :=
  ∃ pre part post s, DashPart w pre part post ∧ C.check fuel part = .ok false ∧ suggested part s ∧
    t = pre ++ (s ++ post) ∧ ¬ Forbidden C fuel t

/-- The word is a compound which is wrong only because it is not capitalised (FORCEUCASE). -/
def LacksCapital (C : Checker) (w : Str) : Prop :=
  C.opts.compoundForceUppercaseFlag ≠ none ∧
    ∃ fuel c, C.checkCompound fuel .atBegin w .allowBad = .ok (some c)

/-- `t` is a form of a listed entry which may be suggested and is similar to `w`. -/
def Lookalike (C : Checker) (w t : Str) : Prop :=
  ∃ stem F, (stem, F) ∈ C.dict.words.slots ∧ ¬ Has F C.opts.noSuggestFlag ∧
    C.opts.forbiddenWordFlag ∉ F.elems ∧ ¬ Has F C.opts.onlyInCompoundFlag ∧ 65535 ∉ F.elems ∧
    Expansion C.dict w stem F t

end Spellbook.Spec
