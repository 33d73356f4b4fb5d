import Verif.Model.Ngram
/-!
# What the measures of similarity mean
-/

namespace Spellbook.Spec

/-- `n` is the length of the longest texts which can be read, with gaps, in both `a` and `b`. -/
def LongestCommon (a b : Str) (n : Nat) : Prop :=
  (∃ s : Str, s.Sublist a ∧ s.Sublist b ∧ s.length = n) ∧ ∀ s : Str, s.Sublist a → s.Sublist b → s.length ≤ n

/-- `n` is the length of the longest common prefix. -/
def CommonPrefix (a b : Str) (n : Nat) : Prop :=
  (∃ p : Str, p <+: a ∧ p <+: b ∧ p.length = n) ∧ ∀ p : Str, p <+: a → p <+: b → p.length ≤ n

/-- `right` is `left` with two different characters exchanged. -/
def Exchanged (left right : Str) : Prop :=
  ∃ a x b y c, x ≠ y ∧ left = a ++ x :: (b ++ y :: c) ∧ right = a ++ y :: (b ++ x :: c)

/-- The number of positions at which both texts have the same character. -/
def agreements (left right : Str) : Nat :=
  ((List.range (min left.length right.length)).filter fun i => left[i]? = right[i]?).length

/-- The text of `k` characters which begins at position `i`. -/
def gram (left : Str) (k i : Nat) : Str := (left.drop i).take k

/-- The number of positions of `left` at which there are `k` characters. -/
def grams (left : Str) (k : Nat) : Nat := left.length + 1 - k

/-- The number of positions of `left` whose `k` characters also occur, side by side, in `right`. -/
def hits (left right : Str) (k : Nat) : Nat :=
  ((List.range (grams left k)).filter fun i => gram left k i <:+: right).length

/-- `kept` are `cap` of the `offered` candidates, or all if there are not more, and none of the others
has a higher score. -/
def BestOf {α : Type} (cap : Nat) (offered kept : List (MinScored α)) : Prop :=
  ∃ dropped, offered.Perm (kept ++ dropped) ∧ kept.length = min cap offered.length ∧
    ∀ k ∈ kept, ∀ d ∈ dropped, d.score ≤ k.score

end Spellbook.Spec
