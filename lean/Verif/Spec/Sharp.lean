import Verif.Spec.PartList
/-!
# Specification of sharp s in words written in capitals
-/

namespace Spellbook.Spec

/-- The second text is the first one with `ß` for some of its first `n` pairs `ss`, read from the left. -/
inductive Sharpened : Nat → Str → Str → Prop
  | same {n s} : Sharpened n s s
  | letter {n c s t} : ¬ ['s', 's'] <+: c :: s → Sharpened n s t → Sharpened n (c :: s) (c :: t)
  | sharp {n s t} : Sharpened n s t → Sharpened (n + 1) ('s' :: 's' :: s) ('ß' :: t)
  | kept {n s t} : Sharpened n s t → Sharpened (n + 1) ('s' :: 's' :: s) ('s' :: 's' :: t)

/-- A word in capitals with `SS` is known, in small letters or with an initial capital, if `ß` stands for some of its first five
`ss`. -/
def SharpBy (U : Unicode) (any : Str → Prop) (w : Str) : Prop :=
  HasCasing U w .all ∧ ['S', 'S'] <:+: w ∧ ∃ t, any t ∧ (Sharpened 5 (U.lowerStr w) t ∨ Sharpened 5 (titleForm U w) t)

end Spellbook.Spec
