import Verif.Spec.PrepList
/-!
# Specification of suggestions from a list of words

Which words of a list without flags must be among the suggestions for a word without capitals.
-/

namespace Spellbook.Spec

/-- Nothing is converted or ignored. -/
def TakenAsIs (r : PrepRules) : Prop := r.input = [] ∧ r.output = [] ∧ r.ignored = []

/-- The words differ by one slip. -/
inductive SlipOf (U : Unicode) (r : PrepRules) : Str → Str → Prop
  /-- Two neighbours were swapped. -/
  | swapped {a x y b} : SlipOf U r (a ++ x :: y :: b) (a ++ y :: x :: b)
  /-- Two pairs of neighbours were swapped in a word of four or five letters. -/
  | pairs4 {a b c d} : SlipOf U r [a, b, c, d] [b, a, d, c]
  | pairs5 {a b c d e} : SlipOf U r [a, b, c, d, e] [b, a, c, e, d]
  | pairs5' {a b c d e} : SlipOf U r [a, b, c, d, e] [a, c, b, e, d]
  /-- A letter too many was written. -/
  | tooMany {a x b} : SlipOf U r (a ++ x :: b) (a ++ b)
  /-- A letter was written small. -/
  | small {a x b} : U.upper x ≠ [x] → SlipOf U r (a ++ x :: b) (a ++ U.upper x ++ b)
  /-- All letters were written small. -/
  | allSmall {w} : SlipOf U r w (U.upperStr w)
  /-- A key beside the right one was hit. -/
  | key {a x y b} : y ≠ '|' → [x, y] <:+: r.keys ∨ [y, x] <:+: r.keys → SlipOf U r (a ++ x :: b) (a ++ y :: b)
  /-- Two letters were written twice, not at the end of the word. -/
  | doubled {a x y b} : b ≠ [] → SlipOf U r (a ++ ([x, y, x, y, x] ++ b)) (a ++ ([x, y, x] ++ b))

/-- The words differ by one slip of which there are many: a letter of the TRY line is missing or was replaced by another
letter, two letters far from each other were swapped, or a letter was written too early or too late. -/
inductive FarSlipOf (r : PrepRules) : Str → Str → Prop
  | missing {a c b} : c ∈ r.tries → FarSlipOf r (a ++ b) (a ++ c :: b)
  | wrong {a x c b} : c ∈ r.tries → c ≠ x → FarSlipOf r (a ++ x :: b) (a ++ c :: b)
  | swapped {a x m y b} : FarSlipOf r (a ++ x :: (m ++ y :: b)) (a ++ y :: (m ++ x :: b))
  | early {a x m b} : 2 ≤ m.length → FarSlipOf r (a ++ x :: (m ++ b)) (a ++ (m ++ x :: b))
  | late {a x m b} : 2 ≤ m.length → FarSlipOf r (a ++ (m ++ x :: b)) (a ++ x :: (m ++ b))

end Spellbook.Spec
