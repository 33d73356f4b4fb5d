import Verif.Model.Str
import Mathlib.Data.List.Forall2
/-!
# Specification of affix conditions

A condition is a sequence of elements, each standing for one character.
-/

namespace Spellbook.Spec

/-- One element of a condition. -/
inductive CondElem
  | lit (c : Char)
  | any
  | oneOf (cs : List Char)
  | noneOf (cs : List Char)
deriving DecidableEq, Repr

/-- How an element is written. -/
def CondElem.render : CondElem → Str
  | .lit c => [c]
  | .any => ['.']
  | .oneOf cs => '[' :: cs ++ [']']
  | .noneOf cs => '[' :: '^' :: cs ++ [']']

/-- The elements that can be written: a literal is none of the special characters, a class is not
empty and has no `]`, and a positive class does not begin with `^`. -/
def CondElem.WellFormed : CondElem → Prop
  | .lit c => c ≠ '.' ∧ c ≠ '[' ∧ c ≠ ']'
  | .any => True
  | .oneOf cs => cs ≠ [] ∧ ']' ∉ cs ∧ cs.head? ≠ some '^'
  | .noneOf cs => cs ≠ [] ∧ ']' ∉ cs

/-- The characters an element stands for. -/
def CondElem.Matches : CondElem → Char → Prop
  | .lit c, x => x = c
  | .any, _ => True
  | .oneOf cs, x => x ∈ cs
  | .noneOf cs, x => x ∉ cs

/-- The text of a condition. -/
def renderCond (es : List CondElem) : Str := es.flatMap CondElem.render

/-- `s` is the text of the condition `es`. -/
def IsCondition (s : Str) (es : List CondElem) : Prop :=
  (∀ e ∈ es, e.WellFormed) ∧ renderCond es = s

/-- The word begins with characters matched by the elements one by one. -/
def MatchesStart (es : List CondElem) (w : Str) : Prop :=
  ∃ u v, w = u ++ v ∧ List.Forall₂ CondElem.Matches es u

/-- The word ends with characters matched by the elements one by one. -/
def MatchesEnd (es : List CondElem) (w : Str) : Prop :=
  ∃ u v, w = u ++ v ∧ List.Forall₂ CondElem.Matches es v

end Spellbook.Spec
