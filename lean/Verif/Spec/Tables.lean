import Verif.Model.Str
import Verif.Model.Tables
import Mathlib.Computability.RegularExpressions
import Mathlib.Data.List.Forall2
/-!
# Specifications for numbers, compound rules, conversions, break and replacement patterns

Nothing here refers to the algorithms of the model; the last two definitions translate its data.
-/

namespace Spellbook.Spec

/-- A non-empty run of ASCII digits. -/
def Digits (g : Str) : Prop := g ≠ [] ∧ ∀ c ∈ g, '0' ≤ c ∧ c ≤ '9'

/-- A number: an optional `-`, then groups of digits, each two separated by a single `.`, `,`
or `-`. -/
def IsNumber (w : Str) : Prop :=
  ∃ (sign g : Str) (gs : List (Char × Str)), (sign = [] ∨ sign = ['-']) ∧ Digits g ∧
    (∀ p ∈ gs, (p.1 = '.' ∨ p.1 = ',' ∨ p.1 = '-') ∧ Digits p.2) ∧
    w = sign ++ g ++ gs.flatMap fun p => p.1 :: p.2

/-- How often an element of a COMPOUNDRULE may occur. -/
inductive Times
  | one | zeroOrOne | zeroOrMore

/-- The regular expression over flags denoted by one element of a COMPOUNDRULE. -/
def ruleAtom (flag : Nat) : Times → RegularExpression Nat
  | .one => .char flag
  | .zeroOrOne => .plus 1 (.char flag)
  | .zeroOrMore => .star (.char flag)

/-- The regular expression over flags denoted by a COMPOUNDRULE. -/
def ruleRegex : List (Nat × Times) → RegularExpression Nat
  | [] => 1
  | (flag, times) :: rest => .comp (ruleAtom flag times) (ruleRegex rest)

/-- A sequence of flag sets satisfies a COMPOUNDRULE: one flag can be picked from each set so that
the picked flags form a word of the rule's regular language. -/
def RuleAccepts (rule : List (Nat × Times)) (data : List (List Nat)) : Prop :=
  ∃ picked ∈ (ruleRegex rule).matches', List.Forall₂ (fun f fs => f ∈ fs) picked data

/-- A conversion line `(from, to)` applies at the start of `tail`, consuming `pat`. A `_` at the end
of `from` anchors it to the end of the word. An empty pattern never applies. -/
def ConvApplies (line : Str × Str) (tail pat : Str) : Prop :=
  pat ≠ [] ∧
    ((line.1 = pat ++ ['_'] ∧ tail = pat) ∨
     ((¬ ∃ p, line.1 = p ++ ['_']) ∧ line.1 = pat ∧ pat <+: tail))

/-- Left to right, longest pattern first, single pass rewriting: at each position the longest
applicable pattern is replaced and scanning resumes behind the replacement; where no pattern
applies one character is copied. -/
inductive Converts (table : List (Str × Str)) : Str → Str → Prop
  | done : Converts table [] []
  | copy {c w out} : (∀ line ∈ table, ∀ pat, ¬ ConvApplies line (c :: w) pat) →
      Converts table w out → Converts table (c :: w) (c :: out)
  | replace {line pat w out} : line ∈ table → ConvApplies line (pat ++ w) pat →
      (∀ line' ∈ table, ∀ pat', ConvApplies line' (pat ++ w) pat' → pat'.length ≤ pat.length) →
      Converts table w out → Converts table (pat ++ w) (line.2 ++ out)

/-- Where a BREAK pattern applies. -/
inductive BreakAt
  | start | middle | stop
deriving DecidableEq

/-- A BREAK line: `^text` breaks at the start of a word, `text$` at the end, any other text in the
middle. -/
def BreakLine (line : Str) (place : BreakAt) (text : Str) : Prop :=
  match place with
  | .start => line = '^' :: text
  | .stop => line = text ++ ['$'] ∧ line.head? ≠ some '^'
  | .middle => line = text ∧ line.head? ≠ some '^' ∧ line.getLast? ≠ some '$'

/-- Where a REP pattern applies. -/
inductive RepAt
  | whole | start | stop | anywhere
deriving DecidableEq

/-- A REP line's pattern: `^text$`, `^text`, `text$` or plain text. -/
def RepLine (line : Str) (place : RepAt) (text : Str) : Prop :=
  match place with
  | .whole => line = '^' :: text ++ ['$']
  | .start => line = '^' :: text ∧ text.getLast? ≠ some '$'
  | .stop => line = text ++ ['$'] ∧ line.head? ≠ some '^'
  | .anywhere => line = text ∧ line.head? ≠ some '^' ∧ line.getLast? ≠ some '$'

end Spellbook.Spec

namespace Spellbook

/-- How often an element may occur. -/
def RuleElement.times (el : RuleElement) : Spec.Times :=
  match el.modifier with
  | none => .one
  | some .zeroOrOne => .zeroOrOne
  | some .zeroOrMore => .zeroOrMore

/-- The rule in the terms of the specification. -/
def CompoundRule.spec (rule : CompoundRule) : List (Nat × Spec.Times) :=
  rule.map fun el => (el.flag, el.times)

end Spellbook
