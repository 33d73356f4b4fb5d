import Verif.Model.RuleText
import Verif.Model.Casing
import Verif.Spec.FlagText
/-!
# Specification of compound rule texts, similarity group texts and lines
-/

namespace Spellbook.Spec

/-- How a compound rule spells a flag: a character (default: an ASCII character) other than the two
modifiers, or, between parentheses, two ASCII characters or the digits of a number. -/
inductive RuleFlagText : FlagType → Str → Nat → Prop
  | short (c : Char) : c.toNat < 128 → c ≠ '?' → c ≠ '*' → RuleFlagText .short [c] c.toNat
  | utf8 (c : Char) : c ≠ '?' → c ≠ '*' → RuleFlagText .utf8 [c] c.toNat
  | long (order : ByteOrder) (a b : Char) : a.toNat < 128 → b.toNat < 128 → a ≠ ')' → b ≠ ')' →
      RuleFlagText (.long order) ['(', a, b, ')'] (twoBytes order a.toNat b.toNat)
  | numeric (ds : Str) : ds ≠ [] → (∀ c ∈ ds, '0' ≤ c ∧ c ≤ '9') →
      RuleFlagText .numeric ('(' :: ds ++ [')']) (decimal ds)

/-- The sign of a modifier. -/
def modifierText : Option RuleModifier → Str
  | none => []
  | some .zeroOrOne => ['?']
  | some .zeroOrMore => ['*']

/-- The text of a compound rule: the flags, one after the other, each with its modifier. -/
inductive RuleText (ty : FlagType) : Str → CompoundRule → Prop
  | nil : RuleText ty [] []
  | cons {name flag modifier rest rule} : RuleFlagText ty name flag → RuleText ty rest rule →
      RuleText ty (name ++ modifierText modifier ++ rest) ({ flag, modifier } :: rule)

/-- The text of a similarity group: single characters, and texts between parentheses. Parentheses
around no or one character mean nothing, an opening parenthesis that is never closed ends the text. -/
inductive MapText : Str → SimilarityGroup → Prop
  | plain {s} : '(' ∉ s → MapText s { chars := s, strings := [] }
  | unclosed {s t} : '(' ∉ s → ')' ∉ t → MapText (s ++ '(' :: t) { chars := s, strings := [] }
  | char {s t rest cs ss} : '(' ∉ s → ')' ∉ t → t.length ≤ 1 → MapText rest { chars := cs, strings := ss } →
      MapText (s ++ '(' :: t ++ ')' :: rest) { chars := s ++ t ++ cs, strings := ss }
  | string {s t rest cs ss} : '(' ∉ s → ')' ∉ t → 2 ≤ t.length →
      MapText rest { chars := cs, strings := ss } →
      MapText (s ++ '(' :: t ++ ')' :: rest) { chars := s ++ cs, strings := t :: ss }

/-- The lines of a text: they end with a line feed, or a carriage return and a line feed; the last
one may lack its end. -/
inductive LinesOf : Str → List Str → Prop
  | nil : LinesOf [] []
  | last {line} : line ≠ [] → '\n' ∉ line → LinesOf line [line]
  | lf {line rest lines} : '\n' ∉ line → line.getLast? ≠ some '\r' → LinesOf rest lines →
      LinesOf (line ++ '\n' :: rest) (line :: lines)
  | crlf {line rest lines} : '\n' ∉ line → LinesOf rest lines →
      LinesOf (line ++ '\r' :: '\n' :: rest) (line :: lines)

/-- The words of a line: its longest stretches without white space. -/
inductive WordsOf (U : Unicode) : Str → List Str → Prop
  | nil {space} : (∀ c ∈ space, U.isWs c = true) → WordsOf U space []
  | cons {space word rest words} : (∀ c ∈ space, U.isWs c = true) → word ≠ [] →
      (∀ c ∈ word, U.isWs c = false) → (∀ c, rest.head? = some c → U.isWs c = true) →
      WordsOf U rest words → WordsOf U (space ++ word ++ rest) (word :: words)

end Spellbook.Spec
