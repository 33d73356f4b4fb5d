import Verif.Spec.FlagText
/-!
# Specification of flag texts: `AF` numbers, and what is wrong with texts that have no meaning
-/

namespace Spellbook.Spec

/-! ## Numbers -/

/-- `body` is `s` without its plus sign, if it has one. A plus sign alone is no sign. -/
def AfterPlus (s body : Str) : Prop :=
  (s = '+' :: body ∧ body ≠ []) ∨ (s = body ∧ ∀ t, t ≠ [] → s ≠ '+' :: t)

/-- A decimal digit. -/
def Digit (c : Char) : Prop := '0' ≤ c ∧ c ≤ '9'

/-- What is wrong with a text that is not the numeral of a number up to `max`. It is read from the
left, so that what comes first is reported. -/
inductive NumberFault (max : Nat) : Str → IntError → Prop
  | empty : NumberFault max [] .empty
  /-- A character is no digit, and the digits before it make no number that is too large. -/
  | character {s ds c rest} : AfterPlus s (ds ++ c :: rest) → (∀ d ∈ ds, Digit d) → ¬ Digit c →
      decimal ds ≤ max → NumberFault max s .invalidDigit
  /-- The first digits make a number that is too large. -/
  | tooLarge {s ds rest} : AfterPlus s (ds ++ rest) → (∀ d ∈ ds, Digit d) → max < decimal ds →
      NumberFault max s .posOverflow

/-! ## Flags -/

/-- What is wrong with a text in place of one flag. -/
inductive FlagFault : FlagType → Str → FlagError → Prop
  /-- There is no flag 0. -/
  | zero {ty s} : FlagOf ty s 0 → FlagFault ty s .zeroFlag
  /-- `FLAG long`: one byte is not enough. -/
  | half {order s} : (Spellbook.utf8 s).length < 2 → FlagFault (.long order) s .missingSecondChar
  | number {s e} : NumberFault 65535 s e → FlagFault .numeric s (.parseInt e)

/-- What is wrong with numerals between commas: the first wrong one is reported, but two commas in a
row are seen before the numeral in front of them. -/
inductive NumbersFault : Str → FlagError → Prop
  | commas {a rest} : ',' ∉ a → NumbersFault (a ++ ',' :: ',' :: rest) .duplicateComma
  | first {a rest e} : ',' ∉ a → rest.head? ≠ some ',' → FlagFault .numeric a e →
      NumbersFault (a ++ ',' :: rest) e
  | later {a rest f e} : ',' ∉ a → rest.head? ≠ some ',' → FlagOf .numeric a f → Flag.Valid f →
      NumbersFault rest e → NumbersFault (a ++ ',' :: rest) e
  | last {a e} : ',' ∉ a → FlagFault .numeric a e → NumbersFault a e

/-- What is wrong with a text in place of any number of flags. -/
inductive FlagsFault : FlagType → Str → FlagError → Prop
  | zero {ty s l} : ty ≠ .numeric → FlagsOf ty s l → 0 ∈ l → FlagsFault ty s .zeroFlag
  /-- `FLAG long`: an odd number of bytes. -/
  | half {order s} : (Spellbook.utf8 s).length % 2 = 1 → FlagsFault (.long order) s .missingSecondChar
  | numbers {s e} : s ≠ [] → NumbersFault s e → FlagsFault .numeric s e

/-- The flags a text denotes where `AF` numbers are allowed. -/
inductive AliasFlags (ty : FlagType) (aliases : List FlagSet) (s : Str) (F : FlagSet) : Prop
  /-- The 1-based number of an alias. -/
  | byNumber (i : Nat) : ty ≠ .numeric → IsNumeral s (i + 1) → i < 65535 → aliases[i]? = some F →
      AliasFlags ty aliases s F
  /-- Any other text. -/
  | text (l : List Nat) : (ty = .numeric ∨ ∀ i, IsNumeral s (i + 1) → i < 65535 → aliases.length ≤ i) →
      FlagsOf ty s l → (∀ f ∈ l, Flag.Valid f) → (∀ f, F.contains f = true ↔ f ∈ l) →
      AliasFlags ty aliases s F

/-- What is wrong with flags where `AF` numbers are allowed: such a number is always fine. -/
def AliasFault (ty : FlagType) (aliases : List FlagSet) (s : Str) (e : FlagError) : Prop :=
  (ty = .numeric ∨ ∀ i, IsNumeral s (i + 1) → i < 65535 → aliases.length ≤ i) ∧ FlagsFault ty s e

end Spellbook.Spec
