import Verif.Model.FlagText
import Mathlib.Data.List.Forall2
/-!
# Specification of flag texts
-/

namespace Spellbook.Spec

/-- The value of a string of decimal digits. -/
def decimal (ds : Str) : Nat := ds.foldl (fun v c => 10 * v + (c.toNat - 48)) 0

/-- `s` is a decimal numeral of `n`: digits, at least one, with an optional plus sign. -/
def IsNumeral (s : Str) (n : Nat) : Prop :=
  ∃ ds, (s = ds ∨ s = '+' :: ds) ∧ ds ≠ [] ∧ (∀ c ∈ ds, '0' ≤ c ∧ c ≤ '9') ∧ n = decimal ds

/-- The parts, joined by commas. -/
def commaJoin : List Str → Str
  | [] => []
  | [p] => p
  | p :: q :: ps => p ++ ',' :: commaJoin (q :: ps)

/-- The number which two bytes make up in memory. -/
def twoBytes : ByteOrder → Nat → Nat → Nat
  | .little, a, b => a + 256 * b
  | .big, a, b => 256 * a + b

/-- The bytes, two at a time, as 16-bit numbers. -/
inductive BytePairs (order : ByteOrder) : List UInt8 → List Nat → Prop
  | nil : BytePairs order [] []
  | cons (a b : UInt8) {rest l} : BytePairs order rest l →
      BytePairs order (a :: b :: rest) (twoBytes order a.toNat b.toNat :: l)

/-- The UTF-16 units of a text: a character below 65536 is its own unit, any other one is a high and
a low surrogate with ten bits each. -/
inductive Utf16 : Str → List Nat → Prop
  | nil : Utf16 [] []
  | unit (c : Char) {s us} : c.toNat < 65536 → Utf16 s us → Utf16 (c :: s) (c.toNat :: us)
  | surrogates (c : Char) (hi lo : Nat) {s us} : hi < 1024 → lo < 1024 →
      c.toNat = 65536 + 1024 * hi + lo → Utf16 s us →
      Utf16 (c :: s) ((0xD800 + hi) :: (0xDC00 + lo) :: us)

/-- The flags a text denotes under a `FLAG` type. -/
inductive FlagsOf : FlagType → Str → List Nat → Prop
  /-- No text, no flags. -/
  | empty (ty) : FlagsOf ty [] []
  /-- Default: one flag per byte. -/
  | short (s) : FlagsOf .short s ((utf8 s).map (·.toNat))
  /-- `FLAG long`: one flag per two bytes. -/
  | long {order s l} : BytePairs order (utf8 s) l → FlagsOf (.long order) s l
  /-- `FLAG num`: decimal numerals between commas. -/
  | numeric {parts l} : parts ≠ [] → List.Forall₂ IsNumeral parts l →
      FlagsOf .numeric (commaJoin parts) l
  /-- `FLAG UTF-8`: one flag per UTF-16 unit. -/
  | utf8 {s us} : Utf16 s us → FlagsOf .utf8 s us

/-- The single flag a text denotes: the first flag of the text (`FLAG num`: the whole text is its
numeral); whatever follows is ignored. -/
inductive FlagOf : FlagType → Str → Nat → Prop
  | short {s b rest} : Spellbook.utf8 s = b :: rest → FlagOf .short s b.toNat
  | long {order s a b rest} : Spellbook.utf8 s = a :: b :: rest →
      FlagOf (.long order) s (twoBytes order a.toNat b.toNat)
  | numeric {s n} : IsNumeral s n → FlagOf .numeric s n
  | utf8 {s u rest} : Utf16 s (u :: rest) → FlagOf .utf8 s u

end Spellbook.Spec
