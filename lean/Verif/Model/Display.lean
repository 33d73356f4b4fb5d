import Verif.Model.AffText
/-!
# Model of the messages of errors

The `fmt::Display` implementations of the errors of `src/aff/parser.rs`. The two kinds of errors the
parser never makes (`UnexpectedNonWhitespace`, `Empty`) are not part of the model.
-/

namespace Spellbook

/-- `fmt::Display` of `usize` in the standard library: the decimal digits.
Standard library, used at `src/aff/parser.rs` 1528–1710. -/
def showNat (n : Nat) : Str :=
  if n < 10 then [Char.ofNat (48 + n)] else showNat (n / 10) ++ [Char.ofNat (48 + n % 10)]

/-- `fmt::Display` of `core::num::ParseIntError` in the standard library.
Standard library, used at `src/aff/parser.rs` 1528–1710. -/
def IntError.show : IntError → Str
  | .empty => "cannot parse integer from empty string".toList
  | .invalidDigit => "invalid digit found in string".toList
  | .posOverflow => "number too large to fit in target type".toList

/-- `ParseFlagError::fmt` (`src/aff/parser.rs` 1663–1675). -/
def FlagError.show : FlagError → Str
  | .nonAscii c => "expected ascii char, found ".toList ++ [c]
  | .missingSecondChar => "expected two chars, found one".toList
  | .parseInt e => e.show
  | .duplicateComma => "unexpected extra comma".toList
  | .zeroFlag => "flag cannot be zero".toList
  | .flagAbove65535 => "flag's binary representation exceeds 65535".toList
  | .wordTooLong => "word is too long (longer than u16::MAX bytes)".toList

/-- `ParseCompoundRuleError::fmt` (`src/aff/parser.rs` 1341–1348). -/
def RuleError.show : RuleError → Str
  | .parseFlag e => "failed to parse flag: ".toList ++ e.show
  | .invalidFormat => "invalid compound rule format".toList

/-- `ConditionError::fmt` (`src/aff/parser.rs` 1698–1710). -/
def ConditionError.show : ConditionError → Str
  | .unopenedCharacterClass => "closing bracket has no matching opening bracket".toList
  | .unclosedCharacterClass => "opening bracket has no matching closing bracket".toList
  | .emptyCharacterClass => "empty bracket expression".toList

/-- `ParseDictionaryErrorKind::fmt` (`src/aff/parser.rs` 1591–1621) with `UnknownFlagTypeError::fmt`
(1638–1646). -/
def ErrorKind.show : ErrorKind → Str
  | .unknownFlagType s => "expected FLAG to be `long`, `num` or `UTF-8` if set, found ".toList ++ s
  | .malformedFlag e => "flag is malformed: ".toList ++ e.show
  | .malformedNumber e => e.show
  | .mismatchedArity expected actual =>
    "expected ".toList ++ showNat expected ++ " arguments but found ".toList ++ showNat actual
  | .mismatchedRowCount expected actual =>
    "expected ".toList ++ showNat expected ++ " rows but found ".toList ++ showNat actual
  | .malformedCompoundRule e => "compound rule is malformed: ".toList ++ e.show
  | .malformedAffix => "failed to parse affix".toList
  | .malformedCondition e => "condition is malformed: ".toList ++ e.show
  | .wordTooLong => "word is too long (longer than u16::MAX bytes)".toList

/-- `ParseDictionaryErrorSource::fmt` (`src/aff/parser.rs` 1548–1555). -/
def Source.show : Source → Str
  | .dic => ".dic".toList
  | .aff => ".aff".toList

/-- `ParseDictionaryError::fmt` (`src/aff/parser.rs` 1528–1539). -/
def ParseError.show (e : ParseError) : Str :=
  match e.lineNumber with
  | some line =>
    "failed to parse ".toList ++ e.source.show ++ " file on line ".toList ++ showNat line ++ ": ".toList
      ++ e.kind.show
  | none => "failed to parse ".toList ++ e.source.show ++ " file: ".toList ++ e.kind.show

end Spellbook
