import Verif.Model.AffData
/-!
# Reading numbers and flags

Models `src/aff/parser.rs` 1052–1204: `try_flag_from_*`, `parse_flag_from_str`,
`parse_flags_from_str`, `split_word_and_flagset_naive`, `decode_flagset`; also the integer parser of
the standard library and `ParseFlagError` (1649–1662).
-/

namespace Spellbook

/-- `core::num::IntErrorKind`, the values an unsigned parse can give.
Standard library, used at `src/aff/parser.rs` 1090, 1148. -/
inductive IntError
  | empty | invalidDigit | posOverflow
deriving DecidableEq, Repr

/-- The value of an ASCII digit: `char::to_digit(10)`. Standard library, used by `u16::from_str` and `usize::from_str`
(`src/aff/parser.rs` 177, 1090). -/
def digit? (c : Char) : Option Nat := if '0' ≤ c ∧ c ≤ '9' then some (c.toNat - 48) else none

/-- The digit loop of the standard library's `from_str_radix` (radix 10, unsigned): the digit is
inspected before the overflow of the multiplication is reported.
Standard library, used at `src/aff/parser.rs` 812, 1090, 1148, 1155. -/
def digitsLoop (max : Nat) : Nat → Str → Except IntError Nat
  | acc, [] => .ok acc
  | acc, c :: cs =>
    match digit? c with
    | none => .error .invalidDigit
    | some d => if max < acc * 10 + d then .error .posOverflow else digitsLoop max (acc * 10 + d) cs

/-- `str::parse` for an unsigned integer type with largest value `max`.
Standard library, used at `src/aff/parser.rs` 812, 1090, 1148, 1155. -/
def parseUInt (max : Nat) (s : Str) : Except IntError Nat :=
  match s with
  | [] => .error .empty
  | ['+'] => .error .invalidDigit
  | ['-'] => .error .invalidDigit
  | '+' :: ds => digitsLoop max 0 ds
  | ds => digitsLoop max 0 ds

/-- `u16::MAX`. Used for `src/aff/parser.rs` 812, 1090. -/
def u16Max : Nat := 65535
/-- `usize::MAX` on a 64-bit target. Used for `src/aff/parser.rs` 820–823. -/
def usizeMax : Nat := 18446744073709551615

/-- `enum ParseFlagError` (`src/aff/parser.rs` 1649–1662). -/
inductive FlagError
  | nonAscii (c : Char) | missingSecondChar | parseInt (e : IntError) | duplicateComma | zeroFlag
  | flagAbove65535 | wordTooLong
deriving DecidableEq, Repr

/-- `try_flag_from_u16` (`src/aff/parser.rs` 1052–1054). -/
def tryFlagFromU16 (val : Nat) : Except FlagError Nat :=
  if val = 0 then .error .zeroFlag else .ok val

/-- `try_flag_from_u32` (`src/aff/parser.rs` 1056–1061). -/
def tryFlagFromU32 (val : Nat) : Except FlagError Nat :=
  if val > u16Max then .error .flagAbove65535 else tryFlagFromU16 val

/-- `try_flag_from_char` (`src/aff/parser.rs` 1063–1065). -/
def tryFlagFromChar (ch : Char) : Except FlagError Nat := tryFlagFromU32 ch.toNat

/-- `u16::from_ne_bytes`.
Standard library, used at `src/aff/parser.rs` 1088, 1135, 1453. -/
def fromNeBytes (order : ByteOrder) (a b : UInt8) : Nat :=
  match order with
  | .little => a.toNat + 256 * b.toNat
  | .big => 256 * a.toNat + b.toNat

/-- `str::encode_utf16`, one character. Standard library, used at `src/aff/parser.rs` 1096, 1167. -/
def utf16Char (c : Char) : List Nat :=
  if c.toNat < 0x10000 then [c.toNat]
  else [0xD800 + (c.toNat - 0x10000) / 0x400, 0xDC00 + (c.toNat - 0x10000) % 0x400]

/-- `str::encode_utf16`. Standard library, used at `src/aff/parser.rs` 1096, 1167. -/
def utf16 (s : Str) : List Nat := s.flatMap utf16Char

/-- `input.parse::<u16>().map_err(ParseIntError).and_then(try_flag_from_u16)`.
`src/aff/parser.rs` 1090, 1148, 1155. -/
def parseNumFlag (s : Str) : Except FlagError Nat :=
  match parseUInt u16Max s with
  | .error e => .error (.parseInt e)
  | .ok n => tryFlagFromU16 n

/-- `parse_flag_from_str` (`src/aff/parser.rs` 1068–1102). The outer `none` is the failure of `assert!(!is_empty)`. -/
def parseFlag? (ty : FlagType) (input : Str) : Option (Except FlagError Nat) :=
  if input.isEmpty then none
  else
    match ty with
    | .short =>
      match utf8 input with
      | [] => none
      | b :: _ => some (tryFlagFromU16 b.toNat)
    | .long order =>
      match utf8 input with
      | a :: b :: _ => some (tryFlagFromU16 (fromNeBytes order a b))
      | _ => some (.error .missingSecondChar)
    | .numeric => some (parseNumFlag input)
    | .utf8 =>
      match utf16 input with
      | [] => none
      | u :: _ => some (tryFlagFromU16 u)

/-- `iter().map(try_flag_from_u16).collect::<Result<Vec<Flag>, _>>()`. `src/aff/parser.rs` 1117–1170. -/
def tryFlags : List Nat → Except FlagError (List Nat)
  | [] => .ok []
  | v :: vs =>
    match tryFlagFromU16 v with
    | .error e => .error e
    | .ok f =>
      match tryFlags vs with
      | .error e => .error e
      | .ok fs => .ok (f :: fs)

/-- The `for i in 0..len` loop of the `Long` case (`src/aff/parser.rs` 1134–1137), on the bytes from `2 * i` on. The
caller has checked that their number is even. -/
def longFlags (order : ByteOrder) : List UInt8 → Except FlagError (List Nat)
  | a :: b :: rest =>
    match tryFlagFromU16 (fromNeBytes order a b) with
    | .error e => .error e
    | .ok f =>
      match longFlags order rest with
      | .error e => .error e
      | .ok fs => .ok (f :: fs)
  | _ => .ok []

/-- The `while let Some(idx) = input[start..].find(',')` loop of the `Numeric` case (`src/aff/parser.rs` 1141–1160), on
the text from `start` on. `fuel` bounds the number of commas. -/
def numFlags : Nat → Str → Except FlagError (List Nat)
  | 0, _ => .ok []
  | fuel + 1, input =>
    match splitOnce? [','] input with
    | some (a, rest) =>
      if rest.head? = some ',' then .error .duplicateComma
      else
        match parseNumFlag a with
        | .error e => .error e
        | .ok f =>
          match numFlags fuel rest with
          | .error e => .error e
          | .ok fs => .ok (f :: fs)
    | none =>
      match parseNumFlag input with
      | .error e => .error e
      | .ok f => .ok [f]

/-- `parse_flags_from_str` (`src/aff/parser.rs` 1105–1173), before the conversion into a `FlagSet`. -/
def parseFlagList (ty : FlagType) (input : Str) : Except FlagError (List Nat) :=
  if input.isEmpty then .ok []
  else
    match ty with
    | .short => tryFlags ((utf8 input).map (·.toNat))
    | .long order =>
      if byteLen input % 2 = 1 then .error .missingSecondChar else longFlags order (utf8 input)
    | .numeric => numFlags (input.length + 1) input
    | .utf8 => tryFlags (utf16 input)

/-- `parse_flags_from_str` (`src/aff/parser.rs` 1105–1173). -/
def parseFlags (ty : FlagType) (input : Str) : Except FlagError FlagSet :=
  (parseFlagList ty input).map FlagSet.ofList

/-- `split_word_and_flagset_naive` (`src/aff/parser.rs` 1178–1180). -/
def splitWordAndFlags (input : Str) : Str × Str := (splitOnce? ['/'] input).getD (input, [])

/-- `decode_flagset` (`src/aff/parser.rs` 1183–1204): `input.parse::<u16>().ok().filter(|i| i > 0 && i <= len)`. -/
def aliasIndex? (input : Str) (count : Nat) : Option Nat :=
  match parseUInt u16Max input with
  | .ok i => if i > 0 ∧ i ≤ count then some i else none
  | .error _ => none

/-- `decode_flagset` (`src/aff/parser.rs` 1183–1204). -/
def decodeFlagset (input : Str) (ty : FlagType) (aliases : List FlagSet) :
    Except FlagError FlagSet :=
  if ty = .numeric ∨ aliases.isEmpty then parseFlags ty input
  else
    match aliasIndex? input aliases.length with
    | some i => .ok (aliases.getD (i - 1) FlagSet.empty)
    | none => parseFlags ty input

end Spellbook
