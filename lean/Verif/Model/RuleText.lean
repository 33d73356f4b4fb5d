import Verif.Model.FlagText
/-!
# Reading compound rules and similarity groups

Models `parse_compound_rule` (`src/aff/parser.rs` 1362–1519) with `ParseCompoundRuleError`
(1336–1339), and `impl From<&str> for SimilarityGroup` (684–721).
-/

namespace Spellbook

/-- `enum ParseCompoundRuleError` (`src/aff/parser.rs` 1336–1339). -/
inductive RuleError
  | parseFlag (e : FlagError) | invalidFormat
deriving DecidableEq, Repr

/-- The `modifier` match common to the four flag types (`src/aff/parser.rs` 1388–1398, 1413–1423, 1459–1469,
1501–1511). -/
def takeModifier : Str → Option RuleModifier × Str
  | '?' :: rest => (some .zeroOrOne, rest)
  | '*' :: rest => (some .zeroOrMore, rest)
  | rest => (none, rest)

/-- `char::is_ascii`. Standard library, used at `src/aff/parser.rs` 1381, 1435. -/
def Char.isAsciiB (c : Char) : Bool := c.toNat < 128

/-- The flag of one element, `FlagType::Short` (`src/aff/parser.rs` 1380–1386). -/
def ruleFlagShort (ch : Char) : Except RuleError Nat :=
  if !Char.isAsciiB ch then .error (.parseFlag (.nonAscii ch))
  else if ch ≠ '?' ∧ ch ≠ '*' then
    match tryFlagFromU16 ch.toNat with
    | .error e => .error (.parseFlag e)
    | .ok f => .ok f
  else .error .invalidFormat

/-- The flag of one element, `FlagType::Utf8` (`src/aff/parser.rs` 1407–1411). -/
def ruleFlagUtf8 (ch : Char) : Except RuleError Nat :=
  if ch ≠ '?' ∧ ch ≠ '*' then
    match tryFlagFromChar ch with
    | .error e => .error (.parseFlag e)
    | .ok f => .ok f
  else .error .invalidFormat

/-- One of the two characters between parentheses, `FlagType::Long` (`src/aff/parser.rs` 1434–1447). -/
def ruleLongChar (c : Option Char) : Except RuleError Char :=
  match c with
  | some ch =>
    if !Char.isAsciiB ch then .error (.parseFlag (.nonAscii ch))
    else if ch ≠ ')' then .ok ch
    else .error .invalidFormat
  | none => .error .invalidFormat

/-- The flag of one element, `FlagType::Long` (`src/aff/parser.rs` 1432–1457), after the opening parenthesis. -/
def ruleFlagLong (order : ByteOrder) (s : Str) : Except RuleError (Nat × Str) := do
  let c1 ← ruleLongChar s.head?
  let c2 ← ruleLongChar s.tail.head?
  if s.tail.tail.head? ≠ some ')' then throw .invalidFormat
  match tryFlagFromU16 (fromNeBytes order (UInt8.ofNat c1.toNat) (UInt8.ofNat c2.toNat)) with
  | .error e => throw (.parseFlag e)
  | .ok f => pure (f, s.tail.tail.tail)

/-- The digit loop of `FlagType::Numeric` (`src/aff/parser.rs` 1482–1488), after the opening parenthesis. -/
def ruleDigits : Str → Str → Except RuleError (Str × Str)
  | _, [] => .error .invalidFormat
  | number, ch :: rest =>
    if '0' ≤ ch ∧ ch ≤ '9' then ruleDigits (number ++ [ch]) rest
    else if ch = ')' ∧ number ≠ [] then .ok (number, rest)
    else .error .invalidFormat

/-- The flag of one element, `FlagType::Numeric` (`src/aff/parser.rs` 1480–1499), after the opening parenthesis. -/
def ruleFlagNum (s : Str) : Except RuleError (Nat × Str) := do
  let (number, rest) ← ruleDigits [] s
  match parseNumFlag number with
  | .error e => throw (.parseFlag e)
  | .ok f => pure (f, rest)

/-- The flag of one element and the text behind it. `src/aff/parser.rs` 1376–1516. -/
def ruleFlag (ty : FlagType) : Str → Except RuleError (Nat × Str)
  | [] => .error .invalidFormat
  | ch :: rest =>
    match ty with
    | .short => (ruleFlagShort ch).map fun f => (f, rest)
    | .utf8 => (ruleFlagUtf8 ch).map fun f => (f, rest)
    | .long order => if ch = '(' then ruleFlagLong order rest else .error .invalidFormat
    | .numeric => if ch = '(' then ruleFlagNum rest else .error .invalidFormat

/-- The loop of `parse_compound_rule` (`src/aff/parser.rs` 1376–1516). Every turn consumes at least one character;
`fuel` bounds the number of turns. -/
def ruleLoopText (ty : FlagType) : Nat → Str → Except RuleError CompoundRule
  | 0, _ => .ok []
  | _ + 1, [] => .ok []
  | fuel + 1, ch :: rest => do
    let (flag, rest) ← ruleFlag ty (ch :: rest)
    let (modifier, rest) := takeModifier rest
    let rule ← ruleLoopText ty fuel rest
    pure ({ flag, modifier } :: rule)

/-- `parse_compound_rule` (`src/aff/parser.rs` 1362–1519). -/
def parseCompoundRule (input : Str) (ty : FlagType) : Except RuleError CompoundRule :=
  ruleLoopText ty input.length input

/-- The loop of `impl From<&str> for SimilarityGroup` (`src/aff/parser.rs` 689–714), on the text from `i` on. `fuel`
bounds the number of parentheses. -/
def similarityLoop : Nat → Str → Str → List Str → Str × List Str
  | 0, _, chars, strings => (chars, strings)
  | fuel + 1, s, chars, strings =>
    match splitOnce? ['('] s with
    | none => (chars ++ s, strings)
    | some (before, rest) =>
      match splitOnce? [')'] rest with
      | none => (chars ++ before, strings)
      | some (substr, rest) =>
        if substr.length ≤ 1 then similarityLoop fuel rest (chars ++ before ++ substr) strings
        else similarityLoop fuel rest (chars ++ before) (strings ++ [substr])

/-- `impl From<&str> for SimilarityGroup` (`src/aff/parser.rs` 684–721). In the code `has_exactly_one_char` is also true
for an empty pair of parentheses, which then pushes an empty text. -/
def SimilarityGroup.ofText (s : Str) : SimilarityGroup :=
  let (chars, strings) := similarityLoop (s.length + 1) s [] []
  { chars, strings }

end Spellbook
