import Verif.Model.Str
/-!
# Letter case

Models `src/lib.rs` 440–510 (`Casing`, `classify_casing`, `erase_chars`) and `CaseHandling` of
`src/aff.rs` 1250–1347. The Unicode tables of the standard library are a parameter.
-/

namespace Spellbook

/-- The order of the two bytes of a `u16` in memory (`cfg(target_endian)`), on which `u16::from_ne_bytes` depends.
Standard library, used at `src/aff/parser.rs` 1088, 1135, 1453. -/
inductive ByteOrder
  | little | big
deriving DecidableEq, Repr

/-- The tables behind `char::is_uppercase`, `is_lowercase`, `is_alphabetic`, `is_whitespace`,
`to_uppercase`, `to_lowercase`, and the `Cased`/`Case_Ignorable` properties used by
`str::to_lowercase` for a final sigma. Nothing is assumed about them. `byteOrder` is that of the machine on which the
library runs; it is kept here so that every theorem is about all machines.
Standard library, used at `src/lib.rs` 474–487 and `src/aff.rs` 1270–1347. -/
structure Unicode where
  isUpper : Char → Bool
  isLower : Char → Bool
  isAlpha : Char → Bool
  isWs : Char → Bool
  upper : Char → List Char
  lower : Char → List Char
  cased : Char → Bool
  caseIgnorable : Char → Bool
  byteOrder : ByteOrder := .little

/-- `case_ignorable_then_cased` of the standard library (`alloc/src/str.rs`). -/
def Unicode.ignorableThenCased (U : Unicode) (s : Str) : Bool :=
  match s.dropWhile U.caseIgnorable with
  | c :: _ => U.cased c
  | [] => false

/-- The loop of `str::to_lowercase`; `rev` is the reversed text before the current character.
Standard library, used at `src/aff.rs` 1270–1271. -/
def Unicode.lowerStrFrom (U : Unicode) : Str → Str → Str
  | _, [] => []
  | rev, c :: s =>
    (if c = 'Σ' then
      (if U.ignorableThenCased rev && !U.ignorableThenCased s then ['ς'] else ['σ'])
     else U.lower c) ++ U.lowerStrFrom (c :: rev) s

/-- `str::to_lowercase`: per character, except that a word-final capital sigma becomes `ς`.
Standard library, used at `src/aff.rs` 1270–1271. -/
def Unicode.lowerStr (U : Unicode) (s : Str) : Str := U.lowerStrFrom [] s

/-- `str::to_uppercase`. Standard library, used at `src/aff.rs` 1277–1278. -/
def Unicode.upperStr (U : Unicode) (s : Str) : Str := s.flatMap U.upper

/-- The ASCII part of the tables, extended by identity, with the few further letters the examples
use (`ß`, `ı`, `İ`, `Ⱥ`); used in examples only. Part of the model only, for `src/aff.rs` 1250–1347. -/
def Unicode.sample : Unicode where
  isUpper c := c.isUpper || c == 'İ' || c == 'Ⱥ'
  isLower c := c.isLower || c == 'ß' || c == 'ı' || c == 'ⱥ'
  isAlpha c := c.isAlpha || c == 'ß' || c == 'ı' || c == 'İ' || c == 'Ⱥ' || c == 'ⱥ'
  isWs c := c == ' ' || c == '\t' || c == '\n' || c == '\x0b' || c == '\x0c' || c == '\r'
  upper c :=
    if c = 'ß' then ['S', 'S'] else if c = 'ı' then ['I'] else if c = 'ⱥ' then ['Ⱥ']
    else [c.toUpper]
  lower c :=
    if c = 'İ' then ['i', '̇'] else if c = 'Ⱥ' then ['ⱥ'] else [c.toLower]
  cased c := c.isAlpha || c == 'ß' || c == 'ı' || c == 'İ' || c == 'Ⱥ' || c == 'ⱥ'
  caseIgnorable c := c == '\'' || c == '.' || c == ':' || c == '̇'

/-- `enum Casing` (`src/lib.rs` 444–467). -/
inductive Casing
  | none | init | all | camel | pascal
deriving DecidableEq, Repr

/-- The counting loop of `classify_casing` (`src/lib.rs` 470–480). -/
def countCases (U : Unicode) (word : Str) : Nat × Nat :=
  word.foldl (init := (0, 0)) fun (upper, lower) ch =>
    (if U.isUpper ch then upper + 1 else upper, if U.isLower ch then lower + 1 else lower)

/-- `classify_casing` (`src/lib.rs` 469–498). `none` stands for the panic of
`word.chars().next().unwrap()`. -/
def classifyCasing? (U : Unicode) (word : Str) : Option Casing :=
  let (upper, lower) := countCases U word
  if upper = 0 then some .none
  else
    match word.head? with
    | Option.none => Option.none
    | some first =>
      let firstCapital := U.isUpper first
      if firstCapital && upper = 1 then some .init
      else if lower = 0 then some .all
      else if firstCapital then some .pascal
      else some .camel

/-- `classify_casing` with the panic branch, which `classifyCasing?_isSome` shows to be dead,
replaced by an arbitrary value. `src/lib.rs` 469–510. -/
def classifyCasing (U : Unicode) (word : Str) : Casing := (classifyCasing? U word).getD .none

/-- `erase_chars` (`src/lib.rs` 500–510). -/
def eraseChars (word : Str) (ignore : List Char) : Str :=
  if ignore.isEmpty then word else word.filter fun ch => !ignore.contains ch

/-- `enum CaseHandling` (`src/aff.rs` 1251–1259). -/
inductive CaseHandling
  | turkic | standard
deriving DecidableEq, Repr

/-- `str::replace(char, &str)`. Standard library, used at `src/aff.rs` 1270, 1277. -/
def replaceChar (s : Str) (c : Char) (r : Str) : Str := s.flatMap fun x => if x = c then r else [x]

namespace CaseHandling

/-- `CaseHandling::lowercase` (`src/aff.rs` 1268–1273). -/
def lowercase (U : Unicode) (h : CaseHandling) (word : Str) : Str :=
  match h with
  | turkic => U.lowerStr (replaceChar (replaceChar word 'I' ['ı']) 'İ' ['i'])
  | standard => U.lowerStr word

/-- `CaseHandling::uppercase` (`src/aff.rs` 1275–1280). -/
def uppercase (U : Unicode) (h : CaseHandling) (word : Str) : Str :=
  match h with
  | turkic => U.upperStr (replaceChar (replaceChar word 'i' ['İ']) 'ı' ['I'])
  | standard => U.upperStr word

/-- One character upper-cased, as in `titlecase` (`src/aff.rs` 1286–1290) and `upper_char_at` (1321–1325). -/
def upperChar (U : Unicode) (h : CaseHandling) (ch : Char) : Str :=
  match h with
  | turkic => if ch = 'i' then ['İ'] else if ch = 'ı' then ['I'] else U.upper ch
  | standard => U.upper ch

/-- One character lower-cased, as in `titlecase` (`src/aff.rs` 1291–1297) and `lower_first_char` (1305–1309). -/
def lowerChar (U : Unicode) (h : CaseHandling) (ch : Char) : Str :=
  match h with
  | turkic => if ch = 'I' then ['ı'] else if ch = 'İ' then ['i'] else U.lower ch
  | standard => U.lower ch

/-- `CaseHandling::titlecase` (`src/aff.rs` 1282–1299); `none` is the panic on empty input. -/
def titlecase (U : Unicode) (h : CaseHandling) (word : Str) : Option Str :=
  match word with
  | [] => none
  | first :: rest => some (h.upperChar U first ++ rest.flatMap (h.lowerChar U))

/-- `CaseHandling::lower_first_char` (`src/aff.rs` 1301–1314); `none` is the panic on empty
input. -/
def lowerFirstChar (U : Unicode) (h : CaseHandling) (word : Str) : Option Str :=
  match word with
  | [] => none
  | first :: rest => some (h.lowerChar U first ++ rest)

/-- `CaseHandling::upper_char_at` (`src/aff.rs` 1316–1330). The byte index is a character index
here; `none` is the panic when there is no character at the index. -/
def upperCharAt (U : Unicode) (h : CaseHandling) (word : Str) (idx : Nat) : Option Str :=
  match word.drop idx with
  | [] => none
  | ch :: rest => some (word.take idx ++ h.upperChar U ch ++ rest)

/-- `CaseHandling::is_char_eq_lowercase` (`src/aff.rs` 1332–1347). -/
def isCharEqLowercase (U : Unicode) (h : CaseHandling) (left right : Char) : Bool :=
  if h = turkic ∧ left = 'ı' ∧ right = 'I' then true
  else if h = turkic ∧ left = 'i' ∧ right = 'İ' then true
  else
    match U.lower right with
    | [lower] => left == lower
    | _ => false

end CaseHandling
end Spellbook
