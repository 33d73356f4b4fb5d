import Verif.Model.Casing
/-!
# Small string tests of the checker

Models `src/checker.rs` 2435–2558.
-/

namespace Spellbook

/-- The `for ch in word.chars()` loop of `is_number` (`src/checker.rs` 2447–2453): `none` is
`return false`, `some` the final value of `separated`. -/
def isNumberLoop : Bool → Str → Option Bool
  | separated, [] => some separated
  | separated, ch :: rest =>
    if '0' ≤ ch ∧ ch ≤ '9' then isNumberLoop false rest
    else if (ch = '.' ∨ ch = '-' ∨ ch = ',') ∧ separated = false then isNumberLoop true rest
    else none

/-- `is_number` (`src/checker.rs` 2440–2456). -/
def isNumber (word : Str) : Bool :=
  let word := (stripPrefix? word ['-']).getD word
  if word.isEmpty then false
  else
    match isNumberLoop true word with
    | none => false
    | some separated => !separated

/-- `are_three_chars_equal` (`src/checker.rs` 2465–2492), at a character position. -/
def areThreeCharsEqual (word : Str) (idx : Nat) : Bool :=
  match word.drop idx, (word.take idx).reverse with
  | [], _ => false
  | _ :: _, [] => false
  | ch :: ahead, prev :: behind =>
    if prev == ch then
      if (match ahead with | next :: _ => next == ch | [] => false) then true
      else if (match behind with | pp :: _ => pp == ch | [] => false) then true
      else false
    else false

/-- `has_uppercase_at_compound_word_boundary` (`src/checker.rs` 2499–2510), at a character
position. -/
def hasUppercaseAtBoundary (u : Unicode) (word : Str) (idx : Nat) : Bool :=
  match word.drop idx, (word.take idx).reverse with
  | [], _ => false
  | _ :: _, [] => false
  | ch :: _, prev :: _ => (u.isUpper ch && u.isAlpha prev) || (u.isUpper prev && u.isAlpha ch)

/-- `&word[byte..]`; `none` is the panic when `byte` is not a character boundary of `word`.
Standard library, used at `src/checker.rs` 1465, 2395. -/
def sliceFrom? : Str → Nat → Option Str
  | word, 0 => some word
  | [], _ + 1 => none
  | c :: cs, n + 1 => if c.utf8Size ≤ n + 1 then sliceFrom? cs (n + 1 - c.utf8Size) else none

/-- `&word[..byte]`; `none` is the panic when `byte` is not a character boundary of `word`.
Standard library, used at `src/checker.rs` 254–286. -/
def sliceTo? : Str → Nat → Option Str
  | _, 0 => some []
  | [], _ + 1 => none
  | c :: cs, n + 1 =>
    if c.utf8Size ≤ n + 1 then (sliceTo? cs (n + 1 - c.utf8Size)).map (c :: ·) else none

/-- `&word[lo..hi]`; `none` is a panic. Standard library, used at `src/checker.rs` 1465, 1947. -/
def slice? (word : Str) (lo hi : Nat) : Option Str :=
  if lo ≤ hi then do
    let s ← sliceTo? word hi
    sliceFrom? s lo
  else none

/-- `str::char_indices`, the byte positions only, offset by `at`.
Standard library, used at `src/checker.rs` 2540–2555. -/
def charBytes : Nat → Str → List Nat
  | _, [] => []
  | at', c :: cs => at' :: charBytes (at' + c.utf8Size) cs

/-- `byte_range` (`src/checker.rs` 2524–2549). Outer `none`: a panic of the slice. Inner `none`: the
`?` operator. The subtraction `margin - 2` is only reached for `margin ≠ 1`; for `margin = 0` it
would overflow (excluded by `debug_assert_ne!(margin, 0)` and by `NonZero` in the options). -/
def byteRange (word : Str) (start margin : Nat) : Option (Option (Nat × Nat)) := do
  let tail ← sliceFrom? word start
  match (charBytes 0 tail)[margin]? with
  | none => pure none
  | some byte =>
    let startByte := byte + start
    if margin = 1 then pure (some (startByte, byteLen word))
    else
      match ((charBytes 0 word).reverse.takeWhile (fun byte => startByte ≤ byte))[margin - 2]? with
      | none => pure none
      | some endByte => pure (some (startByte, endByte))

/-- `bytes_within` (`src/checker.rs` 2521–2558); `none` is a panic. -/
def bytesWithin (word : Str) (start margin : Nat) : Option (List Nat) := do
  match ← byteRange word start margin with
  | none => pure []
  | some (lo, hi) =>
    let part ← slice? word lo hi
    pure (charBytes lo part)

/-- The character positions `bytes_within` yields (`src/checker.rs` 2521–2558), with `start` as a
character position; `bytesWithin_eq` shows the agreement with the byte level function. -/
def splitPoints (word : Str) (start margin : Nat) : List Nat :=
  (List.range (word.length + 1)).filter fun i => start + margin ≤ i ∧ i + margin ≤ word.length

end Spellbook
