/-!
# Text

A Rust `&str` is a sequence of Unicode scalar values stored as UTF-8. The model uses `List Char`
(Lean's `Char` is exactly a Unicode scalar value) and, where the code looks at bytes, the UTF-8
encoding of that list (core Lean's `String.utf8EncodeChar`).

This file models the Rust standard library string functions the code uses. They are part of the
trusted base: `str::len`, `starts_with`, `ends_with`, `strip_prefix`, `strip_suffix`, `split_once`,
`trim_end_matches`, `find`, `match_indices`, `replace`.
-/

namespace Spellbook

deriving instance DecidableEq for Except

/-- A Rust `str`/`String`/`Box<str>`. Standard library, used everywhere in `src/`. -/
abbrev Str := List Char

/-- `str::as_bytes`. Standard library, used at `src/aff.rs` 51. -/
def utf8 (s : Str) : List UInt8 := s.flatMap String.utf8EncodeChar

/-- `str::len` (bytes). Standard library, used at `src/checker.rs` 99. -/
def byteLen (s : Str) : Nat := (utf8 s).length

/-- `str::starts_with(&str)`. Standard library, used at `src/aff.rs` 349. -/
def startsWith (s p : Str) : Bool := p.isPrefixOf s

/-- `str::ends_with(&str)`. Standard library, used at `src/aff.rs` 421. -/
def endsWith (s p : Str) : Bool := p.isSuffixOf s

/-- `str::strip_prefix(&str)`. Standard library, used at `src/checker.rs` 159. -/
def stripPrefix? (s p : Str) : Option Str :=
  if p.isPrefixOf s then some (s.drop p.length) else none

/-- `str::strip_suffix(&str)`. Standard library, used at `src/checker.rs` 167. -/
def stripSuffix? (s p : Str) : Option Str :=
  if p.isSuffixOf s then some (s.take (s.length - p.length)) else none

/-- `str::split_once(&str)`: split at the first occurrence of the pattern, dropping it.
Standard library, used at `src/checker.rs` 177. -/
def splitOnce? (p : Str) : Str → Option (Str × Str)
  | [] => if p.isPrefixOf [] then some ([], []) else none
  | c :: s =>
    if p.isPrefixOf (c :: s) then some ([], (c :: s).drop p.length)
    else (splitOnce? p s).map fun (a, b) => (c :: a, b)

/-- `str::trim_end_matches(char)`. Standard library, used at `src/checker.rs` 111. -/
def trimEndMatches (c : Char) (s : Str) : Str := (s.reverse.dropWhile (· == c)).reverse

/-- `str::contains(&str)`. Standard library, used at `src/checker.rs` 288. -/
def containsStr (s p : Str) : Bool := (splitOnce? p s).isSome

end Spellbook
