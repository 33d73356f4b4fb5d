import Verif.Model.Condition
import Verif.Model.FlagSet
import Verif.Model.Casing
/-!
# Affixes

Models `Affix`, `Prefix` and `Suffix` of `src/aff.rs` 181–489 and the scratch buffer `StemBuf`
(20–62). `Affix<Pfx>` and `Affix<Sfx>` are one type here; functions which the code has in two
versions take the kind as an argument.
-/

namespace Spellbook

/-- `Pfx` and `Sfx` (`src/aff.rs` 248–251). -/
inductive Kind
  | pfx | sfx
deriving DecidableEq, Repr

/-- `struct Affix<K>` (`src/aff.rs` 183–204). -/
structure Affix where
  flag : Nat
  crossproduct : Bool
  strip : Option Str
  add : Str
  condition : Option Condition
  flags : FlagSet
deriving DecidableEq

namespace Affix

/-- `Affix::new` (`src/aff.rs` 207–226). -/
def new (flag : Nat) (crossproduct : Bool) (strip : Option Str) (add : Str)
    (condition : Option Str) (flags : FlagSet) : Except ConditionError Affix := do
  let condition ← match condition with
    | none => pure none
    | some s => some <$> Condition.parse s
  pure { flag, crossproduct, strip, add, condition, flags }

/-- `Affix::appending` (`src/aff.rs` 232–234). -/
def appending (a : Affix) : List UInt8 := utf8 a.add

/-- `Affix::erase_ignored_chars` (`src/aff.rs` 238–240). -/
def eraseIgnored (a : Affix) (ignore : List Char) : Affix := { a with add := eraseChars a.add ignore }

/-- `Affix::is_modifying` (`src/aff.rs` 243–245). -/
def isModifying (a : Affix) : Bool := a.strip.isSome || !a.add.isEmpty

/-- `STEM_INLINE_CAP` (`src/aff.rs` 21). -/
def stemInlineCap : Nat := 64

/-- `buf[pos..pos + src.len()].copy_from_slice(src)`; `none` is the panic of a slice index out of
bounds. Standard library, used at `src/aff.rs` 51–52. -/
def copyAt (buf : List UInt8) (pos : Nat) (src : List UInt8) : Option (List UInt8) :=
  if pos + src.length ≤ buf.length then some (buf.take pos ++ src ++ buf.drop (pos + src.length))
  else none

/-- `StemBuf::concat` (`src/aff.rs` 43–62) on bytes: `inline` is the current content of the inline
array. The `debug_assert!` on `MAX_WORD_LEN` (debug builds only) is not part of this function, see
`stemBuf_debug_assert_can_fail`. -/
def stemConcat (inline : List UInt8) (a b : List UInt8) : Option (List UInt8) :=
  let len := a.length + b.length
  if len ≤ stemInlineCap then do
    let inline ← copyAt inline 0 a
    let inline ← copyAt inline a.length b
    pure (inline.take len)
  else some (a ++ b)

/-- `Prefix::to_stem_into` (`src/aff.rs` 348–362) and `Suffix::to_stem_into` (420–434). The slice
index is a character count here (`add` is a prefix/suffix of the word at every call site, by
`affixesOf_iff`); the buffer path is the plain concatenation, justified by `stemConcat_eq`. -/
def toStem (k : Kind) (a : Affix) (word : Str) : Str :=
  match k with
  | .pfx => (a.strip.getD []) ++ word.drop a.add.length
  | .sfx => word.take (word.length - a.add.length) ++ (a.strip.getD [])

/-- `Prefix::to_derived` (`src/aff.rs` 375–385) and `Suffix::to_derived` (447–457); `none` is the
`expect` panic. -/
def toDerived (k : Kind) (a : Affix) (word : Str) : Option Str :=
  match k with
  | .pfx => do
    let stripped ← match a.strip with
      | some strip => stripPrefix? word strip
      | none => some word
    pure (a.add ++ stripped)
  | .sfx => do
    let stripped ← match a.strip with
      | some strip => stripSuffix? word strip
      | none => some word
    pure (stripped ++ a.add)

/-- `Prefix::condition_matches` (`src/aff.rs` 387–404). -/
def prefixConditionMatches (a : Affix) (word : Str) : Bool :=
  match a.condition with
  | none => true
  | some c =>
    if byteLen word < c.chars then false
    else if c.isLiteral then startsWith word c.pattern
    else c.matches' word

/-- `Suffix::condition_matches` (`src/aff.rs` 459–488). The fold over `char_indices().rev()` yields
the number of characters taken and the byte length of that tail; the tail itself is modelled as
the last `chars` characters. -/
def suffixConditionMatches (a : Affix) (word : Str) : Bool :=
  match a.condition with
  | none => true
  | some c =>
    if byteLen word < c.chars then false
    else if c.isLiteral then endsWith word c.pattern
    else
      let tail := (word.reverse.take c.chars).reverse
      if tail.length < c.chars then false
      else c.matches' tail

/-- `condition_matches` of either kind. `src/aff.rs` 387–404, 459–488. -/
def conditionMatches (k : Kind) (a : Affix) (word : Str) : Bool :=
  match k with
  | .pfx => a.prefixConditionMatches word
  | .sfx => a.suffixConditionMatches word

end Affix
end Spellbook
