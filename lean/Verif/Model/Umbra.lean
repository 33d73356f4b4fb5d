/-!
# `UmbraSlice`: the compact slice type (`src/umbra_slice.rs`)

Memory cells hold element values (`u8` or `NonZeroU16` values as `Nat`); `MaybeUninit::zeroed()`
is the value `0`. The union `Trailing` is a sum: reading the member that was not written is
undefined behaviour in Rust and `none` here. `P` and `S` are `PREFIX_LEN` and `SUFFIX_LEN`
(64-bit: 6 and 8 for `u8`, 3 and 4 for `u16`). Bytes, allocation and `Drop` are in `UmbraMem`.
-/

namespace Spellbook

/-- `union Trailing` (`src/umbra_slice.rs` 119–122). -/
inductive Trailing where
  | suffix (cells : List Nat)
  | ptr (heap : List Nat)
deriving DecidableEq

/-- `struct UmbraSlice` (`src/umbra_slice.rs` 112–116). -/
structure Umbra where
  len : Nat
  pre : List Nat
  trailing : Trailing
deriving DecidableEq

namespace Umbra

/-- `copy_to_slice(&mut dst[..src.len()], src)` (`src/umbra_slice.rs` 258–262): overwrite the first cells. -/
def copyInto (dst src : List Nat) : List Nat := src ++ dst.drop src.length

/-- `TryFrom<&[T]>::try_from` (`src/umbra_slice.rs` 254–295). `none` is `Err(TooLongError)`. -/
def tryFrom (P S : Nat) (source : List Nat) : Option Umbra :=
  if source.length > 65535 then none
  else
    let zeroPre := List.replicate P 0
    if source.length ≤ P + S then
      let zeroSuf := List.replicate S 0
      if source.length ≤ P then
        some { len := source.length, pre := copyInto zeroPre source, trailing := .suffix zeroSuf }
      else
        some { len := source.length, pre := copyInto zeroPre (source.take P),
               trailing := .suffix (copyInto zeroSuf (source.drop P)) }
    else
      some { len := source.length, pre := copyInto zeroPre (source.take P), trailing := .ptr source }

/-- `as_slice` (`src/umbra_slice.rs` 139–148): inline slices read prefix and suffix as one contiguous array. -/
def asSlice (P S : Nat) (u : Umbra) : Option (List Nat) :=
  if u.len ≤ P + S then
    match u.trailing with
    | .suffix cells => some ((u.pre ++ cells).take u.len)
    | .ptr _ => none
  else
    match u.trailing with
    | .ptr heap => some (heap.take u.len)
    | .suffix _ => none

/-- `PartialEq::eq` (`src/umbra_slice.rs` 302–343): compare length and prefix as one machine word, then the suffix word
or the heap contents after the prefix with `memcmp`. -/
def eq (P S : Nat) (a b : Umbra) : Option Bool :=
  if a.len ≠ b.len ∨ a.pre ≠ b.pre then some false
  else if a.len ≤ P + S then
    match a.trailing, b.trailing with
    | .suffix x, .suffix y => some (x == y)
    | _, _ => none
  else
    match a.trailing, b.trailing with
    | .ptr x, .ptr y => some ((x.drop P).take (a.len - P) == (y.drop P).take (a.len - P))
    | _, _ => none

/-- `Clone::clone` (`src/umbra_slice.rs` 205–219). -/
def clone (P S : Nat) (u : Umbra) : Option Umbra :=
  if u.len ≤ P + S then
    match u.trailing with
    | .suffix cells => some { u with trailing := .suffix cells }
    | .ptr _ => none
  else (asSlice P S u).map fun s => { u with trailing := .ptr s }

end Umbra

end Spellbook
