/-!
# `UmbraSlice` in memory (`src/umbra_slice.rs`)

`Model/Umbra` has the contents of an `UmbraSlice`, this file its bytes: the struct as `repr(C)` lays it
out, the union `Trailing` as bytes which may be read as a pointer, the allocator, `Clone` and `Drop`.
Undefined behaviour is a value (`Fault.ub`): a read of memory which is not allocated, not initialised or
beyond its block, an allocation of no bytes, a deallocation of something else than a live block with the
size it was allocated with.

Memory is a list of disjoint blocks, addressed by their first byte; every pointer of this module is the
start of a block. The order of the bytes of a number is a parameter of the target.
-/

namespace Spellbook.Mem

/-- `size_of::<usize>()`, `size_of::<T>()` and whether the most significant byte comes first
(`target_endian = "big"`). `src/umbra_slice.rs` 97–106. -/
structure Target where
  word : Nat
  elem : Nat
  big : Bool

/-- `const fn prefix_len` (`src/umbra_slice.rs` 97–100). -/
def Target.prefixLen (t : Target) : Nat := (t.word - 2) / t.elem

/-- `const fn suffix_len` (`src/umbra_slice.rs` 101–105). -/
def Target.suffixLen (t : Target) : Nat := t.word / t.elem

/-- `INLINE_LEN` (`src/umbra_slice.rs` 129), with its `as u16`. -/
def Target.inlineLen (t : Target) : Nat := (t.prefixLen + t.suffixLen) % 65536

/-- One byte of memory, `none` if it is not initialised.
Part of the model only, for `src/umbra_slice.rs` 112–122. -/
abbrev Cell := Option Nat

/-- The `n` bytes of a number, the least significant first.
Part of the model only, for `src/umbra_slice.rs` 112–122. -/
def littleEndian : Nat → Nat → List Nat
  | 0, _ => []
  | n + 1, x => x % 256 :: littleEndian n (x / 256)

/-- The number with these bytes, the least significant first.
Part of the model only, for `src/umbra_slice.rs` 112–122. -/
def ofLittleEndian : List Nat → Nat
  | [] => 0
  | b :: bs => b + 256 * ofLittleEndian bs

/-- The `n` bytes of a number in memory. Part of the model only, for `src/umbra_slice.rs` 112–122. -/
def Target.encode (t : Target) (n x : Nat) : List Nat :=
  if t.big then (littleEndian n x).reverse else littleEndian n x

/-- The number with these bytes in memory. Part of the model only, for `src/umbra_slice.rs` 112–122. -/
def Target.decode (t : Target) (bytes : List Nat) : Nat :=
  ofLittleEndian (if t.big then bytes.reverse else bytes)

/-- The bytes of the elements of a slice. Part of the model only, for `src/umbra_slice.rs` 258–262. -/
def Target.bytes (t : Target) (source : List Nat) : List Nat := source.flatMap (t.encode t.elem)

/-- The `n` elements in these bytes. Part of the model only, for `src/umbra_slice.rs` 139–148. -/
def Target.elems (t : Target) : Nat → List Nat → List Nat
  | 0, _ => []
  | n + 1, bs => t.decode (bs.take t.elem) :: Target.elems t n (bs.drop t.elem)

inductive Fault
  /-- Undefined behaviour. -/
  | ub
  /-- A panic. -/
  | panic
  /-- `handle_alloc_error`. -/
  | abort
deriving DecidableEq

/-- The live blocks. Part of the model only, for `src/umbra_slice.rs` 150–197. -/
abbrev Heap := List (Nat × List Cell)

/-- What an operation returns. Part of the model only, for `src/umbra_slice.rs` 139–343. -/
abbrev Mem (α : Type) := StateT Heap (Except Fault) α

/-- The block at an address. Part of the model only, for `src/umbra_slice.rs` 150–197. -/
def Heap.at? (h : Heap) (a : Nat) : Option (List Cell) := (h.find? (·.1 == a)).map (·.2)

/-- The memory without the block at an address. Part of the model only, for `src/umbra_slice.rs` 191–197. -/
def Heap.free (h : Heap) (a : Nat) : Heap := h.filter (·.1 != a)

/-- Reading initialised memory. Part of the model only, for `src/umbra_slice.rs` 139–148. -/
def initialised (cells : List Cell) : Except Fault (List Nat) :=
  if cells.all Option.isSome then .ok (cells.map (·.getD 0)) else .error .ub

/-- An allocator: the address of a new block of this size, or null. Used for `src/umbra_slice.rs` 150–162. -/
abbrev Allocator := Heap → Nat → Option Nat

/-- `alloc::alloc`, and `handle_alloc_error` on null (`src/umbra_slice.rs` 152–156). -/
def alloc (A : Allocator) (size : Nat) : Mem Nat := fun h =>
  if size = 0 then .error .ub
  else
    match A h size with
    | none => .error .abort
    | some a => .ok (a, (a, List.replicate size none) :: h)

/-- `alloc::dealloc`. Standard library, used at `src/umbra_slice.rs` 197. -/
def dealloc (a size : Nat) : Mem Unit := fun h =>
  match h.at? a with
  | some block => if block.length = size then .ok ((), h.free a) else .error .ub
  | none => .error .ub

/-- Reading `n` bytes of the block at `a`, `off` bytes behind its start.
Part of the model only, for `src/umbra_slice.rs` 139–148, 302–343. -/
def load (a off n : Nat) : Mem (List Nat) := fun h =>
  match h.at? a with
  | some block =>
    if off + n ≤ block.length then (initialised ((block.drop off).take n)).map (·, h) else .error .ub
  | none => .error .ub

/-- Writing bytes to the start of the block at `a`. Part of the model only, for `src/umbra_slice.rs` 150–162. -/
def store (a : Nat) (bytes : List Nat) : Mem Unit := fun h =>
  match h.at? a with
  | some block =>
    if bytes.length ≤ block.length then
      .ok ((), h.map fun b => if b.1 == a then (a, bytes.map some ++ block.drop bytes.length) else b)
    else .error .ub
  | none => .error .ub

/-- `struct UmbraSlice` (`src/umbra_slice.rs` 112–116). The union `Trailing` (119–122) is its bytes. -/
structure Slice where
  len : Nat
  pre : List Cell
  trailing : List Cell

/-- The struct in memory: `repr(C)`, no padding on the targets considered (`Spec.GoodTarget`).
`src/umbra_slice.rs` 112–122. -/
def Slice.image (t : Target) (u : Slice) : List Cell := (t.encode 2 u.len).map some ++ u.pre ++ u.trailing

/-- `unsafe { self.trailing.ptr }`. `src/umbra_slice.rs` 144, 183, 195. -/
def Slice.ptr (t : Target) (u : Slice) : Except Fault Nat := (initialised u.trailing).map t.decode

/-- `layout` (`src/umbra_slice.rs` 164–168): `Layout::array` fails beyond `isize::MAX` bytes. `pad_to_align` does nothing, the
size is a multiple of the alignment. -/
def Target.layout (t : Target) (len : Nat) : Except Fault Nat :=
  if len * t.elem < 256 ^ t.word / 2 then .ok (len * t.elem) else .error .panic

/-- `slice::from_raw_parts` on the memory of the struct, from its field `prefix` on.
`src/umbra_slice.rs` 147, 179. -/
def Slice.inlineSlice (t : Target) (u : Slice) : Except Fault (List Nat) :=
  if 2 + u.len * t.elem ≤ (u.image t).length then
    (initialised (((u.image t).drop 2).take (u.len * t.elem))).map (t.elems u.len)
  else .error .ub

/-- `as_slice` (`src/umbra_slice.rs` 139–148). -/
def Slice.asSlice (t : Target) (u : Slice) : Mem (List Nat) := do
  if u.len ≤ t.inlineLen then liftM (u.inlineSlice t)
  else
    let a ← liftM (u.ptr t)
    let bytes ← load a 0 (u.len * t.elem)
    return t.elems u.len bytes

/-- `copy_slice` (`src/umbra_slice.rs` 150–162). -/
def copySlice (t : Target) (A : Allocator) (source : List Nat) : Mem Nat := do
  let size ← liftM (t.layout source.length)
  let a ← alloc A size
  store a (t.bytes source)
  return a

/-- `copy_to_slice(&mut this[..n], src)` (`src/umbra_slice.rs` 258–262): panics unless `n` elements fit and are given. -/
def copyTo (t : Target) (this : List Cell) (n : Nat) (src : List Nat) : Except Fault (List Cell) :=
  if n * t.elem ≤ this.length ∧ src.length = n then
    .ok ((t.bytes src).map some ++ this.drop (n * t.elem))
  else .error .panic

/-- `[MaybeUninit::zeroed(); n]`. `src/umbra_slice.rs` 228–230, 269–272. -/
def zeroed (t : Target) (n : Nat) : List Cell := List.replicate (n * t.elem) (some 0)

/-- `TryFrom<&[T]>::try_from` (`src/umbra_slice.rs` 254–295). `none` is `Err(TooLongError)`. -/
def tryFrom (t : Target) (A : Allocator) (source : List Nat) : Mem (Option Slice) := do
  if source.length > 65535 then return none
  let len := source.length
  let pre := zeroed t t.prefixLen
  if len % 65536 ≤ t.inlineLen then
    let suffix := zeroed t t.suffixLen
    if len ≤ t.prefixLen then
      let pre ← liftM (copyTo t pre len source)
      return some { len := len % 65536, pre, trailing := suffix }
    else
      let pre ← liftM (copyTo t pre t.prefixLen (source.take t.prefixLen))
      let suffix ← liftM (copyTo t suffix (len - t.prefixLen) (source.drop t.prefixLen))
      return some { len := len % 65536, pre, trailing := suffix }
  else
    let pre ← liftM (copyTo t pre t.prefixLen (source.take t.prefixLen))
    let a ← copySlice t A source
    return some { len := len % 65536, pre, trailing := (t.encode t.word a).map some }

/-- `Default::default` (`src/umbra_slice.rs` 224–233). -/
def empty (t : Target) : Slice :=
  { len := 0, pre := zeroed t t.prefixLen, trailing := zeroed t t.suffixLen }

/-- `Clone::clone` (`src/umbra_slice.rs` 205–219). -/
def Slice.clone (t : Target) (A : Allocator) (u : Slice) : Mem Slice := do
  if u.len ≤ t.inlineLen then return { u with trailing := u.trailing }
  else
    let s ← u.asSlice t
    let a ← copySlice t A s
    return { u with trailing := (t.encode t.word a).map some }

/-- `Drop::drop` (`src/umbra_slice.rs` 191–197). -/
def Slice.drop (t : Target) (u : Slice) : Mem Unit := do
  if u.len > t.inlineLen then
    let a ← liftM (u.ptr t)
    let size ← liftM (t.layout u.len)
    dealloc a size

/-- `PartialEq::eq` (`src/umbra_slice.rs` 302–343). The reads of a `usize` need a struct of at least that many bytes. -/
def Slice.eq (t : Target) (u v : Slice) : Mem Bool := do
  let x ← liftM (initialised ((u.image t).take t.word))
  let y ← liftM (initialised ((v.image t).take t.word))
  if t.decode x ≠ t.decode y then return false
  if u.len ≤ t.inlineLen then
    let x ← liftM (initialised u.trailing)
    let y ← liftM (initialised v.trailing)
    return t.decode x = t.decode y
  else
    if u.len < t.prefixLen then throw .panic
    let n := (u.len - t.prefixLen) * t.elem
    let a ← liftM (u.ptr t)
    let b ← liftM (v.ptr t)
    let x ← load a (t.prefixLen * t.elem) n
    let y ← load b (t.prefixLen * t.elem) n
    return x = y

/-! ## Programs -/

/-- What a program does with its variables. Part of the model only, for `src/umbra_slice.rs` 112–343. -/
inductive Op
  | create (source : List Nat)
  | default
  | clone (i : Nat)
  | drop (i : Nat)
  | read (i : Nat)
  | eq (i j : Nat)

/-- What it sees. Part of the model only, for `src/umbra_slice.rs` 112–343. -/
inductive Seen
  | done
  | tooLong
  | contents (s : List Nat)
  | equal (b : Bool)
deriving DecidableEq

/-- The variables of a program; `none` for one which was dropped, which the compiler does not let it use
again. Part of the model only, for `src/umbra_slice.rs` 112–343. -/
abbrev Vars := List (Option Slice)

/-- One operation on the variables. An operation on a variable which does not exist or was dropped does
not compile; it does nothing here. Part of the model only, for `src/umbra_slice.rs` 112–343. -/
def step (t : Target) (A : Allocator) (vars : Vars) : Op → Mem (Vars × Seen)
  | .create s => do
    match ← tryFrom t A s with
    | some u => return (vars ++ [some u], .done)
    | none => return (vars, .tooLong)
  | .default => return (vars ++ [some (empty t)], .done)
  | .clone i =>
    match vars[i]? with
    | some (some u) => do return (vars ++ [some (← u.clone t A)], .done)
    | _ => return (vars, .done)
  | .drop i =>
    match vars[i]? with
    | some (some u) => do
      u.drop t
      return (vars.set i none, .done)
    | _ => return (vars, .done)
  | .read i =>
    match vars[i]? with
    | some (some u) => do return (vars, .contents (← u.asSlice t))
    | _ => return (vars, .done)
  | .eq i j =>
    match vars[i]?, vars[j]? with
    | some (some u), some (some v) => do return (vars, .equal (← u.eq t v))
    | _, _ => return (vars, .done)

/-- A program. Part of the model only, for `src/umbra_slice.rs` 112–343. -/
def run (t : Target) (A : Allocator) (vars : Vars) : List Op → Mem (Vars × List Seen)
  | [] => return (vars, [])
  | op :: ops => do
    let (vars, s) ← step t A vars op
    let (vars, ss) ← run t A vars ops
    return (vars, s :: ss)

end Spellbook.Mem
