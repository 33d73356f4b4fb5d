import Verif.Model.UmbraMem
import Verif.Model.HashBag
import Verif.Model.FlagSet
/-!
# The word list in memory (`src/umbra_slice.rs` 376–448, `src/hash_bag.rs`, `src/lib.rs` 355–417)

`Model/HashBag` has texts as keys and `FlagSet`s as values. In memory a key is an `UmbraString` and a
value a `FlagSet` around an `UmbraSlice<Flag>`, both as in `Model/UmbraMem`; all of them use one memory.
The table of `hashbrown` is represented by its contract as in `Model/HashBag` (`Layout`); whether it grows at an
insertion is its choice, here it always does and hashes all keys it holds.
-/

namespace Spellbook.Mem

/-- What `Target` says but for the element type. Part of the model only, for `src/umbra_slice.rs` 97–106. -/
structure Machine where
  word : Nat
  big : Bool

/-- `U8UmbraSlice` (`src/umbra_slice.rs` 383). -/
def Machine.texts (M : Machine) : Target := ⟨M.word, 1, M.big⟩

/-- `FlagSlice` (`src/umbra_slice.rs` 90). -/
def Machine.flags (M : Machine) : Target := ⟨M.word, 2, M.big⟩

/-- `core::str::from_utf8_unchecked`: undefined behaviour if the bytes are not UTF-8. Standard library, used at
`src/umbra_slice.rs` 391. -/
def strOfBytes (bytes : List Nat) : Except Fault Str :=
  match (bytes.map UInt8.ofNat).toByteArray.utf8Decode? with
  | some s => .ok s.toList
  | none => .error .ub

/-- `UmbraString::as_str` (`src/umbra_slice.rs` 385–393), also `as_ref` (395–399), `borrow` (401–405), and what is
hashed for a key (407–413). -/
def asStr (M : Machine) (u : Slice) : Mem Str := do
  liftM (strOfBytes (← u.asSlice M.texts))

/-- `From<&str> for UmbraString` (`src/umbra_slice.rs` 430–440), with its `assert!` and `unwrap`. -/
def stemFrom (M : Machine) (A : Allocator) (s : Str) : Mem Slice := do
  if (utf8 s).length > 65535 then throw .panic
  match ← tryFrom M.texts A ((utf8 s).map UInt8.toNat) with
  | some u => return u
  | none => throw .panic

/-- `From<Vec<Flag>> for FlagSet` (`src/lib.rs` 358–365), with its `assert!` and `unwrap`. -/
def flagsFrom (M : Machine) (A : Allocator) (flags : List Nat) : Mem Slice := do
  let flags := dedupNat (sortNat flags)
  if flags.length > 65535 then throw .panic
  match ← tryFrom M.flags A flags with
  | some u => return u
  | none => throw .panic

/-- `UmbraSlice::sorted_contains` (`src/umbra_slice.rs` 176–187). -/
def Slice.sortedContains (t : Target) (u : Slice) (x : Nat) : Mem Bool := do
  if u.len ≤ t.inlineLen then
    return List.elem x (← liftM (u.inlineSlice t))
  else
    let a ← liftM (u.ptr t)
    let slice := t.elems u.len (← load a 0 (u.len * t.elem))
    return FlagSet.binarySearch slice x slice.length 0 slice.length

/-- `FlagSet::with_flag` (`src/lib.rs` 412–416). -/
def withFlag (M : Machine) (A : Allocator) (u : Slice) (flag : Nat) : Mem Slice := do
  let flags ← u.asSlice M.flags
  flagsFrom M A (flags ++ [flag])

/-- `(Stem, FlagSet)`, an element of the table. `src/lib.rs` 62–70. -/
structure Entry where
  stem : Slice
  flags : Slice

/-- The table: its elements in the order of insertion. `src/hash_bag.rs` 29–32. -/
abbrev Table := List Entry

/-- The keys as `make_hasher` (`src/hash_bag.rs` 129–135) reads them. -/
def readKeys (M : Machine) : Table → Mem (List Str)
  | [] => return []
  | e :: es => do
    let k ← asStr M e.stem
    let ks ← readKeys M es
    return k :: ks

/-- `HashBag::insert` (`src/hash_bag.rs` 65–70): `make_hash` reads the new key, a growing table the others. -/
def insert (M : Machine) (table : Table) (e : Entry) : Mem Table := do
  let _ ← readKeys M (table ++ [e])
  return table ++ [e]

/-- `(k.as_str(), v.as_slice())` for what a lookup yields. Part of the model only, for `src/hash_bag.rs` 178–190. -/
def readEntry (M : Machine) (e : Entry) : Mem (Str × List Nat) := do
  let k ← asStr M e.stem
  let flags ← e.flags.asSlice M.flags
  return (k, flags)

/-- `GetAllIter::next` (`src/hash_bag.rs` 178–190) until its end. -/
def getLoop (M : Machine) (table : Table) (key : Str) : List Nat → Mem (List (Str × List Nat))
  | [] => return []
  | i :: is =>
    match table[i]? with
    | none => getLoop M table key is
    | some e => do
      let k ← asStr M e.stem
      if utf8 key = utf8 k then
        let x ← readEntry M e
        let xs ← getLoop M table key is
        return x :: xs
      else getLoop M table key is

/-- `HashBag::get` (`src/hash_bag.rs` 75–86). -/
def find (M : Machine) (L : Layout) (table : Table) (key : Str) : Mem (List (Str × List Nat)) := do
  let keys ← readKeys M table
  getLoop M table key (L.probe keys (L.hash key))

/-- The loop over the elements of `iter()`. Part of the model only, for `src/hash_bag.rs` 38–42, 139–158. -/
def iterLoop (M : Machine) (table : Table) : List Nat → Mem (List (Str × List Nat))
  | [] => return []
  | i :: is =>
    match table[i]? with
    | none => iterLoop M table is
    | some e => do
      let x ← readEntry M e
      let xs ← iterLoop M table is
      return x :: xs

/-- `HashBag::iter` (`src/hash_bag.rs` 38–42, 139–158). -/
def iter (M : Machine) (L : Layout) (table : Table) : Mem (List (Str × List Nat)) := do
  let keys ← readKeys M table
  iterLoop M table (L.order keys)

/-- One turn of the loop of `remove_stem` (`src/lib.rs` 297–302) on the value of one element: the new value is
made, then the old one is dropped. -/
def forbid (M : Machine) (A : Allocator) (flag : Nat) (u : Slice) : Mem (Bool × Slice) := do
  if ← u.sortedContains M.flags flag then return (false, u)
  else
    let v ← withFlag M A u flag
    u.drop M.flags
    return (true, v)

/-- The loop of `remove_stem` (`src/lib.rs` 295–304) with `GetAllMutIter::next` (`src/hash_bag.rs` 209–221). -/
def removeLoop (M : Machine) (A : Allocator) (key : Str) (flag : Nat) :
    List Nat → Bool → Table → Mem (Bool × Table)
  | [], removed, table => return (removed, table)
  | i :: is, removed, table =>
    match table[i]? with
    | none => removeLoop M A key flag is removed table
    | some e => do
      let k ← asStr M e.stem
      if utf8 key = utf8 k then
        let (did, v) ← forbid M A flag e.flags
        removeLoop M A key flag is (removed || did) (table.set i { e with flags := v })
      else removeLoop M A key flag is removed table

/-- `Dictionary::remove_stem` (`src/lib.rs` 295–304) with `HashBag::get_mut` (`src/hash_bag.rs` 91–102). -/
def removeStem (M : Machine) (A : Allocator) (L : Layout) (table : Table) (key : Str) (flag : Nat) :
    Mem (Bool × Table) := do
  let keys ← readKeys M table
  removeLoop M A key flag (L.probe keys (L.hash key)) false table

/-- `#[derive(Clone)]` of `HashBag` (`src/hash_bag.rs` 28): every element is copied. -/
def cloneTable (M : Machine) (A : Allocator) : Table → Mem Table
  | [] => return []
  | e :: es => do
    let stem ← e.stem.clone M.texts A
    let flags ← e.flags.clone M.flags A
    let es ← cloneTable M A es
    return { stem, flags } :: es

/-- Dropping the table: every element is dropped. Part of the model only, for `src/hash_bag.rs` 29–32. -/
def dropTable (M : Machine) : Table → Mem Unit
  | [] => return ()
  | e :: es => do
    e.stem.drop M.texts
    e.flags.drop M.flags
    dropTable M es

/-! ## Programs -/

/-- What a program does with its word lists. Part of the model only, for `src/lib.rs` 117–305. -/
inductive WordOp
  | new
  | insert (i : Nat) (stem : Str) (flags : List Nat)
  | find (i : Nat) (key : Str)
  | iter (i : Nat)
  | len (i : Nat)
  | remove (i : Nat) (key : Str) (flag : Nat)
  | clone (i : Nat)
  | drop (i : Nat)

/-- What it sees. Part of the model only, for `src/lib.rs` 117–305. -/
inductive WordSeen
  | done
  | entries (es : List (Str × List Nat))
  | count (n : Nat)
  | removed (b : Bool)
deriving DecidableEq

/-- One operation on the word lists of a program, `none` for one which was dropped. Part of the model only, for
`src/lib.rs` 117–305. -/
def wordStep (M : Machine) (A : Allocator) (L : Layout) (vars : List (Option Table)) :
    WordOp → Mem (List (Option Table) × WordSeen)
  | .new => return (vars ++ [some []], .done)
  | .insert i stem flags =>
    match vars[i]? with
    | some (some table) => do
      let stem ← stemFrom M A stem
      let flags ← flagsFrom M A flags
      let table ← insert M table { stem, flags }
      return (vars.set i (some table), .done)
    | _ => return (vars, .done)
  | .find i key =>
    match vars[i]? with
    | some (some table) => do return (vars, .entries (← find M L table key))
    | _ => return (vars, .done)
  | .iter i =>
    match vars[i]? with
    | some (some table) => do return (vars, .entries (← iter M L table))
    | _ => return (vars, .done)
  | .len i =>
    match vars[i]? with
    | some (some table) => return (vars, .count table.length)
    | _ => return (vars, .done)
  | .remove i key flag =>
    match vars[i]? with
    | some (some table) => do
      let (removed, table) ← removeStem M A L table key flag
      return (vars.set i (some table), .removed removed)
    | _ => return (vars, .done)
  | .clone i =>
    match vars[i]? with
    | some (some table) => do return (vars ++ [some (← cloneTable M A table)], .done)
    | _ => return (vars, .done)
  | .drop i =>
    match vars[i]? with
    | some (some table) => do
      dropTable M table
      return (vars.set i none, .done)
    | _ => return (vars, .done)

/-- A program. Part of the model only, for `src/lib.rs` 117–305. -/
def wordRun (M : Machine) (A : Allocator) (L : Layout) (vars : List (Option Table)) :
    List WordOp → Mem (List (Option Table) × List WordSeen)
  | [] => return (vars, [])
  | op :: ops => do
    let (vars, s) ← wordStep M A L vars op
    let (vars, ss) ← wordRun M A L vars ops
    return (vars, s :: ss)

end Spellbook.Mem
