import Verif.Model.Affix
/-!
# The affix index

Models `AffixKind::{nth_byte, cmp}` (`src/aff.rs` 268–333), `AffixIndex` (540–628) and
`AffixesIter` (630–707). Panics (`expect`, slice indices) are explicit: `none`.
-/

namespace Spellbook

/-- `AffixKind::nth_byte` (`src/aff.rs` 283–285 for prefixes, 309–312 for suffixes). -/
def nthByte (k : Kind) (bytes : List UInt8) (i : Nat) : Option UInt8 :=
  match k with
  | .pfx => bytes[i]?
  | .sfx => if i + 1 ≤ bytes.length then bytes[bytes.length - (i + 1)]? else none

/-- `Ord` for byte slices and iterators: lexicographic, "is less or equal".
Standard library, used at `src/aff.rs` 288, 315. -/
def bytesLe : List UInt8 → List UInt8 → Bool
  | [], _ => true
  | _ :: _, [] => false
  | x :: xs, y :: ys => if x < y then true else if x = y then bytesLe xs ys else false

/-- `AffixKind::cmp` (`src/aff.rs` 287–289, 314–316) as "not greater". -/
def keyLe (k : Kind) (a b : List UInt8) : Bool :=
  match k with
  | .pfx => bytesLe a b
  | .sfx => bytesLe a.reverse b.reverse

/-- `slice::partition_point`: bisection of `[lo, hi)`. Standard library, used at `src/aff.rs` 564, 694–699. -/
def partitionPointAux {α : Type} (p : α → Bool) (l : List α) : (fuel lo hi : Nat) → Nat
  | 0, lo, _ => lo
  | fuel + 1, lo, hi =>
    if lo < hi then
      let mid := (lo + hi) / 2
      if (l[mid]?).any p then partitionPointAux p l fuel (mid + 1) hi
      else partitionPointAux p l fuel lo mid
    else lo

/-- `slice::partition_point`. Standard library, used at `src/aff.rs` 564, 694–699. -/
def partitionPoint {α : Type} (p : α → Bool) (l : List α) : Nat :=
  partitionPointAux p l l.length 0 l.length

/-- `iter().position(|affix| nth_byte(..).expect(..) > byte)` (`src/aff.rs` 575–579); the outer
`none` is the panic. -/
def positionAbove (k : Kind) (byte : UInt8) : List Affix → Option (Option Nat)
  | [] => some none
  | a :: rest => do
    let b ← nthByte k a.appending 0
    if b > byte then pure (some 0) else pure ((← positionAbove k byte rest).map (· + 1))

/-- The `while first_byte_idx < table.len()` loop of `From<Vec<Affix<C>>>` (`src/aff.rs` 564–583),
building `first_byte` and `prefix_idx_with_first_byte`. `none` is a panic (or lack of fuel; the
theorem `firstLoop_spec` shows neither happens on a sorted table). -/
def firstLoop (k : Kind) (table : List Affix) :
    (fuel idx : Nat) → List UInt8 → List Nat → Option (List UInt8 × List Nat)
  | 0, _, _, _ => none
  | fuel + 1, idx, fb, pi =>
    if idx < table.length then do
      let a ← table[idx]?
      let byte ← nthByte k a.appending 0
      let fb := fb ++ [byte]
      let pi := pi ++ [idx]
      match ← positionAbove k byte (table.drop idx) with
      | some n => firstLoop k table fuel (idx + n) fb pi
      | none => pure (fb, pi)
    else pure (fb, pi)

/-- The `first_byte` and `prefix_idx_with_first_byte` tables (`src/aff.rs` 560–586). -/
def firstTables (k : Kind) (table : List Affix) : Option (List UInt8 × List Nat) := do
  let start := partitionPoint (fun a : Affix => a.appending.isEmpty) table
  let (fb, pi) ← firstLoop k table (table.length + 1) start [] []
  pure (fb, pi ++ [table.length])

/-- `struct AffixIndex<C>` (`src/aff.rs` 540–545). The table is any sorted arrangement
(`sort_unstable_by` may order affixes with equal text arbitrarily); the other fields are functions
of it (`firstTables`, `allFlags`). -/
structure AffixIndex (k : Kind) where
  table : List Affix
  sorted : table.Pairwise fun a b => keyLe k a.appending b.appending

/-- Insertion into a sorted affix table. Part of the model only, for `src/aff.rs` 558. -/
def insertAffix (k : Kind) (a : Affix) : List Affix → List Affix
  | [] => [a]
  | b :: bs => if keyLe k a.appending b.appending then a :: b :: bs else b :: insertAffix k a bs

/-- One of the results `sort_unstable_by` may produce. Standard library, used at `src/aff.rs` 558. -/
def sortAffixes (k : Kind) : List Affix → List Affix
  | [] => []
  | a :: as => insertAffix k a (sortAffixes k as)

namespace AffixIndex
variable {k : Kind}

/-- `all_flags` (`src/aff.rs` 588–592). -/
def allFlags (idx : AffixIndex k) : FlagSet := FlagSet.ofList (idx.table.flatMap (·.flags.elems))

/-- `C::nth_byte(affix.appending(), bytes_matched) < Some(byte)` (`src/aff.rs` 694–696). -/
def nthBelow (k : Kind) (matched : Nat) (byte : UInt8) (a : Affix) : Bool :=
  match nthByte k a.appending matched with
  | none => true
  | some b => b < byte

/-- `C::nth_byte(affix.appending(), bytes_matched) <= Some(byte)` (`src/aff.rs` 697–699). -/
def nthAtMost (k : Kind) (matched : Nat) (byte : UInt8) (a : Affix) : Bool :=
  match nthByte k a.appending matched with
  | none => true
  | some b => b ≤ byte

/-- The `loop` of `AffixesIter::next` (`src/aff.rs` 670–706). Result: the item and the new state,
or the end of the iteration. -/
def nextLoop (k : Kind) (word : List UInt8) (table : List Affix) (matched : Nat) :
    Option (Affix × List Affix × Nat) :=
  match table with
  | [] => none
  | item :: rest =>
    if item.appending.length = matched then some (item, rest, matched)
    else
      match hb : nthByte k word matched with
      | none => none
      | some byte =>
        let start := partitionPoint (nthBelow k matched byte) (item :: rest)
        let stop := partitionPoint (nthAtMost k matched byte) (item :: rest)
        if start = stop then none
        else nextLoop k word (((item :: rest).take stop).drop start) (matched + 1)
termination_by word.length - matched
decreasing_by
  have : matched < word.length := by
    unfold nthByte at hb
    split at hb
    · exact (List.getElem?_eq_some_iff.1 hb).1
    · split at hb
      · omega
      · simp at hb
  omega

/-- `AffixesIter::next` (`src/aff.rs` 639–707). The outer `none` is a panic, the inner one the end
of the iteration. -/
def next (k : Kind) (fb : List UInt8) (pi : List Nat) (word : List UInt8) (table : List Affix)
    (matched : Nat) : Option (Option (Affix × List Affix × Nat)) :=
  if matched = 0 then
    match table with
    | [] => some none
    | item :: rest =>
      if !item.add.isEmpty then
        match nthByte k word 0 with
        | none => some none
        | some byte =>
          match fb.findIdx? (· == byte) with
          | none => some none
          | some j => do
            let emptyOffset ← pi[0]?
            let start ← pi[j]?
            let stop ← pi[j + 1]?
            if emptyOffset ≤ start ∧ start ≤ stop ∧ stop - emptyOffset ≤ (item :: rest).length then
              pure (nextLoop k word
                (((item :: rest).take (stop - emptyOffset)).drop (start - emptyOffset)) 1)
            else none
      else some (some (item, rest, 0))
  else some (nextLoop k word table matched)

/-- Draining the iterator. Every item removes at least itself from the table, so the table length
bounds the number of items. Part of the model only, for `src/aff.rs` 640–715. -/
def collect (k : Kind) (fb : List UInt8) (pi : List Nat) (word : List UInt8) :
    Nat → List Affix → Nat → Option (List Affix)
  | 0, _, _ => none
  | fuel + 1, table, matched => do
    match ← next k fb pi word table matched with
    | none => pure []
    | some (a, table, matched) => pure (a :: (← collect k fb pi word fuel table matched))

/-- `AffixIndex::affixes_of` (`src/aff.rs` 605–616), drained; `none` is a panic. -/
def affixesOf? (idx : AffixIndex k) (word : Str) : Option (List Affix) := do
  let (fb, pi) ← firstTables k idx.table
  collect k fb pi (utf8 word) (idx.table.length + 1) idx.table 0

/-- `AffixIndex::affixes_of` with the panic, which `affixesOf?_eq` shows to be impossible, replaced
by an arbitrary value. `src/aff.rs` 604–616. -/
def affixesOf (idx : AffixIndex k) (word : Str) : List Affix := (idx.affixesOf? word).getD []

end AffixIndex
end Spellbook
