import Verif.Model.Str
/-!
# The word list's hash bag

Models `src/hash_bag.rs`. The bag is a thin wrapper of `hashbrown::HashTable`, which is not part of
the code under study and is represented by its contract:

* a table is a list of slots in insertion order (`insert_unique` adds a slot and never touches
  another one),
* `iter_hash(h)` visits, in an order of the table's choosing, each slot at most once and every slot
  whose key hashes to `h`; it may also visit slots of other hashes (a 7-bit tag collision),
* `iter()` visits every slot exactly once in an order of the table's choosing.

The hash function and both orders are packed in `Layout`; every theorem quantifies over it.
-/

namespace Spellbook

/-- Everything `hashbrown` and the `BuildHasher` may choose. `probe ks h` are the slots visited by
`iter_hash(h)` (and `iter_hash_mut`) on a table whose keys were inserted in the order `ks`,
`order ks` those visited by `iter()`. Used for `src/hash_bag.rs` 65–102. -/
structure Layout where
  hash : Str → Nat
  probe : List Str → Nat → List Nat
  order : List Str → List Nat
  probe_nodup : ∀ ks h, (probe ks h).Nodup
  probe_lt : ∀ ks h i, i ∈ probe ks h → i < ks.length
  probe_complete : ∀ ks h i k, ks[i]? = some k → hash k = h → i ∈ probe ks h
  order_perm : ∀ ks, (order ks).Perm (List.range ks.length)

/-- A layout for concrete examples: all keys collide and slots are visited in insertion order.
Part of the model only, for `src/hash_bag.rs` 65–102. -/
def Layout.default : Layout where
  hash _ := 0
  probe ks _ := List.range ks.length
  order ks := List.range ks.length
  probe_nodup ks _ := List.nodup_range
  probe_lt ks _ i h := List.mem_range.1 h
  probe_complete ks _ i k h _ := by
    obtain ⟨h, _⟩ := List.getElem?_eq_some_iff.1 h
    exact List.mem_range.2 h
  order_perm ks := List.Perm.refl _

/-- The opposite order, to show dependence on the layout. Part of the model only, for `src/hash_bag.rs` 65–102. -/
def Layout.reversed : Layout where
  hash _ := 0
  probe ks _ := (List.range ks.length).reverse
  order ks := (List.range ks.length).reverse
  probe_nodup ks _ := (List.reverse_perm _).nodup_iff.2 List.nodup_range
  probe_lt ks _ i h := List.mem_range.1 (List.mem_reverse.1 h)
  probe_complete ks _ i k h _ := by
    obtain ⟨h, _⟩ := List.getElem?_eq_some_iff.1 h
    exact List.mem_reverse.2 (List.mem_range.2 h)
  order_perm ks := List.reverse_perm _

/-- `HashBag<K, V, S>` (`src/hash_bag.rs` 29–32) with string keys: the slots in insertion order. -/
structure Bag (V : Type) where
  slots : List (Str × V)

namespace Bag
variable {V : Type}

/-- `HashBag::with_capacity_and_hasher` (`src/hash_bag.rs` 55–60). -/
def empty : Bag V := ⟨[]⟩

/-- The keys in insertion order. Part of the model only, for `src/hash_bag.rs` 38–42. -/
def keys (b : Bag V) : List Str := b.slots.map Prod.fst

/-- `HashBag::insert` (`src/hash_bag.rs` 65–70). -/
def insert (b : Bag V) (k : Str) (v : V) : Bag V := ⟨b.slots ++ [(k, v)]⟩

/-- `HashBag::len` (`src/hash_bag.rs` 45–47). -/
def len (b : Bag V) : Nat := b.slots.length

/-- `HashBag::iter` (`src/hash_bag.rs` 38–42). -/
def iter (L : Layout) (b : Bag V) : List (Str × V) :=
  (L.order b.keys).filterMap fun i => b.slots[i]?

/-- `HashBag::get` (`src/hash_bag.rs` 75–86) with `GetAllIter::next` (178–190): walk the probe sequence and keep the
slots whose key is equal. -/
def get (L : Layout) (b : Bag V) (k : Str) : List (Str × V) :=
  ((L.probe b.keys (L.hash k)).filterMap fun i => b.slots[i]?).filter fun e => k == e.1

/-- One step of `GetAllMutIter::next` (`src/hash_bag.rs` 209–221): slot `i` is yielded if its key is equal, and the
caller's loop body replaces the value by `f` of it. -/
def updateSlot (k : Str) (f : V → V) (b : Bag V) (i : Nat) : Bag V :=
  match b.slots[i]? with
  | some (k', v) => if k == k' then ⟨b.slots.set i (k', f v)⟩ else b
  | none => b

/-- `HashBag::get_mut` (`src/hash_bag.rs` 91–102), as used by a loop which replaces each yielded value by `f` of
it. -/
def updateAll (L : Layout) (b : Bag V) (k : Str) (f : V → V) : Bag V :=
  (L.probe b.keys (L.hash k)).foldl (updateSlot k f) b

end Bag
end Spellbook
