/-!
# Flags and flag sets

Models `src/lib.rs` 344 (`Flag`), 355–417 (`FlagSet`) and `sorted_contains` of
`src/umbra_slice.rs` 176–187. The storage itself (`UmbraSlice`) is modelled in `Umbra.lean`.
-/

namespace Spellbook

/-- `type Flag = NonZeroU16` (`src/lib.rs` 344). The model uses the numeric value; `Flag.Valid` is
the range of the Rust type. -/
abbrev Flag := Nat

/-- The values a `NonZeroU16` can take. Used for `src/lib.rs` 344. -/
def Flag.Valid (f : Nat) : Prop := 1 ≤ f ∧ f ≤ 65535

instance (f : Nat) : Decidable (Flag.Valid f) := inferInstanceAs (Decidable (_ ∧ _))

/-- Insertion into a sorted list; helper of `sortNat`. Part of the model only, for `src/lib.rs` 360–375. -/
def insertNat (x : Nat) : List Nat → List Nat
  | [] => [x]
  | y :: ys => if x ≤ y then x :: y :: ys else y :: insertNat x ys

/-- `slice::sort_unstable` on integers: equal integers are indistinguishable, so every sorting
algorithm gives this list. Standard library, used at `src/lib.rs` 360–375. -/
def sortNat : List Nat → List Nat
  | [] => []
  | x :: xs => insertNat x (sortNat xs)

/-- `Vec::dedup`: keeps the first of each run of equal consecutive elements.
Standard library, used at `src/lib.rs` 360–375. -/
def dedupNat : List Nat → List Nat
  | [] => []
  | [x] => [x]
  | x :: y :: r => if x = y then dedupNat (y :: r) else x :: dedupNat (y :: r)

theorem mem_insertNat {x a : Nat} {l : List Nat} : a ∈ insertNat x l ↔ a = x ∨ a ∈ l := by
  induction l with
  | nil => simp [insertNat]
  | cons y ys ih =>
    unfold insertNat
    split <;> simp_all
    constructor <;> rintro (h | h | h) <;> simp [h]

theorem mem_sortNat {a : Nat} {l : List Nat} : a ∈ sortNat l ↔ a ∈ l := by
  induction l with
  | nil => simp [sortNat]
  | cons y ys ih => simp [sortNat, mem_insertNat, ih]

theorem pairwise_insertNat {x : Nat} {l : List Nat} (h : l.Pairwise (· ≤ ·)) :
    (insertNat x l).Pairwise (· ≤ ·) := by
  induction l with
  | nil => simp [insertNat]
  | cons y ys ih =>
    rw [List.pairwise_cons] at h
    unfold insertNat
    split
    · rename_i hxy
      refine List.pairwise_cons.2 ⟨?_, List.pairwise_cons.2 h⟩
      intro b hb
      rcases List.mem_cons.1 hb with rfl | hb
      · exact hxy
      · have := h.1 b hb; omega
    · rename_i hxy
      refine List.pairwise_cons.2 ⟨?_, ih h.2⟩
      intro b hb
      rcases mem_insertNat.1 hb with rfl | hb
      · omega
      · exact h.1 b hb

theorem pairwise_sortNat (l : List Nat) : (sortNat l).Pairwise (· ≤ ·) := by
  induction l with
  | nil => simp [sortNat]
  | cons y ys ih => exact pairwise_insertNat ih

theorem mem_dedupNat {a : Nat} {l : List Nat} : a ∈ dedupNat l ↔ a ∈ l := by
  fun_induction dedupNat l <;> simp_all

theorem pairwise_dedupNat {l : List Nat} (h : l.Pairwise (· ≤ ·)) :
    (dedupNat l).Pairwise (· < ·) := by
  fun_induction dedupNat l with
  | case1 => simp
  | case2 x => simp
  | case3 x r ih => exact ih (List.pairwise_cons.1 h).2
  | case4 x y r hxy ih =>
    rw [List.pairwise_cons] at h
    refine List.pairwise_cons.2 ⟨?_, ih h.2⟩
    intro b hb
    have hb := mem_dedupNat.1 hb
    have h1 := h.1 y (by simp)
    rcases List.mem_cons.1 hb with rfl | hb'
    · omega
    · have := (List.pairwise_cons.1 h.2).1 b hb'; omega

/-- `struct FlagSet(FlagSlice)` (`src/lib.rs` 355–356): the slice contents. The only constructors in
the code are `Default` (empty) and `From<Vec<Flag>>`, which sorts and removes duplicates, so the
ordering is part of the type. -/
structure FlagSet where
  elems : List Nat
  sorted : elems.Pairwise (· < ·)
deriving DecidableEq

namespace FlagSet

/-- `FlagSet::default()`. `src/lib.rs` 355–358. -/
def empty : FlagSet := ⟨[], by simp⟩

instance : Inhabited FlagSet := ⟨empty⟩

/-- `impl From<Vec<Flag>> for FlagSet` (`src/lib.rs` 358–365). The `assert!` is the subject of
`FlagSet_from_never_panics`. -/
def ofList (flags : List Nat) : FlagSet :=
  ⟨dedupNat (sortNat flags), pairwise_dedupNat (pairwise_sortNat flags)⟩

/-- `FlagSet::is_empty` (`src/lib.rs` 378–381). -/
def isEmpty (s : FlagSet) : Bool := s.elems.isEmpty

/-- `UmbraSlice::INLINE_LEN` for `T = Flag` on a 64-bit target (`src/umbra_slice.rs` 99–107, 129):
3 in the prefix and 4 in the suffix. -/
def inlineLen : Nat := 7

/-- `slice::binary_search(t).is_ok()`: bisection of the index range `[lo, lo + size)`. `fuel` is an
upper bound on the number of halvings. Standard library, used at `src/umbra_slice.rs` 185. -/
def binarySearch (l : List Nat) (t : Nat) : (fuel lo size : Nat) → Bool
  | 0, _, _ => false
  | fuel + 1, lo, size =>
    if size = 0 then false
    else
      let mid := lo + size / 2
      match l[mid]? with
      | none => false
      | some x =>
        if x = t then true
        else if x < t then binarySearch l t fuel (mid + 1) (size - size / 2 - 1)
        else binarySearch l t fuel lo (size / 2)

/-- `FlagSet::contains` (`src/lib.rs` 406–410) through `UmbraSlice::sorted_contains`
(`src/umbra_slice.rs` 176–187): linear search for inline slices, binary search for heap slices. -/
def contains (s : FlagSet) (f : Nat) : Bool :=
  if s.elems.length ≤ inlineLen then List.elem f s.elems
  else binarySearch s.elems f s.elems.length 0 s.elems.length

/-- The loop of `FlagSet::has_intersection` (`src/lib.rs` 384–402): both iterators are peeked and
the one with the smaller head advances. Each turn advances one iterator, so the sum of the lengths
is enough fuel. -/
def intersectLoop : Nat → List Nat → List Nat → Bool
  | 0, _, _ => false
  | fuel + 1, xs, ys =>
    match xs, ys with
    | x :: xs', y :: ys' =>
      if x = y then true
      else if x > y then intersectLoop fuel (x :: xs') ys'
      else intersectLoop fuel xs' (y :: ys')
    | _, _ => false

/-- `FlagSet::has_intersection` (`src/lib.rs` 384–402). -/
def hasIntersection (a b : FlagSet) : Bool :=
  intersectLoop (a.elems.length + b.elems.length + 1) a.elems b.elems

/-- `FlagSet::with_flag` (`src/lib.rs` 412–416). -/
def withFlag (s : FlagSet) (f : Nat) : FlagSet := ofList (s.elems ++ [f])

end FlagSet

/-- The `has_flag!` macro (`src/aff.rs` 73–80, `src/checker.rs` 13–20). -/
def hasFlag (flags : FlagSet) (f : Option Nat) : Bool :=
  match f with
  | some f => flags.contains f
  | none => false

end Spellbook
