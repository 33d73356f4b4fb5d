import Verif.Spec.WordMem
import Verif.Proof.UmbraMem
import Verif.Proof.HashBag
import Verif.Proof.FlagSet
import Verif.Proof.Utf8
/-!
# The word list in memory: lemmas for C86
-/

namespace Spellbook.Mem
open Spec

/-! ## Running -/

/-- The action ends like this, or the allocator refuses. -/
def Does (A : Allocator) {α : Type} (m : Mem α) (h : Heap) (P : α → Heap → Prop) : Prop :=
  match m h with
  | .ok (x, h') => P x h'
  | .error f => f = .abort ∧ ∃ h n, A h n = none

section
variable {A : Allocator} {α β : Type} {h : Heap}

theorem does_pure {x : α} {P : α → Heap → Prop} (hp : P x h) : Does A (pure x) h P := hp

theorem does_of_ok {m : Mem α} {x : α} {h' : Heap} {P : α → Heap → Prop} (hm : m h = .ok (x, h')) (hp : P x h') :
    Does A m h P := by
  unfold Does
  rw [hm]
  exact hp

theorem does_bind {m : Mem α} {k : α → Mem β} {P : β → Heap → Prop}
    (hm : Does A m h fun x h' => Does A (k x) h' P) : Does A (m >>= k) h P := by
  unfold Does at hm ⊢
  change match (m h >>= fun p => k p.1 p.2) with
    | .ok (x, h') => P x h'
    | .error f => f = .abort ∧ ∃ h n, A h n = none
  cases hc : m h with
  | error f => rw [hc] at hm; exact hm
  | ok p => rw [hc] at hm; exact hm

theorem does_mono {m : Mem α} {P Q : α → Heap → Prop} (hm : Does A m h P) (hq : ∀ x h', P x h' → Q x h') :
    Does A m h Q := by
  unfold Does at hm ⊢
  cases hc : m h with
  | error f => rw [hc] at hm; exact hm
  | ok p => rw [hc] at hm; exact hq _ _ hm

theorem bind_ok {m : Mem α} {k : α → Mem β} {x : α} {h' : Heap} (hm : m h = .ok (x, h')) : (m >>= k) h = k x h' := by
  change (m h >>= fun p => k p.1 p.2) = _
  rw [hm]
  rfl

end

/-! ## One slice -/

section
variable {t : Target} {h : Heap}

theorem read_rep (ht : Facts t) {u : Slice} {s : List Nat} {own : Heap} (hr : Rep t (some u) (some s, own))
    (hn : (h.map (·.1)).Nodup) (ho : own ⊆ h) : u.asSlice t h = .ok (s, h) := by
  cases hr with
  | inline short typed => exact asSlice_inline ht short typed
  | heap long max typed fits => exact asSlice_heap long typed fits (at?_of_mem hn (ho (by simp)))

theorem read_rep_inline (ht : Facts t) {u : Slice} {s : List Nat} {own : Heap} (hr : Rep t (some u) (some s, own))
    (hs : s.length ≤ t.inlineLen) : u.len = s.length ∧ u.inlineSlice t = .ok s := by
  cases hr with
  | inline short typed =>
    refine ⟨rfl, ?_⟩
    have h1 := asSlice_inline (h := []) ht short typed
    unfold Slice.asSlice at h1
    rw [if_pos (show (inlineForm t s).len ≤ _ from hs)] at h1
    cases hc : (inlineForm t s).inlineSlice t with
    | error f => rw [hc] at h1; cases h1
    | ok r =>
      rw [hc] at h1
      injection h1 with h1
      injection h1 with h1
      rw [h1]
  | heap long => omega

theorem sortedContains_rep (ht : Facts t) {u : Slice} {s : FlagSet} {own : Heap}
    (hr : Rep t (some u) (some s.elems, own)) (hn : (h.map (·.1)).Nodup) (ho : own ⊆ h) (x : Nat) :
    u.sortedContains t x h = .ok (s.contains x, h) := by
  have hc : ∀ b : Bool, (b = true ↔ x ∈ s.elems) → b = s.contains x := by
    intro b hb
    rw [Bool.eq_iff_iff, hb, FlagSet.contains_iff]
  unfold Slice.sortedContains
  by_cases hs : s.elems.length ≤ t.inlineLen
  · obtain ⟨h1, h2⟩ := read_rep_inline ht hr hs
    rw [if_pos (by omega), h2]
    exact congrArg (fun b => Except.ok (b, h)) (hc (List.elem x s.elems) (by simp))
  · have has := read_rep ht hr hn ho
    cases hr with
    | inline short => omega
    | @heap _ a long max typed fits =>
    have hlen : (heapForm t s.elems a).len = s.elems.length := rfl
    unfold Slice.asSlice at has
    rw [if_neg (by rw [hlen]; omega), ptr_heapForm fits] at has
    rw [if_neg (by rw [hlen]; omega), ptr_heapForm fits]
    have hl := load_eq (h := h) (off := 0) (n := s.elems.length * t.elem) (at?_of_mem hn (ho (by simp)) :
      h.at? a = some ((t.bytes s.elems).map some)) (by rw [bytes_length]; omega)
    change (load a 0 (s.elems.length * t.elem) h >>= _) = _ at has
    change (load a 0 (s.elems.length * t.elem) h >>= _) = _
    rw [hl] at has ⊢
    injection has with has
    injection has with has
    change t.elems s.elems.length _ = _ at has
    have hb : ∀ l : List Nat, l = s.elems → FlagSet.binarySearch l x l.length 0 l.length = s.contains x := by
      rintro l rfl
      refine hc _ ⟨FlagSet.binarySearch_true, fun hm => ?_⟩
      obtain ⟨i, hi⟩ := List.getElem?_of_mem hm
      have hlt := (List.getElem?_eq_some_iff.1 hi).1
      exact FlagSet.binarySearch_complete s.sorted (by omega) (Nat.le_refl _) i hi (by omega) (by omega)
    exact congrArg (fun b => Except.ok (b, h)) (hb _ has)

/-- Memory got more. -/
structure Grown (h own h' : Heap) : Prop where
  eq : h' = own ++ h
  nodup : (h'.map (·.1)).Nodup

theorem grown_heap {A : Allocator} (hA : GoodAllocator t A) (hn : (h.map (·.1)).Nodup) {n a : Nat} {b : List Cell}
    (ha : A h n = some a) : Grown h [(a, b)] ((a, b) :: h) := by
  refine ⟨rfl, ?_⟩
  rw [List.map_cons, List.nodup_cons]
  refine ⟨fun hm => ?_, hn⟩
  obtain ⟨b, hb, hb'⟩ := List.mem_map.1 hm
  exact (hA _ _ _ ha).1 b hb hb'

theorem create_does (ht : Facts t) {A : Allocator} (hA : GoodAllocator t A) (hn : (h.map (·.1)).Nodup) {s : List Nat}
    (hs : s.length ≤ 65535) (hx : ∀ x ∈ s, x < 256 ^ t.elem) :
    Does A (tryFrom t A s) h fun r h' => ∃ u own, r = some u ∧ Rep t (some u) (some s, own) ∧ Grown h own h' := by
  unfold Does
  rw [tryFrom_eq ht hA, if_neg (by omega)]
  by_cases h1 : s.length ≤ t.inlineLen
  · rw [if_pos h1]
    exact ⟨_, _, rfl, .inline h1 hx, rfl, hn⟩
  · rw [if_neg h1]
    cases ha : A h (s.length * t.elem) with
    | none => exact ⟨rfl, _, _, ha⟩
    | some a => exact ⟨_, _, rfl, .heap (by omega) hs hx (hA _ _ _ ha).2, grown_heap hA hn ha⟩

theorem clone_does (ht : Facts t) {A : Allocator} (hA : GoodAllocator t A) (hn : (h.map (·.1)).Nodup) {u : Slice}
    {s : List Nat} {own : Heap} (hr : Rep t (some u) (some s, own)) (ho : own ⊆ h) :
    Does A (u.clone t A) h fun v h' => ∃ own', Rep t (some v) (some s, own') ∧ Grown h own' h' := by
  have has := read_rep ht hr hn ho
  unfold Slice.clone
  cases hr with
  | inline short typed =>
    rw [if_pos (show (inlineForm t s).len ≤ t.inlineLen from short)]
    exact does_pure ⟨_, .inline short typed, rfl, hn⟩
  | @heap _ x long max typed fits =>
    rw [if_neg (show ¬ (heapForm t s x).len ≤ t.inlineLen from Nat.not_le.2 long)]
    refine does_bind (does_of_ok has (does_bind ?_))
    unfold Does
    rw [copySlice_eq ht hA (by omega) max]
    cases ha : A h (s.length * t.elem) with
    | none => exact ⟨rfl, _, _, ha⟩
    | some a => exact ⟨_, .heap long max typed (hA _ _ _ ha).2, grown_heap hA hn ha⟩

theorem drop_ok (ht : Facts t) (hn : (h.map (·.1)).Nodup) {u : Slice} {s : List Nat} {own rest : Heap}
    (hr : Rep t (some u) (some s, own)) (hp : h.Perm (own ++ rest)) :
    ∃ h', u.drop t h = .ok ((), h') ∧ h'.Perm rest ∧ (h'.map (·.1)).Nodup := by
  unfold Slice.drop
  cases hr with
  | inline short typed =>
    rw [if_neg (show ¬ (inlineForm t s).len > t.inlineLen from Nat.not_lt.2 short)]
    exact ⟨h, rfl, hp, hn⟩
  | @heap _ x long max typed fits =>
    rw [if_pos (show (heapForm t s x).len > t.inlineLen from long), ptr_heapForm fits]
    have h3 : (heapForm t s x).len = s.length := rfl
    have h4 : s.length * t.elem ≤ 65535 * t.elem := Nat.mul_le_mul_right _ max
    have h5 := ht.small
    rw [h3]
    unfold Target.layout
    rw [if_pos (by omega)]
    change ∃ h', dealloc x (s.length * t.elem) h = _ ∧ _
    unfold dealloc
    rw [at?_of_mem hn (a := x) (b := (t.bytes s).map some) (hp.mem_iff.2 (by simp))]
    dsimp only
    rw [if_pos (by rw [List.length_map, bytes_length])]
    refine ⟨_, rfl, ?_, hn.sublist ((List.filter_sublist).map _)⟩
    unfold Heap.free
    refine (hp.filter _).trans ?_
    have hn' : (([(x, (t.bytes s).map some)] ++ rest).map (·.1)).Nodup := (hp.map _).nodup_iff.1 hn
    rw [List.map_append, List.map_cons, List.map_nil, List.singleton_append, List.nodup_cons] at hn'
    rw [List.singleton_append, List.filter_cons_of_neg (by simp), List.filter_eq_self.2]
    intro y hy
    have : y.1 ≠ x := fun e => hn'.1 (List.mem_map.2 ⟨y, hy, e⟩)
    simpa using this

end

/-! ## One text, one flag set -/

/-- What is used of a machine and its memory. -/
structure Usable (M : Machine) (A : Allocator) : Prop where
  texts : Facts M.texts
  flags : Facts M.flags
  allocT : GoodAllocator M.texts A
  allocF : GoodAllocator M.flags A

theorem usable {M : Machine} {A : Allocator} (hM : GoodMachine M) (hA : GoodMemory M A) : Usable M A :=
  ⟨facts ⟨hM, .inl rfl⟩, facts ⟨hM, .inr rfl⟩, hA, hA⟩

/-- The bytes of a text. -/
def textBytes (s : Str) : List Nat := (utf8 s).map UInt8.toNat

theorem textBytes_length (s : Str) : (textBytes s).length = (utf8 s).length := List.length_map ..

theorem textBytes_lt (s : Str) : ∀ x ∈ textBytes s, x < 256 ^ 1 := by
  intro x hx
  obtain ⟨b, -, rfl⟩ := List.mem_map.1 hx
  exact b.toNat_lt

theorem strOfBytes_textBytes (s : Str) : strOfBytes (textBytes s) = .ok s := by
  unfold strOfBytes textBytes
  have h1 : ((utf8 s).map UInt8.toNat).map UInt8.ofNat = utf8 s := by
    rw [List.map_map]
    refine (List.map_congr_left fun b _ => ?_).trans (List.map_id _)
    simp
  have h2 : (utf8 s).toByteArray.utf8Decode? = some s.toArray := List.utf8Decode?_utf8Encode
  rw [h1, h2]

/-- A flag set of `NonZeroU16`. -/
def ValidFlags (s : FlagSet) : Prop := ∀ f ∈ s.elems, 1 ≤ f ∧ f ≤ 65535

theorem sorted_length {l : List Nat} (hs : l.Pairwise (· < ·)) : ∀ {lo hi : Nat}, (∀ f ∈ l, lo ≤ f ∧ f < hi) →
    l.length ≤ hi - lo := by
  induction l with
  | nil => intros; exact Nat.zero_le _
  | cons x l ih =>
    intro lo hi hl
    rw [List.pairwise_cons] at hs
    have h1 := hl x (by simp)
    have h2 := ih hs.2 (lo := x + 1) (hi := hi) fun f hf => ⟨hs.1 f hf, (hl f (by simp [hf])).2⟩
    rw [List.length_cons]
    omega

theorem ValidFlags.length {s : FlagSet} (hs : ValidFlags s) : s.elems.length ≤ 65535 :=
  sorted_length s.sorted (lo := 1) (hi := 65536) fun f hf => by have := hs f hf; omega

theorem ValidFlags.lt {s : FlagSet} (hs : ValidFlags s) : ∀ x ∈ s.elems, x < 256 ^ 2 := fun x hx => by
  have := hs x hx; omega

theorem validFlags_ofList {l : List Nat} (hl : ∀ f ∈ l, 1 ≤ f ∧ f ≤ 65535) : ValidFlags (FlagSet.ofList l) :=
  fun f hf => hl f (mem_sortNat.1 (mem_dedupNat.1 hf))

section
variable {M : Machine} {A : Allocator} {h : Heap}

theorem asStr_rep (hu : Usable M A) {u : Slice} {k : Str} {own : Heap}
    (hr : Rep M.texts (some u) (some (textBytes k), own)) (hn : (h.map (·.1)).Nodup) (ho : own ⊆ h) :
    asStr M u h = .ok (k, h) := by
  unfold asStr
  rw [bind_ok (read_rep hu.texts hr hn ho), strOfBytes_textBytes]
  rfl

theorem stemFrom_does (hu : Usable M A) (hn : (h.map (·.1)).Nodup) {s : Str} (hs : (utf8 s).length ≤ 65535) :
    Does A (stemFrom M A s) h fun u h' => ∃ own, Rep M.texts (some u) (some (textBytes s), own) ∧ Grown h own h' := by
  unfold stemFrom
  rw [if_neg (by omega)]
  refine does_bind (does_mono (create_does hu.texts hu.allocT hn (s := textBytes s)
    (by rw [textBytes_length]; exact hs) (textBytes_lt s)) ?_)
  rintro _ h' ⟨u, own, rfl, hr, hg⟩
  exact does_pure ⟨own, hr, hg⟩

theorem flagsFrom_does (hu : Usable M A) (hn : (h.map (·.1)).Nodup) {l : List Nat} (hl : ∀ f ∈ l, 1 ≤ f ∧ f ≤ 65535) :
    Does A (flagsFrom M A l) h fun u h' =>
      ∃ own, Rep M.flags (some u) (some (FlagSet.ofList l).elems, own) ∧ Grown h own h' := by
  have hv := validFlags_ofList hl
  have hlen := hv.length
  unfold flagsFrom
  change Does A (if (FlagSet.ofList l).elems.length > 65535 then _ else _) h _
  rw [if_neg (by omega)]
  refine does_bind (does_mono (create_does hu.flags hu.allocF hn (s := (FlagSet.ofList l).elems)
    hlen hv.lt) ?_)
  rintro _ h' ⟨u, own, rfl, hr, hg⟩
  exact does_pure ⟨own, hr, hg⟩

theorem withFlag_does (hu : Usable M A) (hn : (h.map (·.1)).Nodup) {u : Slice} {s : FlagSet} {own : Heap}
    (hr : Rep M.flags (some u) (some s.elems, own)) (ho : own ⊆ h) (hv : ValidFlags s) {f : Nat}
    (hf : 1 ≤ f ∧ f ≤ 65535) :
    Does A (withFlag M A u f) h fun v h' =>
      ∃ own', Rep M.flags (some v) (some (s.withFlag f).elems, own') ∧ Grown h own' h' := by
  unfold withFlag
  refine does_bind (does_of_ok (read_rep hu.flags hr hn ho) (flagsFrom_does hu hn ?_))
  intro x hx
  rcases List.mem_append.1 hx with hx | hx
  · exact hv x hx
  · rw [List.mem_singleton.1 hx]; exact hf

end

/-! ## One table -/

/-- An element with this text and these flags, and the memory it owns. -/
structure EntryRep (M : Machine) (e : Entry) (x : (Str × FlagSet) × Heap) : Prop where
  rep : ∃ o o', x.2 = o ++ o' ∧ Rep M.texts (some e.stem) (some (textBytes x.1.1), o) ∧
    Rep M.flags (some e.flags) (some x.1.2.elems, o')
  valid : ValidFlags x.1.2

/-- What a table owns. -/
def owns {α : Type} (sp : List (α × Heap)) : Heap := (sp.map (·.2)).flatten

theorem owns_cons {α : Type} (x : α × Heap) (sp : List (α × Heap)) : owns (x :: sp) = x.2 ++ owns sp := rfl

theorem owns_append {α : Type} (sp sp' : List (α × Heap)) : owns (sp ++ sp') = owns sp ++ owns sp' := by simp [owns]

theorem owns_of_mem {α : Type} {x : α × Heap} {sp : List (α × Heap)} (hx : x ∈ sp) : x.2 ⊆ owns sp := fun _ hy =>
  List.mem_flatten.2 ⟨_, List.mem_map.2 ⟨x, hx, rfl⟩, hy⟩

/-- What a lookup yields for an entry. -/
def shown (e : Str × FlagSet) : Str × List Nat := (e.1, e.2.elems)

section
variable {M : Machine} {A : Allocator} {h : Heap}

theorem readKeys_ok (hu : Usable M A) (hn : (h.map (·.1)).Nodup) {table : Table} {sp : List ((Str × FlagSet) × Heap)}
    (hr : List.Forall₂ (EntryRep M) table sp) (ho : owns sp ⊆ h) :
    readKeys M table h = .ok (sp.map (·.1.1), h) := by
  induction hr with
  | nil => rfl
  | @cons e x table sp he _ ih =>
    rw [owns_cons, List.append_subset] at ho
    obtain ⟨⟨o, o', hx, h1, -⟩, -⟩ := he
    rw [hx, List.append_subset] at ho
    unfold readKeys
    rw [bind_ok (asStr_rep hu h1 hn ho.1.1), bind_ok (ih ho.2)]
    rfl

theorem readEntry_ok (hu : Usable M A) (hn : (h.map (·.1)).Nodup) {e : Entry} {x : (Str × FlagSet) × Heap}
    (hr : EntryRep M e x) (ho : x.2 ⊆ h) : readEntry M e h = .ok (shown x.1, h) := by
  obtain ⟨⟨o, o', hx, h1, h2⟩, -⟩ := hr
  rw [hx, List.append_subset] at ho
  unfold readEntry
  rw [bind_ok (asStr_rep hu h1 hn ho.1), bind_ok (read_rep hu.flags h2 hn ho.2)]
  rfl

theorem readStem_ok (hu : Usable M A) (hn : (h.map (·.1)).Nodup) {e : Entry} {x : (Str × FlagSet) × Heap}
    (hr : EntryRep M e x) (ho : x.2 ⊆ h) : asStr M e.stem h = .ok (x.1.1, h) := by
  obtain ⟨⟨o, o', hx, h1, h2⟩, -⟩ := hr
  rw [hx, List.append_subset] at ho
  exact asStr_rep hu h1 hn ho.1

theorem getLoop_ok (hu : Usable M A) (hn : (h.map (·.1)).Nodup) {table : Table} {sp : List ((Str × FlagSet) × Heap)}
    (hr : List.Forall₂ (EntryRep M) table sp) (ho : owns sp ⊆ h) (key : Str) (is : List Nat) :
    getLoop M table key is h =
      .ok (((is.filterMap fun i => (sp.map (·.1))[i]?).filter fun e => key == e.1).map shown, h) := by
  induction is with
  | nil => rfl
  | cons i is ih =>
    unfold getLoop
    rcases forall₂_getElem? hr i with ⟨h1, h2⟩ | ⟨e, x, h1, h2, he⟩
    · rw [h1, List.filterMap_cons]
      simp only [List.getElem?_map, h2, Option.map_none]
      simpa only [List.getElem?_map] using ih
    · have hx : x.2 ⊆ h := fun _ hy => ho (owns_of_mem (List.mem_of_getElem? h2) hy)
      rw [h1, List.filterMap_cons]
      simp only [List.getElem?_map, h2, Option.map_some]
      rw [bind_ok (readStem_ok hu hn he hx)]
      by_cases hk : key = x.1.1
      · rw [if_pos (by rw [hk]), bind_ok (readEntry_ok hu hn he hx), bind_ok ih, List.filter_cons_of_pos (by simpa using hk)]
        simp only [List.getElem?_map]
        rfl
      · rw [if_neg (by rwa [utf8_inj]), ih, List.filter_cons_of_neg (by simpa using hk)]
        simp only [List.getElem?_map]

theorem iterLoop_ok (hu : Usable M A) (hn : (h.map (·.1)).Nodup) {table : Table} {sp : List ((Str × FlagSet) × Heap)}
    (hr : List.Forall₂ (EntryRep M) table sp) (ho : owns sp ⊆ h) (is : List Nat) :
    iterLoop M table is h = .ok ((is.filterMap fun i => (sp.map (·.1))[i]?).map shown, h) := by
  induction is with
  | nil => rfl
  | cons i is ih =>
    unfold iterLoop
    rcases forall₂_getElem? hr i with ⟨h1, h2⟩ | ⟨e, x, h1, h2, he⟩
    · rw [h1, List.filterMap_cons]
      simp only [List.getElem?_map, h2, Option.map_none]
      simpa only [List.getElem?_map] using ih
    · have hx : x.2 ⊆ h := fun _ hy => ho (owns_of_mem (List.mem_of_getElem? h2) hy)
      rw [h1, List.filterMap_cons]
      simp only [List.getElem?_map, h2, Option.map_some]
      rw [bind_ok (readEntry_ok hu hn he hx), bind_ok ih]
      simp only [List.getElem?_map]
      rfl

theorem cloneTable_does (hu : Usable M A) {table : Table} {sp : List ((Str × FlagSet) × Heap)}
    (hr : List.Forall₂ (EntryRep M) table sp) : ∀ {h : Heap}, (h.map (·.1)).Nodup → owns sp ⊆ h →
    Does A (cloneTable M A table) h fun table' h' => ∃ sp', List.Forall₂ (EntryRep M) table' sp' ∧
      sp'.map (·.1) = sp.map (·.1) ∧ h'.Perm (owns sp' ++ h) ∧ (h'.map (·.1)).Nodup := by
  induction hr with
  | nil =>
    intro h hn _
    exact does_pure ⟨[], .nil, rfl, .refl _, hn⟩
  | @cons e x table sp he _ ih =>
    intro h hn ho
    rw [owns_cons, List.append_subset] at ho
    obtain ⟨⟨o, o', hx, h1, h2⟩, hv⟩ := he
    rw [hx, List.append_subset] at ho
    unfold cloneTable
    refine does_bind (does_mono (clone_does hu.texts hu.allocT hn h1 ho.1.1) ?_)
    rintro u _ ⟨q, r1, rfl, n1⟩
    refine does_bind (does_mono (clone_does hu.flags hu.allocF n1 h2
      (fun _ hy => List.mem_append.2 (.inr (ho.1.2 hy)))) ?_)
    rintro v _ ⟨q', r2, rfl, n2⟩
    refine does_bind (does_mono (ih n2 fun _ hy => List.mem_append.2 (.inr (List.mem_append.2 (.inr (ho.2 hy))))) ?_)
    rintro table' h' ⟨sp', k1, k2, k3, k4⟩
    refine does_pure ⟨((x.1, q ++ q') :: sp'), .cons ⟨⟨q, q', rfl, r1, r2⟩, hv⟩ k1, by simp [k2], ?_, k4⟩
    refine k3.trans ?_
    rw [owns_cons]
    refine List.perm_iff_count.2 fun y => ?_
    simp only [List.count_append]
    omega

theorem dropTable_ok (hu : Usable M A) {table : Table} {sp : List ((Str × FlagSet) × Heap)}
    (hr : List.Forall₂ (EntryRep M) table sp) : ∀ {h rest : Heap}, (h.map (·.1)).Nodup → h.Perm (owns sp ++ rest) →
    ∃ h', dropTable M table h = .ok ((), h') ∧ h'.Perm rest ∧ (h'.map (·.1)).Nodup := by
  induction hr with
  | nil =>
    intro h rest hn hp
    exact ⟨h, rfl, hp, hn⟩
  | @cons e x table sp he _ ih =>
    intro h rest hn hp
    obtain ⟨⟨o, o', hx, h1, h2⟩, hv⟩ := he
    rw [owns_cons, hx, List.append_assoc, List.append_assoc] at hp
    obtain ⟨g1, a1, b1, c1⟩ := drop_ok hu.texts hn h1 hp
    obtain ⟨g2, a2, b2, c2⟩ := drop_ok hu.flags c1 h2 b1
    obtain ⟨g3, a3, b3, c3⟩ := ih c2 b2
    refine ⟨g3, ?_, b3, c3⟩
    unfold dropTable
    rw [bind_ok a1, bind_ok a2, a3]

/-- The new flags of a removed entry. -/
def forbidden (flag : Nat) (s : FlagSet) : FlagSet := if !s.contains flag then s.withFlag flag else s

theorem forbidden_valid {flag : Nat} (hf : 1 ≤ flag ∧ flag ≤ 65535) {s : FlagSet} (hv : ValidFlags s) :
    ValidFlags (forbidden flag s) := by
  unfold forbidden
  split
  · refine validFlags_ofList fun f hm => ?_
    rcases List.mem_append.1 hm with hm | hm
    · exact hv f hm
    · rw [List.mem_singleton.1 hm]; exact hf
  · exact hv

theorem forbid_does (hu : Usable M A) (hn : (h.map (·.1)).Nodup) {u : Slice} {s : FlagSet} {own rest : Heap}
    (hr : Rep M.flags (some u) (some s.elems, own)) (hp : h.Perm (own ++ rest)) (hv : ValidFlags s) {f : Nat}
    (hf : 1 ≤ f ∧ f ≤ 65535) :
    Does A (forbid M A f u) h fun r h' => ∃ own', Rep M.flags (some r.2) (some (forbidden f s).elems, own') ∧
      h'.Perm (own' ++ rest) ∧ (h'.map (·.1)).Nodup ∧ r.1 = !s.contains f := by
  have ho : own ⊆ h := fun _ hy => hp.mem_iff.2 (List.mem_append.2 (.inl hy))
  unfold forbid forbidden
  refine does_bind (does_of_ok (sortedContains_rep hu.flags hr hn ho f) ?_)
  cases hc : s.contains f with
  | true =>
    rw [if_pos rfl, if_neg (by simp)]
    exact does_pure ⟨own, hr, hp, hn, rfl⟩
  | false =>
    rw [if_neg (by simp), if_pos (by simp)]
    refine does_bind (does_mono (withFlag_does hu hn hr ho hv hf) ?_)
    rintro v _ ⟨own', r1, rfl, n1⟩
    obtain ⟨h', d1, d2, d3⟩ := drop_ok (rest := own' ++ rest) hu.flags n1 hr (by
      refine (hp.append_left own').trans ?_
      rw [← List.append_assoc, ← List.append_assoc]
      exact List.perm_append_comm.append_right _)
    exact does_bind (does_of_ok d1 (does_pure ⟨own', r1, d2, d3, rfl⟩))

theorem removeLoop_does (hu : Usable M A) (key : Str) {f : Nat} (hf : 1 ≤ f ∧ f ≤ 65535) (rest : Heap) :
    ∀ (is : List Nat) (removed : Bool) {table : Table} {sp : List ((Str × FlagSet) × Heap)} {h : Heap}, is.Nodup →
      List.Forall₂ (EntryRep M) table sp → h.Perm (owns sp ++ rest) → (h.map (·.1)).Nodup →
      Does A (removeLoop M A key f is removed table) h fun r h' => ∃ sp', List.Forall₂ (EntryRep M) r.2 sp' ∧
        h'.Perm (owns sp' ++ rest) ∧ (h'.map (·.1)).Nodup ∧
        sp'.map (·.1) = (is.foldl (Bag.updateSlot key (forbidden f)) ⟨sp.map (·.1)⟩).slots ∧
        r.1 = (removed || is.any fun i => ((sp.map (·.1))[i]?).any fun e => key == e.1 && !e.2.contains f) := by
  intro is
  induction is with
  | nil =>
    intro removed table sp h _ hr hp hn
    exact does_pure ⟨sp, hr, hp, hn, rfl, by simp⟩
  | cons i is ih =>
    intro removed table sp h hnd hr hp hn
    rw [List.nodup_cons] at hnd
    unfold removeLoop
    rcases forall₂_getElem? hr i with ⟨h1, h2⟩ | ⟨e, x, h1, h2, he⟩
    · rw [h1]
      refine does_mono (ih removed hnd.2 hr hp hn) ?_
      rintro r h' ⟨sp', a1, a2, a3, a4, a5⟩
      refine ⟨sp', a1, a2, a3, ?_, ?_⟩
      · rw [a4, List.foldl_cons]
        simp [Bag.updateSlot, h2]
      · rw [a5]
        simp [h2]
    · rw [h1]
      have hx : x.2 ⊆ h := fun _ hy =>
        hp.mem_iff.2 (List.mem_append.2 (.inl (owns_of_mem (List.mem_of_getElem? h2) hy)))
      refine does_bind (does_of_ok (readStem_ok hu hn he hx) ?_)
      by_cases hk : key = x.1.1
      · rw [if_pos (by rw [hk])]
        obtain ⟨⟨o, o', hxo, r1, r2⟩, hv⟩ := he
        obtain ⟨a, b, q1, -⟩ := flatten_set x h2
        have hp' : h.Perm (o' ++ (o ++ (a ++ b) ++ rest)) := by
          refine hp.trans ?_
          unfold owns
          rw [q1, hxo]
          refine List.perm_iff_count.2 fun y => ?_
          simp only [List.count_append]
          omega
        refine does_bind (does_mono (forbid_does hu hn r2 hp' hv hf) ?_)
        rintro ⟨did, v⟩ h' ⟨own', s1, s2, s3, s4⟩
        have hset : (sp.set i ((x.1.1, forbidden f x.1.2), o ++ own')).map (·.1) =
            (sp.map (·.1)).set i (x.1.1, forbidden f x.1.2) := by rw [List.map_set]
        obtain ⟨a', b', q1', q2'⟩ := flatten_set ((x.1.1, forbidden f x.1.2), o ++ own') h2
        refine does_mono (ih (removed || did) hnd.2 (forall₂_set (R := EntryRep M) (a := { e with flags := v })
          (b := ((x.1.1, forbidden f x.1.2), o ++ own')) ⟨⟨o, own', rfl, r1, s1⟩, forbidden_valid hf hv⟩ hr i)
          (h := h') ?_ s3) ?_
        · have hab : (a' ++ b').Perm (a ++ b) := by
            have := q1.symm.trans q1'
            refine List.perm_iff_count.2 fun y => ?_
            have := congrArg (List.count y) this
            simp only [List.count_append] at this ⊢
            omega
          refine s2.trans ?_
          unfold owns
          rw [q2']
          refine List.perm_iff_count.2 fun y => ?_
          have := List.perm_iff_count.1 hab y
          simp only [List.count_append] at this ⊢
          omega
        · rintro r h'' ⟨sp', a1, a2, a3, a4, a5⟩
          refine ⟨sp', a1, a2, a3, ?_, ?_⟩
          · rw [a4, hset, List.foldl_cons]
            congr 2
            unfold Bag.updateSlot
            simp [h2, hk]
          · rw [a5, hset, List.any_cons, Bool.or_assoc]
            congr 1
            congr 1
            · simp only at s4
              simp [h2, hk, s4]
            · rw [Bool.eq_iff_iff, List.any_eq_true, List.any_eq_true]
              refine exists_congr fun j => and_congr_right fun hj => ?_
              rw [List.getElem?_set_ne (by rintro rfl; exact hnd.1 hj)]
      · rw [if_neg (by rwa [utf8_inj])]
        refine does_mono (ih removed hnd.2 hr hp hn) ?_
        rintro r h' ⟨sp', a1, a2, a3, a4, a5⟩
        refine ⟨sp', a1, a2, a3, ?_, ?_⟩
        · rw [a4, List.foldl_cons]
          simp [Bag.updateSlot, h2, hk]
        · have hkb : (key == x.1.1) = false := by simpa using hk
          rw [a5]
          simp [h2, hkb]

/-! ## Programs -/

/-- A variable with this word list, and the memory it owns. -/
inductive VarRep (M : Machine) : Option Table → Option (Bag FlagSet) × Heap → Prop
  | dropped : VarRep M none (none, [])
  | table {table : Table} {sp : List ((Str × FlagSet) × Heap)} (hr : List.Forall₂ (EntryRep M) table sp) :
      VarRep M (some table) (some ⟨sp.map (·.1)⟩, owns sp)

/-- The variables hold these word lists, and memory is what they own, without overlap. -/
structure WordInv (M : Machine) (vars : List (Option Table)) (sp : List (Option (Bag FlagSet) × Heap)) (h : Heap) :
    Prop where
  rep : List.Forall₂ (VarRep M) vars sp
  owned : h.Perm (owns sp)
  nodup : (h.map (·.1)).Nodup

/-- One operation on word lists as `Model/HashBag` has them. -/
def bagStep (L : Layout) (vars : List (Option (Bag FlagSet))) : WordOp → List (Option (Bag FlagSet)) × WordSeen
  | .new => (vars ++ [some Bag.empty], .done)
  | .insert i stem flags =>
    match vars[i]? with
    | some (some b) => (vars.set i (some (b.insert stem (FlagSet.ofList flags))), .done)
    | _ => (vars, .done)
  | .find i key =>
    match vars[i]? with
    | some (some b) => (vars, .entries ((b.get L key).map shown))
    | _ => (vars, .done)
  | .iter i =>
    match vars[i]? with
    | some (some b) => (vars, .entries ((b.iter L).map shown))
    | _ => (vars, .done)
  | .len i =>
    match vars[i]? with
    | some (some b) => (vars, .count b.len)
    | _ => (vars, .done)
  | .remove i key flag =>
    match vars[i]? with
    | some (some b) =>
      (vars.set i (some (b.updateAll L key (forbidden flag))),
        .removed ((b.get L key).any fun e => !e.2.contains flag))
    | _ => (vars, .done)
  | .clone i =>
    match vars[i]? with
    | some (some b) => (vars ++ [some b], .done)
    | _ => (vars, .done)
  | .drop i =>
    match vars[i]? with
    | some (some _) => (vars.set i none, .done)
    | _ => (vars, .done)

/-- A program on word lists as `Model/HashBag` has them. -/
def bagRun (L : Layout) (vars : List (Option (Bag FlagSet))) :
    List WordOp → List (Option (Bag FlagSet)) × List WordSeen
  | [] => (vars, [])
  | op :: ops =>
    let (vars, s) := bagStep L vars op
    let (vars, ss) := bagRun L vars ops
    (vars, s :: ss)

variable {vars : List (Option Table)} {sp : List (Option (Bag FlagSet) × Heap)}

theorem WordInv.cases (hi : WordInv M vars sp h) (i : Nat) :
    ((∀ t, vars[i]? ≠ some (some t)) ∧ ∀ b, (sp.map (·.1))[i]? ≠ some (some b)) ∨
    ∃ table tsp rest, vars[i]? = some (some table) ∧ sp[i]? = some (some ⟨tsp.map (·.1)⟩, owns tsp) ∧
      List.Forall₂ (EntryRep M) table tsp ∧ h.Perm (owns tsp ++ rest) ∧
      ∀ y : Option (Bag FlagSet) × Heap, (owns (sp.set i y)).Perm (y.2 ++ rest) := by
  rcases forall₂_getElem? hi.rep i with ⟨h1, h2⟩ | ⟨u, x, h1, h2, hr⟩
  · exact .inl ⟨fun t => by simp [h1], fun b => by simp [h2]⟩
  · cases hr with
    | dropped => exact .inl ⟨fun t => by rw [h1]; simp, fun b => by simp [h2]⟩
    | @table table tsp hr =>
      obtain ⟨a, b, q1, -⟩ := flatten_set (none, []) h2
      refine .inr ⟨table, tsp, a ++ b, h1, h2, hr, ?_, fun y => ?_⟩
      · refine hi.owned.trans ?_
        unfold owns at q1 ⊢
        rw [q1]
        refine List.perm_iff_count.2 fun z => ?_
        simp only [List.count_append]
        omega
      · obtain ⟨a', b', q1', q2'⟩ := flatten_set y h2
        unfold owns
        rw [q2']
        refine List.perm_iff_count.2 fun z => ?_
        have := congrArg (List.count z) (q1.symm.trans q1')
        simp only [List.count_append] at this ⊢
        omega

theorem WordInv.set (hi : WordInv M vars sp h) {i : Nat} {u : Option Table} {y : Option (Bag FlagSet) × Heap}
    {h' rest : Heap} (hy : VarRep M u y) (hp : (owns (sp.set i y)).Perm (y.2 ++ rest)) (hh : h'.Perm (y.2 ++ rest))
    (hn : (h'.map (·.1)).Nodup) : WordInv M (vars.set i u) (sp.set i y) h' :=
  ⟨forall₂_set hy hi.rep i, hh.trans hp.symm, hn⟩

theorem wordStep_does (hu : Usable M A) (L : Layout) (hi : WordInv M vars sp h) {op : WordOp} (ho : WordTyped op) :
    Does A (wordStep M A L vars op) h fun r h' =>
      ∃ sp', WordInv M r.1 sp' h' ∧ (sp'.map (·.1), r.2) = bagStep L (sp.map (·.1)) op := by
  have hget : ∀ i : Nat, (sp.map (·.1))[i]? = (sp[i]?).map (·.1) := fun i => by simp
  cases op with
  | new =>
    refine does_pure ⟨sp ++ [(some ⟨[]⟩, [])], ⟨List.rel_append hi.rep (.cons (.table (sp := []) .nil) .nil), ?_, hi.nodup⟩,
      by simp [bagStep, Bag.empty]⟩
    rw [owns_append]
    simpa [owns] using hi.owned
  | insert i stem flags =>
    unfold wordStep bagStep
    dsimp only
    rcases hi.cases i with ⟨h1, h2⟩ | ⟨table, tsp, rest, h1, h2, hr, hp, hset⟩
    · split
      · exact absurd ‹_› (h1 _)
      · split
        · exact absurd ‹_› (h2 _)
        · exact does_pure ⟨sp, hi, rfl⟩
    · simp only [h1, hget, h2, Option.map_some]
      refine does_bind (does_mono (stemFrom_does hu hi.nodup ho.1) ?_)
      rintro u _ ⟨o, r1, rfl, n1⟩
      refine does_bind (does_mono (flagsFrom_does hu n1 ho.2) ?_)
      rintro v _ ⟨o', r2, rfl, n2⟩
      have hr' : List.Forall₂ (EntryRep M) (table ++ [{ stem := u, flags := v }])
          (tsp ++ [((stem, FlagSet.ofList flags), o ++ o')]) :=
        List.rel_append hr (.cons ⟨⟨o, o', rfl, r1, r2⟩, validFlags_ofList ho.2⟩ .nil)
      have hown : (o' ++ (o ++ h)).Perm (owns (tsp ++ [((stem, FlagSet.ofList flags), o ++ o')]) ++ rest) := by
        rw [owns_append]
        refine List.perm_iff_count.2 fun z => ?_
        have := List.perm_iff_count.1 hp z
        simp only [List.count_append, owns, List.map_cons, List.map_nil, List.flatten_cons, List.flatten_nil,
          List.append_nil] at this ⊢
        omega
      refine does_bind (does_bind (does_of_ok (readKeys_ok hu n2 hr'
        fun z hz => hown.mem_iff.2 (List.mem_append.2 (.inl hz))) (does_pure ?_)))
      refine does_pure ⟨_, hi.set (.table hr') (hset _) hown n2, ?_⟩
      simp [List.map_set, Bag.insert]
  | find i key =>
    unfold wordStep bagStep
    dsimp only
    rcases hi.cases i with ⟨h1, h2⟩ | ⟨table, tsp, rest, h1, h2, hr, hp, hset⟩
    · split
      · exact absurd ‹_› (h1 _)
      · split
        · exact absurd ‹_› (h2 _)
        · exact does_pure ⟨sp, hi, rfl⟩
    · simp only [h1, hget, h2, Option.map_some]
      have hsub : owns tsp ⊆ h := fun z hz => hp.mem_iff.2 (List.mem_append.2 (.inl hz))
      refine does_bind (does_bind (does_of_ok (readKeys_ok hu hi.nodup hr hsub)
        (does_of_ok (getLoop_ok hu hi.nodup hr hsub key _) (does_pure ⟨sp, hi, ?_⟩))))
      simp [Bag.get, Bag.keys, Function.comp_def]
  | iter i =>
    unfold wordStep bagStep
    dsimp only
    rcases hi.cases i with ⟨h1, h2⟩ | ⟨table, tsp, rest, h1, h2, hr, hp, hset⟩
    · split
      · exact absurd ‹_› (h1 _)
      · split
        · exact absurd ‹_› (h2 _)
        · exact does_pure ⟨sp, hi, rfl⟩
    · simp only [h1, hget, h2, Option.map_some]
      have hsub : owns tsp ⊆ h := fun z hz => hp.mem_iff.2 (List.mem_append.2 (.inl hz))
      refine does_bind (does_bind (does_of_ok (readKeys_ok hu hi.nodup hr hsub)
        (does_of_ok (iterLoop_ok hu hi.nodup hr hsub _) (does_pure ⟨sp, hi, ?_⟩))))
      simp [Bag.iter, Bag.keys, Function.comp_def]
  | len i =>
    unfold wordStep bagStep
    dsimp only
    rcases hi.cases i with ⟨h1, h2⟩ | ⟨table, tsp, rest, h1, h2, hr, hp, hset⟩
    · split
      · exact absurd ‹_› (h1 _)
      · split
        · exact absurd ‹_› (h2 _)
        · exact does_pure ⟨sp, hi, rfl⟩
    · simp only [h1, hget, h2, Option.map_some]
      refine does_pure ⟨sp, hi, ?_⟩
      simp [Bag.len, hr.length_eq]
  | remove i key flag =>
    unfold wordStep bagStep
    dsimp only
    rcases hi.cases i with ⟨h1, h2⟩ | ⟨table, tsp, rest, h1, h2, hr, hp, hset⟩
    · split
      · exact absurd ‹_› (h1 _)
      · split
        · exact absurd ‹_› (h2 _)
        · exact does_pure ⟨sp, hi, rfl⟩
    · simp only [h1, hget, h2, Option.map_some]
      have hsub : owns tsp ⊆ h := fun z hz => hp.mem_iff.2 (List.mem_append.2 (.inl hz))
      refine does_bind (does_bind (does_of_ok (readKeys_ok hu hi.nodup hr hsub)
        (does_mono (removeLoop_does hu key ho rest _ false (L.probe_nodup _ _) hr hp hi.nodup) ?_)))
      rintro ⟨did, table'⟩ h' ⟨tsp', a1, a2, a3, a4, a5⟩
      refine does_pure ⟨_, hi.set (.table a1) (hset _) a2 a3, ?_⟩
      simp only at a5
      simp only [List.map_set, a4, a5, Bool.false_or]
      congr 2
      · simp only [Bag.updateAll, Bag.keys, List.map_map, Function.comp_def]
      · unfold Bag.get Bag.keys
        rw [Bool.eq_iff_iff]
        simp only [List.any_eq_true, List.mem_filter, List.mem_filterMap, List.map_map, Function.comp_def,
          Option.any_eq_true]
        constructor
        · rintro ⟨i, hi, e, he, hk⟩
          simp only [Bool.and_eq_true] at hk
          exact ⟨e, ⟨⟨i, hi, he⟩, hk.1⟩, hk.2⟩
        · rintro ⟨e, ⟨⟨i, hi, he⟩, hk⟩, hc⟩
          exact ⟨i, hi, e, he, by simp only [Bool.and_eq_true]; exact ⟨hk, hc⟩⟩
  | clone i =>
    unfold wordStep bagStep
    dsimp only
    rcases hi.cases i with ⟨h1, h2⟩ | ⟨table, tsp, rest, h1, h2, hr, hp, hset⟩
    · split
      · exact absurd ‹_› (h1 _)
      · split
        · exact absurd ‹_› (h2 _)
        · exact does_pure ⟨sp, hi, rfl⟩
    · simp only [h1, hget, h2, Option.map_some]
      have hsub : owns tsp ⊆ h := fun z hz => hp.mem_iff.2 (List.mem_append.2 (.inl hz))
      refine does_bind (does_mono (cloneTable_does hu hr hi.nodup hsub) ?_)
      rintro table' h' ⟨tsp', a1, a2, a3, a4⟩
      refine does_pure ⟨sp ++ [(some ⟨tsp'.map (·.1)⟩, owns tsp')],
        ⟨List.rel_append hi.rep (.cons (.table a1) .nil), ?_, a4⟩, by simp [a2]⟩
      rw [owns_append]
      refine (a3.trans (hi.owned.append_left _)).trans ?_
      simpa [owns] using List.perm_append_comm
  | drop i =>
    unfold wordStep bagStep
    dsimp only
    rcases hi.cases i with ⟨h1, h2⟩ | ⟨table, tsp, rest, h1, h2, hr, hp, hset⟩
    · split
      · exact absurd ‹_› (h1 _)
      · split
        · exact absurd ‹_› (h2 _)
        · exact does_pure ⟨sp, hi, rfl⟩
    · simp only [h1, hget, h2, Option.map_some]
      obtain ⟨h', d1, d2, d3⟩ := dropTable_ok hu hr hi.nodup hp
      exact does_bind (does_of_ok d1 (does_pure ⟨_, hi.set (y := (none, [])) .dropped (hset _) d2 d3, by simp [List.map_set]⟩))

theorem wordRun_does (hu : Usable M A) (L : Layout) : ∀ (ops : List WordOp) {vars : List (Option Table)}
    {sp : List (Option (Bag FlagSet) × Heap)} {h : Heap}, WordInv M vars sp h → (∀ op ∈ ops, WordTyped op) →
    Does A (wordRun M A L vars ops) h fun r h' =>
      ∃ sp', WordInv M r.1 sp' h' ∧ (sp'.map (·.1), r.2) = bagRun L (sp.map (·.1)) ops := by
  intro ops
  induction ops with
  | nil =>
    intro vars sp h hi _
    exact does_pure ⟨sp, hi, rfl⟩
  | cons op ops ih =>
    intro vars sp h hi ho
    unfold wordRun
    refine does_bind (does_mono (wordStep_does hu L hi (ho op (by simp))) ?_)
    rintro ⟨vars', s⟩ h' ⟨sp', i1, e1⟩
    refine does_bind (does_mono (ih i1 fun op' hm => ho op' (by simp [hm])) ?_)
    rintro ⟨vars'', ss⟩ h'' ⟨sp'', i2, e2⟩
    refine does_pure ⟨sp'', i2, ?_⟩
    unfold bagRun
    rw [← e1]
    dsimp only
    rw [← e2]

end

end Spellbook.Mem
