import Verif.Model.HashBag
import Verif.Spec.Bag
import Mathlib.Data.List.Perm.Basic
import Mathlib.Data.List.Nodup
import Mathlib.Data.List.Induction

namespace Spellbook.Bag
variable {V : Type}

theorem keys_getElem? {b : Bag V} {i : Nat} {k : Str} {v : V} (h : b.slots[i]? = some (k, v)) :
    b.keys[i]? = some k := by simp [keys, h]

theorem filterMap_range_getElem? {α : Type} (l : List α) :
    (List.range l.length).filterMap (fun i => l[i]?) = l := by
  induction l using List.reverseRecOn with
  | nil => rfl
  | append_singleton l a ih =>
    rw [List.length_append, List.length_singleton, List.range_succ, List.filterMap_append]
    congr 1
    · conv => rhs; rw [← ih]
      apply List.filterMap_congr
      intro i hi
      rw [List.mem_range] at hi
      exact List.getElem?_append_left hi
    · simp

/-- A lookup yields a permutation of the slots with that key. -/
theorem get_perm (L : Layout) (b : Bag V) (k : Str) :
    (b.get L k).Perm (b.slots.filter fun e => e.1 == k) := by
  unfold get
  have hsym : (fun e : Str × V => e.1 == k) = fun e => k == e.1 := by
    funext e; rw [Bool.eq_iff_iff, beq_iff_eq, beq_iff_eq]; exact eq_comm
  rw [hsym]
  conv => rhs; rw [← filterMap_range_getElem? b.slots]
  rw [List.filter_filterMap, List.filter_filterMap]
  -- both sides read the slots of the same set of indices
  have key : ∀ l : List Nat, (∀ i ∈ l, i < b.slots.length) →
      l.filterMap (fun i => Option.filter (fun e : Str × V => k == e.1) b.slots[i]?)
      = (l.filter (fun i => (b.slots[i]?).any (fun e => k == e.1))).filterMap (fun i => b.slots[i]?) := by
    intro l hl
    rw [List.filterMap_filter]
    apply List.filterMap_congr
    intro i hi
    cases h : b.slots[i]? with
    | none => simp
    | some e =>
      by_cases hk : (k == e.1) = true
      · simp [hk]
      · simp only [beq_iff_eq] at hk; simp [hk]
  rw [key, key]
  · apply List.Perm.filterMap
    rw [List.perm_ext_iff_of_nodup ((L.probe_nodup _ _).filter _) (List.nodup_range.filter _)]
    intro i
    simp only [List.mem_filter, List.mem_range, and_congr_left_iff]
    intro h
    constructor
    · intro hi; have := L.probe_lt _ _ _ hi; simpa [keys] using this
    · intro hi
      obtain ⟨e, he⟩ : ∃ e, b.slots[i]? = some e := ⟨_, List.getElem?_eq_getElem hi⟩
      simp only [he, Option.any_some, beq_iff_eq] at h
      exact L.probe_complete _ _ _ e.1 (by simp [keys, he]) (by rw [h])
  · intro i hi; simpa using hi
  · intro i hi; have := L.probe_lt _ _ _ hi; simpa [keys] using this

theorem mem_get {L : Layout} {b : Bag V} {k : Str} {e : Str × V} :
    e ∈ b.get L k ↔ e ∈ b.slots ∧ e.1 = k := by
  rw [(get_perm L b k).mem_iff, List.mem_filter]; simp

theorem iter_perm (L : Layout) (b : Bag V) : (b.iter L).Perm b.slots := by
  unfold iter
  conv => rhs; rw [← filterMap_range_getElem? b.slots]
  apply List.Perm.filterMap
  have := L.order_perm b.keys
  simpa [keys] using this

/-- One slot update. -/
def upd (k : Str) (f : V → V) (e : Str × V) : Str × V := if e.1 = k then (e.1, f e.2) else e

theorem foldl_slots (k : Str) (f : V → V) : ∀ (is : List Nat) (b : Bag V), is.Nodup →
    (is.foldl (updateSlot k f) b).slots
    = b.slots.mapIdx fun i e => if i ∈ is then upd k f e else e := by
  intro is
  induction is with
  | nil =>
    intro b _
    simp only [List.foldl_nil, List.not_mem_nil, ↓reduceIte]
    exact (List.mapIdx_eq_iff.2 (by simp)).symm
  | cons i is ih =>
    intro b hnd
    rw [List.nodup_cons] at hnd
    simp only [List.foldl_cons]
    rw [ih _ hnd.2]
    have hstep : (updateSlot k f b i).slots = b.slots.mapIdx fun j e => if j = i then upd k f e else e := by
      symm
      rw [List.mapIdx_eq_iff]
      intro j
      unfold updateSlot
      cases h : b.slots[i]? with
      | none =>
        have hj : ∀ e, b.slots[j]? = some e → j ≠ i := by rintro e he rfl; rw [h] at he; simp at he
        cases hje : b.slots[j]? with
        | none => simp [hje]
        | some e => simp [hje, hj e hje]
      | some e =>
        obtain ⟨k', v⟩ := e
        by_cases hk : k = k'
        · subst hk
          simp only [beq_self_eq_true, ↓reduceIte]
          rw [List.getElem?_set]
          split
          · subst j
            have := (List.getElem?_eq_some_iff.1 h).1
            rw [h]; simp [this, upd]
          · rename_i hne
            have : j ≠ i := fun e => hne e.symm
            cases hje : b.slots[j]? <;> simp [this]
        · have hkb : (k == k') = false := by simpa using hk
          simp only [hkb, Bool.false_eq_true, ↓reduceIte]
          by_cases hj : j = i
          · subst hj
            have : ¬ k' = k := fun e => hk e.symm
            simp [h, upd, this]
          · cases hje : b.slots[j]? <;> simp [hj]
    rw [hstep, List.mapIdx_mapIdx]
    apply List.mapIdx_eq_iff.2
    intro j
    simp only [List.getElem?_mapIdx, Function.comp]
    cases hje : b.slots[j]? with
    | none => simp
    | some e =>
      simp only [Option.map_some, List.mem_cons]
      by_cases hj : j = i
      · subst hj
        simp [hnd.1]
      · simp [hj]

/-- The in-place update changes exactly the slots with that key. -/
theorem updateAll_slots (L : Layout) (b : Bag V) (k : Str) (f : V → V) :
    (b.updateAll L k f).slots = b.slots.map (upd k f) := by
  unfold updateAll
  rw [foldl_slots k f _ b (L.probe_nodup _ _)]
  apply List.ext_getElem?
  intro i
  simp only [List.getElem?_mapIdx, List.getElem?_map]
  cases h : b.slots[i]? with
  | none => rfl
  | some e =>
    simp only [Option.map_some, Option.some.injEq]
    by_cases hk : e.1 = k
    · have : i ∈ L.probe b.keys (L.hash k) :=
        L.probe_complete _ _ _ e.1 (by simp [keys, h]) (by rw [hk])
      simp [this]
    · simp [upd, hk]

end Spellbook.Bag
