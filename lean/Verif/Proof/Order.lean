import Verif.Spec.Order
import Verif.Proof.History
import Mathlib.Data.List.Perm.Basic
/-!
# Proofs about the order of operations and of lines
-/

namespace Spellbook
open Spec

variable {U : Unicode}

/-- What a call does to the entries of its own stem. -/
def Spec.Op.effect (U : Unicode) (A : AffData) (l : List (Str × FlagSet)) : Op → List (Str × FlagSet)
  | .add line =>
    match parseDicLine U line A.flagType A.flagAliases A.ignoreChars with
    | .ok e => l ++ [e]
    | .error _ => l
  | .remove _ => l.map fun e => (e.1, Dict.forbid ⟨⟨[]⟩, A⟩ e.2)

theorem runs_aff {D D' : Dict} {ops : List Op} (h : Runs U D ops D') : D'.aff = D.aff := by
  induction h with
  | done => rfl
  | added h1 h2 ih =>
    unfold Dict.add at h1
    split at h1
    · cases h1
    · cases h1; rw [ih]
  | refused h1 h2 ih => exact ih
  | removed L h2 ih => rw [ih]; rfl

theorem filter_upd (s t : Str) (f : FlagSet → FlagSet) (l : List (Str × FlagSet)) :
    (l.map (Bag.upd t f)).filter (fun e => e.1 = s) =
      if t = s then (l.filter fun e => e.1 = s).map fun e => (e.1, f e.2) else l.filter fun e => e.1 = s := by
  induction l with
  | nil => split <;> rfl
  | cons a l ih =>
    obtain ⟨k, F⟩ := a
    have hk : (Bag.upd t f (k, F)).1 = k := by unfold Bag.upd; split <;> rfl
    rw [List.map_cons, List.filter_cons, List.filter_cons, ih]
    by_cases hks : k = s
    · simp only [hk, hks, decide_true, if_true]
      by_cases ht : t = s
      · simp only [ht, if_true, List.map_cons]
        unfold Bag.upd
        simp
      · simp only [ht, if_false]
        unfold Bag.upd
        simp [show s ≠ t from fun h => ht h.symm]
    · simp [hk, hks]

/-- The entries of a stem depend on the calls which concern it only. -/
theorem runs_entries {D D' : Dict} {ops : List Op} (h : Runs U D ops D') (s : Str) :
    entriesFor D' s = (callsFor U D.aff s ops).foldl (Op.effect U D.aff) (entriesFor D s) := by
  induction h with
  | done => rfl
  | @added D line D₁ ops D₂ h1 h2 ih =>
    have ha : D₁.aff = D.aff := runs_aff (.added h1 .done)
    rw [ih, ha]
    unfold Dict.add at h1
    split at h1
    · cases h1
    · rename_i word F hp
      cases h1
      by_cases hs : word = s
      · have : callsFor U D.aff s (.add line :: ops) = .add line :: callsFor U D.aff s ops := by
          unfold callsFor; rw [List.filter_cons, if_pos]; simp [Op.stem, hp, hs]
        rw [this, List.foldl_cons]
        congr 1
        simp [Op.effect, hp, entriesFor, Bag.insert, List.filter_append, hs]
      · have : callsFor U D.aff s (.add line :: ops) = callsFor U D.aff s ops := by
          unfold callsFor; rw [List.filter_cons, if_neg]; simp [Op.stem, hp, hs]
        rw [this]
        congr 1
        simp [entriesFor, Bag.insert, List.filter_append, hs]
  | @refused D line e ops D₂ h1 h2 ih =>
    have : callsFor U D.aff s (.add line :: ops) = callsFor U D.aff s ops := by
      unfold Dict.add at h1
      split at h1
      · rename_i hp
        unfold callsFor; rw [List.filter_cons, if_neg]; simp [Op.stem, hp]
      · cases h1
    rw [ih, this]
  | @removed D L stem ops D₂ h2 ih =>
    rw [ih, Dict.removeStem_aff]
    have he : entriesFor (D.removeStem L stem).2 s = if stem = s then
        (entriesFor D s).map fun e => (e.1, Dict.forbid ⟨⟨[]⟩, D.aff⟩ e.2) else entriesFor D s := by
      unfold entriesFor
      rw [Dict.removeStem_slots, filter_upd]
      rfl
    by_cases hs : stem = s
    · have : callsFor U D.aff s (.remove stem :: ops) = .remove stem :: callsFor U D.aff s ops := by
        unfold callsFor; rw [List.filter_cons, if_pos]; simp [Op.stem, hs]
      rw [this, List.foldl_cons, he, if_pos hs]
      rfl
    · have : callsFor U D.aff s (.remove stem :: ops) = callsFor U D.aff s ops := by
        unfold callsFor; rw [List.filter_cons, if_neg]; simp [Op.stem, hs]
      rw [this, he, if_neg hs]

theorem perm_of_entries {D D' : Dict} (h : ∀ s, entriesFor D s = entriesFor D' s) :
    D.words.slots.Perm D'.words.slots := by
  classical
  refine List.perm_iff_count.2 fun e => ?_
  have h1 : ∀ l : List (Str × FlagSet), l.count e = (l.filter fun x => x.1 = e.1).count e := by
    intro l
    rw [List.count_filter (by simp)]
  exact (h1 _).trans ((congrArg _ (h e.1)).trans (h1 _).symm)

/-! ### Lines -/

variable {cx : Cx}

theorem fold_ok_inv {rest : List (Nat × Str)} {words w' : Bag FlagSet} (h : rest.foldlM (stepAt U cx) words = .ok w') :
    ∀ l ∈ rest, (∃ es, EntriesOf U cx l.2 es) ∧ ¬ TwinTooLong U cx l.2 := by
  induction rest generalizing words with
  | nil => simp
  | cons a rest ih =>
    rw [List.foldlM_cons] at h
    intro l hl
    rcases stepAt_cases U cx words a with ⟨es, h1, h2, h3⟩ | ⟨kind, -, h3⟩ | ⟨-, h3⟩ <;> rw [h3] at h
    · rcases List.mem_cons.1 hl with rfl | hl
      · exact ⟨⟨es, h1⟩, h2⟩
      · exact ih h l hl
    · cases h
    · cases h

/-- The same lines in another order make the same entries in another order. -/
theorem parse_lines_map {S : Sorts} {aff dic dic' : Str} {D : Dict} {first first' : Nat × Str}
    {rest rest' : List (Nat × Str)} (h : parse U S aff dic = .ok D) (h1 : Content U dic (first :: rest))
    (h2 : Content U dic' (first' :: rest')) (ha : Announces U first'.2)
    (hp : ∀ t ∈ rest'.map (·.2), t ∈ rest.map (·.2)) :
    ∃ (D' : Dict) (e : Str → List (Str × FlagSet)), parse U S aff dic' = .ok D' ∧ D'.aff = D.aff ∧
      D.words.slots = ((rest.map (·.2)).map e).flatten ∧ D'.words.slots = ((rest'.map (·.2)).map e).flatten := by
  classical
  obtain ⟨cx, hc, -, hd, -, hA⟩ := parse_ok_inv h
  have ha1 : Announces U first.2 := by
    rcases parse_cases (U := U) S aff dic with ⟨_, D', h', hd, -⟩ | ⟨e, h', -⟩ | ⟨_, e, h', -⟩ | ⟨_, _, h', -⟩ <;>
      rw [h] at h' <;> simp at h'
    obtain ⟨_, f, r, _, -, -, hf, hg, -⟩ := hd
    have := (content_iff.1 hf).trans (content_iff.1 h1).symm
    rw [(List.cons.inj this).1] at hg
    exact hg
  rw [parseDic_content h1 ha1] at hd
  have hall := fold_ok_inv hd
  have hex : ∀ t : Str, ∃ es, (∃ l ∈ rest, l.2 = t) → EntriesOf U cx t es ∧ ¬ TwinTooLong U cx t := by
    intro t
    by_cases ht : ∃ l ∈ rest, l.2 = t
    · obtain ⟨l, hl, rfl⟩ := ht
      obtain ⟨⟨es, h3⟩, h4⟩ := hall l hl
      exact ⟨es, fun _ => ⟨h3, h4⟩⟩
    · exact ⟨[], fun h => absurd h ht⟩
  choose e he using hex
  have hf : ∀ r : List (Nat × Str), (∀ l ∈ r, ∃ l' ∈ rest, l'.2 = l.2) →
      r.foldlM (stepAt U cx) Bag.empty = .ok ⟨((r.map (·.2)).map e).flatten⟩ := by
    intro r hr
    have := fold_entries (U := U) (cx := cx) (rest := r) (ess := (r.map (·.2)).map e) (words := Bag.empty) ?_ ?_
    · rw [this]; rfl
    · rw [List.map_map, List.forall₂_map_right_iff, List.forall₂_same]
      exact fun l hl => (he l.2 (hr l hl)).1
    · exact fun l hl => (he l.2 (hr l hl)).2
  have hd' := hf rest fun l hl => ⟨l, hl, rfl⟩
  rw [hd, Except.ok.injEq] at hd'
  have hd2 := hf rest' fun l hl => by
    have : l.2 ∈ rest.map (·.2) := hp _ (List.mem_map.2 ⟨l, hl, rfl⟩)
    exact List.mem_map.1 this
  exact ⟨⟨⟨_⟩, D.aff⟩, e, parse_ok hc ((parseDic_content h2 ha).trans hd2) (hA _), rfl, by rw [hd'], rfl⟩

theorem parse_lines {S : Sorts} {aff dic dic' : Str} {D : Dict} {first first' : Nat × Str}
    {rest rest' : List (Nat × Str)} (h : parse U S aff dic = .ok D) (h1 : Content U dic (first :: rest))
    (h2 : Content U dic' (first' :: rest')) (ha : Announces U first'.2)
    (hp : (rest.map (·.2)).Perm (rest'.map (·.2))) :
    ∃ D', parse U S aff dic' = .ok D' ∧ D'.aff = D.aff ∧ D.words.slots.Perm D'.words.slots := by
  obtain ⟨D', e, h3, h4, h5, h6⟩ := parse_lines_map h h1 h2 ha fun t => hp.mem_iff.2
  refine ⟨D', h3, h4, ?_⟩
  rw [h5, h6]
  exact (hp.map e).flatten

theorem parse_sameLines {S : Sorts} {aff dic dic' : Str} {D : Dict} {first first' : Nat × Str}
    {rest rest' : List (Nat × Str)} (h : parse U S aff dic = .ok D) (h1 : Content U dic (first :: rest))
    (h2 : Content U dic' (first' :: rest')) (ha : Announces U first'.2)
    (hp : ∀ t, t ∈ rest.map (·.2) ↔ t ∈ rest'.map (·.2)) :
    ∃ D', parse U S aff dic' = .ok D' ∧ D'.aff = D.aff ∧ ∀ e, e ∈ D.words.slots ↔ e ∈ D'.words.slots := by
  obtain ⟨D', e, h3, h4, h5, h6⟩ := parse_lines_map h h1 h2 ha fun t => (hp t).2
  refine ⟨D', h3, h4, fun x => ?_⟩
  rw [h5, h6, List.mem_flatten, List.mem_flatten]
  simp only [List.mem_map (f := e), hp]

end Spellbook
