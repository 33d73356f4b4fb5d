import Verif.Model.Suggest
import Verif.Spec.Suggest
import Mathlib.Data.List.Dedup
/-!
# Removing duplicates
-/

namespace Spellbook
open Spec

variable {α : Type} [DecidableEq α]

/-- Keep the first item, drop its copies, go on. -/
def keepFirst : List α → List α
  | [] => []
  | x :: xs => x :: keepFirst (xs.filter (· ≠ x))
termination_by l => l.length
decreasing_by
  simp only [List.length_cons, List.length_unattach]
  exact Nat.lt_succ_of_le (Nat.le_trans (List.length_filter_le _ _) (by simp))

theorem firsts_eq : ∀ (xs seen : List α), firsts seen xs = keepFirst (xs.filter (· ∉ seen))
  | [], seen => by simp [firsts, keepFirst]
  | x :: xs, seen => by
    by_cases h : x ∈ seen
    · rw [firsts, if_pos h, firsts_eq xs seen, List.filter_cons_of_neg (by simpa using h)]
    · rw [firsts, if_neg h, firsts_eq xs (x :: seen), List.filter_cons_of_pos (by simpa using h),
        keepFirst, List.filter_filter]
      congr 2
      refine List.filter_congr fun y _ => ?_
      simp [List.mem_cons, not_or]

theorem swapItems?_eq {items : List α} {i j : Nat} (hij : i < j) (hj : j < items.length) :
    swapItems? items i j = some ((items.set i items[j]).set j (items[i]'(by omega))) := by
  unfold swapItems?
  rw [List.getElem?_eq_getElem hj, List.getElem?_eq_getElem (by omega : i < items.length)]

theorem dedupInner_eq (x : α) (idx last : Nat) : ∀ (n first result : Nat) (items : List α),
    last - first = n → idx < result → result < first → first ≤ last → last ≤ items.length →
    items[idx]? = some x →
    ∃ items' result', dedupInner idx last first result items = some (items', result') ∧
      items'.length = items.length ∧ result' ≤ last ∧ items'.take result' =
        items.take result ++ ((items.take last).drop first).filter (· ≠ x)
  | 0, first, result, items, hn, h1, h2, h3, h4, hx => by
    refine ⟨items, result, ?_, rfl, by omega, ?_⟩
    · rw [dedupInner, if_neg (by omega)]
    · rw [List.drop_eq_nil_of_le (by simp; omega)]; simp
  | n + 1, first, result, items, hn, h1, h2, h3, h4, hx => by
    have hf : first < items.length := by omega
    have hcons : (items.take last).drop first = items[first] :: (items.take last).drop (first + 1) := by
      rw [List.drop_eq_getElem_cons (by simp; omega)]
      simp
    rw [dedupInner, if_pos (by omega), List.getElem?_eq_getElem hf, hx]
    dsimp only
    by_cases hne : items[first] = x
    · rw [if_neg (by simpa using hne)]
      obtain ⟨items', result', e1, e2, e3, e4⟩ :=
        dedupInner_eq x idx last n (first + 1) result items (by omega) h1 (by omega) (by omega) h4 hx
      refine ⟨items', result', e1, e2, e3, ?_⟩
      rw [e4, hcons, List.filter_cons_of_neg (by simpa using hne)]
    · rw [if_pos hne, swapItems?_eq h2 hf, Option.bind_some]
      set items2 := (items.set result items[first]).set first (items[result]'(by omega)) with hi2
      have hl2 : items2.length = items.length := by simp [hi2]
      obtain ⟨items', result', e1, e2, e3, e4⟩ :=
        dedupInner_eq x idx last n (first + 1) (result + 1) items2 (by omega) (by omega) (by omega)
          (by omega) (by omega) (by
            rw [hi2, List.getElem?_set_ne (by omega), List.getElem?_set_ne (by omega)]; exact hx)
      refine ⟨items', result', e1, by omega, e3, ?_⟩
      rw [e4, hcons, List.filter_cons_of_pos (by simpa using hne)]
      have t1 : items2.take (result + 1) = items.take result ++ [items[first]] := by
        rw [hi2, List.take_set_of_le (by omega)]
        refine List.ext_getElem? fun k => ?_
        simp only [List.getElem?_take, List.getElem?_set, List.getElem?_append, List.length_take]
        by_cases hk : k < result
        · have : result ≠ k := by omega
          simp [hk, this, Nat.lt_succ_of_lt hk]; omega
        · by_cases hk2 : k = result
          · subst hk2
            have : k < items.length := by omega
            simp [Nat.min_eq_left (Nat.le_of_lt this), this]
          · have h5 : ¬ k < result + 1 := by omega
            have h6 : min result items.length = result := by omega
            have h7 : k - result ≠ 0 := by omega
            simp [h5, h6, hk, List.getElem?_singleton, h7]
      have t2 : (items2.take last).drop (first + 1) = (items.take last).drop (first + 1) := by
        refine List.ext_getElem? fun k => ?_
        simp only [List.getElem?_drop, List.getElem?_take, hi2]
        split
        · rw [List.getElem?_set_ne (by omega), List.getElem?_set_ne (by omega)]
        · rfl
      rw [t1, t2]
      simp

theorem dedupOuter_eq : ∀ (rounds idx last : Nat) (items : List α), last ≤ items.length → last ≤ rounds + idx →
    ∃ items' last', dedupOuter rounds idx last items = some (items', last') ∧ 
      items'.take last' = (items.take last).take idx ++ keepFirst ((items.take last).drop idx)
  | 0, idx, last, items, h1, h2 => by
    refine ⟨items, last, rfl, ?_⟩
    rw [List.drop_eq_nil_of_le (by simp; omega), List.take_of_length_le (l := items.take last) (i := idx) (by simp; omega)]
    simp [keepFirst]
  | rounds + 1, idx, last, items, h1, h2 => by
    rw [dedupOuter]
    by_cases hi : idx < last
    · rw [if_pos hi, List.getElem?_eq_getElem (by omega : idx < items.length)]
      dsimp only
      set x := items[idx]'(by omega) with hx
      have hcons : (items.take last).drop idx = x :: (items.take last).drop (idx + 1) := by
        rw [List.drop_eq_getElem_cons (by simp; omega)]
        simp [hx]
      have htake : (items.take last).take (idx + 1) = (items.take last).take idx ++ [x] := by
        rw [List.take_add_one, List.getElem?_take, if_pos hi, List.getElem?_eq_getElem (by omega)]
        simp [hx]
      rw [hcons, keepFirst]
      cases hf : ((items.take last).drop (idx + 1)).findIdx? (· == x) with
      | none =>
        dsimp only
        obtain ⟨items', last', e1, e2⟩ := dedupOuter_eq rounds (idx + 1) last items h1 (by omega)
        refine ⟨items', last', e1, ?_⟩
        rw [e2, htake]
        have : ((items.take last).drop (idx + 1)).filter (· ≠ x) = (items.take last).drop (idx + 1) := by
          rw [List.filter_eq_self]
          intro y hy
          rw [List.findIdx?_eq_none_iff] at hf
          simpa using hf y hy
        rw [this]
        simp
      | some first =>
        dsimp only
        rw [List.findIdx?_eq_some_iff_getElem] at hf
        obtain ⟨hlt, heq, hbefore⟩ := hf
        have hlt' : first + idx + 1 < last := by
          simp only [List.length_drop, List.length_take] at hlt; omega
        obtain ⟨items', result, e1, e2, e3, e4⟩ := dedupInner_eq x idx last _ (first + idx + 1 + 1)
          (first + idx + 1) items rfl (by omega) (by omega) (by omega) h1
          (by rw [List.getElem?_eq_getElem (by omega : idx < items.length)])
        rw [e1, Option.bind_some]
        -- the list after the inner loop
        have hfilter : items'.take result = (items.take last).take idx ++
            x :: ((items.take last).drop (idx + 1)).filter (· ≠ x) := by
          rw [e4]
          have hsplit : (items.take last).drop (idx + 1) =
              ((items.take last).drop (idx + 1)).take first ++
                x :: (items.take last).drop (first + idx + 1 + 1) := by
            conv_lhs => rw [← List.take_append_drop first ((items.take last).drop (idx + 1))]
            congr 1
            rw [List.drop_eq_getElem_cons hlt, List.drop_drop]
            have : ((items.take last).drop (idx + 1))[first] = x := by simpa using heq
            rw [this]
            congr 2; omega
          have hkeep : (((items.take last).drop (idx + 1)).take first).filter (· ≠ x) =
              ((items.take last).drop (idx + 1)).take first := by
            rw [List.filter_eq_self]
            intro y hy
            obtain ⟨k, hk, rfl⟩ := List.getElem_of_mem hy
            simp only [List.length_take] at hk
            have := hbefore k (by omega)
            simpa using this
          conv_rhs => rw [hsplit]
          rw [List.filter_append, hkeep, List.filter_cons_of_neg (by simp), ← List.cons_append,
            ← List.append_assoc]
          congr 1
          have : items.take (first + idx + 1) = (items.take last).take (idx + 1 + first) := by
            rw [List.take_take]; congr 1; omega
          rw [this, List.take_add, htake]
          simp
        obtain ⟨items'', last', e5, e6⟩ := dedupOuter_eq rounds (idx + 1) result items' (by omega) (by omega)
        refine ⟨items'', last', e5, ?_⟩
        have hl : ((items.take last).take idx).length = idx := by simp; omega
        rw [e6, hfilter]
        generalize (items.take last).take idx = P at hl
        subst hl
        simp [List.take_append, List.drop_append, List.take_of_length_le, List.drop_eq_nil_of_le]
    · rw [if_neg hi]
      refine ⟨items, last, rfl, ?_⟩
      rw [List.drop_eq_nil_of_le (by simp; omega), List.take_of_length_le (l := items.take last) (i := idx) (by simp; omega)]
      simp [keepFirst]

/-- `deduplicate` never panics and keeps the first occurrences. -/
theorem deduplicate?_eq (items : List α) : deduplicate? items = some (firsts [] items) := by
  unfold deduplicate?
  split
  · rename_i h
    have : items = [] := by simpa using h
    subst this; rfl
  · obtain ⟨items', last', e1, e2⟩ := dedupOuter_eq items.length 0 items.length items (by omega) (by omega)
    rw [e1, Option.map_some]
    dsimp only
    rw [e2, firsts_eq]
    simp

theorem mem_firsts : ∀ {xs seen : List α} {y : α}, y ∈ firsts seen xs ↔ y ∈ xs ∧ y ∉ seen
  | [], seen, y => by simp [firsts]
  | x :: xs, seen, y => by
    unfold firsts
    split
    · rename_i h
      rw [mem_firsts (xs := xs), List.mem_cons]
      constructor
      · rintro ⟨h1, h2⟩; exact ⟨.inr h1, h2⟩
      · rintro ⟨rfl | h1, h2⟩
        · exact absurd h h2
        · exact ⟨h1, h2⟩
    · rename_i h
      rw [List.mem_cons, mem_firsts (xs := xs), List.mem_cons, List.mem_cons, not_or]
      by_cases hy : y = x
      · subst hy; simp [h]
      · simp [hy]

theorem firsts_nodup : ∀ (xs seen : List α), (firsts seen xs).Nodup
  | [], seen => by simp [firsts]
  | x :: xs, seen => by
    unfold firsts
    split
    · exact firsts_nodup xs seen
    · rw [List.nodup_cons, mem_firsts]
      exact ⟨by simp, firsts_nodup xs _⟩

theorem firsts_sublist : ∀ (xs seen : List α), (firsts seen xs).Sublist xs
  | [], seen => by simp [firsts]
  | x :: xs, seen => by
    unfold firsts
    split
    · exact (firsts_sublist xs seen).cons x
    · exact (firsts_sublist xs _).cons₂ x

end Spellbook
