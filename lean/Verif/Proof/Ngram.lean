import Verif.Model.Ngram
import Verif.Spec.Ngram
import Verif.Proof.Check
/-!
# Lemmas on the measures of similarity
-/

namespace Spellbook
open Spec

/-! ## Longest common subsequence -/

namespace Spec.LongestCommon

theorem nil_left (b : Str) : LongestCommon [] b 0 :=
  ⟨⟨[], by simp⟩, fun s h _ => by simp [List.sublist_nil.mp h]⟩

theorem nil_right (a : Str) : LongestCommon a [] 0 :=
  ⟨⟨[], by simp⟩, fun s _ h => by simp [List.sublist_nil.mp h]⟩

/-- A text read in `a ++ [c]` either does not use `c`, or ends with it. -/
theorem sublist_snoc {s a : Str} {c : Char} (h : s.Sublist (a ++ [c])) :
    s.Sublist a ∨ ∃ t, s = t ++ [c] ∧ t.Sublist a := by
  obtain ⟨s1, s2, rfl, h1, h2⟩ := List.sublist_append_iff.mp h
  cases h2 with
  | cons _ h => simp at h; subst h; left; simpa using h1
  | cons_cons _ h => simp at h; subst h; exact Or.inr ⟨s1, rfl, h1⟩

theorem same {a b : Str} {n : Nat} {c : Char} (h : LongestCommon a b n) :
    LongestCommon (a ++ [c]) (b ++ [c]) (n + 1) := by
  obtain ⟨⟨s, ha, hb, hl⟩, hm⟩ := h
  refine ⟨⟨s ++ [c], ha.append_right _, hb.append_right _, by simp [hl]⟩, fun t h1 h2 => ?_⟩
  rcases sublist_snoc h1 with k1 | ⟨t1, rfl, k1⟩
  · rcases sublist_snoc h2 with k2 | ⟨t2, rfl, k2⟩
    · exact Nat.le_succ_of_le (hm t k1 k2)
    · have := hm t2 ((List.sublist_append_left _ _).trans k1) k2
      simpa using this
  · rcases sublist_snoc h2 with k2 | ⟨t2, he, k2⟩
    · have := hm t1 k1 ((List.sublist_append_left _ _).trans k2)
      simpa using this
    · obtain rfl := List.append_cancel_right he
      have := hm t1 k1 k2
      simpa using this

theorem differ {a b : Str} {m n : Nat} {c d : Char} (hne : c ≠ d) (h : LongestCommon a (b ++ [d]) m)
    (h' : LongestCommon (a ++ [c]) b n) : LongestCommon (a ++ [c]) (b ++ [d]) (max m n) := by
  obtain ⟨⟨s, ha, hb, hl⟩, hm⟩ := h
  obtain ⟨⟨s', ha', hb', hl'⟩, hm'⟩ := h'
  refine ⟨?_, fun t h1 h2 => ?_⟩
  · by_cases hle : m ≤ n
    · exact ⟨s', ha', hb'.trans (List.sublist_append_left _ _), by omega⟩
    · exact ⟨s, ha.trans (List.sublist_append_left _ _), hb, by omega⟩
  · rcases sublist_snoc h1 with h1' | ⟨t1, rfl, h1'⟩
    · have := hm t h1' h2; omega
    · rcases sublist_snoc h2 with h2' | ⟨t2, he, h2'⟩
      · have := hm' _ h1 h2'; omega
      · exact absurd (List.append_inj_right' he rfl) (by simpa using hne)

end Spec.LongestCommon

/-- The row of the table for the prefix `p` of the left text, from after `pre` on. -/
def RowOk (p : Str) : Str → Str → List Nat → Prop
  | _, [], [] => True
  | pre, r :: rs, n :: st => LongestCommon p (pre ++ [r]) n ∧ RowOk p (pre ++ [r]) rs st
  | _, _, _ => False

theorem lcsRow_ok {p : Str} {l : Char} : ∀ {rest pre : Str} {st : List Nat} {r1 r2 : Nat},
    LongestCommon p pre r1 → LongestCommon (p ++ [l]) pre r2 → RowOk p pre rest st →
    RowOk (p ++ [l]) pre rest (lcsRow l r1 r2 rest st).1 ∧
      LongestCommon (p ++ [l]) (pre ++ rest) (lcsRow l r1 r2 rest st).2
  | [], pre, [], r1, r2, _, h2, _ => by simpa [lcsRow, RowOk] using h2
  | [], pre, _ :: _, _, _, _, _, h => by simp [RowOk] at h
  | r :: rs, pre, [], _, _, _, _, h => by simp [RowOk] at h
  | r :: rs, pre, n :: st, r1, r2, h1, h2, h => by
    obtain ⟨hn, hst⟩ := h
    have hc : LongestCommon (p ++ [l]) (pre ++ [r]) (if l = r then r1 + 1 else max n r2) := by
      by_cases hlr : l = r
      · subst hlr; simpa using h1.same
      · simpa [hlr] using LongestCommon.differ hlr hn h2
    have := lcsRow_ok hn hc hst
    simp only [lcsRow]
    exact ⟨⟨hc, this.1⟩, by simpa using this.2⟩

theorem lcsLoop_ok {right : Str} : ∀ {left p : Str} {st : List Nat} {n : Nat},
    RowOk p [] right st → LongestCommon p right n →
    LongestCommon (p ++ left) right (lcsLoop right left st n)
  | [], p, st, n, _, h => by simpa [lcsLoop] using h
  | l :: ls, p, st, n, hst, h => by
    have hr := lcsRow_ok (l := l) (LongestCommon.nil_right p) (LongestCommon.nil_right (p ++ [l])) hst
    have := lcsLoop_ok (left := ls) hr.1 (by simpa using hr.2)
    simpa [lcsLoop] using this

theorem rowOk_zero : ∀ (pre rest : Str), RowOk [] pre rest (List.replicate rest.length 0)
  | _, [] => trivial
  | pre, r :: rs => ⟨LongestCommon.nil_left _, rowOk_zero (pre ++ [r]) rs⟩

theorem lcsLength_ok (left right : Str) : LongestCommon left right (lcsLength left right) := by
  have := lcsLoop_ok (left := left) (rowOk_zero [] right) (LongestCommon.nil_left right)
  simpa [lcsLength] using this

theorem Spec.LongestCommon.unique {a b : Str} {m n : Nat} (h : LongestCommon a b m) (h' : LongestCommon a b n) :
    m = n := by
  obtain ⟨⟨s, h1, h2, rfl⟩, h3⟩ := h
  obtain ⟨⟨s', h1', h2', rfl⟩, h3'⟩ := h'
  have := h3 s' h1' h2'
  have := h3' s h1 h2
  omega

/-! ## Common prefix -/

theorem Spec.CommonPrefix.cons {a b : Str} {n : Nat} (c : Char) (h : CommonPrefix a b n) :
    CommonPrefix (c :: a) (c :: b) (n + 1) := by
  obtain ⟨⟨p, h1, h2, h3⟩, hm⟩ := h
  refine ⟨⟨c :: p, by simpa using h1, by simpa using h2, by simp [h3]⟩, ?_⟩
  rintro (_ | ⟨x, q⟩) h1 h2
  · simp
  · rw [List.cons_prefix_cons] at h1 h2
    have := hm q h1.2 h2.2
    simpa using this

theorem commonPrefix_zero {a b : Str} (h : ∀ c, a.head? = some c → b.head? ≠ some c) : CommonPrefix a b 0 := by
  refine ⟨⟨[], by simp⟩, ?_⟩
  rintro (_ | ⟨x, q⟩) ⟨t1, h1⟩ ⟨t2, h2⟩
  · simp
  · subst h1 h2; exact absurd rfl (h x rfl)

theorem indexOfMismatch_ok : ∀ (a b : Str), CommonPrefix a b ((indexOfMismatch a b).getD a.length)
  | [], b => by simpa [indexOfMismatch] using commonPrefix_zero (a := []) (b := b) (by simp)
  | l :: ls, [] => by simpa [indexOfMismatch] using commonPrefix_zero (a := l :: ls) (b := []) (by simp)
  | l :: ls, r :: rs => by
    by_cases h : r = l
    · subst h
      have := (indexOfMismatch_ok ls rs).cons r
      simp only [indexOfMismatch, if_true]
      cases hi : indexOfMismatch ls rs <;> simpa [hi] using this
    · simpa [indexOfMismatch, h] using commonPrefix_zero (a := l :: ls) (b := r :: rs) (by simpa using fun h' => h h')

/-! ## Same positions -/

theorem zip_count : ∀ (left right : Str), ((left.zip right).filter fun p => p.1 = p.2).length = agreements left right
  | [], right => by simp [agreements]
  | l :: ls, [] => by simp [agreements]
  | l :: ls, r :: rs => by
    have ih := zip_count ls rs
    have hmin : min (l :: ls).length (r :: rs).length = min ls.length rs.length + 1 := by
      simp only [List.length_cons]; omega
    unfold agreements at ih ⊢
    rw [hmin, List.range_succ_eq_map, List.zip_cons_cons, List.filter_cons, List.filter_cons,
      List.filter_map]
    simp only [Function.comp_def, Nat.succ_eq_add_one, List.getElem?_cons_succ, List.getElem?_cons_zero,
      Option.some.injEq]
    by_cases h : l = r <;> simp [h, ih]

/-! ## Exchanged characters -/

theorem zip_all_eq : ∀ {a b : Str}, a.length = b.length → (∀ p ∈ a.zip b, p.1 = p.2) → a = b
  | [], [], _, _ => rfl
  | x :: xs, y :: ys, hl, h => by
    simp only [List.zip_cons_cons, List.mem_cons, forall_eq_or_imp] at h
    rw [h.1, zip_all_eq (by simpa using hl) h.2]
  | [], _ :: _, hl, _ => by simp at hl
  | _ :: _, [], hl, _ => by simp at hl

/-- The number of positions at which the characters differ. -/
def differences (l : List (Char × Char)) : Nat := (l.filter fun p => p.1 ≠ p.2).length

theorem differences_add (l : List (Char × Char)) :
    (l.filter fun p => p.1 = p.2).length + differences l = l.length := by
  induction l with
  | nil => rfl
  | cons p l ih =>
    unfold differences at *
    simp only [List.filter_cons, List.length_cons]
    by_cases h : p.1 = p.2 <;> simp [h] at ih ⊢ <;> omega

theorem differences_zero {a b : Str} (hl : a.length = b.length) (h : differences (a.zip b) = 0) : a = b := by
  refine zip_all_eq hl fun p hp => ?_
  by_contra hne
  have : p ∈ (a.zip b).filter fun p => p.1 ≠ p.2 := by simp [hp, hne]
  have := List.length_pos_of_mem this
  unfold differences at h
  omega

theorem differences_self : ∀ (a : Str), differences (a.zip a) = 0
  | [] => rfl
  | x :: xs => by
    have := differences_self xs
    simp only [differences, List.length_eq_zero_iff] at this ⊢
    rw [List.zip_cons_cons, List.filter_cons_of_neg (by simp)]
    exact this

/-- After the first difference. -/
theorem swapLoop_some {x y : Char} : ∀ {left right : Str}, left.length = right.length →
    differences (left.zip right) = 1 →
    (swapLoop (some (x, y)) (left.zip right) = true ↔
      ∃ b c, left = b ++ y :: c ∧ right = b ++ x :: c)
  | [], [], _, h => by simp [differences] at h
  | [], _ :: _, hl, _ => by simp at hl
  | _ :: _, [], hl, _ => by simp at hl
  | l :: ls, r :: rs, hl, h => by
    have hl' : ls.length = rs.length := by simpa using hl
    by_cases hlr : l = r
    · subst hlr
      have h' : differences (ls.zip rs) = 1 := by simpa [differences] using h
      have ih := swapLoop_some (x := x) (y := y) hl' h'
      simp only [List.zip_cons_cons, swapLoop, ne_eq, not_true_eq_false, if_false, ih]
      constructor
      · rintro ⟨b, c, rfl, rfl⟩; exact ⟨l :: b, c, rfl, rfl⟩
      · rintro ⟨_ | ⟨z, b⟩, c, h1, h2⟩
        · simp only [List.nil_append, List.cons.injEq] at h1 h2
          obtain ⟨rfl, rfl⟩ := h1
          obtain ⟨rfl, rfl⟩ := h2
          exact absurd h' (by rw [differences_self]; simp)
        · simp only [List.cons_append, List.cons.injEq] at h1 h2
          exact ⟨b, c, h1.2, h2.2⟩
    · have h' : differences (ls.zip rs) = 0 := by
        simp only [differences, List.zip_cons_cons, List.filter_cons, ne_eq, hlr] at h ⊢
        simpa using h
      obtain rfl := differences_zero hl' h'
      simp only [List.zip_cons_cons, swapLoop, ne_eq, hlr, not_false_eq_true, if_true,
        Bool.and_eq_true, beq_iff_eq]
      constructor
      · rintro ⟨rfl, rfl⟩; exact ⟨[], ls, rfl, rfl⟩
      · rintro ⟨_ | ⟨z, b⟩, c, h1, h2⟩
        · simp only [List.nil_append, List.cons.injEq] at h1 h2
          exact ⟨h2.1.symm, h1.1.symm⟩
        · simp only [List.cons_append, List.cons.injEq] at h1 h2
          exact absurd (h1.1.trans h2.1.symm) hlr

theorem swapLoop_none : ∀ {left right : Str}, left.length = right.length →
    differences (left.zip right) = 2 →
    (swapLoop none (left.zip right) = true ↔ Exchanged left right)
  | [], [], _, h => by simp [differences] at h
  | [], _ :: _, hl, _ => by simp at hl
  | _ :: _, [], hl, _ => by simp at hl
  | l :: ls, r :: rs, hl, h => by
    have hl' : ls.length = rs.length := by simpa using hl
    by_cases hlr : l = r
    · subst hlr
      have h' : differences (ls.zip rs) = 2 := by simpa [differences] using h
      have ih := swapLoop_none hl' h'
      simp only [List.zip_cons_cons, swapLoop, ne_eq, not_true_eq_false, if_false, ih]
      constructor
      · rintro ⟨a, x, b, y, c, hne, rfl, rfl⟩; exact ⟨l :: a, x, b, y, c, hne, rfl, rfl⟩
      · rintro ⟨_ | ⟨z, a⟩, x, b, y, c, hne, h1, h2⟩
        · simp only [List.nil_append, List.cons.injEq] at h1 h2
          exact absurd (h1.1.symm.trans h2.1) hne
        · simp only [List.cons_append, List.cons.injEq] at h1 h2
          exact ⟨a, x, b, y, c, hne, h1.2, h2.2⟩
    · have h' : differences (ls.zip rs) = 1 := by
        simp only [differences, List.zip_cons_cons, List.filter_cons, ne_eq, hlr] at h ⊢
        simpa using h
      have hs := swapLoop_some (x := l) (y := r) hl' h'
      simp only [List.zip_cons_cons, swapLoop, ne_eq, hlr, not_false_eq_true, if_true, hs]
      constructor
      · rintro ⟨b, c, rfl, rfl⟩; exact ⟨[], l, b, r, c, hlr, rfl, rfl⟩
      · rintro ⟨_ | ⟨z, a⟩, x, b, y, c, hne, h1, h2⟩
        · simp only [List.nil_append, List.cons.injEq] at h1 h2
          obtain ⟨rfl, rfl⟩ := h1
          obtain ⟨rfl, rfl⟩ := h2
          exact ⟨b, c, rfl, rfl⟩
        · simp only [List.cons_append, List.cons.injEq] at h1 h2
          exact absurd (h1.1.trans h2.1.symm) hlr

theorem differences_append (a b : List (Char × Char)) : differences (a ++ b) = differences a + differences b := by
  simp [differences]

theorem differences_cons (x y : Char) (l : List (Char × Char)) :
    differences ((x, y) :: l) = (if x = y then 0 else 1) + differences l := by
  by_cases h : x = y <;> simp [differences, h, Nat.add_comm]

theorem differences_exchanged {left right : Str} (h : Exchanged left right) :
    left.length = right.length ∧ differences (left.zip right) = 2 := by
  obtain ⟨a, x, b, y, c, hne, rfl, rfl⟩ := h
  refine ⟨by simp, ?_⟩
  rw [List.zip_append rfl, List.zip_cons_cons, List.zip_append rfl, List.zip_cons_cons,
    differences_append, differences_self, differences_cons, differences_append, differences_self,
    differences_cons, differences_self]
  simp [hne, hne.symm]

/-- The transposition test. -/
theorem swapped_iff (left right : Str) : (countEqAtSamePos left right).2 = true ↔ Exchanged left right := by
  have hz : ((left.zip right).filter fun p => p.1 = p.2).length + differences (left.zip right)
      = min left.length right.length := by rw [differences_add, List.length_zip]
  simp only [countEqAtSamePos]
  constructor
  · intro h
    split at h
    · next hc => exact (swapLoop_none hc.1 (by have := hc.2; omega)).mp h
    · simp at h
  · intro h
    obtain ⟨hl, hd⟩ := differences_exchanged h
    rw [if_pos ⟨hl, by omega⟩]
    exact (swapLoop_none hl hd).mpr h

/-! ## Grams -/

theorem slice_gram (left : Str) (k i : Nat) : slice left i (i + k) = gram left k i := by
  simp [slice, gram, List.drop_take]

theorem containsStr_gram {w p : Str} : containsStr w p = true ↔ p <:+: w := by
  rw [containsStr_iff]
  constructor
  · rintro ⟨a, b, rfl⟩; exact ⟨a, b, rfl⟩
  · rintro ⟨a, b, rfl⟩; exact ⟨a, b, rfl⟩

theorem kScore_eq (left right : Str) {k : Nat} (hk : k ≤ left.length) : kScore left right k = hits left right k := by
  have hg : left.length - k + 1 = grams left k := by simp only [grams]; omega
  simp only [kScore, kgrams, hits, List.filter_map, List.length_map, hg]
  congr 1
  refine List.filter_congr fun i _ => ?_
  simp only [Function.comp_def, slice_gram]
  rw [Bool.eq_iff_iff, containsStr_gram]; simp

theorem hits_le (left right : Str) (k : Nat) : hits left right k ≤ grams left k := by
  exact (List.length_filter_le _ _).trans (by simp)

/-- The loop over `k` stops after the first `k` with less than two hits. -/
theorem ngramLoop_ok (left right : Str) : ∀ (m k : Nat), k + m ≤ left.length + 1 →
    ∃ j ≤ m, ngramLoop left right (List.range' k m) = (((List.range' k j).map (hits left right)).sum : Nat) ∧
      (∀ i, k ≤ i → i + 1 < k + j → 2 ≤ hits left right i) ∧
      (j = m ∨ 0 < j ∧ hits left right (k + j - 1) < 2)
  | 0, k, _ => ⟨0, le_refl _, by simp [ngramLoop], by omega, Or.inl rfl⟩
  | m + 1, k, hk => by
    obtain ⟨j, hj, he, h2, h3⟩ := ngramLoop_ok left right m (k + 1) (by omega)
    have hs := kScore_eq left right (k := k) (by omega)
    simp only [List.range'_succ, ngramLoop, hs]
    by_cases h : hits left right k < 2
    · exact ⟨1, by omega, by simp [h], by omega, Or.inr ⟨by omega, by simpa using h⟩⟩
    · refine ⟨j + 1, by omega, by simp [h, he, List.range'_succ], fun i h1 h1' => ?_, ?_⟩
      · by_cases hik : i = k
        · subst hik; omega
        · exact h2 i (by omega) (by omega)
      · rcases h3 with h3 | ⟨h3, h4⟩
        · exact Or.inl (by omega)
        · exact Or.inr ⟨by omega, by
            have : k + (j + 1) - 1 = k + 1 + j - 1 := by omega
            rw [this]; exact h4⟩

/-- The weighted score of the grams of one size. -/
theorem weight_sum (left right : Str) {k : Nat} (hk : k ≤ left.length) :
    ((List.range (left.length - k + 1)).map (weight left right k)).sum =
      (hits left right k : Int) - (((List.range (grams left k)).filter
        fun i => ¬ gram left k i <:+: right).length : Nat)
      - (((List.range (grams left k)).filter
        fun i => ¬ gram left k i <:+: right ∧ (i = 0 ∨ i + k = left.length)).length : Nat) := by
  have hg : left.length - k + 1 = grams left k := by simp only [grams]; omega
  have hlast : ∀ i ∈ List.range (grams left k), (i = left.length - k ↔ i + k = left.length) := by
    intro i hi; simp only [grams, List.mem_range] at hi; omega
  rw [hg]
  unfold hits
  revert hlast
  generalize List.range (grams left k) = l
  intro hlast
  induction l with
  | nil => simp
  | cons i l ih =>
    have ih := ih fun j hj => hlast j (List.mem_cons_of_mem _ hj)
    have hi := hlast i List.mem_cons_self
    rw [List.map_cons, List.sum_cons, ih]
    have hc : containsStr right (slice left i (i + k)) = true ↔ gram left k i <:+: right := by
      rw [slice_gram, containsStr_gram]
    by_cases hin : gram left k i <:+: right
    · simp only [weight, hc.mpr hin, if_true, List.filter_cons, hin]
      simp; omega
    · have hc' : containsStr right (slice left i (i + k)) = false := by
        rw [Bool.eq_false_iff]; exact fun h => hin (hc.mp h)
      by_cases hend : i = 0 ∨ i + k = left.length
      · have hend' : i = 0 ∨ i = left.length - k := by rw [hi]; exact hend
        simp only [weight, hc', List.filter_cons, hin, hend, hend', if_true]
        simp; omega
      · have hend' : ¬ (i = 0 ∨ i = left.length - k) := by rw [hi]; exact hend
        simp only [weight, hc', List.filter_cons, hin, hend, hend', if_false]
        simp; omega

/-! ## Heaps -/

variable {α : Type} {H : Heaps}

theorem bestOf_nil (cap : Nat) : BestOf (α := α) cap [] [] := ⟨[], .refl _, by simp, by simp⟩

theorem bestOf_offer {cap : Nat} (hcap : 0 < cap) {offered kept : List (MinScored α)}
    (h : BestOf cap offered kept) (x : MinScored α) : BestOf cap (offered ++ [x]) (H.offer cap kept x) := by
  obtain ⟨dropped, hp, hl, hb⟩ := h
  have hlen := hp.length_eq
  simp only [List.length_append] at hlen
  have hsnoc : (offered ++ [x]).Perm (x :: offered) := List.perm_append_singleton x offered
  by_cases hc : kept.length ≠ cap
  · rw [Heaps.offer, if_pos hc]
    have hd : dropped = [] := by
      rw [← List.length_eq_zero_iff]; omega
    subst hd
    refine ⟨[], hsnoc.trans ((hp.cons x).trans ?_), ?_, by simp⟩
    · simpa using (H.push_perm kept x).symm
    · rw [(H.push_perm kept x).length_eq]; simp only [List.length_cons, List.length_append, List.length_nil]; omega
  · rw [Heaps.offer, if_neg hc]
    have hc : kept.length = cap := by omega
    cases hpop : H.pop kept with
    | none =>
      rw [H.pop_none] at hpop; subst hpop; simp at hc; omega
    | some tr =>
      obtain ⟨top, rest⟩ := tr
      obtain ⟨hk, hmin⟩ := H.pop_some kept rest top hpop
      have hkl := hk.length_eq
      simp only [List.length_cons] at hkl
      dsimp only
      split
      · next hgt =>
        have hpush := H.push_perm rest x
        refine ⟨top :: dropped, ?_, ?_, ?_⟩
        · refine hsnoc.trans ((hp.cons x).trans ?_)
          refine (List.Perm.cons x (hk.append_right dropped)).trans ?_
          refine List.Perm.trans ?_ (hpush.symm.append_right _)
          exact (List.perm_middle (l₁ := rest) (l₂ := dropped) (a := top)).symm.cons x
        · rw [hpush.length_eq]; simp only [List.length_cons, List.length_append, List.length_nil]; omega
        · intro k hk' d hd
          have hkept : ∀ k ∈ kept, ∀ d ∈ dropped, d.score ≤ k.score := hb
          have htop : top ∈ kept := hk.mem_iff.mpr List.mem_cons_self
          rcases List.mem_cons.mp (hpush.mem_iff.mp hk') with rfl | hkr
          · rcases List.mem_cons.mp hd with rfl | hd
            · omega
            · have := hb top htop d hd; omega
          · rcases List.mem_cons.mp hd with rfl | hd
            · exact hmin k hkr
            · exact hb k (hk.mem_iff.mpr (List.mem_cons_of_mem _ hkr)) d hd
      · next hle =>
        refine ⟨x :: dropped, hsnoc.trans ((hp.cons x).trans List.perm_middle.symm), ?_, ?_⟩
        · simp only [List.length_append, List.length_cons, List.length_nil]; omega
        · intro k hk' d hd
          rcases List.mem_cons.mp hd with rfl | hd
          · rcases List.mem_cons.mp (hk.mem_iff.mp hk') with rfl | hkr
            · omega
            · have := hmin k hkr; omega
          · exact hb k hk' d hd

theorem bestOf_foldl {cap : Nat} (hcap : 0 < cap) : ∀ (xs offered kept : List (MinScored α)),
    BestOf cap offered kept → BestOf cap (offered ++ xs) (xs.foldl (H.offer cap) kept)
  | [], offered, kept, h => by simpa using h
  | x :: xs, offered, kept, h => by
    have := bestOf_foldl hcap xs _ _ (bestOf_offer (H := H) hcap h x)
    simpa using this

theorem Run.pure_eq_ok {α : Type} {a b : α} : (pure a : Run α) = .ok b ↔ a = b := by
  simp [pure, Except.pure]

variable {C : Checker}

theorem roots_foldlM {word : Str} : ∀ {entries : List (Str × FlagSet)}
    {r0 roots off0 : List (MinScored (Str × FlagSet))}, BestOf 100 off0 r0 →
    entries.foldlM (C.offerRoot H word) r0 = .ok roots →
    ∃ scored : List (MinScored (Str × FlagSet)),
      scored.map (·.inner) = entries.filter (fun e => !C.skipsForNgram e.2) ∧
      (∀ x ∈ scored, C.rootScore word x.inner.1 = .ok x.score) ∧ BestOf 100 (off0 ++ scored) roots
  | [], r0, roots, off0, hb, h => by
    simp only [List.foldlM_nil, Run.pure_eq_ok] at h
    subst h
    exact ⟨[], by simp, by simp, by simpa using hb⟩
  | e :: es, r0, roots, off0, hb, h => by
    rw [List.foldlM_cons, Run.bind_eq_ok] at h
    obtain ⟨r1, h1, h2⟩ := h
    unfold Checker.offerRoot at h1
    by_cases hs : C.skipsForNgram e.2 = true
    · rw [if_pos hs] at h1
      obtain rfl : r0 = r1 := by simpa using h1
      obtain ⟨scored, ha, hb', hc⟩ := roots_foldlM hb h2
      exact ⟨scored, by simpa [hs] using ha, hb', hc⟩
    · rw [if_neg hs, Run.bind_eq_ok] at h1
      obtain ⟨sc, h3, h4⟩ := h1
      rw [Run.pure_eq_ok] at h4
      subst h4
      obtain ⟨scored, ha, hb', hc⟩ := roots_foldlM (bestOf_offer (by omega) hb _) h2
      refine ⟨⟨sc, e⟩ :: scored, by simpa [hs] using ha, ?_, by simpa using hc⟩
      rintro x hx
      rcases List.mem_cons.mp hx with rfl | hx
      · exact h3
      · exact hb' x hx

theorem forms_foldlM {word : Str} {t : Int} : ∀ {forms : List Str} {r0 r off0 : List (MinScored Str)},
    BestOf 200 off0 r0 → forms.foldlM (C.offerGuess H word t) r0 = .ok r →
    ∃ scored : List (MinScored Str), scored.map (·.inner) = forms ∧
      (∀ x ∈ scored, C.guessScore word x.inner = .ok x.score) ∧
      BestOf 200 (off0 ++ scored.filter fun x => t ≤ x.score) r
  | [], r0, r, off0, hb, h => by
    simp only [List.foldlM_nil, Run.pure_eq_ok] at h
    subst h
    exact ⟨[], by simp, by simp, by simpa using hb⟩
  | e :: es, r0, r, off0, hb, h => by
    rw [List.foldlM_cons, Run.bind_eq_ok] at h
    obtain ⟨r1, h1, h2⟩ := h
    unfold Checker.offerGuess at h1
    rw [Run.bind_eq_ok] at h1
    obtain ⟨sc, h3, h4⟩ := h1
    by_cases hs : sc < t
    · rw [if_pos hs, Run.pure_eq_ok] at h4
      subst h4
      obtain ⟨scored, ha, hb', hc⟩ := forms_foldlM hb h2
      refine ⟨⟨sc, e⟩ :: scored, by simpa using ha, ?_, by
        rw [List.filter_cons_of_neg (by simpa using hs)]; exact hc⟩
      rintro x hx
      rcases List.mem_cons.mp hx with rfl | hx
      · exact h3
      · exact hb' x hx
    · rw [if_neg hs, Run.pure_eq_ok] at h4
      subst h4
      obtain ⟨scored, ha, hb', hc⟩ := forms_foldlM (bestOf_offer (by omega) hb _) h2
      refine ⟨⟨sc, e⟩ :: scored, by simpa using ha, ?_, by
        rw [List.filter_cons_of_pos (by simpa using hs)]; simpa using hc⟩
      rintro x hx
      rcases List.mem_cons.mp hx with rfl | hx
      · exact h3
      · exact hb' x hx

theorem guesses_foldlM {word : Str} {t : Int} : ∀ {roots : List (MinScored (Str × FlagSet))}
    {r0 r off0 : List (MinScored Str)}, BestOf 200 off0 r0 →
    roots.foldlM (fun guesses root => do
      let forms ← C.expandStem root.inner.1 root.inner.2 word
      forms.foldlM (C.offerGuess H word t) guesses) r0 = .ok r →
    ∃ (forms : List (List Str)) (scored : List (MinScored Str)),
      List.Forall₂ (fun root fs => C.expandStem root.inner.1 root.inner.2 word = .ok fs) roots forms ∧
      scored.map (·.inner) = forms.flatten ∧
      (∀ x ∈ scored, C.guessScore word x.inner = .ok x.score) ∧
      BestOf 200 (off0 ++ scored.filter fun x => t ≤ x.score) r
  | [], r0, r, off0, hb, h => by
    simp only [List.foldlM_nil, Run.pure_eq_ok] at h
    subst h
    exact ⟨[], [], .nil, by simp, by simp, by simpa using hb⟩
  | e :: es, r0, r, off0, hb, h => by
    rw [List.foldlM_cons, Run.bind_eq_ok] at h
    obtain ⟨r1, h1, h2⟩ := h
    rw [Run.bind_eq_ok] at h1
    obtain ⟨fs, h3, h4⟩ := h1
    obtain ⟨s1, ha, hb1, hc⟩ := forms_foldlM hb h4
    obtain ⟨fss, s2, hf, ha', hb2, hc'⟩ := guesses_foldlM hc h2
    refine ⟨fs :: fss, s1 ++ s2, .cons h3 hf, by simp [ha, ha'], ?_, by simpa using hc'⟩
    intro x hx
    rcases List.mem_append.mp hx with hx | hx
    · exact hb1 x hx
    · exact hb2 x hx

end Spellbook
