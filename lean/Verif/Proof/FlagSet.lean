import Verif.Model.FlagSet

namespace Spellbook.FlagSet

theorem mem_ofList {flags : List Nat} {f : Nat} : f ∈ (ofList flags).elems ↔ f ∈ flags := by
  simp [ofList, mem_dedupNat, mem_sortNat]

theorem binarySearch_true {l : List Nat} {t : Nat} {fuel lo size : Nat}
    (h : binarySearch l t fuel lo size = true) : t ∈ l := by
  induction fuel generalizing lo size with
  | zero => simp [binarySearch] at h
  | succ fuel ih =>
    unfold binarySearch at h
    split at h
    · simp at h
    · simp only at h
      split at h
      · simp at h
      · rename_i x hx
        split at h
        · rename_i hxt
          subst hxt
          exact List.mem_of_getElem? hx
        · split at h <;> exact ih h

theorem binarySearch_complete {l : List Nat} {t : Nat} {fuel lo size : Nat}
    (hs : l.Pairwise (· < ·)) (hb : lo + size ≤ l.length) (hf : size ≤ fuel)
    (i : Nat) (hi : l[i]? = some t) (h1 : lo ≤ i) (h2 : i < lo + size) :
    binarySearch l t fuel lo size = true := by
  have mono : ∀ {a b x y : Nat}, l[a]? = some x → l[b]? = some y → a < b → x < y := by
    intro a b x y ha hb hab
    obtain ⟨ha', rfl⟩ := List.getElem?_eq_some_iff.1 ha
    obtain ⟨hb', rfl⟩ := List.getElem?_eq_some_iff.1 hb
    exact List.pairwise_iff_getElem.1 hs a b ha' hb' hab
  induction fuel generalizing lo size with
  | zero => omega
  | succ fuel ih =>
    unfold binarySearch
    rw [if_neg (by omega)]
    have hmid : lo + size / 2 < l.length := by omega
    simp only [List.getElem?_eq_getElem hmid]
    have hmid' := List.getElem?_eq_getElem hmid
    generalize l[lo + size / 2] = x at hmid' ⊢
    split
    · rfl
    · rename_i hne
      split
      · rename_i hlt
        refine ih (lo := lo + size / 2 + 1) (by omega) (by omega) ?_ (by omega)
        rcases Nat.lt_trichotomy i (lo + size / 2) with h | h | h
        · have := mono hi hmid' h; omega
        · subst h; rw [hi] at hmid'; simp at hmid'; omega
        · omega
      · rename_i hlt
        refine ih (by omega) (by omega) h1 ?_
        rcases Nat.lt_trichotomy i (lo + size / 2) with h | h | h
        · exact h
        · subst h; rw [hi] at hmid'; simp at hmid'; omega
        · have := mono hmid' hi h; omega

theorem contains_iff {s : FlagSet} {f : Nat} : s.contains f = true ↔ f ∈ s.elems := by
  unfold contains
  split
  · simp
  · constructor
    · exact binarySearch_true
    · intro h
      obtain ⟨i, hi⟩ := List.getElem?_of_mem h
      have hlt := (List.getElem?_eq_some_iff.1 hi).1
      exact binarySearch_complete s.sorted (by omega) (Nat.le_refl _) i hi (by omega) (by omega)

theorem contains_ofList {flags : List Nat} {f : Nat} :
    (ofList flags).contains f = true ↔ f ∈ flags := by
  rw [contains_iff, mem_ofList]

@[simp] theorem contains_empty {f : Nat} : empty.contains f = false := by
  rw [Bool.eq_false_iff, ne_eq, contains_iff]; simp [empty]

theorem intersectLoop_iff {fuel : Nat} {xs ys : List Nat} (hx : xs.Pairwise (· < ·))
    (hy : ys.Pairwise (· < ·)) (hf : xs.length + ys.length < fuel) :
    intersectLoop fuel xs ys = true ↔ ∃ f, f ∈ xs ∧ f ∈ ys := by
  induction fuel generalizing xs ys with
  | zero => omega
  | succ fuel ih =>
    unfold intersectLoop
    cases xs with
    | nil => simp
    | cons x xs' =>
      cases ys with
      | nil => simp
      | cons y ys' =>
        simp only [List.length_cons] at hf
        simp only
        have hx' := List.pairwise_cons.1 hx
        have hy' := List.pairwise_cons.1 hy
        split
        · rename_i h; subst h; simp
        · rename_i hne
          split
          · rename_i hgt
            rw [ih (xs := x :: xs') (ys := ys') hx hy'.2 (by simp only [List.length_cons]; omega)]
            constructor
            · rintro ⟨f, h1, h2⟩; exact ⟨f, h1, by simp [h2]⟩
            · rintro ⟨f, h1, h2⟩
              rcases List.mem_cons.1 h2 with rfl | h2
              · rcases List.mem_cons.1 h1 with h | h
                · omega
                · have := hx'.1 _ h; omega
              · exact ⟨f, h1, h2⟩
          · rename_i hgt
            rw [ih (xs := xs') (ys := y :: ys') hx'.2 hy (by simp only [List.length_cons]; omega)]
            constructor
            · rintro ⟨f, h1, h2⟩; exact ⟨f, by simp [h1], h2⟩
            · rintro ⟨f, h1, h2⟩
              rcases List.mem_cons.1 h1 with rfl | h1
              · rcases List.mem_cons.1 h2 with h | h
                · omega
                · have := hy'.1 _ h; omega
              · exact ⟨f, h1, h2⟩

theorem hasIntersection_iff {a b : FlagSet} :
    a.hasIntersection b = true ↔ ∃ f, f ∈ a.elems ∧ f ∈ b.elems :=
  intersectLoop_iff a.sorted b.sorted (by omega)

theorem contains_withFlag {s : FlagSet} {f g : Nat} :
    (s.withFlag f).contains g = true ↔ g = f ∨ s.contains g = true := by
  rw [withFlag, contains_ofList, contains_iff]
  simp; exact Or.comm

/-- A strictly increasing list of numbers in `[1, n]` has at most `n` elements. -/
theorem length_le_of_sorted {l : List Nat} (hs : l.Pairwise (· < ·)) :
    ∀ {lo n}, (∀ f ∈ l, lo ≤ f ∧ f ≤ n) → l.length ≤ n + 1 - lo := by
  induction l with
  | nil => intros; simp
  | cons x xs ih =>
    intro lo n h
    have hs' := List.pairwise_cons.1 hs
    have hx := h x (by simp)
    have := ih hs'.2 (lo := x + 1) (n := n) (fun f hf =>
      ⟨hs'.1 f hf, (h f (by simp [hf])).2⟩)
    simp only [List.length_cons]
    omega

/-- Strictly increasing lists with the same members are equal. -/
theorem elems_ext {l l' : List Nat} (hs : l.Pairwise (· < ·)) (hs' : l'.Pairwise (· < ·))
    (h : ∀ f, f ∈ l ↔ f ∈ l') : l = l' := by
  induction l generalizing l' with
  | nil =>
    cases l' with
    | nil => rfl
    | cons y ys => have := (h y).2 (by simp); simp at this
  | cons x xs ih =>
    cases l' with
    | nil => have := (h x).1 (by simp); simp at this
    | cons y ys =>
      have hp := List.pairwise_cons.1 hs
      have hp' := List.pairwise_cons.1 hs'
      have hxy : x = y := by
        have h1 := (h x).1 (by simp)
        have h2 := (h y).2 (by simp)
        rcases List.mem_cons.1 h1 with h1 | h1
        · exact h1
        rcases List.mem_cons.1 h2 with h2 | h2
        · exact h2.symm
        have := hp'.1 _ h1
        have := hp.1 _ h2
        omega
      subst hxy
      congr 1
      refine ih hp.2 hp'.2 fun f => ?_
      have hf := h f
      constructor
      · intro hm
        have := hp.1 f hm
        rcases List.mem_cons.1 (hf.1 (by simp [hm])) with h' | h'
        · omega
        · exact h'
      · intro hm
        have := hp'.1 f hm
        rcases List.mem_cons.1 (hf.2 (by simp [hm])) with h' | h'
        · omega
        · exact h'

theorem ext {a b : FlagSet} (h : ∀ f, a.contains f = b.contains f) : a = b := by
  have he : a.elems = b.elems := elems_ext a.sorted b.sorted fun f => by
    rw [← contains_iff, ← contains_iff, h]
  cases a; cases b; simp_all

end Spellbook.FlagSet
