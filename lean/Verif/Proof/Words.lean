import Verif.Model.Words
import Verif.Proof.Utf8

namespace Spellbook

theorem utf8Size_pos' (c : Char) : 0 < c.utf8Size := c.utf8Size_pos

theorem sliceFrom?_append (a b : Str) : sliceFrom? (a ++ b) (byteLen a) = some b := by
  induction a with
  | nil => cases b <;> rfl
  | cons c a ih =>
    have := utf8Size_pos' c
    rw [byteLen_cons, List.cons_append]
    obtain ⟨n, hn⟩ : ∃ n, c.utf8Size + byteLen a = n + 1 := ⟨c.utf8Size + byteLen a - 1, by omega⟩
    rw [hn, sliceFrom?, if_pos (by omega), show n + 1 - c.utf8Size = byteLen a by omega, ih]

theorem sliceTo?_append (a b : Str) : sliceTo? (a ++ b) (byteLen a) = some a := by
  induction a with
  | nil => cases b <;> rfl
  | cons c a ih =>
    have := utf8Size_pos' c
    rw [byteLen_cons, List.cons_append]
    obtain ⟨n, hn⟩ : ∃ n, c.utf8Size + byteLen a = n + 1 := ⟨c.utf8Size + byteLen a - 1, by omega⟩
    rw [hn, sliceTo?, if_pos (by omega), show n + 1 - c.utf8Size = byteLen a by omega, ih]
    rfl

theorem sliceFrom?_take (w : Str) (i : Nat) : sliceFrom? w (byteLen (w.take i)) = some (w.drop i) := by
  have := sliceFrom?_append (w.take i) (w.drop i)
  rwa [List.take_append_drop] at this

theorem sliceTo?_take (w : Str) (i : Nat) : sliceTo? w (byteLen (w.take i)) = some (w.take i) := by
  have := sliceTo?_append (w.take i) (w.drop i)
  rwa [List.take_append_drop] at this

theorem sliceFrom?_some {w s : Str} {n : Nat} (h : sliceFrom? w n = some s) :
    ∃ a, w = a ++ s ∧ byteLen a = n := by
  induction w generalizing n with
  | nil => cases n <;> simp_all [sliceFrom?]
  | cons c w ih =>
    cases n with
    | zero => exact ⟨[], by simp_all [sliceFrom?]⟩
    | succ n =>
      rw [sliceFrom?] at h
      split at h
      · obtain ⟨a, rfl, hl⟩ := ih h
        exact ⟨c :: a, rfl, by rw [byteLen_cons]; omega⟩
      · simp at h

theorem byteLen_take_le {w : Str} {i j : Nat} (h : i ≤ j) : byteLen (w.take i) ≤ byteLen (w.take j) := by
  have : w.take j = w.take i ++ (w.take j).drop i := by
    conv => lhs; rw [← List.take_append_drop i (w.take j), List.take_take, Nat.min_eq_left h]
  rw [this, byteLen_append]; omega

theorem byteLen_take_lt {w : Str} {i j : Nat} (h : i < j) (hj : j ≤ w.length) :
    byteLen (w.take i) < byteLen (w.take j) := by
  have h1 : byteLen (w.take (i + 1)) ≤ byteLen (w.take j) := byteLen_take_le h
  have hi : i < w.length := by omega
  have h2 : w.take (i + 1) = w.take i ++ [w[i]] := by rw [List.take_succ, List.getElem?_eq_getElem hi]; rfl
  have h3 := utf8Size_pos' w[i]
  rw [h2, byteLen_append, byteLen_cons] at h1
  omega

theorem byteLen_take_le_iff {w : Str} {i j : Nat} (hi : i ≤ w.length) (hj : j ≤ w.length) :
    byteLen (w.take i) ≤ byteLen (w.take j) ↔ i ≤ j := by
  constructor
  · intro h
    rcases Nat.lt_or_ge j i with h' | h'
    · have := byteLen_take_lt h' hi; omega
    · exact h'
  · exact byteLen_take_le

theorem byteLen_take_inj {w : Str} {i j : Nat} (hi : i ≤ w.length) (hj : j ≤ w.length)
    (h : byteLen (w.take i) = byteLen (w.take j)) : i = j := by
  have h1 := (byteLen_take_le_iff hi hj).1 (by omega)
  have h2 := (byteLen_take_le_iff hj hi).1 (by omega)
  omega

theorem charBytes_eq (w : Str) : ∀ n, charBytes n w = (List.range w.length).map fun i => n + byteLen (w.take i) := by
  induction w with
  | nil => intro n; rfl
  | cons c w ih =>
    intro n
    rw [charBytes, ih, List.length_cons, List.range_succ_eq_map]
    simp [Nat.add_assoc]

theorem splitPoints_eq (word : Str) (start margin : Nat) :
    splitPoints word start margin
      = List.range' (start + margin) (word.length + 1 - margin - (start + margin)) := by
  unfold splitPoints
  obtain ⟨n, hn⟩ : ∃ n, word.length + 1 - margin - (start + margin) = n := ⟨_, rfl⟩
  rw [hn]
  by_cases h : word.length + 1 ≤ start + margin
  · rw [List.filter_eq_nil_iff.2]
    · rw [show n = 0 by omega]; rfl
    · intro a ha; rw [List.mem_range] at ha; simp; omega
  · obtain ⟨r, hr⟩ : ∃ r, word.length + 1 = start + margin + (n + r) :=
      ⟨word.length + 1 - (start + margin) - n, by omega⟩
    have e : List.range (word.length + 1) = List.range' 0 (start + margin) ++
        (List.range' (start + margin) n ++ List.range' (start + margin + n) r) := by
      rw [List.range'_append_1, List.range_eq_range', hr, ← List.range'_append_1, Nat.zero_add]
    rw [e, List.filter_append, List.filter_append, List.filter_eq_nil_iff.2, List.filter_eq_self.2,
      List.filter_eq_nil_iff.2]
    · simp
    · intro a ha; rw [List.mem_range'_1] at ha; simp; omega
    · intro a ha; rw [List.mem_range'_1] at ha; simp; omega
    · intro a ha; rw [List.mem_range'_1] at ha; simp; omega

theorem mem_splitPoints {word : Str} {start margin i : Nat} :
    i ∈ splitPoints word start margin ↔ start + margin ≤ i ∧ i + margin ≤ word.length := by
  unfold splitPoints
  simp only [List.mem_filter, List.mem_range, decide_eq_true_eq]
  omega

theorem takeWhile_append_stop {α : Type} {p : α → Bool} {l r : List α} (hl : ∀ a ∈ l, p a = true)
    (hr : ∀ a, r.head? = some a → p a = false) : (l ++ r).takeWhile p = l := by
  rw [List.takeWhile_append_of_pos hl]
  cases r with
  | nil => simp
  | cons a r => simp [List.takeWhile_cons, hr a rfl]

theorem back_takeWhile (w : Str) (k : Nat) (hk : 0 < k) (hkl : k ≤ w.length) :
    (charBytes 0 w).reverse.takeWhile (fun byte => decide (byteLen (w.take k) ≤ byte))
      = ((List.range' k (w.length - k)).map fun i => byteLen (w.take i)).reverse := by
  rw [charBytes_eq]
  have e : List.range w.length = List.range' 0 k ++ List.range' k (w.length - k) := by
    rw [List.range_eq_range']
    conv => lhs; rw [show w.length = k + (w.length - k) by omega]
    rw [← List.range'_append_1]; simp
  rw [e]
  simp only [Nat.zero_add, List.map_append, List.reverse_append]
  apply takeWhile_append_stop
  · intro a ha
    simp only [List.mem_reverse, List.mem_map, List.mem_range'_1] at ha
    obtain ⟨i, hi, rfl⟩ := ha
    rw [decide_eq_true_eq]
    exact byteLen_take_le hi.1
  · intro a ha
    obtain ⟨k, rfl⟩ : ∃ j, k = j + 1 := ⟨k - 1, by omega⟩
    rw [← List.range_eq_range', List.range_succ] at ha
    simp at ha
    subst ha
    rw [decide_eq_false_iff_not]
    have := byteLen_take_lt (show k < k + 1 by omega) hkl
    omega

theorem slice?_take (w : Str) {a b : Nat} (hab : a ≤ b) :
    slice? w (byteLen (w.take a)) (byteLen (w.take b)) = some ((w.take b).drop a) := by
  unfold slice?
  rw [if_pos (byteLen_take_le hab), sliceTo?_take]
  have : w.take a = (w.take b).take a := by rw [List.take_take, Nat.min_eq_left hab]
  rw [this]
  exact sliceFrom?_take _ _

theorem charBytes_slice (w : Str) {a b : Nat} (hab : a ≤ b) (hb : b ≤ w.length) :
    charBytes (byteLen (w.take a)) ((w.take b).drop a)
      = (List.range' a (b - a)).map fun i => byteLen (w.take i) := by
  rw [charBytes_eq, List.range'_eq_map_range, List.map_map]
  simp only [List.length_drop, List.length_take, Nat.min_eq_left hb]
  apply List.map_congr_left
  intro i hi
  rw [List.mem_range] at hi
  simp only [Function.comp]
  have : w.take (a + i) = w.take a ++ ((w.take b).drop a).take i := by
    rw [List.take_add]
    congr 1
    rw [List.take_drop, List.take_drop, List.take_take, Nat.min_eq_left (by omega)]
  rw [this, byteLen_append]

/-- The byte level `bytes_within` yields the byte offsets of exactly the character positions
`splitPoints`. -/
theorem bytesWithin_eq (word : Str) (start margin : Nat) (hs : start ≤ word.length) (hm : 0 < margin) :
    bytesWithin word (byteLen (word.take start)) margin
      = some ((splitPoints word start margin).map fun i => byteLen (word.take i)) := by
  rw [splitPoints_eq]
  unfold bytesWithin byteRange
  rw [sliceFrom?_take]
  simp only [Option.pure_def, Option.bind_eq_bind, Option.bind_some]
  rw [charBytes_eq]
  simp only [Nat.zero_add, List.getElem?_map]
  have hb : ∀ i, byteLen ((word.drop start).take i) + byteLen (word.take start)
      = byteLen (word.take (start + i)) := by
    intro i; rw [List.take_add, byteLen_append]; omega
  by_cases h1 : start + margin < word.length
  · rw [List.getElem?_range (by simp; omega)]
    simp only [Option.map_some, hb]
    by_cases hm1 : margin = 1
    · subst hm1
      simp only [↓reduceIte, Option.bind_some]
      have : byteLen word = byteLen (word.take word.length) := by rw [List.take_length]
      rw [this, slice?_take _ (by omega)]
      simp only [Option.bind_some]
      rw [charBytes_slice _ (by omega) (Nat.le_refl _)]
      congr 3
    · rw [if_neg hm1, back_takeWhile _ _ (by omega) (by omega), ← List.map_reverse, List.getElem?_map]
      by_cases h2 : margin - 2 < word.length - (start + margin)
      · rw [List.getElem?_reverse (by simpa using h2), List.getElem?_range' (by simp; omega)]
        simp only [Option.map_some, Option.bind_some, List.length_range', Nat.one_mul]
        rw [slice?_take _ (by omega)]
        simp only [Option.bind_some]
        rw [charBytes_slice _ (by omega) (by omega)]
        congr 3
        omega
      · rw [List.getElem?_eq_none (by simp; omega)]
        simp only [Option.map_none, Option.bind_some]
        rw [show word.length + 1 - margin - (start + margin) = 0 by omega]
        rfl
  · rw [List.getElem?_eq_none (by simp; omega)]
    simp only [Option.map_none, Option.bind_some]
    rw [show word.length + 1 - margin - (start + margin) = 0 by omega]
    rfl

end Spellbook
