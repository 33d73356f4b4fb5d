import Verif.Model.AffixIndex
import Verif.Proof.Utf8

namespace Spellbook

/-- Bytes in comparison order. -/
def cmpOrder (k : Kind) (b : List UInt8) : List UInt8 :=
  match k with
  | .pfx => b
  | .sfx => b.reverse

/-- The key of an affix in comparison order. -/
def Affix.key (k : Kind) (a : Affix) : List UInt8 := cmpOrder k a.appending

theorem cmpOrder_length (k : Kind) (b : List UInt8) : (cmpOrder k b).length = b.length := by
  cases k <;> simp [cmpOrder]

theorem cmpOrder_eq_nil {k : Kind} {b : List UInt8} : cmpOrder k b = [] ↔ b = [] := by
  cases k <;> simp [cmpOrder]

theorem nthByte_eq (k : Kind) (b : List UInt8) (i : Nat) : nthByte k b i = (cmpOrder k b)[i]? := by
  cases k with
  | pfx => rfl
  | sfx =>
    simp only [nthByte, cmpOrder]
    split
    · rename_i h
      rw [List.getElem?_reverse (by omega)]
      congr 1; omega
    · rename_i h
      rw [List.getElem?_eq_none (by simp; omega)]

theorem keyLe_eq (k : Kind) (a b : Affix) : keyLe k a.appending b.appending = bytesLe (a.key k) (b.key k) := by
  cases k <;> rfl

theorem bytesLe_refl (a : List UInt8) : bytesLe a a := by
  induction a with
  | nil => rfl
  | cons x xs ih => simp [bytesLe, ih]

theorem bytesLe_total (a b : List UInt8) : bytesLe a b ∨ bytesLe b a := by
  induction a generalizing b with
  | nil => simp [bytesLe]
  | cons x xs ih =>
    cases b with
    | nil => simp [bytesLe]
    | cons y ys =>
      by_cases h1 : x < y
      · simp [bytesLe, h1]
      · by_cases h2 : y < x
        · simp [bytesLe, h2]
        · have : x = y := by
            apply UInt8.le_antisymm
            · exact UInt8.not_lt.1 h2
            · exact UInt8.not_lt.1 h1
          subst this
          simpa [bytesLe] using ih ys

theorem bytesLe_trans {a b c : List UInt8} (h1 : bytesLe a b) (h2 : bytesLe b c) : bytesLe a c := by
  induction a generalizing b c with
  | nil => simp [bytesLe]
  | cons x xs ih =>
    match b, c with
    | [], _ => simp [bytesLe] at h1
    | _ :: _, [] => simp [bytesLe] at h2
    | y :: ys, z :: zs =>
      simp only [bytesLe] at h1 h2 ⊢
      split at h1
      · rename_i hxy
        split at h2
        · rename_i hyz
          simp [UInt8.lt_trans hxy hyz]
        · split at h2
          · subst y; simp [hxy]
          · simp at h2
      · split at h1
        · subst y
          split at h2
          · rename_i h; simp [h]
          · split at h2
            · subst z; simp [ih h1 h2]
            · simp at h2
        · simp at h1

/-- Comparison after a common beginning. -/
theorem bytesLe_getElem {a b : List UInt8} {m : Nat} (h : bytesLe a b) (hc : a.take m = b.take m) {x : UInt8}
    (ha : a[m]? = some x) : ∃ y, b[m]? = some y ∧ x ≤ y := by
  induction a generalizing b m with
  | nil => simp at ha
  | cons p ps ih =>
    cases b with
    | nil => simp [bytesLe] at h
    | cons q qs =>
      cases m with
      | zero =>
        simp only [List.getElem?_cons_zero, Option.some.injEq] at ha
        subst ha
        refine ⟨q, by simp, ?_⟩
        simp only [bytesLe] at h
        split at h
        · exact UInt8.le_of_lt ‹_›
        · split at h
          · subst q; exact UInt8.le_refl _
          · simp at h
      | succ m =>
        simp only [List.take_succ_cons, List.cons.injEq] at hc
        obtain ⟨rfl, hc⟩ := hc
        have h' : bytesLe ps qs := by simpa [bytesLe, UInt8.lt_irrefl] using h
        simpa using ih h' hc (by simpa using ha)

/-! ### `partition_point` -/

theorem partitionPointAux_eq {α : Type} {p : α → Bool} {l : List α} {n : Nat}
    (hn : ∀ i x, l[i]? = some x → (p x = true ↔ i < n)) :
    ∀ {fuel lo hi}, lo ≤ n → n ≤ hi → hi ≤ l.length → hi - lo ≤ fuel →
      partitionPointAux p l fuel lo hi = n := by
  intro fuel
  induction fuel with
  | zero => intro lo hi h1 h2 h3 h4; simp only [partitionPointAux]; omega
  | succ fuel ih =>
    intro lo hi h1 h2 h3 h4
    unfold partitionPointAux
    split
    · rename_i hlt
      have hm : (lo + hi) / 2 < l.length := by omega
      have hx := List.getElem?_eq_getElem hm
      simp only [hx, Option.any_some]
      have := hn _ _ hx
      split
      · rename_i hp
        have := this.1 hp
        exact ih (by omega) h2 h3 (by omega)
      · rename_i hp
        have : ¬ (lo + hi) / 2 < n := fun h => hp (this.2 h)
        exact ih h1 (by omega) (by omega) (by omega)
    · omega

theorem antitone_takeWhile {α : Type} {p : α → Bool} {l : List α}
    (h : l.Pairwise fun x y => p y = true → p x = true) :
    l.takeWhile p = l.filter p ∧ l.dropWhile p = l.filter (fun x => !p x) := by
  induction l with
  | nil => simp
  | cons a l ih =>
    rw [List.pairwise_cons] at h
    by_cases hp : p a = true
    · simp [hp, ih h.2]
    · have hf : ∀ x ∈ l, p x = false := by
        intro x hx
        rw [Bool.eq_false_iff]
        exact fun hx' => hp (h.1 x hx hx')
      simp only [Bool.not_eq_true] at hp
      simp only [List.takeWhile_cons, hp, List.dropWhile_cons, List.filter_cons]
      constructor
      · simp; exact hf
      · simp only [Bool.false_eq_true, ↓reduceIte, Bool.not_false, List.cons.injEq, true_and]
        symm
        rw [List.filter_eq_self]
        intro x hx
        simp [hf x hx]

theorem partitionPoint_eq {α : Type} {p : α → Bool} {l : List α}
    (h : l.Pairwise fun x y => p y = true → p x = true) :
    partitionPoint p l = (l.filter p).length := by
  have hk := antitone_takeWhile h
  have hsplit : l = l.filter p ++ l.filter (fun x => !p x) := by
    conv => lhs; rw [← List.takeWhile_append_dropWhile (p := p) (l := l), hk.1, hk.2]
  apply partitionPointAux_eq
  · intro i x hx
    rw [hsplit, List.getElem?_append] at hx
    split at hx
    · rename_i hi
      obtain ⟨_, hx⟩ := List.getElem?_eq_some_iff.1 hx
      have := List.getElem_mem hi
      rw [hx, List.mem_filter] at this
      simp [this.2, hi]
    · rename_i hi
      have := List.mem_of_getElem? hx
      simp only [List.mem_filter, Bool.not_eq_true'] at this
      simp [this.2, hi]
  · omega
  · exact List.length_filter_le _ _
  · omega
  · omega

theorem take_partitionPoint {α : Type} {p : α → Bool} {l : List α}
    (h : l.Pairwise fun x y => p y = true → p x = true) :
    l.take (partitionPoint p l) = l.filter p := by
  have hk := antitone_takeWhile h
  have hsplit : l = l.filter p ++ l.filter (fun x => !p x) := by
    conv => lhs; rw [← List.takeWhile_append_dropWhile (p := p) (l := l), hk.1, hk.2]
  rw [partitionPoint_eq h]
  conv => lhs; arg 2; rw [hsplit]
  simp

theorem drop_partitionPoint {α : Type} {p : α → Bool} {l : List α}
    (h : l.Pairwise fun x y => p y = true → p x = true) :
    l.drop (partitionPoint p l) = l.filter (fun x => !p x) := by
  have hk := antitone_takeWhile h
  have hsplit : l = l.filter p ++ l.filter (fun x => !p x) := by
    conv => lhs; rw [← List.takeWhile_append_dropWhile (p := p) (l := l), hk.1, hk.2]
  rw [partitionPoint_eq h]
  conv => lhs; arg 2; rw [hsplit]
  simp

/-! ### The first-byte tables -/

/-- First byte of the key. -/
def Affix.first (k : Kind) (a : Affix) : Option UInt8 := (a.key k)[0]?

abbrev KeySorted (k : Kind) (l : List Affix) : Prop :=
  l.Pairwise fun a b => bytesLe (a.key k) (b.key k) = true

theorem first_mono {k : Kind} {a b : Affix} (h : bytesLe (a.key k) (b.key k) = true) {x : UInt8}
    (ha : a.first k = some x) : ∃ y, b.first k = some y ∧ x ≤ y :=
  bytesLe_getElem h (by simp) ha

theorem positionAbove_spec {k : Kind} {byte : UInt8} {l : List Affix} (hs : KeySorted k l)
    (hne : ∀ a ∈ l, ∃ b, a.first k = some b ∧ byte ≤ b) :
    (positionAbove k byte l = some none ∧ ∀ a ∈ l, a.first k = some byte) ∨
    ∃ n l1 l2, positionAbove k byte l = some (some n) ∧ l = l1 ++ l2 ∧ l1.length = n ∧ l2 ≠ [] ∧
      (∀ a ∈ l1, a.first k = some byte) ∧ (∀ a ∈ l2, ∃ b, a.first k = some b ∧ byte < b) := by
  induction l with
  | nil => simp [positionAbove]
  | cons a l ih =>
    rw [KeySorted, List.pairwise_cons] at hs
    obtain ⟨b, hb, hle⟩ := hne a (by simp)
    have hb' : nthByte k a.appending 0 = some b := by rw [nthByte_eq]; exact hb
    by_cases hgt : byte < b
    · right
      refine ⟨0, [], a :: l, ?_, rfl, rfl, by simp, by simp, ?_⟩
      · simp [positionAbove, hb', hgt]
      · intro c hc
        rcases List.mem_cons.1 hc with rfl | hc
        · exact ⟨b, hb, hgt⟩
        · obtain ⟨y, hy, hxy⟩ := first_mono (hs.1 c hc) hb
          exact ⟨y, hy, UInt8.lt_of_lt_of_le hgt hxy⟩
    · have hbe : b = byte := UInt8.le_antisymm (UInt8.not_lt.1 hgt) hle
      subst hbe
      rcases ih hs.2 (fun c hc => hne c (by simp [hc])) with ⟨h1, h2⟩ | ⟨n, l1, l2, h1, h2, h3, h4, h5, h6⟩
      · left
        refine ⟨by simp [positionAbove, hb', h1], ?_⟩
        intro c hc
        rcases List.mem_cons.1 hc with rfl | hc
        · exact hb
        · exact h2 c hc
      · right
        refine ⟨n + 1, a :: l1, l2, by simp [positionAbove, hb', h1], by simp [h2], by simp [h3], h4, ?_, h6⟩
        intro c hc
        rcases List.mem_cons.1 hc with rfl | hc
        · exact hb
        · exact h5 c hc

/-- What the tables `fb`, `pi` (with end marker) say about a sorted list `l` whose first element
has index `off`. -/
def GroupSpec (k : Kind) (b : UInt8) (fb : List UInt8) (pi : List Nat) (l : List Affix) (off : Nat) : Prop :=
  match fb.findIdx? (· == b) with
  | some j => ∃ s e, pi[j]? = some (off + s) ∧ pi[j + 1]? = some (off + e) ∧ s ≤ e ∧ e ≤ l.length ∧
      (l.take e).drop s = l.filter (fun a => a.first k == some b)
  | none => l.filter (fun a => a.first k == some b) = []

theorem firstLoop_spec {k : Kind} {table : List Affix} :
    ∀ {fuel idx fb pi}, KeySorted k (table.drop idx) → (∀ a ∈ table.drop idx, a.add ≠ []) →
      table.length - idx < fuel → idx ≤ table.length →
      ∃ fb' pi', firstLoop k table fuel idx fb pi = some (fb ++ fb', pi ++ pi') ∧
        (pi' ++ [table.length])[0]? = some idx ∧
        ∀ b, GroupSpec k b fb' (pi' ++ [table.length]) (table.drop idx) idx := by
  intro fuel
  induction fuel with
  | zero => intro idx fb pi _ _ h; omega
  | succ fuel ih =>
    intro idx fb pi hs hne hf hidx
    unfold firstLoop
    split
    · rename_i hlt
      obtain ⟨a, ha⟩ : ∃ a, table[idx]? = some a := ⟨_, List.getElem?_eq_getElem hlt⟩
      have hfirst : ∀ a ∈ table.drop idx, ∃ b, a.first k = some b := by
        intro a ha
        have h1 : a.key k ≠ [] := by
          rw [Affix.key, ne_eq, cmpOrder_eq_nil, Affix.appending, utf8_eq_nil]
          exact hne a ha
        cases hk : a.key k with
        | nil => exact absurd hk h1
        | cons x xs => exact ⟨x, by simp [Affix.first, hk]⟩
      have hdrop : table.drop idx = a :: table.drop (idx + 1) := by
        rw [List.drop_eq_getElem_cons hlt]
        have := (List.getElem?_eq_some_iff.1 ha).2
        rw [this]
      obtain ⟨byte, hbyte⟩ := hfirst a (by rw [hdrop]; simp)
      have hbyte' : nthByte k a.appending 0 = some byte := by rw [nthByte_eq]; exact hbyte
      have hall : ∀ c ∈ table.drop idx, ∃ b, c.first k = some b ∧ byte ≤ b := by
        intro c hc
        rw [hdrop] at hc
        rcases List.mem_cons.1 hc with rfl | hc'
        · exact ⟨byte, hbyte, UInt8.le_refl _⟩
        · rw [hdrop, KeySorted, List.pairwise_cons] at hs
          exact first_mono (hs.1 c hc') hbyte
      rcases positionAbove_spec hs hall with ⟨h1, h2⟩ | ⟨n, l1, l2, h1, h2, h3, h4, h5, h6⟩
      · refine ⟨[byte], [idx], by simp [ha, hbyte', h1], by simp, ?_⟩
        intro b
        unfold GroupSpec
        by_cases hb : byte = b
        · subst hb
          simp only [List.findIdx?_cons, beq_self_eq_true, ↓reduceIte]
          refine ⟨0, (table.drop idx).length, by simp, ?_, by omega, by omega, ?_⟩
          · simp; omega
          · simp only [List.take_length, List.drop_zero]
            symm
            rw [List.filter_eq_self]
            intro c hc; simp [h2 c hc]
        · have hb' : (byte == b) = false := by simpa using hb
          simp only [List.findIdx?_cons, hb', Bool.false_eq_true, ↓reduceIte, List.findIdx?_nil,
            Option.map_none]
          rw [List.filter_eq_nil_iff]
          intro c hc
          simp [h2 c hc, hb]
      · have hn : 0 < n := by
          rw [← h3]
          cases l1 with
          | nil =>
            simp only [List.nil_append] at h2
            rw [hdrop] at h2
            obtain ⟨b, hb, hlt'⟩ := h6 a (by rw [← h2]; simp)
            rw [hbyte] at hb
            simp only [Option.some.injEq] at hb
            subst hb
            exact absurd hlt' (UInt8.lt_irrefl _)
          | cons => simp
        have hl2 : table.drop (idx + n) = l2 := by
          rw [← List.drop_drop, h2, ← h3]; simp
        have hlen : idx + n ≤ table.length := by
          have := congrArg List.length h2
          simp at this
          omega
        obtain ⟨fb', pi', e1, e2, e3⟩ := ih (idx := idx + n) (fb := fb ++ [byte]) (pi := pi ++ [idx])
          (by rw [hl2]; rw [KeySorted, h2, List.pairwise_append] at hs; exact hs.2.1)
          (by rw [hl2]; intro c hc; exact hne c (by rw [h2]; simp [hc])) (by omega) hlen
        refine ⟨byte :: fb', idx :: pi', by simp [ha, hbyte', h1, e1], by simp, ?_⟩
        intro b
        unfold GroupSpec
        by_cases hb : byte = b
        · subst hb
          simp only [List.findIdx?_cons, beq_self_eq_true, ↓reduceIte]
          refine ⟨0, n, by simp, ?_, by omega, ?_, ?_⟩
          · simpa using e2
          · rw [h2]; simp; omega
          · rw [h2, List.drop_zero, ← h3, List.filter_append]
            have a1 : l1.filter (fun a => a.first k == some byte) = l1 := by
              rw [List.filter_eq_self]; intro c hc; simp [h5 c hc]
            have a2 : l2.filter (fun a => a.first k == some byte) = [] := by
              rw [List.filter_eq_nil_iff]
              intro c hc
              obtain ⟨b, hb, hlt'⟩ := h6 c hc
              simp only [hb, beq_iff_eq, Option.some.injEq]
              rintro rfl
              exact UInt8.lt_irrefl _ hlt'
            rw [a1, a2]; simp
        · have hb' : (byte == b) = false := by simpa using hb
          simp only [List.findIdx?_cons, hb', Bool.false_eq_true, ↓reduceIte]
          have a1 : l1.filter (fun a => a.first k == some b) = [] := by
            rw [List.filter_eq_nil_iff]; intro c hc; simp [h5 c hc, hb]
          have := e3 b
          unfold GroupSpec at this
          cases hj : fb'.findIdx? (· == b) with
          | none =>
            rw [hj] at this
            simp only [Option.map_none]
            rw [h2, List.filter_append, a1, ← hl2]
            simpa using this
          | some j =>
            rw [hj] at this
            obtain ⟨s, e, f1, f2, f3, f4, f5⟩ := this
            simp only [Option.map_some]
            rw [hl2] at f4 f5
            refine ⟨n + s, n + e, ?_, ?_, by omega, ?_, ?_⟩
            · simp only [List.cons_append, List.getElem?_cons_succ]
              rw [f1]; congr 1; omega
            · simp only [List.cons_append, List.getElem?_cons_succ]
              rw [f2]; congr 1; omega
            · rw [h2]; simp; omega
            · rw [h2, List.filter_append, a1, List.nil_append, ← f5, ← h3]
              simp [List.take_append, List.drop_append]
    · rename_i hge
      have : table.drop idx = [] := List.drop_eq_nil_of_le (by omega)
      refine ⟨[], [], by simp, by simp; omega, ?_⟩
      intro b
      simp [GroupSpec, this]

/-! ### Iteration -/

theorem isPrefixOf_take {a b : List UInt8} {m : Nat} (h : a.isPrefixOf b = true) (hm : m ≤ a.length) :
    a.take m = b.take m := by
  rw [List.isPrefixOf_iff_prefix] at h
  obtain ⟨t, rfl⟩ := h
  simp [List.take_append, Nat.sub_eq_zero_of_le hm]

theorem key_length (k : Kind) (a : Affix) : (a.key k).length = a.appending.length := by
  rw [Affix.key, cmpOrder_length]

namespace AffixIndex

/-- Draining the second phase of the iterator. -/
def drain (k : Kind) (word : List UInt8) : Nat → List Affix → Nat → Option (List Affix)
  | 0, _, _ => none
  | fuel + 1, table, matched =>
    match nextLoop k word table matched with
    | none => some []
    | some (a, table, matched) => (drain k word fuel table matched).map (a :: ·)

theorem nextLoop_cons {k : Kind} {word : List UInt8} {item : Affix} {rest : List Affix} {m : Nat} :
    nextLoop k word (item :: rest) m =
      if item.appending.length = m then some (item, rest, m)
      else
        match nthByte k word m with
        | none => none
        | some byte =>
          let start := partitionPoint (nthBelow k m byte) (item :: rest)
          let stop := partitionPoint (nthAtMost k m byte) (item :: rest)
          if start = stop then none
          else nextLoop k word (((item :: rest).take stop).drop start) (m + 1) := by
  rw [nextLoop]
  split
  · rfl
  · split <;> simp_all

theorem drain_spec {k : Kind} {word : List UInt8} :
    ∀ {fuel : Nat} {l : List Affix} {m : Nat}, KeySorted k l → l.length < fuel →
      m ≤ (cmpOrder k word).length →
      (∀ a ∈ l, m ≤ (a.key k).length ∧ (a.key k).take m = (cmpOrder k word).take m) →
      drain k word fuel l m = some (l.filter fun a => (a.key k).isPrefixOf (cmpOrder k word)) := by
  intro fuel
  induction fuel with
  | zero => intro l m _ h; omega
  | succ fuel ih =>
    intro l m
    -- inner induction on the number of bytes left
    induction hd : (cmpOrder k word).length - m using Nat.strongRecOn generalizing l m with
    | ind d ihd =>
      intro hs hf hm hc
      unfold drain
      match l, hs, hf, hc with
      | [], _, _, _ => simp [nextLoop]
      | item :: rest, hs, hf, hc =>
        rw [nextLoop_cons]
        by_cases hlen : item.appending.length = m
        · simp only [hlen, ↓reduceIte]
          rw [KeySorted, List.pairwise_cons] at hs
          rw [ih hs.2 (by simpa using hf) hm (fun a ha => hc a (by simp [ha]))]
          have : (item.key k).isPrefixOf (cmpOrder k word) = true := by
            rw [List.isPrefixOf_iff_prefix]
            have h1 := (hc item (by simp)).2
            rw [List.take_of_length_le (by rw [key_length]; omega)] at h1
            rw [h1]; exact List.take_prefix _ _
          simp [this]
        · simp only [hlen, ↓reduceIte]
          have hitem : m < (item.key k).length := by
            have := (hc item (by simp)).1
            rw [key_length] at this ⊢; omega
          have hall : ∀ a ∈ item :: rest, m < (a.key k).length := by
            intro a ha
            rcases List.mem_cons.1 ha with rfl | ha'
            · exact hitem
            · rw [KeySorted, List.pairwise_cons] at hs
              obtain ⟨y, hy, _⟩ := bytesLe_getElem (m := m) (hs.1 a ha')
                ((hc item (by simp)).2.trans (hc a ha).2.symm)
                (List.getElem?_eq_getElem hitem)
              exact (List.getElem?_eq_some_iff.1 hy).1
          rcases hb : nthByte k word m with _ | byte
          · -- the word is used up
            rw [nthByte_eq] at hb
            have hw : (cmpOrder k word).length ≤ m := List.getElem?_eq_none_iff.1 hb
            have : (item :: rest).filter (fun a => (a.key k).isPrefixOf (cmpOrder k word)) = [] := by
              rw [List.filter_eq_nil_iff]
              intro a ha hp
              rw [List.isPrefixOf_iff_prefix] at hp
              have := hp.length_le
              have := hall a ha
              omega
            simp only [this]
          · rw [nthByte_eq] at hb
            have hmw : m < (cmpOrder k word).length := (List.getElem?_eq_some_iff.1 hb).1
            -- the partition predicates
            have hnth : ∀ a ∈ item :: rest, ∃ x, nthByte k a.appending m = some x := by
              intro a ha
              rw [nthByte_eq]
              exact ⟨_, List.getElem?_eq_getElem (hall a ha)⟩
            have hmono : (item :: rest).Pairwise fun a b => ∀ x y,
                nthByte k a.appending m = some x → nthByte k b.appending m = some y → x ≤ y := by
              refine List.Pairwise.imp_of_mem ?_ hs
              intro a b ha hb' hab x y hx hy
              rw [nthByte_eq] at hx hy
              obtain ⟨y', hy', hle⟩ := bytesLe_getElem (m := m) hab
                ((hc a ha).2.trans (hc b hb').2.symm) hx
              have : some y' = some y := hy'.symm.trans hy
              simp only [Option.some.injEq] at this
              subst this
              exact hle
            generalize hlt : nthBelow k m byte = lt
            generalize hle : nthAtMost k m byte = le
            have alt : (item :: rest).Pairwise fun a b => lt b = true → lt a = true := by
              refine List.Pairwise.imp_of_mem ?_ hmono
              intro a b ha hb' hab
              obtain ⟨x, hx⟩ := hnth a ha
              obtain ⟨y, hy⟩ := hnth b hb'
              subst hlt
              simp only [nthBelow, hx, hy, decide_eq_true_eq]
              intro h
              exact UInt8.lt_of_le_of_lt (hab x y hx hy) h
            have ale : (item :: rest).Pairwise fun a b => le b = true → le a = true := by
              refine List.Pairwise.imp_of_mem ?_ hmono
              intro a b ha hb' hab
              obtain ⟨x, hx⟩ := hnth a ha
              obtain ⟨y, hy⟩ := hnth b hb'
              subst hle
              simp only [nthAtMost, hx, hy, decide_eq_true_eq]
              intro h
              exact UInt8.le_trans (hab x y hx hy) h
            have hcut : ((item :: rest).take (partitionPoint le (item :: rest))).drop
                (partitionPoint lt (item :: rest))
                = (item :: rest).filter (fun a => nthByte k a.appending m == some byte) := by
              rw [take_partitionPoint ale]
              have h1 : partitionPoint lt (item :: rest) =
                  partitionPoint lt ((item :: rest).filter le) := by
                rw [partitionPoint_eq alt, partitionPoint_eq (List.Pairwise.filter _ alt),
                  List.filter_filter]
                congr 1
                apply List.filter_congr
                intro a ha
                obtain ⟨x, hx⟩ := hnth a ha
                subst hlt hle
                simp only [nthBelow, nthAtMost, hx]
                by_cases h : x < byte
                · simp [h, UInt8.le_of_lt h]
                · simp [h]
              rw [h1, drop_partitionPoint (List.Pairwise.filter _ alt), List.filter_filter]
              apply List.filter_congr
              intro a ha
              obtain ⟨x, hx⟩ := hnth a ha
              subst hlt hle
              simp only [nthBelow, nthAtMost, hx]
              by_cases h : x = byte
              · subst h; simp [UInt8.lt_irrefl]
              · have h3 : (some x == some byte) = false := by simpa using h
                rw [h3]
                by_cases h4 : x < byte
                · simp [h4]
                · have h5 : ¬ x ≤ byte := fun h5 => h (UInt8.le_antisymm h5 (UInt8.not_lt.1 h4))
                  simp [h5]
            have hfilter : (item :: rest).filter (fun a => (a.key k).isPrefixOf (cmpOrder k word))
                = ((item :: rest).filter (fun a => nthByte k a.appending m == some byte)).filter
                    (fun a => (a.key k).isPrefixOf (cmpOrder k word)) := by
              rw [List.filter_filter]
              apply List.filter_congr
              intro a ha
              by_cases hp : (a.key k).isPrefixOf (cmpOrder k word) = true
              · rw [hp]
                have : nthByte k a.appending m = some byte := by
                  rw [nthByte_eq]
                  rw [List.isPrefixOf_iff_prefix] at hp
                  obtain ⟨t, ht⟩ := hp
                  rw [← ht, List.getElem?_append_left (hall a ha)] at hb
                  exact hb
                simp [this]
              · simp [hp]
            simp only [hlt, hle]
            by_cases hse : partitionPoint lt (item :: rest) = partitionPoint le (item :: rest)
            · have : (item :: rest).filter (fun a => nthByte k a.appending m == some byte) = [] := by
                rw [← hcut, ← hse]; simp
              rw [hfilter, this]; simp [hse]
            · have hrec := @ihd ((cmpOrder k word).length - (m + 1)) (by omega)
                ((item :: rest).filter (fun a => nthByte k a.appending m == some byte))
                (m + 1) rfl (List.Pairwise.filter _ hs)
                (Nat.lt_of_le_of_lt (List.length_filter_le _ _) hf) (by omega)
                (by
                  intro a ha
                  rw [List.mem_filter] at ha
                  have h1 := hall a ha.1
                  refine ⟨h1, ?_⟩
                  have h2 : (a.key k)[m]? = some byte := by
                    have := ha.2
                    rw [nthByte_eq] at this
                    simpa [Affix.key] using this
                  rw [List.take_add_one, List.take_add_one, (hc a ha.1).2, h2, hb])
              rw [if_neg hse, hcut, hfilter, ← hrec]
              rw [drain]

theorem nextLoop_matched {k : Kind} {word : List UInt8} {l l' : List Affix} {m m' : Nat} {a : Affix}
    (h : nextLoop k word l m = some (a, l', m')) : m ≤ m' := by
  fun_induction nextLoop k word l m with
  | case1 => simp at h
  | case2 => simp at h; omega
  | case3 => simp at h
  | case4 => simp at h
  | case5 _ _ _ _ _ _ _ _ _ ih => have := ih h; omega

theorem collect_pos {k : Kind} {fb : List UInt8} {pi : List Nat} {word : List UInt8} :
    ∀ {fuel : Nat} {l : List Affix} {m : Nat}, 0 < m →
      collect k fb pi word fuel l m = drain k word fuel l m := by
  intro fuel
  induction fuel with
  | zero => intros; rfl
  | succ fuel ih =>
    intro l m hm
    have hm' : m ≠ 0 := by omega
    simp only [collect, drain, next, hm', ↓reduceIte]
    cases hn : nextLoop k word l m with
    | none => rfl
    | some r =>
      obtain ⟨a, l', m'⟩ := r
      have := nextLoop_matched hn
      simp only [Option.bind_eq_bind, Option.bind_some]
      rw [ih (by omega)]
      cases drain k word fuel l' m' <;> rfl

/-- A collection started in the second phase by `next`. -/
theorem collect_of_next {k : Kind} {fb : List UInt8} {pi : List Nat} {word : List UInt8} {fuel : Nat}
    {l l' : List Affix} (h : next k fb pi word l 0 = some (nextLoop k word l' 1)) :
    collect k fb pi word (fuel + 1) l 0 = drain k word (fuel + 1) l' 1 := by
  rw [← collect_pos (fb := fb) (pi := pi) (by omega : 0 < 1)]
  rw [collect, collect, h]
  simp [next]

theorem collect_empties {k : Kind} {fb : List UInt8} {pi : List Nat} {word : List UInt8} {R : List Affix} :
    ∀ {E : List Affix} {fuel : Nat}, (∀ a ∈ E, a.add = []) →
      collect k fb pi word (fuel + E.length) (E ++ R) 0 = (collect k fb pi word fuel R 0).map (E ++ ·) := by
  intro E
  induction E with
  | nil => intro fuel _; simp
  | cons a E ih =>
    intro fuel h
    have ha : a.add = [] := h a (by simp)
    have := ih (fuel := fuel) (fun b hb => h b (by simp [hb]))
    simp only [List.length_cons, ← Nat.add_assoc, List.cons_append, collect, next, ha,
      List.isEmpty_nil, Bool.not_true, Bool.false_eq_true, ↓reduceIte, Option.bind_eq_bind,
      Option.bind_some, this]
    cases collect k fb pi word fuel R 0 <;> rfl

/-- The whole lookup, on keys. -/
theorem affixesOf?_key {k : Kind} (idx : AffixIndex k) (word : Str) :
    idx.affixesOf? word =
      some (idx.table.filter fun a => (a.key k).isPrefixOf (cmpOrder k (utf8 word))) := by
  have hs : KeySorted k idx.table := by
    refine List.Pairwise.imp ?_ idx.sorted
    intro a b h; rw [← keyLe_eq]; exact h
  have hanti : idx.table.Pairwise fun x y : Affix => y.appending.isEmpty = true → x.appending.isEmpty = true := by
    refine List.Pairwise.imp ?_ hs
    intro a b h hb
    have hb' : b.key k = [] := by
      rw [Affix.key, cmpOrder_eq_nil]; simpa using hb
    rw [hb'] at h
    have ha' : a.key k = [] := by
      cases hk : a.key k with
      | nil => rfl
      | cons x xs => simp [hk, bytesLe] at h
    rw [Affix.key, cmpOrder_eq_nil] at ha'
    simp [ha']
  have hE : ∀ a ∈ idx.table.filter (fun a : Affix => a.appending.isEmpty), a.add = [] := by
    intro a ha
    have := (List.mem_filter.1 ha).2
    simpa [Affix.appending] using this
  have hR : ∀ a ∈ idx.table.filter (fun a : Affix => !a.appending.isEmpty), a.add ≠ [] := by
    intro a ha h
    have := (List.mem_filter.1 ha).2
    simp [Affix.appending, h] at this
  have hdropR := drop_partitionPoint hanti
  have hppE := partitionPoint_eq hanti
  have hsplit : idx.table = idx.table.filter (fun a : Affix => a.appending.isEmpty)
      ++ idx.table.filter (fun a : Affix => !a.appending.isEmpty) := by
    conv => lhs; rw [← List.take_append_drop (partitionPoint (fun a : Affix => a.appending.isEmpty) idx.table) idx.table,
      hdropR, take_partitionPoint hanti]
  generalize hE' : idx.table.filter (fun a : Affix => a.appending.isEmpty) = E at *
  generalize hR' : idx.table.filter (fun a : Affix => !a.appending.isEmpty) = R at *
  have hsR : KeySorted k R := by rw [← hR']; exact List.Pairwise.filter _ hs
  obtain ⟨fb, pi, h1, h2, h3⟩ := firstLoop_spec (k := k) (table := idx.table) (fuel := idx.table.length + 1)
    (idx := E.length) (fb := []) (pi := [])
    (by rw [← hppE, hdropR]; exact hsR) (by rw [← hppE, hdropR]; exact hR) (by omega)
    (by rw [hsplit]; simp)
  rw [← hppE, hdropR] at h3
  rw [hppE] at h3
  have hfirst : firstTables k idx.table = some (fb, pi ++ [idx.table.length]) := by
    simp only [firstTables, hppE, h1]; rfl
  simp only [affixesOf?, hfirst, Option.bind_eq_bind, Option.bind_some]
  have hfuel : idx.table.length + 1 = (R.length + 1) + E.length := by
    rw [hsplit]; simp; omega
  rw [hfuel]
  generalize hPI : pi ++ [idx.table.length] = PI at *
  rw [hsplit, collect_empties hE, List.filter_append]
  have hfE : E.filter (fun a => (a.key k).isPrefixOf (cmpOrder k (utf8 word))) = E := by
    rw [List.filter_eq_self]
    intro a ha
    have : a.key k = [] := by rw [Affix.key, cmpOrder_eq_nil, Affix.appending, hE a ha]; rfl
    simp [this]
  rw [hfE]
  suffices hRc : collect k fb PI (utf8 word) (R.length + 1) R 0
      = some (R.filter fun a => (a.key k).isPrefixOf (cmpOrder k (utf8 word))) by rw [hRc]; rfl
  have hkey : ∀ a ∈ R, ∃ x, (a.key k)[0]? = some x := by
    intro a ha
    have h1 : a.key k ≠ [] := by
      rw [Affix.key, ne_eq, cmpOrder_eq_nil, Affix.appending, utf8_eq_nil]
      exact hR a ha
    cases hk : a.key k with
    | nil => exact absurd hk h1
    | cons x xs => exact ⟨x, by simp⟩
  match hRm : R with
  | [] => rfl
  | item :: rest =>
    have hitem : item.add.isEmpty = false := by
      have := hR item (by simp)
      cases h : item.add <;> simp_all
    rcases hb : nthByte k (utf8 word) 0 with _ | byte
    · -- empty word
      have : (item :: rest).filter (fun a => (a.key k).isPrefixOf (cmpOrder k (utf8 word))) = [] := by
        rw [nthByte_eq, List.getElem?_eq_none_iff] at hb
        have hb : cmpOrder k (utf8 word) = [] := List.length_eq_zero_iff.1 (by omega)
        rw [List.filter_eq_nil_iff, hb]
        intro a ha hp
        obtain ⟨x, hx⟩ := hkey a ha
        rw [List.isPrefixOf_iff_prefix, List.prefix_nil] at hp
        rw [hp] at hx
        simp at hx
      rw [this]
      simp [collect, next, hitem, hb]
    · have hspec := h3 byte
      have hfil : (item :: rest).filter (fun a => (a.key k).isPrefixOf (cmpOrder k (utf8 word)))
          = ((item :: rest).filter (fun a => a.first k == some byte)).filter
              (fun a => (a.key k).isPrefixOf (cmpOrder k (utf8 word))) := by
        rw [List.filter_filter]
        apply List.filter_congr
        intro a ha
        by_cases hp : (a.key k).isPrefixOf (cmpOrder k (utf8 word)) = true
        · rw [hp]
          have : a.first k = some byte := by
            obtain ⟨x, hx⟩ := hkey a ha
            have hlen := (List.getElem?_eq_some_iff.1 hx).1
            rw [nthByte_eq] at hb
            rw [List.isPrefixOf_iff_prefix] at hp
            obtain ⟨t, ht⟩ := hp
            rw [← ht, List.getElem?_append_left hlen] at hb
            exact hb
          simp [this]
        · simp [hp]
      unfold GroupSpec at hspec
      rcases hj : fb.findIdx? (· == byte) with _ | j
      · rw [hj] at hspec
        dsimp only at hspec
        rw [hfil, hspec]
        simp [collect, next, hitem, hb, hj]
      · rw [hj] at hspec
        obtain ⟨st, e, f1, f2, f3, f4, f5⟩ := hspec
        rw [collect_of_next (l' := (item :: rest).filter (fun a => a.first k == some byte))]
        · rw [hfil]
          rw [nthByte_eq] at hb
          refine drain_spec (List.Pairwise.filter _ hsR)
            (Nat.lt_succ_of_le (List.length_filter_le _ _)) (List.getElem?_eq_some_iff.1 hb).1 ?_
          intro a ha
          rw [List.mem_filter] at ha
          have hx : (a.key k)[0]? = some byte := by
            have := ha.2
            simpa [Affix.first] using this
          refine ⟨(List.getElem?_eq_some_iff.1 hx).1, ?_⟩
          rw [List.take_add_one, List.take_add_one, hx, hb]; simp
        · rw [← f5]
          have hcond : E.length ≤ E.length + st ∧ E.length + st ≤ E.length + e ∧
              E.length + e - E.length ≤ (item :: rest).length := ⟨by omega, by omega, by omega⟩
          simp only [next, ↓reduceIte, hitem, Bool.not_false, hb, hj, h2, f1, f2,
            Option.bind_eq_bind, Option.bind_some, if_pos hcond]
          simp

/-- The text condition under which an affix may be removed from a word. -/
def _root_.Spellbook.Affix.addMatches (k : Kind) (a : Affix) (word : Str) : Bool :=
  match k with
  | .pfx => a.add.isPrefixOf word
  | .sfx => a.add.isSuffixOf word

theorem key_isPrefixOf {k : Kind} {a : Affix} {word : Str} :
    (a.key k).isPrefixOf (cmpOrder k (utf8 word)) = a.addMatches k word := by
  rw [Bool.eq_iff_iff, List.isPrefixOf_iff_prefix]
  cases k with
  | pfx =>
    simp only [Affix.key, cmpOrder, Affix.appending, Affix.addMatches, List.isPrefixOf_iff_prefix]
    exact utf8_prefix_iff
  | sfx =>
    simp only [Affix.key, cmpOrder, Affix.appending, Affix.addMatches, List.reverse_prefix,
      List.isSuffixOf_iff_suffix]
    exact utf8_suffix_iff

theorem affixesOf?_eq {k : Kind} (idx : AffixIndex k) (word : Str) :
    idx.affixesOf? word = some (idx.table.filter fun a => a.addMatches k word) := by
  rw [affixesOf?_key]
  simp only [key_isPrefixOf]

theorem affixesOf_eq {k : Kind} (idx : AffixIndex k) (word : Str) :
    idx.affixesOf word = idx.table.filter fun a => a.addMatches k word := by
  rw [affixesOf, affixesOf?_eq]; rfl

theorem mem_affixesOf {k : Kind} {idx : AffixIndex k} {word : Str} {a : Affix} :
    a ∈ idx.affixesOf word ↔ a ∈ idx.table ∧ a.addMatches k word = true := by
  rw [affixesOf_eq, List.mem_filter]

end AffixIndex

/-! ### Sorting -/

theorem insertAffix_perm (k : Kind) (a : Affix) (l : List Affix) : (insertAffix k a l).Perm (a :: l) := by
  induction l with
  | nil => exact List.Perm.refl _
  | cons b l ih =>
    unfold insertAffix
    split
    · exact List.Perm.refl _
    · exact (List.Perm.cons b ih).trans (List.Perm.swap a b l)

theorem sortAffixes_perm (k : Kind) (l : List Affix) : (sortAffixes k l).Perm l := by
  induction l with
  | nil => exact List.Perm.refl _
  | cons a l ih => exact (insertAffix_perm k a _).trans (List.Perm.cons a ih)

theorem insertAffix_sorted (k : Kind) (a : Affix) (l : List Affix)
    (h : l.Pairwise fun a b => keyLe k a.appending b.appending) :
    (insertAffix k a l).Pairwise fun a b => keyLe k a.appending b.appending := by
  induction l with
  | nil => simp [insertAffix]
  | cons b l ih =>
    rw [List.pairwise_cons] at h
    unfold insertAffix
    split
    · rename_i hab
      refine List.pairwise_cons.2 ⟨?_, List.pairwise_cons.2 h⟩
      intro c hc
      rcases List.mem_cons.1 hc with rfl | hc
      · exact hab
      · have := h.1 c hc
        rw [keyLe_eq] at hab this ⊢
        exact bytesLe_trans hab this
    · rename_i hab
      refine List.pairwise_cons.2 ⟨?_, ih h.2⟩
      intro c hc
      rcases List.mem_cons.1 ((insertAffix_perm k a l).mem_iff.1 hc) with rfl | hc
      · rw [keyLe_eq] at hab ⊢
        exact (bytesLe_total _ _).resolve_left hab
      · exact h.1 c hc

theorem sortAffixes_sorted (k : Kind) (l : List Affix) :
    (sortAffixes k l).Pairwise fun a b => keyLe k a.appending b.appending := by
  induction l with
  | nil => simp [sortAffixes]
  | cons a l ih => exact insertAffix_sorted k a _ ih

/-- One of the indices `From<Vec<Affix<C>>>` (`src/aff.rs` 554–601) may build. -/
def AffixIndex.ofList (k : Kind) (l : List Affix) : AffixIndex k := ⟨sortAffixes k l, sortAffixes_sorted k l⟩

end Spellbook
