import Verif.Model.NgramBytes
import Verif.Proof.CheckBytes
/-!
# The byte offsets of the search by similarity
-/

namespace Spellbook.Bytes

/-! ## `CharsStr` -/

/-- The value `CharsStr::new` makes. -/
def ofStr (s : Str) : CharsStr :=
  { inner := s
    charIndices := (Spellbook.charIndices 0 s).map (fun (i, _) => UInt16.ofNat i) ++ [UInt16.ofNat (byteLen s)] }

/-- Texts short enough. -/
def Short (s : Str) : Prop := byteLen s ≤ 65535

theorem new_bind {α : Type} (s : Str) (f : CharsStr → Run α) (g : Str → Run α) (h : Short s → f (ofStr s) = g s) :
    (CharsStr.new s >>= f) = (charsStr s >>= g) := by
  unfold CharsStr.new charsStr
  split
  · next hs => exact h hs
  · rfl

@[simp] theorem inner_ofStr (s : Str) : (ofStr s).inner = s := rfl

theorem length_indices (s : Str) : (ofStr s).charIndices.length = s.length + 1 := by
  simp [ofStr, charIndices_length]

@[simp] theorem lenChars_ofStr (s : Str) : (ofStr s).lenChars = s.length := by
  unfold CharsStr.lenChars
  rw [length_indices]
  rfl

@[simp] theorem isEmpty_ofStr (s : Str) : (ofStr s).isEmpty = s.isEmpty := by
  unfold CharsStr.isEmpty
  rw [length_indices]
  cases s <;> rfl

theorem pos_le (s : Str) (i : Nat) : pos s i ≤ byteLen s := by
  unfold pos
  conv => rhs; rw [← List.take_append_drop i s, byteLen_append]
  exact Nat.le_add_right _ _

theorem indices_get {s : Str} (i : Nat) (hi : i ≤ s.length) :
    (ofStr s).charIndices[i]? = some (UInt16.ofNat (pos s i)) := by
  unfold ofStr
  rcases Nat.lt_or_eq_of_le hi with h | rfl
  · rw [List.getElem?_append_left (by simp [charIndices_length]; exact h), List.getElem?_map]
    have := charIndices_fst s 0 i
    rw [if_pos h, Nat.zero_add] at this
    cases hx : (Spellbook.charIndices 0 s)[i]? with
    | none => rw [hx] at this; cases this
    | some x =>
      rw [hx] at this
      simp only [Option.map_some, Option.some.injEq] at this ⊢
      rw [this]
  · rw [List.getElem?_append_right (by simp [charIndices_length])]
    simp [charIndices_length, pos]

theorem toNat_pos {s : Str} (hs : Short s) (i : Nat) : (UInt16.ofNat (pos s i)).toNat = pos s i := by
  have h := pos_le s i
  unfold Short at hs
  rw [UInt16.toNat_ofNat']
  exact Nat.mod_eq_of_lt (by omega)

theorem charSlice_eq {s : Str} (hs : Short s) {lo hi : Nat} (h1 : lo ≤ hi) (h2 : hi ≤ s.length) :
    (ofStr s).charSlice lo hi = .ok (slice s lo hi) := by
  unfold CharsStr.charSlice
  rw [indices_get lo (by omega), indices_get hi h2]
  simp only [need_some, ok_bind, toNat_pos hs, inner_ofStr]
  rw [show slice? s (pos s lo) (pos s hi) = some (slice s lo hi) from slice?_eq s h1]
  rfl

theorem charAt_eq {s : Str} (hs : Short s) {i : Nat} (h : i < s.length) :
    (ofStr s).charAt i = .ok [s[i]] := by
  have := charSlice_eq hs (Nat.le_add_right i 1) (show i + 1 ≤ s.length from h)
  unfold CharsStr.charSlice at this
  unfold CharsStr.charAt
  rw [this]
  unfold slice
  congr 1
  rw [List.take_add_one, List.drop_append_of_le_length (by simp; omega)]
  simp [h]

theorem mapM_ok {α β : Type} {f : α → Run β} {g : α → β} : ∀ {l : List α}, (∀ a ∈ l, f a = .ok (g a)) →
    l.mapM f = .ok (l.map g)
  | [], _ => rfl
  | a :: l, h => by
    rw [List.mapM_cons, h a (List.mem_cons_self ..), ok_bind, mapM_ok fun b hb => h b (List.mem_cons_of_mem _ hb)]
    rfl

theorem charIter_eq {s : Str} (hs : Short s) : (ofStr s).charIter = .ok (s.map fun c => [c]) := by
  unfold CharsStr.charIter
  have : ∀ (l : List (UInt16 × UInt16)) (t : List Str), l.length = t.length →
      (∀ i (h : i < l.length) (h' : i < t.length),
        need (slice? s l[i].1.toNat l[i].2.toNat) = .ok t[i]) →
      (l.mapM fun (a, b) => need (slice? s a.toNat b.toNat)) = .ok t := by
    intro l
    induction l with
    | nil => intro t h _; cases t with
      | nil => rfl
      | cons => cases h
    | cons x l ih =>
      intro t h hi
      cases t with
      | nil => cases h
      | cons y t =>
        have h0 := hi 0 (by simp) (by simp)
        simp only [List.getElem_cons_zero] at h0
        obtain ⟨a, b⟩ := x
        rw [List.mapM_cons]
        simp only at h0 ⊢
        rw [h0, ok_bind, ih t (by simpa using h) fun i h1 h2 => ?_]
        · rfl
        · have := hi (i + 1) (by simpa using h1) (by simpa using h2)
          simpa using this
  refine this _ _ (by simp [length_indices]) fun i h h' => ?_
  have hi : i < s.length := by simpa using h'
  have h1 := charAt_eq hs hi
  unfold CharsStr.charAt at h1
  rw [indices_get i (by omega), indices_get (i + 1) (by omega)] at h1
  simp only [need_some, ok_bind, inner_ofStr] at h1
  have e1 : (ofStr s).charIndices[i]'(by rw [length_indices]; omega) = UInt16.ofNat (pos s i) := by
    have := indices_get i (Nat.le_of_lt hi)
    rw [List.getElem?_eq_getElem (by rw [length_indices]; omega)] at this
    exact Option.some.inj this
  have e2 : (ofStr s).charIndices[i + 1]'(by rw [length_indices]; omega) = UInt16.ofNat (pos s (i + 1)) := by
    have := indices_get (i + 1) hi
    rw [List.getElem?_eq_getElem (by rw [length_indices]; omega)] at this
    exact Option.some.inj this
  simp only [List.getElem_zip, List.getElem_tail, e1, e2, List.getElem_map]
  exact h1

/-! ## Metrics -/

theorem leftCommon_eq (U : Unicode) (h : CaseHandling) (l r : Str) :
    leftCommon U h (ofStr l) (ofStr r) = Spellbook.leftCommon U h l r := by
  unfold leftCommon Spellbook.leftCommon
  rw [lenChars_ofStr]
  rfl

theorem foldlM_ok {α β : Type} {f : β → α → Run β} {g : β → α → β} : ∀ {l : List α} (b : β),
    (∀ a ∈ l, ∀ b, f b a = .ok (g b a)) → l.foldlM f b = .ok (l.foldl g b)
  | [], _, _ => rfl
  | a :: l, b, h => by
    rw [List.foldlM_cons, h a (List.mem_cons_self ..), ok_bind,
      foldlM_ok _ fun b hb => h b (List.mem_cons_of_mem _ hb)]
    rfl

theorem foldl_count {α : Type} (p : α → Bool) : ∀ (l : List α) (n : Nat),
    l.foldl (fun s a => if p a then s + 1 else s) n = n + (l.filter p).length
  | [], n => rfl
  | a :: l, n => by
    rw [List.foldl_cons, foldl_count p l, List.filter_cons]
    split <;> simp [*] <;> omega

theorem kScore_eq {l : Str} (hl : Short l) (r : Str) {k : Nat} (hk : k ≤ l.length) :
    kScore (ofStr l) r k = .ok (Spellbook.kScore l r k) := by
  unfold kScore Spellbook.kScore kgrams
  rw [lenChars_ofStr, foldlM_ok (g := fun s i => if containsStr r (slice l i (i + k)) then s + 1 else s)]
  · rw [foldl_count, List.filter_map, List.length_map, Nat.zero_add]
    rfl
  · intro i hi s
    have := List.mem_range.1 hi
    rw [charSlice_eq hl (by omega) (by omega)]
    rfl

theorem ngramLoop_eq {l : Str} (hl : Short l) (r : Str) : ∀ (ks : List Nat), (∀ k ∈ ks, k ≤ l.length) →
    ngramLoop (ofStr l) r ks = .ok (Spellbook.ngramLoop l r ks)
  | [], _ => rfl
  | k :: ks, h => by
    unfold ngramLoop Spellbook.ngramLoop
    rw [kScore_eq hl r (h k (List.mem_cons_self ..)), ok_bind,
      ngramLoop_eq hl r ks fun k hk => h k (List.mem_cons_of_mem _ hk)]
    simp only [ok_bind]
    split
    · simp; rfl
    · rfl

theorem ngramSimilarity_eq {l : Str} (hl : Short l) (r : Str) (n : Nat) :
    ngramSimilarity n (ofStr l) r = .ok (Spellbook.ngramSimilarity n l r) := by
  unfold ngramSimilarity Spellbook.ngramSimilarity
  rw [lenChars_ofStr, ngramLoop_eq hl]
  intro k hk
  have := List.mem_range'_1.1 hk
  omega

theorem ngramLongerWorse_eq {l : Str} (hl : Short l) (r : Str) (n : Nat) :
    ngramLongerWorse n (ofStr l) (ofStr r) = .ok (Spellbook.ngramLongerWorse n l r) := by
  unfold ngramLongerWorse Spellbook.ngramLongerWorse
  rw [isEmpty_ofStr, inner_ofStr, ngramSimilarity_eq hl, lenChars_ofStr, lenChars_ofStr]
  split <;> rfl

theorem ngramAnyMismatch_eq {l : Str} (hl : Short l) (r : Str) (n : Nat) :
    ngramAnyMismatch n (ofStr l) r = .ok (Spellbook.ngramAnyMismatch n l r) := by
  unfold ngramAnyMismatch Spellbook.ngramAnyMismatch
  rw [ngramSimilarity_eq hl, lenChars_ofStr]
  split <;> rfl

theorem lcsRow_eq {r : Str} (hr : Short r) (l : Char) : ∀ (st : List Nat) (j a b : Nat), j + st.length = r.length →
    lcsRow [l] (ofStr r) j a b st = .ok (Spellbook.lcsRow l a b (r.drop j) st)
  | [], j, a, b, h => by
    unfold lcsRow
    rw [List.drop_of_length_le (by simp at h; omega)]
    rfl
  | x :: st, j, a, b, h => by
    rw [List.length_cons] at h
    have hj : j < r.length := by omega
    unfold lcsRow
    rw [charAt_eq hr hj, ok_bind, List.drop_eq_getElem_cons hj]
    simp only [Spellbook.lcsRow, List.cons.injEq, and_true]
    rw [lcsRow_eq hr l st (j + 1) _ _ (by omega)]
    rfl

theorem lcsRow_length (l : Char) : ∀ (r : Str) (st : List Nat) (a b : Nat), r.length = st.length →
    (Spellbook.lcsRow l a b r st).1.length = st.length
  | [], [], _, _, _ => rfl
  | [], _ :: _, _, _, h => by simp at h
  | _ :: _, [], _, _, h => by simp at h
  | c :: r, x :: st, a, b, h => by
    simp only [Spellbook.lcsRow, List.length_cons]
    rw [lcsRow_length l r st _ _ (by simpa using h)]

theorem lcsLoop_eq {r : Str} (hr : Short r) : ∀ (l : Str) (st : List Nat) (a : Nat), st.length = r.length →
    lcsLoop (ofStr r) (l.map fun c => [c]) st a = .ok (Spellbook.lcsLoop r l st a)
  | [], _, _, _ => rfl
  | c :: l, st, a, h => by
    rw [List.map_cons]
    unfold lcsLoop Spellbook.lcsLoop
    rw [lcsRow_eq hr c st 0 0 0 (by omega), ok_bind, List.drop_zero]
    exact lcsLoop_eq hr l _ _ (by rw [lcsRow_length _ _ _ _ _ h.symm, h])

theorem lcsLength_eq {l r : Str} (hl : Short l) (hr : Short r) :
    lcsLength (ofStr l) (ofStr r) = .ok (Spellbook.lcsLength l r) := by
  unfold lcsLength Spellbook.lcsLength
  rw [charIter_eq hl, ok_bind, lenChars_ofStr, lcsLoop_eq hr _ _ _ (by simp)]

theorem foldl_sum {α : Type} (g : α → Int) : ∀ (l : List α) (n : Int),
    l.foldl (fun s a => s + g a) n = n + (l.map g).sum
  | [], n => by simp
  | a :: l, n => by
    rw [List.foldl_cons, foldl_sum g l, List.map_cons, List.sum_cons]
    omega

theorem ngramWeighted_eq {l : Str} (hl : Short l) (r : Str) (n : Nat) :
    ngramWeighted n (ofStr l) r = .ok (Spellbook.ngramWeighted n l r) := by
  unfold ngramWeighted Spellbook.ngramWeighted
  rw [lenChars_ofStr, foldlM_ok (g := fun s k => s +
    ((List.range (l.length - k + 1)).map (weight l r k)).sum), foldl_sum, Int.zero_add]
  intro k hk s
  have := List.mem_range'_1.1 hk
  rw [foldlM_ok (g := fun s i => s + weight l r k i), foldl_sum, Int.zero_add]
  · rfl
  · intro i hi s
    have := List.mem_range.1 hi
    rw [charSlice_eq hl (by omega) (by omega), ok_bind]
    unfold weight
    show Except.ok _ = _
    congr 1
    split
    · rfl
    · simp only
      split <;> omega

theorem ngramAnyMismatchWeighted_eq {l : Str} (hl : Short l) (r : Str) (n : Nat) :
    ngramAnyMismatchWeighted n (ofStr l) (ofStr r) = .ok (Spellbook.ngramAnyMismatchWeighted n l r) := by
  unfold ngramAnyMismatchWeighted Spellbook.ngramAnyMismatchWeighted
  rw [isEmpty_ofStr, inner_ofStr, ngramWeighted_eq hl, lenChars_ofStr, lenChars_ofStr]
  split <;> rfl

/-- A pair of characters as texts. -/
def both (p : Char × Char) : Str × Str := ([p.1], [p.2])

theorem swapLoop_eq : ∀ (l : List (Char × Char)) (f : Option (Char × Char)),
    swapLoop (f.map both) (l.map both) = Spellbook.swapLoop f l
  | [], _ => rfl
  | (a, b) :: l, f => by
    have h1 := swapLoop_eq l (some (a, b))
    have h2 := swapLoop_eq l f
    simp only [List.map_cons, both, swapLoop, Spellbook.swapLoop, ne_eq, List.cons.injEq, and_true]
    split
    · cases f with
      | none => exact h1
      | some f => simp [both, List.beq, BEq.beq]
    · exact h2

theorem countEqAtSamePos_eq {l r : Str} (hl : Short l) (hr : Short r) :
    countEqAtSamePos (ofStr l) (ofStr r) = .ok (Spellbook.countEqAtSamePos l r) := by
  unfold countEqAtSamePos Spellbook.countEqAtSamePos
  simp only [charIter_eq hl, charIter_eq hr, ok_bind, lenChars_ofStr]
  have e : (l.map fun c => [c]).zip (r.map fun c => [c]) = (l.zip r).map both := by
    rw [List.zip_map]
    rfl
  have e2 : (((l.zip r).map both).filter fun (l, r) => l = r).length =
      ((l.zip r).filter fun (l, r) => l = r).length := by
    rw [List.filter_map, List.length_map]
    congr 2
    funext p
    simp [both]
  rw [e, e2]
  have := swapLoop_eq (l.zip r) none
  simp only [Option.map_none] at this
  rw [this]
  rfl

/-! ## The search -/

variable (C : Checker) (H : Heaps)

theorem rootScore_eq {w : Str} (hw : Short w) (s : Str) :
    rootScore C (ofStr w) s = C.rootScore w s := by
  unfold rootScore Checker.rootScore
  refine new_bind _ _ _ fun _ => ?_
  refine new_bind _ _ _ fun _ => ?_
  rw [ngramLongerWorse_eq hw, leftCommon_eq]
  rfl

theorem ngramRoots_eq {w : Str} (hw : Short w) : ngramRoots C H (ofStr w) = C.ngramRoots H w := by
  unfold ngramRoots Checker.ngramRoots
  congr 1
  funext roots e
  unfold offerRoot Checker.offerRoot
  rw [rootScore_eq C hw]
  rfl

theorem ngramThreshold_eq {w : Str} (hw : Short w) : ngramThreshold (ofStr w) = .ok (Checker.ngramThreshold w) := by
  unfold ngramThreshold Checker.ngramThreshold
  have e : ((ofStr w).charIndices.drop 1).take 3 =
      (((List.range (w.length + 1)).drop 1).take 3).map fun i => UInt16.ofNat (pos w i) := by
    rw [List.map_take, List.map_drop]
    congr 2
    refine List.ext_getElem? fun i => ?_
    by_cases h : i ≤ w.length
    · rw [indices_get i h, List.getElem?_map, List.getElem?_range (by omega)]
      rfl
    · rw [List.getElem?_eq_none (by rw [length_indices]; omega), List.getElem?_eq_none (by simp; omega)]
  rw [e, List.foldlM_map, foldlM_ok (g := fun s k => s + Spellbook.ngramAnyMismatch w.length w
    (w.take k ++ Checker.star 0 (w.drop k)))]
  · rw [foldl_sum, Int.zero_add]
    rfl
  · intro k _ s
    simp only [toNat_pos hw, inner_ofStr, sliceTo?_pos, sliceFrom?_pos, need_some, ok_bind, lenChars_ofStr,
      ngramAnyMismatch_eq hw]
    rfl

theorem guessScore_eq {w : Str} (hw : Short w) (s : Str) : guessScore C (ofStr w) s = C.guessScore w s := by
  unfold guessScore Checker.guessScore
  refine new_bind _ _ _ fun _ => ?_
  rw [lenChars_ofStr, ngramAnyMismatch_eq hw, leftCommon_eq]
  rfl

theorem ngramGuesses_eq {w : Str} (hw : Short w) (roots : List (MinScored (Str × FlagSet))) :
    ngramGuesses C H (ofStr w) (Checker.ngramThreshold w) roots = C.ngramGuesses H w roots := by
  unfold ngramGuesses Checker.ngramGuesses
  congr 1
  funext guesses root
  rw [inner_ofStr]
  congr 1
  funext forms
  congr 1
  funext guesses form
  unfold offerGuess Checker.offerGuess
  rw [guessScore_eq C hw]

theorem newScore_eq {w l : Str} (hw : Short w) (hl : Short l) (n : Nat) :
    newScore C (ofStr w) (ofStr l) n = C.newScore w l n := by
  unfold newScore Checker.newScore
  simp only [ngramAnyMismatchWeighted_eq hw, ngramAnyMismatchWeighted_eq hl, ngramAnyMismatch_eq hw,
    inner_ofStr, leftCommon_eq, countEqAtSamePos_eq hw hl, ok_bind, lenChars_ofStr]
  rfl

theorem rescore_eq {w : Str} (hw : Short w) : ∀ gs, rescore C (ofStr w) gs = C.rescore w gs
  | [] => rfl
  | g :: gs => by
    unfold rescore Checker.rescore
    refine new_bind _ _ _ fun hl => ?_
    simp only [lcsLength_eq hw hl, ok_bind, lenChars_ofStr, newScore_eq C hw hl, rescore_eq hw gs]

theorem ngramSuggest_eq (w : Str) (out : List Str) : ngramSuggest C H w out = C.ngramSuggest H w out := by
  unfold ngramSuggest Checker.ngramSuggest
  refine new_bind _ _ _ fun hw => ?_
  simp only [ngramRoots_eq C H hw, ngramThreshold_eq hw, ok_bind, ngramGuesses_eq C H hw, rescore_eq C hw]

end Spellbook.Bytes
