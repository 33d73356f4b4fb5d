import Verif.Proof.SuggestBytes
import Verif.Proof.Utf8
/-!
# Byte positions of the readers

The functions of `Model/SuggestBytes.lean` which read affix files and word lists equal their counterparts on
characters.
-/

namespace Spellbook.Bytes

/-- The text is cut at the first character with `p`, or has none. -/
theorem cutP (p : Char → Bool) (s : Str) :
    (∃ a c b, s = a ++ c :: b ∧ (∀ x ∈ a, p x = false) ∧ p c = true) ∨ ∀ x ∈ s, p x = false := by
  induction s with
  | nil => exact .inr (by simp)
  | cons c s ih =>
    cases hc : p c with
    | true => exact .inl ⟨[], c, s, rfl, by simp, hc⟩
    | false =>
      rcases ih with ⟨a, d, b, rfl, ha, hd⟩ | hn
      · exact .inl ⟨c :: a, d, b, rfl, by simpa [hc] using ha, hd⟩
      · exact .inr (by simpa [hc] using hn)

theorem takeWhile_cut {q : Char → Bool} {a b : Str} {c : Char} (ha : ∀ x ∈ a, q x = true)
    (hc : q c = false) : (a ++ c :: b).takeWhile q = a := by
  induction a with
  | nil => simp [hc]
  | cons x a ih =>
    rw [List.cons_append, List.takeWhile_cons_of_pos (ha x (by simp)), ih fun y hy => ha y (by simp [hy])]

theorem dropWhile_cut {q : Char → Bool} {a b : Str} {c : Char} (ha : ∀ x ∈ a, q x = true)
    (hc : q c = false) : (a ++ c :: b).dropWhile q = c :: b := by
  induction a with
  | nil => simp [hc]
  | cons x a ih =>
    rw [List.cons_append, List.dropWhile_cons_of_pos (ha x (by simp)), ih fun y hy => ha y (by simp [hy])]

theorem takeWhile_all {q : Char → Bool} {a : Str} (ha : ∀ x ∈ a, q x = true) : a.takeWhile q = a := by
  induction a with
  | nil => rfl
  | cons x a ih =>
    rw [List.takeWhile_cons_of_pos (ha x (by simp)), ih fun y hy => ha y (by simp [hy])]

theorem dropWhile_all {q : Char → Bool} {a : Str} (ha : ∀ x ∈ a, q x = true) : a.dropWhile q = [] := by
  induction a with
  | nil => rfl
  | cons x a ih =>
    rw [List.dropWhile_cons_of_pos (ha x (by simp)), ih fun y hy => ha y (by simp [hy])]

/-- The byte at the position of a character is `x` exactly if the character is the one encoded `x`. -/
theorem byteAt (a b : Str) {d : Char} {x : UInt8} (hd : utf8 [d] = [x]) :
    (utf8 (a ++ b))[byteLen a]? = some x ↔ b.head? = some d := by
  rw [utf8_append, List.getElem?_append_right (by rw [length_utf8]), length_utf8, Nat.sub_self]
  rw [utf8_singleton] at hd
  cases b with
  | nil => simp
  | cons c b =>
    simp only [List.head?_cons, Option.some.injEq]
    constructor
    · intro h
      obtain ⟨t, ht⟩ : ∃ t, utf8 (c :: b) = x :: t := by
        cases hu : utf8 (c :: b) with
        | nil => rw [hu] at h; cases h
        | cons y t => rw [hu] at h; cases h; exact ⟨t, rfl⟩
      rw [utf8_cons] at ht
      exact (utf8Encode_append_inj (ht.trans (by rw [hd]; rfl) : _ = String.utf8EncodeChar d ++ t)).1
    · rintro rfl
      rw [utf8_cons, hd]; rfl

/-! ## Similarity groups -/

theorem similarityLoop_eq : ∀ (rounds : Nat) (pre rest chars : Str) (strings : List Str),
    rest.length < rounds → similarityLoop (pre ++ rest) rounds (byteLen pre) chars strings =
      .ok (Spellbook.similarityLoop rounds rest chars strings)
  | 0, _, _, _, _, h => by omega
  | rounds + 1, pre, rest, chars, strings, h => by
    unfold similarityLoop Spellbook.similarityLoop
    rw [findFrom_append]
    rcases cut '(' rest with ⟨a, b, rfl, ha⟩ | hn
    · have hs : splitOnce? ['('] (a ++ '(' :: b) = some (a, b) := splitOnce?_char.2 ⟨rfl, ha⟩
      rw [findChar_one ha, hs]
      simp only [ok_bind, Option.map_some, Option.getD_some]
      rw [Nat.add_comm (byteLen a), slice?_mid]
      have e2 : byteLen pre + byteLen a + 1 = byteLen (pre ++ a ++ ['(']) := by
        rw [← byteLen_ascii (by decide), byteLen_append]
      have e3 : pre ++ (a ++ '(' :: b) = (pre ++ a ++ ['(']) ++ b := by simp
      simp only [need_some, ok_bind]
      rw [e2, e3, findFrom_append]
      generalize pre ++ a ++ ['('] = pre2
      rcases cut ')' b with ⟨m, t, rfl, hm⟩ | hn
      · have hs : splitOnce? [')'] (m ++ ')' :: t) = some (m, t) := splitOnce?_char.2 ⟨rfl, hm⟩
        rw [findChar_one hm, hs]
        simp only [ok_bind, Option.map_some]
        rw [Nat.add_comm (byteLen m), slice?_mid]
        have e2 : byteLen pre2 + byteLen m + 1 = byteLen (pre2 ++ m ++ [')']) := by
          rw [← byteLen_ascii (by decide), byteLen_append]
        have e3 : pre2 ++ (m ++ ')' :: t) = (pre2 ++ m ++ [')']) ++ t := by simp
        have ht : t.length < rounds := by simp at h; omega
        simp only [need_some, ok_bind]
        rw [e2, e3, similarityLoop_eq rounds _ _ _ _ ht, similarityLoop_eq rounds _ _ _ _ ht,
          similarityLoop_eq rounds _ _ _ _ ht]
        rcases m with _ | ⟨x, _ | ⟨y, m⟩⟩ <;> simp
      · rw [findChar_one_none hn, splitOnce?_char_none.2 hn]
        rfl
    · rw [findChar_one_none hn, splitOnce?_char_none.2 hn]
      simp only [ok_bind, Option.map_none, Option.getD_none]
      have := slice?_mid pre rest []
      rw [List.append_nil, ← byteLen_append] at this
      rw [this]
      rfl

theorem similarityGroup_eq (s : Str) : similarityGroup s = .ok (SimilarityGroup.ofText s) := by
  unfold similarityGroup SimilarityGroup.ofText
  have := similarityLoop_eq (s.length + 1) [] s [] [] (by omega)
  simp only [List.nil_append, byteLen_nil] at this
  rw [this]
  rfl

/-! ## Numeric flags -/

theorem numFlags_eq : ∀ (rounds : Nat) (pre rest : Str), rest.length < rounds →
    numFlags (pre ++ rest) rounds (byteLen pre) = .ok (Spellbook.numFlags rounds rest)
  | 0, _, _, h => by omega
  | rounds + 1, pre, rest, h => by
    unfold numFlags Spellbook.numFlags
    rw [findFrom_append]
    rcases cut ',' rest with ⟨a, b, rfl, ha⟩ | hn
    · have hs : splitOnce? [','] (a ++ ',' :: b) = some (a, b) := splitOnce?_char.2 ⟨rfl, ha⟩
      rw [findChar_one ha, hs]
      simp only [ok_bind, Option.map_some]
      rw [Nat.add_comm (byteLen a), slice?_mid]
      have e2 : byteLen pre + byteLen a + 1 = byteLen (pre ++ a ++ [',']) := by
        rw [← byteLen_ascii (by decide), byteLen_append]
      have e3 : pre ++ (a ++ ',' :: b) = (pre ++ a ++ [',']) ++ b := by simp
      rw [e2, e3, numFlags_eq rounds _ _ (by simp at h; omega)]
      simp only [need_some, ok_bind]
      have hb := byteAt (pre ++ a ++ [',']) b (d := ',') (x := 0x2C) (by decide)
      by_cases hh : b.head? = some ','
      · rw [if_pos hh, if_pos (hb.2 hh)]; rfl
      · rw [if_neg hh, if_neg fun h => hh (hb.1 h)]
        cases parseNumFlag a with
        | error e => rfl
        | ok f => cases Spellbook.numFlags rounds b <;> rfl
    · rw [findChar_one_none hn, splitOnce?_char_none.2 hn]
      simp only [ok_bind, Option.map_none]
      rw [sliceFrom?_append]
      simp only [need_some, ok_bind]
      cases parseNumFlag rest <;> rfl

/-! ## Conditions -/

theorem sliceFrom?_one {c : Char} (h : c.utf8Size = 1) (s : Str) : sliceFrom? (c :: s) 1 = some s := by
  have := sliceFrom?_append [c] s
  rw [byteLen_cons, byteLen_nil, h] at this
  exact this

theorem afterBracket_eq (s : Str) :
    afterBracket s = .ok (if s.isEmpty then none else some (Condition.takeCaret s).2) := by
  unfold afterBracket Condition.takeCaret
  cases s with
  | nil => rfl
  | cons d b =>
    simp only [List.head?_cons]
    by_cases hd : d = '^'
    · subst hd
      rw [if_pos rfl, sliceFrom?_one (by decide)]; rfl
    · rw [if_neg hd, if_neg (by simp)]
      congr 2
      split
      · rename_i h; cases h; exact absurd rfl hd
      · rfl

theorem scanChars_eq : ∀ (rounds : Nat) (scan : Str) (chars : Nat), scan.length < rounds →
    scanChars rounds scan chars = .ok (Condition.scanChars scan chars)
  | 0, _, _, h => by omega
  | rounds + 1, scan, chars, h => by
    rw [Condition.scanChars.eq_def]
    unfold scanChars
    rcases cutP (fun c => c == '[' || c == ']') scan with ⟨a, c, b, rfl, ha, hc⟩ | hn
    · have ha' : ∀ x ∈ a, (decide (x ≠ '[') && decide (x ≠ ']')) = true := fun x hx => by
        simpa using ha x hx
      have hc' : (decide (c ≠ '[') && decide (c ≠ ']')) = false := by
        by_cases h1 : c = '['
        · simp [h1]
        · simpa [h1] using hc
      rw [findChar_some ha hc]
      simp only
      rw [sliceTo?_append, sliceFrom?_append, takeWhile_cut ha' hc']
      split
      · rename_i hd; rw [dropWhile_cut ha' hc'] at hd; cases hd
      rename_i b' scan1 hd
      rw [dropWhile_cut ha' hc'] at hd
      cases hd
      simp only [need_some, ok_bind, List.head?_cons]
      have hcc : c = '[' ∨ c = ']' := by simpa using hc
      rcases hcc with rfl | rfl
      · rw [if_neg (by decide)]
        simp only
        rw [sliceFrom?_one (by decide)]
        simp only [need_some, ok_bind, afterBracket_eq]
        cases hb : b.isEmpty with
        | true => rfl
        | false =>
          have hlen := Condition.takeCaret_length b
          simp only [Bool.false_eq_true, if_false]
          generalize (Condition.takeCaret b).2 = s2 at hlen ⊢
          rcases cutP (· == ']') s2 with ⟨m, d, t, rfl, hm, hd⟩ | hn
          · have hm' : ∀ x ∈ m, decide (x ≠ ']') = true := fun x hx => by simpa using hm x hx
            have hd' : decide (d ≠ ']') = false := by simpa using hd
            have hdd : d = ']' := by simpa using hd
            subst hdd
            rw [findChar_some hm hd]
            have hslice : sliceFrom? (m ++ ']' :: t) (byteLen m + 1) = some t := by
              rw [byteLen_ascii (c := ']') (by decide), show m ++ ']' :: t = (m ++ [']']) ++ t by simp,
                sliceFrom?_append]
            refine Eq.trans (b := .ok (if m.isEmpty then .error .emptyCharacterClass
                else Condition.scanChars t (chars + a.length + 1))) ?_ ?_
            rotate_left
            · congr 1
              generalize hL : (if m.isEmpty then Except.error ConditionError.emptyCharacterClass
                else Condition.scanChars t (chars + a.length + 1)) = L
              split
              · rename_i hx; rw [dropWhile_cut hm' hd'] at hx; cases hx
              · rename_i hx
                subst hL
                rw [dropWhile_cut hm' hd'] at hx
                cases hx
                rw [takeWhile_cut hm' hd']
            cases m with
            | nil => rfl
            | cons x m =>
              have h0 : byteLen (x :: m) ≠ 0 := fun h0 => by
                have := byteLen_eq_zero.1 h0
                simp at this
              obtain ⟨n, hn⟩ := Nat.exists_eq_succ_of_ne_zero h0
              rw [hn] at hslice ⊢
              simp only
              rw [hslice]
              simp only [need_some, ok_bind, List.isEmpty_cons, Bool.false_eq_true, if_false]
              exact scanChars_eq rounds t _ (by simp at h hlen; omega)
          · have hn' : ∀ x ∈ s2, decide (x ≠ ']') = true := fun x hx => by simpa using hn x hx
            rw [findChar_none hn]
            show Except.ok (Except.error _) = Except.ok _
            congr 1
            split
            · rfl
            · rename_i hx; rw [dropWhile_all hn'] at hx; cases hx
      · rfl
    · have hn' : ∀ x ∈ scan, (decide (x ≠ '[') && decide (x ≠ ']')) = true := fun x hx => by
        simpa using hn x hx
      rw [findChar_none hn, takeWhile_all hn']
      show Except.ok _ = Except.ok _
      congr 1
      split
      · rfl
      · rename_i hx; rw [dropWhile_all hn'] at hx; cases hx

/-! ## Lines of the word list -/

theorem isMorphField_eq (U : Unicode) (pre rest : Str) :
    isMorphField U (pre ++ ' ' :: rest) (byteLen pre) = .ok (Spellbook.isMorphField U rest) := by
  unfold isMorphField Spellbook.isMorphField
  have e : pre ++ ' ' :: rest = (pre ++ [' ']) ++ rest := by simp
  rw [byteLen_ascii (c := ' ') (by decide), e, sliceFrom?_append]
  simp only [need_some, ok_bind]
  rcases cutP (fun c => !U.isWs c) rest with ⟨a, c, b, rfl, ha, hc⟩ | hn
  · have ha' : ∀ x ∈ a, U.isWs x = true := fun x hx => by simpa using ha x hx
    have hc' : U.isWs c = false := by simpa using hc
    rw [findChar_some ha hc, dropWhile_cut ha' hc']
    simp only
    rw [show byteLen a + byteLen pre + 1 = byteLen (pre ++ [' '] ++ a) by
        rw [byteLen_append, ← byteLen_ascii (by decide)]; omega,
      ← List.append_assoc, sliceFrom?_append]
    simp only [need_some, ok_bind]
    rcases b with _ | ⟨x, _ | ⟨y, b⟩⟩
    · simp [pure_ok]
    · simp [pure_ok]
    · simp [pure_ok, Bool.beq_eq_decide_eq, Bool.and_assoc]
  · have hn' : ∀ x ∈ rest, U.isWs x = true := fun x hx => by simpa using hn x hx
    rw [findChar_none hn, dropWhile_all hn']
    rfl

theorem map_charIndices (n : Nat) (s : Str) : (charIndices n s).map (·.2) = s := by
  induction s generalizing n with
  | nil => rfl
  | cons c s ih => rw [charIndices, List.map_cons, ih]

theorem scanDic_eq (U : Unicode) : ∀ (rest pre word : Str) (escaped : Bool),
    (escaped = true → ∃ w, word = w ++ ['\\']) →
    scanDic U (pre ++ rest) word escaped (charIndices (byteLen pre) rest) =
      .ok (Spellbook.scanDic U word escaped pre.isEmpty rest)
  | [], _, _, _, _ => rfl
  | ch :: rest, pre, word, escaped, hw => by
    have hstep : ∀ (word' : Str) (e' : Bool), (e' = true → ∃ w, word' = w ++ ['\\']) →
        scanDic U (pre ++ ch :: rest) word' e' (charIndices (byteLen pre + ch.utf8Size) rest) =
          .ok (Spellbook.scanDic U word' e' false rest) := by
      intro word' e' hw'
      have := scanDic_eq U rest (pre ++ [ch]) word' e' hw'
      rw [show (pre ++ [ch]).isEmpty = false by cases pre <;> rfl] at this
      rw [byteLen_append, byteLen_cons, byteLen_nil] at this
      simpa using this
    rw [charIndices]
    unfold scanDic Spellbook.scanDic
    have hidx : byteLen pre ≠ 0 ↔ pre.isEmpty = false := by
      rw [Ne, byteLen_eq_zero]; cases pre <;> simp
    by_cases h1 : ch = '/'
    · subst h1
      cases escaped with
      | true =>
        obtain ⟨w, rfl⟩ := hw rfl
        simp only [and_self, if_true]
        rw [← byteLen_ascii (by decide)]
        rw [if_pos (by omega), Nat.add_sub_cancel]
        have hb : (utf8 (w ++ ['\\']))[byteLen w]? = some 0x5C := by
          rw [utf8_append]
          show (utf8 w ++ utf8 ['\\'])[(utf8 w).length]? = _
          rw [List.getElem?_append_right (Nat.le_refl _), Nat.sub_self]
          rfl
        simp only [need_some, ok_bind]
        rw [if_pos hb]
        simp only [need_some, ok_bind]
        rw [writeOne_eq (d := '/') (by decide) (by decide)]
        simp only [ok_bind, List.dropLast_concat]
        exact hstep _ _ (by simp)
      | false =>
        simp only [Bool.false_eq_true, and_false, if_false, true_and, if_true]
        by_cases h2 : pre.isEmpty = false
        · rw [if_pos (hidx.2 h2), h2, map_charIndices]; rfl
        · have h3 : pre.isEmpty = true := by simpa using h2
          rw [if_neg fun h => h2 (hidx.1 h), h3, if_neg (by decide), if_neg (by decide)]
          simp only [Bool.not_true, Bool.false_eq_true, if_false]
          exact hstep _ _ (by simp)
    · simp only [h1, false_and, if_false]
      split
      · rfl
      split
      · rename_i h3
        subst h3
        rw [isMorphField_eq]
        simp only [ok_bind]
        split
        · rfl
        · exact hstep _ _ (by simp)
      · refine hstep _ _ fun h => ⟨word, ?_⟩
        rw [of_decide_eq_true h]

theorem parseDicLine_eq (U : Unicode) (input : Str) (ty : FlagType) (aliases : List FlagSet)
    (ignore : List Char) :
    parseDicLine U input ty aliases ignore = .ok (Spellbook.parseDicLine U input ty aliases ignore) := by
  unfold parseDicLine Spellbook.parseDicLine
  split
  · rfl
  rcases cutP isDicSpecial input with ⟨a, c, b, rfl, ha, hc⟩ | hn
  · have ha' : ∀ x ∈ a, (!isDicSpecial x) = true := fun x hx => by simpa using ha x hx
    have hc' : (!isDicSpecial c) = false := by simpa using hc
    rw [findChar_some ha hc, dropWhile_cut ha' hc', takeWhile_cut ha' hc']
    simp only
    rw [sliceTo?_append, sliceFrom?_append]
    have hbyte : ∃ byte, (utf8 (a ++ c :: b))[byteLen a]? = some byte := by
      refine ⟨(utf8 (a ++ c :: b))[byteLen a]'?_, List.getElem?_eq_getElem _⟩
      rw [length_utf8, byteLen_append, byteLen_cons]
      have := Char.utf8Size_pos c
      omega
    obtain ⟨byte, hb⟩ := hbyte
    have h1 : byte = 0x2F ↔ c = '/' := by
      have := byteAt a (c :: b) (d := '/') (x := 0x2F) (by decide)
      rw [hb] at this; simpa using this
    have h2 : byte = 0x09 ↔ c = '\t' := by
      have := byteAt a (c :: b) (d := '\t') (x := 0x09) (by decide)
      rw [hb] at this; simpa using this
    rw [hb]
    simp only [need_some, ok_bind, h1, h2, Ne, byteLen_eq_zero]
    split
    · rename_i h
      rw [show a ++ c :: b = (a ++ [c]) ++ b by simp, h.1, byteLen_ascii (c := '/') (by decide),
        sliceFrom?_append]
      rfl
    split
    · rfl
    have := scanDic_eq U (c :: b) [] a false (by simp)
    simp only [List.nil_append, byteLen_nil, List.isEmpty_nil] at this
    rw [this]
    simp only [ok_bind]
    cases Spellbook.scanDic U a false true (c :: b) <;> rfl
  · have hn' : ∀ x ∈ input, (!isDicSpecial x) = true := fun x hx => by simpa using hn x hx
    rw [findChar_none hn, dropWhile_all hn']
    rfl

end Spellbook.Bytes
