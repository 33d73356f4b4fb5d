import Verif.Model.SuggestBytes
import Verif.Proof.CheckBytes
import Verif.Proof.NgramBytes
import Verif.Proof.FlagText
import Verif.Proof.Suggest
import Verif.Proof.Select
/-!
# Byte positions of the suggester and of the readers

Every function of `Model/SuggestBytes.lean` equals its counterpart on characters.
-/

namespace Spellbook.Bytes

theorem need_ofOption {α : Type} : (need : Option α → Run α) = Run.ofOption := by
  funext o; cases o <;> rfl

/-! ## Searching -/

theorem findChar_some {p : Char → Bool} {a b : Str} {c : Char} (ha : ∀ x ∈ a, p x = false)
    (hc : p c = true) : findChar p (a ++ c :: b) = some (byteLen a) := by
  unfold findChar
  rw [if_pos (by simp [hc])]
  congr 2
  induction a with
  | nil => simp [hc]
  | cons x a ih =>
    rw [List.cons_append, List.takeWhile_cons_of_pos (by simp [ha x (by simp)]),
      ih fun y hy => ha y (by simp [hy])]

theorem findChar_none {p : Char → Bool} {s : Str} (h : ∀ x ∈ s, p x = false) : findChar p s = none := by
  unfold findChar
  rw [if_neg]
  simpa using h

theorem findChar_one {c : Char} {a b : Str} (h : c ∉ a) :
    findChar (· == c) (a ++ c :: b) = some (byteLen a) :=
  findChar_some (fun x hx => by simp only [beq_eq_false_iff_ne]; rintro rfl; exact h hx) (by simp)

theorem findChar_one_none {c : Char} {s : Str} (h : c ∉ s) : findChar (· == c) s = none :=
  findChar_none fun x hx => by simp only [beq_eq_false_iff_ne]; rintro rfl; exact h hx

theorem findFrom_append (p : Char → Bool) (a b : Str) :
    findFrom p (a ++ b) (byteLen a) = .ok ((findChar p b).map (· + byteLen a)) := by
  unfold findFrom
  rw [sliceFrom?_append]
  rfl

theorem byteLen_ascii {c : Char} (h : c.utf8Size = 1) (a : Str) :
    byteLen a + 1 = byteLen (a ++ [c]) := by
  rw [byteLen_append, byteLen_cons, byteLen_nil, h]

theorem slice?_mid (a m b : Str) : slice? (a ++ (m ++ b)) (byteLen a) (byteLen a + byteLen m) = some m := by
  have := slice?_take (a ++ (m ++ b)) (a := a.length) (b := a.length + m.length) (by omega)
  rw [List.take_left', ← List.append_assoc, List.take_left' (by simp), byteLen_append,
    List.append_assoc] at this
  · simpa using this
  · rfl

/-- The text is cut at the first `c`, or has none. -/
theorem cut (c : Char) (s : Str) : (∃ a b, s = a ++ c :: b ∧ c ∉ a) ∨ c ∉ s := by
  cases h : splitOnce? [c] s with
  | none => exact .inr (splitOnce?_char_none.1 h)
  | some r => exact .inl ⟨r.1, r.2, splitOnce?_char.1 h⟩

/-! ## Letter case -/

theorem lowerFirstChar_eq (U : Unicode) (h : CaseHandling) (word : Str) :
    lowerFirstChar U h word = Run.ofOption (h.lowerFirstChar U word) := by
  unfold lowerFirstChar CaseHandling.lowerFirstChar
  rcases word with _ | ⟨c, _ | ⟨d, w⟩⟩
  · rfl
  · simp [charIndices, Run.ofOption, pure_ok]
  · simp only [charIndices, List.getElem?_cons_zero, need_some, ok_bind, List.getElem?_cons_succ]
    have := sliceFrom?_append [c] (d :: w)
    simp only [byteLen_cons, byteLen_nil, List.singleton_append] at this
    rw [show 0 + c.utf8Size = c.utf8Size + 0 by omega, this]
    rfl

theorem upperCharAt_eq (U : Unicode) (h : CaseHandling) (a b : Str) :
    upperCharAt U h (a ++ b) (byteLen a) = Run.ofOption (h.upperCharAt U (a ++ b) a.length) := by
  unfold upperCharAt CaseHandling.upperCharAt
  rw [sliceTo?_append, sliceFrom?_append, List.drop_left, List.take_left]
  simp only [need_some, ok_bind]
  rcases b with _ | ⟨c, _ | ⟨d, w⟩⟩
  · rfl
  · simp [charIndices, Run.ofOption, pure_ok]
  · simp only [charIndices, List.getElem?_cons_zero, need_some, ok_bind, List.getElem?_cons_succ]
    have := sliceFrom?_append (a ++ [c]) (d :: w)
    rw [byteLen_append] at this
    simp only [byteLen_cons, byteLen_nil, List.append_assoc, List.singleton_append] at this
    rw [show byteLen a + (0 + c.utf8Size) = byteLen a + (c.utf8Size + 0) by omega, this]
    simp [pure_ok, Run.ofOption]

/-! ## Words with dashes -/

theorem dashPieces_cut : ∀ (a pre cur b : Str), '-' ∉ a →
    dashPieces pre cur (a ++ '-' :: b) = (pre, cur ++ a, '-' :: b) :: dashPieces (pre ++ (cur ++ a) ++ ['-']) [] b
  | [], pre, cur, b, _ => by simp [dashPieces]
  | c :: a, pre, cur, b, h => by
    rw [List.mem_cons, not_or] at h
    rw [List.cons_append, dashPieces, if_neg (Ne.symm h.1), dashPieces_cut a _ _ _ h.2]
    simp

theorem dashPieces_none : ∀ (a pre cur : Str), '-' ∉ a → dashPieces pre cur a = [(pre, cur ++ a, [])]
  | [], pre, cur, _ => by simp [dashPieces]
  | c :: a, pre, cur, h => by
    rw [List.mem_cons, not_or] at h
    rw [dashPieces, if_neg (Ne.symm h.1), dashPieces_none a _ _ h.2]
    simp

theorem dashLoop_eq : ∀ (rounds : Nat) (pre rest : Str), rest.length < rounds →
    dashLoop (pre ++ rest) rounds (byteLen pre) = .ok (dashPieces pre [] rest)
  | 0, _, _, h => by omega
  | rounds + 1, pre, rest, h => by
    unfold dashLoop
    rw [findFrom_append]
    rcases cut '-' rest with ⟨a, b, rfl, ha⟩ | hn
    · rw [findChar_one ha, dashPieces_cut a _ _ _ ha]
      simp only [ok_bind, Option.map_some, List.nil_append]
      rw [Nat.add_comm (byteLen a), slice?_mid, sliceTo?_append]
      have e1 : pre ++ (a ++ '-' :: b) = (pre ++ a) ++ '-' :: b := by simp
      have e2 : byteLen pre + byteLen a = byteLen (pre ++ a) := by rw [byteLen_append]
      have e3 : pre ++ (a ++ '-' :: b) = (pre ++ a ++ ['-']) ++ b := by simp
      rw [e2, byteLen_ascii (c := '-') (by decide)]
      have := dashLoop_eq rounds (pre ++ a ++ ['-']) b (by simp at h; omega)
      rw [← e3] at this
      rw [this, e1, sliceFrom?_append]
      rfl
    · rw [findChar_one_none hn, dashPieces_none _ _ _ hn]
      simp only [ok_bind, Option.map_none, List.nil_append]
      rw [sliceFrom?_append, sliceTo?_append]
      rfl

/-! ## Parts of a replaced text -/

theorem repLoop_eq : ∀ (rounds : Nat) (pre a b : Str), ' ' ∉ a → b.length < rounds →
    repLoop (pre ++ (a ++ ' ' :: b)) rounds (byteLen pre) (byteLen pre + byteLen a) =
      .ok (spacedParts [] (a ++ ' ' :: b))
  | 0, _, _, _, _, h => by omega
  | rounds + 1, pre, a, b, ha, h => by
    unfold repLoop
    rw [slice?_mid, Suggester.spacedParts_append a [] b ha]
    have e3 : pre ++ (a ++ ' ' :: b) = (pre ++ a ++ [' ']) ++ b := by simp
    have e2 : byteLen pre + byteLen a + 1 = byteLen (pre ++ a ++ [' ']) := by
      rw [← byteLen_ascii (by decide), byteLen_append]
    simp only [need_some, ok_bind, e2, List.nil_append]
    rw [e3, sliceFrom?_append]
    simp only [need_some, ok_bind]
    rcases cut ' ' b with ⟨a', b', rfl, ha'⟩ | hn
    · rw [findChar_one ha']
      simp only
      rw [repLoop_eq rounds (pre ++ a ++ [' ']) a' b' ha' (by simp at h; omega)]
      rfl
    · rw [findChar_one_none hn, Suggester.spacedParts_last _ _ hn]
      rfl

theorem repParts_eq (word : Str) :
    repParts word = .ok (if ' ' ∈ word then some (spacedParts [] word) else none) := by
  unfold repParts
  rcases cut ' ' word with ⟨a, b, rfl, ha⟩ | hn
  · rw [findChar_one ha, if_pos (by simp)]
    have := repLoop_eq ((a ++ ' ' :: b).length + 1) [] a b ha (by simp; omega)
    simp only [List.nil_append, byteLen_nil, Nat.zero_add] at this
    simp only [this]
    rfl
  · rw [findChar_one_none hn, if_neg hn]
    rfl

/-! ## Two words -/

theorem writeOne_eq {a b : Str} {c d : Char} {x : UInt8} (hc : c.utf8Size = 1) (hd : utf8 [d] = [x]) :
    writeOne (a ++ c :: b) (byteLen a) x = .ok (a ++ d :: b) := by
  unfold writeOne
  have hu : (utf8 [c]).length = 1 := by
    rw [length_utf8, byteLen_cons, byteLen_nil, hc]
  rw [show utf8 (a ++ c :: b) = utf8 a ++ (utf8 [c] ++ utf8 b) by
      rw [← utf8_append, ← utf8_append]; rfl,
    onRange?_append (by rw [length_utf8]) (by rw [length_utf8, hu])]
  simp only [Option.map_some, need_some, ok_bind, ← hd]
  rw [← utf8_append, ← utf8_append, fromUtf8?_utf8]
  rfl

theorem twoWordsAt_eq (S : Suggester) (a b : Str) (out : List Str) :
    twoWordsAt S (a ++ b) out a.length (byteLen a) = .ok (S.twoWordsAt out (a, b)) := by
  unfold twoWordsAt Suggester.twoWordsAt
  rw [sliceTo?_append, sliceFrom?_append]
  simp only [need_some, ok_bind]
  split
  · rfl
  split
  · rfl
  have hb : (b[1]?.isSome = true) = (b.length > 1) := by simp
  simp only [hb, List.append_assoc, List.singleton_append]
  split
  · simp only [List.getLast?_append, List.getLast?_singleton, Option.some_or, need_some, ok_bind]
    rw [writeOne_eq (d := '-') (by decide) (by decide)]
    simp [pure_ok]
  · rfl

theorem twoWordsSuggest_eq (S : Suggester) (word : Str) (out : List Str) :
    twoWordsSuggest S word out = .ok (S.twoWordsSuggest word out) := by
  unfold twoWordsSuggest Suggester.twoWordsSuggest
  split
  · rfl
  have key : ∀ (k n : Nat) (out : List Str), n + k = word.length →
      (((charIndices (pos word n) (word.drop n)).zipIdx n).foldlM
        (fun out x => twoWordsAt S word out x.2 x.1.1) out : Run (List Str)) =
      .ok (((List.range' n k).map fun n => (word.take n, word.drop n)).foldl S.twoWordsAt out) := by
    intro k
    induction k with
    | zero =>
      intro n out h
      rw [List.drop_of_length_le (by omega)]
      rfl
    | succ k ih =>
      intro n out h
      have hn : n < word.length := by omega
      have hd : word.drop n = word[n] :: word.drop (n + 1) := List.drop_eq_getElem_cons hn
      have hp : pos word n + word[n].utf8Size = pos word (n + 1) := by
        unfold pos
        rw [List.take_succ_eq_append_getElem hn, byteLen_append, byteLen_cons, byteLen_nil]
        omega
      rw [hd, charIndices, hp, List.zipIdx_cons, List.foldlM_cons, List.range'_succ, List.map_cons,
        List.foldl_cons, ← ih (n + 1) _ (by omega)]
      simp only
      have := twoWordsAt_eq S (word.take n) (word.drop n) out
      rw [List.take_append_drop, List.length_take, Nat.min_eq_left (by omega)] at this
      rw [this]
      rfl
  have := key word.length 0 out (by simp)
  simp only [pos, List.take_zero, byteLen_nil, List.drop_zero] at this
  rw [wordCuts, List.range_eq_range', ← this]

/-! ## Camel and Pascal case -/

theorem dotSpace_eq (S : Suggester) (word : Str) (out : List Str) :
    dotSpace S word out = .ok (S.dotSpace word out) := by
  unfold dotSpace Suggester.dotSpace
  rcases cut '.' word with ⟨a, b, rfl, ha⟩ | hn
  · have h : splitOnce? ['.'] (a ++ '.' :: b) = some (a, b) := splitOnce?_char.2 ⟨rfl, ha⟩
    rw [findChar_one ha, h]
    simp only
    have e : a ++ '.' :: b = (a ++ ['.']) ++ b := by simp
    rw [byteLen_ascii (c := '.') (by decide), e, sliceFrom?_append, insertAt?_eq]
    simp only [need_some, ok_bind]
    split
    · simp [pure_ok]
    · rfl
  · rw [findChar_one_none hn, splitOnce?_char_none.2 hn]
    rfl

theorem tailIs_eq (word a b : Str) :
    tailIs word (a ++ b) (byteLen a) (byteLen b) = .ok (Suggester.hasTail word b) := by
  unfold tailIs Suggester.hasTail
  rw [sliceFrom?_append]
  by_cases hlt : byteLen word < byteLen b
  · rw [if_pos hlt, if_neg (by omega)]; rfl
  · rw [if_neg hlt, if_pos (by omega)]
    cases sliceFrom? word (byteLen word - byteLen b) <;> rfl

theorem titleAt_eq (S : Suggester) (word : Str) (done : List Str) (s : Str) (rest : List Str) :
    titleAt S word (done ++ s :: rest) done.length =
      match splitOnce? [' '] s with
      | none => .ok (done ++ s :: rest)
      | some (before, after) =>
        if Suggester.hasTail word after then .ok (done ++ s :: rest)
        else (S.upperAt s (before.length + 1)).bind fun titled => .ok (titled :: (done ++ rest)) := by
  unfold titleAt
  rw [List.getElem?_append_right (Nat.le_refl _), Nat.sub_self, List.getElem?_cons_zero]
  simp only [need_some, ok_bind]
  rcases cut ' ' s with ⟨a, b, rfl, ha⟩ | hn
  · have h : splitOnce? [' '] (a ++ ' ' :: b) = some (a, b) := splitOnce?_char.2 ⟨rfl, ha⟩
    rw [findChar_one ha, h]
    have e : a ++ ' ' :: b = (a ++ [' ']) ++ b := by simp
    simp only [Option.map_some]
    rw [byteLen_ascii (c := ' ') (by decide), e]
    have hl : byteLen ((a ++ [' ']) ++ b) = byteLen (a ++ [' ']) + byteLen b := byteLen_append _ _
    rw [hl, if_pos (by omega), Nat.add_sub_cancel_left]
    simp only [need_some, ok_bind]
    rw [tailIs_eq]
    simp only [ok_bind]
    split
    · rfl
    · rw [upperCharAt_eq]
      unfold Suggester.upperAt
      rw [show (a ++ [' ']).length = a.length + 1 by simp]
      congr 1
      funext titled
      rw [List.set_append_right _ _ (Nat.le_refl _), Nat.sub_self, List.set_cons_zero]
      split
      · have e1 : done ++ titled :: rest = (done ++ [titled]) ++ rest := by simp
        rw [e1, List.take_left' (by simp), List.drop_left' (by simp)]
        congr 1
        have : (done ++ [titled]).rotateRight 1 = titled :: done := by
          unfold List.rotateRight
          have h0 : done.length ≠ 0 := by omega
          have h1 : ¬ done.length + 1 ≤ 1 := by omega
          simp [h0, Nat.mod_eq_of_lt (show 1 < done.length + 1 by omega)]
        rw [this]; rfl
      · have : done = [] := List.length_eq_zero_iff.1 (by omega)
        subst this
        rfl
  · rw [findChar_one_none hn, splitOnce?_char_none.2 hn]
    rfl

theorem titleSecond_fold (S : Suggester) (word : Str) : ∀ (rest done : List Str),
    ((List.range' done.length rest.length).foldlM (titleAt S word) (done ++ rest) : Run (List Str)) =
      S.titleSecond word done rest
  | [], done => by simp [Suggester.titleSecond, pure_ok]
  | s :: rest, done => by
    rw [List.length_cons, List.range'_succ, List.foldlM_cons, titleAt_eq, Suggester.titleSecond]
    cases splitOnce? [' '] s with
    | none =>
      have := titleSecond_fold S word rest (done ++ [s])
      simpa using this
    | some r =>
      obtain ⟨a, b⟩ := r
      simp only
      split
      · have := titleSecond_fold S word rest (done ++ [s])
        simpa using this
      · cases S.upperAt s (a.length + 1) with
        | error e => rfl
        | ok titled =>
          have := titleSecond_fold S word rest (titled :: done)
          rw [List.cons_append, List.length_cons] at this
          exact this

theorem titleSecond_eq (S : Suggester) (word : Str) (out : List Str) :
    titleSecond S word out = S.titleSecond word [] out := by
  unfold titleSecond
  rw [List.range_eq_range']
  exact titleSecond_fold S word out []

/-! ## The suggester as a whole -/

theorem mapM_run {α β : Type} {f : α → Run β} {g : α → β} (h : ∀ a, f a = .ok (g a)) :
    ∀ l : List α, l.mapM f = .ok (l.map g)
  | [] => rfl
  | a :: l => by rw [List.mapM_cons, h, mapM_run h l]; rfl

section
variable (S : Suggester) (hm : 0 < S.C.opts.minChars) (fuel : Nat)
include hm

theorem addIfCorrect_eq (word : Str) (out : List Str) :
    addIfCorrect S fuel word out = S.addIfCorrect fuel word out := by
  unfold addIfCorrect Suggester.addIfCorrect
  rw [checkWord_eq S.C hm]
  rfl

theorem addAll_eq (texts out : List Str) : addAll S fuel texts out = S.addAll fuel texts out := by
  unfold addAll Suggester.addAll
  simp only [addIfCorrect_eq S hm]

theorem uppercaseSuggest_eq (word : Str) (out : List Str) :
    uppercaseSuggest S fuel word out = S.uppercaseSuggest fuel word out := by
  unfold uppercaseSuggest Suggester.uppercaseSuggest
  simp only [addIfCorrect_eq S hm]

theorem allParts_eq : ∀ parts, allParts S fuel parts = S.allParts fuel parts
  | [] => rfl
  | p :: ps => by
    unfold allParts Suggester.allParts
    rw [checkWord_eq S.C hm, allParts_eq ps]
    rfl

theorem tryRep_eq (word : Str) (out : List Str) : tryRep S fuel word out = S.tryRep fuel word out := by
  unfold tryRep Suggester.tryRep
  simp only [addIfCorrect_eq S hm, repParts_eq, ok_bind]
  congr 1
  funext r
  obtain ⟨added, out⟩ := r
  simp only
  split
  · rfl
  have hc : containsStr word [' '] = true ↔ ' ' ∈ word := by
    unfold containsStr
    cases h : splitOnce? [' '] word with
    | none => simp [splitOnce?_char_none.1 h]
    | some r =>
      obtain ⟨a, b⟩ := r
      obtain ⟨rfl, _⟩ := splitOnce?_char.1 h
      simp
  by_cases hs : ' ' ∈ word
  · rw [if_pos hs, if_pos (hc.2 hs)]
    simp only [allParts_eq S hm]
  · rw [if_neg hs, if_neg fun h => hs (hc.1 h)]

theorem repSuggest_eq (word : Str) (out : List Str) :
    repSuggest S fuel word out = S.repSuggest fuel word out := by
  unfold repSuggest Suggester.repSuggest
  simp only [tryRep_eq S hm, need_ofOption]

theorem mapSuggest_eq (word : Str) (out : List Str) :
    mapSuggest S fuel word out = S.mapSuggest fuel word out := by
  unfold mapSuggest Suggester.mapSuggest
  simp only [addAll_eq S hm, need_ofOption]

theorem free_eq (e : Edit) (word : Str) (out : List Str) : free S fuel e word out = S.free fuel e word out := by
  unfold free Suggester.free
  simp only [addAll_eq S hm, need_ofOption]

theorem limited_eq (e : Edit) (word : Str) (out : List Str) :
    limited S fuel e word out = S.limited fuel e word out := by
  unfold limited Suggester.limited
  simp only [addAll_eq S hm, need_ofOption]

theorem suggestEdits_eq (word : Str) (out : List Str) :
    suggestEdits S fuel word out = S.suggestEdits fuel word out := by
  unfold suggestEdits Suggester.suggestEdits
  simp only [free_eq S hm, limited_eq S hm, twoWordsSuggest_eq, pure_ok]

theorem highQuality_eq (word : Str) (m n : Nat) :
    highQuality S fuel word m n = S.highQuality fuel word m n := by
  unfold highQuality Suggester.highQuality
  simp only [checkWord_eq S.C hm]

theorem suggestLow_eq (word : Str) (out : List Str) :
    suggestLow S fuel word out = S.suggestLow fuel word out := by
  unfold suggestLow Suggester.suggestLow
  simp only [uppercaseSuggest_eq S hm, repSuggest_eq S hm, mapSuggest_eq S hm, highQuality_eq S hm,
    suggestEdits_eq S hm]

theorem lowThenFront_eq (word : Str) (hq : Bool) (out : List Str) :
    lowThenFront S fuel word hq out = S.lowThenFront fuel word hq out := by
  unfold lowThenFront Suggester.lowThenFront
  simp only [suggestLow_eq S hm, check_eq S.C hm]

theorem mixedCase_eq (pascal : Bool) (word : Str) (out : List Str) :
    mixedCase S fuel pascal word out = S.mixedCase fuel pascal word out := by
  unfold mixedCase Suggester.mixedCase pascalLower Suggester.pascalLower pascalTitle Suggester.pascalTitle
  simp only [suggestLow_eq S hm, lowThenFront_eq S hm, dotSpace_eq, titleSecond_eq, lowerFirstChar_eq, ok_bind]

theorem allCaps_eq (word : Str) (out : List Str) : allCaps S fuel word out = S.allCaps fuel word out := by
  unfold allCaps Suggester.allCaps keepLower Suggester.keepLower
  simp only [suggestLow_eq S hm, check_eq S.C hm]

theorem initCase_eq (word : Str) (out : List Str) : initCase S fuel word out = S.initCase fuel word out := by
  unfold initCase Suggester.initCase
  simp only [suggestLow_eq S hm]

theorem dashPart_eq (rec' : Str → List Str → Run (List Str)) : dashPart S fuel rec' = S.dashPart fuel rec' := by
  funext out x
  obtain ⟨pre, part, post⟩ := x
  have : dashCandidate S fuel pre post = S.dashCandidate fuel pre post := by
    funext out s
    unfold dashCandidate Suggester.dashCandidate
    simp only [checkWord_eq S.C hm]
    rfl
  unfold dashPart Suggester.dashPart
  simp only [check_eq S.C hm, this]

theorem dashes_eq (rec' : Str → List Str → Run (List Str)) (word : Str) (out : List Str) :
    dashes S fuel rec' word out = S.dashes fuel rec' word out := by
  unfold dashes Suggester.dashes
  have := dashLoop_eq (word.length + 1) [] word (by omega)
  rw [List.nil_append, byteLen_nil] at this
  simp only [this, ok_bind, dashPart_eq S hm]

theorem recheckAll_eq : ∀ out, recheckAll S fuel out = S.recheckAll fuel out
  | [] => rfl
  | s :: rest => by
    unfold recheckAll Suggester.recheckAll recheck Suggester.recheck
    simp only [check_eq S.C hm, recheckAll_eq rest]

theorem capitalise_eq (casing : Casing) (out : List Str) :
    capitalise S casing out = S.capitalise casing out := by
  unfold capitalise Suggester.capitalise
  have : (fun s => upperCharAt S.C.U S.C.opts.caseHandling s 0) = fun s => S.upperAt s 0 := by
    funext s
    exact upperCharAt_eq S.C.U S.C.opts.caseHandling [] s
  rw [this]

theorem finish_eq (casing : Casing) (out : List Str) : finish S fuel casing out = S.finish fuel casing out := by
  unfold finish Suggester.finish retained Suggester.retained
  simp only [capitalise_eq S hm, recheckAll_eq S hm, need_ofOption, mapM_run (convert_eq _), pure_ok]

omit hm in
theorem ngramPart_eq (casing : Casing) (word : Str) (hq : Bool) (out : List Str) :
    ngramPart S casing word hq out = S.ngramPart casing word hq out := by
  unfold ngramPart Suggester.ngramPart
  simp only [ngramSuggest_eq]
  split
  · generalize (if casing = Casing.none then word else S.C.lowercase word) = w
    cases h : S.C.ngramSuggest S.H w out with
    | error e => rfl
    | ok out' =>
      obtain ⟨new, rfl, _⟩ := Checker.ngramSuggest_new h
      simp only [ok_bind]
      split
      · rw [if_pos (by simp)]; rfl
      · rfl
  · rfl

theorem suggestConverted_eq (rec' : Str → List Str → Run (List Str)) (word : Str) (out : List Str) :
    suggestConverted S fuel rec' word out = S.suggestConverted fuel rec' word out := by
  unfold suggestConverted Suggester.suggestConverted forceTitle Suggester.forceTitle afterCasing
    Suggester.afterCasing
  simp only [ngramPart_eq, dashes_eq S hm, finish_eq S hm, suggestLow_eq S hm, initCase_eq S hm,
    mixedCase_eq S hm, allCaps_eq S hm, checkCompound_eq S.C hm]
  rfl

theorem suggestImpl_eq : ∀ depth, suggestImpl S fuel depth = S.suggestImpl fuel depth
  | 0 => rfl
  | depth + 1 => by
    funext word out
    unfold suggestImpl Suggester.suggestImpl
    rw [suggestImpl_eq depth, convert_eq]
    simp only [ok_bind, suggestConverted_eq S hm]

theorem suggest_eq (depth : Nat) (word : Str) (out : List Str) :
    suggest S fuel depth word out = S.suggest fuel depth word out := by
  unfold suggest Suggester.suggest
  rw [suggestImpl_eq S hm]

end

end Spellbook.Bytes
