import Verif.Spec.Compound
import Verif.Proof.Simple
import Verif.Proof.Tables
import Verif.Proof.Words
import Verif.Proof.Run
/-! # Compounds: what the search finds -/

namespace Spellbook

theorem startsWith_iff {s p : Str} : startsWith s p = true ↔ ∃ t, s = p ++ t := by
  unfold startsWith
  rw [List.isPrefixOf_iff_prefix]
  exact ⟨fun ⟨t, h⟩ => ⟨t, h.symm⟩, fun ⟨t, h⟩ => ⟨t, h.symm⟩⟩

theorem endsWith_iff {s p : Str} : endsWith s p = true ↔ ∃ t, s = t ++ p := by
  unfold endsWith
  rw [List.isSuffixOf_iff_suffix]
  exact ⟨fun ⟨t, h⟩ => ⟨t, h.symm⟩, fun ⟨t, h⟩ => ⟨t, h.symm⟩⟩

theorem eq_append_singleton_of_reverse {l : Str} {c : Char} {t : Str} (h : l.reverse = c :: t) :
    l = t.reverse ++ [c] := by
  rw [← List.reverse_reverse l, h]; simp

theorem areThreeCharsEqual_iff {word : Str} {i : Nat} :
    areThreeCharsEqual word i = true ↔ Spec.ThreeEqual (word.take i) (word.drop i) := by
  unfold areThreeCharsEqual Spec.ThreeEqual
  constructor
  · intro h
    split at h
    · simp at h
    · simp at h
    · rename_i ch ahead prev behind hd ht
      have ht' := eq_append_singleton_of_reverse ht
      rw [hd, ht']
      split at h
      · rename_i hp
        have hp : prev = ch := by simpa using hp
        subst hp
        cases ahead with
        | cons x xs =>
          by_cases hx : x = prev
          · subst hx
            exact ⟨x, behind.reverse, xs, Or.inr ⟨rfl, rfl⟩⟩
          · cases behind with
            | nil => simp [hx] at h
            | cons y ys =>
              have : y = prev := by simpa [hx] using h
              subst this
              exact ⟨y, ys.reverse, x :: xs, Or.inl ⟨by simp, rfl⟩⟩
        | nil =>
          cases behind with
          | nil => simp at h
          | cons y ys =>
            have : y = prev := by simpa using h
            subst this
            exact ⟨y, ys.reverse, [], Or.inl ⟨by simp, rfl⟩⟩
      · simp at h
  · rintro ⟨c, a, b, ⟨h1, h2⟩ | ⟨h1, h2⟩⟩
    · rw [h1, h2]; cases b <;> simp
    · rw [h1, h2]; simp

theorem hasUppercaseAtBoundary_iff {U : Unicode} {word : Str} {i : Nat} :
    hasUppercaseAtBoundary U word i = true ↔ Spec.CapitalAt U (word.take i) (word.drop i) := by
  unfold hasUppercaseAtBoundary Spec.CapitalAt
  constructor
  · intro h
    split at h
    · simp at h
    · simp at h
    · rename_i ch ahead prev behind hd ht
      have ht' := eq_append_singleton_of_reverse ht
      rw [hd, ht']
      exact ⟨prev, ch, behind.reverse, ahead, rfl, rfl, by simpa using h⟩
  · rintro ⟨x, y, a, b, h1, h2, h⟩
    rw [h1, h2]
    simpa using h

namespace Checker
open Spec

theorem isValidInside_iff {C : Checker} {m : Mode} (hm : m ≠ .full) {F : FlagSet} :
    C.isValidInsideCompound m F = true ↔ MayStandAt C.dict m F := by
  unfold MayStandAt
  rw [← hasFlag_iff, ← hasFlag_iff]
  unfold isValidInsideCompound Spec.positionFlag Checker.opts
  cases m <;> simp at hm ⊢ <;> cases hasFlag F C.dict.aff.options.compoundFlag <;> simp

theorem isValid_iff {C : Checker} {k : Kind} {m : Mode} (hm : m ≠ .full) {a : Affix} :
    isValid k m a C.opts = true ↔ AffixAt C.dict k m a := by
  have h1 : ∀ f, (hasFlag a.flags f = true) ↔ _ := fun f => hasFlag_iff
  unfold isValid
  constructor
  · intro h
    constructor
    · intro hk
      rw [← h1]
      rcases hk with ⟨rfl, rfl⟩ | ⟨rfl, rfl⟩ <;>
        (by_contra hn; simp [Checker.opts] at h; simp [h] at hn)
    · rw [← h1]
      intro hn
      cases m <;> simp [Checker.opts, hn] at h hm
  · rintro ⟨h2, h3⟩
    rw [← h1] at h2 h3
    cases k <;> cases m <;> simp [Checker.opts] at h2 h3 hm ⊢ <;> simp [h2, h3]

/-- The result reported for a piece. -/
def resultOf (C : Checker) (m : Mode) (p : Piece) : CompoundingResult :=
  match p.affixes with
  | [(.sfx, s)] =>
    { stem := p.stem, flags := p.flags,
      numSyllableModifier := C.syllableModifierWithSuffix m p.flags s,
      affixedAndModified := s.isModifying }
  | [(.pfx, q)] =>
    { stem := p.stem, flags := p.flags, numWordsModifier := C.numWordsModifier q,
      affixedAndModified := q.isModifying }
  | [(.sfx, s), (.pfx, q)] =>
    { stem := p.stem, flags := p.flags, numWordsModifier := C.numWordsModifier q,
      numSyllableModifier := C.syllableModifierWithSuffix m p.flags s,
      affixedAndModified := q.isModifying || s.isModifying }
  | _ => { stem := p.stem, flags := p.flags, numSyllableModifier := C.syllableModifier m p.flags }

theorem isModifying_iff {a : Affix} : a.isModifying = true ↔ a.strip ≠ none ∨ a.add ≠ [] := by
  unfold Affix.isModifying
  cases a.strip <;> simp

theorem resultOf_stem {C : Checker} {m : Mode} {p : Piece} : (C.resultOf m p).stem = p.stem := by
  unfold resultOf; split <;> rfl
theorem resultOf_flags {C : Checker} {m : Mode} {p : Piece} : (C.resultOf m p).flags = p.flags := by
  unfold resultOf; split <;> rfl

theorem resultOf_modified {C : Checker} {m m' : Mode} {p : Piece}
    (h : Part C.dict m' p.text p.stem p.flags p.affixes) :
    (C.resultOf m p).affixedAndModified = true ↔ p.Modified := by
  unfold resultOf Piece.Modified
  generalize hl : p.affixes = l at h
  cases h with
  | listed => simp
  | @one k a => cases k <;> simp [isModifying_iff]
  | pair => simp [isModifying_iff, or_comm]

theorem resultOf_words {C : Checker} {m : Mode} {p : Piece}
    (hv : C.dict.aff.compoundSyllableVowels = []) : (C.resultOf m p).numWordsModifier = 0 := by
  unfold resultOf numWordsModifier Checker.aff
  split <;> simp [hv]

theorem resultOf_syllables {C : Checker} {m : Mode} {p : Piece}
    (hv : C.dict.aff.compoundSyllableVowels = []) : (C.resultOf m p).numSyllableModifier = 0 := by
  unfold resultOf syllableModifier syllableModifierWithSuffix Checker.aff
  split <;> simp [hv]

theorem compoundEntry_yields {C : Checker} (m : Mode) (word : Str) :
    Yields ((C.entries word).findSome? (C.compoundEntry m)) fun r => ∃ F,
      (word, F) ∈ C.dict.words.slots ∧ ¬ Has F C.opts.needAffixFlag ∧
      MayStandAt C.dict m F ∧ 65535 ∉ F.elems ∧
      r = C.resultOf m ⟨word, word, F, []⟩ := by
  refine .entry fun F hF => ?_
  unfold compoundEntry
  refine .guardIff hasFlag_false fun _ => .guardIff ?_ fun _ => .guardIff ?_ fun _ => .some _
  · unfold MayStandAt
    rw [← hasFlag_iff, ← hasFlag_iff]
    show (!hasFlag F C.dict.aff.options.compoundFlag &&
      !hasFlag F (Spec.positionFlag C.dict m)) = false ↔ _
    cases hasFlag F C.dict.aff.options.compoundFlag <;> simp
  · rw [← Bool.not_eq_true, FlagSet.contains_iff]; rfl

theorem Yields.bindMap {α β : Type} {o : Option α} {P : α → Prop} {f : α → Option β} {g : α → β}
    (h : Yields o P) (hf : ∀ a, P a → f a = some (g a)) :
    Yields (o.bind f) (fun b => ∃ a, P a ∧ b = g a) := by
  constructor
  · intro b hb
    obtain ⟨a, ha, hfa⟩ := Option.bind_eq_some_iff.1 hb
    have hp := h.1 a ha
    rw [hf a hp] at hfa
    exact ⟨a, hp, by simpa using hfa.symm⟩
  · rintro ⟨b, a, ha, _⟩
    obtain ⟨x, hx⟩ := Option.isSome_iff_exists.1 (h.2 ⟨a, ha⟩)
    rw [hx]
    simp [hf x (h.1 x hx)]

/-- The piece for a form reported by the stripping functions. -/
def pieceOf (word : Str) (f : AffixForm) : Piece :=
  ⟨word, f.stem, f.flags,
    (f.suffixes.1.toList.map fun a => (Kind.sfx, a)) ++ f.prefixes.1.toList.map fun a => (Kind.pfx, a)⟩

/-- `check_word_in_compound` finds a part with this text exactly if there is one. -/
theorem checkWordInCompound_yields {C : Checker} (hC : C.dict.CondsParsed) {m : Mode}
    (hm : m ≠ .full) (word : Str) :
    Yields (C.checkWordInCompound m word) fun r => ∃ p : Piece,
      p.text = word ∧ Part C.dict m p.text p.stem p.flags p.affixes ∧ r = C.resultOf m p := by
  have h := (compoundEntry_yields (C := C) m word).or <|
    (Yields.bindMap (f := C.suffixResult m) (g := fun f => C.resultOf m (pieceOf word f))
      (stripOnly_yields hC .sfx m word .skip) (by
        rintro f ⟨a, stem, _, _, _, _, _, F, _, _, _, _, _, rfl⟩
        rfl)).or <|
    (Yields.bindMap (f := C.prefixResult) (g := fun f => C.resultOf m (pieceOf word f))
      (stripOnly_yields hC .pfx m word .skip) (by
        rintro f ⟨a, stem, _, _, _, _, _, F, _, _, _, _, _, rfl⟩
        rfl)).or <|
    (Yields.bindMap (f := C.commResult m) (g := fun f => C.resultOf m (pieceOf word f))
      (stripComm_yields hC m word .skip) (by
        rintro f ⟨p, stem, _, _, _, _, s, stem2, _, _, _, _, _, _, F, _, _, _, _, _, rfl⟩
        rfl))
  refine Yields.congr h fun r => ?_
  simp only [isValidInside_iff hm, isValid_iff hm]
  have hsk : HiddenHomonym.skip.skips = true := rfl
  constructor
  · rintro (⟨F, h1, h2, h3, h4, rfl⟩ | ⟨f, ⟨a, stem, ⟨h1, h2⟩, ⟨h3, h4⟩, h5, h6, h7, F, h8, h9, h10,
      h11, h12, rfl⟩, rfl⟩ | ⟨f, ⟨a, stem, ⟨h1, h2⟩, ⟨h3, h4⟩, h5, h6, h7, F, h8, h9, h10,
      h11, h12, rfl⟩, rfl⟩ | ⟨f, ⟨p, stem, ⟨h1, h2⟩, h3, h4, h5, s, stem2, ⟨h6, h7⟩, h8, h9, h10,
      h11, h12, F, h13, h14, h15, h16, h17, rfl⟩, rfl⟩)
    · exact ⟨_, rfl, .listed h1 h4 rfl h2 h3, rfl⟩
    · refine ⟨_, rfl, .one h8 (h11 hsk) ⟨h1, h2, h7⟩ h9 h3 h4 h6 ?_ h12, rfl⟩
      intro h13 h14
      by_contra hc; exact h5 ⟨h14, h13, hc⟩
    · refine ⟨_, rfl, .one h8 (h11 hsk) ⟨h1, h2, h7⟩ h9 h3 h4 h6 ?_ h12, rfl⟩
      intro h13 h14
      by_contra hc; exact h5 ⟨h14, h13, hc⟩
    · exact ⟨_, rfl, .pair h13 (h16 hsk) ⟨h6, h7, h12⟩ ⟨h1, h2, h5⟩ ⟨h8, h3⟩ ⟨h9, h4⟩ h11.symm h14
        h17, rfl⟩
  · rintro ⟨⟨text, stem, F, l⟩, rfl, h, rfl⟩
    simp only at h ⊢
    cases h with
    | listed h1 h2 h3 h4 h5 =>
      subst h3
      exact Or.inl ⟨F, h1, h4, h5, h2, rfl⟩
    | @one k a h1 h2 h3 h4 h5 h6 h7 h8 h9 =>
      have hg : ∃ a_1 stem_1, (a_1 ∈ tableOf C.dict k ∧ Applies k a_1 stem_1 text) ∧
          (AffixAt C.dict k m a_1 ∧ ¬ NeedsAffix C.dict a_1) ∧
          ¬ (a_1.add ≠ [] ∧ m = .atEnd ∧ ¬ InFullWord C.dict a_1) ∧ ¬ Circumfix C.dict a_1 ∧
          CondHolds k a_1 stem_1 ∧ ∃ F', (stem_1, F') ∈ C.dict.words.slots ∧ a_1.flag ∈ F'.elems ∧
          ¬ (m = .full ∧ Has F' C.opts.onlyInCompoundFlag) ∧
          (HiddenHomonym.skip.skips = true → 65535 ∉ F'.elems) ∧
          (MayStandAt C.dict m F' ∨ MayStandAt C.dict m a_1.flags) ∧
          onlyForm k stem F a = onlyForm k stem_1 F' a_1 :=
        ⟨a, stem, ⟨h3.mem, h3.applies⟩, ⟨h5, h6⟩, fun ⟨x, y, z⟩ => z (h8 y x), h7, h3.cond, F, h1, h4,
          fun ⟨x, _⟩ => hm x, fun _ => h2, h9, rfl⟩
      cases k with
      | sfx => exact Or.inr (Or.inl ⟨onlyForm .sfx stem F a, hg, rfl⟩)
      | pfx => exact Or.inr (Or.inr (Or.inl ⟨onlyForm .pfx stem F a, hg, rfl⟩))
    | @pair s p mid h1 h2 h3 h4 h5 h6 h7 h8 h9 =>
      refine Or.inr (Or.inr (Or.inr ⟨
        { stem := stem, flags := F, prefixes := (some p, none), suffixes := (some s, none) }, ⟨p, mid, ⟨h4.mem, h4.applies⟩, h5.2, h6.2, h4.cond, s, stem,
        ⟨h3.mem, h3.applies⟩, h5.1, h6.1, ?_, h7.symm, h3.cond, F, h1, h8, fun ⟨x, _⟩ => hm x,
        fun _ => h2, h9, rfl⟩, rfl⟩))
      rintro ⟨x, y⟩
      rcases h8 with h8 | h8
      · exact h8.1 x
      · exact h8.1 y

theorem isSimpleWord_iff {C : Checker} (hC : C.dict.CondsParsed) {text : Str} :
    C.isSimpleWord text = true ↔ ∃ stem F steps, Derives .code C.dict true text stem F steps := by
  unfold isSimpleWord
  rw [(checkSimpleWord_yields hC text .skip).isSome_iff]
  constructor
  · rintro ⟨F, stem, steps, h⟩; exact ⟨stem, F, steps, h⟩
  · rintro ⟨stem, F, steps, h⟩; exact ⟨F, stem, steps, h⟩

theorem isRepSimilar_iff {C : Checker} (hC : C.dict.CondsParsed) {text : Str} :
    C.isRepSimilar text = true ↔ RepSimilar C.dict text := by
  unfold isRepSimilar RepSimilar Checker.aff
  simp only [← exists_and_right]
  have key : ∀ P : Str → Prop, (∃ new stem F steps, Derives .code C.dict true new stem F steps ∧ P new) ↔
      ∃ new, C.isSimpleWord new = true ∧ P new := by
    intro P
    constructor
    · rintro ⟨new, stem, F, steps, h, hp⟩; exact ⟨new, (isSimpleWord_iff hC).2 ⟨stem, F, steps, h⟩, hp⟩
    · rintro ⟨new, h, hp⟩
      obtain ⟨stem, F, steps, h⟩ := (isSimpleWord_iff hC).1 h
      exact ⟨new, stem, F, steps, h, hp⟩
  rw [key]
  simp only [Bool.if_true_left, Bool.if_false_left, Bool.or_eq_true, Bool.and_eq_true, Bool.not_eq_true',
    List.any_eq_true, decide_eq_true_eq, beq_iff_eq, Bool.decide_eq_true]
  constructor
  · rintro (⟨r, hr, h1, h2⟩ | ⟨h0, ⟨r, hr, h1, h2⟩ | ⟨r, hr, h1, h2⟩ | ⟨r, hr, i, hi, h2⟩⟩)
    · exact ⟨_, h2, Or.inl ⟨r, hr, h1, rfl⟩⟩
    · obtain ⟨t, rfl⟩ := startsWith_iff.1 h1
      exact ⟨_, h2, Or.inr ⟨h0, Or.inl ⟨r, hr, t, rfl, by simp⟩⟩⟩
    · obtain ⟨t, rfl⟩ := endsWith_iff.1 h1
      exact ⟨_, h2, Or.inr ⟨h0, Or.inr (Or.inl ⟨r, hr, t, rfl, by simp⟩)⟩⟩
    · exact ⟨_, h2, Or.inr ⟨h0, Or.inr (Or.inr ⟨r, hr, i, hi, rfl⟩)⟩⟩
  · rintro ⟨new, h, ⟨r, hr, h1, rfl⟩ | ⟨h0, ⟨r, hr, x, rfl, rfl⟩ | ⟨r, hr, x, rfl, rfl⟩ |
      ⟨r, hr, i, hi, rfl⟩⟩⟩
    · exact Or.inl ⟨r, hr, h1, h⟩
    · exact Or.inr ⟨h0, Or.inl ⟨r, hr, startsWith_iff.2 ⟨x, rfl⟩, by simpa using h⟩⟩
    · exact Or.inr ⟨h0, Or.inr (Or.inl ⟨r, hr, endsWith_iff.2 ⟨x, rfl⟩, by simpa using h⟩)⟩
    · exact Or.inr ⟨h0, Or.inr (Or.inr ⟨r, hr, i, hi, h⟩)⟩

theorem any_iff {α : Type} {o : Option α} {p : α → Bool} :
    o.any p = true ↔ ∃ a, o = some a ∧ p a = true := by
  cases o <;> simp

theorem matchCompoundPattern_iff {C : Checker} {m m' m1 : Mode} {c : CompoundPattern} {word : Str} {i : Nat}
    (hi : i ≤ word.length) {p q : Piece} (hp : Part C.dict m1 p.text p.stem p.flags p.affixes) :
    matchCompoundPattern c word i (C.resultOf m p) (C.resultOf m' q) = true ↔
      PatternForbids c (word.take i) (word.drop i) p q := by
  have hmod := resultOf_modified (m := m) hp
  unfold matchCompoundPattern PatternForbids
  simp only [resultOf_flags, Bool.if_false_left, Bool.and_eq_true, Bool.not_eq_true',
    decide_eq_false_iff_not, Nat.not_lt, Bool.if_true_right, Bool.or_false, ← Bool.not_eq_true,
    decide_eq_true_eq, Bool.not_not, Classical.not_not]
  have e1 : (c.first.length ≤ i ∧ startsWith (word.drop (i - c.first.length)) (c.first ++ c.second)
      = true) ↔ ((∃ a, word.take i = a ++ c.first) ∧ ∃ b, word.drop i = c.second ++ b) := by
    constructor
    · rintro ⟨h1, h2⟩
      obtain ⟨t, ht⟩ := startsWith_iff.1 h2
      have hw : word = word.take (i - c.first.length) ++ (c.first ++ c.second ++ t) := by
        rw [← ht]; simp
      have hl : (word.take (i - c.first.length)).length = i - c.first.length := by simp; omega
      generalize word.take (i - c.first.length) = x at hw hl
      have : i = x.length + c.first.length := by omega
      subst this
      rw [hw]
      refine ⟨⟨x, ?_⟩, ⟨t, ?_⟩⟩
      · rw [List.append_assoc, ← List.append_assoc x, List.take_left' (by simp)]
      · rw [List.append_assoc, ← List.append_assoc x, List.drop_left' (by simp)]
    · rintro ⟨⟨a, ha⟩, ⟨b, hb⟩⟩
      have hw : word = a ++ (c.first ++ c.second ++ b) := by
        rw [← List.take_append_drop i word, ha, hb]; simp
      have hl : i = a.length + c.first.length := by
        have := congrArg List.length ha
        simp at this; omega
      subst hl
      refine ⟨by omega, startsWith_iff.2 ⟨b, ?_⟩⟩
      rw [hw]; simp
  rw [← and_assoc, e1, and_assoc]
  have e2 : ∀ (o : Option Nat) (F : FlagSet), (¬ (o.any fun f => !F.contains f) = true) ↔
      ∀ f, o = some f → f ∈ F.elems := by
    intro o F
    cases o <;> simp [FlagSet.contains_iff]
  rw [e2, e2]
  simp [hmod]

theorem not_forbiddenByPatterns {C : Checker} {m m' m1 : Mode} {word : Str} {i : Nat}
    (hi : i ≤ word.length) {p q : Piece} (hp : Part C.dict m1 p.text p.stem p.flags p.affixes) :
    C.forbiddenByPatterns word i (C.resultOf m p) (C.resultOf m' q) = false ↔
      ∀ c ∈ C.dict.aff.compoundPatterns, ¬ PatternForbids c (word.take i) (word.drop i) p q := by
  unfold forbiddenByPatterns Checker.aff
  rw [List.any_eq_false]
  simp only [matchCompoundPattern_iff hi hp]

/-! ### Soundness of the search -/

theorem take_add_slice {word : Str} {a b : Nat} (h : a ≤ b) :
    word.take a ++ slice word a b = word.take b := by
  unfold slice
  have : word.take a = (word.take b).take a := by rw [List.take_take]; congr 1; omega
  rw [this, List.take_append_drop]

theorem drop_eq_slice_add {word : Str} {a b : Nat} (h : a ≤ b) :
    word.drop a = slice word a b ++ word.drop b := by
  unfold slice
  conv => lhs; rw [← List.take_append_drop b word]
  by_cases hb : b ≤ word.length
  · rw [List.drop_append_of_le_length (by simp; omega)]
  · have h1 : word.drop b = [] := by simp; omega
    rw [h1]; simp

theorem length_slice {word : Str} {a b : Nat} (hb : b ≤ word.length) :
    (slice word a b).length = b - a := by
  unfold slice; simp; omega

/-- What the recursive search may answer. -/
def SearchSound (C : Checker) (fc : Forceucase) (search : Search) : Prop :=
  ∀ word start n r, start ≤ word.length → search word start n = .ok (some r) →
    ∃ q ps, Compound C.U C.dict fc .atMiddle n (word.take start) (word.drop start) (q :: ps) ∧
      (∃ m, r = C.resultOf m q)

theorem checkWordInCompound_some {C : Checker} (hC : C.dict.CondsParsed) {m : Mode}
    (hm : m ≠ .full) {word : Str} {r : CompoundingResult}
    (h : C.checkWordInCompound m word = some r) : ∃ p : Piece,
      p.text = word ∧ Part C.dict m p.text p.stem p.flags p.affixes ∧ r = C.resultOf m p :=
  (checkWordInCompound_yields hC hm word).1 r h

theorem not_rep {C : Checker} (hC : C.dict.CondsParsed) {text : Str}
    (h : ¬ (C.opts.compoundCheckRep && C.isRepSimilar text) = true) :
    C.dict.aff.options.compoundCheckRep = true → ¬ RepSimilar C.dict text := by
  intro h1 h2
  rw [← isRepSimilar_iff hC] at h2
  exact h (by rw [h2]; simpa [Checker.opts] using h1)

theorem notForbidden {C : Checker} {F : FlagSet} (h : ¬ F.contains C.opts.forbiddenWordFlag = true) :
    C.dict.aff.options.forbiddenWordFlag ∉ F.elems := by
  rwa [FlagSet.contains_iff] at h

theorem not_force {C : Checker} {fc : Forceucase} {F : FlagSet}
    (h : ¬ (fc.forbid && hasFlag F C.opts.compoundForceUppercaseFlag) = true) :
    fc = .forbidBad → ¬ Has F C.dict.aff.options.compoundForceUppercaseFlag := by
  rintro rfl h2
  rw [← hasFlag_iff] at h2
  exact h (by simpa [Forceucase.forbid] using h2)

theorem not_dup {C : Checker} {m m' m1 m2 : Mode} {p q : Piece}
    (hp : Part C.dict m1 p.text p.stem p.flags p.affixes)
    (hq : Part C.dict m2 q.text q.stem q.flags q.affixes)
    (h : ¬ (C.opts.compoundCheckDuplicate && C.resultOf m p == C.resultOf m' q) = true) :
    C.dict.aff.options.compoundCheckDuplicate = true → C.dict.aff.compoundSyllableVowels = [] →
      ¬ Duplicate p q := by
  rintro h1 hv ⟨h2, h3, h4⟩
  apply h
  rw [← resultOf_modified (m := m) hp, ← resultOf_modified (m := m') hq] at h4
  have e : C.resultOf m p = C.resultOf m' q := by
    have a1 := resultOf_stem (C := C) (m := m) (p := p)
    have a2 := resultOf_flags (C := C) (m := m) (p := p)
    have a3 := resultOf_words (C := C) (m := m) (p := p) hv
    have a4 := resultOf_syllables (C := C) (m := m) (p := p) hv
    have b1 := resultOf_stem (C := C) (m := m') (p := q)
    have b2 := resultOf_flags (C := C) (m := m') (p := q)
    have b3 := resultOf_words (C := C) (m := m') (p := q) hv
    have b4 := resultOf_syllables (C := C) (m := m') (p := q) hv
    generalize C.resultOf m p = x at *
    generalize C.resultOf m' q = y at *
    cases x; cases y
    simp only at *
    subst a1 a2 a3 a4 b1 b2 b3 b4
    simp only [h2, h3, CompoundingResult.mk.injEq, true_and]
    rwa [Bool.eq_iff_iff]
  rw [e]
  simpa [Checker.opts] using h1

theorem wordCount_eq {C : Checker} {m : Mode} {p : Piece}
    (hv : C.dict.aff.compoundSyllableVowels = []) :
    C.wordCount (C.resultOf m p) = rootBonus C.dict p.flags := by
  unfold wordCount rootBonus
  rw [resultOf_words hv, resultOf_flags]
  by_cases h : Has p.flags C.dict.aff.options.compoundRootFlag
  · simp [Checker.opts, hasFlag_iff.2 h, h]
  · simp [Checker.opts, hasFlag_false.2 h, h]

theorem flag_any {o : Option Nat} {F : FlagSet} (h : ¬ (o.any fun f => !F.contains f) = true) :
    ∀ f, o = some f → f ∈ F.elems := by
  cases o <;> simp_all [FlagSet.contains_iff]

theorem classicFirst_some {C : Checker} (hC : C.dict.CondsParsed) {m : Mode} (hm : m ≠ .full)
    {word : Str} {start i : Nat} {r : CompoundingResult}
    (h : C.classicFirst m word start i = some r) : ∃ p : Piece,
      p.text = slice word start i ∧ PieceAt C.dict m p ∧ r = C.resultOf m p ∧
      Boundary C.U C.dict (word.take i) (word.drop i) p none := by
  unfold classicFirst at h
  split at h
  · simp at h
  · rename_i r' hr
    obtain ⟨p, h1, h2, rfl⟩ := checkWordInCompound_some hC hm hr
    rw [resultOf_flags] at h
    split at h
    · simp at h
    rename_i hf
    split at h
    · simp at h
    rename_i ht
    split at h
    · simp at h
    rename_i hc
    refine ⟨p, h1, ⟨h2, notForbidden hf⟩, by simpa using h.symm, ⟨?_, ?_, by simp⟩⟩
    · intro ho hn
      rw [← areThreeCharsEqual_iff] at hn
      exact ht (by rw [hn]; simpa [Checker.opts] using ho)
    · intro _ ho hn
      rw [← hasUppercaseAtBoundary_iff] at hn
      exact hc (by rw [hn]; simpa [Checker.opts] using ho)

theorem classicSecond_accept {C : Checker} (hC : C.dict.CondsParsed)
    {word : Str} {start i n : Nat} {fc : Forceucase} {m m1 : Mode} {p : Piece}
    (hi : i ≤ word.length) (hp : Part C.dict m1 p.text p.stem p.flags p.affixes)
    (h : C.classicSecond word start i (n + C.wordCount (C.resultOf m p)) fc (C.resultOf m p) = .accept) :
    ∃ q : Piece, q.text = word.drop i ∧ PieceAt C.dict .atEnd q ∧
      Meet C.dict (word.take i) (word.drop i) p q none ∧
      (C.dict.aff.options.compoundCheckDuplicate = true →
        C.dict.aff.compoundSyllableVowels = [] → ¬ Duplicate p q) ∧
      (C.dict.aff.options.compoundCheckRep = true → ¬ RepSimilar C.dict (word.drop start)) ∧
      (fc = .forbidBad → ¬ Has q.flags C.dict.aff.options.compoundForceUppercaseFlag) ∧
      WordMax C.dict n p q none false := by
  unfold classicSecond at h
  split at h
  · simp at h
  · rename_i r hr
    obtain ⟨q, h1, h2, rfl⟩ := checkWordInCompound_some hC (by simp) hr
    rw [resultOf_flags] at h
    iterate 5
      split at h
      · simp at h
    rename_i hf hpat hd hrep hfc
    refine ⟨q, h1, ⟨h2, notForbidden hf⟩, ⟨fun _ => ?_, by simp⟩, not_dup hp h2 hd, not_rep hC hrep,
      not_force hfc, ?_⟩
    · exact (not_forbiddenByPatterns hi hp).1 (by simpa using hpat)
    · intro hv max hmax
      simp only [Checker.aff, Checker.opts, hv, hmax, Option.any_some, List.isEmpty_nil] at h
      rw [wordCount_eq hv, wordCount_eq hv] at h
      split at h
      · simp at h
      · rename_i hx
        simp at hx
        show n + rootBonus C.dict p.flags + rootBonus C.dict q.flags + 2 ≤ max
        omega

theorem tripled_some {word t : Str} {i : Nat} (h : tripled word i = some t) :
    ∃ a c, word.take i = a ++ [c, c] ∧ t = word.take i ++ [c] ++ word.drop i := by
  unfold tripled at h
  split at h
  · rename_i c c' l hl
    split at h
    · rename_i hc
      have hc : c = c' := by simpa using hc
      subst hc
      refine ⟨l.reverse, c, ?_, by simpa using h.symm⟩
      rw [eq_append_singleton_of_reverse hl]; simp
    · simp at h
  · simp at h

theorem tripleSecond_accept {C : Checker} (hC : C.dict.CondsParsed)
    {triple word : Str} {start i n : Nat} {fc : Forceucase} {m m1 : Mode} {p : Piece}
    (hi : i ≤ triple.length) (hp : Part C.dict m1 p.text p.stem p.flags p.affixes)
    (h : C.tripleSecond triple word start i (n + C.wordCount (C.resultOf m p)) fc (C.resultOf m p)
      = .accept) :
    ∃ q : Piece, q.text = triple.drop i ∧ PieceAt C.dict .atEnd q ∧
      Meet C.dict (triple.take i) (triple.drop i) p q none ∧
      (C.dict.aff.options.compoundCheckDuplicate = true →
        C.dict.aff.compoundSyllableVowels = [] → ¬ Duplicate p q) ∧
      (C.dict.aff.options.compoundCheckRep = true → ¬ RepSimilar C.dict (word.drop start)) ∧
      (fc = .forbidBad → ¬ Has q.flags C.dict.aff.options.compoundForceUppercaseFlag) ∧
      WordMax C.dict n p q none true := by
  unfold tripleSecond at h
  split at h
  · simp at h
  · rename_i r hr
    obtain ⟨q, h1, h2, rfl⟩ := checkWordInCompound_some hC (by simp) hr
    rw [resultOf_flags] at h
    iterate 6
      split at h
      · simp at h
    rename_i hf hpat hd hrep hfc hmx
    refine ⟨q, h1, ⟨h2, notForbidden hf⟩, ⟨fun _ => ?_, by simp⟩, not_dup hp h2 hd, not_rep hC hrep,
      not_force hfc, ?_⟩
    · exact (not_forbiddenByPatterns hi hp).1 (by simpa using hpat)
    · intro hv max hmax
      rw [wordCount_eq hv] at hmx
      simp only [Checker.opts, hmax, Option.any_some] at hmx
      simpa using hmx

theorem not_rep_after {C : Checker} (hC : C.dict.CondsParsed) {word : Str} {start i : Nat}
    {r : CompoundingResult} (h : ¬ C.repAfterRecursion word start i r = true) :
    C.dict.aff.options.compoundCheckRep = true → ¬ RepSimilar C.dict (word.drop start) := by
  intro h1 h2
  rw [← isRepSimilar_iff hC] at h2
  refine h ?_
  unfold repAfterRecursion
  rw [h2]
  simpa [Checker.opts] using h1

theorem simplifiedTriple_some {C : Checker} (hC : C.dict.CondsParsed) {fc : Forceucase}
    {search : Search} (hs : SearchSound C fc search) {word : Str} {start i n : Nat} {m : Mode}
    {p : Piece} (hsi : start ≤ i) (hi : i ≤ word.length)
    (hmin : C.dict.aff.options.minChars ≤ i - start ∧
      C.dict.aff.options.minChars ≤ word.length - i)
    (htext : p.text = slice word start i) (hp : PieceAt C.dict m p)
    (hb : Boundary C.U C.dict (word.take i) (word.drop i) p none) {r : CompoundingResult}
    (h : C.simplifiedTriple search word start i (n + C.wordCount (C.resultOf m p)) fc
      (C.resultOf m p) = .ok (some r)) :
    r = C.resultOf m p ∧
    ∃ ps, Compound C.U C.dict fc m n (word.take start) (word.drop start) (p :: ps) := by
  have hcut : Cut C.dict (word.drop start) p.text (word.drop i) none := by
    refine .plain ?_ ?_
    · rw [htext]; exact drop_eq_slice_add hsi
    · rw [htext, length_slice hi]; simpa using hmin
  have hbef : word.take start ++ p.text = word.take i := by rw [htext, take_add_slice hsi]
  rw [← hbef] at hb
  unfold simplifiedTriple at h
  split at h
  · simp at h
  rename_i hon
  split at h
  · simp at h
  rename_i t ht
  obtain ⟨a, c, h1, rfl⟩ := tripled_some ht
  have hlen : (word.take i).length = i := by simp; omega
  have htake : (word.take i ++ [c] ++ word.drop i).take i = word.take i := by
    rw [List.append_assoc, List.take_left' hlen]
  have hdrop : (word.take i ++ [c] ++ word.drop i).drop i = c :: word.drop i := by
    rw [List.append_assoc, List.drop_left' hlen]; rfl
  have hres : Restored C.dict (word.take start ++ p.text) (word.drop i) (c :: word.drop i) true := by
    refine .triple (by simpa [Checker.opts] using hon) (a := a) ?_
    rw [hbef, h1]
  have hti : i ≤ (word.take i ++ [c] ++ word.drop i).length := by simp; omega
  split at h
  · rename_i hv
    obtain ⟨q, q1, q2, q3, q4, q5, q6, q7⟩ := tripleSecond_accept hC hti hp.part hv
    rw [htake, hdrop] at q3
    rw [hdrop] at q1
    refine ⟨by simpa using h.symm, [q], .two hcut hp hb (by rw [q1]; exact hres) q2 ?_ q4 q5 q6 q7⟩
    rw [hbef, q1]; exact q3
  · simp at h
  · unfold tripleRecursive at h
    obtain ⟨o, ho, h⟩ := Run.bind_eq_ok.1 h
    cases o with
    | none => simp [pure, Except.pure] at h
    | some r2 =>
      obtain ⟨q, ps, hq, m2, rfl⟩ := hs _ _ _ _ hti ho
      dsimp only at h
      split at h
      · simp [pure, Except.pure] at h
      rename_i hpat
      split at h
      · simp [pure, Except.pure] at h
      rename_i hrep
      rw [htake, hdrop] at hq
      refine ⟨by simpa [pure, Except.pure] using h.symm, q :: ps,
        .more hcut hp hb hres (by rw [hbef]; exact hq) ⟨fun _ => ?_, by simp⟩
          (not_rep_after hC hrep) ?_⟩
      · have := (not_forbiddenByPatterns hti hp.part).1 (by simpa using hpat)
        rw [htake, hdrop] at this
        rw [hbef]; exact this
      · intro hv
        rw [wordCount_eq hv]; simp; omega

theorem classic_some {C : Checker} (hC : C.dict.CondsParsed) {fc : Forceucase} {search : Search}
    (hs : SearchSound C fc search) {word : Str} {start i n : Nat} {m : Mode} (hm : m ≠ .full)
    (hsi : start ≤ i) (hi : i ≤ word.length)
    (hmin : C.dict.aff.options.minChars ≤ i - start ∧
      C.dict.aff.options.minChars ≤ word.length - i) {r : CompoundingResult}
    (h : C.classic search m word start i n fc = .ok (some r)) :
    ∃ p ps, r = C.resultOf m p ∧
      Compound C.U C.dict fc m n (word.take start) (word.drop start) (p :: ps) := by
  unfold classic at h
  split at h
  · simp at h
  rename_i r1 hr1
  obtain ⟨p, htext, hp, rfl, hb⟩ := classicFirst_some hC hm hr1
  have hcut : Cut C.dict (word.drop start) p.text (word.drop i) none := by
    refine .plain ?_ ?_
    · rw [htext]; exact drop_eq_slice_add hsi
    · rw [htext, length_slice hi]; simpa using hmin
  have hbef : word.take start ++ p.text = word.take i := by rw [htext, take_add_slice hsi]
  have hb' := hb
  rw [← hbef] at hb'
  dsimp only at h
  split at h
  · rename_i hv
    obtain ⟨q, q1, q2, q3, q4, q5, q6, q7⟩ := classicSecond_accept hC hi hp.part hv
    refine ⟨p, [q], by simpa using h.symm, .two hcut hp hb' (tripled := false) ?_ q2 ?_ q4 q5 q6 q7⟩
    · rw [q1]; exact .same
    · rw [hbef, q1]; exact q3
  · simp at h
  · have trip : C.simplifiedTriple search word start i (n + C.wordCount (C.resultOf m p)) fc
        (C.resultOf m p) = .ok (some r) → ∃ p ps, r = C.resultOf m p ∧
          Compound C.U C.dict fc m n (word.take start) (word.drop start) (p :: ps) := by
      intro h
      obtain ⟨h1, ps, h2⟩ := simplifiedTriple_some hC hs hsi hi hmin htext hp hb h
      exact ⟨p, ps, h1, h2⟩
    unfold tryRecursive at h
    obtain ⟨o, ho, h⟩ := Run.bind_eq_ok.1 h
    cases o with
    | none => exact trip h
    | some r2 =>
      obtain ⟨q, ps, hq, m2, rfl⟩ := hs _ _ _ _ hi ho
      dsimp only at h
      split at h
      · exact trip h
      rename_i hpat
      split at h
      · exact trip h
      rename_i hrep
      refine ⟨p, q :: ps, by simpa [pure, Except.pure] using h.symm,
        .more hcut hp hb' .same (by rw [hbef]; exact hq) ⟨fun _ => ?_, by simp⟩
          (not_rep_after hC hrep) ?_⟩
      · rw [hbef]
        exact (not_forbiddenByPatterns hi hp.part).1 (by simpa using hpat)
      · intro hv
        rw [wordCount_eq hv]; simp; omega

theorem patternFirst_some {C : Checker} (hC : C.dict.CondsParsed) {m : Mode} (hm : m ≠ .full)
    {c : CompoundPattern} {scratch : Str} {start j : Nat} {r : CompoundingResult}
    (h : C.patternFirst c m scratch start j = some r) : ∃ p : Piece,
      p.text = slice scratch start j ∧ PieceAt C.dict m p ∧ r = C.resultOf m p ∧
      Boundary C.U C.dict (scratch.take j) (scratch.drop j) p (some c) := by
  unfold patternFirst at h
  split at h
  · simp at h
  · rename_i r' hr
    obtain ⟨p, h1, h2, rfl⟩ := checkWordInCompound_some hC hm hr
    rw [resultOf_flags] at h
    split at h
    · simp at h
    rename_i hf
    split at h
    · simp at h
    rename_i hfl
    split at h
    · simp at h
    rename_i ht
    refine ⟨p, h1, ⟨h2, notForbidden hf⟩, by simpa using h.symm, ⟨?_, by simp, ?_⟩⟩
    · intro ho hn
      rw [← areThreeCharsEqual_iff] at hn
      exact ht (by rw [hn]; simpa [Checker.opts] using ho)
    · rintro c' ⟨⟩
      exact flag_any hfl

theorem patternSecond_accept {C : Checker} (hC : C.dict.CondsParsed) {c : CompoundPattern}
    {before text word : Str} {start n : Nat} {fc : Forceucase} {m m1 : Mode} {p : Piece}
    {tripled : Bool} (hp : Part C.dict m1 p.text p.stem p.flags p.affixes)
    (h : C.patternSecond c text word start n fc (C.resultOf m p) = .accept) :
    ∃ q : Piece, q.text = text ∧ PieceAt C.dict .atEnd q ∧
      Meet C.dict before text p q (some c) ∧
      (C.dict.aff.options.compoundCheckDuplicate = true →
        C.dict.aff.compoundSyllableVowels = [] → ¬ Duplicate p q) ∧
      (C.dict.aff.options.compoundCheckRep = true → ¬ RepSimilar C.dict (word.drop start)) ∧
      (fc = .forbidBad → ¬ Has q.flags C.dict.aff.options.compoundForceUppercaseFlag) ∧
      WordMax C.dict n p q (some c) tripled := by
  unfold patternSecond at h
  split at h
  · simp at h
  · rename_i r hr
    obtain ⟨q, h1, h2, rfl⟩ := checkWordInCompound_some hC (by simp) hr
    rw [resultOf_flags] at h
    iterate 6
      split at h
      · simp at h
    rename_i hf hfl hd hrep hfc hmx
    refine ⟨q, h1, ⟨h2, notForbidden hf⟩, ⟨by simp, ?_⟩, not_dup hp h2 hd, not_rep hC hrep,
      not_force hfc, ?_⟩
    · rintro c' ⟨⟩
      exact flag_any hfl
    · intro hv max hmax
      simp only [Checker.opts, hmax, Option.any_some] at hmx
      simp at hmx
      show n + 2 ≤ max
      omega

theorem patternRecursion_ok {C : Checker} (hC : C.dict.CondsParsed) {c : CompoundPattern}
    {scratch word : Str} {start j : Nat} {r : CompoundingResult}
    (h : C.patternRecursionOk c scratch word start j r = true) :
    (∀ f, c.secondWordFlag = some f → f ∈ r.flags.elems) ∧
    (C.dict.aff.options.compoundCheckRep = true → ¬ RepSimilar C.dict (word.drop start)) := by
  unfold patternRecursionOk at h
  split at h
  · simp at h
  rename_i hf
  refine ⟨flag_any hf, fun h1 h2 => ?_⟩
  rw [← isRepSimilar_iff hC] at h2
  rw [h2] at h
  have h1 : C.opts.compoundCheckRep = true := h1
  simp [h1] at h

theorem patternTripleRecursion_ok {C : Checker} (hC : C.dict.CondsParsed) {c : CompoundPattern}
    {triple scratch word : Str} {start j : Nat} {r : CompoundingResult}
    (h : C.patternTripleRecursionOk c triple scratch word start j r = true) :
    (∀ f, c.secondWordFlag = some f → f ∈ r.flags.elems) ∧
    (C.dict.aff.options.compoundCheckRep = true → ¬ RepSimilar C.dict (word.drop start)) := by
  unfold patternTripleRecursionOk at h
  split at h
  · simp at h
  rename_i hf
  refine ⟨flag_any hf, fun h1 h2 => ?_⟩
  rw [← isRepSimilar_iff hC] at h2
  rw [h2] at h
  have h1 : C.opts.compoundCheckRep = true := h1
  simp [h1] at h

theorem patternTriple_some {C : Checker} (hC : C.dict.CondsParsed) {fc : Forceucase}
    {search : Search} (hs : SearchSound C fc search) {c : CompoundPattern}
    {scratch word : Str} {start j n : Nat} {m : Mode} {p : Piece} (hj : j ≤ scratch.length)
    (hcut : Cut C.dict (word.drop start) p.text (scratch.drop j) (some c))
    (hbef : word.take start ++ p.text = scratch.take j)
    (hp : PieceAt C.dict m p)
    (hb : Boundary C.U C.dict (scratch.take j) (scratch.drop j) p (some c)) {r : CompoundingResult}
    (h : C.patternTriple search c scratch word start j n fc (C.resultOf m p)
      = .ok (some (some r))) :
    r = C.resultOf m p ∧
    ∃ ps, Compound C.U C.dict fc m n (word.take start) (word.drop start) (p :: ps) := by
  rw [← hbef] at hb
  unfold patternTriple at h
  split at h
  · simp at h
  rename_i hon
  split at h
  · simp at h
  rename_i t ht
  obtain ⟨a, x, h1, rfl⟩ := tripled_some ht
  have hlen : (scratch.take j).length = j := by simp; omega
  have htake : (scratch.take j ++ [x] ++ scratch.drop j).take j = scratch.take j := by
    rw [List.append_assoc, List.take_left' hlen]
  have hdrop : (scratch.take j ++ [x] ++ scratch.drop j).drop j = x :: scratch.drop j := by
    rw [List.append_assoc, List.drop_left' hlen]; rfl
  have hres : Restored C.dict (word.take start ++ p.text) (scratch.drop j) (x :: scratch.drop j)
      true := by
    refine .triple (by simpa [Checker.opts] using hon) (a := a) ?_
    rw [hbef, h1]
  have hti : j ≤ (scratch.take j ++ [x] ++ scratch.drop j).length := by simp; omega
  split at h
  · rename_i hv
    obtain ⟨q, q1, q2, q3, q4, q5, q6, q7⟩ :=
      patternSecond_accept hC (before := word.take start ++ p.text) (tripled := true) hp.part hv
    rw [hdrop] at q1 q3
    refine ⟨by simpa using h.symm, [q], .two hcut hp hb (by rw [q1]; exact hres) q2 ?_ q4 q5 q6 q7⟩
    rw [q1]; exact q3
  · simp at h
  · obtain ⟨o, ho, h⟩ := Run.bind_eq_ok.1 h
    cases o with
    | none => simp [pure, Except.pure] at h
    | some r2 =>
      obtain ⟨q, ps, hq, m2, rfl⟩ := hs _ _ _ _ hti ho
      dsimp only at h
      split at h
      · rename_i hok
        obtain ⟨k1, k2⟩ := patternTripleRecursion_ok hC hok
        rw [htake, hdrop] at hq
        refine ⟨by simpa [pure, Except.pure] using h.symm, q :: ps,
          .more hcut hp hb hres (by rw [hbef]; exact hq) ⟨by simp, ?_⟩ k2 ?_⟩
        · rintro c' ⟨⟩
          rwa [resultOf_flags] at k1
        · intro hv; simp
      · simp [pure, Except.pure] at h

theorem patternBody_some {C : Checker} (hC : C.dict.CondsParsed) {fc : Forceucase} {search : Search}
    (hs : SearchSound C fc search) {c : CompoundPattern} (hc : c ∈ C.dict.aff.compoundPatterns)
    {word : Str} {start i n : Nat} {m : Mode} (hm : m ≠ .full)
    (hsi : start ≤ i) (hi : i ≤ word.length)
    (hmin : C.dict.aff.options.minChars ≤ i - start ∧
      C.dict.aff.options.minChars ≤ word.length - i) {r : CompoundingResult}
    (h : C.patternBody search m word start i n fc c = .ok (some (some r))) :
    ∃ p ps, r = C.resultOf m p ∧
      Compound C.U C.dict fc m n (word.take start) (word.drop start) (p :: ps) := by
  unfold patternBody at h
  split at h
  · simp at h
  rename_i rep hrep
  split at h
  · simp at h
  rename_i hst
  obtain ⟨t, ht⟩ := startsWith_iff.1 (by simpa using hst)
  have hd : word.drop (i + rep.length) = t := by
    rw [← List.drop_drop, ht]; simp
  dsimp only at h
  rw [hd] at h
  -- the text with the replacement undone
  have hlen : (word.take i).length = i := by simp; omega
  have hjl : (word.take i ++ c.first).length = i + c.first.length := by simp [hlen]
  have hstake : (word.take i ++ (c.first ++ c.second) ++ t).take (i + c.first.length) =
      word.take i ++ c.first := by
    rw [List.append_assoc, List.append_assoc, ← List.append_assoc, List.take_left' hjl]
  have hsdrop : (word.take i ++ (c.first ++ c.second) ++ t).drop (i + c.first.length) =
      c.second ++ t := by
    rw [List.append_assoc, List.append_assoc, ← List.append_assoc, List.drop_left' hjl]
  have hsslice : slice (word.take i ++ (c.first ++ c.second) ++ t) start (i + c.first.length) =
      slice word start i ++ c.first := by
    unfold slice
    rw [hstake, List.drop_append_of_le_length (by omega)]
  have hj : i + c.first.length ≤ (word.take i ++ (c.first ++ c.second) ++ t).length := by
    simp; omega
  split at h
  · simp at h
  rename_i r1 hr1
  obtain ⟨p, htext, hp, rfl, hb⟩ := patternFirst_some hC hm hr1
  rw [hsslice] at htext
  have hcut : Cut C.dict (word.drop start) p.text (c.second ++ t) (some c) := by
    rw [htext]
    refine .pattern hc hrep ?_ ?_
    · rw [List.append_assoc, ← ht]; exact drop_eq_slice_add hsi
    · rw [length_slice hi, ← ht]; simpa using hmin
  have hbef : word.take start ++ p.text = word.take i ++ c.first := by
    rw [htext, ← List.append_assoc, take_add_slice hsi]
  have trip : C.patternTriple search c (word.take i ++ (c.first ++ c.second) ++ t) word start
      (i + c.first.length) n fc (C.resultOf m p) = .ok (some (some r)) → ∃ p ps, r = C.resultOf m p ∧
        Compound C.U C.dict fc m n (word.take start) (word.drop start) (p :: ps) := by
    intro h
    obtain ⟨h1, ps, h2⟩ := patternTriple_some hC hs hj (by rw [hsdrop]; exact hcut)
      (by rw [hstake]; exact hbef) hp hb h
    exact ⟨p, ps, h1, h2⟩
  have hb' := hb
  rw [hstake, hsdrop, ← hbef] at hb'
  split at h
  · rename_i hv
    obtain ⟨q, q1, q2, q3, q4, q5, q6, q7⟩ :=
      patternSecond_accept hC (before := word.take start ++ p.text) (tripled := false) hp.part hv
    rw [hsdrop] at q1 q3
    refine ⟨p, [q], by simpa using h.symm, .two hcut hp hb' ?_ q2 ?_ q4 q5 q6 q7⟩
    · rw [q1]; exact .same
    · rw [q1]; exact q3
  · simp at h
  · obtain ⟨o, ho, h⟩ := Run.bind_eq_ok.1 h
    cases o with
    | none => exact trip h
    | some r2 =>
      obtain ⟨q, ps, hq, m2, rfl⟩ := hs _ _ _ _ hj ho
      dsimp only at h
      split at h
      · rename_i hok
        obtain ⟨k1, k2⟩ := patternRecursion_ok hC hok
        rw [hstake, hsdrop] at hq
        refine ⟨p, q :: ps, by simpa [pure, Except.pure] using h.symm,
          .more hcut hp hb' .same (by rw [hbef]; exact hq) ⟨by simp, ?_⟩ k2 ?_⟩
        · rintro c' ⟨⟩
          rwa [resultOf_flags] at k1
        · intro hv; simp
      · exact trip h

theorem compoundAt_some {C : Checker} (hC : C.dict.CondsParsed) {fc : Forceucase} {search : Search}
    (hs : SearchSound C fc search) {word : Str} {start i n : Nat} {m : Mode} (hm : m ≠ .full)
    (hsi : start ≤ i) (hi : i ≤ word.length)
    (hmin : C.dict.aff.options.minChars ≤ i - start ∧
      C.dict.aff.options.minChars ≤ word.length - i) {r : CompoundingResult}
    (h : C.compoundAt search m word start n fc i = .ok (some r)) :
    ∃ p ps, r = C.resultOf m p ∧
      Compound C.U C.dict fc m n (word.take start) (word.drop start) (p :: ps) := by
  unfold compoundAt at h
  rw [Run.or_eq_some] at h
  rcases h with h | ⟨_, h⟩
  · exact classic_some hC hs hm hsi hi hmin h
  · unfold withPatternReplacements at h
    obtain ⟨o, ho, h⟩ := Run.map_eq_ok.1 h
    cases o with
    | none => simp at h
    | some o =>
      obtain ⟨c, hc, ho⟩ := Run.first_eq_some ho
      simp only [Option.join_some] at h
      subst h
      exact patternBody_some hC hs hc hm hsi hi hmin ho

/-- What the search finds is a compound. -/
theorem checkCompoundImpl_sound {C : Checker} (hC : C.dict.CondsParsed) (fc : Forceucase)
    (fuel : Nat) : ∀ {m : Mode} {word : Str} {start n : Nat} {r : CompoundingResult}, m ≠ .full →
    start ≤ word.length → C.checkCompoundImpl fc fuel m word start n = .ok (some r) →
    ∃ p ps, r = C.resultOf m p ∧
      Compound C.U C.dict fc m n (word.take start) (word.drop start) (p :: ps) := by
  induction fuel with
  | zero => intro m word start n r _ _ h; simp [checkCompoundImpl] at h
  | succ fuel ih =>
    intro m word start n r hm _ h
    rw [checkCompoundImpl] at h
    obtain ⟨i, hi, h⟩ := Run.first_eq_some h
    rw [mem_splitPoints] at hi
    have hs : SearchSound C fc (C.checkCompoundImpl fc fuel .atMiddle) := by
      intro word start n r h1 h2
      obtain ⟨q, ps, h3, h4⟩ := ih (by simp) h1 h2
      exact ⟨q, ps, h4, _, h3⟩
    exact compoundAt_some hC hs hm (by simp [Checker.opts] at hi; omega)
      (by omega) (by simp [Checker.opts] at hi; omega) h

end Checker
end Spellbook
