import Mathlib.Tactic.Ring
import Verif.Proof.Dedup
import Verif.Proof.Ngram
import Verif.Props.Edits
import Verif.Spec.SuggestCase
/-!
# The suggestions of `suggest_low`
-/

namespace Spellbook
open Spec Props
theorem mem_suggestables {C : Checker} {fuel : Nat} {texts : List Str} {t : Str} :
    t ∈ suggestables C fuel texts ↔ t ∈ texts ∧ Suggestable C fuel t := by
  simp [suggestables]

namespace Suggester
variable {S : Suggester} {fuel : Nat}

theorem addIfCorrect_ok {t : Str} {out : List Str} {b : Bool} {out' : List Str}
    (h : S.addIfCorrect fuel t out = .ok (b, out')) :
    (Suggestable S.C fuel t ∧ b = true ∧ out' = out ++ [t]) ∨
    (¬ Suggestable S.C fuel t ∧ b = false ∧ out' = out) := by
  unfold addIfCorrect at h
  rw [Run.bind_eq_ok] at h
  obtain ⟨r, h1, h2⟩ := h
  have no : (∀ F, r = some F → ¬ (S.C.opts.forbiddenWordFlag ∉ F.elems ∧
      ¬ (S.C.opts.forbidWarn = true ∧ Has F S.C.opts.warnFlag))) → ¬ Suggestable S.C fuel t := by
    rintro hn ⟨F, hF, h3⟩
    rw [h1, Except.ok.injEq] at hF
    exact hn F hF h3
  cases r with
  | none =>
    simp only [Run.pure_eq_ok, Prod.mk.injEq] at h2
    exact .inr ⟨no (by simp), h2.1.symm, h2.2.symm⟩
  | some F =>
    dsimp only at h2
    split at h2
    · rename_i hf
      simp only [Run.pure_eq_ok, Prod.mk.injEq] at h2
      rw [FlagSet.contains_iff] at hf
      exact .inr ⟨no (by rintro _ ⟨⟩; exact fun h => h.1 hf), h2.1.symm, h2.2.symm⟩
    · rename_i hf
      rw [FlagSet.contains_iff] at hf
      split at h2
      · rename_i hw
        simp only [Run.pure_eq_ok, Prod.mk.injEq] at h2
        rw [Bool.and_eq_true, Checker.hasFlag_iff] at hw
        exact .inr ⟨no (by rintro _ ⟨⟩; exact fun h => h.2 hw), h2.1.symm, h2.2.symm⟩
      · rename_i hw
        simp only [Run.pure_eq_ok, Prod.mk.injEq] at h2
        rw [Bool.and_eq_true, Checker.hasFlag_iff] at hw
        exact .inl ⟨⟨F, h1, hf, hw⟩, h2.1.symm, h2.2.symm⟩

theorem addAll_ok : ∀ {texts out out' : List Str}, S.addAll fuel texts out = .ok out' →
    out' = out ++ suggestables S.C fuel texts
  | [], out, out', h => by
    simp only [addAll, List.foldlM_nil, Run.pure_eq_ok] at h
    simp [suggestables, h]
  | t :: texts, out, out', h => by
    simp only [addAll, List.foldlM_cons, Run.bind_eq_ok] at h
    obtain ⟨o, ⟨⟨b, o'⟩, h1, h2⟩, h3⟩ := h
    rw [Run.pure_eq_ok] at h2
    have h3 := addAll_ok (texts := texts) (show S.addAll fuel texts o = .ok out' from h3)
    subst h2
    rcases addIfCorrect_ok h1 with ⟨hs, -, rfl⟩ | ⟨hs, -, rfl⟩
    · rw [h3]; simp [suggestables, hs]
    · rw [h3]; simp [suggestables, hs]

/-! ## Texts with spaces -/

theorem spacedParts_spec : ∀ (t cur : Str), ' ' ∉ cur →
    ∃ last, ' ' ∉ last ∧ cur ++ t = (spacedParts cur t).flatMap (· ++ [' ']) ++ last ∧
      ∀ p ∈ spacedParts cur t, ' ' ∉ p
  | [], cur, h => ⟨cur, h, by simp [spacedParts], by simp [spacedParts]⟩
  | c :: t, cur, h => by
    by_cases hc : c = ' '
    · subst hc
      obtain ⟨last, h1, h2, h3⟩ := spacedParts_spec t [] (by simp)
      refine ⟨last, h1, ?_, ?_⟩
      · rw [spacedParts, if_pos rfl, List.flatMap_cons, List.append_assoc, List.append_assoc, ← h2]
        simp
      · rw [spacedParts, if_pos rfl]
        intro p hp
        rcases List.mem_cons.mp hp with rfl | hp
        · exact h
        · exact h3 p hp
    · obtain ⟨last, h1, h2, h3⟩ := spacedParts_spec t (cur ++ [c]) (by simp [h, Ne.symm hc])
      refine ⟨last, h1, ?_, ?_⟩
      · rw [spacedParts, if_neg hc, ← h2]; simp
      · rw [spacedParts, if_neg hc]; exact h3

theorem spacedParts_last : ∀ (t cur : Str), ' ' ∉ t → spacedParts cur t = []
  | [], _, _ => rfl
  | c :: t, cur, h => by
    rw [List.mem_cons, not_or] at h
    rw [spacedParts, if_neg (Ne.symm h.1), spacedParts_last t _ h.2]

theorem spacedParts_append : ∀ (p cur t : Str), ' ' ∉ p →
    spacedParts cur (p ++ ' ' :: t) = (cur ++ p) :: spacedParts [] t
  | [], cur, t, _ => by simp [spacedParts]
  | c :: p, cur, t, h => by
    rw [List.mem_cons, not_or] at h
    rw [List.cons_append, spacedParts, if_neg (Ne.symm h.1), spacedParts_append p _ t h.2]
    simp

theorem spacedParts_eq : ∀ (parts : List Str) (last : Str), ' ' ∉ last → (∀ p ∈ parts, ' ' ∉ p) →
    spacedParts [] (parts.flatMap (· ++ [' ']) ++ last) = parts
  | [], last, h, _ => by simpa using spacedParts_last last [] h
  | p :: parts, last, h, hp => by
    have := spacedParts_append p [] (parts.flatMap (· ++ [' ']) ++ last) (hp p (by simp))
    rw [spacedParts_eq parts last h fun q hq => hp q (by simp [hq])] at this
    simpa using this

theorem allParts_ok : ∀ {ps : List Str} {b : Bool}, S.allParts fuel ps = .ok b →
    (b = true ↔ ∀ p ∈ ps, ∃ F, S.C.checkWord fuel p .forbidBad .skip = .ok (some F))
  | [], b, h => by simp only [allParts, Except.ok.injEq] at h; simp [← h]
  | p :: ps, b, h => by
    unfold allParts at h
    rw [Run.bind_eq_ok] at h
    obtain ⟨r, h1, h2⟩ := h
    cases r with
    | none =>
      rw [Run.pure_eq_ok] at h2
      subst h2
      simp [h1]
    | some F =>
      rw [allParts_ok h2]
      simp [h1]

theorem tryRep_ok {t : Str} {out out' : List Str} (h : S.tryRep fuel t out = .ok out') :
    ((Suggestable S.C fuel t ∨ SpacedWords S.C fuel t) ∧ out' = out ++ [t]) ∨
    (¬ (Suggestable S.C fuel t ∨ SpacedWords S.C fuel t) ∧ out' = out) := by
  unfold tryRep at h
  rw [Run.bind_eq_ok] at h
  obtain ⟨⟨b, o⟩, h1, h2⟩ := h
  dsimp only at h2
  rcases addIfCorrect_ok h1 with ⟨hs, rfl, rfl⟩ | ⟨hs, rfl, rfl⟩
  · rw [if_pos rfl, Run.pure_eq_ok] at h2
    exact .inl ⟨.inl hs, h2.symm⟩
  · rw [if_neg (by simp)] at h2
    obtain ⟨last, hl, ht, hp⟩ := spacedParts_spec t [] (by simp)
    rw [List.nil_append] at ht
    have hsp : SpacedWords S.C fuel t ↔ ' ' ∈ t ∧
        ∀ p ∈ spacedParts [] t, ∃ F, S.C.checkWord fuel p .forbidBad .skip = .ok (some F) := by
      constructor
      · rintro ⟨parts, last', hne, rfl, hl', hp'⟩
        refine ⟨?_, ?_⟩
        · cases parts with
          | nil => exact absurd rfl hne
          | cons p ps => simp
        · rw [spacedParts_eq parts last' hl' fun p hp => (hp' p hp).1]
          exact fun p hp => (hp' p hp).2
      · rintro ⟨hm, hall⟩
        refine ⟨spacedParts [] t, last, ?_, ht, hl, fun p h => ⟨hp p h, hall p h⟩⟩
        intro hnil
        rw [hnil] at ht
        rw [ht] at hm
        simp [hl] at hm
    have hcs : containsStr t [' '] = true ↔ ' ' ∈ t := by
      rw [containsStr_gram]
      exact List.singleton_infix_iff _ _
    split at h2
    · rename_i hm
      rw [Run.bind_eq_ok] at h2
      obtain ⟨b, h3, h4⟩ := h2
      have h5 := allParts_ok h3
      cases b with
      | true =>
        rw [if_pos rfl, Run.pure_eq_ok] at h4
        exact .inl ⟨.inr (hsp.mpr ⟨hcs.mp hm, h5.mp rfl⟩), h4.symm⟩
      | false =>
        rw [if_neg (by simp), Run.pure_eq_ok] at h4
        refine .inr ⟨?_, h4.symm⟩
        rintro (h6 | h6)
        · exact hs h6
        · have := h5.mpr (hsp.mp h6).2; cases this
    · rename_i hm
      rw [Run.pure_eq_ok] at h2
      refine .inr ⟨?_, h2.symm⟩
      rintro (h6 | h6)
      · exact hs h6
      · exact hm (hcs.mpr (hsp.mp h6).1)

open scoped Classical in
theorem tryRep_all : ∀ {texts out out' : List Str},
    texts.foldlM (fun out t => S.tryRep fuel t out) out = .ok out' →
    out' = out ++ texts.filter fun t => Suggestable S.C fuel t ∨ SpacedWords S.C fuel t
  | [], out, out', h => by
    simp only [List.foldlM_nil, Run.pure_eq_ok] at h
    simp [h]
  | t :: texts, out, out', h => by
    simp only [List.foldlM_cons, Run.bind_eq_ok] at h
    obtain ⟨o, h1, h2⟩ := h
    rw [tryRep_all h2]
    rcases tryRep_ok h1 with ⟨hs, rfl⟩ | ⟨hs, rfl⟩
    · rw [List.filter_cons_of_pos (by simpa using hs)]
      simp
    · rw [List.filter_cons_of_neg (by simpa using hs)]

/-! ## Two words -/

theorem twoWordsAt_eq (out : List Str) (a b : Str) : S.twoWordsAt out (a, b) = out ++ inTwo S.C a b := by
  unfold twoWordsAt inTwo
  dsimp only
  cases ha : S.C.checkSimpleWord a .skip with
  | none => simp
  | some F =>
    cases hb : S.C.checkSimpleWord b .skip with
    | none => simp
    | some G =>
      simp only [Option.isNone_some, Bool.false_eq_true, if_false, Option.isSome_some, and_self, if_true,
        List.contains_iff_mem, gt_iff_lt]
      split
      · rename_i h
        rw [if_pos ⟨by omega, by omega, h.2.2⟩]
        simp
      · rename_i h
        rw [if_neg fun h' => h ⟨by omega, by omega, h'.2.2⟩]

theorem twoWords_fold : ∀ (cs : List (Str × Str)) (out : List Str),
    cs.foldl S.twoWordsAt out = out ++ cs.flatMap fun s => inTwo S.C s.1 s.2
  | [], out => by simp
  | (a, b) :: cs, out => by
    rw [List.foldl_cons, twoWordsAt_eq, twoWords_fold cs]
    simp

theorem mem_wordCuts {w a b : Str} : (a, b) ∈ wordCuts w ↔ w = a ++ b ∧ b ≠ [] := by
  simp only [wordCuts, List.mem_map, List.mem_range, Prod.mk.injEq]
  constructor
  · rintro ⟨n, hn, rfl, rfl⟩
    exact ⟨by simp, by simpa using hn⟩
  · rintro ⟨rfl, hb⟩
    refine ⟨a.length, ?_, by simp, by simp⟩
    have : 0 < b.length := by cases b <;> simp_all
    simp; omega

theorem wordCuts_from : ∀ (w pre : Str), (List.range w.length).map (fun n => (pre ++ w.take n, w.drop n)) =
    (splitsFrom pre w).map fun s => (s.1, s.2.1 :: s.2.2)
  | [], pre => by simp [splitsFrom]
  | c :: w, pre => by
    simp only [List.length_cons, List.range_succ_eq_map, List.map_cons, List.take_zero, List.append_nil,
      List.drop_zero, List.map_map, splitsFrom]
    refine congrArg _ (Eq.trans ?_ (wordCuts_from w (pre ++ [c])))
    refine List.map_congr_left fun n _ => ?_
    simp

theorem wordCuts_eq (w : Str) : wordCuts w = (splits w).map fun s => (s.1, s.2.1 :: s.2.2) := by
  simpa [wordCuts, splits] using wordCuts_from w []

theorem twoWordsSuggest_eq (w : Str) (out : List Str) : S.twoWordsSuggest w out = out ++ splitWords S.C w := by
  unfold twoWordsSuggest splitWords
  split
  · simp
  · rw [twoWords_fold, wordCuts_eq, List.flatMap_map]

theorem mem_splitWords {C : Checker} {w t : Str} : t ∈ splitWords C w ↔ TwoWords C w t := by
  unfold splitWords TwoWords
  cases C.opts.noSplitSuggestions with
  | true => simp
  | false =>
    rw [if_neg (by simp)]
    simp only [true_and]
    have e : (splits w).flatMap (fun s => inTwo C s.1 (s.2.1 :: s.2.2)) =
        (wordCuts w).flatMap fun s => inTwo C s.1 s.2 := by
      rw [wordCuts_eq, List.flatMap_map]
    rw [e]
    simp only [List.mem_flatMap, Prod.exists, mem_wordCuts, and_assoc]
    refine exists_congr fun a => exists_congr fun b => and_congr_right fun _ => and_congr_right fun _ => ?_
    unfold inTwo
    split
    · rename_i h
      simp only [h.1, h.2, true_and, List.mem_cons]
      refine or_congr_right ?_
      split
      · rename_i h'; simp [h']
      · rename_i h'; simp [h']
    · rename_i h
      refine ⟨fun h => by simp at h, fun h' => absurd ⟨h'.1, h'.2.1⟩ h⟩

theorem mem_repWords {C : Checker} {fuel : Nat} {w t : Str} {rules : List (Str × Str)}
    (hR : ReplacementTable.from' rules = some C.aff.replacements) :
    t ∈ repWords C fuel w ↔ Replaced C w t ∧ (Suggestable C fuel t ∨ SpacedWords C fuel t) := by
  unfold repWords
  rw [List.mem_filter, (C41_rep C.aff.replacements w 0 hR).2]
  simp [Replaced]

/-! ## All methods -/

theorem ofOption_some {α : Type} (a : α) : Run.ofOption (some a) = .ok a := rfl

theorem free_ok {e : Edit} {w : Str} {texts out out' : List Str} (he : e.run w 0 = some texts)
    (h : S.free fuel e w out = .ok out') : out' = out ++ suggestables S.C fuel texts := by
  unfold free at h
  rw [he, ofOption_some] at h
  exact addAll_ok h

theorem limited_ok {e : Edit} {w : Str} {n : Nat} {texts out out' : List Str} (hn : S.maxAttempts w = .ok n)
    (he : e.run w n = some texts) (h : S.limited fuel e w out = .ok out') :
    out' = out ++ suggestables S.C fuel texts := by
  unfold limited at h
  rw [hn] at h
  simp only [Run.bind_eq_ok, Except.ok.injEq, exists_eq_left', he, ofOption_some] at h
  exact addAll_ok h

theorem clamp_div (c : Nat) (hc : 0 < c) :
    25000000000 / min (max c 250000) 25000000000 = max 1 (min 100000 (25000000000 / c)) := by
  rcases Nat.lt_or_ge c 250000 with h | h
  · have : 100000 ≤ 25000000000 / c := by rw [Nat.le_div_iff_mul_le hc]; omega
    rw [Nat.max_eq_right (by omega), Nat.min_eq_left (by omega), Nat.min_eq_left this]
    rfl
  · rcases Nat.lt_or_ge 25000000000 c with h' | h'
    · rw [Nat.max_eq_left h, Nat.min_eq_right (by omega), Nat.div_eq_of_lt h']
      rfl
    · have h1 : 25000000000 / c ≤ 100000 := by
        rw [Nat.div_le_iff_le_mul_add_pred hc]; omega
      have h2 : 1 ≤ 25000000000 / c := by rw [Nat.le_div_iff_mul_le hc]; omega
      rw [Nat.max_eq_left h, Nat.min_eq_left h', Nat.min_eq_right h1, Nat.max_eq_right h2]

theorem maxAttempts_eq {w : Str} {n : Nat} (h : S.maxAttempts w = .ok n) : n = editBudget S.C w := by
  unfold maxAttempts at h
  unfold editBudget
  have hc : ∀ p s : Nat, (if S.C.opts.complexPrefixes = true then 1 + p + s + p * s + (p * p + 2 * s * p * p)
      else 1 + p + s + p * s + (s * s + 2 * p * s * s)) =
      (1 + p) * (1 + s) + if S.C.opts.complexPrefixes = true then p ^ 2 * (1 + 2 * s) else s ^ 2 * (1 + 2 * p) := by
    intro p s
    split <;> ring
  have hl : 0 < lookupCost S.C := by
    unfold lookupCost
    dsimp only
    have := Nat.mul_pos (Nat.add_pos_left Nat.one_pos (S.C.aff.prefixes.table.length / 20))
      (Nat.add_pos_left Nat.one_pos (S.C.aff.suffixes.table.length / 20))
    omega
  dsimp only at h ⊢
  rw [hc] at h
  change (if S.C.opts.allowsCompounding = true then if byteLen w = 0 then _ else Except.ok
    (25000000000 / min (max (lookupCost S.C) 250000) 25000000000 / byteLen w) else
    Except.ok (25000000000 / min (max (lookupCost S.C) 250000) 25000000000)) = _ at h
  rw [clamp_div _ hl] at h
  have hb : S.C.opts.allowsCompounding = true ↔ S.C.opts.compoundFlag ≠ none ∨ S.C.opts.compoundBeginFlag ≠ none ∨
      S.C.opts.compoundMiddleFlag ≠ none ∨ S.C.opts.compoundEndFlag ≠ none := by
    simp only [AffOptions.allowsCompounding, Bool.or_eq_true, Option.isSome_iff_ne_none, or_assoc]
  simp only [hb] at h
  split at h
  · rename_i h1
    rw [if_pos h1]
    split at h
    · cases h
    · cases h
      rfl
  · rename_i h1
    rw [if_neg h1]
    cases h
    rfl

/-- The suggestions of `suggest_low`, method by method, and their quality. -/
theorem suggestLow_ok {w : Str} {out : List Str} {hq : Bool} {out' : List Str}
    {rules : List (Str × Str)} (hR : ReplacementTable.from' rules = some S.C.aff.replacements)
    (h : S.suggestLow fuel w out = .ok (hq, out')) :
      out' = out ++ proposals S.C fuel (editBudget S.C w) w ∧
      (hq = true ↔ HighQuality S.C fuel (editBudget S.C w) w) := by
  suffices h : ∃ n, S.maxAttempts w = .ok n ∧
      out' = out ++ proposals S.C fuel n w ∧ (hq = true ↔ HighQuality S.C fuel n w) by
    obtain ⟨n, h2, h3⟩ := h
    rwa [← maxAttempts_eq h2]
  unfold suggestLow at h
  dsimp only at h
  rw [Run.bind_eq_ok] at h
  obtain ⟨o1, h1, h⟩ := h
  rw [Run.bind_eq_ok] at h
  obtain ⟨o2, h2, h⟩ := h
  rw [Run.bind_eq_ok] at h
  obtain ⟨o3, h3, h⟩ := h
  rw [Run.bind_eq_ok] at h
  obtain ⟨q, hq', h⟩ := h
  rw [Run.bind_eq_ok] at h
  obtain ⟨o, h, h'⟩ := h
  rw [Run.pure_eq_ok, Prod.mk.injEq] at h'
  obtain ⟨rfl, rfl⟩ := h'
  unfold suggestEdits at h
  rw [Run.bind_eq_ok] at h
  obtain ⟨o4, h4, h⟩ := h
  rw [Run.bind_eq_ok] at h
  obtain ⟨o5, h5, h⟩ := h
  rw [Run.bind_eq_ok] at h
  obtain ⟨o6, h6, h⟩ := h
  rw [Run.bind_eq_ok] at h
  obtain ⟨o7, h7, h⟩ := h
  rw [Run.bind_eq_ok] at h
  obtain ⟨o8, h8, h⟩ := h
  rw [Run.bind_eq_ok] at h
  obtain ⟨o9, h9, h⟩ := h
  rw [Run.bind_eq_ok] at h
  obtain ⟨o10, h10, h⟩ := h
  rw [Run.bind_eq_ok] at h
  obtain ⟨o11, h11, h⟩ := h
  rw [Run.pure_eq_ok] at h
  have h12 := h
  -- upper case
  have e1 : o1 = out ++ suggestables S.C fuel [upperOf S.C w] := by
    unfold uppercaseSuggest at h1
    rw [Run.bind_eq_ok] at h1
    obtain ⟨⟨b, o⟩, h1, h1'⟩ := h1
    rw [Run.pure_eq_ok] at h1'
    subst h1'
    rcases addIfCorrect_ok h1 with ⟨hs, -, rfl⟩ | ⟨hs, -, rfl⟩ <;> simp [suggestables, upperOf, hs]
  -- REP
  unfold repSuggest at h2
  obtain ⟨hr1, hr2⟩ := C41_rep S.C.aff.replacements w 0 hR
  rw [hr1, ofOption_some] at h2
  have e2 := tryRep_all h2
  -- MAP
  unfold mapSuggest at h3
  rw [Run.bind_eq_ok] at h3
  obtain ⟨n, hn, h3⟩ := h3
  rw [mapTexts_eq, ofOption_some] at h3
  have e3 := addAll_ok h3
  have eg : o3 = out ++ goodProposals S.C fuel n w := by
    rw [e3, e2, e1]
    simp only [goodProposals, repWords, List.append_assoc]
  have e4 := free_ok (C41_adjacent_swap w 0).1 h4
  have e5 := limited_ok hn (C41_distant_swap w n).1 h5
  have e6 := free_ok (C41_keyboard _ _ w 0).1 h6
  have e7 := free_ok (C41_extra_char w 0).1 h7
  have e8 := limited_ok hn (C41_forgotten_char _ w n).1 h8
  have e9 := limited_ok hn (C41_move_char w n).1 h9
  have e10 := limited_ok hn (C41_wrong_char _ w n).1 h10
  have e11 := free_ok (C41_doubled_chars_partial w 0).1 h11
  refine ⟨n, hn, ?_, ?_⟩
  · rw [← h12, twoWordsSuggest_eq, e11, e10, e9, e8, e7, e6, e5, e4, eg]
    simp only [proposals, List.append_assoc]
  · unfold highQuality at hq'
    rw [eg, List.length_append] at hq'
    unfold HighQuality
    by_cases hg : goodProposals S.C fuel n w = []
    · rw [hg, List.length_nil, if_neg (by simp)] at hq'
      simp only [hg, ne_eq, not_true_eq_false, false_or]
      split at hq'
      · rename_i he
        simp only [Except.ok.injEq] at hq'
        subst hq'
        simp [List.isEmpty_iff.mp he]
      · rename_i he
        rw [Run.map_eq_ok] at hq'
        obtain ⟨F, hF, rfl⟩ := hq'
        rw [List.isEmpty_iff] at he
        simp only [he, not_false_eq_true, true_and, hF, Except.ok.injEq, Option.isSome_iff_exists]
    · have : 0 < (goodProposals S.C fuel n w).length := List.length_pos_iff.mpr hg
      rw [if_pos (by omega)] at hq'
      simp only [Except.ok.injEq] at hq'
      simp [← hq', hg]

end Suggester
end Spellbook
