import Verif.Proof.GuardList
import Verif.Props.PlaceList
/-!
# C103 A list with forbidden words and words which keep their letter case, from the text to the answer
-/

namespace Spellbook.Props
open Spec

variable {U : Unicode} {So : Sorts} {g : GuardRules}

theorem guard_hasTwin {e : Str × Str} (hx : ∀ c ∈ e.2, LineFlag U c) :
    HasTwin U (guardSettings g).options.forbiddenWordFlag e.1 (formFlags e) ↔ GuardTitle U g e := by
  have hf : ¬ (formFlags e).contains (guardSettings g).options.forbiddenWordFlag = true ↔
      ∀ c, g.forbidden = some c → c ∉ e.2 := by
    rw [FlagSet.contains_iff, formFlags_iff, show (guardSettings g).options.forbiddenWordFlag =
      (g.forbidden.map Char.toNat).getD 65510 from rfl]
    cases h : g.forbidden with
    | none =>
      refine ⟨fun _ c hc => (by cases hc), ?_⟩
      rintro - ⟨c, hc, h⟩
      have := (hx c hc).2.1
      rw [h] at this
      exact absurd this (by decide)
    | some x =>
      constructor
      · rintro hn c hc hm
        cases hc
        exact hn ⟨x, hm, rfl⟩
      · rintro hn ⟨c, hc, h⟩
        rw [Char.toNat_inj.1 (show c.toNat = x.toNat from h)] at hc
        exact hn x rfl hc
  unfold HasTwin GuardTitle MixedCase
  have h2 : (∃ f, (formFlags e).contains f = true) ↔ e.2 ≠ [] := by
    simp only [FlagSet.contains_iff, formFlags_iff]
    constructor
    · rintro ⟨f, c, hc, -⟩ hn
      rw [hn] at hc
      cases hc
    · intro hn
      obtain ⟨y, ys, hy⟩ := List.exists_cons_of_ne_nil hn
      exact ⟨_, y, by rw [hy]; simp, rfl⟩
  rw [h2, hf]

/-- **C103**: an `.aff` text which says FORBIDDENWORD, KEEPCASE, WARN or FORBIDWARN and nothing else, and a list of words with
flags, no text of which has two different sets of flags, make a dictionary. With it `check` answers true exactly for the
words which are correct by the list, and false exactly for the others. -/
theorem C103_guard_list {aff number : Str} {words : List (Str × Str)} (ha : Settings U aff (guardSettings g))
    (hg : ∀ c, g.forbidden = some c ∨ g.keep = some c ∨ g.warn = some c → c.toNat < 256) (hn : PlainHeader U number)
    (hw : ∀ e ∈ words, PlainEntry U e.1 ∧ (∀ c ∈ e.2, LineFlag U c) ∧ (utf8 (formLine e)).length ≤ 65535)
    (ht : ∀ e ∈ words, GuardTitle U g e → (utf8 (titleForm U e.1)).length ≤ 65535)
    (hu : ∀ t fl fl', GuardPart U g words (t, fl) → GuardPart U g words (t, fl') → fl = fl') :
    ∃ D, parse U So aff (listText number (words.map formLine)) = .ok D ∧ ∀ (L : Layout) (w : Str),
      (Accepts { U, L, dict := D } w ↔ GuardedWord U g words w) ∧
      (Rejects { U, L, dict := D } w ↔ ¬ GuardedWord U g words w) := by
  obtain ⟨D, hp, hA, hs⟩ := listed_parse (So := So)
    ⟨rfl, rfl, rfl, fun _ => guard_hasTwin, rfl⟩ ha hn hw ht
  refine ⟨D, hp, fun L w => ?_⟩
  obtain ⟨hC, hm, -⟩ := C54_well_made (U := U) (.loaded hp)
  have hD : GuardDict { U, L, dict := D } g words := ⟨hA, hs, fun e he => (hw e he).2.1, hu, hg, hC, rfl, rfl⟩
  have hk : Correct { U, L, dict := D } (Checker.choice { U, L, dict := D }) (Cx.breakPatterns {}) w
      (D.aff.inputConversions.convert w) ↔ GuardedWord U g words w := by
    have hcv : D.aff.inputConversions.convert w = w := by
      obtain ⟨out, k1, k2⟩ := C20_conversion [] _ hA.input w
      unfold ConversionTable.convert
      rw [k1, converts_nil k2]
      rfl
    rw [hcv]
    have hig : D.aff.ignoreChars = [] := hA.ignore
    have hv := hD.verdict
    unfold Correct GuardedWord
    simp only [hv, hig, List.not_mem_nil, not_false_eq_true, decide_true, List.filter_true]
    refine and_congr_right fun _ => or_congr_right ⟨?_, ?_⟩
    · rintro ⟨t, n, rfl, h1, h | h | ⟨-, h⟩⟩
      · exact ⟨t, n, rfl, h1, .inl h⟩
      · exact ⟨t, n, rfl, h1, .inr (.inl h)⟩
      · exact ⟨t, n, rfl, h1, .inr (.inr h)⟩
    · rintro ⟨t, n, rfl, h1, h | h | h⟩
      · exact ⟨t, n, rfl, h1, .inl h⟩
      · exact ⟨t, n, rfl, h1, .inr (.inl h)⟩
      · cases n with
        | zero => exact ⟨t, 0, rfl, h1, .inr (.inl (by simpa using h))⟩
        | succ n => exact ⟨t, n + 1, rfl, h1, .inr (.inr ⟨by omega, h⟩)⟩
  have hacc : Accepts { U, L, dict := D } w ↔ GuardedWord U g words w := by
    rw [← hk, correct_prepared hC hm rfl rfl]
    exact C51_preparation _ _ hA.breaks hD.shrinking rfl rfl w
  refine ⟨hacc, ?_⟩
  rw [← hacc]
  exact ⟨fun hr ha => (C26_one_outcome _ w).2.1 ⟨ha, hr⟩,
    fun hn => (C26_default_decides_partial _ hD.shrinking rfl rfl w).resolve_left hn⟩

/-! ## Consequences -/

section Consequences
variable {words : List (Str × Str)}

theorem triedForms_head (w : Str) (k : Casing) : ∃ b ls, triedForms U w k = ⟨w, b, true⟩ :: ls := by
  cases k <;> exact ⟨_, _, rfl⟩

theorem Meets.part {l : TriedForm} {fl : Str} (h : Meets U g words l fl) : GuardPart U g words (l.text, fl) := by
  have := h.1
  split at this
  · exact this
  · exact ⟨_, this, rfl, .inl rfl⟩

/-- A word of the list gets the verdict of its flags, whatever its letter case. -/
theorem listVerdict_listed (hu : ∀ t fl fl', GuardPart U g words (t, fl) → GuardPart U g words (t, fl') → fl = fl')
    {w fl : Str} (hw : (w, fl) ∈ words) {o : Option Bool} (h : ListVerdict U g words w o) :
    ∃ b, o = some b ∧ (b = true ↔ Allowed g fl) := by
  have hm : ∀ b, Meets U g words ⟨w, b, true⟩ fl := by
    intro b
    refine ⟨?_, .inl rfl⟩
    cases b
    · exact hw
    · exact ⟨_, hw, rfl, .inl rfl⟩
  cases o with
  | none =>
    obtain ⟨k, -, hf⟩ := h
    obtain ⟨b, ls, hl⟩ := triedForms_head (U := U) w k
    exact absurd (hm b) (hf _ (by rw [hl]; simp) fl)
  | some x =>
    obtain ⟨k, before, l, after, fl', -, h1, h2, h3, h4⟩ := h
    obtain ⟨b, ls, hl⟩ := triedForms_head (U := U) w k
    rw [hl] at h1
    cases before with
    | nil =>
      simp only [List.nil_append, List.cons.injEq] at h1
      obtain ⟨rfl, -⟩ := h1
      rw [hu w fl fl' ⟨_, hw, rfl, .inl rfl⟩ (Meets.part h3)]
      exact ⟨x, rfl, h4⟩
    | cons y ys =>
      simp only [List.cons_append, List.cons.injEq] at h1
      obtain ⟨rfl, -⟩ := h1
      exact absurd (hm b) (h2 _ (by simp) fl)

/-- Without dots at its end and not a number, a word is correct if and only if it is by BREAK. -/
theorem guardedWord_iff {w : Str} (hd : ∀ s, w ≠ s ++ ['.']) (hn : ¬ IsNumber w) (h0 : w ≠ []) :
    GuardedWord U g words w ↔
      (utf8 w).length ≤ 360 ∧ Breaks [['^', '-'], ['-'], ['-', '$']] (ListVerdict U g words) 9 w := by
  unfold GuardedWord
  refine and_congr_right fun _ => ⟨?_, fun h => .inr ⟨w, 0, by simp, hd, .inr (.inl h)⟩⟩
  rintro (h | ⟨t, n, h, -, h'⟩)
  · exact absurd h h0
  · have hz : n = 0 := by
      cases n with
      | zero => rfl
      | succ n =>
        rw [List.replicate_succ', ← List.append_assoc] at h
        exact absurd h (hd _)
    subst hz
    rw [List.replicate_zero, List.append_nil] at h
    subst h
    rcases h' with h' | h' | h'
    · exact absurd h' hn
    · exact h'
    · exact h'

/-- **C103** (forbidden words): a word listed with the FORBIDDENWORD flag is wrong, even if a dash would cut it into correct
words. -/
theorem C103_forbidden (hu : ∀ t fl fl', GuardPart U g words (t, fl) → GuardPart U g words (t, fl') → fl = fl')
    {w fl : Str} {c : Char} (hw : (w, fl) ∈ words) (hc : g.forbidden = some c) (hm : c ∈ fl)
    (hd : ∀ s, w ≠ s ++ ['.']) (hn : ¬ IsNumber w) (h0 : w ≠ []) : ¬ GuardedWord U g words w := by
  have hno : ¬ Allowed g fl := fun h => h.1 c hc hm
  rw [guardedWord_iff hd hn h0]
  rintro ⟨-, h⟩
  have none : ¬ ListVerdict U g words w none := fun h => by
    obtain ⟨b, hb, -⟩ := listVerdict_listed hu hw h
    cases hb
  cases h with
  | direct h =>
    obtain ⟨b, hb, h'⟩ := listVerdict_listed hu hw h
    cases hb
    exact hno (h'.1 rfl)
  | start h => exact none h
  | stop h => exact none h
  | middle h => exact none h

/-- **C103** (listed words): a word of at most 360 bytes listed with flags which allow it is correct as it is listed. -/
theorem C103_listed {w fl : Str} (hw : (w, fl) ∈ words) (hl : (utf8 w).length ≤ 360) (ha : Allowed g fl)
    (hd : ∀ s, w ≠ s ++ ['.']) : GuardedWord U g words w := by
  refine ⟨hl, .inr ⟨w, 0, by simp, hd, .inr (.inl (.direct ?_))⟩⟩
  obtain ⟨k, hk⟩ := hasCasing_exists (U := U) w
  obtain ⟨b, ls, h⟩ := triedForms_head (U := U) w k
  refine ⟨k, [], ⟨w, b, true⟩, ls, fl, hk, h, fun x hx => (by cases hx), ⟨?_, .inl rfl⟩, by simp [ha]⟩
  cases b
  · exact hw
  · exact ⟨_, hw, rfl, .inl rfl⟩

/-- **C103** (letter case): a word in title case without dashes, which is not listed itself and whose small letters are listed
with the KEEPCASE flag, is wrong. -/
theorem C103_keepcase (hu : ∀ t fl fl', GuardPart U g words (t, fl) → GuardPart U g words (t, fl') → fl = fl')
    {w v fl : Str} {c : Char} (hw : (w, fl) ∈ words) (hc : g.keep = some c) (hm : c ∈ fl) (hv : HasCasing U v .init)
    (hl : U.lowerStr v = w) (hno : ∀ fl', (v, fl') ∉ words) (hdash : '-' ∉ v) (hd : ∀ s, v ≠ s ++ ['.'])
    (hn : ¬ IsNumber v) (h0 : v ≠ []) : ¬ GuardedWord U g words v := by
  have hmiss : ∀ l ∈ triedForms U v .init, ∀ fl', ¬ Meets U g words l fl' := by
    intro l hl' fl' h
    simp only [triedForms, List.mem_cons, List.not_mem_nil, or_false] at hl'
    rcases hl' with rfl | rfl
    · exact hno fl' h.1
    · have e := Meets.part h
      simp only [hl] at e
      rcases h.2 with h' | h'
      · cases h'
      · refine h' c hc ?_
        rw [← hu w fl fl' ⟨_, hw, rfl, .inl rfl⟩ e]
        exact hm
  rw [guardedWord_iff hd hn h0]
  rintro ⟨-, h⟩
  cases h with
  | direct h =>
    obtain ⟨k, before, l, after, fl', hk, h1, -, h3, -⟩ := h
    rw [hasCasing_unique hk hv] at h1
    exact hmiss l (by rw [h1]; simp) fl' h3
  | start _ hm hb hs =>
    simp only [List.mem_cons, List.not_mem_nil, or_false] at hm
    rcases hm with rfl | rfl | rfl <;> cases hb
    all_goals exact hdash (by rw [hs]; simp)
  | stop _ hm hb hs =>
    simp only [List.mem_cons, List.not_mem_nil, or_false] at hm
    obtain ⟨hb, -⟩ := hb
    rcases hm with rfl | rfl | rfl
    · have := congrArg List.getLast? hb; simp at this
    · have := congrArg List.getLast? hb; simp at this
    · have := List.append_cancel_right (show ['-'] ++ ['$'] = _ ++ ['$'] from hb)
      exact hdash (by rw [hs, ← this]; simp)
  | middle _ hm hb hs =>
    simp only [List.mem_cons, List.not_mem_nil, or_false] at hm
    obtain ⟨hb, -⟩ := hb
    rcases hm with rfl | rfl | rfl
    all_goals exact hdash (by rw [hs.1, ← hb]; simp)

end Consequences

/-! ## A case which meets the hypotheses -/

/-- Rules of all kinds. -/
def guardAff : Str := "FORBIDDENWORD !\nKEEPCASE k\nWARN w\nFORBIDWARN\n".toList

/-- What they say. -/
def guardRules : GuardRules := { forbidden := some '!', keep := some 'k', warn := some 'w', noWarn := true }

/-- Words of all kinds. -/
def guardWords : List (Str × Str) :=
  [("wort".toList, []), ("km".toList, "k".toList), ("teil".toList, []), ("wort-teil".toList, "!".toList),
    ("rythmus".toList, "w".toList)]

theorem guardAff_settings : Settings .sample guardAff (guardSettings guardRules) := by
  obtain ⟨cx, h, k⟩ := ok_of_map (x := parseAff .sample guardAff)
    (p := fun cx : Cx => decide (cx.options = (guardSettings guardRules).options) && decide (cx.flagType = .short) &&
      cx.flagAliases.isEmpty && cx.replacements.isEmpty && cx.similarities.isEmpty && cx.inputConversions.isEmpty &&
      cx.outputConversions.isEmpty && decide (cx.breakPatterns = [['^', '-'], ['-'], ['-', '$']]) &&
      cx.compoundSyllableVowels.isEmpty && cx.ignoreChars.isEmpty && cx.tryChars.isEmpty && cx.keyboardCloseness.isEmpty &&
      cx.prefixes.isEmpty && cx.suffixes.isEmpty && cx.compoundRules.isEmpty && cx.compoundPatterns.isEmpty)
    (by decide +kernel)
  refine ⟨_, content_iff.2 rfl, parseAff_iff.1 (h.trans (congrArg _ ?_))⟩
  simp only [Bool.and_eq_true, decide_eq_true_eq, List.isEmpty_iff] at k
  obtain ⟨⟨⟨⟨⟨⟨⟨⟨⟨⟨⟨⟨⟨⟨⟨k1, k2⟩, k3⟩, k4⟩, k5⟩, k6⟩, k7⟩, k8⟩, k9⟩, k10⟩, k11⟩, k12⟩, k13⟩, k14⟩, k15⟩, k16⟩ := k
  cases cx
  subst k1 k2 k3 k4 k5 k6 k7 k8 k9 k10 k11 k12 k13 k14 k15 k16
  rfl

theorem guardWords_entries : ∀ e ∈ guardWords, PlainEntry .sample e.1 ∧ (∀ c ∈ e.2, LineFlag .sample c) ∧
    (utf8 (formLine e)).length ≤ 65535 := by
  have : ∀ e ∈ guardWords, (e.1 ≠ [] ∧ (utf8 e.1).length ≤ 65535 ∧
      ∀ c ∈ e.1, Unicode.sample.isWs c = false ∧ c ∉ ['\n', '\r', '\t', ' ', '/', '\\', '#']) ∧
      (∀ c ∈ e.2, 0 < c.toNat ∧ c.toNat < 128 ∧ Unicode.sample.isWs c = false ∧ c ∉ ['\n', '\r', '#']) ∧
      (utf8 (formLine e)).length ≤ 65535 := by decide +kernel
  exact this

theorem guardWords_titles : ∀ e ∈ guardWords, GuardTitle .sample guardRules e →
    (utf8 (titleForm .sample e.1)).length ≤ 65535 := by
  have : ∀ e ∈ guardWords, (utf8 (titleForm .sample e.1)).length ≤ 65535 := by decide +kernel
  exact fun e he _ => this e he

theorem guardWords_once (t fl fl' : Str) (h : GuardPart .sample guardRules guardWords (t, fl))
    (h' : GuardPart .sample guardRules guardWords (t, fl')) : fl = fl' := by
  have key : ∀ e ∈ guardWords, ∀ e' ∈ guardWords, ∀ t ∈ [e.1, titleForm .sample e.1],
      t ∈ [e'.1, titleForm .sample e'.1] → e.2 = e'.2 := by decide +kernel
  obtain ⟨e, he, rfl, h1⟩ := h
  obtain ⟨e', he', rfl, h2⟩ := h'
  refine key e he e' he' t ?_ ?_
  · rcases h1 with h | ⟨-, h⟩ <;> simp only at h <;> simp [h]
  · rcases h2 with h | ⟨-, h⟩ <;> simp only at h <;> simp [h]

theorem guardWords_dic : listText "5".toList (guardWords.map formLine) =
    "5\nwort\nkm/k\nteil\nwort-teil/!\nrythmus/w\n".toList := by decide +kernel

/-- The dictionary of this list accepts `Wort`, `km` and `teil-wort`; it rejects `Km`, `KM` is rejected too, so are the
forbidden `wort-teil` and `rythmus`. -/
example : ∃ D, parse .sample .default guardAff "5\nwort\nkm/k\nteil\nwort-teil/!\nrythmus/w\n".toList = .ok D ∧
    Accepts { U := .sample, L := .default, dict := D } "Wort".toList ∧
    Rejects { U := .sample, L := .default, dict := D } "Km".toList ∧
    Rejects { U := .sample, L := .default, dict := D } "KM".toList ∧
    Rejects { U := .sample, L := .default, dict := D } "rythmus".toList ∧
    GuardedWord .sample guardRules guardWords "km".toList ∧
    GuardedWord .sample guardRules guardWords "teil-wort".toList ∧
    ¬ GuardedWord .sample guardRules guardWords "wort-teil".toList := by
  obtain ⟨D, hp, h⟩ := C103_guard_list (So := .default) guardAff_settings
    (fun c hc => by rcases hc with hc | hc | hc <;> cases hc <;> decide) (number := "5".toList)
      ⟨⟨"5".toList, [], 5, by decide +kernel, usize_ok.1 (by decide +kernel)⟩, by decide +kernel⟩ guardWords_entries
      guardWords_titles guardWords_once
  rw [guardWords_dic] at hp
  obtain ⟨D', hp', hk⟩ := of_map (x := parse .sample .default guardAff "5\nwort\nkm/k\nteil\nwort-teil/!\nrythmus/w\n".toList)
    (D := fun D =>
      decide (Checker.check { U := .sample, L := .default, dict := D } 30 "Wort".toList = .ok true) &&
      decide (Checker.check { U := .sample, L := .default, dict := D } 30 "Km".toList = .ok false) &&
      decide (Checker.check { U := .sample, L := .default, dict := D } 30 "KM".toList = .ok false) &&
      decide (Checker.check { U := .sample, L := .default, dict := D } 30 "rythmus".toList = .ok false) &&
      decide (Checker.check { U := .sample, L := .default, dict := D } 30 "km".toList = .ok true) &&
      decide (Checker.check { U := .sample, L := .default, dict := D } 30 "teil-wort".toList = .ok true) &&
      decide (Checker.check { U := .sample, L := .default, dict := D } 30 "wort-teil".toList = .ok false))
    (by decide +kernel)
  rw [hp] at hp'
  cases hp'
  simp only [Bool.and_eq_true, decide_eq_true_eq] at hk
  obtain ⟨⟨⟨⟨⟨⟨k1, k2⟩, k3⟩, k4⟩, k5⟩, k6⟩, k7⟩ := hk
  exact ⟨D, hp, ⟨30, k1⟩, ⟨30, k2⟩, ⟨30, k3⟩, ⟨30, k4⟩, (h .default _).1.1 ⟨30, k5⟩, (h .default _).1.1 ⟨30, k6⟩,
    (h .default _).2.1 ⟨30, k7⟩⟩

/-- The cases of the consequences, for this list. -/
example : ¬ GuardedWord .sample guardRules guardWords "wort-teil".toList ∧
    ¬ GuardedWord .sample guardRules guardWords "Km".toList := by
  have hn : ∀ w : Str, isNumber w = false → ¬ IsNumber w := fun w h h' => by
    rw [(C03_number_grammar w).2 h'] at h; cases h
  have hd : ∀ {w : Str}, w.getLast? ≠ some '.' → ∀ s, w ≠ s ++ ['.'] := by
    rintro w hw s rfl
    simp at hw
  exact ⟨C103_forbidden guardWords_once (fl := "!".toList) (c := '!') (by decide +kernel) rfl (by decide)
      (hd (by decide)) (hn _ (by decide +kernel)) (by decide),
    C103_keepcase guardWords_once (w := "km".toList) (fl := "k".toList) (c := 'k') (by decide +kernel) rfl (by decide)
      (classifyCasing_iff.1 (by decide +kernel)) (by decide +kernel)
      (fun fl' h => absurd (List.mem_map.2 ⟨_, h, rfl⟩ : "Km".toList ∈ guardWords.map Prod.fst) (by decide +kernel))
      (by decide) (hd (by decide)) (hn _ (by decide +kernel)) (by decide)⟩

end Spellbook.Props
