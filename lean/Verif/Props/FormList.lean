import Verif.Proof.FormList
import Verif.Props.PartList
/-!
# C100 A list of stems with affixes, from the text to the answer
-/

namespace Spellbook.Props
open Spec

variable {U : Unicode} {So : Sorts} {need need' : Option Char} {P S P' S' : List Affix}

/-- **C100**: an `.aff` text with prefixes and suffixes without continuation flags, perhaps NEEDAFFIX, and nothing else, and a
list of stems with flags, make a dictionary. With it `check` answers true exactly for the words which are correct by the
forms of the stems, and false exactly for the others. -/
theorem C100_form_list {aff number : Str} {words : List (Str × Str)}
    (ha : Settings U aff (formSettings need P S)) (hr : ∀ a ∈ P ++ S, SimpleRule a)
    (hneed : ∀ c, need = some c → c.toNat < 256) (hn : PlainHeader U number)
    (hw : ∀ e ∈ words, PlainEntry U e.1 ∧ (∀ c ∈ e.2, LineFlag U c) ∧ (utf8 (formLine e)).length ≤ 65535)
    (ht : ∀ e ∈ words, HasTitle U e → (utf8 (titleForm U e.1)).length ≤ 65535) :
    ∃ D, parse U So aff (listText number (words.map formLine)) = .ok D ∧ ∀ (L : Layout) (w : Str),
      (Accepts { U, L, dict := D } w ↔ CorrectBy U (FormedSo need P S words) (Formed U need P S words) w) ∧
      (Rejects { U, L, dict := D } w ↔ ¬ CorrectBy U (FormedSo need P S words) (Formed U need P S words) w) := by
  obtain ⟨D, hp, hA, hs⟩ := form_parse (So := So) ha hn hw ht
  refine ⟨D, hp, fun L w => ?_⟩
  obtain ⟨hC, hm, -⟩ := C54_well_made (U := U) (.loaded hp)
  have hD : FormDict { U, L, dict := D } need P S words := ⟨hA, hs, hr, fun e he => (hw e he).2.1, hC⟩
  have hk : Correct { U, L, dict := D } (Checker.choice { U, L, dict := D }) (Cx.breakPatterns {}) w
      (D.aff.inputConversions.convert w) ↔ CorrectBy U (FormedSo need P S words) (Formed U need P S words) w := by
    have hcv : D.aff.inputConversions.convert w = w := by
      obtain ⟨out, k1, k2⟩ := C20_conversion [] _ hA.input w
      unfold ConversionTable.convert
      rw [k1, converts_nil k2]
      rfl
    rw [hcv]
    have hb : ∀ t, Breaks (Cx.breakPatterns {}) (WordVerdict { U, L, dict := D } (Checker.choice { U, L, dict := D })) 9 t ↔
        DashedBy (KnownBy U (FormedSo need P S words) (Formed U need P S words)) 9 t :=
      fun t => dashedBy_breaks fun w => (hD.finds hneed).verdict rfl rfl w
    have hig : D.aff.ignoreChars = [] := hA.ignore
    unfold Correct CorrectBy
    simp only [hb, hig, List.not_mem_nil, not_false_eq_true, decide_true, List.filter_true]
    refine and_congr_right fun _ => or_congr_right ⟨?_, ?_⟩
    · rintro ⟨t, n, rfl, h1, h | h | ⟨-, h⟩⟩
      · exact ⟨t, n, rfl, h1, .inl h⟩
      · exact ⟨t, n, rfl, h1, .inr (.inl h)⟩
      · exact ⟨t, n, rfl, h1, .inr (.inr h)⟩
    · rintro ⟨t, n, rfl, h1, h | h | h⟩
      · exact ⟨t, n, rfl, h1, .inl h⟩
      · exact ⟨t, n, rfl, h1, .inr (.inl h)⟩
      · cases n with
        | zero => exact ⟨t, 0, rfl, h1, .inr (.inl (by simpa using h))⟩
        | succ n => exact ⟨t, n + 1, rfl, h1, .inr (.inr ⟨by omega, h⟩)⟩
  have hacc : Accepts { U, L, dict := D } w ↔ CorrectBy U (FormedSo need P S words) (Formed U need P S words) w := by
    rw [← hk, correct_prepared hC hm rfl rfl]
    exact C51_preparation _ _ hA.breaks hD.shrinking rfl rfl w
  refine ⟨hacc, ?_⟩
  rw [← hacc]
  exact ⟨fun hr ha => (C26_one_outcome _ w).2.1 ⟨ha, hr⟩,
    fun hn => (C26_default_decides_partial _ hD.shrinking rfl rfl w).resolve_left hn⟩

/-! ## Consequences -/

theorem Form.mono {stem flags flags' w : Str} (hP : P ⊆ P') (hS : S ⊆ S') (hf : flags ⊆ flags')
    (hn : ∀ c, need = some c → c ∉ flags → c ∉ flags') (h : Form need P S stem flags w) : Form need P' S' stem flags' w := by
  have hl : ∀ {a}, Licensed flags a → Licensed flags' a := fun ⟨c, hc, e⟩ => ⟨c, hf hc, e⟩
  cases h with
  | bare h => exact .bare fun c hc => hn c hc (h c hc)
  | pfx h1 h2 h3 h4 => exact .pfx (hP h1) (hl h2) h3 h4
  | sfx h1 h2 h3 h4 => exact .sfx (hS h1) (hl h2) h3 h4
  | both h1 h2 h3 h4 h5 h6 h7 h8 h9 h10 => exact .both (hS h1) (hP h2) (hl h3) (hl h4) h5 h6 h7 h8 h9 h10

theorem CorrectBy.mono {exact exact' any any' : Str → Prop} (h1 : ∀ s, exact s → exact' s) (h2 : ∀ s, any s → any' s) {w : Str}
    (hw : CorrectBy U exact any w) : CorrectBy U exact' any' w := by
  have hk : ∀ s, KnownBy U exact any s → KnownBy U exact' any' s := fun s => KnownBy.mono h1 h2
  obtain ⟨k1, k2⟩ := hw
  refine ⟨k1, k2.imp_right ?_⟩
  rintro ⟨t, n, e, h3, h4⟩
  exact ⟨t, n, e, h3, h4.imp_right (Or.imp (DashedBy.mono hk) (DashedBy.mono hk))⟩

/-- **C100** (more rules and stems): more rules, more stems and more flags than that of NEEDAFFIX make no correct word wrong. -/
theorem C100_more {words words' : List (Str × Str)} (hP : P ⊆ P') (hS : S ⊆ S')
    (h : ∀ e ∈ words, ∃ e' ∈ words', e'.1 = e.1 ∧ e.2 ⊆ e'.2 ∧ ∀ c, need = some c → c ∉ e.2 → c ∉ e'.2) {w : Str}
    (hw : CorrectBy U (FormedSo need P S words) (Formed U need P S words) w) :
    CorrectBy U (FormedSo need P' S' words') (Formed U need P' S' words') w := by
  have hso : ∀ s, FormedSo need P S words s → FormedSo need P' S' words' s := by
    rintro s ⟨e, he, hf⟩
    obtain ⟨e', he', h1, h2, h3⟩ := h e he
    exact ⟨e', he', h1 ▸ Form.mono hP hS h2 h3 hf⟩
  refine CorrectBy.mono hso (fun s hs => hs.imp (hso s) ?_) hw
  rintro ⟨e, he, ht, hf⟩
  obtain ⟨e', he', h1, h2, h3⟩ := h e he
  refine ⟨e', he', ht.imp (by rw [h1]; exact id) fun ⟨k1, k2⟩ => ⟨h1 ▸ k1, fun hn => k2 ?_⟩, h1 ▸ Form.mono hP hS h2 h3 hf⟩
  rw [hn] at h2
  exact List.eq_nil_of_subset_nil h2

/-- **C100** (no affixes without flags): a stem without flags has no other form than itself. -/
theorem C100_bare {stem w : Str} : Form need P S stem [] w ↔ w = stem := by
  constructor
  · intro h
    cases h with
    | bare => rfl
    | pfx _ h => obtain ⟨c, hc, -⟩ := h; cases hc
    | sfx _ h => obtain ⟨c, hc, -⟩ := h; cases hc
    | both _ _ h => obtain ⟨c, hc, -⟩ := h; cases hc
  · rintro rfl
    exact .bare fun c _ => List.not_mem_nil

/-! ## A case which meets the hypotheses -/

/-- Two rules with flags which can be combined, one with a condition and a text to strip. -/
def formAff : Str := "NEEDAFFIX N\nPFX U Y 1\nPFX U 0 un .\nSFX Y Y 2\nSFX Y y ily y\nSFX Y 0 ly [^y]\n".toList

/-- Stems in small letters, in capitals, and one which needs an affix. -/
def formWords : List (Str × Str) :=
  [("happy".toList, "UY".toList), ("quick".toList, "Y".toList), ("NATO".toList, "Y".toList), ("kemp".toList, "UN".toList)]

/-- The prefix. -/
def formPfx : Affix := ⟨'U'.toNat, true, none, "un".toList, none, .empty⟩

theorem formAff_settings : ∃ S, Settings .sample formAff (formSettings (some 'N') [formPfx] S) ∧ (∀ a ∈ S, SimpleRule a) ∧
    ∃ a ∈ S, a.flag = 'Y'.toNat ∧ a.crossproduct = true ∧ a.strip = some "y".toList ∧ a.add = "ily".toList ∧
      ∀ c, a.condition = some c → c.pattern = "y".toList := by
  obtain ⟨cx, h, k⟩ := ok_of_map (x := parseAff .sample formAff)
    (p := fun cx : Cx => decide (cx.options = (formSettings (some 'N') [] []).options) && decide (cx.flagType = .short) &&
      cx.flagAliases.isEmpty && cx.replacements.isEmpty && cx.similarities.isEmpty && cx.inputConversions.isEmpty &&
      cx.outputConversions.isEmpty && decide (cx.breakPatterns = [['^', '-'], ['-'], ['-', '$']]) &&
      cx.compoundSyllableVowels.isEmpty && cx.ignoreChars.isEmpty && cx.tryChars.isEmpty && cx.keyboardCloseness.isEmpty &&
      decide (cx.prefixes = [formPfx]) && cx.compoundRules.isEmpty && cx.compoundPatterns.isEmpty &&
      (decide (∀ a ∈ cx.suffixes, a.flag < 256 ∧ a.flags = .empty) &&
        decide (∃ a ∈ cx.suffixes, a.flag = 'Y'.toNat ∧ a.crossproduct = true ∧ a.strip = some "y".toList ∧
          a.add = "ily".toList ∧ ∀ c ∈ a.condition, c.pattern = "y".toList)))
    (by decide +kernel)
  simp only [Bool.and_eq_true, decide_eq_true_eq, List.isEmpty_iff] at k
  obtain ⟨⟨⟨⟨⟨⟨⟨⟨⟨⟨⟨⟨⟨⟨⟨k1, k2⟩, k3⟩, k4⟩, k5⟩, k6⟩, k7⟩, k8⟩, k9⟩, k10⟩, k11⟩, k12⟩, k13⟩, k14⟩, k15⟩, k16, k17⟩ := k
  refine ⟨cx.suffixes, ⟨_, content_iff.2 rfl, parseAff_iff.1 (h.trans (congrArg _ ?_))⟩, k16, k17⟩
  cases cx
  subst k1 k2 k3 k4 k5 k6 k7 k8 k9 k10 k11 k12 k13 k14 k15
  rfl

theorem formWords_entries : ∀ e ∈ formWords, PlainEntry .sample e.1 ∧ (∀ c ∈ e.2, LineFlag .sample c) ∧
    (utf8 (formLine e)).length ≤ 65535 := by
  have : ∀ e ∈ formWords, (e.1 ≠ [] ∧ (utf8 e.1).length ≤ 65535 ∧
      ∀ c ∈ e.1, Unicode.sample.isWs c = false ∧ c ∉ ['\n', '\r', '\t', ' ', '/', '\\', '#']) ∧
      (∀ c ∈ e.2, 0 < c.toNat ∧ c.toNat < 128 ∧ Unicode.sample.isWs c = false ∧ c ∉ ['\n', '\r', '#']) ∧
      (utf8 (formLine e)).length ≤ 65535 := by decide +kernel
  exact this

theorem formWords_titles : ∀ e ∈ formWords, HasTitle .sample e → (utf8 (titleForm .sample e.1)).length ≤ 65535 := by
  have : ∀ e ∈ formWords, (utf8 (titleForm .sample e.1)).length ≤ 65535 := by decide +kernel
  exact fun e he _ => this e he

theorem formWords_dic : listText "4".toList (formWords.map formLine)
    = "4\nhappy/UY\nquick/Y\nNATO/Y\nkemp/UN\n".toList := by decide +kernel

theorem formWords_long {S : List Affix} {a : Affix} (ha : a ∈ S) (h1 : a.flag = 'Y'.toNat) (h2 : a.crossproduct = true)
    (h3 : a.strip = some "y".toList) (h4 : a.add = "ily".toList) (h5 : ∀ c, a.condition = some c → c.pattern = "y".toList) :
    CorrectBy .sample (FormedSo (some 'N') [formPfx] S formWords) (Formed .sample (some 'N') [formPfx] S formWords)
      "Unhappily-unkemp.".toList := by
  have c1 : HasCasing .sample "Unhappily".toList .init := classifyCasing_iff.1 (by decide +kernel)
  have c2 : HasCasing .sample "unkemp".toList .none := classifyCasing_iff.1 (by decide +kernel)
  have f1 : Form (some 'N') [formPfx] S "happy".toList "UY".toList "unhappily".toList := by
    refine .both ha (List.mem_singleton.2 rfl) ⟨'Y', by decide, h1.symm⟩ ⟨'U', by decide, rfl⟩ h2 rfl ?_
      (mid := "happily".toList) ?_ (fun c hc => by cases hc) ?_
    · intro c hc
      refine ⟨[.lit 'y'], ?_, ?_⟩
      · rw [h5 c hc]
        exact ⟨fun e he => by rw [List.mem_singleton.1 he]; exact ⟨by decide, by decide, by decide⟩, rfl⟩
      · exact ⟨"happ".toList, "y".toList, rfl, .cons rfl .nil⟩
    · rw [h3, h4]; exact ⟨"happ".toList, rfl, rfl⟩
    · exact ⟨"happily".toList, rfl, rfl⟩
  have f2 : Form (some 'N') [formPfx] S "kemp".toList "UN".toList "unkemp".toList := by
    refine .pfx (List.mem_singleton.2 rfl) ⟨'U', by decide, rfl⟩ (fun c hc => by cases hc) ?_
    exact ⟨"kemp".toList, rfl, rfl⟩
  refine ⟨by decide +kernel, .inr ⟨"Unhappily-unkemp".toList, 1, rfl, fun s h => ?_, .inr (.inl
    (.middle (a := "Unhappily".toList) (b := "unkemp".toList) (by decide) (by decide)
      (.known (.title c1 (.inr (.inl ⟨_, List.mem_cons_self .., (by exact f1)⟩))))
      (.known (.small c2 (.inl ⟨("kemp".toList, "UN".toList), by decide, f2⟩)))))⟩⟩
  have := congrArg List.getLast? h
  simp at this

/-- The dictionary of this list accepts such words; `kemp` alone is wrong. -/
example : ∃ D, parse .sample .default formAff "4\nhappy/UY\nquick/Y\nNATO/Y\nkemp/UN\n".toList = .ok D ∧
    Accepts { U := .sample, L := .default, dict := D } "Unhappily-unkemp.".toList ∧
    Rejects { U := .sample, L := .default, dict := D } "kemp".toList := by
  obtain ⟨S, hS, hr, a, ha, h1, h2, h3, h4, h5⟩ := formAff_settings
  obtain ⟨D, hp, h⟩ := C100_form_list (So := .default) hS
    (fun b hb => (List.mem_append.1 hb).elim (fun hb => by rw [List.mem_singleton.1 hb]; exact ⟨by decide, rfl⟩) (hr b))
    (fun c hc => by cases hc; decide) (number := "4".toList) 
      ⟨⟨"4".toList, [], 4, by decide +kernel, usize_ok.1 (by decide +kernel)⟩, by decide +kernel⟩ formWords_entries formWords_titles
  rw [formWords_dic] at hp
  obtain ⟨D', hp', hk⟩ := of_map (x := parse .sample .default formAff "4\nhappy/UY\nquick/Y\nNATO/Y\nkemp/UN\n".toList)
    (D := fun D => decide (Checker.check { U := .sample, L := .default, dict := D } 30 "kemp".toList = .ok false))
    (by decide +kernel)
  rw [hp] at hp'
  cases hp'
  exact ⟨D, hp, (h _ _).1.2 (formWords_long ha h1 h2 h3 h4 h5), ⟨30, of_decide_eq_true hk⟩⟩

end Spellbook.Props
