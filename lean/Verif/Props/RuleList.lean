import Verif.Proof.RuleList
import Verif.Props.PlaceList
/-!
# C102 A list of words with rules for compounds, from the text to the answer
-/

namespace Spellbook.Props
open Spec

variable {U : Unicode} {So : Sorts} {r : PlaceRules} {rules : List CompoundRule}

/-- **C102**: an `.aff` text with COMPOUNDRULE lines and perhaps the settings of C101, and nothing else, and a list of words with
flags, no text of which has two different sets of flags, make a dictionary. With it `check` answers true exactly for the
words which are correct by the list and the rules, and false exactly for the others. -/
theorem C102_rule_list {aff number : Str} {words : List (Str × Str)}
    (ha : Settings U aff (ruleSettings r rules)) (hon : ∀ c, r.only = some c → c.toNat < 256)
    (hf : ∀ rule ∈ rules, ∀ x ∈ rule, x.flag < 256) (hn : PlainHeader U number)
    (hw : ∀ e ∈ words, PlainEntry U e.1 ∧ (∀ c ∈ e.2, LineFlag U c) ∧ (utf8 (formLine e)).length ≤ 65535)
    (ht : ∀ e ∈ words, HasTitle U e → (utf8 (titleForm U e.1)).length ≤ 65535)
    (hu : ∀ t fl fl', RulePart U words (t, fl) → RulePart U words (t, fl') → fl = fl') :
    ∃ D, parse U So aff (listText number (words.map formLine)) = .ok D ∧ ∀ (L : Layout) (w : Str),
      (Accepts { U, L, dict := D } w ↔ CorrectBy U (RuledSo U r rules words) (RuledAny U r rules words) w) ∧
      (Rejects { U, L, dict := D } w ↔ ¬ CorrectBy U (RuledSo U r rules words) (RuledAny U r rules words) w) := by
  obtain ⟨D, hp, hA, hs⟩ := listed_parse (So := So) ⟨rfl, rfl, rfl, fun _ => form_hasTwin rfl, rfl⟩ ha hn hw ht
  refine ⟨D, hp, fun L w => ?_⟩
  obtain ⟨hC, hm, -⟩ := C54_well_made (U := U) (.loaded hp)
  have ho : D.aff.options.minChars = r.min.getD 3 := by rw [hA.options]; rfl
  have hD : PlaceDict { U, L, dict := D } r rules words :=
    ⟨hA, hs, fun e he => (hw e he).2.1, fun e he e' he' h => hu e.1 e.2 e'.2 ⟨e, he, rfl, .inl rfl⟩ ⟨e', he', rfl, .inl h⟩, hon,
      hC, by rw [← ho]; exact hm⟩
  exact placed_verdict hA hC hm hD.shrinking (hD.rulesFind hf hu) w

/-! ## Consequences -/

/-- **C102** (more words and rules): more words and rules, and milder limits, make no correct word wrong. -/
theorem C102_more {r' : PlaceRules} (h : Milder r r') {rules' : List CompoundRule} (hr : rules ⊆ rules')
    {words words' : List (Str × Str)} (hw : words ⊆ words') {w : Str}
    (hc : CorrectBy U (RuledSo U r rules words) (RuledAny U r rules words) w) :
    CorrectBy U (RuledSo U r' rules' words') (RuledAny U r' rules' words') w := by
  have hal : ∀ fl, StandsAlone r fl → StandsAlone r' fl := fun fl hs c hc' => hs c (by rw [← h.only]; exact hc')
  have hso : ∀ s, RuledSo U r rules words s → RuledSo U r' rules' words' s := by
    rintro s (⟨e, he, k, k'⟩ | ⟨parts, k, k'⟩ | ⟨parts, k, k'⟩)
    · exact .inl ⟨e, hw he, hal _ k, k'⟩
    · exact .inr (.inl ⟨parts, PlacedParts.mono h hw k, k'⟩)
    · refine .inr (.inr ⟨parts, ⟨k.atLeastTwo, fun p hp => ?_, fun p hp => h.min.trans (k.long p hp), ?_⟩, k'⟩)
      · obtain ⟨e, he, k2⟩ := k.listed p hp
        exact ⟨e, hw he, k2⟩
      · obtain ⟨rule, k1, k2⟩ := k.rule
        exact ⟨rule, hr k1, k2⟩
  exact CorrectBy.mono hso (fun s hs => hs.imp (hso s) fun ⟨e, he, k1, k2, k3⟩ => ⟨e, hw he, k1, hal _ k2, k3⟩) hc

/-- **C102** (no rules): without COMPOUNDRULE lines the correct words are those of C101. -/
theorem C102_no_rules {words : List (Str × Str)} {w : Str} :
    (RuledSo U r [] words w ↔ PlacedSo U r words w) ∧ (RuledAny U r [] words w ↔ Placed U r words w) := by
  have key : RuledSo U r [] words w ↔ PlacedSo U r words w := by
    unfold RuledSo PlacedSo
    refine or_congr_right (or_iff_left ?_)
    rintro ⟨parts, hp, -⟩
    obtain ⟨rule, hr, -⟩ := hp.rule
    cases hr
  exact ⟨key, or_congr_left key⟩

/-! ## A case which meets the hypotheses -/

/-- Ordinal numbers, as in the English dictionary. -/
def ordinalAff : Str := "COMPOUNDMIN 1\nONLYINCOMPOUND c\nCOMPOUNDRULE 2\nCOMPOUNDRULE n*1t\nCOMPOUNDRULE n*mp\n".toList

/-- What it says, without the rules. -/
def ordinalPlace : PlaceRules := { only := some 'c', min := some 1 }

/-- The rules: `n*1t` and `n*mp`. -/
def ordinalRules : List CompoundRule :=
  [[⟨'n'.toNat, some .zeroOrMore⟩, ⟨'1'.toNat, none⟩, ⟨'t'.toNat, none⟩],
    [⟨'n'.toNat, some .zeroOrMore⟩, ⟨'m'.toNat, none⟩, ⟨'p'.toNat, none⟩]]

/-- Some of its words. -/
def ordinalWords : List (Str × Str) :=
  [("0".toList, "nm".toList), ("0th".toList, "pt".toList), ("1".toList, "n1".toList), ("1st".toList, "p".toList),
    ("1th".toList, "tc".toList), ("2".toList, "nm".toList), ("2nd".toList, "p".toList), ("2th".toList, "tc".toList)]

theorem ordinalAff_settings : Settings .sample ordinalAff (ruleSettings ordinalPlace ordinalRules) := by
  obtain ⟨cx, h, k⟩ := ok_of_map (x := parseAff .sample ordinalAff)
    (p := fun cx : Cx => decide (cx.options = (placeSettings ordinalPlace).options) && decide (cx.flagType = .short) &&
      cx.flagAliases.isEmpty && cx.replacements.isEmpty && cx.similarities.isEmpty && cx.inputConversions.isEmpty &&
      cx.outputConversions.isEmpty && decide (cx.breakPatterns = [['^', '-'], ['-'], ['-', '$']]) &&
      cx.compoundSyllableVowels.isEmpty && cx.ignoreChars.isEmpty && cx.tryChars.isEmpty && cx.keyboardCloseness.isEmpty &&
      cx.prefixes.isEmpty && cx.suffixes.isEmpty && decide (cx.compoundRules = ordinalRules) && cx.compoundPatterns.isEmpty)
    (by decide +kernel)
  refine ⟨_, content_iff.2 rfl, parseAff_iff.1 (h.trans (congrArg _ ?_))⟩
  simp only [Bool.and_eq_true, decide_eq_true_eq, List.isEmpty_iff] at k
  obtain ⟨⟨⟨⟨⟨⟨⟨⟨⟨⟨⟨⟨⟨⟨⟨k1, k2⟩, k3⟩, k4⟩, k5⟩, k6⟩, k7⟩, k8⟩, k9⟩, k10⟩, k11⟩, k12⟩, k13⟩, k14⟩, k15⟩, k16⟩ := k
  cases cx
  subst k1 k2 k3 k4 k5 k6 k7 k8 k9 k10 k11 k12 k13 k14 k15 k16
  rfl

theorem ordinalWords_entries : ∀ e ∈ ordinalWords, PlainEntry .sample e.1 ∧ (∀ c ∈ e.2, LineFlag .sample c) ∧
    (utf8 (formLine e)).length ≤ 65535 := by
  have : ∀ e ∈ ordinalWords, (e.1 ≠ [] ∧ (utf8 e.1).length ≤ 65535 ∧
      ∀ c ∈ e.1, Unicode.sample.isWs c = false ∧ c ∉ ['\n', '\r', '\t', ' ', '/', '\\', '#']) ∧
      (∀ c ∈ e.2, 0 < c.toNat ∧ c.toNat < 128 ∧ Unicode.sample.isWs c = false ∧ c ∉ ['\n', '\r', '#']) ∧
      (utf8 (formLine e)).length ≤ 65535 := by decide +kernel
  exact this

theorem ordinalWords_titles : ∀ e ∈ ordinalWords, HasTitle .sample e →
    (utf8 (titleForm .sample e.1)).length ≤ 65535 := by
  have : ∀ e ∈ ordinalWords, (utf8 (titleForm .sample e.1)).length ≤ 65535 := by decide +kernel
  exact fun e he _ => this e he

theorem ordinalWords_once (t fl fl' : Str) (h : RulePart .sample ordinalWords (t, fl))
    (h' : RulePart .sample ordinalWords (t, fl')) : fl = fl' := by
  have key : ∀ e ∈ ordinalWords, ∀ e' ∈ ordinalWords, ∀ t ∈ [e.1, titleForm .sample e.1],
      t ∈ [e'.1, titleForm .sample e'.1] → e.2 = e'.2 := by decide +kernel
  obtain ⟨e, he, rfl, h1⟩ := h
  obtain ⟨e', he', rfl, h2⟩ := h'
  refine key e he e' he' t ?_ ?_
  · rcases h1 with h | ⟨-, h⟩ <;> simp only at h <;> simp [h]
  · rcases h2 with h | ⟨-, h⟩ <;> simp only at h <;> simp [h]

theorem ordinalWords_dic : listText "8".toList (ordinalWords.map formLine) =
    "8\n0/nm\n0th/pt\n1/n1\n1st/p\n1th/tc\n2/nm\n2nd/p\n2th/tc\n".toList := by decide +kernel

/-- The dictionary of this list accepts `21st`, `12th` and `201ST`; it rejects `1th` and `11st`. -/
example : ∃ D, parse .sample .default ordinalAff
      "8\n0/nm\n0th/pt\n1/n1\n1st/p\n1th/tc\n2/nm\n2nd/p\n2th/tc\n".toList = .ok D ∧
    Accepts { U := .sample, L := .default, dict := D } "21st".toList ∧
    Accepts { U := .sample, L := .default, dict := D } "12th".toList ∧
    Rejects { U := .sample, L := .default, dict := D } "1th".toList ∧
    Rejects { U := .sample, L := .default, dict := D } "11st".toList ∧
    ¬ CorrectBy .sample (RuledSo .sample ordinalPlace ordinalRules ordinalWords)
      (RuledAny .sample ordinalPlace ordinalRules ordinalWords) "11st".toList ∧
    CorrectBy .sample (RuledSo .sample ordinalPlace ordinalRules ordinalWords)
      (RuledAny .sample ordinalPlace ordinalRules ordinalWords) "201ST".toList := by
  obtain ⟨D, hp, h⟩ := C102_rule_list (So := .default) ordinalAff_settings
    (fun c hc => by cases hc; decide) (by decide +kernel) (number := "8".toList)
      ⟨⟨"8".toList, [], 8, by decide +kernel, usize_ok.1 (by decide +kernel)⟩, by decide +kernel⟩ ordinalWords_entries
      ordinalWords_titles ordinalWords_once
  rw [ordinalWords_dic] at hp
  obtain ⟨D', hp', hk⟩ := of_map (x := parse .sample .default ordinalAff
      "8\n0/nm\n0th/pt\n1/n1\n1st/p\n1th/tc\n2/nm\n2nd/p\n2th/tc\n".toList)
    (D := fun D =>
      decide (Checker.check { U := .sample, L := .default, dict := D } 30 "21st".toList = .ok true) &&
      decide (Checker.check { U := .sample, L := .default, dict := D } 30 "12th".toList = .ok true) &&
      decide (Checker.check { U := .sample, L := .default, dict := D } 30 "1th".toList = .ok false) &&
      decide (Checker.check { U := .sample, L := .default, dict := D } 30 "11st".toList = .ok false) &&
      decide (Checker.check { U := .sample, L := .default, dict := D } 30 "201ST".toList = .ok true))
    (by decide +kernel)
  rw [hp] at hp'
  cases hp'
  simp only [Bool.and_eq_true, decide_eq_true_eq] at hk
  obtain ⟨⟨⟨⟨k1, k2⟩, k3⟩, k4⟩, k5⟩ := hk
  exact ⟨D, hp, ⟨30, k1⟩, ⟨30, k2⟩, ⟨30, k3⟩, ⟨30, k4⟩, (h .default _).2.1 ⟨30, k4⟩, (h .default _).1.1 ⟨30, k5⟩⟩

end Spellbook.Props
