import Verif.Proof.PrepList
import Verif.Props.PlaceList
import Verif.Props.TableOrder
/-!
# C104 A list with BREAK, ICONV, OCONV and IGNORE, from the text to the answer
-/

namespace Spellbook.Props
open Spec

variable {U : Unicode} {So : Sorts} {r : PrepRules}

/-- **C104**: an `.aff` text which says BREAK, ICONV, OCONV, IGNORE, TRY, KEY, REP or MAP and nothing else, and a list of words
without flags make a dictionary. With it `check` converts a word by the ICONV lines and answers true exactly for the words which
are then correct by the list, and false exactly for the others. -/
theorem C104_prep_list {aff number : Str} {words : List Str} (ha : Settings U aff (prepSettings r)) (hn : PlainHeader U number)
    (hw : ∀ w ∈ words, PlainEntry U w)
    (ht : ∀ w ∈ listKept r words, MixedCase U w → (utf8 (titleForm U w)).length ≤ 65535) :
    ∃ D, parse U So aff (listText number words) = .ok D ∧ ∃ conv : Str → Str, (∀ w, Converts r.input w (conv w)) ∧
      ∀ (L : Layout) (w : Str),
        (Accepts { U, L, dict := D } w ↔ CorrectPrepared U r words w (conv w)) ∧
        (Rejects { U, L, dict := D } w ↔ ¬ CorrectPrepared U r words w (conv w)) := by
  obtain ⟨D, hp, hA, hs⟩ := prep_parse (So := So) ha hn hw ht
  refine ⟨D, hp, D.aff.inputConversions.convert, fun w => ?_, fun L w => ?_⟩
  · obtain ⟨out, k1, k2⟩ := C20_conversion r.input _ hA.input w
    unfold ConversionTable.convert
    rw [k1]
    exact k2
  obtain ⟨hC, hm, -⟩ := C54_well_made (U := U) (.loaded hp)
  have hD : PrepDict { U, L, dict := D } r words := ⟨hA, hs, hC⟩
  have hk : Correct { U, L, dict := D } (Checker.choice { U, L, dict := D }) r.breaks w
      (D.aff.inputConversions.convert w) ↔ CorrectPrepared U r words w (D.aff.inputConversions.convert w) := by
    have hb : ∀ t, Breaks r.breaks (WordVerdict { U, L, dict := D } (Checker.choice { U, L, dict := D })) 9 t ↔
        MadeOfKnown U r words t := fun t => breaks_cutBy fun w => by
      have := hD.finds.verdict rfl rfl w
      rw [show (Checker.dict { U, L, dict := D }).aff.options.checksharps = r.sharps from congrArg (·.checksharps) hD.options] at this
      exact this
    have hig : D.aff.ignoreChars = r.ignored := hA.ignore
    unfold Correct CorrectPrepared
    simp only [hb, hig]
    refine and_congr_right fun _ => or_congr_right ⟨?_, ?_⟩
    · rintro ⟨t, n, e, h1, h⟩
      rw [← e] at h
      exact ⟨t, n, e, h1, h⟩
    · rintro ⟨t, n, e, h1, h⟩
      rw [e] at h
      exact ⟨t, n, e, h1, h⟩
  have hacc : Accepts { U, L, dict := D } w ↔ CorrectPrepared U r words w (D.aff.inputConversions.convert w) := by
    rw [← hk, correct_prepared hC hm rfl rfl]
    exact C51_preparation _ _ hA.breaks hD.shrinking rfl rfl w
  refine ⟨hacc, ?_⟩
  rw [← hacc]
  exact ⟨fun hr ha => (C26_one_outcome _ w).2.1 ⟨ha, hr⟩,
    fun hn => (C26_default_decides_partial _ hD.shrinking rfl rfl w).resolve_left hn⟩

/-! ## Consequences -/

section Consequences
variable {words : List Str} {aff number : Str} {D : Dict} {L : Layout}
  (ha : Settings U aff (prepSettings r)) (hn : PlainHeader U number) (hw : ∀ w ∈ words, PlainEntry U w)
  (ht : ∀ w ∈ listKept r words, MixedCase U w → (utf8 (titleForm U w)).length ≤ 65535)
  (hD : parse U So aff (listText number words) = .ok D)

/-- A text of the list is known, whatever its letter case. -/
theorem knownBy_listed {ws : List Str} {w : Str} (h : w ∈ ws) : KnownBy U (· ∈ ws) (InList U ws) w := by
  obtain ⟨k, hk⟩ := hasCasing_exists (U := U) w
  cases k with
  | none => exact .small hk (.inl h)
  | camel => exact .mixed (.inr hk) (.inl h)
  | pascal => exact .mixed (.inl hk) (.inl h)
  | init => exact .title hk (.inl h)
  | all => exact .caps hk (.inl (.inl h))

/-- A word without dots at its end is correct if without ignored letters it is made of known words. -/
theorem correctPrepared_of {w v : Str} (hl : (utf8 w).length ≤ 360) (hd : ∀ s, v ≠ s ++ ['.'])
    (h : MadeOfKnown U r words (lettersKept r v)) : CorrectPrepared U r words w v :=
  ⟨hl, .inr ⟨v, 0, by simp, hd, .inr (.inl h)⟩⟩

include ha hn hw ht hD

/-- **C104** (ignored letters): without ICONV lines, a word is correct if it and a word of the list differ only in ignored
letters, wherever they stand, in the word or in the list. -/
theorem C104_ignored (hi : r.input = []) {w v : Str} (hv : v ∈ words) (he : lettersKept r w = lettersKept r v)
    (hl : (utf8 w).length ≤ 360) (hd : ∀ s, w ≠ s ++ ['.']) : Accepts { U, L, dict := D } w := by
  obtain ⟨D', hp, conv, hc, h⟩ := C104_prep_list (So := So) ha hn hw ht
  rw [hD] at hp
  cases hp
  refine (h L w).1.2 ?_
  have : conv w = w := converts_nil (hi ▸ hc w)
  rw [this]
  exact correctPrepared_of hl hd (.known (he ▸ .inl (knownBy_listed (List.mem_map.2 ⟨v, hv, rfl⟩))))

/-- **C104** (breaks): without ICONV and IGNORE lines, two words of the list with the text of a BREAK line between them are a
correct word, if that text stands nowhere before. -/
theorem C104_joined (hi : r.input = []) (hg : r.ignored = []) {a b text : Str} (hca : a ∈ words) (hcb : b ∈ words)
    (htl : text ∈ r.breaks) (h1 : text.head? ≠ some '^') (h2 : text.getLast? ≠ some '$')
    (hf : ∀ a' b', a ++ text ++ b = a' ++ text ++ b' → a.length ≤ a'.length)
    (hl : (utf8 (a ++ text ++ b)).length ≤ 360) (hd : ∀ s, b ≠ s ++ ['.']) :
    Accepts { U, L, dict := D } (a ++ text ++ b) := by
  have hb0 : b ≠ [] := (hw b hcb).1
  obtain ⟨D', hp, conv, hc, h⟩ := C104_prep_list (So := So) ha hn hw ht
  rw [hD] at hp
  cases hp
  refine (h L _).1.2 ?_
  have : conv (a ++ text ++ b) = a ++ text ++ b := converts_nil (hi ▸ hc _)
  rw [this]
  have hkeep : ∀ s, lettersKept r s = s := by
    intro s
    unfold lettersKept
    rw [hg]
    simp
  have hlk : listKept r words = words := by
    unfold listKept
    rw [show lettersKept r = id from funext hkeep, List.map_id]
  refine correctPrepared_of hl ?_ ?_
  · intro s hs
    rcases List.eq_nil_or_concat b with rfl | ⟨b', x, rfl⟩
    · exact hb0 rfl
    · rw [List.concat_eq_append, ← List.append_assoc] at hs
      obtain ⟨-, hx⟩ := List.append_inj' hs rfl
      refine hd b' ?_
      rw [List.concat_eq_append, hx]
  · rw [hkeep]
    exact .middle htl h1 h2 hf hb0 (.known (.inl (knownBy_listed (hlk.symm ▸ hca))))
      (.known (.inl (knownBy_listed (hlk.symm ▸ hcb))))

/-- **C104** (sharp s): without ICONV and IGNORE lines and with CHECKSHARPS, a word in capitals with `SS` is correct if a word of
the list is this word in small letters, or with an initial capital, with `ß` for some of its first five `ss`. -/
theorem C104_sharp (hi : r.input = []) (hg : r.ignored = []) (hs : r.sharps = true) {w v : Str} (hv : v ∈ words)
    (hc : HasCasing U w .all) (hss : ['S', 'S'] <:+: w) (hsh : Sharpened 5 (U.lowerStr w) v ∨ Sharpened 5 (titleForm U w) v)
    (hl : (utf8 w).length ≤ 360) (hd : ∀ s, w ≠ s ++ ['.']) : Accepts { U, L, dict := D } w := by
  obtain ⟨D', hp, conv, hcv, h⟩ := C104_prep_list (So := So) ha hn hw ht
  rw [hD] at hp
  cases hp
  refine (h L w).1.2 ?_
  rw [show conv w = w from converts_nil (hi ▸ hcv w)]
  have hkeep : lettersKept r = id := funext fun s => by
    unfold lettersKept
    rw [hg]
    simp
  refine correctPrepared_of hl hd (.known ?_)
  rw [hkeep]
  refine .inr ⟨hs, hc, hss, v, .inl ?_, hsh⟩
  unfold listKept
  rw [hkeep, List.map_id]
  exact hv

/-- **C104** (conversion): two texts of at most 360 bytes which the ICONV lines turn into the same text get the same answer, if
no two of these lines turn the same letters into different texts. -/
theorem C104_converted (hi : NoTies r.input) {w w' v : Str} (hl : (utf8 w).length ≤ 360) (hl' : (utf8 w').length ≤ 360)
    (hv : Converts r.input w v) (hv' : Converts r.input w' v) :
    Accepts { U, L, dict := D } w ↔ Accepts { U, L, dict := D } w' := by
  obtain ⟨D', hp, conv, hc, h⟩ := C104_prep_list (So := So) ha hn hw ht
  rw [hD] at hp
  cases hp
  rw [(h L w).1, (h L w').1, (hc w).unique hi hv, (hc w').unique hi hv']
  exact and_congr_left fun _ => iff_of_true hl hl'

end Consequences

/-! ## A case which meets the hypotheses -/

/-- Break lines of all kinds, a conversion of apostrophes and an ignored letter. -/
def prepAff : Str :=
  "BREAK 3\nBREAK ^+\nBREAK _\nBREAK !$\nICONV 1\nICONV ’ '\nIGNORE ~\n".toList

/-- What they say. -/
def prepRules : PrepRules :=
  { breaks := ["^+".toList, "_".toList, "!$".toList], input := [("’".toList, "'".toList)], ignored := ['~'] }

/-- Words, one of them with an ignored letter. -/
def prepWords : List Str := ["don't".toList, "pa~nic".toList, "McCoy".toList]

theorem prepAff_settings : Settings .sample prepAff (prepSettings prepRules) := by
  obtain ⟨cx, h, k⟩ := ok_of_map (x := parseAff .sample prepAff)
    (p := fun cx : Cx => decide (cx.options = {}) && decide (cx.flagType = .short) &&
      cx.flagAliases.isEmpty && cx.replacements.isEmpty && cx.similarities.isEmpty &&
      decide (cx.inputConversions = prepRules.input) &&
      cx.outputConversions.isEmpty && decide (cx.breakPatterns = prepRules.breaks) &&
      cx.compoundSyllableVowels.isEmpty && decide (cx.ignoreChars = ['~']) && cx.tryChars.isEmpty && cx.keyboardCloseness.isEmpty &&
      cx.prefixes.isEmpty && cx.suffixes.isEmpty && cx.compoundRules.isEmpty && cx.compoundPatterns.isEmpty)
    (by decide +kernel)
  refine ⟨_, content_iff.2 rfl, parseAff_iff.1 (h.trans (congrArg _ ?_))⟩
  simp only [Bool.and_eq_true, decide_eq_true_eq, List.isEmpty_iff] at k
  obtain ⟨⟨⟨⟨⟨⟨⟨⟨⟨⟨⟨⟨⟨⟨⟨k1, k2⟩, k3⟩, k4⟩, k5⟩, k6⟩, k7⟩, k8⟩, k9⟩, k10⟩, k11⟩, k12⟩, k13⟩, k14⟩, k15⟩, k16⟩ := k
  cases cx
  subst k1 k2 k3 k4 k5 k6 k7 k8 k9 k10 k11 k12 k13 k14 k15 k16
  rfl

theorem prepWords_entries : ∀ w ∈ prepWords, PlainEntry .sample w := by
  have : ∀ w ∈ prepWords, w ≠ [] ∧ (utf8 w).length ≤ 65535 ∧
      ∀ c ∈ w, Unicode.sample.isWs c = false ∧ c ∉ ['\n', '\r', '\t', ' ', '/', '\\', '#'] := by decide +kernel
  exact this

theorem prepWords_titles : ∀ w ∈ listKept prepRules prepWords, MixedCase .sample w →
    (utf8 (titleForm .sample w)).length ≤ 65535 := by
  have : ∀ w ∈ listKept prepRules prepWords, (utf8 (titleForm .sample w)).length ≤ 65535 := by decide +kernel
  exact fun w hw _ => this w hw

theorem prepWords_dic : listText "3".toList prepWords = "3\ndon't\npa~nic\nMcCoy\n".toList := by decide +kernel

/-- The dictionary of this list accepts words with the other apostrophe, with ignored letters elsewhere, and words put
together by the break lines. It rejects a dash, which is no break line any more, and a cut with nothing behind it. -/
example : ∃ D, parse .sample .default prepAff "3\ndon't\npa~nic\nMcCoy\n".toList = .ok D ∧
    Accepts { U := .sample, L := .default, dict := D } "Don’t".toList ∧
    Accepts { U := .sample, L := .default, dict := D } "~panic_MCCOY!".toList ∧
    Accepts { U := .sample, L := .default, dict := D } "+pan~ic".toList ∧
    Rejects { U := .sample, L := .default, dict := D } "don't-panic".toList ∧
    (∃ conv : Str → Str, (∀ w, Converts prepRules.input w (conv w)) ∧
      ¬ CorrectPrepared .sample prepRules prepWords "panic_".toList (conv "panic_".toList) ∧
      CorrectPrepared .sample prepRules prepWords "pan~ic.".toList (conv "pan~ic.".toList)) := by
  obtain ⟨D, hp, conv, hc, h⟩ := C104_prep_list (So := .default) prepAff_settings (number := "3".toList)
      ⟨⟨"3".toList, [], 3, by decide +kernel, usize_ok.1 (by decide +kernel)⟩, by decide +kernel⟩ prepWords_entries
      prepWords_titles
  rw [prepWords_dic] at hp
  obtain ⟨D', hp', hk⟩ := of_map (x := parse .sample .default prepAff "3\ndon't\npa~nic\nMcCoy\n".toList)
    (D := fun D =>
      decide (Checker.check { U := .sample, L := .default, dict := D } 30 "Don’t".toList = .ok true) &&
      decide (Checker.check { U := .sample, L := .default, dict := D } 30 "~panic_MCCOY!".toList = .ok true) &&
      decide (Checker.check { U := .sample, L := .default, dict := D } 30 "+pan~ic".toList = .ok true) &&
      decide (Checker.check { U := .sample, L := .default, dict := D } 30 "don't-panic".toList = .ok false) &&
      decide (Checker.check { U := .sample, L := .default, dict := D } 30 "panic_".toList = .ok false) &&
      decide (Checker.check { U := .sample, L := .default, dict := D } 30 "pan~ic.".toList = .ok true))
    (by decide +kernel)
  rw [hp] at hp'
  cases hp'
  simp only [Bool.and_eq_true, decide_eq_true_eq] at hk
  obtain ⟨⟨⟨⟨⟨k1, k2⟩, k3⟩, k4⟩, k5⟩, k6⟩ := hk
  exact ⟨D, hp, ⟨30, k1⟩, ⟨30, k2⟩, ⟨30, k3⟩, ⟨30, k4⟩, conv, hc, (h .default _).2.1 ⟨30, k5⟩, (h .default _).1.1 ⟨30, k6⟩⟩

/-- The other apostrophe makes no difference. -/
example : ∃ D, parse .sample .default prepAff (listText "3".toList prepWords) = .ok D ∧
    (Accepts { U := .sample, L := .default, dict := D } "Don’t".toList ↔
      Accepts { U := .sample, L := .default, dict := D } "Don't".toList) := by
  have hn : PlainHeader .sample "3".toList :=
    ⟨⟨"3".toList, [], 3, by decide +kernel, usize_ok.1 (by decide +kernel)⟩, by decide +kernel⟩
  obtain ⟨D, hp, -⟩ := C104_prep_list (So := .default) prepAff_settings hn prepWords_entries prepWords_titles
  have hq : ¬ ∃ p, "’".toList = p ++ ['_'] := by
    rintro ⟨p, h⟩
    have := congrArg List.getLast? h
    simp at this
  have no : ∀ {c : Char} {w : Str}, c ≠ '’' → ∀ line ∈ prepRules.input, ∀ pat, ¬ ConvApplies line (c :: w) pat := by
    rintro c w hc line hl pat ⟨-, ⟨h, -⟩ | ⟨-, h, h'⟩⟩ <;> rw [List.mem_singleton.1 hl] at h
    · exact hq ⟨_, h⟩
    · change "’".toList = pat at h
      subst h
      obtain ⟨z, hz⟩ := h'
      exact hc (List.cons.inj hz).1.symm
  have yes : ∀ {w out : Str}, Converts prepRules.input w out → Converts prepRules.input ('’' :: w) ('\'' :: out) := by
    intro w out h
    refine .replace (line := ("’".toList, "'".toList)) (pat := "’".toList) (by simp [prepRules])
      ⟨by decide, .inr ⟨hq, rfl, List.prefix_append _ _⟩⟩ ?_ h
    rintro line hl pat ⟨-, ⟨h, -⟩ | ⟨-, h, -⟩⟩ <;> rw [List.mem_singleton.1 hl] at h
    · exact absurd ⟨_, h⟩ hq
    · change "’".toList = pat at h
      rw [← h]
  refine ⟨D, hp, C104_converted prepAff_settings hn prepWords_entries prepWords_titles hp (noTies_plain (by decide) (by decide))
    (v := "Don't".toList) (by decide +kernel) (by decide +kernel) ?_ ?_⟩
  · exact .copy (no (by decide)) (.copy (no (by decide)) (.copy (no (by decide)) (yes (.copy (no (by decide)) .done))))
  · exact .copy (no (by decide)) (.copy (no (by decide)) (.copy (no (by decide)) (.copy (no (by decide))
      (.copy (no (by decide)) .done))))

/-- Words of a list with a dash between them, without an `.aff` text. -/
example : ∃ D, parse .sample .default [] (listText "5".toList plainWords) = .ok D ∧
    Accepts { U := .sample, L := .default, dict := D } "McDonald-foo".toList := by
  have hs : Settings .sample [] (prepSettings {}) := ⟨_, content_iff.2 rfl, parseAff_iff.1 parseAff_nil⟩
  have hk : listKept {} plainWords = plainWords := by decide +kernel
  have ht : ∀ w ∈ listKept {} plainWords, MixedCase .sample w → (utf8 (titleForm .sample w)).length ≤ 65535 := by
    rw [hk]; exact plainWords_titles
  obtain ⟨D, hp, -⟩ := C104_prep_list (So := .default) hs plainWords_header plainWords_entries ht
  refine ⟨D, hp, C104_joined hs plainWords_header plainWords_entries ht hp rfl rfl (a := "McDonald".toList) (text := ['-'])
    (b := "foo".toList) (by decide) (by decide) (by decide) (by decide) (by decide) ?_ (by decide +kernel) ?_⟩
  · intro a' b' h
    by_contra hlt
    have h3 := congrArg (fun l : List Char => l[a'.length]?) h
    have hmem : '-' ∈ "McDonald".toList := by
      simp only [List.append_assoc, List.singleton_append] at h3
      rw [List.getElem?_append_left (by omega), List.getElem?_append_right (by omega)] at h3
      simp only [Nat.sub_self, List.getElem?_cons_zero] at h3
      exact List.mem_of_getElem? h3
    exact absurd hmem (by decide)
  · intro s h
    have := congrArg List.getLast? h
    simp at this

theorem ignoreAff_settings : Settings .sample "IGNORE ~\n".toList (prepSettings { ignored := ['~'] }) := by
  obtain ⟨cx, h, k⟩ := ok_of_map (x := parseAff .sample "IGNORE ~\n".toList)
    (p := fun cx : Cx => decide (cx.options = {}) && decide (cx.flagType = .short) &&
      cx.flagAliases.isEmpty && cx.replacements.isEmpty && cx.similarities.isEmpty && cx.inputConversions.isEmpty &&
      cx.outputConversions.isEmpty && decide (cx.breakPatterns = [['^', '-'], ['-'], ['-', '$']]) &&
      cx.compoundSyllableVowels.isEmpty && decide (cx.ignoreChars = ['~']) && cx.tryChars.isEmpty && cx.keyboardCloseness.isEmpty &&
      cx.prefixes.isEmpty && cx.suffixes.isEmpty && cx.compoundRules.isEmpty && cx.compoundPatterns.isEmpty)
    (by decide +kernel)
  refine ⟨_, content_iff.2 rfl, parseAff_iff.1 (h.trans (congrArg _ ?_))⟩
  simp only [Bool.and_eq_true, decide_eq_true_eq, List.isEmpty_iff] at k
  obtain ⟨⟨⟨⟨⟨⟨⟨⟨⟨⟨⟨⟨⟨⟨⟨k1, k2⟩, k3⟩, k4⟩, k5⟩, k6⟩, k7⟩, k8⟩, k9⟩, k10⟩, k11⟩, k12⟩, k13⟩, k14⟩, k15⟩, k16⟩ := k
  cases cx
  subst k1 k2 k3 k4 k5 k6 k7 k8 k9 k10 k11 k12 k13 k14 k15 k16
  rfl

/-- An ignored letter at another place. -/
example : ∃ D, parse .sample .default "IGNORE ~\n".toList (listText "3".toList prepWords) = .ok D ∧
    Accepts { U := .sample, L := .default, dict := D } "~pani~c".toList := by
  have hn : PlainHeader .sample "3".toList :=
    ⟨⟨"3".toList, [], 3, by decide +kernel, usize_ok.1 (by decide +kernel)⟩, by decide +kernel⟩
  obtain ⟨D, hp, -⟩ := C104_prep_list (So := .default) ignoreAff_settings hn prepWords_entries prepWords_titles
  refine ⟨D, hp, C104_ignored ignoreAff_settings hn prepWords_entries prepWords_titles hp rfl (v := "pa~nic".toList)
    (by decide) (by decide +kernel) (by decide +kernel) ?_⟩
  intro s h
  have := congrArg List.getLast? h
  simp at this

/-- Words with sharp s. -/
def sharpWords : List Str := ["straße".toList, "Großmasse".toList]

theorem sharpAff_settings : Settings .sample "CHECKSHARPS\n".toList (prepSettings { sharps := true }) := by
  obtain ⟨cx, h, k⟩ := ok_of_map (x := parseAff .sample "CHECKSHARPS\n".toList)
    (p := fun cx : Cx => decide (cx.options = { checksharps := true }) && decide (cx.flagType = .short) &&
      cx.flagAliases.isEmpty && cx.replacements.isEmpty && cx.similarities.isEmpty && cx.inputConversions.isEmpty &&
      cx.outputConversions.isEmpty && decide (cx.breakPatterns = [['^', '-'], ['-'], ['-', '$']]) &&
      cx.compoundSyllableVowels.isEmpty && cx.ignoreChars.isEmpty && cx.tryChars.isEmpty && cx.keyboardCloseness.isEmpty &&
      cx.prefixes.isEmpty && cx.suffixes.isEmpty && cx.compoundRules.isEmpty && cx.compoundPatterns.isEmpty)
    (by decide +kernel)
  refine ⟨_, content_iff.2 rfl, parseAff_iff.1 (h.trans (congrArg _ ?_))⟩
  simp only [Bool.and_eq_true, decide_eq_true_eq, List.isEmpty_iff] at k
  obtain ⟨⟨⟨⟨⟨⟨⟨⟨⟨⟨⟨⟨⟨⟨⟨k1, k2⟩, k3⟩, k4⟩, k5⟩, k6⟩, k7⟩, k8⟩, k9⟩, k10⟩, k11⟩, k12⟩, k13⟩, k14⟩, k15⟩, k16⟩ := k
  cases cx
  subst k1 k2 k3 k4 k5 k6 k7 k8 k9 k10 k11 k12 k13 k14 k15 k16
  rfl

/-- `STRASSE` is `straße` in capitals, and `GROSSMASSE` is `Großmasse`. In small letters `strasse` is another word. -/
example : ∃ D, parse .sample .default "CHECKSHARPS\n".toList (listText "2".toList sharpWords) = .ok D ∧
    Accepts { U := .sample, L := .default, dict := D } "STRASSE".toList ∧
    Accepts { U := .sample, L := .default, dict := D } "GROSSMASSE".toList ∧
    Rejects { U := .sample, L := .default, dict := D } "strasse".toList := by
  have hn : PlainHeader .sample "2".toList :=
    ⟨⟨"2".toList, [], 2, by decide +kernel, usize_ok.1 (by decide +kernel)⟩, by decide +kernel⟩
  have he : ∀ w ∈ sharpWords, PlainEntry .sample w := by
    have : ∀ w ∈ sharpWords, w ≠ [] ∧ (utf8 w).length ≤ 65535 ∧
        ∀ c ∈ w, Unicode.sample.isWs c = false ∧ c ∉ ['\n', '\r', '\t', ' ', '/', '\\', '#'] := by decide +kernel
    exact this
  have ht : ∀ w ∈ listKept { sharps := true } sharpWords, MixedCase .sample w → (utf8 (titleForm .sample w)).length ≤ 65535 := by
    have : ∀ w ∈ listKept { sharps := true } sharpWords, (utf8 (titleForm .sample w)).length ≤ 65535 := by decide +kernel
    exact fun w hw _ => this w hw
  have cased : ∀ {w : Str} {k : Casing}, classifyCasing .sample w = k → HasCasing .sample w k := classifyCasing_iff.1
  have nodot : ∀ {w s : Str}, w.getLast? ≠ some '.' → w ≠ s ++ ['.'] := fun h e => h (by rw [e]; simp)
  obtain ⟨D, hp, -, -, h⟩ := C104_prep_list (So := .default) sharpAff_settings hn he ht
  have hdic : listText "2".toList sharpWords = "2\nstraße\nGroßmasse\n".toList := by decide +kernel
  obtain ⟨D', hp', hk⟩ := of_map (x := parse .sample .default "CHECKSHARPS\n".toList "2\nstraße\nGroßmasse\n".toList)
    (D := fun D => decide (Checker.check { U := .sample, L := .default, dict := D } 30 "strasse".toList = .ok false))
    (by decide +kernel)
  rw [← hdic, hp] at hp'
  cases hp'
  refine ⟨D, hp, ?_, ?_, 30, of_decide_eq_true hk⟩
  · exact C104_sharp sharpAff_settings hn he ht hp rfl rfl rfl (v := "straße".toList) (by decide) (cased (by decide +kernel))
      (by decide) (.inl (mem_sharps.1 (by decide +kernel))) (by decide +kernel) fun _ => nodot (by decide)
  · exact C104_sharp sharpAff_settings hn he ht hp rfl rfl rfl (v := "Großmasse".toList) (by decide) (cased (by decide +kernel))
      (by decide) (.inr (mem_sharps.1 (by decide +kernel))) (by decide +kernel) fun _ => nodot (by decide)

end Spellbook.Props
