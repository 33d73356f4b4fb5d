import Verif.Proof.PartList
import Verif.Props.Plain
/-!
# C99 A list of words and parts of compounds, from the text to the answer
-/

namespace Spellbook.Props
open Spec

variable {U : Unicode} {S : Sorts}

/-- **C99**: an `.aff` text which says COMPOUNDFLAG, perhaps COMPOUNDMIN, and nothing else, and a list of words, some with that
flag, make a dictionary. With it `check` answers true exactly for the words which are correct by the list, compounds being
two or more flagged words of at least COMPOUNDMIN characters, and false exactly for the others. -/
theorem C99_part_list {aff number : Str} {x : Char} {min : Option Nat} {words : List (Str × Bool)}
    (ha : Settings U aff (partSettings x min)) (hx : LineFlag U x) (hn : PlainHeader U number)
    (hw : ∀ e ∈ words, PlainEntry U e.1 ∧ (utf8 (partLine x e)).length ≤ 65535)
    (ht : ∀ e ∈ words, AlsoTitle U e → (utf8 (titleForm U e.1)).length ≤ 65535) :
    ∃ D, parse U S aff (listText number (words.map (partLine x))) = .ok D ∧ ∀ (L : Layout) (w : Str),
      (Accepts { U, L, dict := D } w ↔ CorrectByParts U words (min.getD 3) w) ∧
      (Rejects { U, L, dict := D } w ↔ ¬ CorrectByParts U words (min.getD 3) w) := by
  obtain ⟨D, hp, hA, hs⟩ := part_parse (S := S) ha hx hn hw ht
  refine ⟨D, hp, fun L w => ?_⟩
  obtain ⟨hC, hm, -⟩ := C54_well_made (U := U) (.loaded hp)
  have ho : D.aff.options.minChars = min.getD 3 := by rw [hA.options]; rfl
  have hD : PartDict { U, L, dict := D } x min words := ⟨hA, hs, hx, hC, by rw [← ho]; exact hm⟩
  have hk : Correct { U, L, dict := D } (Checker.choice { U, L, dict := D }) (Cx.breakPatterns {}) w
      (D.aff.inputConversions.convert w) ↔ CorrectByParts U words (min.getD 3) w := by
    have hcv : D.aff.inputConversions.convert w = w := by
      obtain ⟨out, k1, k2⟩ := C20_conversion [] _ hA.input w
      unfold ConversionTable.convert
      rw [k1, converts_nil k2]
      rfl
    rw [hcv]
    have hb : ∀ t, Breaks (Cx.breakPatterns {}) (WordVerdict { U, L, dict := D } (Checker.choice { U, L, dict := D })) 9 t ↔
        DashedBy (KnownBy U (WrittenSo words (min.getD 3)) (Written U words (min.getD 3))) 9 t :=
      fun t => dashedBy_breaks fun w => hD.verdict rfl rfl w
    have hig : D.aff.ignoreChars = [] := hA.ignore
    unfold Correct CorrectByParts
    simp only [hb, hig, List.not_mem_nil, not_false_eq_true, decide_true, List.filter_true]
    refine and_congr_right fun _ => or_congr_right ⟨?_, ?_⟩
    · rintro ⟨t, n, rfl, h1, h | h | ⟨-, h⟩⟩
      · exact ⟨t, n, rfl, h1, .inl h⟩
      · exact ⟨t, n, rfl, h1, .inr (.inl h)⟩
      · exact ⟨t, n, rfl, h1, .inr (.inr h)⟩
    · rintro ⟨t, n, rfl, h1, h | h | h⟩
      · exact ⟨t, n, rfl, h1, .inl h⟩
      · exact ⟨t, n, rfl, h1, .inr (.inl h)⟩
      · cases n with
        | zero => exact ⟨t, 0, rfl, h1, .inr (.inl (by simpa using h))⟩
        | succ n => exact ⟨t, n + 1, rfl, h1, .inr (.inr ⟨by omega, h⟩)⟩
  have hacc : Accepts { U, L, dict := D } w ↔ CorrectByParts U words (min.getD 3) w := by
    rw [← hk, correct_prepared hC hm rfl rfl]
    exact C51_preparation _ _ hA.breaks hD.shrinking rfl rfl w
  refine ⟨hacc, ?_⟩
  rw [← hacc]
  exact ⟨fun hr ha => (C26_one_outcome _ w).2.1 ⟨ha, hr⟩,
    fun hn => (C26_default_decides_partial _ hD.shrinking rfl rfl w).resolve_left hn⟩

/-! ## Consequences -/

theorem OfParts.mono {words words' : List (Str × Bool)} {min min' : Nat} (h : words ⊆ words') (hm : min' ≤ min) {s : Str}
    (hs : OfParts words min s) : OfParts words' min' s := by
  obtain ⟨parts, h1, h2, h3⟩ := hs
  exact ⟨parts, h1, h2, fun p hp => ⟨h (h3 p hp).1, hm.trans (h3 p hp).2⟩⟩

theorem WrittenSo.mono {words words' : List (Str × Bool)} {min min' : Nat} (h : words ⊆ words') (hm : min' ≤ min) {s : Str}
    (hs : WrittenSo words min s) : WrittenSo words' min' s :=
  hs.imp (fun ⟨b, hb⟩ => ⟨b, h hb⟩) (OfParts.mono h hm)

theorem Written.mono {words words' : List (Str × Bool)} {min min' : Nat} (h : words ⊆ words') (hm : min' ≤ min) {s : Str}
    (hs : Written U words min s) : Written U words' min' s :=
  hs.imp (WrittenSo.mono h hm) fun ⟨e, he, hr⟩ => ⟨e, h he, hr⟩

theorem KnownBy.mono {exact exact' any any' : Str → Prop} (h1 : ∀ s, exact s → exact' s) (h2 : ∀ s, any s → any' s) {w : Str}
    (hw : KnownBy U exact any w) : KnownBy U exact' any' w := by
  cases hw with
  | small hc hs => exact .small hc (h2 _ hs)
  | mixed hc hs => exact .mixed hc (h2 _ hs)
  | title hc hs => exact .title hc (hs.imp (h1 _) (h2 _))
  | caps hc hs => exact .caps hc (hs.imp (h2 _) (Or.imp (h2 _) (h2 _)))
  | article hc k1 k2 k3 hs => exact .article hc k1 k2 k3 (hs.imp (h2 _) (h2 _))

theorem DashedBy.mono {known known' : Str → Prop} (h : ∀ s, known s → known' s) {depth : Nat} {w : Str}
    (hw : DashedBy known depth w) : DashedBy known' depth w := by
  induction hw with
  | known hk => exact .known (h _ hk)
  | start _ ih => exact .start ih
  | stop _ ih => exact .stop ih
  | middle h1 h2 _ _ ih1 ih2 => exact .middle h1 h2 ih1 ih2

/-- **C99** (more words): more words, more parts, and a smaller COMPOUNDMIN make no correct word wrong; in particular the
order of the list and repetitions do not matter. -/
theorem C99_more {words words' : List (Str × Bool)} {min min' : Nat} (h : words ⊆ words') (hm : min' ≤ min) {w : Str}
    (hw : CorrectByParts U words min w) : CorrectByParts U words' min' w := by
  have hk : ∀ s, KnownBy U (WrittenSo words min) (Written U words min) s →
      KnownBy U (WrittenSo words' min') (Written U words' min') s :=
    fun s => KnownBy.mono (fun _ => WrittenSo.mono h hm) (fun _ => Written.mono h hm)
  obtain ⟨h1, h2⟩ := hw
  refine ⟨h1, h2.imp_right ?_⟩
  rintro ⟨t, n, e, h3, h4⟩
  exact ⟨t, n, e, h3, h4.imp_right (Or.imp (DashedBy.mono hk) (DashedBy.mono hk))⟩

/-- **C99** (compounds of compounds): a compound may be a part of a longer one, as far as its own parts go. -/
theorem C99_joined {words : List (Str × Bool)} {min : Nat} {s t : Str} (hs : OfParts words min s)
    (ht : OfParts words min t ∨ ((t, true) ∈ words ∧ min ≤ t.length)) :
    OfParts words min (s ++ t) ∧ OfParts words min (t ++ s) := by
  obtain ⟨l, h1, rfl, h2⟩ := hs
  rcases ht with ⟨l', h1', rfl, h2'⟩ | ht
  · refine ⟨⟨l ++ l', by rw [List.length_append]; omega, by simp, fun p hp => ?_⟩,
      ⟨l' ++ l, by rw [List.length_append]; omega, by simp, fun p hp => ?_⟩⟩
    · exact (List.mem_append.1 hp).elim (h2 p) (h2' p)
    · exact (List.mem_append.1 hp).elim (h2' p) (h2 p)
  · refine ⟨⟨l ++ [t], by rw [List.length_append]; omega, by simp, fun p hp => ?_⟩,
      ⟨t :: l, by rw [List.length_cons]; omega, by simp, fun p hp => ?_⟩⟩
    · rcases List.mem_append.1 hp with h | h
      · exact h2 p h
      · rw [List.mem_singleton] at h; exact h ▸ ht
    · rcases List.mem_cons.1 hp with rfl | h
      · exact ht
      · exact h2 p h

/-! ## A case which meets the hypotheses -/

/-- A list with parts in small letters, in title case and in capitals, and a word which is no part. -/
def partWords : List (Str × Bool) :=
  [("haus".toList, true), ("tor".toList, true), ("Rom".toList, true), ("NATO".toList, true), ("ist".toList, false)]

theorem ok_of_map {α : Type} {p : α → Bool} {x : Except Halt α} (h : x.map p = .ok true) : ∃ a, x = .ok a ∧ p a = true := by
  cases x with
  | error e => cases h
  | ok a => exact ⟨a, rfl, Except.ok.inj h⟩

theorem partWords_settings : Settings .sample "COMPOUNDFLAG X\nCOMPOUNDMIN 3\n".toList (partSettings 'X' (some 3)) := by
  obtain ⟨cx, h, k⟩ := ok_of_map (x := parseAff .sample "COMPOUNDFLAG X\nCOMPOUNDMIN 3\n".toList)
    (p := fun cx : Cx => decide (cx.options = (partSettings 'X' (some 3)).options) && decide (cx.flagType = .short) &&
      cx.flagAliases.isEmpty && cx.replacements.isEmpty && cx.similarities.isEmpty && cx.inputConversions.isEmpty &&
      cx.outputConversions.isEmpty && decide (cx.breakPatterns = [['^', '-'], ['-'], ['-', '$']]) &&
      cx.compoundSyllableVowels.isEmpty && cx.ignoreChars.isEmpty && cx.tryChars.isEmpty && cx.keyboardCloseness.isEmpty &&
      cx.prefixes.isEmpty && cx.suffixes.isEmpty && cx.compoundRules.isEmpty && cx.compoundPatterns.isEmpty)
    (by decide +kernel)
  refine ⟨_, content_iff.2 rfl, parseAff_iff.1 (h.trans (congrArg _ ?_))⟩
  simp only [Bool.and_eq_true, decide_eq_true_eq, List.isEmpty_iff] at k
  obtain ⟨⟨⟨⟨⟨⟨⟨⟨⟨⟨⟨⟨⟨⟨⟨k1, k2⟩, k3⟩, k4⟩, k5⟩, k6⟩, k7⟩, k8⟩, k9⟩, k10⟩, k11⟩, k12⟩, k13⟩, k14⟩, k15⟩, k16⟩ := k
  cases cx
  subst k1 k2 k3 k4 k5 k6 k7 k8 k9 k10 k11 k12 k13 k14 k15 k16
  rfl

theorem partWords_header : PlainHeader .sample "5".toList := plainWords_header

theorem partWords_entries : ∀ e ∈ partWords, PlainEntry .sample e.1 ∧ (utf8 (partLine 'X' e)).length ≤ 65535 := by
  have : ∀ e ∈ partWords, (e.1 ≠ [] ∧ (utf8 e.1).length ≤ 65535 ∧
      ∀ c ∈ e.1, Unicode.sample.isWs c = false ∧ c ∉ ['\n', '\r', '\t', ' ', '/', '\\', '#']) ∧
      (utf8 (partLine 'X' e)).length ≤ 65535 := by decide +kernel
  exact this

theorem partWords_titles : ∀ e ∈ partWords, AlsoTitle .sample e → (utf8 (titleForm .sample e.1)).length ≤ 65535 := by
  have : ∀ e ∈ partWords, (utf8 (titleForm .sample e.1)).length ≤ 65535 := by decide +kernel
  exact fun e he _ => this e he

theorem partWords_dic : listText "5".toList (partWords.map (partLine 'X'))
    = "5\nhaus/X\ntor/X\nRom/X\nNATO/X\nist\n".toList := by decide +kernel

theorem partWords_long : CorrectByParts .sample partWords 3 "Haustorhaus-ist.".toList := by
  have h1 : HasCasing .sample "Haustorhaus".toList .init := classifyCasing_iff.1 (by decide +kernel)
  have h2 : HasCasing .sample "ist".toList .none := classifyCasing_iff.1 (by decide +kernel)
  refine ⟨by decide +kernel, .inr ⟨"Haustorhaus-ist".toList, 1, rfl, fun s h => ?_, .inr (.inl
    (.middle (a := "Haustorhaus".toList) (b := "ist".toList) (by decide) (by decide)
      (.known (.title h1 (.inr (.inl (.inr ⟨["haus".toList, "tor".toList, "haus".toList], by decide, by decide +kernel,
        by decide⟩)))))
      (.known (.small h2 (.inl (.inl ⟨false, by decide⟩))))))⟩⟩
  have := congrArg List.getLast? h
  simp at this

/-- The dictionary of this list accepts such compounds; `haus` and `ist` do not make one. -/
example : ∃ D, parse .sample .default "COMPOUNDFLAG X\nCOMPOUNDMIN 3\n".toList
      "5\nhaus/X\ntor/X\nRom/X\nNATO/X\nist\n".toList = .ok D ∧
    Accepts { U := .sample, L := .default, dict := D } "Haustorhaus-ist.".toList ∧
    Rejects { U := .sample, L := .default, dict := D } "hausist".toList ∧
    ¬ CorrectByParts .sample partWords 3 "hausist".toList := by
  obtain ⟨D, hp, h⟩ := C99_part_list (S := .default) partWords_settings (by unfold LineFlag; decide +kernel) partWords_header
    partWords_entries partWords_titles
  rw [partWords_dic] at hp
  obtain ⟨D', hp', hr⟩ := of_map (x := parse .sample .default "COMPOUNDFLAG X\nCOMPOUNDMIN 3\n".toList
      "5\nhaus/X\ntor/X\nRom/X\nNATO/X\nist\n".toList)
    (D := fun D => decide (Checker.check { U := .sample, L := .default, dict := D } 30 "hausist".toList = .ok false))
    (by decide +kernel)
  rw [hp] at hp'
  cases hp'
  have hr' : Rejects { U := .sample, L := .default, dict := D } "hausist".toList := ⟨30, of_decide_eq_true hr⟩
  exact ⟨D, hp, (h _ _).1.2 partWords_long, hr', (h _ _).2.1 hr'⟩

end Spellbook.Props
