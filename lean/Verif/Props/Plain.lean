import Verif.Proof.Plain
/-!
# C70 A plain word list, from the text to the answer
-/

namespace Spellbook.Props
open Spec

variable {U : Unicode} {S : Sorts}

/-- Without ICONV lines nothing is converted. -/
theorem converts_nil {w x : Str} (h : Converts [] w x) : x = w := by
  induction h with
  | done => rfl
  | copy _ _ ih => rw [ih]
  | replace h => cases h

/-- **C70**: an empty `.aff` text and a plain list of words, each on its own line below a number, make a
dictionary. With it `check` answers true exactly for the words which are correct by the list, and false
exactly for the others. -/
theorem C70_plain_list {number : Str} {words : List Str} (hn : PlainHeader U number)
    (hw : ∀ w ∈ words, PlainEntry U w) (ht : ∀ w ∈ words, MixedCase U w → (utf8 (titleForm U w)).length ≤ 65535) :
    ∃ D, parse U S [] (listText number words) = .ok D ∧ ∀ (L : Layout) (w : Str),
      (Accepts { U, L, dict := D } w ↔ CorrectByList U words w) ∧
      (Rejects { U, L, dict := D } w ↔ ¬ CorrectByList U words w) := by
  obtain ⟨D, hp, hA, hs⟩ := plain_parse (S := S) hn hw ht
  refine ⟨D, hp, fun L w => ?_⟩
  have hD : D.Shrinking := by
    refine ⟨?_, ?_, ?_⟩
    · rw [hA.options]; decide
    · rw [hA.options]; intro h; cases h
    · rw [hA.patterns]; intro c h; cases h
  obtain ⟨c, conv, hc, hcv, h⟩ := C66_correct (C := { U, L, dict := D }) (.loaded hp) hA hD rfl rfl
  obtain ⟨ha, hr⟩ := h w
  have hk : Correct { U, L, dict := D } c (Cx.breakPatterns {}) w (conv w) ↔ CorrectByList U words w := by
    rw [converts_nil (hcv w)]
    have hb : ∀ t, Breaks (Cx.breakPatterns {}) (WordVerdict { U, L, dict := D } c) 9 t ↔ Dashed U words 9 t :=
      fun t => plain_breaks (C := { U, L, dict := D }) hA hs hc rfl rfl
    have hig : D.aff.ignoreChars = [] := hA.ignore
    unfold Correct CorrectByList
    simp only [hb, hig, List.not_mem_nil, not_false_eq_true, decide_true, List.filter_true]
    refine and_congr_right fun _ => or_congr_right ⟨?_, ?_⟩
    · rintro ⟨t, n, rfl, h1, h | h | ⟨-, h⟩⟩
      · exact ⟨t, n, rfl, h1, .inl h⟩
      · exact ⟨t, n, rfl, h1, .inr (.inl h)⟩
      · exact ⟨t, n, rfl, h1, .inr (.inr h)⟩
    · rintro ⟨t, n, rfl, h1, h | h | h⟩
      · exact ⟨t, n, rfl, h1, .inl h⟩
      · exact ⟨t, n, rfl, h1, .inr (.inl h)⟩
      · cases n with
        | zero => exact ⟨t, 0, rfl, h1, .inr (.inl (by simpa using h))⟩
        | succ n => exact ⟨t, n + 1, rfl, h1, .inr (.inr ⟨by omega, h⟩)⟩
  rw [← hk]
  exact ⟨ha, hr⟩

theorem InList.mono {words words' : List Str} (h : words ⊆ words') {s : Str} (hs : InList U words s) :
    InList U words' s := by
  rcases hs with hs | ⟨v, hv, h1, h2⟩
  · exact .inl (h hs)
  · exact .inr ⟨v, h hv, h1, h2⟩

theorem KnownWord.mono {words words' : List Str} (h : words ⊆ words') {w : Str} (hw : KnownWord U words w) :
    KnownWord U words' w := by
  cases hw with
  | small hc hs => exact .small hc (InList.mono h hs)
  | mixed hc hs => exact .mixed hc (InList.mono h hs)
  | title hc hs => exact .title hc (hs.imp (fun hm => h hm) (InList.mono h))
  | caps hc hs => exact .caps hc (hs.imp (InList.mono h) (Or.imp (InList.mono h) (InList.mono h)))
  | article hc h1 h2 h3 hs => exact .article hc h1 h2 h3 (hs.imp (InList.mono h) (InList.mono h))

theorem Dashed.mono {words words' : List Str} (h : words ⊆ words') {depth : Nat} {w : Str}
    (hw : Dashed U words depth w) : Dashed U words' depth w := by
  induction hw with
  | known hk => exact .known (KnownWord.mono h hk)
  | start _ ih => exact .start ih
  | stop _ ih => exact .stop ih
  | middle h1 h2 _ _ ih1 ih2 => exact .middle h1 h2 ih1 ih2

/-- **C70** (more words): with more words in a plain list, no word that was correct becomes wrong; in
particular neither the order of the list nor repetitions nor the number in the first line matter. -/
theorem C70_more_words {number number' : Str} {words words' : List Str} {D D' : Dict}
    (hn : PlainHeader U number) (hn' : PlainHeader U number') (hw : ∀ w ∈ words', PlainEntry U w)
    (ht : ∀ w ∈ words', MixedCase U w → (utf8 (titleForm U w)).length ≤ 65535)
    (hD : parse U S [] (listText number words) = .ok D) (hD' : parse U S [] (listText number' words') = .ok D')
    (h : words ⊆ words') (L L' : Layout) (w : Str) (ha : Accepts { U, L, dict := D } w) :
    Accepts { U, L := L', dict := D' } w := by
  obtain ⟨D₁, e1, h1⟩ := C70_plain_list (S := S) hn (fun w hw' => hw w (h hw')) fun w hw' => ht w (h hw')
  obtain ⟨D₂, e2, h2⟩ := C70_plain_list (S := S) hn' hw ht
  rw [hD] at e1
  rw [hD'] at e2
  cases e1
  cases e2
  obtain ⟨hl, hc⟩ := (h1 L w).1.1 ha
  refine (h2 L' w).1.2 ⟨hl, hc.imp_right ?_⟩
  rintro ⟨t, n, e, h3, h4⟩
  exact ⟨t, n, e, h3, h4.imp_right (Or.imp (Dashed.mono h) (Dashed.mono h))⟩

/-! ## A case which meets the hypotheses -/

/-- A list with a small, a title-case, a mixed-case and an all-capitals word and a name with an article. -/
def plainWords : List Str := ["foo".toList, "Achilles".toList, "McDonald".toList, "NATO".toList, "sant'Elia".toList]

theorem plainWords_header : PlainHeader .sample "5".toList :=
  ⟨⟨"5".toList, [], 5, by decide +kernel, usize_ok.1 (by decide +kernel)⟩, by decide +kernel⟩

theorem plainWords_entries : ∀ w ∈ plainWords, PlainEntry .sample w := by
  have : ∀ w ∈ plainWords, w ≠ [] ∧ (utf8 w).length ≤ 65535 ∧
      ∀ c ∈ w, Unicode.sample.isWs c = false ∧ c ∉ ['\n', '\r', '\t', ' ', '/', '\\', '#'] := by decide +kernel
  exact this

theorem plainWords_titles : ∀ w ∈ plainWords, MixedCase .sample w → (utf8 (titleForm .sample w)).length ≤ 65535 := by
  have : ∀ w ∈ plainWords, (utf8 (titleForm .sample w)).length ≤ 65535 := by decide +kernel
  exact fun w hw _ => this w hw

theorem plainWords_dic : listText "5".toList plainWords
    = "5\nfoo\nAchilles\nMcDonald\nNATO\nsant'Elia\n".toList := by decide +kernel

/-- The hidden title form of `McDonald` makes `MCDONALD` correct. -/
theorem plainWords_mcdonald : CorrectByList .sample plainWords "MCDONALD".toList := by
  have h1 : HasCasing .sample "MCDONALD".toList .all := classifyCasing_iff.1 (by decide +kernel)
  have h2 : HasCasing .sample "McDonald".toList .pascal := classifyCasing_iff.1 (by decide +kernel)
  refine ⟨by decide +kernel, .inr ⟨"MCDONALD".toList, 0, rfl, fun s h => ?_, .inr (.inl (.known (.caps h1 (.inr (.inl
    (.inr ⟨"McDonald".toList, by decide, .inl h2, by decide +kernel⟩))))))⟩⟩
  have := congrArg List.getLast? h
  simp at this

/-- So does an article before a name, dashes around words, and a dot. -/
theorem plainWords_dashed : CorrectByList .sample plainWords "-Foo-SANT'ELIA.".toList := by
  have h1 : HasCasing .sample "Foo".toList .init := classifyCasing_iff.1 (by decide +kernel)
  have h2 : HasCasing .sample "SANT'ELIA".toList .all := classifyCasing_iff.1 (by decide +kernel)
  refine ⟨by decide +kernel, .inr ⟨"-Foo-SANT'ELIA".toList, 1, rfl, fun s h => ?_, .inr (.inl (.start
    (.middle (a := "Foo".toList) (b := "SANT'ELIA".toList) (by decide) (by decide)
      (.known (.title h1 (.inr (.inl (by decide +kernel)))))
      (.known (.article (a := "SANT".toList) (b := "ELIA".toList) h2 rfl (by decide) (by decide)
        (.inl (.inl (by decide +kernel))))))))⟩⟩
  have := congrArg List.getLast? h
  simp at this

/-- The dictionary of this list accepts both and rejects `achilles`, which is therefore not correct. -/
example : ∃ D, parse .sample .default [] "5\nfoo\nAchilles\nMcDonald\nNATO\nsant'Elia\n".toList = .ok D ∧
    Accepts { U := .sample, L := .default, dict := D } "MCDONALD".toList ∧
    Accepts { U := .sample, L := .reversed, dict := D } "-Foo-SANT'ELIA.".toList ∧
    Rejects { U := .sample, L := .default, dict := D } "achilles".toList ∧
    ¬ CorrectByList .sample plainWords "achilles".toList := by
  obtain ⟨D, hp, h⟩ := C70_plain_list (S := .default) plainWords_header plainWords_entries plainWords_titles
  rw [plainWords_dic] at hp
  obtain ⟨D', hp', hr⟩ := of_map (x := parse .sample .default [] "5\nfoo\nAchilles\nMcDonald\nNATO\nsant'Elia\n".toList)
    (D := fun D => decide (Checker.check { U := .sample, L := .default, dict := D } 1 "achilles".toList = .ok false))
    (by decide +kernel)
  rw [hp] at hp'
  cases hp'
  have hr' : Rejects { U := .sample, L := .default, dict := D } "achilles".toList := ⟨1, of_decide_eq_true hr⟩
  exact ⟨D, hp, (h _ _).1.2 plainWords_mcdonald, (h _ _).1.2 plainWords_dashed, hr', (h _ _).2.1 hr'⟩

end Spellbook.Props
