import Verif.Proof.Attempts
import Verif.Props.Check
/-!
# Properties of `check`: C51 and C52

What `check` does before it looks a word up, and the spellings it looks up.
-/

namespace Spellbook.Props
open Spec Checker

/-! ## C51 The preparation of the word -/

/-- The trailing dots of a word. -/
theorem trailing_dots (w : Str) : ∃ n, w = trimEndMatches '.' w ++ List.replicate n '.' ∧
    ∀ s, trimEndMatches '.' w ≠ s ++ ['.'] := by
  refine ⟨(w.reverse.takeWhile (· == '.')).length, ?_, ?_⟩
  · have h : ∀ l : Str, (l.takeWhile (· == '.')) = List.replicate (l.takeWhile (· == '.')).length '.' := by
      intro l
      refine List.eq_replicate_iff.2 ⟨rfl, fun c hc => ?_⟩
      simpa using (List.all_eq_true.1 (List.all_takeWhile (p := (· == '.')) (l := l))) c hc
    have h2 := congrArg List.reverse (List.takeWhile_append_dropWhile (p := (· == '.')) (l := w.reverse))
    rw [List.reverse_append, List.reverse_reverse, h w.reverse, List.reverse_replicate] at h2
    exact h2.symm
  · intro s hs
    unfold trimEndMatches at hs
    have h3 := congrArg List.reverse hs
    rw [List.reverse_reverse, List.reverse_append] at h3
    have h4 := List.head?_dropWhile_not (· == '.') w.reverse
    rw [h3] at h4
    simp at h4

theorem dots_unique {t : Str} {n : Nat} (h : ∀ s, t ≠ s ++ ['.']) :
    trimEndMatches '.' (t ++ List.replicate n '.') = t := by
  rw [trimEndMatches_append, trimEndMatches_self h]

theorem byteLen_dots {t : Str} {n : Nat} :
    (byteLen t != byteLen (t ++ List.replicate n '.')) = decide (0 < n) := by
  have h : byteLen (t ++ List.replicate n '.') = byteLen t + n := by
    unfold byteLen
    rw [show utf8 (t ++ List.replicate n '.') = utf8 t ++ utf8 (List.replicate n '.') from by
      simp [utf8, List.flatMap_append], List.length_append]
    congr 1
    induction n with
    | zero => rfl
    | succ n ih =>
      rw [List.replicate_succ]
      simp only [utf8, List.flatMap_cons, List.length_append] at ih ⊢
      rw [ih]
      show 1 + n = n + 1
      omega
  rw [h]
  by_cases hn : n = 0
  · subst hn; simp
  · rw [decide_eq_true (by omega)]
    simpa using hn

/-- What `check` accepts, given what BREAK accepts: words of at most 360 bytes which ICONV makes empty;
or which are, after ICONV and without their trailing dots, a number or accepted without their ignored
characters; or, if there were dots, accepted as they are with the dots (and with the ignored
characters). -/
def Prepared (C : Checker) (accepted : Str → Prop) (word : Str) : Prop :=
  (utf8 word).length ≤ 360 ∧
  ((C.dict.aff.inputConversions.convert word = []) ∨
   ∃ t n, C.dict.aff.inputConversions.convert word = t ++ List.replicate n '.' ∧ (∀ s, t ≠ s ++ ['.']) ∧
    (IsNumber t ∨ accepted (t.filter fun c => c ∉ C.dict.aff.ignoreChars) ∨
      (0 < n ∧ accepted (t ++ List.replicate n '.'))))

theorem eraseChars_filter (w : Str) (ig : List Char) :
    eraseChars w ig = w.filter fun c => decide (c ∉ ig) := by
  unfold eraseChars
  split
  · rename_i h
    rw [List.isEmpty_iff] at h
    subst h
    exact (List.filter_eq_self.2 (by simp)).symm
  · congr 1
    funext c
    simp

/-- **C51** (soundness): every checker accepts only words which pass the preparation. -/
theorem C51_preparation_sound (C : Checker) (lines : List Str)
    (hb : BreakTable.new lines = some C.dict.aff.breakTable) (word : Str) (h : Accepts C word) :
    Prepared C (Breaks lines (WholeVerdict C) 9) word := by
  obtain ⟨f, hf⟩ := h
  unfold check at hf
  split at hf
  · simp at hf
  · rename_i hl
    refine ⟨by unfold byteLen maxWordLen at hl; omega, ?_⟩
    unfold checkConverted at hf
    change (if (C.dict.aff.inputConversions.convert word).isEmpty then _ else _) = _ at hf
    generalize C.dict.aff.inputConversions.convert word = w at hf ⊢
    by_cases hw : w = []
    · exact .inl hw
    right
    rw [if_neg (by simpa using hw)] at hf
    obtain ⟨n, h1, h2⟩ := trailing_dots w
    refine ⟨trimEndMatches '.' w, n, h1, h2, ?_⟩
    dsimp only at hf
    by_cases hn : isNumber (trimEndMatches '.' w) = true
    · exact .inl ((isNumber_iff _).1 hn)
    rw [if_neg hn] at hf
    right
    cases hs : C.spellBreak f (eraseChars (trimEndMatches '.' w) C.aff.ignoreChars) with
    | error e => rw [hs] at hf; cases hf
    | ok b =>
      rw [hs] at hf
      cases b with
      | true =>
        left
        rw [eraseChars_filter] at hs
        exact doSpellBreak_sound hb 9 _ hs
      | false =>
        right
        change (if (byteLen (trimEndMatches '.' w) != byteLen w) = true then _ else _) = _ at hf
        split at hf
        · rename_i hd
          rw [← h1]
          refine ⟨?_, doSpellBreak_sound hb 9 _ hf⟩
          have := byteLen_dots (t := trimEndMatches '.' w) (n := n)
          rw [← h1, hd] at this
          simpa using this.symm
        · cases hf

/-- **C51**: the default checker accepts exactly the words which pass the preparation, with
dictionaries on which every lookup ends. -/
theorem C51_preparation (C : Checker) (lines : List Str)
    (hb : BreakTable.new lines = some C.dict.aff.breakTable) (hD : C.dict.Shrinking)
    (h1 : C.checkLowerAsTitle = false) (h2 : C.checkLowerAsUpper = false) (word : Str) :
    Accepts C word ↔ Prepared C (Breaks lines (WholeVerdict C) 9) word := by
  refine ⟨C51_preparation_sound C lines hb word, fun h => ?_⟩
  have hw : ∀ w, C.CanTitle w := fun w => ⟨by simp [h1], by simp [h2]⟩
  obtain ⟨hl, h⟩ := h
  have key : ∀ f, C.check f word = C.checkConverted f (C.dict.aff.inputConversions.convert word) := by
    intro f
    unfold check
    rw [if_neg (by unfold byteLen maxWordLen; omega)]
  rcases h with h | ⟨t, n, h, ht, h'⟩
  · exact ⟨0, by rw [key, h]; rfl⟩
  · by_cases hne : t ++ List.replicate n '.' = []
    · exact ⟨0, by rw [key, h, hne]; rfl⟩
    have he : (t ++ List.replicate n '.').isEmpty = false := by simpa using hne
    by_cases hn : isNumber t = true
    · refine ⟨0, ?_⟩
      rw [key, h]
      unfold checkConverted
      rw [he, dots_unique ht]
      dsimp only
      rw [if_neg (by simp), if_pos hn]
    have key2 : ∀ f, C.check f word = (do
        if ← C.spellBreak f (eraseChars t C.aff.ignoreChars) then pure true
        else if decide (0 < n) then C.spellBreak f (t ++ List.replicate n '.')
        else pure false) := by
      intro f
      rw [key, h]
      unfold checkConverted
      rw [he, dots_unique ht]
      dsimp only
      rw [if_neg (by simp), if_neg hn, byteLen_dots]
    rcases h' with h' | h' | ⟨hn0, h'⟩
    · exact absurd ((isNumber_iff _).2 h') hn
    · rw [← eraseChars_filter] at h'
      obtain ⟨N, hN⟩ := doSpellBreak_complete hb hD hw h'
      refine ⟨N, ?_⟩
      have := hN N le_rfl
      rw [key2, show C.spellBreak N (eraseChars t C.aff.ignoreChars) = .ok true from this]
      rfl
    · obtain ⟨N, hN⟩ := doSpellBreak_complete hb hD hw h'
      obtain ⟨M, hM⟩ := Ends.spell (C := C) hD 9 (eraseChars t C.aff.ignoreChars)
      have e1 := hN (max N M) (by omega)
      have e2 := hM (max N M) (by omega)
      have e3 := doSpellBreak_np (C := C) (f := max N M) hw 9 (eraseChars t C.aff.ignoreChars)
      refine ⟨max N M, ?_⟩
      rw [key2]
      dsimp only at e1 e2 e3
      unfold spellBreak
      cases hs : C.doSpellBreak (max N M) 9 (eraseChars t C.aff.ignoreChars) with
      | error e =>
        cases e with
        | fuel => exact absurd hs e2
        | panic => exact absurd hs e3
      | ok b =>
        cases b with
        | true => rfl
        | false =>
          show (if decide (0 < n) = true then _ else _) = _
          rw [if_pos (by simpa using hn0), e1]

/-- A dictionary with an abbreviation, ICONV for the apostrophe and ignored hyphens. -/
def prepareChecker : Checker :=
  mkChecker [("etc.", []), ("dont", []), ("don't", []), ("a-b.", [])]
    { ignoreChars := ['-'], inputConversions := ⟨[⟨"’".toList, "'".toList, false⟩], List.pairwise_singleton _ _⟩ }

theorem prepareChecker_shrinking : prepareChecker.dict.Shrinking :=
  ⟨by decide, by decide, by intro c hc; simp [prepareChecker, mkChecker] at hc⟩

-- a trailing dot, a converted apostrophe, ignored characters, an abbreviation, and an abbreviation
-- with an ignored character, which is kept
example : ["dont.", "don’t", "d-o-nt", "etc.", "a-b."].map (fun w => prepareChecker.check 1 w.toList)
    = [.ok true, .ok true, .ok true, .ok true, .ok true] := by decide +kernel
example : ["etc", "e-tc.", "ab."].map (fun w => prepareChecker.check 1 w.toList)
    = [.ok false, .ok false, .ok false] := by decide +kernel
example : Prepared prepareChecker (Breaks [] (WholeVerdict prepareChecker) 9) "don’t..".toList :=
  (C51_preparation prepareChecker [] (by decide +kernel) prepareChecker_shrinking rfl rfl _).1
    ⟨1, by decide +kernel⟩

/-! ## C52 Letter case -/

/-- **C52**: a word of a given letter case is decided by the first of its spellings, in the order of
`attempts`, whose lookup has a result that counts. -/
theorem C52_decided (C : Checker) (word : Str) (c : Casing) (hc : HasCasing C.U word c) (hw : C.CanTitle word)
    (F : FlagSet) : (∃ fuel, C.spellCasing fuel word = .ok (some F)) ↔ FirstHit C (attempts C word c) F := by
  rw [← classifyCasing_iff.2 hc]
  constructor
  · rintro ⟨f, hf⟩
    rw [spellCasing_forms f hw] at hf
    exact firstHit_of hf
  · intro h
    obtain ⟨N, hN⟩ := first_some_settles h
    exact ⟨N, by rw [spellCasing_forms N hw]; exact hN N le_rfl⟩

/-- **C52**: nothing is found exactly if all lookups miss. -/
theorem C52_undecided (C : Checker) (word : Str) (c : Casing) (hc : HasCasing C.U word c) (hw : C.CanTitle word) :
    (∃ fuel, C.spellCasing fuel word = .ok none) ↔ ∀ a ∈ attempts C word c, a.Misses C := by
  rw [← classifyCasing_iff.2 hc]
  constructor
  · rintro ⟨f, hf⟩ a ha
    rw [spellCasing_forms f hw, Run.first_eq_none] at hf
    exact misses_iff.2 ⟨f, hf a ha⟩
  · intro h
    obtain ⟨N, hN⟩ := first_none_settles h
    exact ⟨N, by rw [spellCasing_forms N hw]; exact hN N le_rfl⟩

/-- The default checker has no title-casing to do. -/
theorem canTitle_default {C : Checker} (h1 : C.checkLowerAsTitle = false) (h2 : C.checkLowerAsUpper = false)
    (w : Str) : C.CanTitle w := ⟨by simp [h1], by simp [h2]⟩

/-- A German dictionary. -/
def germanChecker : Checker :=
  mkChecker [("straße", []), ("sant'Elia", []), ("kg", [1]), ("Haus", [])]
    { options := { checksharps := true, keepCaseFlag := some 1 } }

example : (attempts germanChecker "STRASSE".toList .all).map (fun a => String.ofList a.text)
    = ["STRASSE", "straße", "strasse", "Straße", "Strasse", "Strasse", "strasse"] := by decide +kernel
example : (attempts germanChecker "SANT'ELIA".toList .all).map (fun a => String.ofList a.text)
    = ["SANT'ELIA", "sant'Elia", "Sant'Elia", "Sant'elia", "sant'elia"] := by decide +kernel
example : FirstHit germanChecker (attempts germanChecker "STRASSE".toList .all) FlagSet.empty :=
  (C52_decided germanChecker _ .all (classifyCasing_iff.1 (by decide +kernel)) (canTitle_default rfl rfl _) _).1
    ⟨1, by decide +kernel⟩
example : ∀ a ∈ attempts germanChecker "KG".toList .all, a.Misses germanChecker :=
  (C52_undecided germanChecker _ .all (classifyCasing_iff.1 (by decide +kernel)) (canTitle_default rfl rfl _)).1
    ⟨1, by decide +kernel⟩

end Spellbook.Props
