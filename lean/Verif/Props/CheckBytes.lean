import Verif.Proof.CheckBytes
import Verif.Proof.Outcome
import Verif.Props.Dictionary
import Verif.Props.Suggest
/-!
# C63 The byte positions of the checker

`Bytes.check` does the byte arithmetic of `src/checker.rs`: it slices texts at byte positions, changes
buffers in place and changes them back, and a slice which is out of bounds or inside a character, or an
`unsafe` write which leaves invalid UTF-8, is a panic. `Checker.check`, the model the other theorems are
about, cuts lists of characters and cannot go wrong there.
-/

namespace Spellbook.Props
open Spec Checker

variable {U : Unicode}

/-- **C63**: for every dictionary which can be loaded and changed, `check` on bytes gives every word the
outcome which `check` on characters gives it. -/
theorem C63_check {C : Checker} (hD : Reachable U C.dict) (fuel : Nat) (word : Str) :
    Bytes.check C fuel word = C.check fuel word :=
  Bytes.check_eq C (wellMade_reachable hD).minChars_pos fuel word

/-- **C63**: so no slice of the default checker is out of bounds or inside a character, and no `unsafe`
write leaves invalid UTF-8. -/
theorem C63_no_panic {C : Checker} (hD : Reachable U C.dict) (h1 : C.checkLowerAsTitle = false)
    (h2 : C.checkLowerAsUpper = false) (fuel : Nat) (word : Str) : Bytes.check C fuel word ≠ .error .panic := by
  rw [C63_check hD]
  exact fun h => C26_default_no_panic C h1 h2 word ⟨fuel, h⟩

/-- **C63** (compounds): the search for compounds never panics, whatever the options of the checker, and
gives the compounds which the search on characters gives. -/
theorem C63_compound {C : Checker} (hD : Reachable U C.dict) (fuel : Nat) (m : Mode) (word : Str)
    (fc : Forceucase) :
    Bytes.checkCompound C fuel m word fc = C.checkCompound fuel m word fc ∧
    Bytes.checkCompound C fuel m word fc ≠ .error .panic := by
  have h := Bytes.checkCompound_eq C (wellMade_reachable hD).minChars_pos fuel m word fc
  exact ⟨h, by rw [h]; exact checkCompound_np C fuel m word fc⟩

/-- **C63** (sharp s): when `spell_sharps` finds nothing, every `ß` it wrote into the buffer is `ss`
again. -/
theorem C63_sharps_restored {C : Checker} (hD : Reachable U C.dict) (fuel : Nat) (before rest : Str)
    (depth replacements : Nat) {buffer : Str}
    (h : Bytes.doSpellSharps C fuel (before ++ rest) (utf8 before).length depth replacements = .ok (none, buffer)) :
    buffer = before ++ rest :=
  (Bytes.doSpellSharps_eq C (wellMade_reachable hD).minChars_pos fuel _ before rest depth replacements rfl).2 buffer h

/-- **C63** (affixes): an affix which is looked at is removed from a word by a slice between characters and,
when it strips something, by writing valid UTF-8 into the buffer of 64 bytes, whatever that contained
before. The result is the word with the text of the affix replaced by the text it strips. -/
theorem C63_stem (C : Checker) (k : Kind) (word : Str) (a : Affix) (ha : a ∈ C.affixesOf k word)
    (inline : List UInt8) (hi : inline.length = 64) :
    ∃ rest, word = (match k with | .pfx => a.add ++ rest | .sfx => rest ++ a.add) ∧
      Bytes.toStem inline k a word =
        .ok (match k with | .pfx => a.strip.getD [] ++ rest | .sfx => rest ++ a.strip.getD []) := by
  have h := (mem_affixesOf.1 ha).2
  rw [Bytes.toStem_eq hi h]
  cases k with
  | pfx =>
    obtain ⟨t, rfl⟩ := startsWith_iff.1 h
    exact ⟨t, rfl, by simp [Affix.toStem]⟩
  | sfx =>
    obtain ⟨t, rfl⟩ := endsWith_iff.1 h
    exact ⟨t, rfl, by simp [Affix.toStem]⟩

/-- **C63** (conditions): the end of the word which the condition of a suffix is compared with is cut off
between characters: for no suffix and word `condition_matches` panics, and a condition which is not a
literal sees as many characters as it has. -/
theorem C63_suffix_condition (a : Affix) (word : Str) :
    (a.condition = none → Bytes.suffixConditionMatches a word = .ok true) ∧
    ∀ c, a.condition = some c →
      (word.length < c.chars → c.isLiteral = false → Bytes.suffixConditionMatches a word = .ok false) ∧
      (∀ front back, word = front ++ back → back.length = c.chars → c.isLiteral = false →
        Bytes.suffixConditionMatches a word = .ok (c.matches' back)) ∧
      (c.isLiteral = true → ∃ b, Bytes.suffixConditionMatches a word = .ok b) := by
  rw [Bytes.suffixConditionMatches_eq]
  refine ⟨fun h => by simp [Affix.suffixConditionMatches, h], fun c hc => ⟨fun h hl => ?_, ?_, fun _ => ⟨_, rfl⟩⟩⟩
  · simp only [Affix.suffixConditionMatches, hc, hl]
    split
    · rfl
    · rw [if_neg (by simp), if_pos (by simp; omega)]
  · rintro front back rfl hb hl
    have h1 := length_le_byteLen back
    simp only [Affix.suffixConditionMatches, hc, hl]
    rw [if_neg (by rw [byteLen_append]; omega), if_neg (by simp), List.reverse_append,
      List.take_append_of_le_length (by simp; omega), List.take_of_length_le (by simp; omega), List.reverse_reverse,
      if_neg (by omega)]

/-- A dictionary with characters of two and three bytes, boundaries which are replaced, letters which are
dropped, a suffix and a sharp s meets the hypotheses, and `check` on bytes accepts words of all kinds. -/
example : ∃ C : Checker, Reachable .sample C.dict ∧ C.checkLowerAsTitle = false ∧ C.checkLowerAsUpper = false ∧
    (Bytes.check C 9 "é€ü".toList = .ok true ∧ Bytes.check C 9 "ß€€ü".toList = .ok true ∧
    Bytes.check C 9 "ß€€€ü".toList = .ok false ∧ Bytes.check C 9 "ß€§€ßé".toList = .ok true ∧
    Bytes.check C 9 "MASS".toList = .ok true ∧ Bytes.check C 9 "é€".toList = .ok true ∧
    Bytes.doSpellSharps C 9 "mass".toList 0 0 0 = .ok (some (FlagSet.ofList [65]), "maß".toList) ∧
    Bytes.doSpellSharps C 9 "ßmiss".toList 2 0 0 = .ok (none, "ßmiss".toList) ∧
    ∃ a ∈ C.affixesOf .sfx "é€".toList, Bytes.toStem (List.replicate 64 0) .sfx a "é€".toList = .ok "ü".toList) := by
  obtain ⟨C, h1, h2⟩ := of_load
    (aff := "COMPOUNDFLAG A\nCOMPOUNDMIN 1\nCHECKCOMPOUNDTRIPLE\nSIMPLIFIEDTRIPLE\nCHECKSHARPS\nCHECKCOMPOUNDPATTERN 1\nCHECKCOMPOUNDPATTERN € ü §€ß\nSFX B Y 1\nSFX B ü é€ ü\n")
    (dic := "5\né/A\nß€€/A\n€ü/A\nmaß/A\nü/AB\n") (L := .default) (p := fun C =>
    (Bytes.check C 9 "é€ü".toList = .ok true ∧ Bytes.check C 9 "ß€€ü".toList = .ok true ∧
    Bytes.check C 9 "ß€€€ü".toList = .ok false ∧ Bytes.check C 9 "ß€§€ßé".toList = .ok true ∧
    Bytes.check C 9 "MASS".toList = .ok true ∧ Bytes.check C 9 "é€".toList = .ok true ∧
    Bytes.doSpellSharps C 9 "mass".toList 0 0 0 = .ok (some (FlagSet.ofList [65]), "maß".toList) ∧
    Bytes.doSpellSharps C 9 "ßmiss".toList 2 0 0 = .ok (none, "ßmiss".toList) ∧
    ∃ a ∈ C.affixesOf .sfx "é€".toList, Bytes.toStem (List.replicate 64 0) .sfx a "é€".toList = .ok "ü".toList))
    (by decide +kernel)
  have := loadChecker_reachable h1
  exact ⟨C, this.1, this.2.1, this.2.2.1, of_decide_eq_true h2⟩

end Spellbook.Props
