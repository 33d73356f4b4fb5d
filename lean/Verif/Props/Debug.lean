import Verif.Proof.Debug
import Verif.Props.CheckBytes
import Verif.Props.Dictionary
/-!
# Properties of debug builds: C75
-/

namespace Spellbook.Props
open Spec Debug

variable {U : Unicode}

/-- The assertions which `check` may violate in a debug build: the length of a stem, if the dictionary has
an affix which strips something, and the arithmetic of syllables, if it has COMPOUNDSYLLABLE. -/
inductive MayFail (D : Dict) : Assertion → Prop
  | stem {k : Kind} {a : Affix} (ha : a ∈ tableOf D k) (hs : a.strip ≠ none) : MayFail D .stemLength
  | sum (hv : D.aff.compoundSyllableVowels ≠ []) : MayFail D .syllableSum
  | modifier (hv : D.aff.compoundSyllableVowels ≠ []) : MayFail D .syllableModifier

theorem MayFail.allows (C : Checker) : Allows C (MayFail C.dict) where
  stem _ _ ha hs := .stem ha hs
  sum h := .sum h
  modifier h := .modifier h

/-- **C75**: in a debug build, `check` gives every word the outcome of a release build, or panics at one of
the named assertions. So no subtraction is below zero, `is_rep_similar` restores its buffer, only affixes of
a word are removed from it, and the margins of compounds are positive. -/
theorem C75_check {C : Checker} (hD : Reachable U C.dict) (fuel : Nat) (word : Str) :
    Debug.check C fuel word = lift (C.check fuel word) ∨
    ∃ a, MayFail C.dict a ∧ Debug.check C fuel word = .error (.assertion a) := by
  have h := check_agrees (MayFail.allows C) (wellMade_reachable hD).minChars_pos fuel word
  rwa [C63_check hD] at h

/-- **C75**: without affixes that strip something and without COMPOUNDSYLLABLE, the builds agree. -/
theorem C75_same {C : Checker} (hD : Reachable U C.dict) (hs : ∀ k, ∀ a ∈ tableOf C.dict k, a.strip = none)
    (hv : C.dict.aff.compoundSyllableVowels = [])
    (fuel : Nat) (word : Str) : Debug.check C fuel word = lift (C.check fuel word) := by
  refine (C75_check hD fuel word).resolve_right ?_
  rintro ⟨a, h, -⟩
  cases h with
  | stem ha h => exact h (hs _ _ ha)
  | sum h => exact h hv
  | modifier h => exact h hv

/-- A debug build never answers otherwise than a release build. -/
theorem C75_answer {C : Checker} (hD : Reachable U C.dict) {fuel : Nat} {word : Str} {b : Bool}
    (h : Debug.check C fuel word = .ok b) : C.check fuel word = .ok b := by
  rcases C75_check hD fuel word with h' | ⟨a, -, h'⟩
  · rw [h] at h'
    cases hc : C.check fuel word with
    | error e => rw [hc] at h'; cases h'
    | ok b' => rw [hc] at h'; cases h'; rfl
  · rw [h] at h'
    cases h'

/-- The bytes by which undoing an affix lengthens a word are those by which what it strips is longer than
what it adds. -/
theorem short_tame {C : Checker} {n : Nat} (hg : ∀ k, ∀ a ∈ tableOf C.dict k, byteLen (a.strip.getD []) ≤ byteLen a.add + n) :
    ∀ (m : Nat) (word : Str), byteLen word + m * n ≤ 360 → Tame C (fun _ => False) m word
  | 0, _, _ => trivial
  | m + 1, word, h => fun k a ha => by
    obtain ⟨h1, h2⟩ := Checker.mem_affixesOf.1 ha
    have h3 := hg k a h1
    have h4 : byteLen (a.toStem k word) ≤ byteLen word + n := by
      cases k with
      | pfx =>
        obtain ⟨t, rfl⟩ := startsWith_iff.1 h2
        simp only [Affix.toStem, byteLen_append, List.drop_left']
        omega
      | sfx =>
        obtain ⟨t, rfl⟩ := endsWith_iff.1 h2
        simp [Affix.toStem, byteLen_append]
        omega
    rw [Nat.succ_mul] at h
    exact ⟨.inr (.inr (by show _ ≤ 360; omega)), short_tame hg m _ (by omega)⟩

/-- **C75** (simple words): if no affix strips more than `n` bytes more than it adds, every word of at most
`360 - 3 * n` bytes is looked up the same in both builds. -/
theorem C75_short {C : Checker} {n : Nat} (hg : ∀ k, ∀ a ∈ tableOf C.dict k, byteLen (a.strip.getD []) ≤ byteLen a.add + n)
    {word : Str} (hw : byteLen word + 3 * n ≤ 360) (hh : HiddenHomonym) :
    Debug.checkSimpleWord C word hh = .ok (C.checkSimpleWord word hh) :=
  (checkSimpleWord_agrees (A := fun _ => False) hh (short_tame hg 3 word hw)).resolve_right
    fun ⟨_, h, _⟩ => h

/-- A dictionary whose suffix strips `es` and adds nothing. -/
def longAff : Str := "SFX A Y 1\nSFX A es 0 .\n".toList

/-- **C75** (counterexample): not every debug build gives the answer of the release build. The stem of this
word of 359 bytes is too long. -/
theorem C75_long_stem : ∃ C : Checker, Reachable C.U C.dict ∧ ∃ word, byteLen word = 359 ∧
    Debug.check C 20 word = .error (.assertion .stemLength) ∧ C.check 20 word = .ok false := by
  obtain ⟨D, h1, h2⟩ := of_map (x := parse .sample .default longAff "1\nbus/A\n".toList)
    (D := fun D => Debug.check ⟨.sample, .default, D, false, false⟩ 20 (List.replicate 359 'b') = .error (.assertion .stemLength)
      ∧ Checker.check ⟨.sample, .default, D, false, false⟩ 20 (List.replicate 359 'b') = .ok false) (by decide +kernel)
  exact ⟨⟨.sample, .default, D, false, false⟩, .loaded h1, _, by decide +kernel, of_decide_eq_true h2⟩

/-- A dictionary with COMPOUNDSYLLABLE in which `foo` flagged `I` has one syllable less at the end of a
compound. -/
def syllableAff : Str := "COMPOUNDFLAG C\nCOMPOUNDWORDMAX 1\nCOMPOUNDSYLLABLE 6 aeiou\n".toList

/-- **C75** (counterexample): adding the negative modifier as `usize` overflows. -/
theorem C75_negative_modifier : ∃ C : Checker, Reachable C.U C.dict ∧
    Debug.check C 20 "barfoo".toList = .error (.assertion .syllableSum) ∧ C.check 20 "barfoo".toList = .ok true := by
  obtain ⟨D, h1, h2⟩ := of_map (x := parse .sample .default syllableAff "2\nbar/C\nfoo/CI\n".toList)
    (D := fun D => Debug.check ⟨.sample, .default, D, false, false⟩ 20 "barfoo".toList = .error (.assertion .syllableSum)
      ∧ Checker.check ⟨.sample, .default, D, false, false⟩ 20 "barfoo".toList = .ok true) (by decide +kernel)
  exact ⟨⟨.sample, .default, D, false, false⟩, .loaded h1, of_decide_eq_true h2⟩

/-- A dictionary with 256 vowels, all the same letter, and a suffix of 128 of them. -/
def vowelAff : Str := "COMPOUNDFLAG C\nCOMPOUNDSYLLABLE 6 ".toList ++ List.replicate 256 'a' ++
  "\nSFX S Y 1\nSFX S 0 ".toList ++ List.replicate 128 'a' ++ "/C .\n".toList

/-- **C75** (counterexample): a suffix with 32768 syllables, as they are counted. -/
theorem C75_many_syllables : ∃ C : Checker, Reachable C.U C.dict ∧ ∃ word,
    Debug.check C 20 word = .error (.assertion .syllableModifier) ∧ C.check 20 word = .ok true := by
  obtain ⟨D, h1, h2⟩ := of_map (x := parse .sample .default vowelAff "2\nbar/C\nfoo/CS\n".toList)
    (D := fun D => Debug.check ⟨.sample, .default, D, false, false⟩ 20 ("barfoo".toList ++ List.replicate 128 'a') = .error (.assertion .syllableModifier)
      ∧ Checker.check ⟨.sample, .default, D, false, false⟩ 20 ("barfoo".toList ++ List.replicate 128 'a') = .ok true) (by decide +kernel)
  exact ⟨⟨.sample, .default, D, false, false⟩, .loaded h1, _, of_decide_eq_true h2⟩

-- the hypotheses of `C75_short` are met by this dictionary and all words of up to 354 bytes
example : ∃ C : Checker, Reachable C.U C.dict ∧
    (∀ k, ∀ a ∈ tableOf C.dict k, byteLen (a.strip.getD []) ≤ byteLen a.add + 2) ∧
    Debug.checkSimpleWord C "b".toList .accept = .ok none ∧ C.checkSimpleWord "b".toList .skip = none ∧
    (C.checkSimpleWord "bus".toList .accept).isSome := by
  obtain ⟨D, h1, h2⟩ := of_map (x := parse .sample .default longAff "1\nbuses/A\n".toList)
    (D := fun D => (∀ a ∈ tableOf D .pfx, byteLen (a.strip.getD []) ≤ byteLen a.add + 2) ∧
      (∀ a ∈ tableOf D .sfx, byteLen (a.strip.getD []) ≤ byteLen a.add + 2) ∧
      Debug.checkSimpleWord ⟨.sample, .default, D, false, false⟩ "b".toList .accept = .ok none ∧
      Checker.checkSimpleWord ⟨.sample, .default, D, false, false⟩ "b".toList .skip = none ∧
      (Checker.checkSimpleWord ⟨.sample, .default, D, false, false⟩ "bus".toList .accept).isSome) (by decide +kernel)
  obtain ⟨h3, h4, h5⟩ := of_decide_eq_true h2
  refine ⟨⟨.sample, .default, D, false, false⟩, .loaded h1, ?_, h5⟩
  rintro (_ | _)
  · exact h3
  · exact h4

-- the hypotheses of `C75_same` are met by a dictionary with compounds and affixes
example : ∃ C : Checker, Reachable C.U C.dict ∧ (∀ k, ∀ a ∈ tableOf C.dict k, a.strip = none) ∧
    C.dict.aff.compoundSyllableVowels = [] ∧ Debug.check C 20 "barfoos".toList = .ok true := by
  obtain ⟨D, h1, h2⟩ := of_map (x := parse .sample .default "COMPOUNDFLAG C\nSFX S Y 1\nSFX S 0 s/C .\n".toList
      "2\nbar/C\nfoo/CS\n".toList)
    (D := fun D => (∀ a ∈ tableOf D .pfx, a.strip = none) ∧ (∀ a ∈ tableOf D .sfx, a.strip = none) ∧
      D.aff.compoundSyllableVowels = [] ∧
      Debug.check ⟨.sample, .default, D, false, false⟩ 20 "barfoos".toList = .ok true) (by decide +kernel)
  obtain ⟨h3, h4, h5⟩ := of_decide_eq_true h2
  refine ⟨⟨.sample, .default, D, false, false⟩, .loaded h1, ?_, h5⟩
  rintro (_ | _)
  · exact h3
  · exact h4

end Spellbook.Props
