import Verif.Proof.DebugSuggest
import Verif.Props.Debug
import Verif.Props.SuggestBytes
/-!
# Properties of `suggest` in debug builds: C80
-/

namespace Spellbook.Props
open Spec Debug

variable {U : Unicode}

/-- **C80**: in a debug build, `suggest` gives every word the outcome of a release build, or panics at one of
the assertions which `check` may violate. So none of the assertions of the suggester itself fails: no edit
method gets an empty word, every edit method restores its buffer, and the byte which becomes a hyphen is a
space. (`U.lower` and `U.upper` stand for `char::to_lowercase` and `char::to_uppercase`, which always yield at
least one character.) -/
theorem C80_suggest {S : Suggester} (hD : Reachable U S.C.dict) (hl : ∀ c, S.C.U.lower c ≠ [])
    (hu : ∀ c, S.C.U.upper c ≠ []) (fuel depth : Nat) (word : Str) (out : List Str) :
    Debug.suggest S fuel depth word out = lift (S.suggest fuel depth word out) ∨
    ∃ a, MayFail S.C.dict a ∧ Debug.suggest S fuel depth word out = .error (.assertion a) := by
  have h := suggest_agrees (MayFail.allows S.C) (wellMade_reachable hD).minChars_pos hl hu fuel
    (fun w hw => iconv_ne_nil hD hw) depth word out
  rwa [C65_suggest hD] at h

/-- **C80**: without affixes that strip something and without COMPOUNDSYLLABLE, the builds agree. -/
theorem C80_same {S : Suggester} (hD : Reachable U S.C.dict) (hl : ∀ c, S.C.U.lower c ≠ [])
    (hu : ∀ c, S.C.U.upper c ≠ []) (hs : ∀ k, ∀ a ∈ tableOf S.C.dict k, a.strip = none)
    (hv : S.C.dict.aff.compoundSyllableVowels = []) (fuel depth : Nat) (word : Str) (out : List Str) :
    Debug.suggest S fuel depth word out = lift (S.suggest fuel depth word out) := by
  refine (C80_suggest hD hl hu fuel depth word out).resolve_right ?_
  rintro ⟨a, h, -⟩
  cases h with
  | stem ha h => exact h (hs _ _ ha)
  | sum h => exact h hv
  | modifier h => exact h hv

/-- **C80**: a debug build never suggests otherwise than a release build. -/
theorem C80_answer {S : Suggester} (hD : Reachable U S.C.dict) (hl : ∀ c, S.C.U.lower c ≠ [])
    (hu : ∀ c, S.C.U.upper c ≠ []) {fuel depth : Nat} {word : Str} {out found : List Str}
    (h : Debug.suggest S fuel depth word out = .ok found) : S.suggest fuel depth word out = .ok found := by
  rcases C80_suggest hD hl hu fuel depth word out with h' | ⟨a, -, h'⟩
  · rw [h] at h'
    cases hc : S.suggest fuel depth word out with
    | error e => rw [hc] at h'; cases h'
    | ok b' => rw [hc] at h'; cases h'; rfl
  · rw [h] at h'
    cases h'

/-- **C80** (counterexample): not every debug build suggests what the release build suggests. The stem of a
text that is tried is too long. -/
theorem C80_long_stem : ∃ S : Suggester, Reachable S.C.U S.C.dict ∧ ∃ word, byteLen word ≤ 360 ∧
    Debug.suggest S 20 20 word [] = .error (.assertion .stemLength) ∧ ¬ ∃ fuel depth, S.suggest fuel depth word [] = .error .panic := by
  obtain ⟨D, h1, h2⟩ := of_map (x := parse .sample .default longAff "1\nbus/A\n".toList)
    (D := fun D => Debug.suggest ⟨⟨.sample, .default, D, false, false⟩, .sample, false⟩ 20 20 (List.replicate 359 'b') [] =
        .error (.assertion .stemLength)
      ∧ Checker.checkSimpleWord ⟨.sample, .default, D, false, false⟩ [] .skip = none) (by decide +kernel)
  obtain ⟨h3, h4⟩ := of_decide_eq_true h2
  refine ⟨⟨⟨.sample, .default, D, false, false⟩, .sample, false⟩, .loaded h1, _, by decide +kernel, h3, ?_⟩
  exact C45_edits_partial (U := .sample) (S := ⟨⟨.sample, .default, D, false, false⟩, .sample, false⟩) (.loaded h1) rfl rfl
    sample_lower sample_upper rfl h4 _ _

-- the hypotheses of `C80_same` are met by a dictionary with compounds and affixes
example : ∃ S : Suggester, Reachable S.C.U S.C.dict ∧ (∀ c, S.C.U.lower c ≠ []) ∧ (∀ c, S.C.U.upper c ≠ []) ∧
    (∀ k, ∀ a ∈ tableOf S.C.dict k, a.strip = none) ∧ S.C.dict.aff.compoundSyllableVowels = [] ∧
    Debug.suggest S 20 20 "fos".toList [] = .ok ["foos".toList, "foo".toList] := by
  obtain ⟨D, h1, h2⟩ := of_map (x := parse .sample .default "TRY o\nSFX S Y 1\nSFX S 0 s .\n".toList
      "1\nfoo/S\n".toList)
    (D := fun D => (∀ a ∈ tableOf D .pfx, a.strip = none) ∧ (∀ a ∈ tableOf D .sfx, a.strip = none) ∧
      D.aff.compoundSyllableVowels = [] ∧
      Debug.suggest ⟨⟨.sample, .default, D, false, false⟩, .sample, true⟩ 20 20 "fos".toList [] = .ok ["foos".toList, "foo".toList]) (by decide +kernel)
  obtain ⟨h3, h4, h5⟩ := of_decide_eq_true h2
  refine ⟨⟨⟨.sample, .default, D, false, false⟩, .sample, true⟩, .loaded h1, sample_lower, sample_upper, ?_, h5⟩
  rintro (_ | _)
  · exact h3
  · exact h4

end Spellbook.Props
