import Verif.Proof.RenameSuggest
import Verif.Props.Suggest
/-!
# C87 The names of flags do not matter

A flag is a mark which connects words, affixes and options; which number it is does not matter. A
dictionary in which every flag is renamed, and written in another FLAG type or with other AF aliases,
gives the same answers for all words.
-/

namespace Spellbook
namespace Props
open Spec

/-- **C87**: `check` gives the same answer for every word, whatever the flags are called. -/
theorem C87_check {C : Checker} {p : Nat → Nat} (hp : Renaming p C.aff) (W : Writing) (fuel : Nat)
    (word : Str) : (renameChecker p W C).check fuel word = C.check fuel word :=
  Renamed.check hp fuel word

/-- **C87**: `suggest` gives the same suggestions for every word, whatever the flags are called. -/
theorem C87_suggest {S : Suggester} {p : Nat → Nat} (hp : Renaming p S.C.aff) (hH : ByScore S.H)
    (W : Writing) (fuel depth : Nat) (word : Str) (out : List Str) :
    (renameSuggester p W S).suggest fuel depth word out = S.suggest fuel depth word out :=
  Renamed.suggest hp hH fuel depth word out

/-- **C87**: in particular only the FLAG type and the AF aliases may differ. -/
theorem C87_writing {S S' : Suggester}
    (h : S' = { S with C := { S.C with dict := { S.C.dict with aff := { S.C.dict.aff with
      flagType := S'.C.aff.flagType, flagAliases := S'.C.aff.flagAliases } } } })
    (hH : ByScore S.H) (fuel depth : Nat) (word : Str) (out : List Str) :
    S'.C.check fuel word = S.C.check fuel word ∧
    S'.suggest fuel depth word out = S.suggest fuel depth word out := by
  have hf : ∀ s : FlagSet, renameFlags id s = s := fun s => elems_eq fun f => by
    simp only [mem_renameFlags, id_eq, exists_eq_right]
  have ha : renameAffix id = id := by
    funext a
    simp only [renameAffix, hf, id_eq]
  have hi : ∀ {k : Kind} (idx : AffixIndex k), renameIndex id idx = idx := fun idx => by
    obtain ⟨t, ht⟩ := idx
    simp only [renameIndex, ha, List.map_id]
  have hr : renameRule id = id := by
    funext r
    simp only [renameRule, id_eq]
    exact List.map_id _
  have hc : renamePattern id = id := by
    funext c
    simp only [renamePattern, Option.map_id, id_eq]
  have ho : ∀ o, renameOptions id o = o := fun o => by
    simp only [renameOptions, Option.map_id, id_eq]
  have he : renameEntry id = id := by
    funext e
    simp only [renameEntry, hf, id_eq]
  have hS : S' = renameSuggester id ⟨S'.C.aff.flagType, S'.C.aff.flagAliases⟩ S := by
    refine h.trans ?_
    simp only [renameSuggester, renameChecker, renameDict, renameAff, hi, hr, hc, ho, he, List.map_id]
  have hp : Renaming id S.C.aff := ⟨fun _ _ h => h, rfl, fun _ => ⟨rfl, rfl, rfl⟩⟩
  rw [hS]
  exact ⟨C87_check hp _ fuel word, C87_suggest hp hH _ fuel depth word out⟩

/-! ## Examples -/

/-- Exchanges two flags. -/
def exchange (a b : Nat) (f : Nat) : Nat := if f = a then b else if f = b then a else f

theorem exchange_inj (a b : Nat) : ∀ f g, exchange a b f = exchange a b g → f = g := by
  intro f g h
  unfold exchange at h
  split at h <;> split at h <;> (try split at h) <;> (try split at h) <;> omega

theorem sample_byScore : ByScore Heaps.sample where
  push g h x := by
    show List.map _ h ++ [_] = List.map _ (h ++ [x])
    rw [List.map_append]
    rfl
  pop g h := by
    show popScored _ = (popScored h).map _
    induction h with
    | nil => rfl
    | cons x xs ih =>
      rw [List.map_cons, popScored, popScored, ih]
      rcases popScored xs with _ | ⟨y, ys⟩
      · rfl
      · dsimp only [Option.map_some]
        split <;> rfl

/-- A dictionary with a suffix, a prefix, compounds and forbidden words. -/
def namesAff : String := "FORBIDDENWORD X\nCOMPOUNDFLAG C\nONLYINCOMPOUND O\nTRY ab\nSFX S Y 1\nSFX S 0 s .\nPFX P Y 1\nPFX P 0 re .\n"
def namesDic : String := "3\nfoo/CSP\nbar/COS\nrefoo/X\n"

/-- The hypotheses can be met: the flags `S` and `O` are exchanged, and `foos` is still a word, `bar` is not,
`foobar` is. -/
example : ∃ C : Checker, Reachable .sample C.dict ∧ Renaming (exchange 83 79) C.aff ∧
    renameFlags (exchange 83 79) (FlagSet.ofList [67, 79]) = FlagSet.ofList [67, 83] ∧
    (∀ W, (renameChecker (exchange 83 79) W C).check 9 "foos".toList = .ok true) ∧
    (∀ W, (renameChecker (exchange 83 79) W C).check 9 "bar".toList = .ok false) ∧
    (∀ W, (renameChecker (exchange 83 79) W C).check 9 "foobar".toList = .ok true) ∧
    (∀ W, (renameSuggester (exchange 83 79) W (C.intoSuggester .sample)).suggest 9 1 "fooa".toList []
      = .ok ["foo".toList]) := by
  obtain ⟨C, h1, h2⟩ := of_load (aff := namesAff) (dic := namesDic) (L := .default)
    (p := fun C => decide (C.check 9 "foos".toList = .ok true) && decide (C.check 9 "bar".toList = .ok false)
      && decide (C.check 9 "foobar".toList = .ok true) && decide ((C.intoSuggester .sample).suggest 9 1 "fooa".toList []
      = .ok ["foo".toList]))
    (by decide +kernel)
  simp only [Bool.and_eq_true, decide_eq_true_eq] at h2
  have hr := loadChecker_reachable h1
  have hp : Renaming (exchange 83 79) C.aff := ⟨exchange_inj _ _, by decide, fun _ => by decide⟩
  refine ⟨C, hr.1, hp, by decide, fun W => ?_, fun W => ?_, fun W => ?_, fun W => ?_⟩
  · rw [C87_check hp, h2.1.1.1]
  · rw [C87_check hp, h2.1.1.2]
  · rw [C87_check hp, h2.1.2]
  · exact (C87_suggest hp sample_byScore W 9 1 _ _).trans h2.2

/-- **C87** (a flag with a meaning of its own): with COMPOUNDSYLLABLE the flag `I` changes the number of
syllables, so it cannot be renamed. -/
theorem C87_syllables_needed : ∃ (C : Checker) (p : Nat → Nat), Reachable .sample C.dict ∧
    (∀ f g, p f = p g → f = g) ∧ p 65535 = 65535 ∧ ∃ W,
    C.check 9 "foobar".toList = .ok true ∧ (renameChecker p W C).check 9 "foobar".toList = .ok false := by
  obtain ⟨C, h1, h2⟩ := of_load (aff := "COMPOUNDFLAG C\nCOMPOUNDWORDMAX 1\nCOMPOUNDSYLLABLE 2 aeiou\n")
    (dic := "2\nfoo/C\nbar/CI\n") (L := .default)
    (p := fun C => decide (C.check 9 "foobar".toList = .ok true) &&
      decide ((renameChecker (exchange 73 90) ⟨.short, []⟩ C).check 9 "foobar".toList = .ok false))
    (by decide +kernel)
  simp only [Bool.and_eq_true, decide_eq_true_eq] at h2
  exact ⟨C, exchange 73 90, (loadChecker_reachable h1).1, exchange_inj _ _, by decide, ⟨.short, []⟩, h2.1, h2.2⟩

/-- **C87** (a flag with a meaning of its own): the flag 65535 hides a word from compounds, so it cannot be
renamed. -/
theorem C87_hidden_needed : ∃ (C : Checker) (p : Nat → Nat), Reachable .sample C.dict ∧
    (∀ f g, p f = p g → f = g) ∧ C.aff.compoundSyllableVowels = [] ∧ ∃ W,
    C.check 9 "foobar".toList = .ok false ∧ (renameChecker p W C).check 9 "foobar".toList = .ok true := by
  obtain ⟨C, h1, h2⟩ := of_load (aff := "FLAG num\nCOMPOUNDFLAG 1\n")
    (dic := "2\nfoo/1\nbar/1,65535\n") (L := .default)
    (p := fun C => decide (C.aff.compoundSyllableVowels = []) && decide (C.check 9 "foobar".toList = .ok false) &&
      decide ((renameChecker (exchange 65535 2) ⟨.numeric, []⟩ C).check 9 "foobar".toList = .ok true))
    (by decide +kernel)
  simp only [Bool.and_eq_true, decide_eq_true_eq] at h2
  exact ⟨C, exchange 65535 2, (loadChecker_reachable h1).1, exchange_inj _ _, h2.1.1, ⟨.numeric, []⟩, h2.1.2, h2.2⟩

/-- **C87** (different flags stay different): two flags cannot get the same name. -/
theorem C87_injective_needed : ∃ (C : Checker) (p : Nat → Nat), Reachable .sample C.dict ∧
    p 65535 = 65535 ∧ C.aff.compoundSyllableVowels = [] ∧ ∃ W,
    C.check 9 "foo".toList = .ok true ∧ (renameChecker p W C).check 9 "foo".toList = .ok false := by
  obtain ⟨C, h1, h2⟩ := of_load (aff := "FORBIDDENWORD X\n") (dic := "1\nfoo/A\n") (L := .default)
    (p := fun C => decide (C.aff.compoundSyllableVowels = []) && decide (C.check 9 "foo".toList = .ok true) &&
      decide ((renameChecker (fun f => if f = 65 then 88 else f) ⟨.short, []⟩ C).check 9 "foo".toList = .ok false))
    (by decide +kernel)
  simp only [Bool.and_eq_true, decide_eq_true_eq] at h2
  exact ⟨C, _, (loadChecker_reachable h1).1, by decide, h2.1.1, ⟨.short, []⟩, h2.1.2, h2.2⟩

end Props
end Spellbook
