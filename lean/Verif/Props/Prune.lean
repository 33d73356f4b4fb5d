import Verif.Proof.PruneSuggest
import Verif.Props.Rename
/-!
# C93 Flags nothing asks about do nothing

A word or an affix may have flags which no option, affix or compound rule refers to. A dictionary from
which such flags are removed gives the same answers for all words.
-/

namespace Spellbook
namespace Props
open Spec

/-- **C93**: `check` gives the same answer for every word without the flags nothing asks about. -/
theorem C93_check {C : Checker} {p : Nat → Bool} (hp : Keeps p C.aff) (fuel : Nat) (word : Str) :
    (pruneChecker p C).check fuel word = C.check fuel word :=
  Pruned.check hp fuel word

/-- **C93**: `suggest` gives the same suggestions for every word without the flags nothing asks about. -/
theorem C93_suggest {S : Suggester} {p : Nat → Bool} (hp : Keeps p S.C.aff) (hH : ByScore S.H)
    (fuel depth : Nat) (word : Str) (out : List Str) :
    (pruneSuggester p S).suggest fuel depth word out = S.suggest fuel depth word out :=
  Pruned.suggest hp hH fuel depth word out

/-- **C93** (without affixes and options): in a dictionary whose affix file says nothing, all flags other
than the two which the library knows by their number can be removed. -/
theorem C93_plain {C : Checker} (h : C.aff.options = {}) (h1 : C.aff.prefixes.table = [])
    (h2 : C.aff.suffixes.table = []) (h3 : C.aff.compoundRules.rules = []) (h4 : C.aff.compoundPatterns = [])
    (h5 : C.aff.compoundSyllableVowels = []) (fuel : Nat) (word : Str) :
    (pruneChecker (fun f => f == 65510 || f == 65535) C).check fuel word = C.check fuel word := by
  refine C93_check (fun f hf => ?_) fuel word
  cases hf with
  | option hf =>
    rw [h] at hf
    simp only [flagOptions, List.mem_cons, Option.some.injEq, List.not_mem_nil, reduceCtorEq, or_false] at hf
    simp [hf]
  | pfx ha => rw [h1] at ha; cases ha
  | sfx ha => rw [h2] at ha; cases ha
  | rule hr => rw [h3] at hr; cases hr
  | first hc => rw [h4] at hc; cases hc
  | second hc => rw [h4] at hc; cases hc
  | hidden => rfl
  | syllables hv => exact absurd h5 hv

/-! ## Examples -/

/-- Which flags something asks about can be found out. -/
def askedBy (d : AffData) (f : Nat) : Bool :=
  (flagOptions d.options).contains (some f) || d.prefixes.table.any (·.flag == f)
    || d.suffixes.table.any (·.flag == f) || d.compoundRules.rules.any (fun r => r.any (·.flag == f))
    || d.compoundPatterns.any (fun c => c.firstWordFlag == some f || c.secondWordFlag == some f)
    || f == 65535 || (d.compoundSyllableVowels != [] && (f == 73 || f == 74))

theorem askedBy_keeps (d : AffData) : Keeps (askedBy d) d := by
  intro f hf
  simp only [askedBy, Bool.or_eq_true, List.contains_iff_mem, List.any_eq_true, beq_iff_eq,
    Bool.and_eq_true, bne_iff_ne, ne_eq]
  cases hf with
  | option hf => simp [hf]
  | pfx ha => exact .inl (.inl (.inl (.inl (.inl (.inr ⟨_, ha, rfl⟩)))))
  | sfx ha => exact .inl (.inl (.inl (.inl (.inr ⟨_, ha, rfl⟩))))
  | rule hr he => exact .inl (.inl (.inl (.inr ⟨_, hr, _, he, rfl⟩)))
  | first hc hf => exact .inl (.inl (.inr ⟨_, hc, .inl hf⟩))
  | second hc hf => exact .inl (.inl (.inr ⟨_, hc, .inr hf⟩))
  | hidden => exact .inl (.inr rfl)
  | syllables hv hf => exact .inr ⟨hv, hf⟩

/-- A dictionary with a suffix, compounds and forbidden words, and the flags `Y` and `Z` without a
meaning. Two entries differ only in them, and the parts of a compound must differ. -/
def uselessAff : String := "FORBIDDENWORD X\nCOMPOUNDFLAG C\nCHECKCOMPOUNDDUP\nTRY ab\nSFX S Y 1\nSFX S 0 s/YZ .\n"
def uselessDic : String := "4\nfoo/CSY\nfoo/CSZ\nbar/CZ\nfoobars/X\n"

/-- The hypotheses can be met: `Y` and `Z` are removed; `foos` and `foobar` are still words, `foofoo` is
not. -/
example : ∃ C : Checker, Reachable .sample C.dict ∧ Keeps (askedBy C.aff) C.aff ∧
    pruneFlags (askedBy C.aff) (FlagSet.ofList [67, 83, 89, 90]) = FlagSet.ofList [67, 83] ∧
    (∀ e ∈ (pruneChecker (askedBy C.aff) C).dict.words.slots, e.2.contains 89 = false) ∧
    (pruneChecker (askedBy C.aff) C).check 9 "foos".toList = .ok true ∧
    (pruneChecker (askedBy C.aff) C).check 9 "foobar".toList = .ok true ∧
    (pruneChecker (askedBy C.aff) C).check 9 "foofoo".toList = .ok false ∧
    (pruneSuggester (askedBy C.aff) (C.intoSuggester .sample)).suggest 9 1 "fooa".toList []
      = .ok ["foo".toList] := by
  obtain ⟨C, h1, h2⟩ := of_load (aff := uselessAff) (dic := uselessDic) (L := .default)
    (p := fun C => decide (C.check 9 "foos".toList = .ok true) && decide (C.check 9 "foobar".toList = .ok true)
      && decide (C.check 9 "foofoo".toList = .ok false) && decide ((C.intoSuggester .sample).suggest 9 1 "fooa".toList []
      = .ok ["foo".toList])
      && decide (pruneFlags (askedBy C.aff) (FlagSet.ofList [67, 83, 89, 90]) = FlagSet.ofList [67, 83])
      && decide (∀ e ∈ (pruneChecker (askedBy C.aff) C).dict.words.slots, e.2.contains 89 = false))
    (by decide +kernel)
  simp only [Bool.and_eq_true, decide_eq_true_eq] at h2
  obtain ⟨⟨⟨⟨⟨a1, a2⟩, a3⟩, a4⟩, a5⟩, a6⟩ := h2
  have hp := askedBy_keeps C.aff
  refine ⟨C, (loadChecker_reachable h1).1, hp, a5, a6, ?_, ?_, ?_, ?_⟩
  · rw [C93_check hp, a1]
  · rw [C93_check hp, a2]
  · rw [C93_check hp, a3]
  · exact (C93_suggest (S := C.intoSuggester .sample) hp sample_byScore 9 1 _ _).trans a4

/-- **C93** (only these flags): a flag which the affix file asks about cannot be removed. -/
theorem C93_asked_needed : ∃ (C : Checker) (f : Nat), Reachable .sample C.dict ∧ Asked C.aff f ∧
    C.check 9 "foos".toList = .ok true ∧
    (pruneChecker (fun g => g != f) C).check 9 "foos".toList = .ok false := by
  obtain ⟨C, h1, h2⟩ := of_load (aff := uselessAff) (dic := uselessDic) (L := .default)
    (p := fun C => decide (C.check 9 "foos".toList = .ok true) &&
      decide ((pruneChecker (fun g => g != 83) C).check 9 "foos".toList = .ok false) &&
      decide (∃ a ∈ C.aff.suffixes.table, a.flag = 83)) (by decide +kernel)
  simp only [Bool.and_eq_true, decide_eq_true_eq] at h2
  obtain ⟨⟨a1, a2⟩, a, ha, hf⟩ := h2
  exact ⟨C, 83, (loadChecker_reachable h1).1, hf ▸ .sfx ha, a1, a2⟩

end Props
end Spellbook
