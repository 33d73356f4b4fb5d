import Verif.Proof.HintsText
import Verif.Props.Suggest
/-!
# C94 Advice for suggestions does not change what is correct

An affix file says which words are correct, and it has advice for suggestions. `check` does not listen to the advice,
with one exception: CHECKCOMPOUNDREP compares compounds with the replacements of REP. A few settings are read by nothing
at all.
-/

namespace Spellbook
namespace Props
open Spec

/-- **C94**: `check` gives the same answer for every word whatever the advice for suggestions is. The replacements may
change unless CHECKCOMPOUNDREP is on. -/
theorem C94_check {C : Checker} {h : Hints} (hr : C.opts.compoundCheckRep = true → h.replacements = C.aff.replacements)
    (fuel : Nat) (word : Str) : (hintedChecker h C).check fuel word = C.check fuel word := by
  have key : Checker.SameRules (hintedChecker h C) C :=
    { U := rfl, entries := rfl, index := by funext k; cases k <;> rfl
      lowerAsTitle := rfl, lowerAsUpper := rfl, breakTable := rfl, compoundRules := fun _ => Iff.rfl
      compoundSyllableVowels := .refl _, compoundPatterns := fun _ => Iff.rfl, replacing := rfl, inputConversions := fun _ => rfl, ignoreChars := fun _ => Iff.rfl
      replacements := fun e => .of_eq (hr e)
      complexPrefixes := rfl, checksharps := rfl, forbidWarn := rfl, onlyInCompoundFlag := rfl
      circumfixFlag := rfl, forbiddenWordFlag := rfl, keepCaseFlag := rfl, needAffixFlag := rfl
      warnFlag := rfl, compoundFlag := rfl, compoundBeginFlag := rfl, compoundMiddleFlag := rfl
      compoundEndFlag := rfl, compoundMinLength := rfl, compoundMaxWordCount := rfl, compoundPermitFlag := rfl
      compoundForbidFlag := rfl, compoundRootFlag := rfl, compoundForceUppercaseFlag := rfl
      compoundCheckDuplicate := rfl, compoundCheckRep := rfl, compoundCheckCase := rfl
      compoundCheckTriple := rfl, compoundSimplifiedTriple := rfl, compoundSyllableNum := rfl
      compoundSyllableMax := rfl, caseHandling := rfl }
  rw [key.check]

/-- **C94** (settings without effect): no suggestion depends on FULLSTRIP, COMPOUNDMORESUFFIXES, MAXCPDSUGS, SUBSTANDARD
or SUGSWITHDOTS, nor on how flags were written. -/
theorem C94_idle (S : Suggester) (i : Idle) (fuel depth : Nat) (word : Str) (out : List Str) :
    (idleSuggester i S).suggest fuel depth word out = S.suggest fuel depth word out ∧
      (idleChecker i S.C).check fuel word = S.C.check fuel word := by
  have key : Suggester.SameReads (idleSuggester i S) S :=
    { U := rfl, entries := rfl, index := by funext k; cases k <;> rfl
      lowerAsTitle := rfl, lowerAsUpper := rfl, breakTable := rfl, compoundRules := fun _ => Iff.rfl
      compoundSyllableVowels := .refl _, compoundPatterns := fun _ => Iff.rfl, replacing := rfl, inputConversions := fun _ => rfl, ignoreChars := fun _ => Iff.rfl
      replacements := fun _ => .of_eq rfl
      iter := rfl, H := rfl, ngram := rfl, allReplacements := rfl, outputConversions := rfl, similarities := rfl
      keyboardCloseness := rfl, tryChars := rfl, noSuggestFlag := rfl, maxNgramSuggestions := rfl
      maxDiffFactor := rfl, onlyMaxDiff := rfl, noSplitSuggestions := rfl
      complexPrefixes := rfl, checksharps := rfl, forbidWarn := rfl, onlyInCompoundFlag := rfl
      circumfixFlag := rfl, forbiddenWordFlag := rfl, keepCaseFlag := rfl, needAffixFlag := rfl
      warnFlag := rfl, compoundFlag := rfl, compoundBeginFlag := rfl, compoundMiddleFlag := rfl
      compoundEndFlag := rfl, compoundMinLength := rfl, compoundMaxWordCount := rfl, compoundPermitFlag := rfl
      compoundForbidFlag := rfl, compoundRootFlag := rfl, compoundForceUppercaseFlag := rfl
      compoundCheckDuplicate := rfl, compoundCheckRep := rfl, compoundCheckCase := rfl
      compoundCheckTriple := rfl, compoundSimplifiedTriple := rfl, compoundSyllableNum := rfl
      compoundSyllableMax := rfl, caseHandling := rfl }
  rw [key.suggest]
  exact ⟨rfl, congrFun (congrFun key.check fuel) word⟩

/-- **C94** (in the text): a dictionary whose affix file has a block of advice can be loaded without this block, and
then `check` gives the same answers. -/
theorem C94_text {U : Unicode} {S : Sorts} {aff aff' dic : Str} {D : Dict} {key : String}
    (h : parse U S aff dic = .ok D) (hw : Without U key aff aff')
    (hk : key ∈ idleKeys ∨ key ∈ adviceKeys ∨ key = "REP" ∧ D.aff.options.compoundCheckRep = false) :
    ∃ D', parse U S aff' dic = .ok D' ∧ ∀ (L : Layout) (fuel : Nat) (word : Str),
      Checker.check { U, L, dict := D' } fuel word = Checker.check { U, L, dict := D } fuel word := by
  obtain ⟨l, l', before, line, args, rows, after, cx₁, cx₂, h1, h2, h3, h4, h5, h6, h7⟩ := hw
  rw [content_iff.1 h1] at h3
  rw [content_iff.1 h2] at h4
  have ha : Hint.allowed true (key == "REP") key = true := by
    simp only [Hint.allowed, Bool.true_and, Bool.or_eq_true, List.contains_iff_mem, Bool.and_self, beq_iff_eq]
    rcases hk with hk | hk | hk
    · exact .inl (.inl hk)
    · exact .inl (.inr hk)
    · exact .inr hk.1
  obtain ⟨cx, cx', A', e1, e2, e3, e4⟩ := Hint.without h h3 h4 h5 h6 h7 ha
  refine ⟨_, e2, fun L fuel word => ?_⟩
  have hr : (key == "REP") = true → D.aff.options.compoundCheckRep = false := by
    intro hkey
    rw [beq_iff_eq] at hkey
    subst hkey
    rcases hk with hk | hk | hk
    · exact absurd hk (by decide)
    · exact absurd hk (by decide)
    · exact hk.2
  rw [(Hint.assembled_rules e1.symm e4 e3 hr U L).check]

/-- **C94** (in the text, settings without effect): without a block of a directive that is read by nothing, `suggest`
gives the same suggestions. -/
theorem C94_idle_text {U : Unicode} {S : Sorts} {aff aff' dic : Str} {D : Dict} {key : String}
    (h : parse U S aff dic = .ok D) (hw : Without U key aff aff') (hk : key ∈ idleKeys) :
    ∃ D', parse U S aff' dic = .ok D' ∧ ∀ (L : Layout) (H : Heaps) (ngram : Bool) (fuel depth : Nat) (word : Str)
      (out : List Str), Suggester.suggest { C := { U, L, dict := D' }, H, ngram } fuel depth word out
        = Suggester.suggest { C := { U, L, dict := D }, H, ngram } fuel depth word out := by
  obtain ⟨l, l', before, line, args, rows, after, cx₁, cx₂, h1, h2, h3, h4, h5, h6, h7⟩ := hw
  rw [content_iff.1 h1] at h3
  rw [content_iff.1 h2] at h4
  have ha : Hint.allowed false false key = true := by simpa [Hint.allowed] using hk
  obtain ⟨cx, cx', A', e1, e2, e3, e4⟩ := Hint.without h h3 h4 h5 h6 h7 ha
  refine ⟨_, e2, fun L H ngram fuel depth word out => ?_⟩
  rw [(Hint.assembled_reads e1.symm e4 e3 rfl rfl U L H ngram).suggest]

/-! ## Examples -/

/-- A text with advice. -/
def adviceAff : String := "TRY ob\nREP 1\nREP u o\nSFX S Y 1\nSFX S 0 s .\n"

/-- The same without its TRY line. -/
def adviceLess : String := "REP 1\nREP u o\nSFX S Y 1\nSFX S 0 s .\n"

theorem advice_without : Without .sample "TRY" adviceAff.toList adviceLess.toList :=
  ⟨contentLines .sample adviceAff.toList, contentLines .sample adviceLess.toList, [], "TRY ob".toList, ["ob".toList],
    [], (contentLines .sample adviceLess.toList).map (·.2), {}, _, content_iff.2 rfl, content_iff.2 rfl,
    by decide +kernel, rfl, .done, by decide +kernel, .tryChars⟩

/-- The advice matters for suggestions, and only for them. -/
example : ∃ C C' : Checker, loadChecker adviceAff "1\nfoo/S\n" = some C ∧ loadChecker adviceLess "1\nfoo/S\n" = some C' ∧
    (editsOnly C).suggest 9 1 "fxo".toList [] = .ok ["foo".toList] ∧
    (editsOnly C').suggest 9 1 "fxo".toList [] = .ok [] ∧
    (∀ fuel word, C'.check fuel word = C.check fuel word) ∧ C'.check 9 "foos".toList = .ok true := by
  obtain ⟨C, h1, h2⟩ := of_load (aff := adviceAff) (dic := "1\nfoo/S\n") (L := .default)
    (p := fun C => decide ((editsOnly C).suggest 9 1 "fxo".toList [] = .ok ["foo".toList]) &&
      decide (C.check 9 "foos".toList = .ok true)) (by decide +kernel)
  obtain ⟨C', h3, h4⟩ := of_load (aff := adviceLess) (dic := "1\nfoo/S\n") (L := .default)
    (p := fun C => decide ((editsOnly C).suggest 9 1 "fxo".toList [] = .ok [])) (by decide +kernel)
  simp only [Bool.and_eq_true, decide_eq_true_eq] at h2 h4
  unfold loadChecker at h1 h3
  split at h1
  · rename_i D hD
    simp only [Option.some.injEq] at h1
    split at h3
    · rename_i D' hD'
      simp only [Option.some.injEq] at h3
      obtain ⟨D'', e1, e2⟩ := C94_text hD advice_without (.inr (.inl (by decide)))
      rw [hD', Except.ok.injEq] at e1
      subst e1
      have hall : ∀ fuel word, C'.check fuel word = C.check fuel word := by
        subst h1 h3
        exact e2 .default
      exact ⟨C, C', by rw [loadChecker, hD, ← h1], by rw [loadChecker, hD', ← h3], h2.1, h4, hall, by rw [hall]; exact h2.2⟩
    · cases h3
  · cases h1

/-- **C94** (the exception): with CHECKCOMPOUNDREP, the replacements decide whether a compound is correct. -/
theorem C94_rep_needed : ∃ (C : Checker) (h : Hints), Reachable .sample C.dict ∧
    C.check 9 "foobar".toList = .ok false ∧ (hintedChecker h C).check 9 "foobar".toList = .ok true := by
  obtain ⟨C, h1, h2⟩ := of_load (aff := "COMPOUNDFLAG C\nCHECKCOMPOUNDREP\nREP 1\nREP o u\n")
    (dic := "3\nfoo/C\nbar/C\nfoubar\n") (L := .default)
    (p := fun C => decide (C.check 9 "foobar".toList = .ok false) &&
      decide ((hintedChecker ⟨.empty, [], [], [], none, 0, 0, false, false, .empty⟩ C).check 9 "foobar".toList
        = .ok true)) (by decide +kernel)
  simp only [Bool.and_eq_true, decide_eq_true_eq] at h2
  exact ⟨C, _, (loadChecker_reachable h1).1, h2.1, h2.2⟩

end Props
end Spellbook
