import Verif.Proof.Removal
/-!
# C91 Removing a stem only takes words away
-/

namespace Spellbook.Props
open Spec Checker

variable {U : Unicode} {C : Checker} {s : Str}

/-- **C91** (check): with a dictionary without compounds whose FORBIDDENWORD flag has no second use, every word which is
correct after `remove_stem(s)` was correct before. -/
theorem C91_check (hD : Reachable U C.dict) (h : ForbidApart C.dict)
    (hn : C.dict.aff.options.allowsCompounding = false) (hr : C.dict.aff.compoundRules.rules = [])
    (h1 : C.checkLowerAsTitle = false) (h2 : C.checkLowerAsUpper = false) {word : Str}
    (ha : Accepts (removed C s) word) : Accepts C word := by
  obtain ⟨fuel, hf⟩ := ha
  obtain ⟨b, b', e, e', h3, -⟩ := Removal.check (s := s) h hn hr (C54_well_made hD).1 h1 h2 fuel word
  cases e'.symm.trans hf
  exact ⟨fuel, by rw [e, h3 rfl]⟩

/-- **C91** (removals): the same after any number of removals. -/
theorem C91_removals (hD : Reachable U C.dict) (h : ForbidApart C.dict)
    (hn : C.dict.aff.options.allowsCompounding = false) (hr : C.dict.aff.compoundRules.rules = [])
    (h1 : C.checkLowerAsTitle = false) (h2 : C.checkLowerAsUpper = false) (stems : List Str) {word : Str}
    (ha : Accepts (stems.foldl removed C) word) : Accepts C word := by
  induction stems generalizing C with
  | nil => exact ha
  | cons s stems ih =>
    refine C91_check (s := s) hD h hn hr h1 h2 ?_
    exact ih (C := removed C s) (.removed _ _ hD) ⟨h.1, h.2, h.3, h.4, h.5, h.6⟩ hn hr h1 h2 ha

/-- **C91** (changed): a correct word becomes wrong only if some piece of it, in one of the spellings in which it is looked
up, is made from the stem by affixes. A piece is a part of the word behind ICONV, or of that without its final dots and
the ignored characters. -/
theorem C91_changed (hD : Reachable U C.dict) (h : ForbidApart C.dict)
    (hn : C.dict.aff.options.allowsCompounding = false) (hr : C.dict.aff.compoundRules.rules = [])
    (h1 : C.checkLowerAsTitle = false) (h2 : C.checkLowerAsUpper = false) {word : Str} (ha : Accepts C word)
    (hb : ¬ Accepts (removed C s) word) : ∃ text piece casing a steps,
      (text = C.aff.inputConversions.convert word ∨
        text = eraseChars (trimEndMatches '.' (C.aff.inputConversions.convert word)) C.aff.ignoreChars) ∧
      piece <:+: text ∧ HasCasing C.U piece casing ∧ a ∈ attempts C piece casing ∧ MadeBy C.dict s steps a.text := by
  obtain ⟨fuel, hf⟩ := ha
  obtain ⟨b, b', e, e', -, h3⟩ := Removal.check (s := s) h hn hr (C54_well_made hD).1 h1 h2 fuel word
  cases e.symm.trans hf
  have hne : true ≠ b' := by
    rintro rfl
    exact hb ⟨fuel, e'⟩
  rcases h3 hne with ⟨piece, hp, a, ha, steps, hm⟩ | ⟨piece, hp, a, ha, steps, hm⟩
  · exact ⟨_, piece, _, a, steps, .inl rfl, hp, classifyCasing_iff.1 rfl, ha, hm⟩
  · exact ⟨_, piece, _, a, steps, .inr rfl, hp, classifyCasing_iff.1 rfl, ha, hm⟩

/-- The dictionary of the examples. -/
def removalAff : String := "FORBIDDENWORD X\nKEEPCASE K\nNEEDAFFIX N\nSFX A Y 1\nSFX A 0 s .\nPFX B Y 1\nPFX B 0 re .\n"

/-- Removing `work` takes `works` and `rework` away, and the other words stay. -/
example : ∃ C, loadChecker removalAff "3\nwork/AB\nplay/A\niPod/K\n" = some C ∧ ForbidApart C.dict ∧
    C.dict.aff.options.allowsCompounding = false ∧ C.dict.aff.compoundRules.rules = [] ∧
    (∀ w ∈ ["work", "works", "Reworks", "plays", "play-work"], C.check 40 w.toList = .ok true) ∧
    (∀ w ∈ ["work", "works", "Reworks", "play-work"], (removed C "work".toList).check 40 w.toList = .ok false) ∧
    (removed C "work".toList).check 40 "plays".toList = .ok true := by
  obtain ⟨C, h1, h2⟩ := of_load (aff := removalAff) (dic := "3\nwork/AB\nplay/A\niPod/K\n") (L := .default)
    (p := fun C => decide (C.opts.needAffixFlag = some 78) && decide (C.opts.onlyInCompoundFlag = none) &&
      decide (C.opts.keepCaseFlag = some 75) && decide (C.opts.forbiddenWordFlag = 88) &&
      decide (∀ a ∈ C.dict.aff.prefixes.table, a.flag = 66) && decide (∀ a ∈ C.dict.aff.suffixes.table, a.flag = 65) &&
      decide (C.dict.aff.options.allowsCompounding = false) && decide (C.dict.aff.compoundRules.rules = []) &&
      decide (∀ w ∈ ["work", "works", "Reworks", "plays", "play-work"], C.check 40 w.toList = .ok true) &&
      decide (∀ w ∈ ["work", "works", "Reworks", "play-work"], (removed C "work".toList).check 40 w.toList = .ok false) &&
      decide ((removed C "work".toList).check 40 "plays".toList = .ok true)) (by decide +kernel)
  simp only [Bool.and_eq_true, decide_eq_true_eq, Checker.opts] at h2
  obtain ⟨⟨⟨⟨⟨⟨⟨⟨⟨⟨a, b⟩, c⟩, d⟩, e⟩, f⟩, g⟩, i⟩, j⟩, k⟩, l⟩ := h2
  refine ⟨C, h1, ⟨?_, ?_, ?_, ?_, fun x hx => ?_, fun x hx => ?_⟩, g, i, j, k, l⟩
  · rw [a, d]; decide
  · rw [b]; simp
  · rw [c, d]; decide
  · rw [d]; decide
  · rw [e x hx, d]; decide
  · rw [f x hx, d]; decide

/-- **C91** is false with compounds: `foobarbaz` is the compound of `foo` and `barbaz`, where `foo` has a flag which
makes it wrong. Without `foo` it is the compound of `foobar` and `baz`, which is right. -/
theorem C91_compounds : ∃ C, loadChecker "COMPOUNDFLAG C\nWARN W\nFORBIDWARN\nFORBIDDENWORD X\nBREAK 0\n"
      "4\nfoo/CW\nbarbaz/C\nfoobar/C\nbaz/C\n" = some C ∧ ForbidApart C.dict ∧ C.dict.aff.compoundRules.rules = [] ∧
    Rejects C "foobarbaz".toList ∧ Accepts (removed C "foo".toList) "foobarbaz".toList := by
  obtain ⟨C, h1, h2⟩ := of_load (aff := "COMPOUNDFLAG C\nWARN W\nFORBIDWARN\nFORBIDDENWORD X\nBREAK 0\n")
    (dic := "4\nfoo/CW\nbarbaz/C\nfoobar/C\nbaz/C\n") (L := .default)
    (p := fun C => decide (C.opts.needAffixFlag = none) && decide (C.opts.onlyInCompoundFlag = none) &&
      decide (C.opts.keepCaseFlag = none) && decide (C.opts.forbiddenWordFlag = 88) &&
      decide (C.dict.aff.prefixes.table = []) && decide (C.dict.aff.suffixes.table = []) &&
      decide (C.dict.aff.compoundRules.rules = []) &&
      decide (C.check 40 "foobarbaz".toList = .ok false) &&
      decide ((removed C "foo".toList).check 40 "foobarbaz".toList = .ok true)) (by decide +kernel)
  simp only [Bool.and_eq_true, decide_eq_true_eq, Checker.opts] at h2
  obtain ⟨⟨⟨⟨⟨⟨⟨⟨a, b⟩, c⟩, d⟩, e⟩, f⟩, g⟩, i⟩, j⟩ := h2
  refine ⟨C, h1, ⟨?_, ?_, ?_, ?_, fun x hx => ?_, fun x hx => ?_⟩, g, ⟨40, i⟩, ⟨40, j⟩⟩
  · rw [a]; simp
  · rw [b]; simp
  · rw [c]; simp
  · rw [d]; decide
  · rw [e] at hx; cases hx
  · rw [f] at hx; cases hx

/-- **C91** needs that the flag has no second use: if NEEDAFFIX has the same flag, `cat` is not forbidden by its removal but
passed over, and `cat` as a form of `ca` comes to light. -/
theorem C91_flag_needed : ∃ C, loadChecker
      "WARN W\nFORBIDWARN\nFORBIDDENWORD N\nNEEDAFFIX N\nSFX S Y 1\nSFX S 0 t .\n" "2\ncat/W\nca/S\n" = some C ∧
    C.dict.aff.options.allowsCompounding = false ∧ C.dict.aff.compoundRules.rules = [] ∧
    Rejects C "cat".toList ∧ Accepts (removed C "cat".toList) "cat".toList := by
  obtain ⟨C, h1, h2⟩ := of_load (aff := "WARN W\nFORBIDWARN\nFORBIDDENWORD N\nNEEDAFFIX N\nSFX S Y 1\nSFX S 0 t .\n")
    (dic := "2\ncat/W\nca/S\n") (L := .default)
    (p := fun C => decide (C.dict.aff.options.allowsCompounding = false) && decide (C.dict.aff.compoundRules.rules = []) &&
      decide (C.check 40 "cat".toList = .ok false) && decide ((removed C "cat".toList).check 40 "cat".toList = .ok true))
    (by decide +kernel)
  simp only [Bool.and_eq_true, decide_eq_true_eq] at h2
  obtain ⟨⟨⟨a, b⟩, c⟩, d⟩ := h2
  exact ⟨C, h1, a, b, ⟨40, c⟩, ⟨40, d⟩⟩

end Spellbook.Props
