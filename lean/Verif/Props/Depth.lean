import Verif.Proof.Depth
import Verif.Props.Happens
import Verif.Model.Api
/-!
# C79 How deep `check` calls itself
-/

namespace Spellbook.Props
open Spec

/-! ## C79 A bound on the depth -/

/-- **C79**: with a well-behaved dictionary (that of C26) the default checker never has more calls of the compound
search open than the letter-case variants of the word, behind ICONV, have characters, and one. -/
theorem C79_depth {C : Checker} {k : Nat} (hD : C.dict.Shrinking) (hU : CaseGrowth C.U k)
    (h1 : C.checkLowerAsTitle = false) (h2 : C.checkLowerAsUpper = false) (word : Str) {depth : Nat}
    (hd : k * (C.dict.aff.inputConversions.convert word).length < depth) : DepthAtMost C word depth :=
  Checker.check_endsBy hD hU word hd (by simp [h1, h2]) depth (Nat.le_refl _)

/-- **C79** (all checkers): where words in lower case are also tried in title case or in capitals, the letter case is
changed twice. -/
theorem C79_depth_all {C : Checker} {k : Nat} (hD : C.dict.Shrinking) (hU : CaseGrowth C.U k) (word : Str) {depth : Nat}
    (hd : k * (k * (C.dict.aff.inputConversions.convert word).length) < depth) : DepthAtMost C word depth :=
  Checker.check_endsBy hD hU word
    (Nat.lt_of_le_of_lt (Nat.le_mul_of_pos_left _ hU.pos) hd) (fun _ => hd) depth (Nat.le_refl _)

/-- **C79** (a constant): without ICONV, 1081 open calls are enough for the default checker, and 3241 for all others,
whatever the word: no input makes the recursion deeper. -/
theorem C79_constant {C : Checker} (hD : C.dict.Shrinking) (hU : CaseGrowth C.U 3)
    (hi : C.dict.aff.inputConversions = .empty) (word : Str) :
    DepthAtMost C word 3241 ∧
    (C.checkLowerAsTitle = false → C.checkLowerAsUpper = false → DepthAtMost C word 1081) := by
  by_cases h : byteLen word > maxWordLen
  · have : ∀ d, DepthAtMost C word d := fun d => by
      unfold DepthAtMost Checker.check; rw [if_pos h]; simp
    exact ⟨this _, fun _ _ => this _⟩
  · have h1 : word.length ≤ 360 := by
      have := length_le_byteLen word
      unfold maxWordLen at h
      omega
    have h2 : (C.dict.aff.inputConversions.convert word).length ≤ 360 := by rw [hi]; exact h1
    exact ⟨C79_depth_all hD hU word (by omega), fun h3 h4 => C79_depth hD hU h3 h4 word (by omega)⟩

/-- **C79** (exceptions): for other dictionaries no depth is enough, even if they are loaded from texts. -/
theorem C79_no_depth : ∃ D, Reachable .sample D ∧ ∀ depth, ¬ DepthAtMost (D.checker .sample .default) "aax".toList depth := by
  obtain ⟨D, h1, h2⟩ := C26_triple_loaded
  exact ⟨D, .loaded h1, fun depth h => h (h2 depth)⟩

/-! ## Cases that meet the hypotheses -/

/-- The case mappings of the examples have at most two characters. -/
theorem C79_sample_growth : CaseGrowth .sample 2 where
  pos := by decide
  lower c := by
    show (if c = 'İ' then ['i', '̇'] else if c = 'Ⱥ' then ['ⱥ'] else [c.toLower]).length ≤ 2
    split
    · decide
    · split <;> simp
  upper c := by
    show (if c = 'ß' then ['S', 'S'] else if c = 'ı' then ['I'] else if c = 'ⱥ' then ['Ⱥ'] else [c.toUpper]).length ≤ 2
    split
    · decide
    · split
      · simp
      · split <;> simp

/-- The word `a` in compounds of any length. -/
def chainChecker : Checker :=
  mkChecker [("a", [1])] { flagType := .numeric, options := { compoundFlag := some 1, compoundMinLength := some 1 } }

example : chainChecker.dict.Shrinking := ⟨by decide, by decide, by intro c hc; cases hc⟩

/-- The depth is really used: seven letters, seven open calls. -/
example : ¬ DepthAtMost chainChecker "aaaaaax".toList 6 ∧ DepthAtMost chainChecker "aaaaaax".toList 7 := by
  unfold DepthAtMost
  decide +kernel

end Spellbook.Props
