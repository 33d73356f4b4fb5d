import Verif.Model.Work
import Verif.Spec.Depth
/-!
# The work of `check`

Measured in searches for compounds: calls of `check_compound_impl` and `check_compound_with_rules_impl`.
-/

namespace Spellbook.Spec

/-- However long `C` is left to check the word, it starts at most `n` searches for compounds. -/
def WorkAtMost (C : Checker) (word : Str) (n : Nat) : Prop := ∀ fuel, (Work.check C fuel word).calls ≤ n

/-- `C` comes to an end with the word, but not before it has started `n` searches for compounds. -/
def WorkAtLeast (C : Checker) (word : Str) (n : Nat) : Prop :=
  ∃ enough, ∀ fuel ≥ enough, (Work.check C fuel word).result ≠ .error .fuel ∧ n ≤ (Work.check C fuel word).calls

/-- In how many ways the search may go on behind a place at which a word is split: as it is, or with the pattern
of a CHECKCOMPOUNDPATTERN line with a replacement put back, each with or without the letter dropped by
SIMPLIFIEDTRIPLE. -/
def ways (D : Dict) : Nat :=
  (1 + (D.aff.compoundPatterns.filter fun p => p.replacement.isSome).length) *
    (if D.aff.options.compoundSimplifiedTriple then 2 else 1)

/-- The searches for a text of `n` characters: with compound flags every way at every place, and with rules every
place, may double the work. -/
def searchesFor (D : Dict) (n : Nat) : Nat :=
  (if D.aff.options.allowsCompounding then (ways D + 1) ^ n else 0) + (if D.aff.compoundRules.rules = [] then 0 else 2 ^ n)

/-- How many lines BREAK has, where a text broken in the middle counts twice. -/
def breakCount (D : Dict) : Nat :=
  D.aff.breakTable.startBreaks.length + D.aff.breakTable.endBreaks.length + 2 * D.aff.breakTable.middleBreaks.length

end Spellbook.Spec
