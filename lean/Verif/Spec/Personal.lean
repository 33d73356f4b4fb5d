import Verif.Spec.Parser
import Verif.Spec.History
/-!
# Specification: a personal dictionary

A program keeps the lines a user has added in a file of its own, and adds them again one by one.
-/

namespace Spellbook.Spec

/-- `AddsAll U D lines D'`: the lines are added to `D` one after the other, none is refused, and `D'` is what
they make of it. -/
inductive AddsAll (U : Unicode) : Dict → List Str → Dict → Prop
  | done {D} : AddsAll U D [] D
  | next {D line D₁ lines D₂} : D.add U line = .ok D₁ → AddsAll U D₁ lines D₂ → AddsAll U D (line :: lines) D₂

/-- A line with an entry on it: it has no white space around it, is not blank and has no leading slash with
more behind it. -/
def EntryLine (U : Unicode) (line : Str) : Prop := Trimmed U line line ∧ ¬ SkippedLine line

/-- The hidden title-case twin which a line of a `.dic` text gets. -/
def TwinOf (U : Unicode) (A : AffData) (line : Str) (twin : Str × FlagSet) : Prop :=
  ∃ stem F, LineMeans U A.flagType A.flagAliases A.ignoreChars line stem F ∧
    HasTwin U A.options.forbiddenWordFlag stem F ∧ A.options.caseHandling.titlecase U stem = some twin.1 ∧
    ∀ f, twin.2.contains f = true ↔ F.contains f = true ∨ f = 65535

end Spellbook.Spec
