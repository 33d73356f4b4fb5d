import Verif.Proof.Display
import Verif.Props.Faults
/-!
# Properties of the messages of errors: C74
-/

namespace Spellbook.Props
open Spec

/-- **C74**: different errors have different messages, so the message tells the file, the line and what is
wrong, down to the offending character, number or word. -/
theorem C74_message {e e' : ParseError} (h : e.show = e'.show) : e = e' := parseError_inj h

/-- The same for the errors of `add`. -/
theorem C74_add_message {e e' : FlagError} (h : e.show = e'.show) : e = e' := flagError_inj h

/-- The number of the line, which counts from 1, stands in the message in decimal digits. -/
theorem C74_line {e : ParseError} {n : Nat} (h : e.lineNumber = some n) :
    ∃ before w after, e.show = before ++ " file on line ".toList ++ w ++ ": ".toList ++ after ∧ IsNumeral w n ∧
      w.head? ≠ some '+' := by
  obtain ⟨h1, h2, h3⟩ := showNat_digits n
  refine ⟨"failed to parse ".toList ++ e.source.show, showNat n, e.kind.show, ?_, ⟨_, .inl rfl, h1, h2, h3.symm⟩, ?_⟩
  · unfold ParseError.show
    rw [h]
  · intro hp
    have := h2 '+' (List.mem_of_mem_head? hp)
    revert this
    decide

/-- With C72: two faulty `.aff` texts with the same message have the same fault in a line of the same number. -/
theorem C74_fault {U : Unicode} {S : Sorts} {aff dic aff' dic' : Str} {e e' : ParseError}
    (h : parse U S aff dic = .error (.error e)) (h' : parse U S aff' dic' = .error (.error e')) (hm : e.show = e'.show)
    {number : Option Nat} {kind : ErrorKind} (hf : AffFault U aff number kind) : AffFault U aff' number kind := by
  cases parseError_inj hm
  have h1 := (C72_aff (S := S) (dic := dic)).2 hf
  rw [h, Except.error.injEq, Halt.error.injEq] at h1
  subst h1
  exact C72_aff.1 h'

-- The messages of two parsed texts.
example : (ParseError.mk (.malformedCondition .unclosedCharacterClass) .aff (some 4)).show
    = "failed to parse .aff file on line 4: condition is malformed: opening bracket has no matching closing bracket".toList := by
  decide +kernel
example : (ParseError.mk (.mismatchedRowCount 12 3) .dic none).show
    = "failed to parse .dic file: expected 12 rows but found 3".toList := by decide +kernel
example : parse .sample .default wrongAff [] = .error (.error ⟨.malformedCondition .unclosedCharacterClass, .aff, some 4⟩) :=
  C72_aff.2 wrongAff_fault
example : (ParseError.mk (.mismatchedArity 1 0) .dic (some 10)).show ≠ (ParseError.mk (.mismatchedArity 1 0) .dic (some 1)).show :=
  fun h => by cases C74_message h

end Spellbook.Props
