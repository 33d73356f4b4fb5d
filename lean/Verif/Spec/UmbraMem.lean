import Verif.Model.UmbraMem
/-!
# Specification of programs which use `UmbraSlice`

A variable holds a list of elements or was dropped; there is no memory. From the model only the data
types are used (and `Target.inlineLen`, `Target.bytes` to say which memory a program holds).
-/

namespace Spellbook.Spec
open Mem

/-- The targets: 32 and 64 bits, elements `u8` and `u16`, both orders of bytes. -/
def GoodTarget (t : Target) : Prop := (t.word = 4 ∨ t.word = 8) ∧ (t.elem = 1 ∨ t.elem = 2)

/-- An allocator returns addresses which fit a pointer and are not in use. -/
def GoodAllocator (t : Target) (A : Allocator) : Prop :=
  ∀ h size a, A h size = some a → (∀ block ∈ h, block.1 ≠ a) ∧ a < 256 ^ t.word

/-- The values given are values of the element type. -/
def Typed (t : Target) : Op → Prop
  | .create s => ∀ x ∈ s, x < 256 ^ t.elem
  | _ => True

/-- What an operation on lists does. -/
def sliceStep (vars : List (Option (List Nat))) : Op → List (Option (List Nat)) × Seen
  | .create s => if 65535 < s.length then (vars, .tooLong) else (vars ++ [some s], .done)
  | .default => (vars ++ [some []], .done)
  | .clone i =>
    match vars[i]? with
    | some (some s) => (vars ++ [some s], .done)
    | _ => (vars, .done)
  | .drop i =>
    match vars[i]? with
    | some (some _) => (vars.set i none, .done)
    | _ => (vars, .done)
  | .read i =>
    match vars[i]? with
    | some (some s) => (vars, .contents s)
    | _ => (vars, .done)
  | .eq i j =>
    match vars[i]?, vars[j]? with
    | some (some s), some (some s') => (vars, .equal (decide (s = s')))
    | _, _ => (vars, .done)

/-- What a program does. -/
def sliceRun (vars : List (Option (List Nat))) : List Op → List (Option (List Nat)) × List Seen
  | [] => (vars, [])
  | op :: ops =>
    let (vars, s) := sliceStep vars op
    let (vars, ss) := sliceRun vars ops
    (vars, s :: ss)

/-- The memory which variables with these contents need: one block for each which does not fit inline. -/
def blocks (t : Target) (vars : List (Option (List Nat))) : List (List Cell) :=
  ((vars.filterMap id).filter fun s => t.inlineLen < s.length).map fun s => (t.bytes s).map some

end Spellbook.Spec
