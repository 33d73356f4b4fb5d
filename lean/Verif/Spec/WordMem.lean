import Verif.Spec.UmbraMem
import Verif.Model.WordMem
import Mathlib.Data.List.Dedup
/-!
# Specification of programs which use word lists

A word list is a list of pairs of a text and flags, or was dropped; there is no memory, no table and no hash. From
the model only the data types are used (and `Target.inlineLen` to say how much memory a program holds).
-/

namespace Spellbook.Spec
open Mem

/-- 32 and 64 bits, both orders of bytes. -/
def GoodMachine (M : Machine) : Prop := M.word = 4 ∨ M.word = 8

/-- An allocator returns addresses which fit a pointer and are not in use. -/
def GoodMemory (M : Machine) (A : Allocator) : Prop :=
  ∀ h size a, A h size = some a → (∀ block ∈ h, block.1 ≠ a) ∧ a < 256 ^ M.word

/-- Texts of at most `u16::MAX` bytes are inserted (longer ones are rejected when the line is read), with flags
which are `NonZeroU16`. -/
def WordTyped : WordOp → Prop
  | .insert _ stem flags => (utf8 stem).length ≤ 65535 ∧ ∀ f ∈ flags, 1 ≤ f ∧ f ≤ 65535
  | .remove _ _ flag => 1 ≤ flag ∧ flag ≤ 65535
  | _ => True

/-- The word lists: pairs of a text and flags. -/
abbrev Lists := List (Option (List (Str × List Nat)))

/-- What an operation does. -/
def wordStepSpec (vars : Lists) : WordOp → Lists × WordSeen
  | .new => (vars ++ [some []], .done)
  | .insert i stem flags =>
    match vars[i]? with
    | some (some es) => (vars.set i (some (es ++ [(stem, flags)])), .done)
    | _ => (vars, .done)
  | .find i key =>
    match vars[i]? with
    | some (some es) => (vars, .entries (es.filter fun e => e.1 = key))
    | _ => (vars, .done)
  | .iter i =>
    match vars[i]? with
    | some (some es) => (vars, .entries es)
    | _ => (vars, .done)
  | .len i =>
    match vars[i]? with
    | some (some es) => (vars, .count es.length)
    | _ => (vars, .done)
  | .remove i key flag =>
    match vars[i]? with
    | some (some es) =>
      (vars.set i (some (es.map fun e => if e.1 = key then (e.1, flag :: e.2) else e)),
        .removed (es.any fun e => e.1 = key ∧ flag ∉ e.2))
    | _ => (vars, .done)
  | .clone i =>
    match vars[i]? with
    | some (some es) => (vars ++ [some es], .done)
    | _ => (vars, .done)
  | .drop i =>
    match vars[i]? with
    | some (some _) => (vars.set i none, .done)
    | _ => (vars, .done)

/-- What a program does. -/
def wordRunSpec (vars : Lists) : List WordOp → Lists × List WordSeen
  | [] => (vars, [])
  | op :: ops =>
    let (vars, s) := wordStepSpec vars op
    let (vars, ss) := wordRunSpec vars ops
    (vars, s :: ss)

/-- The same text, and the flags in increasing order, each once. -/
def SameText (x e : Str × List Nat) : Prop :=
  x.1 = e.1 ∧ x.2.Pairwise (· < ·) ∧ ∀ f, f ∈ x.2 ↔ f ∈ e.2

/-- The program sees this: the entries in some order, all else exactly. -/
inductive Sees : WordSeen → WordSeen → Prop
  | done : Sees .done .done
  | count {n} : Sees (.count n) (.count n)
  | removed {b} : Sees (.removed b) (.removed b)
  | entries {xs ys es} : xs.Perm ys → List.Forall₂ SameText ys es → Sees (.entries xs) (.entries es)

/-- The number of blocks of memory for these word lists: one for each text with more bytes than fit inline and one
for each flag set with more flags than fit inline. -/
def blockCount (M : Machine) (vars : Lists) : Nat :=
  ((vars.filterMap id).flatten.map fun e =>
    (if M.texts.inlineLen < (utf8 e.1).length then 1 else 0) +
      (if M.flags.inlineLen < e.2.dedup.length then 1 else 0)).sum

end Spellbook.Spec
