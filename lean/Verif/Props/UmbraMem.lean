import Verif.Proof.UmbraMem
/-!
# C62 Memory safety of `UmbraSlice`

A program creates, copies, drops, reads and compares `UmbraSlice`s in any order (`Mem.run`, on bytes and
blocks of memory). It sees what a program on plain lists sees (`Spec.sliceRun`).
-/

namespace Spellbook.Props
open Spec Mem

/-- **C62**: for every target, allocator and program, nothing is undefined behaviour and nothing panics; the
only way to stop is an allocator which refuses. -/
theorem C62_no_undefined_behaviour {t : Target} (ht : GoodTarget t) {A : Allocator} (hA : GoodAllocator t A)
    (ops : List Op) (ho : ∀ op ∈ ops, Typed t op) {f : Fault} (h : run t A [] ops [] = .error f) :
    f = .abort ∧ ∃ heap size, A heap size = none := by
  have := run_ok (facts ht) hA ops (sp := []) ⟨.nil, .nil, .nil⟩ ho
  rw [h] at this
  exact this

/-- **C62**: the program sees what it would see on lists, and at its end memory consists of one block for each
variable which is not dropped and does not fit inline, with its contents, at different addresses. -/
theorem C62_program {t : Target} (ht : GoodTarget t) {A : Allocator} (hA : GoodAllocator t A)
    (ops : List Op) (ho : ∀ op ∈ ops, Typed t op) {vars : Vars} {seen : List Seen} {heap : Heap}
    (h : run t A [] ops [] = .ok ((vars, seen), heap)) :
    seen = (sliceRun [] ops).2 ∧ (heap.map (·.2)).Perm (blocks t (sliceRun [] ops).1) ∧
      (heap.map (·.1)).Nodup := by
  have := run_ok (facts ht) hA ops (sp := []) ⟨.nil, .nil, .nil⟩ ho
  rw [h] at this
  obtain ⟨sp, hi, hs⟩ := this
  rw [List.map_nil] at hs
  rw [← hs]
  exact ⟨rfl, hi.blocks, hi.nodup⟩

/-- **C62** (no leak): if every variable was dropped, no memory is left. -/
theorem C62_no_leak {t : Target} (ht : GoodTarget t) {A : Allocator} (hA : GoodAllocator t A)
    (ops : List Op) (ho : ∀ op ∈ ops, Typed t op) {vars : Vars} {seen : List Seen} {heap : Heap}
    (h : run t A [] ops [] = .ok ((vars, seen), heap)) (hd : ∀ v ∈ (sliceRun [] ops).1, v = none) : heap = [] := by
  have h1 := (C62_program ht hA ops ho h).2.1
  have h2 : (sliceRun [] ops).1.filterMap id = [] := by
    rw [List.filterMap_eq_nil_iff]
    exact hd
  rw [blocks, h2] at h1
  simpa using h1

/-- An allocator which takes the next free address. -/
def nextFree (t : Target) : Allocator := fun h _ =>
  let a := (h.map (·.1)).foldl max 0 + 1
  if a < 256 ^ t.word then some a else none

theorem le_foldl_max (l : List Nat) : ∀ {m x : Nat}, (x ≤ m ∨ x ∈ l) → x ≤ l.foldl max m := by
  induction l with
  | nil => intro m x h; simpa using h
  | cons y l ih =>
    intro m x h
    refine ih ?_
    rcases h with h | h
    · exact .inl (Nat.le_trans h (Nat.le_max_left _ _))
    · rcases List.mem_cons.1 h with rfl | h
      · exact .inl (Nat.le_max_right _ _)
      · exact .inr h

theorem nextFree_good (t : Target) : GoodAllocator t (nextFree t) := by
  intro h size a ha
  simp only [nextFree, Option.ite_none_right_eq_some, Option.some.injEq] at ha
  obtain ⟨h1, rfl⟩ := ha
  refine ⟨fun b hb e => ?_, h1⟩
  have := le_foldl_max (h.map (·.1)) (m := 0) (.inr (List.mem_map.2 ⟨b, hb, rfl⟩))
  omega

/-- A program on a 64-bit target with `u16` elements: seven elements fit inline, eight do not. -/
def sampleProgram : List Op :=
  [.create [1, 2, 3, 4, 5, 6, 7], .create [1, 2, 3, 4, 5, 6, 7, 65535], .clone 1, .eq 1 2, .eq 0 1, .drop 1, .read 2,
   .create [1, 2, 3, 4, 5, 6, 7, 9], .eq 2 3, .clone 1, .eq 3 3, .drop 0]

/-- It meets the hypotheses and runs to its end; the dropped variable 1 is not copied. -/
example : GoodTarget ⟨8, 2, false⟩ ∧ (∀ op ∈ sampleProgram, Typed ⟨8, 2, false⟩ op) ∧
    ((run ⟨8, 2, false⟩ (nextFree ⟨8, 2, false⟩) [] sampleProgram []).map fun r => (r.1.2, r.2.map (·.1))) =
      .ok ([.done, .done, .done, .equal true, .equal false, .done, .contents [1, 2, 3, 4, 5, 6, 7, 65535], .done,
        .equal false, .done, .equal true, .done], [3, 2]) := by
  refine ⟨⟨.inr rfl, .inr rfl⟩, ?_, by decide +kernel⟩
  simp [sampleProgram, Typed]

end Spellbook.Props
