import Verif.Model.Casing
import Verif.Spec.Casing

namespace Spellbook
open Spec

theorem countCases_aux (U : Unicode) (w : Str) (a b : Nat) :
    w.foldl (init := (a, b)) (fun (upper, lower) ch =>
      (if U.isUpper ch then upper + 1 else upper, if U.isLower ch then lower + 1 else lower))
    = (a + w.countP U.isUpper, b + w.countP U.isLower) := by
  induction w generalizing a b with
  | nil => simp
  | cons c w ih =>
    simp only [List.foldl_cons, List.countP_cons]
    rw [ih]
    congr 1
    · split <;> omega
    · split <;> omega

theorem countCases_eq (U : Unicode) (w : Str) :
    countCases U w = (w.countP U.isUpper, w.countP U.isLower) := by
  rw [countCases, countCases_aux]; simp

theorem classifyCasing?_iff {U : Unicode} {w : Str} {c : Casing} :
    classifyCasing? U w = some c ↔ HasCasing U w c := by
  unfold classifyCasing?
  rw [countCases_eq]
  dsimp only
  cases w with
  | nil => cases c <;> simp [HasCasing]
  | cons x r =>
    have hu : (x :: r).countP U.isUpper = r.countP U.isUpper + if U.isUpper x then 1 else 0 :=
      List.countP_cons
    have hrz : r.countP U.isUpper = 0 ↔ ∀ y ∈ r, U.isUpper y = false := by
      rw [List.countP_eq_zero]; simp
    have hrp : r.countP U.isUpper ≠ 0 ↔ ∃ y ∈ r, U.isUpper y = true := by
      rw [ne_eq, List.countP_eq_zero]; simp
    have hlz : (x :: r).countP U.isLower = 0 ↔ ∀ y ∈ x :: r, U.isLower y = false := by
      rw [List.countP_eq_zero]; simp
    have hlp : (x :: r).countP U.isLower ≠ 0 ↔ ∃ y ∈ x :: r, U.isLower y = true := by
      rw [ne_eq, hlz]; simp only [Classical.not_forall, Bool.not_eq_false, exists_prop]
    have hinit : (∃ c r', x :: r = c :: r' ∧ U.isUpper c = true ∧ ∀ y ∈ r', U.isUpper y = false)
        ↔ U.isUpper x = true ∧ r.countP U.isUpper = 0 := by
      rw [hrz]
      constructor
      · rintro ⟨c, r', h, h1, h2⟩; cases h; exact ⟨h1, h2⟩
      · rintro ⟨h1, h2⟩; exact ⟨x, r, rfl, h1, h2⟩
    have hpas : (∃ c r', x :: r = c :: r' ∧ U.isUpper c = true ∧ ∃ y ∈ r', U.isUpper y = true)
        ↔ U.isUpper x = true ∧ r.countP U.isUpper ≠ 0 := by
      rw [hrp]
      constructor
      · rintro ⟨c, r', h, h1, h2⟩; cases h; exact ⟨h1, h2⟩
      · rintro ⟨h1, h2⟩; exact ⟨x, r, rfl, h1, h2⟩
    have hcam : (∃ c r', x :: r = c :: r' ∧ U.isUpper c = false ∧ ∃ y ∈ r', U.isUpper y = true)
        ↔ U.isUpper x = false ∧ r.countP U.isUpper ≠ 0 := by
      rw [hrp]
      constructor
      · rintro ⟨c, r', h, h1, h2⟩; cases h; exact ⟨h1, h2⟩
      · rintro ⟨h1, h2⟩; exact ⟨x, r, rfl, h1, h2⟩
    have hnone : (∀ y ∈ x :: r, U.isUpper y = false) ↔ U.isUpper x = false ∧ r.countP U.isUpper = 0 := by
      rw [hrz]; simp
    have hex : (∃ y ∈ x :: r, U.isUpper y = true) ↔ U.isUpper x = true ∨ r.countP U.isUpper ≠ 0 := by
      rw [hrp]; simp
    have e0 : HasCasing U (x :: r) .none ↔ U.isUpper x = false ∧ r.countP U.isUpper = 0 := hnone
    have e1 : HasCasing U (x :: r) .init ↔ U.isUpper x = true ∧ r.countP U.isUpper = 0 := hinit
    have e2 : HasCasing U (x :: r) .all ↔ (U.isUpper x = true ∨ r.countP U.isUpper ≠ 0) ∧
        (x :: r).countP U.isLower = 0 ∧ ¬ (U.isUpper x = true ∧ r.countP U.isUpper = 0) := by
      rw [hlz, ← hinit, ← hex]; rfl
    have e3 : HasCasing U (x :: r) .pascal ↔ (x :: r).countP U.isLower ≠ 0 ∧
        U.isUpper x = true ∧ r.countP U.isUpper ≠ 0 := by
      rw [hlp, ← hpas]; rfl
    have e4 : HasCasing U (x :: r) .camel ↔ (x :: r).countP U.isLower ≠ 0 ∧
        U.isUpper x = false ∧ r.countP U.isUpper ≠ 0 := by
      rw [hlp, ← hcam]; rfl
    rw [hu]
    generalize (x :: r).countP U.isLower = lo at *
    generalize r.countP U.isUpper = up at *
    simp only [List.head?_cons]
    cases hx : U.isUpper x <;> cases c <;> simp only [e0, e1, e2, e3, e4, hx] <;>
      by_cases hl : lo = 0 <;> by_cases hup : up = 0 <;> simp [hl, hup]

theorem classifyCasing?_isSome (U : Unicode) (w : Str) : (classifyCasing? U w).isSome := by
  unfold classifyCasing?
  rw [countCases_eq]
  dsimp only
  cases w with
  | nil => simp
  | cons x r =>
    simp only [List.head?_cons]
    split
    · rfl
    · split
      · rfl
      · split
        · rfl
        · split <;> rfl

theorem classifyCasing?_eq (U : Unicode) (w : Str) : classifyCasing? U w = some (classifyCasing U w) := by
  have := classifyCasing?_isSome U w
  unfold classifyCasing
  cases h : classifyCasing? U w with
  | none => rw [h] at this; simp at this
  | some c => rfl

theorem classifyCasing_iff {U : Unicode} {w : Str} {c : Casing} :
    classifyCasing U w = c ↔ HasCasing U w c := by
  rw [← classifyCasing?_iff, classifyCasing?_eq]; simp

theorem mem_eraseChars {w : Str} {ig : List Char} {c : Char} (h : c ∈ eraseChars w ig) : c ∉ ig := by
  unfold eraseChars at h
  split at h
  · rename_i he; simp at he; simp [he]
  · simpa using (List.mem_filter.1 h).2

theorem eraseChars_eq (w : Str) (ig : List Char) : eraseChars w ig = w.filter (fun c => c ∉ ig) := by
  unfold eraseChars
  split
  · rename_i he
    simp at he
    symm; rw [List.filter_eq_self]; simp [he]
  · apply List.filter_congr; intro c _; by_cases h : c ∈ ig <;> simp [h]

end Spellbook
