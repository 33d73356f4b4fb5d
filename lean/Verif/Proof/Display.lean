import Verif.Model.Display
import Verif.Spec.FlagText
import Mathlib.Order.Basic
import Mathlib.Algebra.Order.Group.Nat
/-!
# Proofs about the messages of errors
-/

namespace Spellbook
open Spec

theorem digit_value {n : Nat} (h : n < 10) : (Char.ofNat (48 + n)).toNat = 48 + n := by
  have : (48 + n).isValidChar := by simp [Nat.isValidChar]; omega
  simp [Char.ofNat, this, Char.toNat, Char.ofNatAux]
  omega

theorem digit_range {n : Nat} (h : n < 10) : '0' ≤ Char.ofNat (48 + n) ∧ Char.ofNat (48 + n) ≤ '9' := by
  have e := digit_value h
  constructor <;> (rw [Char.le_def, UInt32.le_iff_toNat_le]; unfold Char.toNat at e; rw [e]; simp <;> omega)

theorem showNat_digits (n : Nat) : showNat n ≠ [] ∧ (∀ c ∈ showNat n, '0' ≤ c ∧ c ≤ '9') ∧ decimal (showNat n) = n := by
  induction n using Nat.strongRecOn with
  | _ n ih =>
    rw [showNat]
    split
    · rename_i h
      refine ⟨by simp, fun c hc => ?_, ?_⟩
      · rw [List.mem_singleton.1 hc]; exact digit_range h
      · simp [decimal, digit_value h]
    · rename_i h
      obtain ⟨h1, h2, h3⟩ := ih (n / 10) (by omega)
      refine ⟨by simp, fun c hc => ?_, ?_⟩
      · rcases List.mem_append.1 hc with hc | hc
        · exact h2 c hc
        · rw [List.mem_singleton.1 hc]; exact digit_range (Nat.mod_lt _ (by omega))
      · unfold decimal at h3 ⊢
        rw [List.foldl_append, h3]
        simp only [List.foldl_cons, List.foldl_nil, digit_value (Nat.mod_lt n (show 10 > 0 by omega))]
        omega

theorem showNat_inj {n m : Nat} (h : showNat n = showNat m) : n = m := by
  rw [← (showNat_digits n).2.2, ← (showNat_digits m).2.2, h]

/-- Two texts that consist of characters with `p` and are followed by one without are equal if the
whole is. -/
theorem span_inj {α : Type} {p : α → Prop} {a b : List α} {x y : α} {s t : List α} (ha : ∀ c ∈ a, p c) (hb : ∀ c ∈ b, p c)
    (hx : ¬ p x) (hy : ¬ p y) (h : a ++ x :: s = b ++ y :: t) : a = b ∧ x = y ∧ s = t := by
  induction a generalizing b with
  | nil =>
    cases b with
    | nil => simpa using h
    | cons c b =>
      rw [List.nil_append, List.cons_append, List.cons.injEq] at h
      exact absurd (h.1 ▸ hb c (by simp)) hx
  | cons c a ih =>
    cases b with
    | nil =>
      rw [List.nil_append, List.cons_append, List.cons.injEq] at h
      exact absurd (h.1 ▸ ha c (by simp)) hy
    | cons d b =>
      rw [List.cons_append, List.cons_append, List.cons.injEq] at h
      obtain ⟨h1, h2⟩ := ih (b := b) (fun c hc => ha c (by simp [hc])) (fun c hc => hb c (by simp [hc])) h.2
      exact ⟨by rw [h.1, h1], h2⟩

theorem showNat_span {n m : Nat} {x y : Char} {s t : Str} (hx : ¬ ('0' ≤ x ∧ x ≤ '9')) (hy : ¬ ('0' ≤ y ∧ y ≤ '9'))
    (h : showNat n ++ x :: s = showNat m ++ y :: t) : n = m ∧ x = y ∧ s = t := by
  obtain ⟨h1, h2⟩ := span_inj (showNat_digits n).2.1 (showNat_digits m).2.1 hx hy h
  exact ⟨showNat_inj h1, h2⟩

/-- Texts which differ in their first characters are different. -/
theorem take_ne {a b : Str} (k : Nat) (h : decide (a.take k = b.take k) = false) : a ≠ b := by
  rintro rfl
  simp at h

theorem intError_inj {e e' : IntError} (h : e.show = e'.show) : e = e' := by
  cases e <;> cases e' <;> first | rfl | exact absurd h (take_ne 1 rfl)

theorem flagError_inj {e e' : FlagError} (h : e.show = e'.show) : e = e' := by
  cases e with
  | parseInt i =>
    cases e' with
    | parseInt j => rw [intError_inj (e := i) (e' := j) h]
    | _ => cases i <;> exact absurd h (take_ne 5 rfl)
  | nonAscii c =>
    cases e' with
    | nonAscii d =>
      have := List.append_cancel_left (as := "expected ascii char, found ".toList) h
      rw [(List.cons.inj this).1]
    | parseInt j => cases j <;> exact absurd h (take_ne 10 rfl)
    | _ => exact absurd h (take_ne 10 rfl)
  | _ => cases e' with
    | parseInt j => cases j <;> exact absurd h (take_ne 10 rfl)
    | _ => first | rfl | exact absurd h (take_ne 10 rfl)

theorem ruleError_inj {e e' : RuleError} (h : e.show = e'.show) : e = e' := by
  cases e <;> cases e'
  · rw [flagError_inj (List.append_cancel_left (as := "failed to parse flag: ".toList) h)]
  · exact absurd h (take_ne 1 rfl)
  · exact absurd h (take_ne 1 rfl)
  · rfl

theorem conditionError_inj {e e' : ConditionError} (h : e.show = e'.show) : e = e' := by
  cases e <;> cases e' <;> first | rfl | exact absurd h (take_ne 1 rfl)

theorem digit_not (x : Char) (h : decide ('0' ≤ x ∧ x ≤ '9') = false) : ¬ ('0' ≤ x ∧ x ≤ '9') := of_decide_eq_false h

theorem flagType_ne (s t : Str) (n : Nat) :
    "expected FLAG to be `long`, `num` or `UTF-8` if set, found ".toList ++ s ≠ "expected ".toList ++ (showNat n ++ t) := by
  intro h
  have h := List.append_cancel_left (as := "expected ".toList)
    (bs := "FLAG to be `long`, `num` or `UTF-8` if set, found ".toList ++ s) h
  obtain ⟨h1, h2, -⟩ := showNat_digits n
  cases hn : showNat n with
  | nil => exact h1 hn
  | cons c r =>
    rw [hn] at h
    have hc := (List.cons.inj (head := 'F') h).1
    have := h2 c (by rw [hn]; simp)
    rw [← hc] at this
    revert this
    decide

theorem counts_inj {n n' m m' : Nat} {a b : Str}
    (h : "expected ".toList ++ showNat n ++ (' ' :: a) ++ showNat m = "expected ".toList ++ showNat n' ++ (' ' :: b) ++ showNat m') :
    n = n' ∧ a ++ showNat m = b ++ showNat m' := by
  simp only [List.append_assoc] at h
  have h3 := List.append_cancel_left h
  obtain ⟨h1, -, h2⟩ := showNat_span (x := ' ') (y := ' ') (by decide) (by decide) h3
  exact ⟨h1, h2⟩

theorem arguments_eq : " arguments but found ".toList = ' ' :: "arguments but found ".toList := by decide

theorem rows_eq : " rows but found ".toList = ' ' :: "rows but found ".toList := by decide

theorem show_flagType (s : Str) : (ErrorKind.unknownFlagType s).show
    = "expected FLAG to be `long`, `num` or `UTF-8` if set, found ".toList ++ s := by delta ErrorKind.show; rfl

theorem show_arity (n m : Nat) : (ErrorKind.mismatchedArity n m).show
    = "expected ".toList ++ showNat n ++ " arguments but found ".toList ++ showNat m := by delta ErrorKind.show; rfl

theorem show_rows (n m : Nat) : (ErrorKind.mismatchedRowCount n m).show
    = "expected ".toList ++ showNat n ++ " rows but found ".toList ++ showNat m := by delta ErrorKind.show; rfl

theorem errorKind_inj {e e' : ErrorKind} (h : e.show = e'.show) : e = e' := by
  cases e with
  | unknownFlagType s =>
    cases e' with
    | unknownFlagType t =>
      simp only [show_flagType, show_arity, show_rows] at h
      rw [List.append_cancel_left h]
    | mismatchedArity n m =>
      simp only [show_flagType, show_arity, show_rows, List.append_assoc] at h
      exact absurd h (flagType_ne s (" arguments but found ".toList ++ showNat m) n)
    | mismatchedRowCount n m =>
      simp only [show_flagType, show_arity, show_rows, List.append_assoc] at h
      exact absurd h (flagType_ne s (" rows but found ".toList ++ showNat m) n)
    | malformedNumber j => cases j <;> exact absurd h (take_ne 3 rfl)
    | _ => exact absurd h (take_ne 3 rfl)
  | mismatchedArity n m =>
    cases e' with
    | unknownFlagType s =>
      simp only [show_flagType, show_arity, show_rows, List.append_assoc] at h
      exact absurd h.symm (flagType_ne s (" arguments but found ".toList ++ showNat m) n)
    | mismatchedArity n' m' =>
      simp only [show_flagType, show_arity, show_rows, arguments_eq, rows_eq] at h
      obtain ⟨rfl, h2⟩ := counts_inj h
      rw [showNat_inj (List.append_cancel_left h2)]
    | mismatchedRowCount n' m' =>
      simp only [show_flagType, show_arity, show_rows, arguments_eq, rows_eq] at h
      obtain ⟨-, h2⟩ := counts_inj h
      exact absurd h2 (take_ne 1 rfl)
    | malformedNumber j => cases j <;> exact absurd h (take_ne 3 rfl)
    | _ => exact absurd h (take_ne 3 rfl)
  | mismatchedRowCount n m =>
    cases e' with
    | unknownFlagType s =>
      simp only [show_flagType, show_arity, show_rows, List.append_assoc] at h
      exact absurd h.symm (flagType_ne s (" rows but found ".toList ++ showNat m) n)
    | mismatchedArity n' m' =>
      simp only [show_flagType, show_arity, show_rows, arguments_eq, rows_eq] at h
      obtain ⟨-, h2⟩ := counts_inj h
      exact absurd h2 (take_ne 1 rfl)
    | mismatchedRowCount n' m' =>
      simp only [show_flagType, show_arity, show_rows, arguments_eq, rows_eq] at h
      obtain ⟨rfl, h2⟩ := counts_inj h
      rw [showNat_inj (List.append_cancel_left h2)]
    | malformedNumber j => cases j <;> exact absurd h (take_ne 3 rfl)
    | _ => exact absurd h (take_ne 3 rfl)
  | malformedNumber i =>
    cases e' with
    | malformedNumber j => rw [intError_inj (e := i) (e' := j) h]
    | _ => cases i <;> exact absurd h (take_ne 3 rfl)
  | malformedFlag i =>
    cases e' with
    | malformedFlag j => rw [flagError_inj (List.append_cancel_left (as := "flag is malformed: ".toList) h)]
    | malformedNumber j => cases j <;> exact absurd h (take_ne 3 rfl)
    | _ => exact absurd h (take_ne 3 rfl)
  | malformedCompoundRule i =>
    cases e' with
    | malformedCompoundRule j => rw [ruleError_inj (List.append_cancel_left (as := "compound rule is malformed: ".toList) h)]
    | malformedNumber j => cases j <;> exact absurd h (take_ne 3 rfl)
    | _ => exact absurd h (take_ne 3 rfl)
  | malformedCondition i =>
    cases e' with
    | malformedCondition j => rw [conditionError_inj (List.append_cancel_left (as := "condition is malformed: ".toList) h)]
    | malformedNumber j => cases j <;> exact absurd h (take_ne 3 rfl)
    | _ => exact absurd h (take_ne 3 rfl)
  | malformedAffix =>
    cases e' with
    | malformedAffix => rfl
    | malformedNumber j => cases j <;> exact absurd h (take_ne 3 rfl)
    | _ => exact absurd h (take_ne 3 rfl)
  | wordTooLong =>
    cases e' with
    | wordTooLong => rfl
    | malformedNumber j => cases j <;> exact absurd h (take_ne 3 rfl)
    | _ => exact absurd h (take_ne 3 rfl)

theorem parseError_inj {e e' : ParseError} (h : e.show = e'.show) : e = e' := by
  obtain ⟨kind, source, number⟩ := e
  obtain ⟨kind', source', number'⟩ := e'
  unfold ParseError.show at h
  have key : ∀ (s s' : Source) (a b : Str), "failed to parse ".toList ++ (s.show ++ a) = "failed to parse ".toList ++ (s'.show ++ b) →
      s = s' ∧ a = b := by
    intro s s' a b h
    have h := List.append_cancel_left h
    cases s <;> cases s'
    · exact ⟨rfl, List.append_cancel_left h⟩
    · exact absurd h (take_ne 2 rfl)
    · exact absurd h (take_ne 2 rfl)
    · exact ⟨rfl, List.append_cancel_left h⟩
  cases number with
  | none =>
    cases number' with
    | none =>
      simp only [List.append_assoc] at h
      obtain ⟨rfl, h1⟩ := key _ _ _ _ h
      rw [errorKind_inj (List.append_cancel_left h1)]
    | some m =>
      simp only [List.append_assoc] at h
      obtain ⟨rfl, h1⟩ := key _ _ _ _ h
      exact absurd h1 (take_ne 6 rfl)
  | some n =>
    cases number' with
    | none =>
      simp only [List.append_assoc] at h
      obtain ⟨rfl, h1⟩ := key _ _ _ _ h
      exact absurd h1 (take_ne 6 rfl)
    | some m =>
      simp only [List.append_assoc] at h
      obtain ⟨rfl, h1⟩ := key _ _ _ _ h
      have h2 := List.append_cancel_left h1
      have e : ": ".toList = [':', ' '] := by decide
      rw [e] at h2
      obtain ⟨rfl, -, h3⟩ := showNat_span (by decide) (by decide) h2
      rw [errorKind_inj (List.cons.inj h3).2]

end Spellbook
