import Verif.Model.Umbra

namespace Spellbook.Umbra

theorem asSlice_tryFrom {P S : Nat} {s : List Nat} (h : s.length ≤ 65535) :
    (tryFrom P S s).bind (asSlice P S) = some s := by
  unfold tryFrom
  rw [if_neg (by omega)]
  simp only
  split
  · rename_i hin
    split
    · rename_i hp
      simp [asSlice, hin, copyInto]
    · rename_i hp
      have h1 : (s.take P).length = P := by simp; omega
      have h2 : (List.replicate P 0).drop (s.take P).length = [] := by rw [h1]; simp
      simp only [Option.bind_some, asSlice, hin, copyInto, h2, if_true, List.append_nil]
      rw [← List.append_assoc, List.take_append_drop, List.take_append_of_le_length (Nat.le_refl _)]
      simp
  · rename_i hin
    simp [asSlice, hin]

theorem tryFrom_some {P S : Nat} {s : List Nat} (h : s.length ≤ 65535) :
    ∃ u, tryFrom P S s = some u ∧ asSlice P S u = some s := by
  have := asSlice_tryFrom (P := P) (S := S) h
  cases hu : tryFrom P S s with
  | none => simp [hu] at this
  | some u => exact ⟨u, rfl, by simpa [hu] using this⟩

theorem tryFrom_none {P S : Nat} {s : List Nat} : tryFrom P S s = none ↔ 65535 < s.length := by
  constructor
  · intro h
    rcases Nat.lt_or_ge 65535 s.length with h' | h'
    · exact h'
    · obtain ⟨u, hu, _⟩ := tryFrom_some (P := P) (S := S) h'
      simp [h] at hu
  · intro h; simp [tryFrom, h]

theorem eq_tryFrom {P S : Nat} {a b : List Nat} {u v : Umbra} (hu : tryFrom P S a = some u)
    (hv : tryFrom P S b = some v) : eq P S u v = some (a == b) := by
  have la : a.length ≤ 65535 := by
    rcases Nat.lt_or_ge 65535 a.length with h | h
    · simp [tryFrom_none.2 h] at hu
    · exact h
  have lb : b.length ≤ 65535 := by
    rcases Nat.lt_or_ge 65535 b.length with h | h
    · simp [tryFrom_none.2 h] at hv
    · exact h
  obtain ⟨u', hu', su⟩ := tryFrom_some (P := P) (S := S) la
  obtain ⟨v', hv', sv⟩ := tryFrom_some (P := P) (S := S) lb
  rw [hu] at hu'; cases hu'
  rw [hv] at hv'; cases hv'
  by_cases hab : a = b
  · subst hab
    rw [hu] at hv; cases hv
    unfold tryFrom at hu
    rw [if_neg (by omega)] at hu
    simp only at hu
    split at hu
    · split at hu <;> cases hu <;> simp_all [eq]
    · cases hu; simp_all [eq]
  · rw [beq_false_of_ne hab]
    -- show the stored representations differ
    unfold eq
    split
    · rfl
    · rename_i hne
      simp only [not_or, Decidable.not_not] at hne
      obtain ⟨hlen, hpre⟩ := hne
      unfold asSlice at su sv
      rw [← hlen, ← hpre] at sv
      split
      · rename_i hin
        rw [if_pos hin] at su sv
        cases hut : u.trailing <;> cases hvt : v.trailing <;> simp_all
        rintro rfl
        exact hab (su.symm.trans sv)
      · rename_i hin
        rw [if_neg hin] at su sv
        cases hut : u.trailing <;> cases hvt : v.trailing <;> simp_all
        rename_i x y
        -- prefixes are the first `P` elements of the heap contents
        have hul : u.len = a.length := by
          unfold tryFrom at hu; rw [if_neg (by omega)] at hu; simp only at hu
          split at hu
          · split at hu <;> cases hu <;> rfl
          · cases hu; rfl
        have hvl : v.len = b.length := by
          unfold tryFrom at hv; rw [if_neg (by omega)] at hv; simp only at hv
          split at hv
          · split at hv <;> cases hv <;> rfl
          · cases hv; rfl
        unfold tryFrom at hu hv
        rw [if_neg (by omega)] at hu hv
        simp only at hu hv
        rw [if_neg (by omega)] at hu hv
        cases hu; cases hv
        simp only [Trailing.ptr.injEq] at hut hvt
        subst hut; subst hvt
        intro hd
        apply hab
        simp only [copyInto] at hpre
        have e1 : (List.replicate P 0).drop (a.take P).length = [] := by
          apply List.drop_eq_nil_of_le; simp at hin ⊢; omega
        have e2 : (List.replicate P 0).drop (b.take P).length = [] := by
          apply List.drop_eq_nil_of_le; simp at hin hlen ⊢; omega
        rw [e1, e2] at hpre
        simp only [List.append_nil] at hpre
        have hd' : a.drop P = b.drop P := by
          rw [List.take_of_length_le (by simp at hlen ⊢; omega), List.take_of_length_le (by simp)] at hd
          exact hd
        rw [← List.take_append_drop P a, ← List.take_append_drop P b, hpre, hd']

theorem clone_tryFrom {P S : Nat} {a : List Nat} {u : Umbra} (hu : tryFrom P S a = some u) :
    clone P S u = some u := by
  have la : a.length ≤ 65535 := by
    rcases Nat.lt_or_ge 65535 a.length with h | h
    · simp [tryFrom_none.2 h] at hu
    · exact h
  unfold tryFrom at hu
  rw [if_neg (by omega)] at hu
  simp only at hu
  split at hu
  · rename_i hin
    split at hu <;> cases hu <;> simp [clone, hin]
  · rename_i hin
    cases hu
    simp [clone, asSlice, hin]

end Spellbook.Umbra
