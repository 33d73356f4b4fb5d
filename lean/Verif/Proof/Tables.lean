import Verif.Model.Tables
import Verif.Model.Words
import Verif.Spec.Tables

namespace Spellbook

theorem stripPrefix?_iff {s p t : Str} : stripPrefix? s p = some t ↔ s = p ++ t := by
  unfold stripPrefix?
  split
  · rename_i h
    rw [List.isPrefixOf_iff_prefix] at h
    obtain ⟨r, rfl⟩ := h
    simp
  · rename_i h
    simp only [reduceCtorEq, false_iff]
    rintro rfl
    exact h (by rw [List.isPrefixOf_iff_prefix]; exact List.prefix_append _ _)

theorem stripSuffix?_iff {s p t : Str} : stripSuffix? s p = some t ↔ s = t ++ p := by
  unfold stripSuffix?
  split
  · rename_i h
    rw [List.isSuffixOf_iff_suffix] at h
    obtain ⟨r, rfl⟩ := h
    simp
  · rename_i h
    simp only [reduceCtorEq, false_iff]
    rintro rfl
    exact h (by rw [List.isSuffixOf_iff_suffix]; exact List.suffix_append _ _)

theorem stripPrefix?_none {s p : Str} : stripPrefix? s p = none ↔ ∀ t, s ≠ p ++ t := by
  rw [Option.eq_none_iff_forall_ne_some]
  exact forall_congr' fun t => not_congr stripPrefix?_iff

theorem stripSuffix?_none {s p : Str} : stripSuffix? s p = none ↔ ∀ t, s ≠ t ++ p := by
  rw [Option.eq_none_iff_forall_ne_some]
  exact forall_congr' fun t => not_congr stripSuffix?_iff

theorem getLast?_eq_some_iff' {s : Str} {c : Char} : s.getLast? = some c ↔ ∃ t, s = t ++ [c] := by
  rw [List.getLast?_eq_some_iff]

theorem head?_eq_some_iff' {s : Str} {c : Char} : s.head? = some c ↔ ∃ t, s = c :: t := by
  rw [List.head?_eq_some_iff]

/-! ## Numbers -/

theorem isNumberLoop_iff (s : Str) :
    (isNumberLoop false s = some false ↔ ∃ (ds : Str) (gs : List (Char × Str)),
      (∀ c ∈ ds, '0' ≤ c ∧ c ≤ '9') ∧
      (∀ p ∈ gs, (p.1 = '.' ∨ p.1 = ',' ∨ p.1 = '-') ∧ Spec.Digits p.2) ∧
      s = ds ++ gs.flatMap fun p => p.1 :: p.2) ∧
    (isNumberLoop true s = some false ↔ ∃ (ds : Str) (gs : List (Char × Str)), Spec.Digits ds ∧
      (∀ p ∈ gs, (p.1 = '.' ∨ p.1 = ',' ∨ p.1 = '-') ∧ Spec.Digits p.2) ∧
      s = ds ++ gs.flatMap fun p => p.1 :: p.2) := by
  induction s with
  | nil =>
    refine ⟨⟨fun _ => ⟨[], [], by simp, by simp, by simp⟩, fun _ => rfl⟩, ⟨fun h => ?_, ?_⟩⟩
    · simp [isNumberLoop] at h
    · rintro ⟨ds, gs, ⟨h, _⟩, _, he⟩
      exact absurd (List.append_eq_nil_iff.1 he.symm).1 h
  | cons c s ih =>
    have hsep : ¬ ('0' ≤ c ∧ c ≤ '9') ∨ ¬ (c = '.' ∨ c = ',' ∨ c = '-') := by
      by_cases h : c = '.' ∨ c = ',' ∨ c = '-'
      · left; rcases h with rfl | rfl | rfl <;> decide
      · exact .inr h
    by_cases hd : '0' ≤ c ∧ c ≤ '9'
    · have hns := hsep.resolve_left (by simpa using hd)
      simp only [isNumberLoop, hd, and_self, ↓reduceIte]
      constructor
      · rw [ih.1]
        constructor
        · rintro ⟨ds, gs, h1, h2, rfl⟩
          refine ⟨c :: ds, gs, ?_, h2, rfl⟩
          intro x hx
          rcases List.mem_cons.1 hx with rfl | hx
          · exact hd
          · exact h1 x hx
        · rintro ⟨ds, gs, h1, h2, he⟩
          cases ds with
          | nil =>
            cases gs with
            | nil => simp at he
            | cons p gs =>
              have := (h2 p (by simp)).1
              simp at he
              rw [← he.1] at this
              exact absurd this hns
          | cons d ds =>
            simp at he
            exact ⟨ds, gs, fun x hx => h1 x (by simp [hx]), h2, he.2⟩
      · rw [ih.1]
        constructor
        · rintro ⟨ds, gs, h1, h2, rfl⟩
          refine ⟨c :: ds, gs, ⟨by simp, ?_⟩, h2, rfl⟩
          intro x hx
          rcases List.mem_cons.1 hx with rfl | hx
          · exact hd
          · exact h1 x hx
        · rintro ⟨ds, gs, ⟨h0, h1⟩, h2, he⟩
          cases ds with
          | nil => exact absurd rfl h0
          | cons d ds =>
            simp at he
            exact ⟨ds, gs, fun x hx => h1 x (by simp [hx]), h2, he.2⟩
    · simp only [isNumberLoop, hd, ↓reduceIte]
      constructor
      · by_cases hs : c = '.' ∨ c = '-' ∨ c = ','
        · simp only [hs, and_self, ↓reduceIte]
          rw [ih.2]
          constructor
          · rintro ⟨ds, gs, h1, h2, rfl⟩
            refine ⟨[], (c, ds) :: gs, by simp, ?_, by simp⟩
            intro p hp
            rcases List.mem_cons.1 hp with rfl | hp
            · exact ⟨by tauto, h1⟩
            · exact h2 p hp
          · rintro ⟨ds, gs, h1, h2, he⟩
            cases ds with
            | nil =>
              cases gs with
              | nil => simp at he
              | cons p gs =>
                simp at he
                exact ⟨p.2, gs, (h2 p (by simp)).2, fun q hq => h2 q (by simp [hq]), by
                  rw [he.2]⟩
            | cons d ds =>
              simp at he
              exact absurd (by rw [he.1]; exact h1 d (by simp)) hd
        · simp only [hs, false_and, ↓reduceIte, reduceCtorEq, false_iff]
          rintro ⟨ds, gs, h1, h2, he⟩
          cases ds with
          | nil =>
            cases gs with
            | nil => simp at he
            | cons p gs =>
              simp at he
              have := (h2 p (by simp)).1
              rw [← he.1] at this
              exact hs (by tauto)
          | cons d ds =>
            simp at he
            exact absurd (by rw [he.1]; exact h1 d (by simp)) hd
      · simp only [Bool.true_eq_false, and_false, ↓reduceIte, reduceCtorEq, false_iff]
        rintro ⟨ds, gs, ⟨h0, h1⟩, h2, he⟩
        cases ds with
        | nil => exact h0 rfl
        | cons d ds =>
          simp at he
          exact absurd (by rw [he.1]; exact h1 d (by simp)) hd

theorem isNumber_iff (w : Str) : isNumber w = true ↔ Spec.IsNumber w := by
  have key : isNumber w = true ↔ isNumberLoop true ((stripPrefix? w ['-']).getD w) = some false := by
    unfold isNumber
    generalize (stripPrefix? w ['-']).getD w = v
    cases v with
    | nil => simp [isNumberLoop]
    | cons c v =>
      simp only [List.isEmpty_cons, Bool.false_eq_true, ↓reduceIte]
      cases h : isNumberLoop true (c :: v) with
      | none => simp
      | some b => cases b <;> simp
  rw [key, (isNumberLoop_iff _).2]
  unfold Spec.IsNumber
  cases h : stripPrefix? w ['-'] with
  | some v =>
    rw [stripPrefix?_iff] at h
    simp only [Option.getD_some]
    constructor
    · rintro ⟨ds, gs, h1, h2, rfl⟩
      exact ⟨['-'], ds, gs, .inr rfl, h1, h2, by rw [h]; simp⟩
    · rintro ⟨sign, ds, gs, hs | hs, h1, h2, he⟩
      · subst hs
        rw [h] at he
        obtain ⟨h0, h1⟩ := h1
        cases ds with
        | nil => exact absurd rfl h0
        | cons d ds =>
          simp at he
          have := h1 d (by simp)
          rw [← he.1] at this
          exact absurd this (by decide)
      · subst hs
        rw [h] at he
        simp at he
        exact ⟨ds, gs, h1, h2, he⟩
  | none =>
    rw [stripPrefix?_none] at h
    simp only [Option.getD_none]
    constructor
    · rintro ⟨ds, gs, h1, h2, rfl⟩
      exact ⟨[], ds, gs, .inl rfl, h1, h2, by simp⟩
    · rintro ⟨sign, ds, gs, hs | hs, h1, h2, he⟩
      · subst hs; exact ⟨ds, gs, h1, h2, by simpa using he⟩
      · subst hs; exact absurd (by simpa using he) (h (ds ++ gs.flatMap fun p => p.1 :: p.2))

/-! ## Break patterns -/

/-- The text of a pattern line of the given kind. -/
def breakText (place : Spec.BreakAt) (b : Str) : Option Str :=
  match stripPrefix? b ['^'] with
  | some t => if place = .start then some t else none
  | none =>
    match stripSuffix? b ['$'] with
    | some t => if place = .stop then some t else none
    | none => if place = .middle then some b else none

theorem breakText_iff {place : Spec.BreakAt} {b t : Str} :
    breakText place b = some t ↔ Spec.BreakLine b place t := by
  unfold breakText
  cases h1 : stripPrefix? b ['^'] with
  | some v =>
    rw [stripPrefix?_iff] at h1
    subst h1
    cases place <;> simp [Spec.BreakLine, eq_comm]
  | none =>
    rw [stripPrefix?_none] at h1
    have hh : b.head? ≠ some '^' := by
      intro h; obtain ⟨t, rfl⟩ := head?_eq_some_iff'.1 h; exact h1 t rfl
    cases h2 : stripSuffix? b ['$'] with
    | some v =>
      rw [stripSuffix?_iff] at h2
      cases place with
      | start =>
        simp only [reduceCtorEq, ↓reduceIte, Spec.BreakLine, false_iff]
        exact h1 t
      | middle => subst h2; simp [Spec.BreakLine]
      | stop =>
        simp only [↓reduceIte, Option.some.injEq, Spec.BreakLine, hh, ne_eq, not_false_eq_true, and_true]
        rw [h2]; constructor
        · rintro rfl; rfl
        · intro h; exact List.append_cancel_right h
    | none =>
      rw [stripSuffix?_none] at h2
      have hl : b.getLast? ≠ some '$' := by
        intro h; obtain ⟨t, rfl⟩ := getLast?_eq_some_iff'.1 h; exact h2 t rfl
      cases place with
      | start =>
        simp only [reduceCtorEq, ↓reduceIte, Spec.BreakLine, false_iff]
        exact h1 t
      | middle => simp [Spec.BreakLine, hh, hl]
      | stop =>
        simp only [reduceCtorEq, ↓reduceIte, Spec.BreakLine, false_iff, not_and]
        intro h; exact absurd h (h2 t)

theorem BreakTable.newLoop_eq (bs s m e : List Str) (h : ∀ b ∈ bs, b ≠ []) :
    newLoop bs s m e = some (s ++ bs.filterMap (breakText .start), m ++ bs.filterMap (breakText .middle),
      e ++ bs.filterMap (breakText .stop)) := by
  induction bs generalizing s m e with
  | nil => simp [newLoop]
  | cons b bs ih =>
    have hb : b.isEmpty = false := by simpa using h b (by simp)
    rw [newLoop, hb]
    simp only [Bool.false_eq_true, ↓reduceIte, List.filterMap_cons, breakText]
    cases h1 : stripPrefix? b ['^'] with
    | some v => simp [ih _ _ _ (fun b hb => h b (by simp [hb]))]
    | none =>
      cases h2 : stripSuffix? b ['$'] with
      | some v => simp [ih _ _ _ (fun b hb => h b (by simp [hb]))]
      | none => simp [ih _ _ _ (fun b hb => h b (by simp [hb]))]

theorem BreakTable.newLoop_none (bs s m e : List Str) (h : [] ∈ bs) : newLoop bs s m e = none := by
  induction bs generalizing s m e with
  | nil => simp at h
  | cons b bs ih =>
    rw [newLoop]
    cases b with
    | nil => simp
    | cons c b =>
      have := fun s m e => ih s m e (by simpa using h)
      simp only [List.isEmpty_cons, Bool.false_eq_true, ↓reduceIte]
      cases stripPrefix? (c :: b) ['^'] with
      | some v => simp [this]
      | none => cases stripSuffix? (c :: b) ['$'] <;> simp [this]

theorem BreakTable.new_spec {bs : List Str} {t : BreakTable} (h : BreakTable.new bs = some t) :
    t.startBreaks = bs.filterMap (breakText .start) ∧ t.middleBreaks = bs.filterMap (breakText .middle) ∧
    t.endBreaks = bs.filterMap (breakText .stop) := by
  have hne : ∀ b ∈ bs, b ≠ [] := by
    rintro b hb rfl
    rw [BreakTable.new, newLoop_none _ _ _ _ hb] at h; simp at h
  rw [BreakTable.new, newLoop_eq _ _ _ _ hne] at h
  simp at h
  subst h
  simp only [startBreaks, middleBreaks, endBreaks]
  refine ⟨by simp, ?_, ?_⟩
  · rw [← List.append_assoc, ← List.length_append, List.take_left, List.drop_left]
  · rw [← List.append_assoc, ← List.length_append, List.drop_left]

/-! ## Replacement patterns -/

/-- The text of a pattern of the given kind. -/
def repText (place : Spec.RepAt) (b : Str) : Option Str :=
  match stripPrefix? b ['^'] with
  | some t =>
    match stripSuffix? t ['$'] with
    | some t => if place = .whole then some t else none
    | none => if place = .start then some t else none
  | none =>
    match stripSuffix? b ['$'] with
    | some t => if place = .stop then some t else none
    | none => if place = .anywhere then some b else none

theorem repText_iff {place : Spec.RepAt} {b t : Str} : repText place b = some t ↔ Spec.RepLine b place t := by
  unfold repText
  cases h1 : stripPrefix? b ['^'] with
  | some v =>
    rw [stripPrefix?_iff] at h1
    subst h1
    dsimp only
    cases h2 : stripSuffix? v ['$'] with
    | some v' =>
      rw [stripSuffix?_iff] at h2
      subst h2
      cases place <;> simp [Spec.RepLine]
      rintro rfl; simp
    | none =>
      rw [stripSuffix?_none] at h2
      have hl : v.getLast? ≠ some '$' := by
        intro h; obtain ⟨t, rfl⟩ := getLast?_eq_some_iff'.1 h; exact h2 t rfl
      cases place with
      | whole =>
        simp only [reduceCtorEq, ↓reduceIte, Spec.RepLine, false_iff]
        intro h; exact h2 t (by simpa using h)
      | start =>
        simp only [↓reduceIte, Option.some.injEq, Spec.RepLine, List.cons_append, List.nil_append,
          List.cons.injEq, true_and]
        constructor
        · rintro rfl; exact ⟨rfl, hl⟩
        · rintro ⟨h, _⟩; exact h
      | stop => simp [Spec.RepLine]
      | anywhere => simp [Spec.RepLine]
  | none =>
    rw [stripPrefix?_none] at h1
    have hh : b.head? ≠ some '^' := by
      intro h; obtain ⟨t, rfl⟩ := head?_eq_some_iff'.1 h; exact h1 t rfl
    cases h2 : stripSuffix? b ['$'] with
    | some v =>
      rw [stripSuffix?_iff] at h2
      cases place with
      | whole =>
        simp only [reduceCtorEq, ↓reduceIte, Spec.RepLine, false_iff]
        intro h; exact h1 (t ++ ['$']) h
      | start =>
        simp only [reduceCtorEq, ↓reduceIte, Spec.RepLine, false_iff, not_and]
        intro h; exact absurd h (h1 t)
      | anywhere => subst h2; simp [Spec.RepLine]
      | stop =>
        simp only [↓reduceIte, Option.some.injEq, Spec.RepLine, hh, ne_eq, not_false_eq_true, and_true]
        rw [h2]; constructor
        · rintro rfl; rfl
        · intro h; exact List.append_cancel_right h
    | none =>
      rw [stripSuffix?_none] at h2
      have hl : b.getLast? ≠ some '$' := by
        intro h; obtain ⟨t, rfl⟩ := getLast?_eq_some_iff'.1 h; exact h2 t rfl
      cases place with
      | whole =>
        simp only [reduceCtorEq, ↓reduceIte, Spec.RepLine, false_iff]
        intro h; exact h1 (t ++ ['$']) h
      | start =>
        simp only [reduceCtorEq, ↓reduceIte, Spec.RepLine, false_iff, not_and]
        intro h; exact absurd h (h1 t)
      | anywhere => simp [Spec.RepLine, hh, hl]
      | stop =>
        simp only [reduceCtorEq, ↓reduceIte, Spec.RepLine, false_iff, not_and]
        intro h; exact absurd h (h2 t)

/-- The entry a line contributes to one section. -/
def repEntry (place : Spec.RepAt) (p : Str × Str) : Option (Str × Str) :=
  (repText place p.1).map fun t => (t, p.2)

namespace ReplacementTable

theorem fromLoop_eq (rs : List (Str × Str)) (acc : Acc) (h : ∀ p ∈ rs, p.1 ≠ [] ∧ p.2 ≠ []) :
    fromLoop rs acc = some
      { whole := acc.whole ++ rs.filterMap (repEntry .whole)
        start := acc.start ++ rs.filterMap (repEntry .start)
        stop := acc.stop ++ rs.filterMap (repEntry .stop)
        anywhere := acc.anywhere ++ rs.filterMap (repEntry .anywhere) } := by
  induction rs generalizing acc with
  | nil => simp [fromLoop]
  | cons p rs ih =>
    obtain ⟨src, dst⟩ := p
    obtain ⟨h1, h2⟩ := h (src, dst) (by simp)
    have hb : (src.isEmpty || dst.isEmpty) = false := by simpa using ⟨h1, h2⟩
    have ih' := fun acc => ih acc (fun p hp => h p (by simp [hp]))
    rw [fromLoop, hb]
    simp only [Bool.false_eq_true, ↓reduceIte, List.filterMap_cons, repEntry, repText]
    cases h1 : stripPrefix? src ['^'] with
    | some v => cases h2 : stripSuffix? v ['$'] <;> simp [h2, ih']
    | none => cases h2 : stripSuffix? src ['$'] <;> simp [h2, ih']

theorem fromLoop_none (rs : List (Str × Str)) (acc : Acc) (h : ∃ p ∈ rs, p.1 = [] ∨ p.2 = []) :
    fromLoop rs acc = none := by
  induction rs generalizing acc with
  | nil => simp at h
  | cons p rs ih =>
    obtain ⟨src, dst⟩ := p
    rw [fromLoop]
    by_cases hb : (src.isEmpty || dst.isEmpty) = true
    · simp [hb]
    · have ih' := fun acc => ih acc (by
        obtain ⟨p, hp, h'⟩ := h
        rcases List.mem_cons.1 hp with rfl | hp
        · simp at hb; tauto
        · exact ⟨p, hp, h'⟩)
      simp only [hb, Bool.false_eq_true, ↓reduceIte]
      cases h1 : stripPrefix? src ['^'] with
      | some v => cases h2 : stripSuffix? v ['$'] <;> simp [h2, ih']
      | none => cases h2 : stripSuffix? src ['$'] <;> simp [h2, ih']

theorem from'_spec {rs : List (Str × Str)} {t : ReplacementTable} (h : from' rs = some t) :
    t.whole = rs.filterMap (repEntry .whole) ∧ t.start = rs.filterMap (repEntry .start) ∧
    t.stop = rs.filterMap (repEntry .stop) ∧ t.anywhere = rs.filterMap (repEntry .anywhere) := by
  have hne : ∀ p ∈ rs, p.1 ≠ [] ∧ p.2 ≠ [] := by
    intro p hp
    by_contra hc
    rw [from', fromLoop_none _ _ ⟨p, hp, by tauto⟩] at h
    simp at h
  rw [from', fromLoop_eq _ _ hne] at h
  simp at h
  subst h
  simp only [whole, start, stop, anywhere]
  refine ⟨by simp, ?_, ?_, ?_⟩
  · rw [← List.append_assoc, ← List.append_assoc, List.append_assoc, ← List.length_append, List.take_left,
      List.drop_left]
  · rw [← List.append_assoc, ← List.append_assoc, ← Nat.add_assoc, ← List.length_append,
      ← List.length_append, List.take_left, List.drop_left]
  · rw [← List.append_assoc, ← List.append_assoc, ← Nat.add_assoc, ← List.length_append,
      ← List.length_append, List.drop_left]

end ReplacementTable
end Spellbook
