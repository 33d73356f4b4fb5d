import Verif.Proof.AffReads
import Verif.Proof.TextFaults
import Verif.Proof.Parse
/-!
# The `.aff` parser and the errors of its lines
-/

namespace Spellbook
open Spec

/-- The numbered lines below the current one that are no comments. -/
def npend (U : Unicode) (ls : List (Nat × Str)) : List (Nat × Str) :=
  (ls.tail.filter fun l => !isComment U l.2).map fun l => (l.1 + 1, l.2)

section
variable {U : Unicode}

theorem npend_pend (ls : List (Nat × Str)) : (npend U ls).map (·.2) = pend U ls := by
  unfold npend pend
  rw [List.map_map]; rfl

theorem npend_nil : npend U [] = [] := rfl

theorem npend_next {ls : List (Nat × Str)} :
    match ls.tail.dropWhile fun l => isComment U l.2 with
    | [] => npend U ls = []
    | l :: rest => npend U ls = (l.1 + 1, l.2) :: npend U (l :: rest) := by
  have := dropWhile_filter (fun l : Nat × Str => isComment U l.2) ls.tail
  unfold npend
  revert this
  cases ls.tail.dropWhile fun l => isComment U l.2 with
  | nil => intro h; simp only at h ⊢; rw [h]; rfl
  | cons l rest => intro h; simp only at h ⊢; rw [h]; rfl

theorem npend_after (n : Nat) (ls : List (Nat × Str)) : npend U (after U n ls) = (npend U ls).drop n := by
  induction n generalizing ls with
  | zero => rfl
  | succ n ih =>
    rw [after, ih]
    have := npend_next (U := U) (ls := ls)
    cases h : ls.tail.dropWhile fun l => isComment U l.2 with
    | nil => rw [h] at this; simp only at this; rw [this]; simp [npend_nil]
    | cons l rest => rw [h] at this; simp only at this; rw [this]; rfl

/-! ## Steps -/

theorem P_bind_err {α β : Type} {x : P α} {f : α → P β} {s : Lines} {h : Halt} :
    (x >>= f) s = .error h ↔ x s = .error h ∨ ∃ a t, x s = .ok (a, t) ∧ f a t = .error h := by
  cases hx : x s with
  | error e => rw [P_bind_error hx]; simp
  | ok p =>
    obtain ⟨a, t⟩ := p
    rw [P_bind_ok hx]
    simp

theorem P_pure_err {α : Type} {a : α} {s : Lines} {h : Halt} : (pure a : P α) s = .error h ↔ False := by
  show Except.ok (a, s) = _ ↔ _
  simp

theorem fail_err {α : Type} {kind : ErrorKind} {s : Lines} {h : Halt} :
    (P.fail kind : P α) s = .error h ↔ h = .error (s.error kind) := by
  unfold P.fail
  simp only [Except.error.injEq]
  exact eq_comm

theorem lift_err {ε α : Type} {kind : ε → ErrorKind} {x : Except ε α} {s : Lines} {h : Halt} :
    P.lift kind x s = .error h ↔ ∃ e, x = .error e ∧ h = .error (s.error (kind e)) := by
  unfold P.lift
  cases x with
  | ok b => simp [P_pure_err]
  | error e => simp [fail_err]

theorem flagOf_err {ty : FlagType} {w : Str} {s : Lines} {h : Halt} (hw : w ≠ []) :
    P.flagOf ty w s = .error h ↔ ∃ e, FlagFault ty w e ∧ h = .error (s.error (.malformedFlag e)) := by
  unfold P.flagOf
  cases hp : parseFlag? ty w with
  | none =>
    have := parseFlag?_isSome (ty := ty).2 hw
    rw [hp] at this; cases this
  | some r =>
    simp only [lift_err]
    constructor
    · rintro ⟨e, rfl, h⟩; exact ⟨e, (parseFlag?_error hw).1 hp, h⟩
    · rintro ⟨e, h1, h⟩
      have := (parseFlag?_error hw).2 h1
      rw [hp] at this
      exact ⟨e, by simpa using this, h⟩

theorem takeOneWord_err {s : Lines} {args : List Str} {h : Halt} (hs : s.words = some args) :
    P.takeOneWord s = .error h ↔ args = [] ∧ h = .error (s.error (.mismatchedArity 1 0)) := by
  unfold P.takeOneWord
  rw [hs]
  cases args with
  | nil => simp only [Except.error.injEq, true_and]; exact eq_comm
  | cons w ws => simp

theorem takeWords_err {s : Lines} {h : Halt} : P.takeWords s = .error h ↔ False := by
  simp [P.takeWords]

theorem row_err {key : Str} {e i : Nat} {s : Lines} {h : Halt} :
    P.row U key e i s = .error h ↔
      ((s.lines.tail.dropWhile fun l => isComment U l.2) = [] ∧
        h = .error ⟨.mismatchedRowCount e i, s.source, none⟩) ∨
      ∃ l rest, (s.lines.tail.dropWhile fun l => isComment U l.2) = l :: rest ∧
        (∀ args, splitWhitespace U l.2 ≠ key :: args) ∧
        h = .error ⟨.mismatchedRowCount e i, s.source, some (l.1 + 1)⟩ := by
  unfold P.row
  rw [P_bind_ok (x := P.advance U) (a := ()) (s := s) (s' := s.advance U) rfl,
    P_bind_ok (x := P.isFinished) (s := s.advance U) (s' := s.advance U)
      (a := (s.advance U).isFinished) rfl]
  cases hd : s.lines.tail.dropWhile fun l => isComment U l.2 with
  | nil =>
    have : s.advance U = ⟨[], none, s.source⟩ := by simp [Lines.advance, Lines.settle, hd]
    rw [this]
    simp only [Lines.isFinished, List.isEmpty_nil, ↓reduceIte]
    rw [P_bind_err]
    simp [fail_err, P_fail_iff, Lines.error]
  | cons l rest =>
    have : s.advance U = ⟨l :: rest, some (splitWhitespace U l.2), s.source⟩ := by
      simp [Lines.advance, Lines.settle, hd]
    rw [this]
    simp only [Lines.isFinished, List.isEmpty_cons, Bool.false_eq_true, ↓reduceIte, reduceCtorEq, false_and,
      false_or, List.cons.injEq]
    cases hw : splitWhitespace U l.2 with
    | nil =>
      rw [P_bind_ok (x := P.nextWord) (a := none) (s' := ⟨l :: rest, none, s.source⟩) rfl]
      simp only [ne_eq, reduceCtorEq, not_false_eq_true, ↓reduceIte]
      rw [P_bind_err]
      simp only [fail_err, P_fail_iff, false_and, exists_false, or_false]
      constructor
      · rintro rfl; exact ⟨l, rest, ⟨rfl, rfl⟩, by rw [hw]; simp, rfl⟩
      · rintro ⟨l', rest', ⟨rfl, rfl⟩, -, rfl⟩; rfl
    | cons w ws =>
      rw [P_bind_ok (x := P.nextWord) (a := some w) (s' := ⟨l :: rest, some ws, s.source⟩) rfl]
      by_cases hk : w = key
      · subst hk
        simp only [ne_eq, not_true_eq_false, ↓reduceIte]
        rw [P_bind_ok (x := P.takeWords) (a := some ws) (s' := ⟨l :: rest, none, s.source⟩) rfl]
        simp only [P_pure_err, false_iff]
        rintro ⟨l', rest', ⟨rfl, rfl⟩, h2, -⟩
        exact h2 ws hw
      · rw [if_pos (by simpa using hk), P_bind_err]
        simp only [fail_err, P_fail_iff, false_and, exists_false, or_false]
        constructor
        · rintro rfl
          refine ⟨l, rest, ⟨rfl, rfl⟩, ?_, rfl⟩
          intro args h2
          rw [hw] at h2; cases h2; exact hk rfl
        · rintro ⟨l', rest', ⟨rfl, rfl⟩, -, rfl⟩; rfl

/-- The errors of a row function are those of the rows of `key`. -/
def RowErr (key : String) (head : List Str) (I : Cx → Prop) (f : Cx → List Str → P Cx) : Prop :=
  ∀ cx args s h, I cx → (∀ w ∈ args, w ≠ []) →
    (f cx args s = .error h ↔ ∃ k, RowFault key head cx args k ∧ h = .error (s.error k))

theorem rows_err {key : String} {head : List Str} {I : Cx → Prop} {f : Cx → List Str → P Cx}
    (hf : RowFun key head I f) (he : RowErr key head I f)
    (hI : ∀ cx args cx', I cx → Row key head cx args cx' → I cx') {e : Nat} :
    ∀ (n i : Nat) (cx : Cx) (s : Lines) (h : Halt), I cx → i + n = e + 1 →
    (P.rows U key.toList e f n i cx s = .error h ↔
      ∃ number k, RowsFault U key head e i cx (npend U s.lines) number k ∧
        h = .error ⟨k, s.source, number⟩) := by
  intro n
  induction n with
  | zero =>
    intro i cx s h _ hi
    rw [P.rows, P_pure_err, false_iff]
    rintro ⟨number, k, h1, -⟩
    generalize npend U s.lines = X at h1
    cases h1 <;> omega
  | succ n ih =>
    intro i cx s h hcx hi
    have hin : i ≤ e := by omega
    rw [P.rows, P_bind_err]
    have hp := npend_next (U := U) (ls := s.lines)
    cases hd : s.lines.tail.dropWhile fun l => isComment U l.2 with
    | nil =>
      rw [hd] at hp
      simp only at hp
      rw [hp]
      constructor
      · rintro (h1 | ⟨args, u, h1, -⟩)
        · rcases row_err.1 h1 with ⟨-, rfl⟩ | ⟨l, rest, h2, -⟩
          · exact ⟨_, _, .missing hin, rfl⟩
          · rw [hd] at h2; cases h2
        · obtain ⟨l, rest, h2, -⟩ := row_iff.1 h1
          rw [hd] at h2; cases h2
      · rintro ⟨number, k, h1, rfl⟩
        cases h1
        exact .inl (row_err.2 (.inl ⟨hd, rfl⟩))
    | cons l rest =>
      rw [hd] at hp
      simp only at hp
      rw [hp]
      constructor
      · rintro (h1 | ⟨args, u, h1, h2⟩)
        · rcases row_err.1 h1 with ⟨h2, -⟩ | ⟨l', rest', h2, h3, rfl⟩
          · rw [hd] at h2; cases h2
          · rw [hd] at h2; cases h2
            exact ⟨_, _, .foreign hin h3, rfl⟩
        · obtain ⟨l', rest', h3, h4, rfl⟩ := row_iff.1 h1
          rw [hd] at h3; cases h3
          have hne : ∀ w ∈ args, w ≠ [] := fun w hw =>
            splitWhitespace_ne_nil l.2 w (by rw [h4]; simp [hw])
          rcases P_bind_err.1 h2 with h5 | ⟨cx₁, u, h5, h6⟩
          · obtain ⟨k, h6, rfl⟩ := (he cx args _ h hcx hne).1 h5
            exact ⟨_, k, .row hin h4 h6, rfl⟩
          · obtain ⟨h7, rfl⟩ := (hf cx args _ cx₁ u hcx).1 h5
            obtain ⟨number, k, h8, rfl⟩ := (ih (i + 1) cx₁ _ h (hI _ _ _ hcx h7) (by omega)).1 h6
            exact ⟨number, k, .next hin h4 h7 h8, rfl⟩
      · rintro ⟨number, k, h1, rfl⟩
        cases h1 with
        | foreign _ h1 => exact .inl (row_err.2 (.inr ⟨l, rest, hd, h1, rfl⟩))
        | @row _ _ _ args _ _ _ h1 h2 =>
          have hne : ∀ w ∈ args, w ≠ [] := fun w hw =>
            splitWhitespace_ne_nil l.2 w (by rw [h1]; simp [hw])
          exact .inr ⟨args, _, row_iff.2 ⟨l, rest, hd, h1, rfl⟩, P_bind_err.2 (.inl
            ((he cx args _ _ hcx hne).2 ⟨k, h2, rfl⟩))⟩
        | @next _ _ _ args cx₁ _ _ _ _ h1 h2 h3 =>
          exact .inr ⟨args, _, row_iff.2 ⟨l, rest, hd, h1, rfl⟩, P_bind_err.2 (.inr
            ⟨cx₁, _, (hf _ _ _ _ _ hcx).2 ⟨h2, rfl⟩,
              (ih (i + 1) cx₁ _ _ (hI _ _ _ hcx h2) (by omega)).2 ⟨number, k, h3, rfl⟩⟩)⟩

/-! ## Rows -/

/-- The cases of `RowFault`. -/
theorem rowFault_cases {key : String} {head args : List Str} {cx : Cx} {k : ErrorKind}
    (h : RowFault key head cx args k) :
    (key ∈ oneColumn ∧ args = [] ∧ k = .mismatchedArity 1 0) ∨
    (key ∈ twoColumns ∧ ((args = [] ∧ k = .mismatchedArity 2 0) ∨
      ∃ w, args = [w] ∧ k = .mismatchedArity 2 1)) ∨
    (key = "AF" ∧ ∃ a more e, args = a :: more ∧ FlagsFault cx.flagType a e ∧ k = .malformedFlag e) ∨
    (key = "COMPOUNDRULE" ∧ ∃ a more e, args = a :: more ∧ RuleFault cx.flagType a e ∧
      k = .malformedCompoundRule e) ∨
    (key = "CHECKCOMPOUNDPATTERN" ∧ ∃ a b more e, args = a :: b :: more ∧ k = .malformedFlag e ∧
      ∃ text flag, SlashPair a text flag ∧ ((flag ≠ [] ∧ FlagFault cx.flagType flag e) ∨
        ∃ o text' flag', OptFlag cx.flagType flag o ∧ SlashPair b text' flag' ∧ flag' ≠ [] ∧
          FlagFault cx.flagType flag' e)) ∨
    (key ∈ ["PFX", "SFX"] ∧ ∃ name hd, head = name :: hd ∧
      ((args.head? ≠ some name ∧ k = .malformedAffix) ∨ (args = [name] ∧ k = .mismatchedArity 3 1) ∨
       (∃ strip, args = [name, strip] ∧ k = .mismatchedArity 3 2) ∨
       ∃ strip add more text flags, args = name :: strip :: add :: more ∧ SlashPair add text flags ∧
        ((∃ e, AliasFault cx.flagType cx.flagAliases flags e ∧ k = .malformedFlag e) ∨
          ∃ F cond r e, AliasFlags cx.flagType cx.flagAliases flags F ∧ more = cond :: r ∧ cond ≠ ['.'] ∧
            ConditionFault cond e ∧ k = .malformedCondition e))) := by
  cases h with
  | noColumn h => exact .inl ⟨h, rfl, rfl⟩
  | noColumns h => exact .inr (.inl ⟨h, .inl ⟨rfl, rfl⟩⟩)
  | columns h => exact .inr (.inl ⟨h, .inr ⟨_, rfl, rfl⟩⟩)
  | flags h h1 => exact .inr (.inr (.inl ⟨h, _, _, _, rfl, h1, rfl⟩))
  | rule h h1 => exact .inr (.inr (.inr (.inl ⟨h, _, _, _, rfl, h1, rfl⟩)))
  | firstFlag h h1 h2 h3 =>
    exact .inr (.inr (.inr (.inr (.inl ⟨h, _, _, _, _, rfl, rfl, _, _, h1, .inl ⟨h2, h3⟩⟩))))
  | secondFlag h h1 h2 h3 h4 h5 =>
    exact .inr (.inr (.inr (.inr (.inl ⟨h, _, _, _, _, rfl, rfl, _, _, h1, .inr ⟨_, _, _, h2, h3, h4, h5⟩⟩))))
  | name h h1 h2 => exact .inr (.inr (.inr (.inr (.inr ⟨h, _, _, h1, .inl ⟨h2, rfl⟩⟩))))
  | noStrip h h1 => exact .inr (.inr (.inr (.inr (.inr ⟨h, _, _, h1, .inr (.inl ⟨rfl, rfl⟩)⟩))))
  | noAdd h h1 => exact .inr (.inr (.inr (.inr (.inr ⟨h, _, _, h1, .inr (.inr (.inl ⟨_, rfl, rfl⟩))⟩))))
  | affixFlags h h1 h2 h3 =>
    exact .inr (.inr (.inr (.inr (.inr ⟨h, _, _, h1, .inr (.inr (.inr
      ⟨_, _, _, _, _, rfl, h2, .inl ⟨_, h3, rfl⟩⟩))⟩))))
  | condition h h1 h2 h3 h4 h5 =>
    exact .inr (.inr (.inr (.inr (.inr ⟨h, _, _, h1, .inr (.inr (.inr
      ⟨_, _, _, _, _, rfl, h2, .inr ⟨_, _, _, _, h3, rfl, h4, h5, rfl⟩⟩))⟩))))

/-- Picks the cases of `rowFault_cases` that belong to the key at hand. -/
macro "fault_inv" h:term "with" p:rcasesPat : tactic => `(tactic| (
  rcases rowFault_cases $h with ⟨hk, h⟩ | ⟨hk, h⟩ | ⟨hk, h⟩ | ⟨hk, h⟩ | ⟨hk, h⟩ | ⟨hk, h⟩ <;>
  first
  | exact absurd hk (by decide +kernel)
  | (obtain $p := h)))

theorem rowErr1 {key : String} {head : List Str} {I : Cx → Prop} {f : Cx → Str → Except ErrorKind Cx}
    (hk : key ∈ oneColumn)
    (hf : ∀ cx w ws k, w ≠ [] → (f cx w = .error k ↔ RowFault key head cx (w :: ws) k)) :
    RowErr key head I (fun cx words => match words with
      | word :: _ => P.lift id (f cx word)
      | [] => P.fail (.mismatchedArity 1 0)) := by
  intro cx args s h _ hne
  have one : ∀ k ∈ oneColumn, k ∉ twoColumns ∧ k ∉ ["PFX", "SFX"] ∧ k ≠ "CHECKCOMPOUNDPATTERN" := by
    decide +kernel
  cases args with
  | nil =>
    simp only [fail_err]
    constructor
    · rintro rfl; exact ⟨_, .noColumn hk, rfl⟩
    · rintro ⟨k, h1, rfl⟩
      rcases rowFault_cases h1 with ⟨-, -, rfl⟩ | ⟨h2, -⟩ | ⟨-, _, _, _, h2, -⟩ | ⟨-, _, _, _, h2, -⟩ |
        ⟨h2, -⟩ | ⟨h2, -⟩
      · rfl
      · exact absurd h2 (one _ hk).1
      · cases h2
      · cases h2
      · exact absurd h2 (one _ hk).2.2
      · exact absurd h2 (one _ hk).2.1
  | cons w ws =>
    simp only [lift_err, hf cx w ws _ (hne w (by simp)), id]

theorem rowErr2 {key : String} {head : List Str} {I : Cx → Prop} {f : Cx → Str → Str → Except ErrorKind Cx}
    (hk : key ∈ twoColumns) (hk' : key ≠ "CHECKCOMPOUNDPATTERN") (hf : ∀ cx w v, ∃ cx', f cx w v = .ok cx') :
    RowErr key head I (fun cx words => match words with
      | word1 :: word2 :: _ => P.lift id (f cx word1 word2)
      | [_] => P.fail (.mismatchedArity 2 1)
      | [] => P.fail (.mismatchedArity 2 0)) := by
  intro cx args s h _ hne
  have one : ∀ k ∈ twoColumns, k ∉ oneColumn ∧ k ≠ "AF" ∧ k ≠ "COMPOUNDRULE" ∧ k ∉ ["PFX", "SFX"] := by
    decide +kernel
  have inv : ∀ k, RowFault key head cx args k ↔
      ((args = [] ∧ k = .mismatchedArity 2 0) ∨ ∃ w, args = [w] ∧ k = .mismatchedArity 2 1) := by
    intro k
    constructor
    · intro h1
      rcases rowFault_cases h1 with ⟨h2, -⟩ | ⟨-, h2⟩ | ⟨h2, -⟩ | ⟨h2, -⟩ | ⟨h2, -⟩ | ⟨h2, -⟩
      · exact absurd h2 (one _ hk).1
      · exact h2
      · exact absurd h2 (one _ hk).2.1
      · exact absurd h2 (one _ hk).2.2.1
      · exact absurd h2 hk'
      · exact absurd h2 (one _ hk).2.2.2
    · rintro (⟨rfl, rfl⟩ | ⟨w, rfl, rfl⟩)
      · exact .noColumns hk
      · exact .columns hk
  simp only [inv]
  match args with
  | [] => simp [fail_err]
  | [w] => simp [fail_err]
  | w :: v :: ws =>
    obtain ⟨cx', h1⟩ := hf cx w v
    simp only [lift_err, h1]
    simp

theorem optFlag_err {ty : FlagType} {w : Str} {s : Lines} {h : Halt} :
    optFlag ty w s = .error h ↔ w ≠ [] ∧ ∃ e, FlagFault ty w e ∧ h = .error (s.error (.malformedFlag e)) := by
  unfold optFlag
  by_cases hw : w = []
  · subst hw
    simp [P_pure_err]
  · rw [if_neg (by simpa using hw), P_bind_err, flagOf_err hw]
    simp [P_pure_err, hw]

theorem patternRow_err (head : List Str) :
    RowErr "CHECKCOMPOUNDPATTERN" head (fun _ => True) patternRow := by
  intro cx args s h _ hne
  have two : "CHECKCOMPOUNDPATTERN" ∈ twoColumns := by decide +kernel
  unfold patternRow
  match args with
  | [] =>
    simp only [fail_err]
    constructor
    · rintro rfl; exact ⟨_, .noColumns two, rfl⟩
    · rintro ⟨k, h1, rfl⟩
      rcases rowFault_cases h1 with ⟨hk, h⟩ | ⟨hk, ⟨-, rfl⟩ | ⟨w, h, -⟩⟩ | ⟨hk, h⟩ | ⟨hk, h⟩ | ⟨hk, a, b, m, e, h, -⟩ | ⟨hk, h⟩ <;>
      first
      | exact absurd hk (by decide +kernel)
      | rfl
      | cases h
  | [w] =>
    simp only [fail_err]
    constructor
    · rintro rfl; exact ⟨_, .columns two, rfl⟩
    · rintro ⟨k, h1, rfl⟩
      rcases rowFault_cases h1 with ⟨hk, h⟩ | ⟨hk, ⟨h, -⟩ | ⟨w, h, rfl⟩⟩ | ⟨hk, h⟩ | ⟨hk, h⟩ | ⟨hk, a, b, m, e, h, -⟩ | ⟨hk, h⟩ <;>
      first
      | exact absurd hk (by decide +kernel)
      | rfl
      | cases h
  | a :: b :: more =>
    simp only [P_bind_err, optFlag_err, optFlag_iff, P_pure_err]
    constructor
    · rintro (⟨h1, e, h2, rfl⟩ | ⟨o, t, ⟨h1, rfl⟩, ⟨h2, e, h3, rfl⟩ | ⟨_, _, _, h⟩⟩)
      · exact ⟨_, .firstFlag rfl (slashPair_iff.2 rfl) h1 h2, rfl⟩
      · exact ⟨_, .secondFlag rfl (slashPair_iff.2 rfl) h1 (slashPair_iff.2 rfl) h2 h3, rfl⟩
      · exact h.elim
    · rintro ⟨k, h1, rfl⟩
      rcases rowFault_cases h1 with ⟨hk, h⟩ | ⟨hk, ⟨h, -⟩ | ⟨w, h, -⟩⟩ | ⟨hk, h⟩ | ⟨hk, h⟩ |
        ⟨hk, a', b', m, e, h, rfl, text, flag, h2, h3⟩ | ⟨hk, h⟩ <;>
      first
      | exact absurd hk (by decide +kernel)
      | cases h
      rw [slashPair_iff] at h2
      rw [h2]
      rcases h3 with ⟨h3, h4⟩ | ⟨o, text', flag', h3, h4, h5, h6⟩
      · exact .inl ⟨h3, e, h4, rfl⟩
      · rw [slashPair_iff] at h4
        rw [h4]
        exact .inr ⟨o, s, ⟨h3, rfl⟩, .inl ⟨h5, e, h6, rfl⟩⟩

theorem makeAffix_error {ty : FlagType} {al : List FlagSet} {f : Nat} {cross : Bool} {strip : Option Str}
    {add : Str} {cond : Option Str} {flags : Str} {k : ErrorKind} :
    makeAffix ty al f cross strip add cond flags = .error k ↔
      (∃ e, AliasFault ty al flags e ∧ k = .malformedFlag e) ∨
      ∃ F s e, AliasFlags ty al flags F ∧ cond = some s ∧ ConditionFault s e ∧ k = .malformedCondition e := by
  unfold makeAffix
  simp only [← decodeFlagset_error, aliasFlags_iff, ← Condition.parse_error]
  cases decodeFlagset flags ty al with
  | error e =>
    simp only [Except.error.injEq, reduceCtorEq, false_and, exists_false, or_false, exists_eq_left']
    exact eq_comm
  | ok F =>
    simp only [reduceCtorEq, false_and, exists_false, false_or, Except.ok.injEq]
    cases cond with
    | none =>
      have : Affix.new f cross strip add none F = .ok _ := rfl
      rw [this]
      simp
    | some s =>
      cases hc : Condition.parse s with
      | error e =>
        have : Affix.new f cross strip add (some s) F = .error e := by
          unfold Affix.new
          simp only [hc]
          rfl
        rw [this]
        simp only [Except.error.injEq, Option.some.injEq]
        constructor
        · rintro rfl; exact ⟨F, s, e, rfl, rfl, hc, rfl⟩
        · rintro ⟨_, _, e', _, rfl, h, rfl⟩
          rw [hc] at h; cases h; rfl
      | ok c =>
        have : ∃ a, Affix.new f cross strip add (some s) F = .ok a := by
          unfold Affix.new
          simp only [hc]
          exact ⟨_, rfl⟩
        obtain ⟨a, ha⟩ := this
        rw [ha]
        simp only [reduceCtorEq, Option.some.injEq, false_iff]
        rintro ⟨_, _, e', _, rfl, h, rfl⟩
        rw [hc] at h; cases h

theorem affixRow_err {key : String} (hk : key ∈ ["PFX", "SFX"]) {put : Cx → Affix → Cx} {I : Cx → Prop}
    {name : Str} {hd : List Str} {f : Nat} {cross : Bool} :
    RowErr key (name :: hd) I
      (P.affixRow name ((fun flag cross (cx : Cx) strip add condition flagset =>
        match makeAffix cx.flagType cx.flagAliases flag cross strip add condition flagset with
        | .ok a => Except.ok (put cx a)
        | .error e => Except.error e) f cross)) := by
  intro cx args s h _ _
  have no : ∀ k ∈ ["PFX", "SFX"], k ∉ oneColumn ∧ k ∉ twoColumns ∧ k ≠ "AF" ∧ k ≠ "COMPOUNDRULE" ∧
      k ≠ "CHECKCOMPOUNDPATTERN" := by decide +kernel
  have inv : ∀ k, RowFault key (name :: hd) cx args k ↔
      ((args.head? ≠ some name ∧ k = .malformedAffix) ∨ (args = [name] ∧ k = .mismatchedArity 3 1) ∨
       (∃ strip, args = [name, strip] ∧ k = .mismatchedArity 3 2) ∨
       ∃ strip add more text flags, args = name :: strip :: add :: more ∧ SlashPair add text flags ∧
        ((∃ e, AliasFault cx.flagType cx.flagAliases flags e ∧ k = .malformedFlag e) ∨
          ∃ F cond r e, AliasFlags cx.flagType cx.flagAliases flags F ∧ more = cond :: r ∧ cond ≠ ['.'] ∧
            ConditionFault cond e ∧ k = .malformedCondition e)) := by
    intro k
    constructor
    · intro h1
      rcases rowFault_cases h1 with ⟨h2, -⟩ | ⟨h2, -⟩ | ⟨h2, -⟩ | ⟨h2, -⟩ | ⟨h2, -⟩ | ⟨-, n, hd', h2, h3⟩
      · exact absurd h2 (no _ hk).1
      · exact absurd h2 (no _ hk).2.1
      · exact absurd h2 (no _ hk).2.2.1
      · exact absurd h2 (no _ hk).2.2.2.1
      · exact absurd h2 (no _ hk).2.2.2.2
      · cases h2; exact h3
    · rintro (⟨h1, rfl⟩ | ⟨rfl, rfl⟩ | ⟨strip, rfl, rfl⟩ |
        ⟨strip, add, more, text, flags, rfl, h1, ⟨e, h2, rfl⟩ | ⟨F, cond, r, e, h2, rfl, h3, h4, rfl⟩⟩)
      · exact .name hk rfl h1
      · exact .noStrip hk rfl
      · exact .noAdd hk rfl
      · exact .affixFlags hk rfl h1 h2
      · exact .condition hk rfl h1 h2 h3 h4
  simp only [inv]
  unfold P.affixRow
  by_cases h1 : args.head? = some name
  · rw [if_neg (by simpa using h1)]
    match args, h1 with
    | [n], h1 =>
      simp only [List.head?_cons, Option.some.injEq] at h1
      subst h1
      simp [fail_err]
    | [n, b], h1 =>
      simp only [List.head?_cons, Option.some.injEq] at h1
      subst h1
      simp [fail_err]
    | n :: strip :: add :: more, h1 =>
      simp only [List.head?_cons, Option.some.injEq] at h1
      subst h1
      simp only [List.tail_cons, lift_err, id]
      have hm : ∀ k, (match makeAffix cx.flagType cx.flagAliases f cross
            (if strip = ['0'] then none else some strip)
            (if (splitWordAndFlags add).1 = ['0'] then [] else (splitWordAndFlags add).1)
            (more.head?.filter fun c => c ≠ ['.']) (splitWordAndFlags add).2 with
          | .ok a => Except.ok (put cx a)
          | .error e => Except.error e) = .error k ↔ makeAffix cx.flagType cx.flagAliases f cross
            (if strip = ['0'] then none else some strip)
            (if (splitWordAndFlags add).1 = ['0'] then [] else (splitWordAndFlags add).1)
            (more.head?.filter fun c => c ≠ ['.']) (splitWordAndFlags add).2 = .error k := by
        intro k
        cases makeAffix cx.flagType cx.flagAliases f cross
            (if strip = ['0'] then none else some strip)
            (if (splitWordAndFlags add).1 = ['0'] then [] else (splitWordAndFlags add).1)
            (more.head?.filter fun c => c ≠ ['.']) (splitWordAndFlags add).2 <;> simp
      refine exists_congr fun k => and_congr_left fun _ => (hm k).trans (makeAffix_error.trans ?_)
      constructor
      · rintro (h2 | ⟨F, c, e, h2, h3, h4, h5⟩)
        · exact .inr (.inr (.inr ⟨strip, add, more, _, _, rfl, slashPair_iff.2 rfl, .inl h2⟩))
        · refine .inr (.inr (.inr ⟨strip, add, more, _, _, rfl, slashPair_iff.2 rfl, .inr ?_⟩))
          cases more with
          | nil => simp at h3
          | cons m r =>
            simp only [List.head?_cons, Option.filter_some, decide_not, Bool.not_eq_eq_eq_not, Bool.not_true,
              decide_eq_false_iff_not, Option.ite_none_right_eq_some, Option.some.injEq, ne_eq] at h3
            obtain ⟨hm, rfl⟩ := h3
            exact ⟨F, m, r, e, h2, rfl, hm, h4, h5⟩
      · rintro (⟨h2, -⟩ | ⟨h2, -⟩ | ⟨_, h2, -⟩ | ⟨strip', add', more', text, flags, h2, h3, h4⟩)
        · simp at h2
        · simp at h2
        · simp at h2
        · simp only [List.cons.injEq, true_and] at h2
          obtain ⟨rfl, rfl, rfl⟩ := h2
          rw [slashPair_iff] at h3
          rw [h3]
          rcases h4 with h4 | ⟨F, c, r, e, h4, rfl, h5, h6, h7⟩
          · exact .inl h4
          · exact .inr ⟨F, c, e, h4, by simp [h5], h6, h7⟩
  · rw [if_pos (by simpa using h1), fail_err]
    constructor
    · rintro rfl; exact ⟨_, .inl ⟨h1, rfl⟩, rfl⟩
    · rintro ⟨k, (⟨-, rfl⟩ | ⟨rfl, -⟩ | ⟨_, rfl, -⟩ | ⟨_, _, _, _, _, rfl, -⟩), rfl⟩
      · rfl
      · simp at h1
      · simp at h1
      · simp at h1

/-! ## Directives -/

/-- The errors of the directive are those of its lines. -/
def FaithfulErr (U : Unicode) (key : String) (d : Directive) : Prop :=
  ∀ (cx : Cx) (s : Lines) (args : List Str) (h : Halt), s.words = some args → (∀ w ∈ args, w ≠ []) →
    (d U cx s = .error h ↔ (∃ k, LineFault key cx args k ∧ h = .error (s.error k)) ∨
      ∃ n cx₁ number k, TableHead key cx args n cx₁ ∧
        RowsFault U key args n 1 cx₁ (npend U s.lines) number k ∧ h = .error ⟨k, s.source, number⟩)

theorem class_one : ∀ k ∈ oneWord, keyClass k ∈ [0, 2, 3, 5, 6, 7, 8, 9] := by decide +kernel

/-- The cases of `LineFault`. -/
theorem lineFault_cases {key : String} {args : List Str} {cx : Cx} {k : ErrorKind}
    (h : LineFault key cx args k) :
    (keyClass key ∈ [0, 2, 3, 5, 6, 7, 8, 9] ∧ args = [] ∧ k = .mismatchedArity 1 0) ∨
    (keyClass key = 5 ∧ ∃ w ws, args = w :: ws ∧ (∀ U ty, ¬ FlagTypeName U w ty) ∧ k = .unknownFlagType w) ∨
    (keyClass key = 0 ∧ ∃ w ws e, args = w :: ws ∧ FlagFault cx.flagType w e ∧ k = .malformedFlag e) ∨
    (keyClass key = 2 ∧ ∃ w ws e, args = w :: ws ∧ NumberFault 65535 w e ∧ k = .malformedNumber e) ∨
    (keyClass key = 10 ∧ ((args = [] ∧ k = .mismatchedArity 2 0) ∨ (∃ w, args = [w] ∧ k = .mismatchedArity 2 1) ∨
      ∃ w v ws e, args = w :: v :: ws ∧ NumberFault 65535 w e ∧ k = .malformedNumber e)) ∨
    (keyClass key = 3 ∧ ∃ w ws e, args = w :: ws ∧ NumberFault (2 ^ 64 - 1) w e ∧ k = .malformedNumber e) ∨
    (keyClass key = 4 ∧ ((args = [] ∧ k = .mismatchedArity 3 0) ∨
      (∃ name ws e, args = name :: ws ∧ FlagFault cx.flagType name e ∧ k = .malformedFlag e) ∨
      (∃ name f ws, args = name :: ws ∧ FlagOf cx.flagType name f ∧ Flag.Valid f ∧
        ((ws = [] ∧ k = .mismatchedArity 3 1) ∨
          (∃ cross r, ws = cross :: r ∧ cross ∉ [['Y'], ['N']] ∧ k = .malformedAffix) ∨
          ∃ cross r, ws = cross :: r ∧ cross ∈ [['Y'], ['N']] ∧
            ((r = [] ∧ k = .mismatchedArity 3 2) ∨
              ∃ w q e, r = w :: q ∧ NumberFault (2 ^ 64 - 1) w e ∧ k = .malformedNumber e))))) := by
  cases h with
  | noWord h => exact .inl ⟨class_one _ h, rfl, rfl⟩
  | flagType h h1 => exact .inr (.inl ⟨by rw [h]; decide +kernel, _, _, rfl, h1, rfl⟩)
  | flag h h1 => exact .inr (.inr (.inl ⟨class_flag _ h, _, _, _, rfl, h1, rfl⟩))
  | number h h1 => exact .inr (.inr (.inr (.inl ⟨class_number _ h, _, _, _, rfl, h1, rfl⟩)))
  | noSyllables h => exact .inr (.inr (.inr (.inr (.inl ⟨by rw [h]; decide +kernel, .inl ⟨rfl, rfl⟩⟩))))
  | noVowels h => exact .inr (.inr (.inr (.inr (.inl ⟨by rw [h]; decide +kernel, .inr (.inl ⟨_, rfl, rfl⟩)⟩))))
  | syllables h h1 =>
    exact .inr (.inr (.inr (.inr (.inl ⟨by rw [h]; decide +kernel, .inr (.inr ⟨_, _, _, _, rfl, h1, rfl⟩)⟩))))
  | count h h1 => exact .inr (.inr (.inr (.inr (.inr (.inl ⟨class_table _ h, _, _, _, rfl, h1, rfl⟩)))))
  | noName h => exact .inr (.inr (.inr (.inr (.inr (.inr ⟨class_affix _ h, .inl ⟨rfl, rfl⟩⟩)))))
  | affixFlag h h1 =>
    exact .inr (.inr (.inr (.inr (.inr (.inr ⟨class_affix _ h, .inr (.inl ⟨_, _, _, rfl, h1, rfl⟩)⟩)))))
  | noCross h h1 h2 =>
    exact .inr (.inr (.inr (.inr (.inr (.inr ⟨class_affix _ h, .inr (.inr
      ⟨_, _, _, rfl, h1, h2, .inl ⟨rfl, rfl⟩⟩)⟩)))))
  | cross h h1 h2 h3 =>
    exact .inr (.inr (.inr (.inr (.inr (.inr ⟨class_affix _ h, .inr (.inr
      ⟨_, _, _, rfl, h1, h2, .inr (.inl ⟨_, _, rfl, h3, rfl⟩)⟩)⟩)))))
  | noCount h h1 h2 h3 =>
    exact .inr (.inr (.inr (.inr (.inr (.inr ⟨class_affix _ h, .inr (.inr
      ⟨_, _, _, rfl, h1, h2, .inr (.inr ⟨_, _, rfl, h3, .inl ⟨rfl, rfl⟩⟩)⟩)⟩)))))
  | affixCount h h1 h2 h3 h4 =>
    exact .inr (.inr (.inr (.inr (.inr (.inr ⟨class_affix _ h, .inr (.inr
      ⟨_, _, _, rfl, h1, h2, .inr (.inr ⟨_, _, rfl, h3, .inr ⟨_, _, _, rfl, h4, rfl⟩⟩)⟩)⟩)))))

theorem tableHead_cases {key : String} {args : List Str} {cx cx₁ : Cx} {n : Nat} (h : TableHead key cx args n cx₁) :
    (keyClass key = 3 ∧ ∃ w ws, args = w :: ws ∧ IsNumeral w n ∧ n < 2 ^ 64 ∧
      cx₁ = if key = "BREAK" then { cx with breakPatterns := [] } else cx) ∨
    (keyClass key = 4 ∧ cx₁ = cx ∧ ∃ name f cross w ws, args = name :: cross :: w :: ws ∧
      FlagOf cx.flagType name f ∧ Flag.Valid f ∧ cross ∈ [['Y'], ['N']] ∧ IsNumeral w n ∧ n < 2 ^ 64) := by
  cases h with
  | table h h1 h2 => exact .inl ⟨class_table _ h, _, _, rfl, h1, h2, rfl⟩
  | affixes h h1 h2 h3 h4 h5 => exact .inr ⟨class_affix _ h, rfl, _, _, _, _, _, rfl, h1, h2, h3, h4, h5⟩

/-- A directive without rows. -/
theorem faithfulErr_of {key : String} {d : Directive} (h3 : keyClass key ≠ 3) (h4 : keyClass key ≠ 4)
    (hd : ∀ (cx : Cx) (s : Lines) (args : List Str) (h : Halt), s.words = some args → (∀ w ∈ args, w ≠ []) →
      (d U cx s = .error h ↔ ∃ k, LineFault key cx args k ∧ h = .error (s.error k))) :
    FaithfulErr U key d := by
  intro cx s args h hs hne
  rw [hd cx s args h hs hne]
  constructor
  · exact .inl
  · rintro (h | ⟨n, cx₁, number, k, ht, -⟩)
    · exact h
    · rcases tableHead_cases ht with ⟨h, -⟩ | ⟨h, -⟩
      · exact absurd h h3
      · exact absurd h h4

/-- Picks the cases of `lineFault_cases` that belong to the class of the key. -/
macro "line_inv" h:term "class" hk:term "with" n:ident : tactic => `(tactic| (
  rcases lineFault_cases $h with ⟨hc, $n:ident⟩ | ⟨hc, $n:ident⟩ | ⟨hc, $n:ident⟩ | ⟨hc, $n:ident⟩ |
    ⟨hc, $n:ident⟩ | ⟨hc, $n:ident⟩ | ⟨hc, $n:ident⟩ <;>
  rw [$hk:term] at hc <;>
  first
  | exact absurd hc (by decide)
  | skip))

theorem err_flag {key : String} {set : AffOptions → Nat → AffOptions} (hk : key ∈ flagKeys.map (·.1)) :
    FaithfulErr U key (flagDirective set) := by
  have hc := class_flag _ hk
  have h1 : key ∈ oneWord := by unfold oneWord; simp only [List.mem_append]; exact .inl (.inl (.inl hk))
  refine faithfulErr_of (by rw [hc]; decide) (by rw [hc]; decide) fun cx s args h hs hne => ?_
  unfold flagDirective P.flag
  simp only [P_bind_err, takeOneWord_err hs, takeOneWord_iff, P_pure_err]
  constructor
  · rintro ((⟨rfl, rfl⟩ | ⟨w, t, ⟨ws, h2, rfl⟩, h3⟩) | ⟨_, _, _, h⟩)
    · exact ⟨_, .noWord h1, rfl⟩
    · rw [hs] at h2; cases h2
      obtain ⟨e, h4, rfl⟩ := (flagOf_err (hne w (by simp))).1 h3
      exact ⟨_, .flag hk h4, rfl⟩
    · exact h.elim
  · rintro ⟨k, hl, rfl⟩
    line_inv hl class hc with h
    · obtain ⟨rfl, rfl⟩ := h; exact .inl (.inl ⟨rfl, rfl⟩)
    · obtain ⟨w, ws, e, rfl, h2, rfl⟩ := h
      exact .inl (.inr ⟨w, _, ⟨ws, hs, rfl⟩, (flagOf_err (hne w (by simp))).2 ⟨e, h2, rfl⟩⟩)

theorem err_switch {key : String} {set : AffOptions → Bool → AffOptions} (hk : key ∈ switchKeys.map (·.1)) :
    FaithfulErr U key (boolDirective set) := by
  have hc := class_switch _ hk
  refine faithfulErr_of (by rw [hc]; decide) (by rw [hc]; decide) fun cx s args h hs hne => ?_
  unfold boolDirective P.bool
  simp only [P_bind_err, P_pure_err]
  constructor
  · rintro (h | ⟨_, _, _, h⟩) <;> exact h.elim
  · rintro ⟨k, hl, rfl⟩
    line_inv hl class hc with h

theorem err_number {key : String} {set : AffOptions → Nat → AffOptions} (hk : key ∈ numberKeys.map (·.1)) :
    FaithfulErr U key (shortDirective set) := by
  have hc := class_number _ hk
  have h1 : key ∈ oneWord := by unfold oneWord; simp only [List.mem_append]; exact .inl (.inl (.inr hk))
  refine faithfulErr_of (by rw [hc]; decide) (by rw [hc]; decide) fun cx s args h hs hne => ?_
  unfold shortDirective P.short
  simp only [P_bind_err, takeOneWord_err hs, takeOneWord_iff, P_pure_err, lift_err, parseUInt_error]
  constructor
  · rintro ((⟨rfl, rfl⟩ | ⟨w, t, ⟨ws, h2, rfl⟩, e, h4, rfl⟩) | ⟨_, _, _, h⟩)
    · exact ⟨_, .noWord h1, rfl⟩
    · rw [hs] at h2; cases h2
      exact ⟨_, .number hk h4, rfl⟩
    · exact h.elim
  · rintro ⟨k, hl, rfl⟩
    line_inv hl class hc with h
    · obtain ⟨rfl, rfl⟩ := h; exact .inl (.inl ⟨rfl, rfl⟩)
    · obtain ⟨w, ws, e, rfl, h2, rfl⟩ := h
      exact .inl (.inr ⟨w, _, ⟨ws, hs, rfl⟩, e, h2, rfl⟩)

theorem err_word {key : String} {set : Cx → Str → Cx} (hk : key ∈ ["IGNORE", "KEY", "TRY", "LANG"]) :
    FaithfulErr U key (wordDirective set) := by
  have hc : ∀ k ∈ ["IGNORE", "KEY", "TRY", "LANG"], keyClass k ∈ [6, 7, 8, 9] := by decide +kernel
  have hc := hc _ hk
  have h1 : ∀ k ∈ ["IGNORE", "KEY", "TRY", "LANG"], k ∈ oneWord := by decide +kernel
  have h1 := h1 _ hk
  refine faithfulErr_of (by intro h; rw [h] at hc; revert hc; decide) (by intro h; rw [h] at hc; revert hc; decide)
    fun cx s args h hs hne => ?_
  unfold wordDirective
  simp only [P_bind_err, takeOneWord_err hs, P_pure_err]
  constructor
  · rintro (⟨rfl, rfl⟩ | ⟨_, _, _, h⟩)
    · exact ⟨_, .noWord h1, rfl⟩
    · exact h.elim
  · rintro ⟨k, hl, rfl⟩
    rcases lineFault_cases hl with ⟨-, rfl, rfl⟩ | ⟨hc', h⟩ | ⟨hc', h⟩ | ⟨hc', h⟩ | ⟨hc', h⟩ | ⟨hc', h⟩ | ⟨hc', h⟩
    · exact .inl ⟨rfl, rfl⟩
    all_goals
      rw [hc'] at hc
      exact absurd hc (by decide)

theorem err_flagType : FaithfulErr U "FLAG" flagTypeDirective := by
  have hc : keyClass "FLAG" = 5 := by decide +kernel
  refine faithfulErr_of (by rw [hc]; decide) (by rw [hc]; decide) fun cx s args h hs hne => ?_
  unfold flagTypeDirective
  simp only [P_bind_err, takeOneWord_err hs, takeOneWord_iff]
  constructor
  · rintro (⟨rfl, rfl⟩ | ⟨w, t, ⟨ws, h2, rfl⟩, h3⟩)
    · exact ⟨_, .noWord (by decide +kernel), rfl⟩
    · rw [hs] at h2; cases h2
      split at h3
      · exact (P_pure_err.1 h3).elim
      · split at h3
        · exact (P_pure_err.1 h3).elim
        · split at h3
          · exact (P_pure_err.1 h3).elim
          · rename_i n1 n2 n3
            refine ⟨_, .flagType rfl ?_, fail_err.1 h3⟩
            intro U' ty hty
            cases hty
            · exact n1 rfl
            · exact n2 rfl
            · exact n3 rfl
  · rintro ⟨k, hl, rfl⟩
    line_inv hl class hc with h
    · obtain ⟨rfl, rfl⟩ := h; exact .inl ⟨rfl, rfl⟩
    · obtain ⟨w, ws, rfl, h2, rfl⟩ := h
      refine .inr ⟨w, _, ⟨ws, hs, rfl⟩, ?_⟩
      rw [if_neg (fun e => h2 U (.long U.byteOrder) (by rw [e]; exact .long)), if_neg (fun e => h2 U .numeric (by rw [e]; exact .num)),
        if_neg (fun e => h2 U .utf8 (by rw [e]; exact .utf8))]
      exact fail_err.2 rfl

theorem err_syllable : FaithfulErr U "COMPOUNDSYLLABLE" syllableDirective := by
  have hc : keyClass "COMPOUNDSYLLABLE" = 10 := by decide +kernel
  refine faithfulErr_of (by rw [hc]; decide) (by rw [hc]; decide) fun cx s args h hs hne => ?_
  unfold syllableDirective
  rw [P_bind_ok (x := P.takeWords) (a := some args) (s' := { s with words := none }) (by simp [P.takeWords, hs])]
  have inv : ∀ k, LineFault "COMPOUNDSYLLABLE" cx args k ↔
      ((args = [] ∧ k = .mismatchedArity 2 0) ∨ (∃ w, args = [w] ∧ k = .mismatchedArity 2 1) ∨
      ∃ w v ws e, args = w :: v :: ws ∧ NumberFault 65535 w e ∧ k = .malformedNumber e) := by
    intro k
    constructor
    · intro hl
      line_inv hl class hc with h
      exact h
    · rintro (⟨rfl, rfl⟩ | ⟨w, rfl, rfl⟩ | ⟨w, v, ws, e, rfl, h1, rfl⟩)
      · exact .noSyllables rfl
      · exact .noVowels rfl
      · exact .syllables rfl h1
  simp only [inv]
  match args with
  | [] => simp [fail_err]; rfl
  | [w] => simp [fail_err]; rfl
  | w :: v :: ws =>
    simp only [P_bind_err, P_pure_err, lift_err, parseUInt_error]
    constructor
    · rintro (⟨e, h1, rfl⟩ | ⟨_, _, _, h⟩)
      · exact ⟨_, .inr (.inr ⟨w, v, ws, e, rfl, h1, rfl⟩), rfl⟩
      · exact h.elim
    · rintro ⟨k, (⟨h, -⟩ | ⟨_, h, -⟩ | ⟨w', v', ws', e, h, h1, rfl⟩), rfl⟩
      · cases h
      · cases h
      · cases h; exact .inl ⟨e, h1, rfl⟩

theorem err_table {key : String} (hk : key ∈ tableKeys) {f : Cx → List Str → P Cx}
    (hf : ∀ head, RowFun key head (fun _ => True) f) (he : ∀ head, RowErr key head (fun _ => True) f) :
    FaithfulErr U key (fun U cx => P.count >>= fun n => P.rows U key.toList n f n 1
      (if key = "BREAK" then { cx with breakPatterns := [] } else cx)) := by
  intro cx s args h hs hne
  have hc := class_table _ hk
  have h1 : key ∈ oneWord := by
    unfold oneWord; simp only [List.mem_append]; exact .inl (.inr hk)
  dsimp only
  rw [P_bind_err]
  unfold P.count
  simp only [P_bind_err, takeOneWord_err hs, takeOneWord_iff, lift_err, parseUInt_error]
  constructor
  · rintro ((⟨rfl, rfl⟩ | ⟨w, t, ⟨ws, h2, rfl⟩, e, h3, rfl⟩) | ⟨n, t, h2, h3⟩)
    · exact .inl ⟨_, .noWord h1, rfl⟩
    · rw [hs] at h2; cases h2
      exact .inl ⟨_, .count hk h3, rfl⟩
    · obtain ⟨w, ws, h4, ⟨h5, h6⟩, rfl⟩ := count_iff.1 h2
      rw [hs] at h4; cases h4
      obtain ⟨number, k, h7, rfl⟩ := (rows_err (hf (w :: ws)) (he (w :: ws)) (fun _ _ _ _ _ => trivial) n 1 _ _ h
        trivial (by omega)).1 h3
      exact .inr ⟨n, _, number, k, .table hk h5 (by unfold usizeMax at h6; omega), h7, rfl⟩
  · rintro (⟨k, hl, rfl⟩ | ⟨n, cx₁, number, k, ht, hr, rfl⟩)
    · line_inv hl class hc with h
      · obtain ⟨rfl, rfl⟩ := h; exact .inl (.inl ⟨rfl, rfl⟩)
      · obtain ⟨w, ws, e, rfl, h2, rfl⟩ := h
        exact .inl (.inr ⟨w, _, ⟨ws, hs, rfl⟩, e, h2, rfl⟩)
    · rcases tableHead_cases ht with ⟨-, w, ws, rfl, h2, h3, rfl⟩ | ⟨h2, -⟩
      · exact .inr ⟨n, _, count_iff.2 ⟨w, ws, hs, ⟨h2, by unfold usizeMax; omega⟩, rfl⟩,
          (rows_err (hf (w :: ws)) (he (w :: ws)) (fun _ _ _ _ _ => trivial) n 1 _ _ _ trivial (by omega)).2
            ⟨number, k, hr, rfl⟩⟩
      · rw [hc] at h2; cases h2

theorem err_affixes {key : String} (hk : key ∈ ["PFX", "SFX"]) {put : Cx → Affix → Cx}
    (hrow : ∀ head args cx cx', Row key head cx args cx' ↔
      ∃ name cross hd f strip add more a, head = name :: cross :: hd ∧
      args = name :: strip :: add :: more ∧ FlagOf cx.flagType name f ∧ Flag.Valid f ∧
      AffixRow cx f (cross = ['Y']) strip add more a ∧ cx' = put cx a)
    (hput : ∀ cx a, (put cx a).flagType = cx.flagType) :
    FaithfulErr U key (fun U cx => P.affixTable U key.toList cx.flagType
      (fun flag cross (cx : Cx) strip add condition flagset =>
      match makeAffix cx.flagType cx.flagAliases flag cross strip add condition flagset with
      | .ok a => .ok (put cx a)
      | .error e => .error e) cx) := by
  intro cx s args h hs hne
  have hc := class_affix _ hk
  have hI := affix_inv hrow hput
  have hF := @affix_rowFun key put hrow
  dsimp only
  have inv : ∀ k, LineFault key cx args k ↔ ((args = [] ∧ k = .mismatchedArity 3 0) ∨
      (∃ name ws e, args = name :: ws ∧ FlagFault cx.flagType name e ∧ k = .malformedFlag e) ∨
      (∃ name f ws, args = name :: ws ∧ FlagOf cx.flagType name f ∧ Flag.Valid f ∧
        ((ws = [] ∧ k = .mismatchedArity 3 1) ∨
          (∃ cross r, ws = cross :: r ∧ cross ∉ [['Y'], ['N']] ∧ k = .malformedAffix) ∨
          ∃ cross r, ws = cross :: r ∧ cross ∈ [['Y'], ['N']] ∧
            ((r = [] ∧ k = .mismatchedArity 3 2) ∨
              ∃ w q e, r = w :: q ∧ NumberFault (2 ^ 64 - 1) w e ∧ k = .malformedNumber e)))) := by
    intro k
    constructor
    · intro hl
      line_inv hl class hc with h
      exact h
    · rintro (⟨rfl, rfl⟩ | ⟨name, ws, e, rfl, h1, rfl⟩ | ⟨name, f, ws, rfl, h1, h2, ⟨rfl, rfl⟩ | ⟨cross, r, rfl, h3, rfl⟩ |
        ⟨cross, r, rfl, h3, ⟨rfl, rfl⟩ | ⟨w, q, e, rfl, h4, rfl⟩⟩⟩)
      · exact .noName hk
      · exact .affixFlag hk h1
      · exact .noCross hk h1 h2
      · exact .cross hk h1 h2 h3
      · exact .noCount hk h1 h2 h3
      · exact .affixCount hk h1 h2 h3 h4
  have tinv : ∀ n cx₁, TableHead key cx args n cx₁ ↔ (cx₁ = cx ∧ ∃ name f cross w ws, args = name :: cross :: w :: ws ∧
      FlagOf cx.flagType name f ∧ Flag.Valid f ∧ cross ∈ [['Y'], ['N']] ∧ IsNumeral w n ∧ n < 2 ^ 64) := by
    intro n cx₁
    constructor
    · intro ht
      rcases tableHead_cases ht with ⟨h2, -⟩ | ⟨-, h2⟩
      · rw [hc] at h2; cases h2
      · exact h2
    · rintro ⟨rfl, name, f, cross, w, ws, rfl, h1, h2, h3, h4, h5⟩
      exact .affixes hk h1 h2 h3 h4 h5
  simp only [inv, tinv]
  unfold P.affixTable
  rw [P_bind_ok (x := P.takeWords) (a := some args) (s' := { s with words := none }) (by simp [P.takeWords, hs])]
  constructor
  · intro h1
    match args with
    | [] => exact .inl ⟨_, .inl ⟨rfl, rfl⟩, fail_err.1 h1⟩
    | name :: more =>
      rcases P_bind_err.1 h1 with h2 | ⟨f, t, h2, h3⟩
      · obtain ⟨e, h3, rfl⟩ := (flagOf_err (hne name (by simp))).1 h2
        exact .inl ⟨_, .inr (.inl ⟨name, more, e, rfl, h3, rfl⟩), rfl⟩
      · obtain ⟨⟨h4, h5⟩, rfl⟩ := flagOf_iff.1 h2
        match more with
        | [] => exact .inl ⟨_, .inr (.inr ⟨name, f, [], rfl, h4, h5, .inl ⟨rfl, rfl⟩⟩), fail_err.1 h3⟩
        | cross :: more =>
          simp only at h3
          by_cases hcr : cross ≠ ['Y'] ∧ cross ≠ ['N']
          · rw [if_pos hcr] at h3
            rcases P_bind_err.1 h3 with h3 | ⟨_, _, h3, -⟩
            · refine .inl ⟨_, .inr (.inr ⟨name, f, _, rfl, h4, h5, .inr (.inl ⟨cross, more, rfl, ?_, rfl⟩)⟩),
                fail_err.1 h3⟩
              simp [hcr.1, hcr.2]
            · exact (P_fail_iff.1 h3).elim
          · rw [if_neg hcr] at h3
            have hcr' : cross ∈ [['Y'], ['N']] := by
              simp only [List.mem_cons, List.not_mem_nil, or_false]
              by_contra hx
              exact hcr ⟨fun e => hx (.inl e), fun e => hx (.inr e)⟩
            match more with
            | [] =>
              exact .inl ⟨_, .inr (.inr ⟨name, f, _, rfl, h4, h5, .inr (.inr ⟨cross, [], rfl, hcr', .inl ⟨rfl, rfl⟩⟩)⟩),
                fail_err.1 h3⟩
            | w :: ws =>
              rcases P_bind_err.1 h3 with h3 | ⟨n, t, h6, h7⟩
              · obtain ⟨e, h6, rfl⟩ := lift_err.1 h3
                exact .inl ⟨_, .inr (.inr ⟨name, f, _, rfl, h4, h5, .inr (.inr ⟨cross, _, rfl, hcr', .inr
                  ⟨w, ws, e, rfl, parseUInt_error.1 h6, rfl⟩⟩)⟩), rfl⟩
              · obtain ⟨h8, rfl⟩ := lift_iff.1 h6
                obtain ⟨h9, h10⟩ := parseUInt_ok.1 h8
                obtain ⟨number, k, h11, rfl⟩ := (rows_err (hF cx.flagType name cross (w :: ws) f h4 h5) (affixRow_err hk)
                  (hI _ _) n 1 cx _ h rfl (by omega)).1 h7
                exact .inr ⟨n, cx, number, k, ⟨rfl, name, f, cross, w, ws, rfl, h4, h5, hcr', h9,
                  by unfold usizeMax at h10; omega⟩, h11, rfl⟩
  · rintro (⟨k, (⟨rfl, rfl⟩ | ⟨name, ws, e, rfl, h1, rfl⟩ | ⟨name, f, ws, rfl, h1, h2, h3⟩), rfl⟩ |
      ⟨n, cx₁, number, k, ⟨rfl, name, f, cross, w, ws, rfl, h1, h2, h3, h4, h5⟩, h6, rfl⟩)
    · exact fail_err.2 rfl
    · exact P_bind_err.2 (.inl ((flagOf_err (hne name (by simp))).2 ⟨e, h1, rfl⟩))
    · refine P_bind_err.2 (.inr ⟨f, _, flagOf_iff.2 ⟨⟨h1, h2⟩, rfl⟩, ?_⟩)
      rcases h3 with ⟨rfl, rfl⟩ | ⟨cross, r, rfl, h3, rfl⟩ | ⟨cross, r, rfl, h3, h4⟩
      · exact fail_err.2 rfl
      · simp only
        rw [if_pos (by simpa using h3)]
        exact P_bind_err.2 (.inl (fail_err.2 rfl))
      · simp only
        rw [if_neg (by simp at h3; tauto)]
        rcases h4 with ⟨rfl, rfl⟩ | ⟨w, q, e, rfl, h4, rfl⟩
        · exact fail_err.2 rfl
        · exact P_bind_err.2 (.inl (lift_err.2 ⟨e, parseUInt_error.2 h4, rfl⟩))
    · refine P_bind_err.2 (.inr ⟨f, _, flagOf_iff.2 ⟨⟨h1, h2⟩, rfl⟩, ?_⟩)
      simp only
      rw [if_neg (by simp at h3; tauto)]
      exact P_bind_err.2 (.inr ⟨n, _, lift_iff.2 ⟨parseUInt_ok.2 ⟨h4, by unfold usizeMax; omega⟩, rfl⟩,
        (rows_err (hF cx₁.flagType name cross (w :: ws) f h1 h2) (affixRow_err hk)
                  (hI _ _) n 1 cx₁ _ _ rfl (by omega)).2 ⟨number, k, h6, rfl⟩⟩)

/-- The errors of every directive of the table are those of its lines. -/
theorem affParsers_err : ∀ p ∈ affParsers, ∃ key ∈ knownKeys, p.1 = key.toList ∧ FaithfulErr U key p.2 := by
  unfold affParsers
  simp only [List.forall_mem_cons, List.not_mem_nil, false_implies, implies_true, and_true]
  have fl : ∀ (key : String) (set : AffOptions → Nat → AffOptions), key ∈ flagKeys.map (·.1) →
      ∃ k ∈ knownKeys, key.toList = k.toList ∧ FaithfulErr U k (flagDirective set) := fun key set h =>
    ⟨key, by simp only [knownKeys, List.mem_append]; exact .inl (.inl (.inl h)), rfl, err_flag h⟩
  have sw : ∀ (key : String) (set : AffOptions → Bool → AffOptions), key ∈ switchKeys.map (·.1) →
      ∃ k ∈ knownKeys, key.toList = k.toList ∧ FaithfulErr U k (boolDirective set) := fun key set h =>
    ⟨key, by simp only [knownKeys, List.mem_append]; exact .inl (.inl (.inr h)), rfl, err_switch h⟩
  have nu : ∀ (key : String) (set : AffOptions → Nat → AffOptions), key ∈ numberKeys.map (·.1) →
      ∃ k ∈ knownKeys, key.toList = k.toList ∧ FaithfulErr U k (shortDirective set) := fun key set h =>
    ⟨key, by simp only [knownKeys, List.mem_append]; exact .inl (.inr h), rfl, err_number h⟩
  have wo : ∀ (key : String) (set : Cx → Str → Cx), key ∈ ["IGNORE", "KEY", "TRY", "LANG"] → key ∈ knownKeys →
      ∃ k ∈ knownKeys, key.toList = k.toList ∧ FaithfulErr U k (wordDirective set) := fun key set h h1 =>
    ⟨key, h1, rfl, err_word h⟩
  refine ⟨⟨"FLAG", by decide +kernel, rfl, err_flagType⟩,
    fl "FORBIDDENWORD" _ (by decide +kernel), fl "CIRCUMFIX" _ (by decide +kernel),
    fl "KEEPCASE" _ (by decide +kernel), fl "NEEDAFFIX" _ (by decide +kernel),
    fl "NOSUGGEST" _ (by decide +kernel), fl "SUBSTANDARD" _ (by decide +kernel),
    fl "WARN" _ (by decide +kernel), fl "COMPOUNDFLAG" _ (by decide +kernel),
    fl "COMPOUNDBEGIN" _ (by decide +kernel), fl "COMPOUNDMIDDLE" _ (by decide +kernel),
    fl "COMPOUNDEND" _ (by decide +kernel), fl "ONLYINCOMPOUND" _ (by decide +kernel),
    fl "COMPOUNDPERMITFLAG" _ (by decide +kernel), fl "COMPOUNDFORBIDFLAG" _ (by decide +kernel),
    fl "COMPOUNDROOT" _ (by decide +kernel), fl "FORCEUCASE" _ (by decide +kernel),
    sw "COMPLEXPREFIXES" _ (by decide +kernel), sw "FULLSTRIP" _ (by decide +kernel),
    sw "CHECKSHARPS" _ (by decide +kernel), sw "FORBIDWARN" _ (by decide +kernel),
    sw "COMPOUNDMORESUFFIXES" _ (by decide +kernel), sw "CHECKCOMPOUNDDUP" _ (by decide +kernel),
    sw "CHECKCOMPOUNDREP" _ (by decide +kernel), sw "CHECKCOMPOUNDCASE" _ (by decide +kernel),
    sw "CHECKCOMPOUNDTRIPLE" _ (by decide +kernel), sw "SIMPLIFIEDTRIPLE" _ (by decide +kernel),
    sw "SYLLABLENUM" _ (by decide +kernel), sw "ONLYMAXDIFF" _ (by decide +kernel),
    sw "NOSPLITSUGS" _ (by decide +kernel), sw "SUGSWITHDOTS" _ (by decide +kernel),
    nu "COMPOUNDMIN" _ (by decide +kernel), nu "COMPOUNDWORDMAX" _ (by decide +kernel),
    nu "MAXCPDSUGS" _ (by decide +kernel), nu "MAXNGRAMSUGS" _ (by decide +kernel),
    nu "MAXDIFF" _ (by decide +kernel), wo "IGNORE" _ (by decide +kernel) (by decide +kernel),
    wo "KEY" _ (by decide +kernel) (by decide +kernel), wo "TRY" _ (by decide +kernel) (by decide +kernel),
    wo "LANG" _ (by decide +kernel) (by decide +kernel),
    ?_, ?_, ?_, ?_, ⟨"COMPOUNDSYLLABLE", by decide +kernel, rfl, err_syllable⟩, ?_, ?_, ?_, ?_, ?_, ?_⟩
  · exact ⟨"REP", by decide +kernel, rfl, err_table (key := "REP") (by decide +kernel) rowFun_rep fun head =>
      rowErr2 (by decide +kernel) (by decide) fun _ _ _ => ⟨_, rfl⟩⟩
  · exact ⟨"ICONV", by decide +kernel, rfl, err_table (key := "ICONV") (by decide +kernel) rowFun_iconv fun head =>
      rowErr2 (by decide +kernel) (by decide) fun _ _ _ => ⟨_, rfl⟩⟩
  · exact ⟨"OCONV", by decide +kernel, rfl, err_table (key := "OCONV") (by decide +kernel) rowFun_oconv fun head =>
      rowErr2 (by decide +kernel) (by decide) fun _ _ _ => ⟨_, rfl⟩⟩
  · refine ⟨"BREAK", by decide +kernel, rfl, err_table (key := "BREAK") (by decide +kernel) rowFun_break fun head =>
      rowErr1 (by decide +kernel) fun cx w ws k _ => ?_⟩
    simp only [reduceCtorEq, false_iff]
    intro h
    fault_inv h with ⟨h, -⟩
    cases h
  · refine ⟨"AF", by decide +kernel, rfl, err_table (key := "AF") (by decide +kernel) rowFun_af fun head =>
      rowErr1 (by decide +kernel) fun cx w ws k _ => ?_⟩
    have : (match parseFlags cx.flagType w with
      | .ok flagset => Except.ok { cx with flagAliases := cx.flagAliases ++ [flagset] }
      | .error e => .error (ErrorKind.malformedFlag e)) = .error k ↔ ∃ e, parseFlags cx.flagType w = .error e ∧
        k = .malformedFlag e := by
      cases parseFlags cx.flagType w with
      | ok F => simp
      | error e =>
        simp only [Except.error.injEq, exists_eq_left']
        exact eq_comm
    refine this.trans ?_
    simp only [parseFlags_error]
    constructor
    · rintro ⟨e, h, rfl⟩; exact .flags rfl h
    · intro h
      fault_inv h with ⟨h, h'⟩
      · cases h
      · obtain ⟨more, e, h1, h2, rfl⟩ := h'
        cases h1
        exact ⟨e, h2, rfl⟩
  · exact ⟨"PFX", by decide +kernel, rfl, err_affixes (key := "PFX") (by decide +kernel)
      (put := fun cx a => { cx with prefixes := cx.prefixes ++ [a] }) (fun _ _ _ _ => row_pfx) fun _ _ => rfl⟩
  · exact ⟨"SFX", by decide +kernel, rfl, err_affixes (key := "SFX") (by decide +kernel)
      (put := fun cx a => { cx with suffixes := cx.suffixes ++ [a] }) (fun _ _ _ _ => row_sfx) fun _ _ => rfl⟩
  · refine ⟨"COMPOUNDRULE", by decide +kernel, rfl, err_table (key := "COMPOUNDRULE") (by decide +kernel) rowFun_rule
      fun head => rowErr1 (by decide +kernel) fun cx w ws k _ => ?_⟩
    have : (match parseCompoundRule w cx.flagType with
      | .ok rule => Except.ok { cx with compoundRules := cx.compoundRules ++ [rule] }
      | .error e => .error (ErrorKind.malformedCompoundRule e)) = .error k ↔ ∃ e, parseCompoundRule w cx.flagType = .error e ∧
        k = .malformedCompoundRule e := by
      cases parseCompoundRule w cx.flagType with
      | ok F => simp
      | error e =>
        simp only [Except.error.injEq, exists_eq_left']
        exact eq_comm
    refine this.trans ?_
    simp only [parseCompoundRule_error]
    constructor
    · rintro ⟨e, h, rfl⟩; exact .rule rfl h
    · intro h
      fault_inv h with ⟨h, h'⟩
      · cases h
      · obtain ⟨more, e, h1, h2, rfl⟩ := h'
        cases h1
        exact ⟨e, h2, rfl⟩
  · exact ⟨"CHECKCOMPOUNDPATTERN", by decide +kernel, rfl,
      err_table (key := "CHECKCOMPOUNDPATTERN") (by decide +kernel) patternRow_fun patternRow_err⟩
  · refine ⟨"MAP", by decide +kernel, rfl, err_table (key := "MAP") (by decide +kernel) rowFun_map fun head =>
      rowErr1 (by decide +kernel) fun cx w ws k _ => ?_⟩
    simp only [reduceCtorEq, false_iff]
    intro h
    fault_inv h with ⟨h, -⟩
    cases h

/-! ## The whole text -/

theorem findDirective_err {w : Str} {d : Directive} (h : findDirective w = some d) :
    ∃ key ∈ knownKeys, w = key.toList ∧ FaithfulErr U key d := by
  simp only [findDirective, Option.map_eq_some_iff] at h
  obtain ⟨p, hp, rfl⟩ := h
  obtain ⟨key, h1, h2, h3⟩ := affParsers_err (U := U) p (List.mem_of_find?_eq_some hp)
  have := List.find?_some hp
  simp only [beq_iff_eq] at this
  exact ⟨key, h1, by rw [← this, h2], h3⟩

theorem lineFault_known {key : String} {args : List Str} {cx : Cx} {k : ErrorKind} (h : LineFault key cx args k) :
    key ∈ knownKeys := by
  have ok : ∀ k ∈ oneWord, k ∈ knownKeys := by decide +kernel
  have tk : ∀ k ∈ tableKeys, k ∈ knownKeys := by decide +kernel
  have ak : ∀ k ∈ ["PFX", "SFX"], k ∈ knownKeys := by decide +kernel
  have fk : ∀ k ∈ flagKeys.map (·.1), k ∈ knownKeys := by decide +kernel
  have nk : ∀ k ∈ numberKeys.map (·.1), k ∈ knownKeys := by decide +kernel
  cases h with
  | noWord h => exact ok _ h
  | flagType h => rw [h]; decide +kernel
  | flag h => exact fk _ h
  | number h => exact nk _ h
  | noSyllables h => rw [h]; decide +kernel
  | noVowels h => rw [h]; decide +kernel
  | syllables h => rw [h]; decide +kernel
  | count h => exact tk _ h
  | noName h => exact ak _ h
  | affixFlag h => exact ak _ h
  | noCross h => exact ak _ h
  | cross h => exact ak _ h
  | noCount h => exact ak _ h
  | affixCount h => exact ak _ h

theorem tableHead_known {key : String} {args : List Str} {cx cx₁ : Cx} {n : Nat} (h : TableHead key cx args n cx₁) :
    key ∈ knownKeys := by
  have tk : ∀ k ∈ tableKeys, k ∈ knownKeys := by decide +kernel
  have ak : ∀ k ∈ ["PFX", "SFX"], k ∈ knownKeys := by decide +kernel
  cases h with
  | table h => exact tk _ h
  | affixes h => exact ak _ h

/-- The numbered lines that are no comments. -/
def ncontents (U : Unicode) (ls : List (Nat × Str)) : List (Nat × Str) :=
  (ls.filter fun l => !isComment U l.2).map fun l => (l.1 + 1, l.2)

theorem affLoop_err : ∀ (fuel : Nat) (cx : Cx) (ls : List (Nat × Str)) (src : Source) (h : Halt),
    CxOk cx → (ls.dropWhile fun l => isComment U l.2).length < fuel →
    (affLoop U fuel cx (Lines.settle U ls src) = .error h ↔
      ∃ number k, ReadsFault U cx (ncontents U ls) number k ∧ h = .error ⟨k, src, number⟩) := by
  intro fuel
  induction fuel with
  | zero => intro _ _ _ _ _ h; omega
  | succ fuel ih =>
    intro cx ls src h hcx hf
    have hc := dropWhile_filter (fun l : Nat × Str => isComment U l.2) ls
    cases hd : ls.dropWhile fun l => isComment U l.2 with
    | nil =>
      rw [hd] at hc
      simp only at hc
      have hs : Lines.settle U ls src = ⟨[], none, src⟩ := by simp [Lines.settle, hd]
      rw [hs, ncontents, hc, affLoop, P_bind_ok (x := P.isFinished) rfl]
      simp only [Lines.isFinished, List.isEmpty_nil, ↓reduceIte, P_pure_err, List.map_nil, false_iff]
      rintro ⟨number, k, h1, -⟩
      cases h1
    | cons l rest =>
      rw [hd] at hc hf
      simp only at hc
      have hs : Lines.settle U ls src = ⟨l :: rest, some (splitWhitespace U l.2), src⟩ := by
        simp [Lines.settle, hd]
      have hcont : ncontents U ls = (l.1 + 1, l.2) :: npend U (l :: rest) := by
        rw [ncontents, hc]; rfl
      have hpc : ∀ n, ncontents U (after U n (l :: rest)).tail = (npend U (l :: rest)).drop n := by
        intro n
        rw [← npend_after]; rfl
      have hlen : ∀ n, ((after U n (l :: rest)).tail.dropWhile fun l => isComment U l.2).length < fuel := by
        intro n
        have h1 := (List.dropWhile_suffix (l := (after U n (l :: rest)).tail) fun l => isComment U l.2).length_le
        rw [List.length_tail] at h1
        have h2 := after_length (U := U) n (l :: rest)
        simp only [List.length_cons] at hf h2
        omega
      rw [hs, hcont, affLoop, P_bind_ok (x := P.isFinished) rfl]
      simp only [Lines.isFinished, List.isEmpty_cons, Bool.false_eq_true, ↓reduceIte]
      have ignored : (∀ key args, splitWhitespace U l.2 = key :: args → ∀ k ∈ knownKeys, key ≠ k.toList) →
          ∀ number k, (ReadsFault U cx ((l.1 + 1, l.2) :: npend U (l :: rest)) number k ↔
            ReadsFault U cx (npend U (l :: rest)) number k) := by
        intro hno number k
        constructor
        · intro h
          generalize npend U (l :: rest) = X at h
          cases h with
          | line h1 h2 => exact absurd rfl (hno _ _ h1 _ (lineFault_known h2))
          | rows h1 h2 => exact absurd rfl (hno _ _ h1 _ (tableHead_known h2))
          | ignored _ h => exact h
          | directive h1 h2 h3 => exact absurd rfl (hno _ _ h1 _ (effect_known h2))
        · exact .ignored hno
      have adv : ∀ t : Lines, P.advance U t = .ok ((), Lines.settle U t.lines.tail t.source) := fun t => rfl
      cases hw : splitWhitespace U l.2 with
      | nil =>
        have hstep : affStep U cx ⟨l :: rest, some [], src⟩ = .ok (cx, ⟨l :: rest, none, src⟩) := rfl
        rw [P_bind_ok hstep, P_bind_ok (adv _)]
        simp only [ignored (by intro _ _ h; rw [hw] at h; cases h)]
        rw [show npend U (l :: rest) = ncontents U (after U 0 (l :: rest)).tail from rfl]
        exact ih cx _ src h hcx (hlen 0)
      | cons w ws =>
        cases hfd : findDirective w with
        | none =>
          have hstep : affStep U cx ⟨l :: rest, some (w :: ws), src⟩ = .ok (cx, ⟨l :: rest, some ws, src⟩) := by
            unfold affStep
            rw [P_bind_ok (x := P.nextWord) (a := some w) (s' := ⟨l :: rest, some ws, src⟩) rfl]
            simp only [Option.bind_some, hfd]
            rfl
          rw [P_bind_ok hstep, P_bind_ok (adv _)]
          simp only [ignored (by
            intro key args h
            rw [hw] at h
            cases h
            exact findDirective_none.1 hfd)]
          rw [show npend U (l :: rest) = ncontents U (after U 0 (l :: rest)).tail from rfl]
          exact ih cx _ src h hcx (hlen 0)
        | some d =>
          obtain ⟨key, hk, rfl, hfaith⟩ := findDirective_some (U := U) hfd
          obtain ⟨key', -, hkk, herr⟩ := findDirective_err (U := U) hfd
          obtain rfl := String.toList_inj.1 hkk
          have hstep : affStep U cx ⟨l :: rest, some (key.toList :: ws), src⟩ =
              d U cx ⟨l :: rest, some ws, src⟩ := by
            unfold affStep
            rw [P_bind_ok (x := P.nextWord) (a := some key.toList) (s' := ⟨l :: rest, some ws, src⟩) rfl]
            simp only [Option.bind_some, hfd]
          have hne : ∀ w ∈ ws, w ≠ [] := fun w hw' =>
            splitWhitespace_ne_nil l.2 w (by rw [hw]; simp [hw'])
          have keeps : ∀ cx₁ u, affStep U cx ⟨l :: rest, some (key.toList :: ws), src⟩ = .ok (cx₁, u) →
              u.source = src ∧ CxOk cx₁ := by
            intro cx₁ u h
            have := affStep_ok (U := U) (all := l :: rest) (src := src) hcx
              ⟨l :: rest, some (key.toList :: ws), src⟩ ⟨List.suffix_refl _, rfl, by
                intro ws' h' w' hw'
                cases h'
                exact splitWhitespace_ne_nil l.2 w' (hw ▸ hw')⟩
            rw [h] at this
            exact ⟨this.1.source, this.2⟩
          rw [P_bind_err, hstep, herr cx _ ws h rfl hne]
          constructor
          · rintro ((⟨k, h1, rfl⟩ | ⟨n, cx₁, number, k, h1, h2, rfl⟩) | ⟨cx₁, u, h1, h2⟩)
            · exact ⟨_, k, .line hw h1, rfl⟩
            · exact ⟨number, k, .rows hw h1 h2, rfl⟩
            · have hk1 := keeps cx₁ u (by rw [hstep]; exact h1)
              obtain ⟨rows, he, hp, hL⟩ := (hfaith cx cx₁ ⟨l :: rest, some ws, src⟩ ws u.lines rfl).1
                ⟨u, h1, rfl, hk1.1⟩
              rw [P_bind_ok (adv _), hL, hk1.1] at h2
              obtain ⟨number, k, h3, rfl⟩ := (ih cx₁ _ src h hk1.2 (hlen rows.length)).1 h2
              rw [hpc] at h3
              refine ⟨number, k, ?_, rfl⟩
              have e : (npend U (l :: rest)).map (·.2) = rows ++ (pend U (l :: rest)).drop rows.length := by
                obtain ⟨q, hq⟩ := hp
                rw [npend_pend, ← hq, List.drop_left]
              have e1 : ((npend U (l :: rest)).take rows.length).map (·.2) = rows := by
                rw [List.map_take, e, List.take_left]
              rw [← List.take_append_drop rows.length (npend U (l :: rest))]
              exact .directive hw (e1.symm ▸ he) (by simpa using h3)
          · rintro ⟨number, k, h1, rfl⟩
            generalize hX : npend U (l :: rest) = X at h1
            cases h1 with
            | ignored h _ => exact absurd rfl (h _ _ hw _ hk)
            | line h1 h2 =>
              rw [hw] at h1
              simp only [List.cons.injEq, String.toList_inj] at h1
              obtain ⟨rfl, rfl⟩ := h1
              exact .inl (.inl ⟨k, h2, rfl⟩)
            | rows h1 h2 h3 =>
              rw [hw] at h1
              simp only [List.cons.injEq, String.toList_inj] at h1
              obtain ⟨rfl, rfl⟩ := h1
              exact .inl (.inr ⟨_, _, number, k, h2, hX.symm ▸ h3, rfl⟩)
            | @directive _ _ key' args rows cx₁ rest' _ _ h1 h2 h3 =>
              rw [hw] at h1
              simp only [List.cons.injEq, String.toList_inj] at h1
              obtain ⟨rfl, rfl⟩ := h1
              have hpre : rows.map (·.2) <+: pend U (l :: rest) := by
                rw [← npend_pend, hX, List.map_append]
                exact List.prefix_append _ _
              obtain ⟨u, hu1, hu2, hu3⟩ := (hfaith cx cx₁ ⟨l :: rest, some ws, src⟩ ws _ rfl).2
                ⟨rows.map (·.2), h2, hpre, rfl⟩
              have hk1 := keeps cx₁ u (by rw [hstep]; exact hu1)
              refine .inr ⟨cx₁, u, hu1, ?_⟩
              rw [P_bind_ok (adv _), hu2, hu3]
              refine (ih cx₁ _ src _ hk1.2 (hlen _)).2 ⟨number, k, ?_, rfl⟩
              rw [hpc, hX, List.length_map, List.drop_left]
              exact h3

theorem parseAff_err {aff : Str} {h : Halt} : parseAff U aff = .error h ↔
    ∃ number k, AffFault U aff number k ∧ h = .error ⟨k, .aff, number⟩ := by
  have hc : contentLines U aff
      = ncontents U (Lines.enumerate 0 (textLines ((stripPrefix? aff [Char.ofNat 0xFEFF]).getD aff))) := by
    unfold contentLines ncontents
    rw [numbered_eq, List.filter_map]
    rfl
  have key := affLoop_err ((Lines.new U aff .aff).lines.length + 1) {}
    (Lines.enumerate 0 (textLines ((stripPrefix? aff [Char.ofNat 0xFEFF]).getD aff))) .aff h
    cxDefault_ok (Nat.lt_succ_self _)
  rw [← hc] at key
  have : parseAff U aff = .error h ↔
      affLoop U ((Lines.new U aff .aff).lines.length + 1) {} (Lines.new U aff .aff) = .error h := by
    unfold parseAff
    simp only
    cases affLoop U ((Lines.new U aff .aff).lines.length + 1) {} (Lines.new U aff .aff) with
    | error e => simp
    | ok p => simp
  rw [this]
  refine key.trans ?_
  unfold AffFault
  constructor
  · rintro ⟨number, k, h1, h2⟩; exact ⟨number, k, ⟨_, content_iff.2 rfl, h1⟩, h2⟩
  · rintro ⟨number, k, ⟨lines, h1, h2⟩, h3⟩
    rw [content_iff] at h1
    exact ⟨number, k, h1 ▸ h2, h3⟩

end

end Spellbook
