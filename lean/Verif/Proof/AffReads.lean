import Verif.Proof.FlagFaults
import Verif.Proof.RuleText
import Verif.Proof.Condition
import Verif.Proof.AffText
import Verif.Spec.AffText
/-!
# The `.aff` parser and the meaning of its lines
-/

namespace Spellbook
open Spec

/-- The lines below the current one that are no comments. -/
def pend (U : Unicode) (ls : List (Nat × Str)) : List Str :=
  (ls.tail.filter fun l => !isComment U l.2).map (·.2)

/-- The reader's lines when it has gone on to the `n`-th row. -/
def after (U : Unicode) : Nat → List (Nat × Str) → List (Nat × Str)
  | 0, ls => ls
  | n + 1, ls => after U n (ls.tail.dropWhile fun l => isComment U l.2)

section
variable {U : Unicode}

theorem pend_next {ls : List (Nat × Str)} :
    match ls.tail.dropWhile fun l => isComment U l.2 with
    | [] => pend U ls = []
    | l :: rest => pend U ls = l.2 :: pend U (l :: rest) := by
  have := dropWhile_filter (fun l : Nat × Str => isComment U l.2) ls.tail
  unfold pend
  revert this
  cases ls.tail.dropWhile fun l => isComment U l.2 with
  | nil => intro h; simp only at h ⊢; rw [h]; rfl
  | cons l rest => intro h; simp only at h ⊢; rw [h]; rfl

theorem pend_nil : pend U [] = [] := rfl

theorem pend_after (n : Nat) (ls : List (Nat × Str)) : pend U (after U n ls) = (pend U ls).drop n := by
  induction n generalizing ls with
  | zero => rfl
  | succ n ih =>
    rw [after, ih]
    have := pend_next (U := U) (ls := ls)
    cases h : ls.tail.dropWhile fun l => isComment U l.2 with
    | nil => rw [h] at this; simp only at this; rw [this]; simp [pend_nil]
    | cons l rest => rw [h] at this; simp only at this; rw [this]; rfl

theorem P_bind_iff {α β : Type} {x : P α} {f : α → P β} {s : Lines} {r : β × Lines} :
    (x >>= f) s = .ok r ↔ ∃ a t, x s = .ok (a, t) ∧ f a t = .ok r := by
  cases hx : x s with
  | error e => rw [P_bind_error hx]; simp
  | ok p =>
    obtain ⟨a, t⟩ := p
    rw [P_bind_ok hx]
    simp

theorem P_pure_iff {α : Type} {a b : α} {s t : Lines} :
    (pure a : P α) s = .ok (b, t) ↔ b = a ∧ t = s := by
  show Except.ok (a, s) = _ ↔ _
  simp only [Except.ok.injEq, Prod.mk.injEq]
  constructor
  · rintro ⟨rfl, rfl⟩; exact ⟨rfl, rfl⟩
  · rintro ⟨rfl, rfl⟩; exact ⟨rfl, rfl⟩

theorem P_fail_iff {α : Type} {kind : ErrorKind} {s : Lines} {r : α × Lines} :
    (P.fail kind : P α) s = .ok r ↔ False := by
  simp [P.fail]

theorem lift_iff {ε α : Type} {kind : ε → ErrorKind} {x : Except ε α} {a : α} {s t : Lines} :
    P.lift kind x s = .ok (a, t) ↔ x = .ok a ∧ t = s := by
  unfold P.lift
  cases x with
  | ok b =>
    simp only [P_pure_iff, Except.ok.injEq]
    exact and_congr_left fun _ => eq_comm
  | error e => simp [P_fail_iff]

theorem flagOf_iff {ty : FlagType} {w : Str} {f : Nat} {s t : Lines} :
    P.flagOf ty w s = .ok (f, t) ↔ (FlagOf ty w f ∧ Flag.Valid f) ∧ t = s := by
  rw [← parseFlag?_ok]
  unfold P.flagOf
  cases hp : parseFlag? ty w with
  | none => simp [P.panic]
  | some r => simp only [lift_iff, Option.some.injEq]

theorem takeOneWord_iff {w : Str} {s t : Lines} :
    P.takeOneWord s = .ok (w, t) ↔ ∃ ws, s.words = some (w :: ws) ∧ t = { s with words := some ws } := by
  unfold P.takeOneWord
  cases hs : s.words with
  | none => simp
  | some l =>
    cases l with
    | nil => simp
    | cons v vs =>
      simp only [Except.ok.injEq, Prod.mk.injEq, Option.some.injEq, List.cons.injEq]
      constructor
      · rintro ⟨rfl, rfl⟩; exact ⟨vs, ⟨rfl, rfl⟩, rfl⟩
      · rintro ⟨ws, ⟨rfl, rfl⟩, rfl⟩; exact ⟨rfl, rfl⟩

theorem takeWords_iff {o : Option (List Str)} {s t : Lines} :
    P.takeWords s = .ok (o, t) ↔ o = s.words ∧ t = { s with words := none } := by
  unfold P.takeWords
  simp only [Except.ok.injEq, Prod.mk.injEq]
  constructor
  · rintro ⟨rfl, rfl⟩; exact ⟨rfl, rfl⟩
  · rintro ⟨rfl, rfl⟩; exact ⟨rfl, rfl⟩

theorem row_iff {key : Str} {e i : Nat} {args : List Str} {s t : Lines} :
    P.row U key e i s = .ok (args, t) ↔ ∃ l rest,
      (s.lines.tail.dropWhile fun l => isComment U l.2) = l :: rest ∧
      splitWhitespace U l.2 = key :: args ∧ t = ⟨l :: rest, none, s.source⟩ := by
  unfold P.row
  rw [P_bind_ok (x := P.advance U) (a := ()) (s := s) (s' := s.advance U) rfl,
    P_bind_ok (x := P.isFinished) (s := s.advance U) (s' := s.advance U)
      (a := (s.advance U).isFinished) rfl]
  cases h : s.lines.tail.dropWhile fun l => isComment U l.2 with
  | nil =>
    have : s.advance U = ⟨[], none, s.source⟩ := by simp [Lines.advance, Lines.settle, h]
    rw [this]
    simp only [Lines.isFinished, List.isEmpty_nil, ↓reduceIte]
    rw [P_bind_iff]
    simp [P_fail_iff]
  | cons l rest =>
    have : s.advance U = ⟨l :: rest, some (splitWhitespace U l.2), s.source⟩ := by
      simp [Lines.advance, Lines.settle, h]
    rw [this]
    simp only [Lines.isFinished, List.isEmpty_cons, Bool.false_eq_true, ↓reduceIte, List.cons.injEq]
    cases hw : splitWhitespace U l.2 with
    | nil =>
      rw [P_bind_ok (x := P.nextWord) (a := none) (s' := ⟨l :: rest, none, s.source⟩) rfl]
      simp only [ne_eq, reduceCtorEq, not_false_eq_true, ↓reduceIte]
      rw [P_bind_iff]
      simp only [P_fail_iff, false_and, exists_false, false_iff]
      rintro ⟨l', rest', ⟨rfl, rfl⟩, h2, -⟩
      rw [hw] at h2; cases h2
    | cons w ws =>
      rw [P_bind_ok (x := P.nextWord) (a := some w) (s' := ⟨l :: rest, some ws, s.source⟩) rfl]
      by_cases hk : w = key
      · subst hk
        simp only [ne_eq, not_true_eq_false, ↓reduceIte]
        rw [P_bind_ok (x := P.takeWords) (a := some ws) (s' := ⟨l :: rest, none, s.source⟩) rfl]
        simp only [P_pure_iff]
        constructor
        · rintro ⟨rfl, rfl⟩; exact ⟨l, rest, ⟨rfl, rfl⟩, hw, rfl⟩
        · rintro ⟨l', rest', ⟨rfl, rfl⟩, h2, rfl⟩
          rw [hw] at h2; cases h2; exact ⟨rfl, rfl⟩
      · rw [if_pos (by simpa using hk), P_bind_iff]
        simp only [P_fail_iff, false_and, exists_false, false_iff]
        rintro ⟨l', rest', ⟨rfl, rfl⟩, h2, -⟩
        rw [hw] at h2; cases h2; exact hk rfl

/-- A row function which does not move the reader and adds what a row of `key` adds. -/
def RowFun (key : String) (head : List Str) (I : Cx → Prop) (f : Cx → List Str → P Cx) : Prop :=
  ∀ cx args s cx' t, I cx → (f cx args s = .ok (cx', t) ↔ Row key head cx args cx' ∧ t = s)

theorem rows_iff {key : String} {head : List Str} {I : Cx → Prop} {f : Cx → List Str → P Cx}
    (hf : RowFun key head I f) (hI : ∀ cx args cx', I cx → Row key head cx args cx' → I cx') {e : Nat} :
    ∀ (n i : Nat) (cx : Cx) (s : Lines) (cx' : Cx) (t : Lines), I cx →
    (P.rows U key.toList e f n i cx s = .ok (cx', t) ↔
      ∃ rs, rs.length = n ∧ Rows U key head cx rs cx' ∧ rs <+: pend U s.lines ∧
        t = if n = 0 then s else ⟨after U n s.lines, none, s.source⟩) := by
  intro n
  induction n with
  | zero =>
    intro i cx s cx' t _
    rw [P.rows, P_pure_iff]
    constructor
    · rintro ⟨rfl, rfl⟩; exact ⟨[], rfl, .nil, List.nil_prefix, rfl⟩
    · rintro ⟨rs, h, h2, -, h3⟩
      cases h2 with
      | nil => exact ⟨rfl, h3⟩
      | cons => simp at h
  | succ n ih =>
    intro i cx s cx' t hcx
    rw [P.rows, P_bind_iff]
    have hp := pend_next (U := U) (ls := s.lines)
    constructor
    · rintro ⟨args, u, h1, h2⟩
      obtain ⟨l, rest, h3, h4, rfl⟩ := row_iff.1 h1
      obtain ⟨cx₁, u, h5, h6⟩ := P_bind_iff.1 h2
      obtain ⟨h7, rfl⟩ := (hf cx args _ cx₁ u hcx).1 h5
      obtain ⟨rs, h8, h9, h10, rfl⟩ := (ih (i + 1) cx₁ _ cx' t (hI _ _ _ hcx h7)).1 h6
      rw [h3] at hp
      refine ⟨l.2 :: rs, by simp [h8], .cons h4 h7 h9, ?_, ?_⟩
      · rw [hp]; simpa using h10
      · simp only [Nat.add_eq_zero_iff, one_ne_zero, and_false, ↓reduceIte, after, h3]
        by_cases hn : n = 0
        · subst hn; rfl
        · rw [if_neg hn]
    · rintro ⟨rs, h1, h2, h3, rfl⟩
      cases h2 with
      | nil => simp at h1
      | @cons _ line args cx₁ lines _ h4 h5 h6 =>
        cases h : s.lines.tail.dropWhile fun l => isComment U l.2 with
        | nil =>
          rw [h] at hp
          simp only at hp
          rw [hp] at h3
          simp at h3
        | cons l rest =>
          rw [h] at hp
          simp only at hp
          rw [hp] at h3
          obtain ⟨rfl, h3'⟩ := List.cons_prefix_cons.1 h3
          refine ⟨args, _, row_iff.2 ⟨l, rest, h, h4, rfl⟩, P_bind_iff.2 ⟨cx₁, _, (hf _ _ _ _ _ hcx).2 ⟨h5, rfl⟩,
            (ih (i + 1) cx₁ _ cx' _ (hI _ _ _ hcx h5)).2 ⟨lines, by simpa using h1, h6, h3', ?_⟩⟩⟩
          simp only [Nat.add_eq_zero_iff, one_ne_zero, and_false, ↓reduceIte, after, h]
          by_cases hn : n = 0
          · subst hn; rfl
          · rw [if_neg hn]

/-- The directive ends on the lines `L` with the settings `cx'`. -/
def Ends (x : P Cx) (s : Lines) (cx' : Cx) (L : List (Nat × Str)) : Prop :=
  ∃ t, x s = .ok (cx', t) ∧ t.lines = L ∧ t.source = s.source

theorem count_iff {n : Nat} {s t : Lines} : P.count s = .ok (n, t) ↔
    ∃ w ws, s.words = some (w :: ws) ∧ (IsNumeral w n ∧ n ≤ usizeMax) ∧ t = { s with words := some ws } := by
  unfold P.count
  rw [P_bind_iff]
  constructor
  · rintro ⟨w, u, h1, h2⟩
    obtain ⟨ws, h3, rfl⟩ := takeOneWord_iff.1 h1
    obtain ⟨h4, rfl⟩ := lift_iff.1 h2
    exact ⟨w, ws, h3, parseUInt_ok.1 h4, rfl⟩
  · rintro ⟨w, ws, h3, h4, rfl⟩
    exact ⟨w, _, takeOneWord_iff.2 ⟨ws, h3, rfl⟩, lift_iff.2 ⟨parseUInt_ok.2 h4, rfl⟩⟩

theorem short_iff {n : Nat} {s t : Lines} : P.short s = .ok (n, t) ↔
    ∃ w ws, s.words = some (w :: ws) ∧ (IsNumeral w n ∧ n ≤ 65535) ∧ t = { s with words := some ws } := by
  unfold P.short
  rw [P_bind_iff]
  constructor
  · rintro ⟨w, u, h1, h2⟩
    obtain ⟨ws, h3, rfl⟩ := takeOneWord_iff.1 h1
    obtain ⟨h4, rfl⟩ := lift_iff.1 h2
    exact ⟨w, ws, h3, parseUInt_ok.1 h4, rfl⟩
  · rintro ⟨w, ws, h3, h4, rfl⟩
    exact ⟨w, _, takeOneWord_iff.2 ⟨ws, h3, rfl⟩, lift_iff.2 ⟨parseUInt_ok.2 h4, rfl⟩⟩

theorem flag_iff {ty : FlagType} {f : Nat} {s t : Lines} : P.flag ty s = .ok (f, t) ↔
    ∃ w ws, s.words = some (w :: ws) ∧ (FlagOf ty w f ∧ Flag.Valid f) ∧ t = { s with words := some ws } := by
  unfold P.flag
  rw [P_bind_iff]
  constructor
  · rintro ⟨w, u, h1, h2⟩
    obtain ⟨ws, h3, rfl⟩ := takeOneWord_iff.1 h1
    obtain ⟨h4, rfl⟩ := flagOf_iff.1 h2
    exact ⟨w, ws, h3, h4, rfl⟩
  · rintro ⟨w, ws, h3, h4, rfl⟩
    exact ⟨w, _, takeOneWord_iff.2 ⟨ws, h3, rfl⟩, flagOf_iff.2 ⟨h4, rfl⟩⟩

/-! ## Directives of one line -/

theorem ends_bind_pure {α : Type} {x : P α} {g : α → Cx} {s : Lines} {cx' : Cx} {L : List (Nat × Str)}
    {Q : α → Lines → Prop} (hx : ∀ a t, x s = .ok (a, t) ↔ Q a t) :
    Ends (x >>= fun a => pure (g a)) s cx' L ↔
      ∃ a t, Q a t ∧ cx' = g a ∧ t.lines = L ∧ t.source = s.source := by
  constructor
  · rintro ⟨t, h, h1, h2⟩
    obtain ⟨a, u, h3, h4⟩ := P_bind_iff.1 h
    obtain ⟨rfl, rfl⟩ := P_pure_iff.1 h4
    exact ⟨a, _, (hx _ _).1 h3, rfl, h1, h2⟩
  · rintro ⟨a, t, h, rfl, h1, h2⟩
    exact ⟨t, P_bind_iff.2 ⟨a, t, (hx _ _).2 h, P_pure_iff.2 ⟨rfl, rfl⟩⟩, h1, h2⟩

theorem flagDirective_iff {set : AffOptions → Nat → AffOptions} {cx cx' : Cx} {s : Lines}
    {args : List Str} {L : List (Nat × Str)} (hs : s.words = some args) :
    Ends (flagDirective set U cx) s cx' L ↔ ∃ w ws f, args = w :: ws ∧ FlagOf cx.flagType w f ∧
      Flag.Valid f ∧ cx' = { cx with options := set cx.options f } ∧ L = s.lines := by
  unfold flagDirective
  rw [ends_bind_pure (fun a t => flag_iff)]
  rw [hs]
  constructor
  · rintro ⟨f, t, ⟨w, ws, h1, ⟨h2, h3⟩, rfl⟩, h5, rfl, -⟩
    cases h1; exact ⟨w, ws, f, rfl, h2, h3, h5, rfl⟩
  · rintro ⟨w, ws, f, rfl, h2, h3, h5, rfl⟩
    exact ⟨f, _, ⟨w, ws, rfl, ⟨h2, h3⟩, rfl⟩, h5, rfl, rfl⟩

theorem boolDirective_iff {set : AffOptions → Bool → AffOptions} {cx cx' : Cx} {s : Lines}
    {L : List (Nat × Str)} :
    Ends (boolDirective set U cx) s cx' L ↔ cx' = { cx with options := set cx.options true } ∧
      L = s.lines := by
  unfold boolDirective
  rw [ends_bind_pure (x := P.bool) (Q := fun b t => b = true ∧ t = s)
    (fun a t => by unfold P.bool; exact P_pure_iff)]
  constructor
  · rintro ⟨b, t, ⟨rfl, rfl⟩, h1, rfl, -⟩; exact ⟨h1, rfl⟩
  · rintro ⟨h1, rfl⟩; exact ⟨true, s, ⟨rfl, rfl⟩, h1, rfl, rfl⟩

theorem shortDirective_iff {set : AffOptions → Nat → AffOptions} {cx cx' : Cx} {s : Lines}
    {args : List Str} {L : List (Nat × Str)} (hs : s.words = some args) :
    Ends (shortDirective set U cx) s cx' L ↔ ∃ w ws n, args = w :: ws ∧ IsNumeral w n ∧
      n ≤ 65535 ∧ cx' = { cx with options := set cx.options n } ∧ L = s.lines := by
  unfold shortDirective
  rw [ends_bind_pure (fun a t => short_iff)]
  rw [hs]
  constructor
  · rintro ⟨f, t, ⟨w, ws, h1, ⟨h2, h3⟩, rfl⟩, h5, rfl, -⟩
    cases h1; exact ⟨w, ws, f, rfl, h2, h3, h5, rfl⟩
  · rintro ⟨w, ws, f, rfl, h2, h3, h5, rfl⟩
    exact ⟨f, _, ⟨w, ws, rfl, ⟨h2, h3⟩, rfl⟩, h5, rfl, rfl⟩

theorem wordDirective_iff {set : Cx → Str → Cx} {cx cx' : Cx} {s : Lines}
    {args : List Str} {L : List (Nat × Str)} (hs : s.words = some args) :
    Ends (wordDirective set U cx) s cx' L ↔ ∃ w ws, args = w :: ws ∧ cx' = set cx w ∧ L = s.lines := by
  unfold wordDirective
  rw [ends_bind_pure (fun a t => takeOneWord_iff)]
  rw [hs]
  constructor
  · rintro ⟨w, t, ⟨ws, h1, rfl⟩, h5, rfl, -⟩
    cases h1; exact ⟨w, ws, rfl, h5, rfl⟩
  · rintro ⟨w, ws, rfl, h5, rfl⟩
    exact ⟨w, _, ⟨ws, rfl, rfl⟩, h5, rfl, rfl⟩

theorem flagTypeDirective_iff {cx cx' : Cx} {s : Lines}
    {args : List Str} {L : List (Nat × Str)} (hs : s.words = some args) :
    Ends (flagTypeDirective U cx) s cx' L ↔ ∃ w ws ty, args = w :: ws ∧ FlagTypeName U w ty ∧
      cx' = { cx with flagType := ty } ∧ L = s.lines := by
  unfold flagTypeDirective Ends
  constructor
  · rintro ⟨t, h, h1, h2⟩
    obtain ⟨w, u, h3, h4⟩ := P_bind_iff.1 h
    obtain ⟨ws, h5, rfl⟩ := takeOneWord_iff.1 h3
    rw [hs] at h5; cases h5
    by_cases e1 : w = "long".toList
    · rw [if_pos e1] at h4
      obtain ⟨rfl, rfl⟩ := P_pure_iff.1 h4
      exact ⟨w, ws, _, rfl, e1 ▸ .long, rfl, h1.symm⟩
    · rw [if_neg e1] at h4
      by_cases e2 : w = "num".toList
      · rw [if_pos e2] at h4
        obtain ⟨rfl, rfl⟩ := P_pure_iff.1 h4
        exact ⟨w, ws, _, rfl, e2 ▸ .num, rfl, h1.symm⟩
      · rw [if_neg e2] at h4
        by_cases e3 : w = "UTF-8".toList
        · rw [if_pos e3] at h4
          obtain ⟨rfl, rfl⟩ := P_pure_iff.1 h4
          exact ⟨w, ws, _, rfl, e3 ▸ .utf8, rfl, h1.symm⟩
        · rw [if_neg e3] at h4
          exact absurd h4 (by simp [P_fail_iff])
  · rintro ⟨w, ws, ty, rfl, h1, rfl, rfl⟩
    refine ⟨{ s with words := some ws }, P_bind_iff.2 ⟨w, _, takeOneWord_iff.2 ⟨ws, hs, rfl⟩, ?_⟩, rfl, rfl⟩
    cases h1 with
    | long => exact P_pure_iff.2 ⟨rfl, rfl⟩
    | num => exact P_pure_iff.2 ⟨rfl, rfl⟩
    | utf8 => exact P_pure_iff.2 ⟨rfl, rfl⟩

theorem nonZero_eq (n : Nat) : nonZero n = if n = 0 then none else some n := rfl

theorem syllableDirective_iff {cx cx' : Cx} {s : Lines}
    {args : List Str} {L : List (Nat × Str)} (hs : s.words = some args) :
    Ends (syllableDirective U cx) s cx' L ↔ ∃ w vowels ws n, args = w :: vowels :: ws ∧ IsNumeral w n ∧
      n ≤ 65535 ∧ cx' = { cx with options.compoundSyllableMax := if n = 0 then none else some n,
                                  compoundSyllableVowels := vowels } ∧ L = s.lines := by
  unfold syllableDirective Ends
  constructor
  · rintro ⟨t, h, h1, h2⟩
    obtain ⟨o, u, h3, h4⟩ := P_bind_iff.1 h
    obtain ⟨rfl, rfl⟩ := takeWords_iff.1 h3
    rw [hs] at h4
    match args with
    | [] => exact absurd h4 (by simp [P_fail_iff])
    | [_] => exact absurd h4 (by simp [P_fail_iff])
    | w :: v :: ws =>
      obtain ⟨n, u, h5, h6⟩ := P_bind_iff.1 h4
      obtain ⟨h7, rfl⟩ := lift_iff.1 h5
      obtain ⟨h8, h9⟩ := parseUInt_ok.1 h7
      obtain ⟨rfl, rfl⟩ := P_pure_iff.1 h6
      exact ⟨w, v, ws, n, rfl, h8, h9, rfl, h1.symm⟩
  · rintro ⟨w, v, ws, n, rfl, h1, h2, rfl, rfl⟩
    refine ⟨{ s with words := none }, P_bind_iff.2 ⟨_, _, takeWords_iff.2 ⟨rfl, rfl⟩, ?_⟩, rfl, rfl⟩
    rw [hs]
    exact P_bind_iff.2 ⟨n, _, lift_iff.2 ⟨parseUInt_ok.2 ⟨h1, h2⟩, rfl⟩, P_pure_iff.2 ⟨rfl, rfl⟩⟩

/-! ## Tables -/

theorem after_zero_or {n : Nat} {s : Lines} {ws : Option (List Str)} :
    (if n = 0 then { s with words := ws } else (⟨after U n s.lines, none, s.source⟩ : Lines)).lines
      = after U n s.lines ∧
    (if n = 0 then { s with words := ws } else (⟨after U n s.lines, none, s.source⟩ : Lines)).source
      = s.source := by
  by_cases h : n = 0
  · subst h; exact ⟨rfl, rfl⟩
  · rw [if_neg h]; exact ⟨rfl, rfl⟩

/-- A counted table. -/
theorem counted_iff {key : String} {f : Cx → List Str → P Cx} {cx cx' : Cx} {s : Lines}
    {args : List Str} {L : List (Nat × Str)} (hs : s.words = some args)
    (hf : ∀ head, RowFun key head (fun _ => True) f) :
    Ends (P.count >>= fun n => P.rows U key.toList n f n 1 cx) s cx' L ↔
      ∃ w ws rows, args = w :: ws ∧ IsNumeral w rows.length ∧ rows.length < 2 ^ 64 ∧
        Rows U key (w :: ws) cx rows cx' ∧ rows <+: pend U s.lines ∧ L = after U rows.length s.lines := by
  unfold Ends
  constructor
  · rintro ⟨t, h, h1, h2⟩
    obtain ⟨n, u, h3, h4⟩ := P_bind_iff.1 h
    obtain ⟨w, ws, h5, ⟨h6, h7⟩, rfl⟩ := count_iff.1 h3
    rw [hs] at h5; cases h5
    obtain ⟨rs, rfl, h9, h10, rfl⟩ := (rows_iff (hf (w :: ws)) (fun _ _ _ _ _ => trivial) n 1 cx _ cx' t trivial).1 h4
    refine ⟨w, ws, rs, rfl, h6, by unfold usizeMax at h7; omega, h9, h10, ?_⟩
    rw [← h1]
    exact after_zero_or.1
  · rintro ⟨w, ws, rs, rfl, h6, h7, h9, h10, rfl⟩
    refine ⟨_, P_bind_iff.2 ⟨rs.length, _, count_iff.2 ⟨w, ws, hs, ⟨h6, by unfold usizeMax; omega⟩, rfl⟩,
      (rows_iff (hf (w :: ws)) (fun _ _ _ _ _ => trivial) rs.length 1 cx _ cx' _ trivial).2 ⟨rs, rfl, h9, h10, rfl⟩⟩,
      ?_, ?_⟩
    · exact after_zero_or.1
    · exact after_zero_or.2

theorem rowFun1 {key : String} {head : List Str} {I : Cx → Prop} {f : Cx → Str → Except ErrorKind Cx}
    (hf : ∀ cx w ws cx', f cx w = .ok cx' ↔ Row key head cx (w :: ws) cx')
    (hn : ∀ cx cx', ¬ Row key head cx [] cx') :
    RowFun key head I (fun cx words => match words with
      | word :: _ => P.lift id (f cx word)
      | [] => P.fail (.mismatchedArity 1 0)) := by
  intro cx args s cx' t _
  cases args with
  | nil => simp [P_fail_iff, hn]
  | cons w ws => simp only [lift_iff, hf cx w ws]

theorem rowFun2 {key : String} {head : List Str} {I : Cx → Prop}
    {f : Cx → Str → Str → Except ErrorKind Cx}
    (hf : ∀ cx w v ws cx', f cx w v = .ok cx' ↔ Row key head cx (w :: v :: ws) cx')
    (hn : ∀ cx cx', ¬ Row key head cx [] cx') (hn1 : ∀ cx w cx', ¬ Row key head cx [w] cx') :
    RowFun key head I (fun cx words => match words with
      | word1 :: word2 :: _ => P.lift id (f cx word1 word2)
      | [_] => P.fail (.mismatchedArity 2 1)
      | [] => P.fail (.mismatchedArity 2 0)) := by
  intro cx args s cx' t _
  match args with
  | [] => simp [P_fail_iff, hn]
  | [w] => simp [P_fail_iff, hn1]
  | w :: v :: ws => simp only [lift_iff, hf cx w v ws]

theorem replaceChar_map (s : Str) : replaceChar s '_' [' '] = s.map fun c => if c = '_' then ' ' else c := by
  unfold replaceChar
  rw [← List.flatMap_singleton' (s.map _), List.flatMap_map]
  congr 1
  funext c
  split <;> rfl

/-- The rows of each table. -/
theorem row_cases {key : String} {head args : List Str} {cx cx' : Cx} (h : Row key head cx args cx') :
    (key = "REP" ∧ ∃ a b more, args = a :: b :: more ∧ cx' = { cx with
      replacements := cx.replacements ++ [(a, b.map fun c => if c = '_' then ' ' else c)] }) ∨
    (key = "ICONV" ∧ ∃ a b more, args = a :: b :: more ∧
      cx' = { cx with inputConversions := cx.inputConversions ++ [(a, b)] }) ∨
    (key = "OCONV" ∧ ∃ a b more, args = a :: b :: more ∧
      cx' = { cx with outputConversions := cx.outputConversions ++ [(a, b)] }) ∨
    (key = "BREAK" ∧ ∃ a more, args = a :: more ∧
      cx' = { cx with breakPatterns := cx.breakPatterns ++ [a] }) ∨
    (key = "AF" ∧ ∃ a more l F, args = a :: more ∧ FlagsOf cx.flagType a l ∧ (∀ f ∈ l, Flag.Valid f) ∧
      (∀ f, F.contains f = true ↔ f ∈ l) ∧ cx' = { cx with flagAliases := cx.flagAliases ++ [F] }) ∨
    (key = "MAP" ∧ ∃ a more, args = a :: more ∧
      cx' = { cx with similarities := cx.similarities ++ [SimilarityGroup.ofText a] }) ∨
    (key = "COMPOUNDRULE" ∧ ∃ a more r, args = a :: more ∧ parseCompoundRule a cx.flagType = .ok r ∧
      cx' = { cx with compoundRules := cx.compoundRules ++ [r] }) ∨
    (key = "CHECKCOMPOUNDPATTERN" ∧ ∃ a b more p, args = a :: b :: more ∧ PatternRow cx a b more p ∧
      cx' = { cx with compoundPatterns := cx.compoundPatterns ++ [p] }) ∨
    (∃ name cross hd f strip add more a, head = name :: cross :: hd ∧
      args = name :: strip :: add :: more ∧ FlagOf cx.flagType name f ∧ Flag.Valid f ∧
      AffixRow cx f (cross = ['Y']) strip add more a ∧
      ((key = "PFX" ∧ cx' = { cx with prefixes := cx.prefixes ++ [a] }) ∨
       (key = "SFX" ∧ cx' = { cx with suffixes := cx.suffixes ++ [a] }))) := by
  cases h with
  | rep => exact .inl ⟨rfl, _, _, _, rfl, rfl⟩
  | iconv => exact .inr (.inl ⟨rfl, _, _, _, rfl, rfl⟩)
  | oconv => exact .inr (.inr (.inl ⟨rfl, _, _, _, rfl, rfl⟩))
  | brk => exact .inr (.inr (.inr (.inl ⟨rfl, _, _, rfl, rfl⟩)))
  | af h1 h2 h3 => exact .inr (.inr (.inr (.inr (.inl ⟨rfl, _, _, _, _, rfl, h1, h2, h3, rfl⟩))))
  | map h => exact .inr (.inr (.inr (.inr (.inr (.inl ⟨rfl, _, _, rfl, by rw [ofText_iff.2 h]⟩)))))
  | rule h hv => have h := parseCompoundRule_ok.2 ⟨h, hv⟩; exact .inr (.inr (.inr (.inr (.inr (.inr (.inl ⟨rfl, _, _, _, rfl, h, rfl⟩))))))
  | pattern h => exact .inr (.inr (.inr (.inr (.inr (.inr (.inr (.inl ⟨rfl, _, _, _, _, rfl, h, rfl⟩)))))))
  | pfx h1 h2 h3 =>
    exact .inr (.inr (.inr (.inr (.inr (.inr (.inr (.inr
      ⟨_, _, _, _, _, _, _, _, rfl, rfl, h1, h2, h3, .inl ⟨rfl, rfl⟩⟩)))))))
  | sfx h1 h2 h3 =>
    exact .inr (.inr (.inr (.inr (.inr (.inr (.inr (.inr
      ⟨_, _, _, _, _, _, _, _, rfl, rfl, h1, h2, h3, .inr ⟨rfl, rfl⟩⟩)))))))

/-- Picks the case of `row_cases` that belongs to the key at hand. -/
macro "row_inv" h:term "with" p:rcasesPat : tactic => `(tactic| (
  rcases row_cases $h with ⟨hk, h⟩ | ⟨hk, h⟩ | ⟨hk, h⟩ | ⟨hk, h⟩ | ⟨hk, h⟩ | ⟨hk, h⟩ | ⟨hk, h⟩ | ⟨hk, h⟩ |
    ⟨_, _, _, _, _, _, _, _, _, _, _, _, _, ⟨hk, h⟩ | ⟨hk, h⟩⟩ <;>
  first
  | exact absurd hk (by decide)
  | (obtain $p := h)))

theorem row_rep {head args : List Str} {cx cx' : Cx} : Row "REP" head cx args cx' ↔
    ∃ a b more, args = a :: b :: more ∧ cx' = { cx with
      replacements := cx.replacements ++ [(a, b.map fun c => if c = '_' then ' ' else c)] } := by
  constructor
  · intro h
    row_inv h with ⟨a, b, more, h1, h2⟩
    exact ⟨a, b, more, h1, h2⟩
  · rintro ⟨a, b, more, rfl, rfl⟩; exact .rep

theorem row_iconv {head args : List Str} {cx cx' : Cx} : Row "ICONV" head cx args cx' ↔
    ∃ a b more, args = a :: b :: more ∧
      cx' = { cx with inputConversions := cx.inputConversions ++ [(a, b)] } := by
  constructor
  · intro h
    row_inv h with ⟨a, b, more, h1, h2⟩
    exact ⟨a, b, more, h1, h2⟩
  · rintro ⟨a, b, more, rfl, rfl⟩; exact .iconv

theorem row_oconv {head args : List Str} {cx cx' : Cx} : Row "OCONV" head cx args cx' ↔
    ∃ a b more, args = a :: b :: more ∧
      cx' = { cx with outputConversions := cx.outputConversions ++ [(a, b)] } := by
  constructor
  · intro h
    row_inv h with ⟨a, b, more, h1, h2⟩
    exact ⟨a, b, more, h1, h2⟩
  · rintro ⟨a, b, more, rfl, rfl⟩; exact .oconv

theorem row_break {head args : List Str} {cx cx' : Cx} : Row "BREAK" head cx args cx' ↔
    ∃ a more, args = a :: more ∧ cx' = { cx with breakPatterns := cx.breakPatterns ++ [a] } := by
  constructor
  · intro h
    row_inv h with ⟨a, more, h1, h2⟩
    exact ⟨a, more, h1, h2⟩
  · rintro ⟨a, more, rfl, rfl⟩; exact .brk

theorem row_map {head args : List Str} {cx cx' : Cx} : Row "MAP" head cx args cx' ↔
    ∃ a more, args = a :: more ∧
      cx' = { cx with similarities := cx.similarities ++ [SimilarityGroup.ofText a] } := by
  constructor
  · intro h
    row_inv h with ⟨a, more, h1, h2⟩
    exact ⟨a, more, h1, h2⟩
  · rintro ⟨a, more, rfl, rfl⟩; exact .map (ofText_text a)

theorem row_af {head args : List Str} {cx cx' : Cx} : Row "AF" head cx args cx' ↔
    ∃ a more F, args = a :: more ∧ parseFlags cx.flagType a = .ok F ∧
      cx' = { cx with flagAliases := cx.flagAliases ++ [F] } := by
  constructor
  · intro h
    row_inv h with ⟨a, more, l, F, h1, h2, h3, h4, h5⟩
    refine ⟨a, more, F, h1, parseFlags_ok.2 ⟨l, h2, h3, FlagSet.ext fun f => ?_⟩, h5⟩
    rw [Bool.eq_iff_iff, h4, FlagSet.contains_ofList]
  · rintro ⟨a, more, F, rfl, h, rfl⟩
    obtain ⟨l, h1, h2, rfl⟩ := parseFlags_ok.1 h
    exact .af h1 h2 fun f => FlagSet.contains_ofList

theorem row_rule {head args : List Str} {cx cx' : Cx} : Row "COMPOUNDRULE" head cx args cx' ↔
    ∃ a more r, args = a :: more ∧ parseCompoundRule a cx.flagType = .ok r ∧
      cx' = { cx with compoundRules := cx.compoundRules ++ [r] } := by
  constructor
  · intro h
    row_inv h with ⟨a, more, r, h1, h2, h3⟩
    exact ⟨a, more, r, h1, h2, h3⟩
  · rintro ⟨a, more, r, rfl, h, rfl⟩; exact .rule (parseCompoundRule_ok.1 h).1 (parseCompoundRule_ok.1 h).2

theorem row_pattern {head args : List Str} {cx cx' : Cx} : Row "CHECKCOMPOUNDPATTERN" head cx args cx' ↔
    ∃ a b more p, args = a :: b :: more ∧ PatternRow cx a b more p ∧
      cx' = { cx with compoundPatterns := cx.compoundPatterns ++ [p] } := by
  constructor
  · intro h
    row_inv h with ⟨a, b, more, p, h1, h2, h3⟩
    exact ⟨a, b, more, p, h1, h2, h3⟩
  · rintro ⟨a, b, more, p, rfl, h, rfl⟩; exact .pattern h

theorem row_pfx {head args : List Str} {cx cx' : Cx} : Row "PFX" head cx args cx' ↔
    ∃ name cross hd f strip add more a, head = name :: cross :: hd ∧
      args = name :: strip :: add :: more ∧ FlagOf cx.flagType name f ∧ Flag.Valid f ∧
      AffixRow cx f (cross = ['Y']) strip add more a ∧ cx' = { cx with prefixes := cx.prefixes ++ [a] } := by
  constructor
  · intro h
    rcases row_cases h with ⟨hk, h⟩ | ⟨hk, h⟩ | ⟨hk, h⟩ | ⟨hk, h⟩ | ⟨hk, h⟩ | ⟨hk, h⟩ | ⟨hk, h⟩ | ⟨hk, h⟩ |
      ⟨n, c, hd, f, st, ad, m, a, e1, e2, e3, e4, e5, ⟨hk, h⟩ | ⟨hk, h⟩⟩ <;>
    first
    | exact absurd hk (by decide)
    | exact ⟨n, c, hd, f, st, ad, m, a, e1, e2, e3, e4, e5, h⟩
  · rintro ⟨n, c, hd, f, st, ad, m, a, rfl, rfl, e3, e4, e5, rfl⟩; exact .pfx e3 e4 e5

theorem row_sfx {head args : List Str} {cx cx' : Cx} : Row "SFX" head cx args cx' ↔
    ∃ name cross hd f strip add more a, head = name :: cross :: hd ∧
      args = name :: strip :: add :: more ∧ FlagOf cx.flagType name f ∧ Flag.Valid f ∧
      AffixRow cx f (cross = ['Y']) strip add more a ∧ cx' = { cx with suffixes := cx.suffixes ++ [a] } := by
  constructor
  · intro h
    rcases row_cases h with ⟨hk, h⟩ | ⟨hk, h⟩ | ⟨hk, h⟩ | ⟨hk, h⟩ | ⟨hk, h⟩ | ⟨hk, h⟩ | ⟨hk, h⟩ | ⟨hk, h⟩ |
      ⟨n, c, hd, f, st, ad, m, a, e1, e2, e3, e4, e5, ⟨hk, h⟩ | ⟨hk, h⟩⟩ <;>
    first
    | exact absurd hk (by decide)
    | exact ⟨n, c, hd, f, st, ad, m, a, e1, e2, e3, e4, e5, h⟩
  · rintro ⟨n, c, hd, f, st, ad, m, a, rfl, rfl, e3, e4, e5, rfl⟩; exact .sfx e3 e4 e5

/-! ## Affixes and patterns -/

theorem splitOnce_none {c : Char} {s : Str} : splitOnce? [c] s = none ↔ c ∉ s := by
  induction s with
  | nil => simp [splitOnce?]
  | cons d s ih =>
    unfold splitOnce?
    by_cases h : c = d
    · subst h; simp [List.isPrefixOf]
    · have : (c == d) = false := by simpa using h
      simp [List.isPrefixOf, this, ih, h]

theorem splitOnce_some {c : Char} {s a b : Str} :
    splitOnce? [c] s = some (a, b) ↔ c ∉ a ∧ s = a ++ c :: b := by
  induction s generalizing a with
  | nil => simp [splitOnce?]
  | cons d s ih =>
    unfold splitOnce?
    by_cases h : c = d
    · subst h
      simp only [List.isPrefixOf, beq_self_eq_true, Bool.and_self, ↓reduceIte, List.length_cons,
        List.length_nil, Nat.zero_add, List.drop_succ_cons, List.drop_zero, Option.some.injEq,
        Prod.mk.injEq]
      constructor
      · rintro ⟨rfl, rfl⟩; simp
      · rintro ⟨h1, h2⟩
        cases a with
        | nil => simp at h2; exact ⟨rfl, h2⟩
        | cons x a => simp at h2; exact absurd (by simp [h2.1]) h1
    · have hb : (c == d) = false := by simpa using h
      simp only [List.isPrefixOf, hb, Bool.false_and, Bool.false_eq_true, ↓reduceIte,
        Option.map_eq_some_iff, Prod.exists, Prod.mk.injEq]
      constructor
      · rintro ⟨x, y, h1, rfl, rfl⟩
        obtain ⟨h2, rfl⟩ := ih.1 h1
        exact ⟨by simp [h, h2], rfl⟩
      · rintro ⟨h1, h2⟩
        cases a with
        | nil => simp at h2; exact absurd h2.1.symm h
        | cons x a =>
          simp only [List.cons_append, List.cons.injEq] at h2
          obtain ⟨rfl, h2⟩ := h2
          exact ⟨a, b, ih.2 ⟨fun h => h1 (by simp [h]), h2⟩, rfl, rfl⟩

theorem slashPair_iff {w a b : Str} : SlashPair w a b ↔ splitWordAndFlags w = (a, b) := by
  unfold splitWordAndFlags
  cases h : splitOnce? ['/'] w with
  | none =>
    have hn := splitOnce_none.1 h
    simp only [Option.getD_none, Prod.mk.injEq]
    constructor
    · intro hp
      cases hp with
      | plain => exact ⟨rfl, rfl⟩
      | pair => simp at hn
    · rintro ⟨rfl, rfl⟩; exact .plain hn
  | some p =>
    obtain ⟨x, y⟩ := p
    obtain ⟨h1, rfl⟩ := splitOnce_some.1 h
    simp only [Option.getD_some, Prod.mk.injEq]
    constructor
    · intro hp
      generalize hw : x ++ '/' :: y = w at hp
      cases hp with
      | plain h2 => subst hw; simp at h2
      | @pair a b h2 =>
        have := (splitOnce_some (s := a ++ '/' :: b)).2 ⟨h2, rfl⟩
        rw [← hw, h] at this
        simpa using this
    · rintro ⟨rfl, rfl⟩; exact .pair h1

theorem affixNew_iff {f : Nat} {cross : Bool} {strip : Option Str} {add : Str} {cond : Option Str}
    {F : FlagSet} {a : Affix} : Affix.new f cross strip add cond F = .ok a ↔
      a.flag = f ∧ a.crossproduct = cross ∧ a.strip = strip ∧ a.add = add ∧ a.flags = F ∧
      ((cond = none ∧ a.condition = none) ∨
        ∃ s c, cond = some s ∧ a.condition = some c ∧ Condition.parse s = .ok c) := by
  obtain ⟨af, ac, as, aa, acond, aF⟩ := a
  unfold Affix.new
  cases cond with
  | none =>
    simp only [pure_bind]
    show Except.ok _ = _ ↔ _
    simp only [Except.ok.injEq, Affix.mk.injEq, true_and, reduceCtorEq, false_and, exists_false,
      or_false]
    constructor
    · rintro ⟨rfl, rfl, rfl, rfl, rfl, rfl⟩; simp
    · rintro ⟨rfl, rfl, rfl, rfl, rfl, rfl⟩; simp
  | some s =>
    simp only
    cases hc : Condition.parse s with
    | error e =>
      constructor
      · intro h; cases h
      · rintro ⟨-, -, -, -, -, ⟨h, -⟩ | ⟨s', c, h1, h2, h3⟩⟩
        · cases h
        · cases h1; rw [hc] at h3; cases h3
    | ok c =>
      show Except.ok _ = _ ↔ _
      simp only [Except.ok.injEq, Affix.mk.injEq, Option.some.injEq]
      constructor
      · rintro ⟨rfl, rfl, rfl, rfl, rfl, rfl⟩
        exact ⟨rfl, rfl, rfl, rfl, rfl, .inr ⟨s, c, rfl, rfl, hc⟩⟩
      · rintro ⟨rfl, rfl, rfl, rfl, rfl, ⟨h, -⟩ | ⟨s', c', rfl, rfl, h3⟩⟩
        · cases h
        · rw [hc] at h3; cases h3; simp

theorem conditionOf_iff {s : Str} {c : Condition} : ConditionOf s c ↔ Condition.parse s = .ok c := by
  rw [Condition.parse_ok_iff]
  obtain ⟨p, n, l⟩ := c
  constructor
  · rintro ⟨rfl, ⟨es, h1, rfl⟩, h2⟩
    refine ⟨es, h1, ?_⟩
    simp only [Condition.mk.injEq, true_and]
    rw [Bool.eq_iff_iff]
    refine h2.trans ?_
    simp
  · rintro ⟨es, h1, h2⟩
    simp only [Condition.mk.injEq] at h2
    obtain ⟨rfl, rfl, rfl⟩ := h2
    exact ⟨rfl, ⟨es, h1, rfl⟩, by simp⟩

theorem affixRow_iff {cx : Cx} {f : Nat} {cross : Bool} {strip add : Str} {more : List Str} {a : Affix} :
    AffixRow cx f cross strip add more a ↔
      makeAffix cx.flagType cx.flagAliases f cross (if strip = ['0'] then none else some strip)
        (if (splitWordAndFlags add).1 = ['0'] then [] else (splitWordAndFlags add).1)
        (more.head?.filter fun c => c ≠ ['.']) (splitWordAndFlags add).2 = .ok a := by
  have hcond : ((a.condition = none ∧ (more = [] ∨ ∃ r, more = ['.'] :: r)) ∨
      ∃ s r c, more = s :: r ∧ s ≠ ['.'] ∧ a.condition = some c ∧ ConditionOf s c) ↔
      (((more.head?.filter fun c => c ≠ ['.']) = none ∧ a.condition = none) ∨
        ∃ s c, (more.head?.filter fun c => c ≠ ['.']) = some s ∧ a.condition = some c ∧
          Condition.parse s = .ok c) := by
    simp only [conditionOf_iff]
    cases more with
    | nil => simp
    | cons m r =>
      by_cases hm : m = ['.']
      · subst hm; simp
      · simp [hm]
  unfold makeAffix
  constructor
  · rintro ⟨h1, h2, h3, ⟨text, flags, h4, h5, h6⟩, h7⟩
    rw [slashPair_iff.1 h4, aliasFlags_iff.1 h6]
    simp only
    rw [affixNew_iff.2 ⟨h1, h2, h3, h5, rfl, hcond.1 h7⟩]
  · intro h
    cases hd : decodeFlagset (splitWordAndFlags add).2 cx.flagType cx.flagAliases with
    | error e => rw [hd] at h; cases h
    | ok F =>
      rw [hd] at h
      simp only at h
      cases hn : Affix.new f cross (if strip = ['0'] then none else some strip)
        (if (splitWordAndFlags add).1 = ['0'] then [] else (splitWordAndFlags add).1)
        (more.head?.filter fun c => c ≠ ['.']) F with
      | error e => rw [hn] at h; cases h
      | ok a' =>
        rw [hn] at h; cases h
        obtain ⟨h1, h2, h3, h4, h5, h6⟩ := affixNew_iff.1 hn
        exact ⟨h1, h2, h3, ⟨_, _, slashPair_iff.2 rfl, h4, aliasFlags_iff.2 (h5 ▸ hd)⟩, hcond.2 h6⟩

theorem optFlag_iff {ty : FlagType} {w : Str} {o : Option Nat} {s t : Lines} :
    optFlag ty w s = .ok (o, t) ↔ OptFlag ty w o ∧ t = s := by
  unfold optFlag
  by_cases hw : w = []
  · subst hw
    simp only [List.isEmpty_nil, ↓reduceIte, P_pure_iff]
    refine and_congr_left fun _ => ?_
    constructor
    · rintro rfl; exact .none
    · intro h
      cases h with
      | none => rfl
      | some h1 h2 =>
        have := parseFlag?_ok.2 ⟨h1, h2⟩
        simp [parseFlag?] at this
  · rw [if_neg (by simpa using hw), P_bind_iff]
    constructor
    · rintro ⟨f, u, h1, h2⟩
      obtain ⟨⟨h3, h4⟩, rfl⟩ := flagOf_iff.1 h1
      obtain ⟨rfl, rfl⟩ := P_pure_iff.1 h2
      exact ⟨.some h3 h4, rfl⟩
    · rintro ⟨h, rfl⟩
      cases h with
      | none => exact absurd rfl hw
      | some h1 h2 => exact ⟨_, _, flagOf_iff.2 ⟨⟨h1, h2⟩, rfl⟩, P_pure_iff.2 ⟨rfl, rfl⟩⟩

theorem patternRow_fun (head : List Str) :
    RowFun "CHECKCOMPOUNDPATTERN" head (fun _ => True) patternRow := by
  intro cx args s cx' t _
  rw [row_pattern]
  unfold patternRow
  match args with
  | [] => simp [P_fail_iff]
  | [w] => simp [P_fail_iff]
  | a :: b :: more =>
    simp only [P_bind_iff, optFlag_iff, P_pure_iff]
    constructor
    · rintro ⟨o1, u, ⟨h1, rfl⟩, o2, v, ⟨h2, rfl⟩, rfl, rfl⟩
      refine ⟨⟨a, b, more, _, rfl, ⟨⟨(splitWordAndFlags a).1, (splitWordAndFlags a).2, slashPair_iff.2 rfl, h1,
        ?_, ?_⟩, ⟨(splitWordAndFlags b).2, slashPair_iff.2 rfl, h2⟩, rfl⟩, rfl⟩, rfl⟩
      · simp
      · simp
    · rintro ⟨⟨a', b', more', p, h, ⟨⟨x, y, h1, h2, h3, h4⟩, ⟨z, h5, h6⟩, h7⟩, rfl⟩, rfl⟩
      simp only [List.cons.injEq] at h
      obtain ⟨rfl, rfl, rfl⟩ := h
      rw [slashPair_iff] at h1 h5
      rw [h1, h5]
      refine ⟨_, _, ⟨h2, rfl⟩, _, _, ⟨h6, rfl⟩, ?_, rfl⟩
      have hb : p.matchFirstOnlyUnaffixed = decide (x = ['0']) := by
        rw [Bool.eq_iff_iff, h3, decide_eq_true_iff]
      obtain ⟨p1, p2, p3, p4, p5, p6⟩ := p
      simp only at *
      subst hb h4 h7
      simp

theorem affix_inv {key : String} {put : Cx → Affix → Cx}
    (hrow : ∀ head args cx cx', Row key head cx args cx' ↔
      ∃ name cross hd f strip add more a, head = name :: cross :: hd ∧
      args = name :: strip :: add :: more ∧ FlagOf cx.flagType name f ∧ Flag.Valid f ∧
      AffixRow cx f (cross = ['Y']) strip add more a ∧ cx' = put cx a)
    (hput : ∀ cx a, (put cx a).flagType = cx.flagType) :
    ∀ ty head, ∀ cx args cx', cx.flagType = ty → Row key head cx args cx' → cx'.flagType = ty := by
  intro ty head cx args cx' h1 h2
  obtain ⟨_, _, _, _, _, _, _, a, _, _, _, _, _, rfl⟩ := (hrow _ _ _ _).1 h2
  rw [hput, h1]

theorem affix_rowFun {key : String} {put : Cx → Affix → Cx}
    (hrow : ∀ head args cx cx', Row key head cx args cx' ↔
      ∃ name cross hd f strip add more a, head = name :: cross :: hd ∧
      args = name :: strip :: add :: more ∧ FlagOf cx.flagType name f ∧ Flag.Valid f ∧
      AffixRow cx f (cross = ['Y']) strip add more a ∧ cx' = put cx a) :
    ∀ ty name cross ws f, FlagOf ty name f → Flag.Valid f →
    RowFun key (name :: cross :: ws) (fun cx => cx.flagType = ty)
      (P.affixRow name ((fun flag cross (cx : Cx) strip add condition flagset =>
        match makeAffix cx.flagType cx.flagAliases flag cross strip add condition flagset with
        | .ok a => Except.ok (put cx a)
        | .error e => Except.error e) f (cross = ['Y']))) := by
  intro ty name cross ws f hf hv cx args s cx' t hty
  subst hty
  rw [hrow]
  unfold P.affixRow
  by_cases h1 : args.head? = some name
  · rw [if_neg (by simpa using h1)]
    match args, h1 with
    | [_], h1 => simp at h1; simp [P_fail_iff]
    | [_, _], h1 => simp at h1; simp [P_fail_iff]
    | n :: strip :: add :: more, h1 =>
      simp only [List.head?_cons, Option.some.injEq] at h1
      subst h1
      simp only [List.tail_cons, lift_iff]
      refine and_congr_left fun _ => ?_
      constructor
      · intro h
        revert h
        cases hm : makeAffix cx.flagType cx.flagAliases f (decide (cross = ['Y']))
          (if strip = ['0'] then none else some strip)
          (if (splitWordAndFlags add).1 = ['0'] then [] else (splitWordAndFlags add).1)
          (more.head?.filter fun c => c ≠ ['.']) (splitWordAndFlags add).2 with
        | error e => intro h; cases h
        | ok a =>
          intro h
          simp only [Except.ok.injEq] at h
          exact ⟨_, _, _, _, _, _, _, a, rfl, rfl, hf, hv, affixRow_iff.2 hm, h.symm⟩
      · rintro ⟨_, _, _, f', strip', add', more', a, h1, h2, h3, h4, h5, rfl⟩
        simp only [List.cons.injEq] at h1 h2
        obtain ⟨rfl, rfl, rfl⟩ := h1
        obtain ⟨-, rfl, rfl, rfl⟩ := h2
        have e1 := parseFlag?_ok.2 ⟨hf, hv⟩
        have e2 := parseFlag?_ok.2 ⟨h3, h4⟩
        rw [e1] at e2
        simp only [Option.some.injEq, Except.ok.injEq] at e2
        subst e2
        rw [affixRow_iff.1 h5]
  · rw [if_pos (by simpa using h1)]
    simp only [P_fail_iff, false_iff]
    rintro ⟨⟨_, _, _, _, _, _, _, _, h2, rfl, _⟩, _⟩
    simp only [List.cons.injEq] at h2
    exact h1 (by simp [h2.1])

theorem affixTable_iff {key : String} {put : Cx → Affix → Cx}
    (hrow : ∀ head args cx cx', Row key head cx args cx' ↔
      ∃ name cross hd f strip add more a, head = name :: cross :: hd ∧
      args = name :: strip :: add :: more ∧ FlagOf cx.flagType name f ∧ Flag.Valid f ∧
      AffixRow cx f (cross = ['Y']) strip add more a ∧ cx' = put cx a)
    (hput : ∀ cx a, (put cx a).flagType = cx.flagType)
    {cx cx' : Cx} {s : Lines} {args : List Str} {L : List (Nat × Str)} (hs : s.words = some args) :
    Ends (P.affixTable U key.toList cx.flagType (fun flag cross (cx : Cx) strip add condition flagset =>
      match makeAffix cx.flagType cx.flagAliases flag cross strip add condition flagset with
      | .ok a => .ok (put cx a)
      | .error e => .error e) cx) s cx' L ↔
    ∃ name cross w ws f rows, args = name :: cross :: w :: ws ∧ FlagOf cx.flagType name f ∧ Flag.Valid f ∧
      cross ∈ [['Y'], ['N']] ∧ IsNumeral w rows.length ∧ rows.length < 2 ^ 64 ∧
      Rows U key (name :: cross :: w :: ws) cx rows cx' ∧
      rows <+: pend U s.lines ∧ L = after U rows.length s.lines := by
  have hI := affix_inv hrow hput
  have hF := affix_rowFun hrow
  unfold P.affixTable Ends
  constructor
  · rintro ⟨t, h, h1, h2⟩
    obtain ⟨o, u, h3, h4⟩ := P_bind_iff.1 h
    obtain ⟨rfl, rfl⟩ := takeWords_iff.1 h3
    rw [hs] at h4
    match args with
    | [] => exact absurd h4 (by simp [P_fail_iff])
    | name :: more =>
      obtain ⟨f, u, h5, h6⟩ := P_bind_iff.1 h4
      obtain ⟨⟨h7, h8⟩, rfl⟩ := flagOf_iff.1 h5
      match more with
      | [] => exact absurd h6 (by simp [P_fail_iff])
      | cross :: more =>
        simp only at h6
        by_cases hc : cross ≠ ['Y'] ∧ cross ≠ ['N']
        · rw [if_pos hc, P_bind_iff] at h6
          obtain ⟨_, _, h6, -⟩ := h6
          exact absurd h6 (by simp [P_fail_iff])
        · rw [if_neg hc] at h6
          match more with
          | [] => exact absurd h6 (by simp [P_fail_iff])
          | w :: ws =>
            obtain ⟨n, u, h9, h10⟩ := P_bind_iff.1 h6
            obtain ⟨h11, rfl⟩ := lift_iff.1 h9
            obtain ⟨h12, h13⟩ := parseUInt_ok.1 h11
            obtain ⟨rs, rfl, h14, h15, rfl⟩ := (rows_iff (hF cx.flagType name cross (w :: ws) f h7 h8)
              (hI _ _) n 1 cx _ cx' t rfl).1 h10
            refine ⟨name, cross, w, ws, f, rs, rfl, h7, h8, ?_, h12, by unfold usizeMax at h13; omega, h14, h15, ?_⟩
            · simp only [List.mem_cons, List.not_mem_nil, or_false]
              by_contra hne
              push Not at hne
              exact hc hne
            · rw [← h1]; exact after_zero_or.1
  · rintro ⟨name, cross, w, ws, f, rs, rfl, h7, h8, h9, h10, h11, h12, h13, rfl⟩
    refine ⟨if rs.length = 0 then { s with words := none } else ⟨after U rs.length s.lines, none, s.source⟩,
      P_bind_iff.2 ⟨_, _, takeWords_iff.2 ⟨rfl, rfl⟩, ?_⟩, ?_⟩
    · rw [hs]
      refine P_bind_iff.2 ⟨f, _, flagOf_iff.2 ⟨⟨h7, h8⟩, rfl⟩, ?_⟩
      simp only
      rw [if_neg (by simp at h9; tauto)]
      exact P_bind_iff.2 ⟨rs.length, _, lift_iff.2 ⟨parseUInt_ok.2 ⟨h10, by unfold usizeMax; omega⟩, rfl⟩,
        (rows_iff (hF cx.flagType name cross (w :: ws) f h7 h8) (hI _ _) rs.length 1 cx _ cx' _ rfl).2
          ⟨rs, rfl, h12, h13, rfl⟩⟩
    · exact ⟨after_zero_or.1, after_zero_or.2⟩

/-! ## Every directive -/

/-- The directive does what the lines mean. -/
def Faithful (U : Unicode) (key : String) (d : Directive) : Prop :=
  ∀ (cx cx' : Cx) (s : Lines) (args : List Str) (L : List (Nat × Str)), s.words = some args →
    (Ends (d U cx) s cx' L ↔ ∃ rows, Effect U key args cx rows cx' ∧ rows <+: pend U s.lines ∧
      L = after U rows.length s.lines)

/-- The kind of a directive. -/
def keyClass (key : String) : Nat :=
  if key ∈ flagKeys.map (·.1) then 0
  else if key ∈ switchKeys.map (·.1) then 1
  else if key ∈ numberKeys.map (·.1) then 2
  else if key ∈ tableKeys then 3
  else if key ∈ ["PFX", "SFX"] then 4
  else if key = "FLAG" then 5
  else if key = "IGNORE" then 6
  else if key = "KEY" then 7
  else if key = "TRY" then 8
  else if key = "LANG" then 9
  else if key = "COMPOUNDSYLLABLE" then 10
  else 11

theorem class_flag : ∀ k ∈ flagKeys.map (·.1), keyClass k = 0 := by decide +kernel
theorem class_switch : ∀ k ∈ switchKeys.map (·.1), keyClass k = 1 := by decide +kernel
theorem class_number : ∀ k ∈ numberKeys.map (·.1), keyClass k = 2 := by decide +kernel
theorem class_table : ∀ k ∈ tableKeys, keyClass k = 3 := by decide +kernel
theorem class_affix : ∀ k ∈ ["PFX", "SFX"], keyClass k = 4 := by decide +kernel

/-- The cases of `Effect`. -/
theorem effect_cases {key : String} {args : List Str} {cx cx' : Cx} {rows : List Str}
    (h : Effect U key args cx rows cx') :
    (keyClass key = 5 ∧ rows = [] ∧
      ∃ w ws ty, args = w :: ws ∧ FlagTypeName U w ty ∧ cx' = { cx with flagType := ty }) ∨
    (keyClass key = 0 ∧ rows = [] ∧ ∃ set, (key, set) ∈ flagKeys ∧ ∃ w ws f, args = w :: ws ∧
      FlagOf cx.flagType w f ∧ Flag.Valid f ∧ cx' = { cx with options := set cx.options f }) ∨
    (keyClass key = 1 ∧ rows = [] ∧
      ∃ set, (key, set) ∈ switchKeys ∧ cx' = { cx with options := set cx.options }) ∨
    (keyClass key = 2 ∧ rows = [] ∧ ∃ set, (key, set) ∈ numberKeys ∧ ∃ w ws n, args = w :: ws ∧
      IsNumeral w n ∧ n ≤ 65535 ∧ cx' = { cx with options := set cx.options n }) ∨
    (keyClass key = 6 ∧ rows = [] ∧ ∃ w ws, args = w :: ws ∧ cx' = { cx with ignoreChars := w }) ∨
    (keyClass key = 7 ∧ rows = [] ∧ ∃ w ws, args = w :: ws ∧ cx' = { cx with keyboardCloseness := w }) ∨
    (keyClass key = 8 ∧ rows = [] ∧ ∃ w ws, args = w :: ws ∧ cx' = { cx with tryChars := w }) ∨
    (keyClass key = 9 ∧ rows = [] ∧ ∃ w ws, args = w :: ws ∧ cx' = { cx with options.caseHandling :=
        if w ∈ turkicLanguages then .turkic else .standard }) ∨
    (keyClass key = 10 ∧ rows = [] ∧ ∃ w vowels ws n, args = w :: vowels :: ws ∧ IsNumeral w n ∧
        n ≤ 65535 ∧ cx' = { cx with options.compoundSyllableMax := if n = 0 then none else some n,
                                    compoundSyllableVowels := vowels }) ∨
    (keyClass key = 3 ∧ ∃ w ws, args = w :: ws ∧ IsNumeral w rows.length ∧ rows.length < 2 ^ 64 ∧
      Rows U key (w :: ws) (if key = "BREAK" then { cx with breakPatterns := [] } else cx) rows cx') ∨
    (keyClass key = 4 ∧ ∃ name cross w ws f, args = name :: cross :: w :: ws ∧
      FlagOf cx.flagType name f ∧ Flag.Valid f ∧ cross ∈ [['Y'], ['N']] ∧ IsNumeral w rows.length ∧
      rows.length < 2 ^ 64 ∧ Rows U key (name :: cross :: w :: ws) cx rows cx') := by
  cases h with
  | flagType h => exact .inl ⟨by decide +kernel, rfl, _, _, _, rfl, h, rfl⟩
  | flag h1 h2 h3 =>
    exact .inr (.inl ⟨class_flag _ (List.mem_map.2 ⟨_, h1, rfl⟩), rfl, _, h1, _, _, _, rfl, h2, h3, rfl⟩)
  | switch h1 =>
    exact .inr (.inr (.inl ⟨class_switch _ (List.mem_map.2 ⟨_, h1, rfl⟩), rfl, _, h1, rfl⟩))
  | number h1 h2 h3 =>
    exact .inr (.inr (.inr (.inl
      ⟨class_number _ (List.mem_map.2 ⟨_, h1, rfl⟩), rfl, _, h1, _, _, _, rfl, h2, h3, rfl⟩)))
  | ignore => exact .inr (.inr (.inr (.inr (.inl ⟨by decide +kernel, rfl, _, _, rfl, rfl⟩))))
  | keyboard => exact .inr (.inr (.inr (.inr (.inr (.inl ⟨by decide +kernel, rfl, _, _, rfl, rfl⟩)))))
  | tryChars => exact .inr (.inr (.inr (.inr (.inr (.inr (.inl ⟨by decide +kernel, rfl, _, _, rfl, rfl⟩))))))
  | turkic h =>
    exact .inr (.inr (.inr (.inr (.inr (.inr (.inr (.inl
      ⟨by decide +kernel, rfl, _, _, rfl, by rw [if_pos h]⟩)))))))
  | notTurkic h =>
    exact .inr (.inr (.inr (.inr (.inr (.inr (.inr (.inl
      ⟨by decide +kernel, rfl, _, _, rfl, by rw [if_neg h]⟩)))))))
  | syllable h1 h2 =>
    exact .inr (.inr (.inr (.inr (.inr (.inr (.inr (.inr (.inl
      ⟨by decide +kernel, rfl, _, _, _, _, rfl, h1, h2, rfl⟩))))))))
  | table h1 h2 h3 h4 =>
    exact .inr (.inr (.inr (.inr (.inr (.inr (.inr (.inr (.inr (.inl
      ⟨class_table _ h1, _, _, rfl, h2, h3, h4⟩)))))))))
  | affixes h1 h2 h3 h4 h5 h6 h7 =>
    exact .inr (.inr (.inr (.inr (.inr (.inr (.inr (.inr (.inr (.inr
      ⟨class_affix _ h1, _, _, _, _, _, rfl, h2, h3, h4, h5, h6, h7⟩)))))))))

/-- Picks the case of `effect_cases` that belongs to the class of the key. -/
macro "effect_inv" h:term "class" hk:term "with" p:rcasesPat : tactic => `(tactic| (
  rcases effect_cases $h with ⟨hc, h⟩ | ⟨hc, h⟩ | ⟨hc, h⟩ | ⟨hc, h⟩ | ⟨hc, h⟩ | ⟨hc, h⟩ | ⟨hc, h⟩ | ⟨hc, h⟩ |
    ⟨hc, h⟩ | ⟨hc, h⟩ | ⟨hc, h⟩ <;>
  first
  | exact absurd (($hk).symm.trans hc) (by decide)
  | (obtain $p := h)))

theorem assoc_unique {β : Type} {l : List (String × β)} (hn : (l.map (·.1)).Nodup) {k : String} {a b : β}
    (h1 : (k, a) ∈ l) (h2 : (k, b) ∈ l) : a = b := by
  induction l with
  | nil => simp at h1
  | cons p l ih =>
    simp only [List.map_cons, List.nodup_cons] at hn
    rcases List.mem_cons.1 h1 with e1 | h1
    · rcases List.mem_cons.1 h2 with e2 | h2
      · rw [← e2] at e1; cases e1; rfl
      · exact absurd (List.mem_map.2 ⟨_, h2, by rw [← e1]⟩) hn.1
    · rcases List.mem_cons.1 h2 with e2 | h2
      · exact absurd (List.mem_map.2 ⟨_, h1, by rw [← e2]⟩) hn.1
      · exact ih hn.2 h1 h2

theorem faithful_flag {key : String} {set : AffOptions → Nat → AffOptions} (h : (key, set) ∈ flagKeys) :
    Faithful U key (flagDirective set) := by
  intro cx cx' s args L hs
  rw [flagDirective_iff hs]
  constructor
  · rintro ⟨w, ws, f, rfl, h1, h2, rfl, rfl⟩
    exact ⟨[], .flag h h1 h2, List.nil_prefix, rfl⟩
  · rintro ⟨rows, he, -, rfl⟩
    effect_inv he class (class_flag _ (List.mem_map.2 ⟨_, h, rfl⟩)) with
      ⟨rfl, set', h1, w, ws, f, h2, h3, h4, h5⟩
    cases assoc_unique (by decide +kernel) h h1
    exact ⟨w, ws, f, h2, h3, h4, h5, rfl⟩

theorem faithful_switch {key : String} {set : AffOptions → Bool → AffOptions}
    (h : (key, fun o => set o true) ∈ switchKeys) : Faithful U key (boolDirective set) := by
  intro cx cx' s args L hs
  rw [boolDirective_iff]
  constructor
  · rintro ⟨rfl, rfl⟩
    exact ⟨[], .switch h, List.nil_prefix, rfl⟩
  · rintro ⟨rows, he, -, rfl⟩
    effect_inv he class (class_switch _ (List.mem_map.2 ⟨_, h, rfl⟩)) with ⟨rfl, set', h1, h5⟩
    have := assoc_unique (by decide +kernel) h h1
    subst this
    exact ⟨h5, rfl⟩

theorem faithful_number {key : String} {set : AffOptions → Nat → AffOptions} (h : (key, set) ∈ numberKeys) :
    Faithful U key (shortDirective set) := by
  intro cx cx' s args L hs
  rw [shortDirective_iff hs]
  constructor
  · rintro ⟨w, ws, f, rfl, h1, h2, rfl, rfl⟩
    exact ⟨[], .number h h1 h2, List.nil_prefix, rfl⟩
  · rintro ⟨rows, he, -, rfl⟩
    effect_inv he class (class_number _ (List.mem_map.2 ⟨_, h, rfl⟩)) with
      ⟨rfl, set', h1, w, ws, f, h2, h3, h4, h5⟩
    cases assoc_unique (by decide +kernel) h h1
    exact ⟨w, ws, f, h2, h3, h4, h5, rfl⟩

theorem faithful_flagType : Faithful U "FLAG" flagTypeDirective := by
  intro cx cx' s args L hs
  rw [flagTypeDirective_iff hs]
  constructor
  · rintro ⟨w, ws, ty, rfl, h1, rfl, rfl⟩
    exact ⟨[], .flagType h1, List.nil_prefix, rfl⟩
  · rintro ⟨rows, he, -, rfl⟩
    effect_inv he class (show keyClass "FLAG" = 5 by decide +kernel) with ⟨rfl, w, ws, ty, h1, h2, h3⟩
    exact ⟨w, ws, ty, h1, h2, h3, rfl⟩

theorem faithful_ignore :
    Faithful U "IGNORE" (wordDirective fun cx w => { cx with ignoreChars := w }) := by
  intro cx cx' s args L hs
  rw [wordDirective_iff hs]
  constructor
  · rintro ⟨w, ws, rfl, rfl, rfl⟩
    exact ⟨[], .ignore, List.nil_prefix, rfl⟩
  · rintro ⟨rows, he, -, rfl⟩
    effect_inv he class (show keyClass "IGNORE" = 6 by decide +kernel) with ⟨rfl, w, ws, h1, h2⟩
    exact ⟨w, ws, h1, h2, rfl⟩

theorem faithful_keyboard :
    Faithful U "KEY" (wordDirective fun cx w => { cx with keyboardCloseness := w }) := by
  intro cx cx' s args L hs
  rw [wordDirective_iff hs]
  constructor
  · rintro ⟨w, ws, rfl, rfl, rfl⟩
    exact ⟨[], .keyboard, List.nil_prefix, rfl⟩
  · rintro ⟨rows, he, -, rfl⟩
    effect_inv he class (show keyClass "KEY" = 7 by decide +kernel) with ⟨rfl, w, ws, h1, h2⟩
    exact ⟨w, ws, h1, h2, rfl⟩

theorem faithful_try :
    Faithful U "TRY" (wordDirective fun cx w => { cx with tryChars := w }) := by
  intro cx cx' s args L hs
  rw [wordDirective_iff hs]
  constructor
  · rintro ⟨w, ws, rfl, rfl, rfl⟩
    exact ⟨[], .tryChars, List.nil_prefix, rfl⟩
  · rintro ⟨rows, he, -, rfl⟩
    effect_inv he class (show keyClass "TRY" = 8 by decide +kernel) with ⟨rfl, w, ws, h1, h2⟩
    exact ⟨w, ws, h1, h2, rfl⟩

theorem isTurkic_iff {w : Str} : isTurkic w = true ↔ w ∈ turkicLanguages := by
  unfold isTurkic turkicLanguages
  simp only [Bool.or_eq_true, decide_eq_true_eq, List.mem_cons, List.not_mem_nil, or_false, or_assoc]

theorem faithful_lang : Faithful U "LANG" (wordDirective fun cx w =>
    { cx with options.caseHandling := if isTurkic w then .turkic else .standard }) := by
  intro cx cx' s args L hs
  rw [wordDirective_iff hs]
  constructor
  · rintro ⟨w, ws, rfl, rfl, rfl⟩
    refine ⟨[], ?_, List.nil_prefix, rfl⟩
    by_cases hw : isTurkic w = true
    · rw [if_pos hw]; exact .turkic (isTurkic_iff.1 hw)
    · rw [if_neg hw]; exact .notTurkic fun h => hw (isTurkic_iff.2 h)
  · rintro ⟨rows, he, -, rfl⟩
    effect_inv he class (show keyClass "LANG" = 9 by decide +kernel) with ⟨rfl, w, ws, h1, h2⟩
    simp only [← isTurkic_iff] at h2
    exact ⟨w, ws, h1, h2, rfl⟩

theorem faithful_syllable : Faithful U "COMPOUNDSYLLABLE" syllableDirective := by
  intro cx cx' s args L hs
  rw [syllableDirective_iff hs]
  constructor
  · rintro ⟨w, v, ws, n, rfl, h1, h2, rfl, rfl⟩
    exact ⟨[], .syllable h1 h2, List.nil_prefix, rfl⟩
  · rintro ⟨rows, he, -, rfl⟩
    effect_inv he class (show keyClass "COMPOUNDSYLLABLE" = 10 by decide +kernel) with
      ⟨rfl, w, v, ws, n, h1, h2, h3, h4⟩
    exact ⟨w, v, ws, n, h1, h2, h3, h4, rfl⟩

theorem faithful_table {key : String} (h : key ∈ tableKeys) {f : Cx → List Str → P Cx}
    (hf : ∀ head, RowFun key head (fun _ => True) f) :
    Faithful U key (fun U cx => P.count >>= fun n => P.rows U key.toList n f n 1
      (if key = "BREAK" then { cx with breakPatterns := [] } else cx)) := by
  intro cx cx' s args L hs
  dsimp only
  rw [counted_iff hs hf]
  constructor
  · rintro ⟨w, ws, rows, rfl, h1, h2, h3, h4, rfl⟩
    exact ⟨rows, .table h h1 h2 h3, h4, rfl⟩
  · rintro ⟨rows, he, h4, rfl⟩
    effect_inv he class (class_table _ h) with ⟨w, ws, h1, h2, h3, h5⟩
    exact ⟨w, ws, rows, h1, h2, h3, h5, h4, rfl⟩

theorem faithful_affixes {key : String} (h : key ∈ ["PFX", "SFX"]) {put : Cx → Affix → Cx}
    (hrow : ∀ head args cx cx', Row key head cx args cx' ↔
      ∃ name cross hd f strip add more a, head = name :: cross :: hd ∧
      args = name :: strip :: add :: more ∧ FlagOf cx.flagType name f ∧ Flag.Valid f ∧
      AffixRow cx f (cross = ['Y']) strip add more a ∧ cx' = put cx a)
    (hput : ∀ cx a, (put cx a).flagType = cx.flagType) :
    Faithful U key (fun U cx => P.affixTable U key.toList cx.flagType
      (fun flag cross (cx : Cx) strip add condition flagset =>
      match makeAffix cx.flagType cx.flagAliases flag cross strip add condition flagset with
      | .ok a => .ok (put cx a)
      | .error e => .error e) cx) := by
  intro cx cx' s args L hs
  dsimp only
  rw [affixTable_iff hrow hput hs]
  constructor
  · rintro ⟨name, cross, w, ws, f, rows, rfl, h1, h2, h3, h4, h5, h6, h7, rfl⟩
    exact ⟨rows, .affixes h h1 h2 h3 h4 h5 h6, h7, rfl⟩
  · rintro ⟨rows, he, h7, rfl⟩
    effect_inv he class (class_affix _ h) with ⟨name, cross, w, ws, f, h1, h2, h3, h4, h5, h6, h8⟩
    exact ⟨name, cross, w, ws, f, rows, h1, h2, h3, h4, h5, h6, h8, h7, rfl⟩

theorem rowFun_rep (head : List Str) : RowFun "REP" head (fun _ => True) (fun cx words => match words with
      | word1 :: word2 :: _ => P.lift id ((fun (cx : Cx) a b => Except.ok { cx with replacements := cx.replacements ++ [(a, replaceChar b '_' [' '])] }) cx word1 word2)
      | [_] => P.fail (.mismatchedArity 2 1)
      | [] => P.fail (.mismatchedArity 2 0)) := by
  refine rowFun2 ?_ ?_ ?_
  · intro cx a b ws cx'
    rw [row_rep, Except.ok.injEq, replaceChar_map]
    constructor
    · rintro rfl; exact ⟨a, b, ws, rfl, rfl⟩
    · rintro ⟨_, _, _, h, rfl⟩; cases h; rfl
  · intro cx cx' h; obtain ⟨_, _, _, h, -⟩ := row_rep.1 h; cases h
  · intro cx w cx' h; obtain ⟨_, _, _, h, -⟩ := row_rep.1 h; cases h

theorem rowFun_iconv (head : List Str) : RowFun "ICONV" head (fun _ => True) (fun cx words => match words with
      | word1 :: word2 :: _ => P.lift id ((fun (cx : Cx) a b => Except.ok { cx with inputConversions := cx.inputConversions ++ [(a, b)] }) cx word1 word2)
      | [_] => P.fail (.mismatchedArity 2 1)
      | [] => P.fail (.mismatchedArity 2 0)) := by
  refine rowFun2 ?_ ?_ ?_
  · intro cx a b ws cx'
    rw [row_iconv, Except.ok.injEq]
    constructor
    · rintro rfl; exact ⟨a, b, ws, rfl, rfl⟩
    · rintro ⟨_, _, _, h, rfl⟩; cases h; rfl
  · intro cx cx' h; obtain ⟨_, _, _, h, -⟩ := row_iconv.1 h; cases h
  · intro cx w cx' h; obtain ⟨_, _, _, h, -⟩ := row_iconv.1 h; cases h

theorem rowFun_oconv (head : List Str) : RowFun "OCONV" head (fun _ => True) (fun cx words => match words with
      | word1 :: word2 :: _ => P.lift id ((fun (cx : Cx) a b => Except.ok { cx with outputConversions := cx.outputConversions ++ [(a, b)] }) cx word1 word2)
      | [_] => P.fail (.mismatchedArity 2 1)
      | [] => P.fail (.mismatchedArity 2 0)) := by
  refine rowFun2 ?_ ?_ ?_
  · intro cx a b ws cx'
    rw [row_oconv, Except.ok.injEq]
    constructor
    · rintro rfl; exact ⟨a, b, ws, rfl, rfl⟩
    · rintro ⟨_, _, _, h, rfl⟩; cases h; rfl
  · intro cx cx' h; obtain ⟨_, _, _, h, -⟩ := row_oconv.1 h; cases h
  · intro cx w cx' h; obtain ⟨_, _, _, h, -⟩ := row_oconv.1 h; cases h

theorem rowFun_break (head : List Str) : RowFun "BREAK" head (fun _ => True) (fun cx words => match words with
      | word :: _ => P.lift id ((fun (cx : Cx) s => Except.ok { cx with breakPatterns := cx.breakPatterns ++ [s] }) cx word)
      | [] => P.fail (.mismatchedArity 1 0)) := by
  refine rowFun1 ?_ ?_
  · intro cx a ws cx'
    rw [row_break, Except.ok.injEq]
    constructor
    · rintro rfl; exact ⟨a, ws, rfl, rfl⟩
    · rintro ⟨_, _, h, rfl⟩; cases h; rfl
  · intro cx cx' h; obtain ⟨_, _, h, -⟩ := row_break.1 h; cases h

theorem rowFun_af (head : List Str) : RowFun "AF" head (fun _ => True) (fun cx words => match words with
      | word :: _ => P.lift id ((fun (cx : Cx) s => 
        match parseFlags cx.flagType s with
        | .ok flagset => Except.ok { cx with flagAliases := cx.flagAliases ++ [flagset] }
        | .error e => .error (.malformedFlag e)) cx word)
      | [] => P.fail (.mismatchedArity 1 0)) := by
  refine rowFun1 ?_ ?_
  · intro cx a ws cx'
    rw [row_af]
    constructor
    · intro h
      cases hp : parseFlags cx.flagType a with
      | error e => rw [hp] at h; cases h
      | ok F => rw [hp] at h; cases h; exact ⟨a, ws, F, rfl, hp, rfl⟩
    · rintro ⟨_, _, F, h, h1, rfl⟩; cases h; rw [h1]
  · intro cx cx' h; obtain ⟨_, _, _, h, -⟩ := row_af.1 h; cases h

theorem rowFun_rule (head : List Str) : RowFun "COMPOUNDRULE" head (fun _ => True) (fun cx words => match words with
      | word :: _ => P.lift id ((fun (cx : Cx) s => 
        match parseCompoundRule s cx.flagType with
        | .ok rule => Except.ok { cx with compoundRules := cx.compoundRules ++ [rule] }
        | .error e => .error (.malformedCompoundRule e)) cx word)
      | [] => P.fail (.mismatchedArity 1 0)) := by
  refine rowFun1 ?_ ?_
  · intro cx a ws cx'
    rw [row_rule]
    constructor
    · intro h
      cases hp : parseCompoundRule a cx.flagType with
      | error e => rw [hp] at h; cases h
      | ok F => rw [hp] at h; cases h; exact ⟨a, ws, F, rfl, hp, rfl⟩
    · rintro ⟨_, _, F, h, h1, rfl⟩; cases h; rw [h1]
  · intro cx cx' h; obtain ⟨_, _, _, h, -⟩ := row_rule.1 h; cases h

theorem rowFun_map (head : List Str) : RowFun "MAP" head (fun _ => True) (fun cx words => match words with
      | word :: _ => P.lift id ((fun (cx : Cx) s => Except.ok { cx with similarities := cx.similarities ++ [SimilarityGroup.ofText s] }) cx word)
      | [] => P.fail (.mismatchedArity 1 0)) := by
  refine rowFun1 ?_ ?_
  · intro cx a ws cx'
    rw [row_map, Except.ok.injEq]
    constructor
    · rintro rfl; exact ⟨a, ws, rfl, rfl⟩
    · rintro ⟨_, _, h, rfl⟩; cases h; rfl
  · intro cx cx' h; obtain ⟨_, _, h, -⟩ := row_map.1 h; cases h

/-- Every directive of the table does what its lines mean. -/
theorem affParsers_faithful : ∀ p ∈ affParsers, ∃ key ∈ knownKeys, p.1 = key.toList ∧ Faithful U key p.2 := by
  unfold affParsers
  simp only [List.forall_mem_cons, List.not_mem_nil, false_implies, implies_true, and_true]
  have fl : ∀ (key : String) (set : AffOptions → Nat → AffOptions), (key, set) ∈ flagKeys →
      ∃ k ∈ knownKeys, key.toList = k.toList ∧ Faithful U k (flagDirective set) := fun key set h =>
    ⟨key, by simp only [knownKeys, List.mem_append]; exact .inl (.inl (.inl (List.mem_map.2 ⟨_, h, rfl⟩))),
      rfl, faithful_flag h⟩
  have sw : ∀ (key : String) (set : AffOptions → Bool → AffOptions), (key, fun o => set o true) ∈ switchKeys →
      ∃ k ∈ knownKeys, key.toList = k.toList ∧ Faithful U k (boolDirective set) := fun key set h =>
    ⟨key, by simp only [knownKeys, List.mem_append]; exact .inl (.inl (.inr (List.mem_map.2 ⟨_, h, rfl⟩))),
      rfl, faithful_switch h⟩
  have nu : ∀ (key : String) (set : AffOptions → Nat → AffOptions), (key, set) ∈ numberKeys →
      ∃ k ∈ knownKeys, key.toList = k.toList ∧ Faithful U k (shortDirective set) := fun key set h =>
    ⟨key, by simp only [knownKeys, List.mem_append]; exact .inl (.inr (List.mem_map.2 ⟨_, h, rfl⟩)),
      rfl, faithful_number h⟩
  have f16 : ∀ i (h : i < flagKeys.length), flagKeys[i] ∈ flagKeys := fun i h => List.getElem_mem h
  have s14 : ∀ i (h : i < switchKeys.length), switchKeys[i] ∈ switchKeys := fun i h => List.getElem_mem h
  have n5 : ∀ i (h : i < numberKeys.length), numberKeys[i] ∈ numberKeys := fun i h => List.getElem_mem h
  refine ⟨⟨"FLAG", by decide +kernel, rfl, faithful_flagType⟩,
    fl "FORBIDDENWORD" _ (f16 0 (by decide)), fl "CIRCUMFIX" _ (f16 2 (by decide)),
    fl "KEEPCASE" _ (f16 3 (by decide)), fl "NEEDAFFIX" _ (f16 4 (by decide)),
    fl "NOSUGGEST" _ (f16 6 (by decide)), fl "SUBSTANDARD" _ (f16 7 (by decide)),
    fl "WARN" _ (f16 5 (by decide)), fl "COMPOUNDFLAG" _ (f16 8 (by decide)),
    fl "COMPOUNDBEGIN" _ (f16 9 (by decide)), fl "COMPOUNDMIDDLE" _ (f16 10 (by decide)),
    fl "COMPOUNDEND" _ (f16 11 (by decide)), fl "ONLYINCOMPOUND" _ (f16 1 (by decide)),
    fl "COMPOUNDPERMITFLAG" _ (f16 12 (by decide)), fl "COMPOUNDFORBIDFLAG" _ (f16 13 (by decide)),
    fl "COMPOUNDROOT" _ (f16 14 (by decide)), fl "FORCEUCASE" _ (f16 15 (by decide)),
    sw "COMPLEXPREFIXES" _ (s14 0 (by decide)), sw "FULLSTRIP" _ (s14 1 (by decide)),
    sw "CHECKSHARPS" _ (s14 2 (by decide)), sw "FORBIDWARN" _ (s14 3 (by decide)),
    sw "COMPOUNDMORESUFFIXES" _ (s14 4 (by decide)), sw "CHECKCOMPOUNDDUP" _ (s14 5 (by decide)),
    sw "CHECKCOMPOUNDREP" _ (s14 6 (by decide)), sw "CHECKCOMPOUNDCASE" _ (s14 7 (by decide)),
    sw "CHECKCOMPOUNDTRIPLE" _ (s14 8 (by decide)), sw "SIMPLIFIEDTRIPLE" _ (s14 9 (by decide)),
    sw "SYLLABLENUM" _ (s14 10 (by decide)), sw "ONLYMAXDIFF" _ (s14 11 (by decide)),
    sw "NOSPLITSUGS" _ (s14 12 (by decide)), sw "SUGSWITHDOTS" _ (s14 13 (by decide)),
    ?_, nu "COMPOUNDWORDMAX" _ (n5 1 (by decide)), nu "MAXCPDSUGS" _ (n5 2 (by decide)),
    nu "MAXNGRAMSUGS" _ (n5 3 (by decide)), ?_,
    ⟨"IGNORE", by decide +kernel, rfl, faithful_ignore⟩, ⟨"KEY", by decide +kernel, rfl, faithful_keyboard⟩,
    ⟨"TRY", by decide +kernel, rfl, faithful_try⟩, ⟨"LANG", by decide +kernel, rfl, faithful_lang⟩,
    ?_, ?_, ?_, ?_, ⟨"COMPOUNDSYLLABLE", by decide +kernel, rfl, faithful_syllable⟩, ?_, ?_, ?_, ?_, ?_, ?_⟩
  · -- COMPOUNDMIN
    have : (fun (o : AffOptions) n => { o with compoundMinLength := nonZero (max n 1) })
        = fun o n => { o with compoundMinLength := some (if n = 0 then 1 else n) } := by
      funext o n
      congr 1
      unfold nonZero
      rw [if_neg (by omega)]
      congr 1
      split <;> omega
    rw [this]
    exact nu "COMPOUNDMIN" _ (n5 0 (by decide))
  · -- MAXDIFF
    have : (fun (o : AffOptions) n => { o with maxDiffFactor := if n > 10 then 5 else n })
        = fun o n => { o with maxDiffFactor := if n ≤ 10 then n else 5 } := by
      funext o n
      congr 1
      split <;> split <;> omega
    rw [this]
    exact nu "MAXDIFF" _ (n5 4 (by decide))
  · exact ⟨"REP", by decide +kernel, rfl, faithful_table (key := "REP") (by decide +kernel) rowFun_rep⟩
  · exact ⟨"ICONV", by decide +kernel, rfl, faithful_table (key := "ICONV") (by decide +kernel) rowFun_iconv⟩
  · exact ⟨"OCONV", by decide +kernel, rfl, faithful_table (key := "OCONV") (by decide +kernel) rowFun_oconv⟩
  · exact ⟨"BREAK", by decide +kernel, rfl, faithful_table (key := "BREAK") (by decide +kernel) rowFun_break⟩
  · exact ⟨"AF", by decide +kernel, rfl, faithful_table (key := "AF") (by decide +kernel) rowFun_af⟩
  · exact ⟨"PFX", by decide +kernel, rfl, faithful_affixes (key := "PFX") (by decide +kernel)
      (put := fun cx a => { cx with prefixes := cx.prefixes ++ [a] }) (fun _ _ _ _ => row_pfx) fun _ _ => rfl⟩
  · exact ⟨"SFX", by decide +kernel, rfl, faithful_affixes (key := "SFX") (by decide +kernel)
      (put := fun cx a => { cx with suffixes := cx.suffixes ++ [a] }) (fun _ _ _ _ => row_sfx) fun _ _ => rfl⟩
  · exact ⟨"COMPOUNDRULE", by decide +kernel, rfl, faithful_table (key := "COMPOUNDRULE") (by decide +kernel) rowFun_rule⟩
  · exact ⟨"CHECKCOMPOUNDPATTERN", by decide +kernel, rfl,
      faithful_table (key := "CHECKCOMPOUNDPATTERN") (by decide +kernel) patternRow_fun⟩
  · exact ⟨"MAP", by decide +kernel, rfl, faithful_table (key := "MAP") (by decide +kernel) rowFun_map⟩

/-! ## The whole text -/

theorem findDirective_known : ∀ k ∈ knownKeys, (findDirective k.toList).isSome = true := by decide +kernel

theorem findDirective_some {w : Str} {d : Directive} (h : findDirective w = some d) :
    ∃ key ∈ knownKeys, w = key.toList ∧ Faithful U key d := by
  simp only [findDirective, Option.map_eq_some_iff] at h
  obtain ⟨p, hp, rfl⟩ := h
  obtain ⟨key, h1, h2, h3⟩ := affParsers_faithful (U := U) p (List.mem_of_find?_eq_some hp)
  have := List.find?_some hp
  simp only [beq_iff_eq] at this
  exact ⟨key, h1, by rw [← this, h2], h3⟩

theorem findDirective_none {w : Str} : findDirective w = none ↔ ∀ k ∈ knownKeys, w ≠ k.toList := by
  constructor
  · rintro h k hk rfl
    have := findDirective_known k hk
    rw [h] at this; cases this
  · intro h
    cases hd : findDirective w with
    | none => rfl
    | some d =>
      obtain ⟨key, h1, h2, -⟩ := findDirective_some (U := .sample) hd
      exact absurd h2 (h key h1)

theorem effect_known {key : String} {args : List Str} {cx cx' : Cx} {rows : List Str}
    (h : Effect U key args cx rows cx') : key ∈ knownKeys := by
  have tk : ∀ k ∈ tableKeys, k ∈ knownKeys := by decide +kernel
  have ak : ∀ k ∈ ["PFX", "SFX"], k ∈ knownKeys := by decide +kernel
  cases h with
  | flag h => simp only [knownKeys, List.mem_append]; exact .inl (.inl (.inl (List.mem_map.2 ⟨_, h, rfl⟩)))
  | switch h => simp only [knownKeys, List.mem_append]; exact .inl (.inl (.inr (List.mem_map.2 ⟨_, h, rfl⟩)))
  | number h => simp only [knownKeys, List.mem_append]; exact .inl (.inr (List.mem_map.2 ⟨_, h, rfl⟩))
  | table h => exact tk _ h
  | affixes h => exact ak _ h
  | _ => decide +kernel

theorem after_length (n : Nat) (ls : List (Nat × Str)) : (after U n ls).length ≤ ls.length := by
  induction n generalizing ls with
  | zero => exact Nat.le_refl _
  | succ n ih =>
    have h1 := ih (ls.tail.dropWhile fun l => isComment U l.2)
    have h2 := (List.dropWhile_suffix (l := ls.tail) fun l => isComment U l.2).length_le
    rw [List.length_tail] at h2
    rw [after]; omega

/-- The lines that are no comments. -/
def contents (U : Unicode) (ls : List (Nat × Str)) : List Str :=
  (ls.filter fun l => !isComment U l.2).map (·.2)

theorem affLoop_iff : ∀ (fuel : Nat) (cx cx' : Cx) (ls : List (Nat × Str)) (src : Source),
    CxOk cx → (ls.dropWhile fun l => isComment U l.2).length < fuel →
    ((∃ t, affLoop U fuel cx (Lines.settle U ls src) = .ok (cx', t)) ↔ Reads U cx (contents U ls) cx') := by
  intro fuel
  induction fuel with
  | zero => intro _ _ _ _ _ h; omega
  | succ fuel ih =>
    intro cx cx' ls src hcx hf
    have hc := dropWhile_filter (fun l : Nat × Str => isComment U l.2) ls
    cases hd : ls.dropWhile fun l => isComment U l.2 with
    | nil =>
      rw [hd] at hc
      simp only at hc
      have hs : Lines.settle U ls src = ⟨[], none, src⟩ := by simp [Lines.settle, hd]
      rw [hs, contents, hc, affLoop, P_bind_ok (x := P.isFinished) rfl]
      simp only [Lines.isFinished, List.isEmpty_nil, ↓reduceIte, P_pure_iff, List.map_nil]
      constructor
      · rintro ⟨t, rfl, -⟩; exact .done
      · intro h
        cases h
        exact ⟨_, rfl, rfl⟩
    | cons l rest =>
      rw [hd] at hc hf
      simp only at hc
      have hs : Lines.settle U ls src = ⟨l :: rest, some (splitWhitespace U l.2), src⟩ := by
        simp [Lines.settle, hd]
      have hcont : contents U ls = l.2 :: pend U (l :: rest) := by
        rw [contents, hc]; rfl
      have hpc : ∀ n, contents U (after U n (l :: rest)).tail = (pend U (l :: rest)).drop n := by
        intro n
        rw [← pend_after]; rfl
      have hlen : ∀ n, ((after U n (l :: rest)).tail.dropWhile fun l => isComment U l.2).length < fuel := by
        intro n
        have h1 := (List.dropWhile_suffix (l := (after U n (l :: rest)).tail) fun l => isComment U l.2).length_le
        rw [List.length_tail] at h1
        have h2 := after_length (U := U) n (l :: rest)
        simp only [List.length_cons] at hf h2
        omega
      rw [hs, hcont, affLoop, P_bind_ok (x := P.isFinished) rfl]
      simp only [Lines.isFinished, List.isEmpty_cons, Bool.false_eq_true, ↓reduceIte, P_bind_iff]
      have ignored : (∀ key args, splitWhitespace U l.2 = key :: args → ∀ k ∈ knownKeys, key ≠ k.toList) →
          (Reads U cx (l.2 :: pend U (l :: rest)) cx' ↔ Reads U cx (pend U (l :: rest)) cx') := by
        intro hno
        constructor
        · intro h
          generalize pend U (l :: rest) = X at h
          cases h with
          | ignored _ h => exact h
          | directive h1 h2 h3 => exact absurd rfl (hno _ _ h1 _ (effect_known h2))
        · exact .ignored hno
      have adv : ∀ t : Lines, P.advance U t = .ok ((), Lines.settle U t.lines.tail t.source) := fun t => rfl
      cases hw : splitWhitespace U l.2 with
      | nil =>
        have hstep : affStep U cx ⟨l :: rest, some [], src⟩ = .ok (cx, ⟨l :: rest, none, src⟩) := rfl
        rw [ignored (by intro _ _ h; rw [hw] at h; cases h)]
        rw [show pend U (l :: rest) = contents U (after U 0 (l :: rest)).tail from rfl, ← ih cx cx' _ src hcx (hlen 0)]
        constructor
        · rintro ⟨t, cx₁, u, h1, _, v, h2, h3⟩
          rw [hstep] at h1
          cases h1
          rw [adv] at h2
          cases h2
          exact ⟨t, h3⟩
        · rintro ⟨t, h⟩
          exact ⟨t, cx, _, hstep, (), _, adv _, h⟩
      | cons w ws =>
        cases hfd : findDirective w with
        | none =>
          have hstep : affStep U cx ⟨l :: rest, some (w :: ws), src⟩ = .ok (cx, ⟨l :: rest, some ws, src⟩) := by
            unfold affStep
            rw [P_bind_ok (x := P.nextWord) (a := some w) (s' := ⟨l :: rest, some ws, src⟩) rfl]
            simp only [Option.bind_some, hfd]
            rfl
          rw [ignored (by
            intro key args h
            rw [hw] at h
            cases h
            exact findDirective_none.1 hfd)]
          rw [show pend U (l :: rest) = contents U (after U 0 (l :: rest)).tail from rfl,
            ← ih cx cx' _ src hcx (hlen 0)]
          constructor
          · rintro ⟨t, cx₁, u, h1, _, v, h2, h3⟩
            rw [hstep] at h1
            cases h1
            rw [adv] at h2
            cases h2
            exact ⟨t, h3⟩
          · rintro ⟨t, h⟩
            exact ⟨t, cx, _, hstep, (), _, adv _, h⟩
        | some d =>
          obtain ⟨key, hk, rfl, hfaith⟩ := findDirective_some (U := U) hfd
          have hstep : ∀ r, affStep U cx ⟨l :: rest, some (key.toList :: ws), src⟩ = .ok r ↔
              d U cx ⟨l :: rest, some ws, src⟩ = .ok r := by
            intro r
            unfold affStep
            rw [P_bind_ok (x := P.nextWord) (a := some key.toList) (s' := ⟨l :: rest, some ws, src⟩) rfl]
            simp only [Option.bind_some, hfd]
          have keeps : ∀ cx₁ u, affStep U cx ⟨l :: rest, some (key.toList :: ws), src⟩ = .ok (cx₁, u) →
              u.source = src ∧ CxOk cx₁ := by
            intro cx₁ u h
            have := affStep_ok (U := U) (all := l :: rest) (src := src) hcx
              ⟨l :: rest, some (key.toList :: ws), src⟩ ⟨List.suffix_refl _, rfl, by
                intro ws' h' w' hw'
                cases h'
                exact splitWhitespace_ne_nil l.2 w' (hw ▸ hw')⟩
            rw [h] at this
            exact ⟨this.1.source, this.2⟩
          constructor
          · rintro ⟨t, cx₁, u, h1, _, v, h2, h3⟩
            obtain ⟨rows, he, hp, hL⟩ := (hfaith cx cx₁ ⟨l :: rest, some ws, src⟩ ws u.lines rfl).1
              ⟨u, (hstep _).1 h1, rfl, (keeps _ _ h1).1⟩
            have hsrc : u.source = src := (keeps _ _ h1).1
            rw [adv, hL, hsrc] at h2
            cases h2
            have := (ih cx₁ cx' _ src (keeps _ _ h1).2 (hlen rows.length)).1 ⟨t, h3⟩
            rw [hpc] at this
            have e : pend U (l :: rest) = rows ++ (pend U (l :: rest)).drop rows.length := by
              obtain ⟨q, hq⟩ := hp
              rw [← hq, List.drop_left]
            rw [e]
            exact .directive hw he this
          · intro h
            generalize hX : pend U (l :: rest) = X at h
            cases h with
            | ignored h _ => exact absurd rfl (h _ _ hw _ hk)
            | @directive _ _ key' args rows cx₁ rest' _ h1 h2 h3 =>
              rw [hw] at h1
              simp only [List.cons.injEq, String.toList_inj] at h1
              obtain ⟨rfl, rfl⟩ := h1
              obtain ⟨u, hu1, hu2, hu3⟩ := (hfaith cx cx₁ ⟨l :: rest, some ws, src⟩ ws _ rfl).2
                ⟨rows, h2, ⟨rest', hX.symm⟩, rfl⟩
              have hdrop : (pend U (l :: rest)).drop rows.length = rest' := by rw [hX, List.drop_left]
              have h4 := h3
              rw [← hdrop, ← hpc] at h4
              obtain ⟨t, ht⟩ := (ih cx₁ cx' _ src (keeps _ _ ((hstep _).2 hu1)).2 (hlen rows.length)).2 h4
              refine ⟨t, cx₁, u, (hstep _).2 hu1, (), _, adv u, ?_⟩
              rw [hu2, hu3]
              exact ht

theorem parseAff_iff {aff : Str} {cx : Cx} :
    parseAff U aff = .ok cx ↔ Reads U {} ((contentLines U aff).map (·.2)) cx := by
  have hc : (contentLines U aff).map (·.2)
      = contents U (Lines.enumerate 0 (textLines ((stripPrefix? aff [Char.ofNat 0xFEFF]).getD aff))) := by
    unfold contentLines contents
    rw [numbered_eq, List.filter_map, List.map_map]
    rfl
  rw [hc, ← affLoop_iff ((Lines.new U aff .aff).lines.length + 1) {} cx _ .aff cxDefault_ok (Nat.lt_succ_self _)]
  unfold parseAff
  change (match affLoop U ((Lines.new U aff .aff).lines.length + 1) {} (Lines.new U aff .aff) with
    | .ok (cx, _) => Except.ok cx
    | .error h => Except.error h) = _ ↔ ∃ t, affLoop U _ {} (Lines.new U aff .aff) = _
  cases affLoop U ((Lines.new U aff .aff).lines.length + 1) {} (Lines.new U aff .aff) with
  | error e => simp
  | ok p => simp [Prod.ext_iff]

end

end Spellbook
