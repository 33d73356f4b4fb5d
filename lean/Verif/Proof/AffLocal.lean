import Verif.Proof.AffText
/-!
# Errors are decided by the lines up to the one they name
-/

namespace Spellbook
open Spec

/-- Two readers have the lines before number `k` (counted from 0) in common, are on the same line and
hold the same words. -/
structure Agree (k : Nat) (s s' : Lines) : Prop where
  source : s.source = s'.source
  words : s.words = s'.words
  lines : ∃ pre r r', s.lines = pre ++ r ∧ s'.lines = pre ++ r' ∧ pre ≠ [] ∧ (∀ l ∈ pre, l.1 < k) ∧
    (∀ l ∈ r, k ≤ l.1) ∧ ∀ l ∈ r', k ≤ l.1

/-- The reader is behind line `k`. -/
def Past (k : Nat) (s : Lines) : Prop := ∀ l ∈ s.lines, k ≤ l.1

/-- If the parser stopped with an error, it names a line after `k`, or the end of the file. -/
def Late (k : Nat) (h : Halt) : Prop :=
  ∀ e, h = .error e → e.lineNumber = none ∨ ∃ j, e.lineNumber = some j ∧ k < j

/-- The step does the same for readers that agree, unless it passes line `k`; and it does not come
back. -/
structure Local (k : Nat) {α : Type} (x : P α) : Prop where
  agree : ∀ s s', Agree k s s' →
    match x s with
    | .ok (a, t) => (∃ t', x s' = .ok (a, t') ∧ Agree k t t') ∨ Past k t
    | .error h => x s' = .error h ∨ Late k h
  past : ∀ s, Past k s →
    match x s with
    | .ok (_, t) => Past k t
    | .error h => Late k h

section
variable {k : Nat} {α β σ : Type}

theorem Agree.head {s s' : Lines} (h : Agree k s s') : s.lines.head? = s'.lines.head? := by
  obtain ⟨pre, r, r', h1, h2, h3, -⟩ := h.lines
  cases pre with
  | nil => exact absurd rfl h3
  | cons l pre => rw [h1, h2]; rfl

theorem Agree.error {s s' : Lines} (h : Agree k s s') (kind : ErrorKind) : s.error kind = s'.error kind := by
  unfold Lines.error
  rw [h.source, h.head]

theorem late_error {s : Lines} (h : Past k s) (kind : ErrorKind) : Late k (.error (s.error kind)) := by
  intro e he
  cases he
  unfold Lines.error
  cases hl : s.lines with
  | nil => left; rfl
  | cons l ls =>
    right
    exact ⟨l.1 + 1, rfl, by have := h l (by rw [hl]; simp); omega⟩

theorem local_pure {a : α} : Local k (pure a : P α) :=
  ⟨fun _ s' h => .inl ⟨s', rfl, h⟩, fun _ h => h⟩

theorem local_bind {x : P α} {f : α → P β} (hx : Local k x) (hf : ∀ a, Local k (f a)) :
    Local k (x >>= f) := by
  constructor
  · intro s s' h
    have h1 := hx.agree s s' h
    cases he : x s with
    | error e =>
      rw [P_bind_error he]
      rw [he] at h1
      exact h1.imp (fun h => P_bind_error h) id
    | ok p =>
      obtain ⟨a, t⟩ := p
      rw [P_bind_ok he]
      rw [he] at h1
      rcases h1 with ⟨t', h2, h3⟩ | h1
      · rw [P_bind_ok h2]
        exact (hf a).agree t t' h3
      · have := (hf a).past t h1
        revert this
        cases f a t with
        | error e => exact .inr
        | ok p => exact .inr
  · intro s h
    have h1 := hx.past s h
    cases he : x s with
    | error e => rw [P_bind_error he]; rw [he] at h1; exact h1
    | ok p =>
      obtain ⟨a, t⟩ := p
      rw [P_bind_ok he]
      rw [he] at h1
      exact (hf a).past t h1

theorem local_fail {kind : ErrorKind} : Local k (P.fail kind : P α) :=
  ⟨fun s s' h => .inl (by show Except.error _ = _; rw [h.error]), fun _ h => late_error h kind⟩

theorem local_panic : Local k (P.panic : P α) :=
  ⟨fun _ _ _ => .inl rfl, fun _ _ _ h => by cases h⟩

theorem local_lift {ε : Type} {kind : ε → ErrorKind} {x : Except ε α} : Local k (P.lift kind x) := by
  unfold P.lift
  cases x with
  | ok a => exact local_pure
  | error e => exact local_fail

theorem local_takeWords : Local k P.takeWords :=
  ⟨fun s s' h => .inl ⟨{ s' with words := none }, by simp [P.takeWords, h.words], h.source, rfl, h.lines⟩,
    fun _ h => h⟩

theorem local_nextWord : Local k P.nextWord := by
  constructor
  · intro s s' h
    have hw := h.words
    unfold P.nextWord Lines.nextWord
    rw [← hw]
    cases hs : s.words with
    | none => exact .inl ⟨_, rfl, h.source, rfl, h.lines⟩
    | some l =>
      cases l with
      | nil => exact .inl ⟨_, rfl, h.source, rfl, h.lines⟩
      | cons w ws => exact .inl ⟨_, rfl, h.source, rfl, h.lines⟩
  · intro s h
    unfold P.nextWord Lines.nextWord
    cases hs : s.words with
    | none => exact h
    | some l =>
      cases l with
      | nil => exact h
      | cons w ws => exact h

theorem local_takeOneWord : Local k P.takeOneWord := by
  constructor
  · intro s s' h
    have hw := h.words
    unfold P.takeOneWord
    rw [← hw]
    cases hs : s.words with
    | none => exact .inl (by simp only [h.error])
    | some l =>
      cases l with
      | nil => exact .inl (by simp only [h.error])
      | cons w ws => exact .inl ⟨_, rfl, h.source, rfl, h.lines⟩
  · intro s h
    unfold P.takeOneWord
    cases hs : s.words with
    | none => exact late_error h _
    | some l =>
      cases l with
      | nil => exact late_error h _
      | cons w ws => exact h

theorem local_isFinished : Local k P.isFinished := by
  refine ⟨fun s s' h => ?_, fun _ h => h⟩
  refine .inl ⟨s', ?_, h⟩
  obtain ⟨pre, r, r', h1, h2, h3, -⟩ := h.lines
  cases pre with
  | nil => exact absurd rfl h3
  | cons l pre => simp [P.isFinished, Lines.isFinished, h1, h2]

theorem past_settle {U : Unicode} {l : List (Nat × Str)} {src : Source} (h : ∀ x ∈ l, k ≤ x.1) :
    Past k (Lines.settle U l src) := fun x hx => h x ((List.dropWhile_suffix _).subset hx)

/-- Readers that agree still agree when both go on, or the first has passed the common lines. -/
theorem settle_agree {U : Unicode} {pre r r' : List (Nat × Str)} {src : Source}
    (hp : ∀ l ∈ pre, l.1 < k) (hr : ∀ l ∈ r, k ≤ l.1) (hr' : ∀ l ∈ r', k ≤ l.1) :
    Agree k (Lines.settle U (pre ++ r) src) (Lines.settle U (pre ++ r') src) ∨
      Past k (Lines.settle U (pre ++ r) src) := by
  induction pre with
  | nil => exact .inr (past_settle hr)
  | cons l pre ih =>
    by_cases hc : isComment U l.2 = true
    · have e : ∀ q, Lines.settle U (l :: pre ++ q) src = Lines.settle U (pre ++ q) src := by
        intro q
        simp only [Lines.settle, List.cons_append]
        rw [List.dropWhile_cons_of_pos (by simpa using hc)]
      rw [e, e]
      exact ih fun x hx => hp x (by simp [hx])
    · left
      have e : ∀ q, Lines.settle U (l :: pre ++ q) src
          = ⟨l :: pre ++ q, some (splitWhitespace U l.2), src⟩ := by
        intro q
        simp only [Lines.settle, List.cons_append]
        rw [List.dropWhile_cons_of_neg (by simpa using hc)]
        rfl
      rw [e, e]
      exact ⟨rfl, rfl, l :: pre, r, r', rfl, rfl, by simp, hp, hr, hr'⟩

theorem local_advance {U : Unicode} : Local k (P.advance U) := by
  constructor
  · intro s s' h
    obtain ⟨pre, r, r', h1, h2, h3, h4, h5, h6⟩ := h.lines
    cases pre with
    | nil => exact absurd rfl h3
    | cons l pre =>
      show (∃ t', P.advance U s' = .ok ((), t') ∧ Agree k (s.advance U) t') ∨ Past k (s.advance U)
      have e1 : s.advance U = Lines.settle U (pre ++ r) s.source := by simp [Lines.advance, h1]
      have e2 : s'.advance U = Lines.settle U (pre ++ r') s.source := by
        simp [Lines.advance, h2, h.source]
      rcases settle_agree (U := U) (src := s.source) (pre := pre) (fun x hx => h4 x (by simp [hx])) h5 h6 with h | h
      · exact .inl ⟨s'.advance U, rfl, by rw [e1, e2]; exact h⟩
      · exact .inr (by rw [e1]; exact h)
  · intro s h
    exact past_settle fun x hx => h x (List.mem_of_mem_tail hx)

theorem local_ite {c : Prop} [Decidable c] {x y : P α} (h1 : Local k x) (h2 : Local k y) :
    Local k (if c then x else y) := by
  split
  · exact h1
  · exact h2

theorem local_flagOf {ty : FlagType} {s : Str} : Local k (P.flagOf ty s) := by
  unfold P.flagOf
  split
  · exact local_panic
  · exact local_lift

theorem local_flag {ty : FlagType} : Local k (P.flag ty) :=
  local_bind local_takeOneWord fun _ => local_flagOf

theorem local_count : Local k P.count := local_bind local_takeOneWord fun _ => local_lift

theorem local_short : Local k P.short := local_bind local_takeOneWord fun _ => local_lift

theorem local_row {U : Unicode} {key : Str} {n i : Nat} : Local k (P.row U key n i) := by
  unfold P.row
  refine local_bind local_advance fun _ => local_bind local_isFinished fun b => ?_
  have last : Local k (do
      match ← P.takeWords with
      | some words => pure words
      | none => P.fail (.mismatchedArity 1 0)) := by
    refine local_bind local_takeWords fun o => ?_
    cases o with
    | none => exact local_fail
    | some ws => exact local_pure
  have rest : Local k (do
      let w ← P.nextWord
      if w ≠ some key then P.fail (.mismatchedRowCount n i)
      match ← P.takeWords with
      | some words => pure words
      | none => P.fail (.mismatchedArity 1 0)) :=
    local_bind local_nextWord fun w => local_ite (local_bind local_fail fun _ => last) last
  exact local_ite (local_bind local_fail fun _ => rest) rest

theorem local_rows {U : Unicode} {key : Str} {expected : Nat} {f : σ → List Str → P σ}
    (hf : ∀ cx words, Local k (f cx words)) :
    ∀ (n i : Nat) (cx : σ), Local k (P.rows U key expected f n i cx) := by
  intro n
  induction n with
  | zero => intro i cx; exact local_pure
  | succ n ih =>
    intro i cx
    exact local_bind local_row fun words => local_bind (hf cx words) fun cx => ih (i + 1) cx

theorem local_table1 {U : Unicode} {key : Str} {f : σ → Str → Except ErrorKind σ} {cx : σ} :
    Local k (P.table1 U key f cx) := by
  unfold P.table1
  refine local_bind local_count fun n => local_rows ?_ n 1 cx
  intro cx words
  cases words with
  | nil => exact local_fail
  | cons w ws => exact local_lift

theorem local_table2 {U : Unicode} {key : Str} {f : σ → Str → Str → Except ErrorKind σ} {cx : σ} :
    Local k (P.table2 U key f cx) := by
  unfold P.table2
  refine local_bind local_count fun n => local_rows ?_ n 1 cx
  intro cx words
  match words with
  | [] => exact local_fail
  | [_] => exact local_fail
  | w :: v :: ws => exact local_lift

theorem local_affixTable {U : Unicode} {key : Str} {ty : FlagType}
    {f : Nat → Bool → σ → Option Str → Str → Option Str → Str → Except ErrorKind σ} {cx : σ} :
    Local k (P.affixTable U key ty f cx) := by
  unfold P.affixTable
  refine local_bind local_takeWords fun o => ?_
  match o with
  | none => exact local_fail
  | some [] => exact local_fail
  | some (flagStr :: words) =>
    refine local_bind local_flagOf fun fl => ?_
    match words with
    | [] => exact local_fail
    | cross :: words =>
      have rest : Local k (match words with
          | [] => P.fail (.mismatchedArity 3 2)
          | cnt :: _ => do
            let n ← P.lift .malformedNumber (parseUInt usizeMax cnt)
            P.rows U key n (P.affixRow flagStr (f fl (cross = ['Y']))) n 1 cx) := by
        match words with
        | [] => exact local_fail
        | cnt :: _ =>
          refine local_bind local_lift fun n => local_rows ?_ n 1 cx
          intro cx words
          unfold P.affixRow
          refine local_ite local_fail ?_
          split
          · exact local_fail
          · exact local_fail
          · exact local_lift
      exact local_ite (local_bind local_fail fun _ => rest) rest

theorem local_flagDirective {set : AffOptions → Nat → AffOptions} {U : Unicode} {cx : Cx} :
    Local k (flagDirective set U cx) := local_bind local_flag fun _ => local_pure

theorem local_boolDirective {set : AffOptions → Bool → AffOptions} {U : Unicode} {cx : Cx} :
    Local k (boolDirective set U cx) := local_bind local_pure fun _ => local_pure

theorem local_shortDirective {set : AffOptions → Nat → AffOptions} {U : Unicode} {cx : Cx} :
    Local k (shortDirective set U cx) := local_bind local_short fun _ => local_pure

theorem local_wordDirective {set : Cx → Str → Cx} {U : Unicode} {cx : Cx} :
    Local k (wordDirective set U cx) := local_bind local_takeOneWord fun _ => local_pure

theorem local_flagTypeDirective {U : Unicode} {cx : Cx} : Local k (flagTypeDirective U cx) :=
  local_bind local_takeOneWord fun _ =>
    local_ite local_pure (local_ite local_pure (local_ite local_pure local_fail))

theorem local_syllableDirective {U : Unicode} {cx : Cx} : Local k (syllableDirective U cx) := by
  refine local_bind local_takeWords fun o => ?_
  match o with
  | none => exact local_fail
  | some [] => exact local_fail
  | some [_] => exact local_fail
  | some (mx :: vowels :: _) => exact local_bind local_lift fun _ => local_pure

theorem local_optFlag {ty : FlagType} {s : Str} : Local k (optFlag ty s) :=
  local_ite local_pure (local_bind local_flagOf fun _ => local_pure)

theorem local_patternDirective {U : Unicode} {cx : Cx} : Local k (patternDirective U cx) := by
  refine local_bind local_count fun n => local_rows ?_ n 1 cx
  intro cx words
  match words with
  | [] => exact local_fail
  | [_] => exact local_fail
  | a :: b :: more =>
    exact local_bind local_optFlag fun _ => local_bind local_optFlag fun _ => local_pure

theorem local_affParsers {U : Unicode} {cx : Cx} : ∀ p ∈ affParsers, Local k (p.2 U cx) := by
  unfold affParsers
  simp only [List.forall_mem_cons, List.not_mem_nil, false_implies, implies_true, and_true]
  refine ⟨local_flagTypeDirective, local_flagDirective, local_flagDirective, local_flagDirective,
    local_flagDirective, local_flagDirective, local_flagDirective, local_flagDirective, local_flagDirective,
    local_flagDirective, local_flagDirective, local_flagDirective, local_flagDirective, local_flagDirective,
    local_flagDirective, local_flagDirective, local_flagDirective, local_boolDirective, local_boolDirective,
    local_boolDirective, local_boolDirective, local_boolDirective, local_boolDirective, local_boolDirective,
    local_boolDirective, local_boolDirective, local_boolDirective, local_boolDirective, local_boolDirective,
    local_boolDirective, local_boolDirective, local_shortDirective, local_shortDirective,
    local_shortDirective, local_shortDirective, local_shortDirective, local_wordDirective,
    local_wordDirective, local_wordDirective, local_wordDirective, local_table2, local_table2, local_table2,
    local_table1, local_syllableDirective, local_table1, local_affixTable, local_affixTable, local_table1,
    local_patternDirective, local_table1⟩

theorem local_affStep {U : Unicode} {cx : Cx} : Local k (affStep U cx) := by
  refine local_bind local_nextWord fun w => ?_
  cases hd : w.bind findDirective with
  | none => exact local_pure
  | some d =>
    cases w with
    | none => simp at hd
    | some key =>
      simp only [Option.bind_some, findDirective, Option.map_eq_some_iff] at hd
      obtain ⟨p, hp, rfl⟩ := hd
      exact local_affParsers p (List.mem_of_find?_eq_some hp)

/-! ## The loop -/

theorem past_affLoop {U : Unicode} : ∀ (fuel : Nat) (cx : Cx) (s : Lines), Past k s →
    match affLoop U fuel cx s with
    | .ok _ => True
    | .error h => Late k h := by
  intro fuel
  induction fuel with
  | zero => intro cx s _ e h; cases h
  | succ fuel ih =>
    intro cx s hs
    rw [affLoop, P_bind_ok (x := P.isFinished) rfl]
    by_cases hl : s.isFinished = true
    · rw [if_pos hl]; exact trivial
    · rw [if_neg hl]
      have h1 := (local_affStep (U := U) (cx := cx)).past s hs
      cases he : affStep U cx s with
      | error e => rw [P_bind_error he]; rw [he] at h1; exact h1
      | ok p =>
        obtain ⟨cx', t⟩ := p
        rw [P_bind_ok he]
        rw [he] at h1
        rw [P_bind_ok (x := P.advance U) rfl]
        exact ih cx' _ ((local_advance (U := U)).past t h1)

/-- With enough fuel, a step leaves less to read. -/
theorem affStep_lines {U : Unicode} {cx cx' : Cx} {s t : Lines} (hc : CxOk cx)
    (hw : ∀ ws, s.words = some ws → ∀ w ∈ ws, w ≠ []) (h : affStep U cx s = .ok (cx', t)) :
    t.lines <:+ s.lines ∧ CxOk cx' := by
  have := affStep_ok (U := U) (all := s.lines) (src := s.source) hc s ⟨List.suffix_refl _, rfl, hw⟩
  rw [h] at this
  exact ⟨this.1.lines, this.2⟩

theorem advance_lines {U : Unicode} (t : Lines) : (t.advance U).lines.length ≤ t.lines.length - 1 := by
  have : (t.advance U).lines.length ≤ t.lines.tail.length := by
    simp only [Lines.advance, Lines.settle]
    exact (List.dropWhile_suffix _).length_le
  rwa [List.length_tail] at this

theorem advance_words {U : Unicode} (t : Lines) :
    ∀ ws, (t.advance U).words = some ws → ∀ w ∈ ws, w ≠ [] := by
  intro ws hws w hw
  simp only [Lines.advance, Lines.settle, Option.map_eq_some_iff] at hws
  obtain ⟨a, -, rfl⟩ := hws
  exact splitWhitespace_ne_nil _ w hw

theorem local_affLoop {U : Unicode} : ∀ (fuel fuel' : Nat) (cx : Cx) (s s' : Lines), CxOk cx →
    (∀ ws, s.words = some ws → ∀ w ∈ ws, w ≠ []) →
    s.lines.length < fuel → s'.lines.length < fuel' → Agree k s s' →
    ∀ h, affLoop U fuel cx s = .error h → affLoop U fuel' cx s' = .error h ∨ Late k h := by
  intro fuel
  induction fuel with
  | zero => intro _ _ _ _ _ _ h; omega
  | succ fuel ih =>
    intro fuel' cx s s' hc hw hf hf' ha h hh
    obtain ⟨fuel', rfl⟩ : ∃ n, fuel' = n + 1 := ⟨fuel' - 1, by omega⟩
    have hfin : s.isFinished = false ∧ s'.isFinished = false := by
      obtain ⟨pre, r, r', h1, h2, h3, -⟩ := ha.lines
      cases pre with
      | nil => exact absurd rfl h3
      | cons l pre => simp [Lines.isFinished, h1, h2]
    rw [affLoop, P_bind_ok (x := P.isFinished) rfl, hfin.1] at hh
    rw [affLoop, P_bind_ok (x := P.isFinished) rfl, hfin.2]
    simp only [Bool.false_eq_true, ↓reduceIte] at hh ⊢
    have h1 := (local_affStep (U := U) (cx := cx)).agree s s' ha
    have hlen : 0 < s.lines.length := by
      apply List.length_pos_iff.2
      intro h0
      have := hfin.1
      simp [Lines.isFinished, h0] at this
    cases he : affStep U cx s with
    | error e =>
      rw [P_bind_error he] at hh
      cases hh
      rw [he] at h1
      exact h1.imp (fun h => P_bind_error h) id
    | ok p =>
      obtain ⟨cx', t⟩ := p
      obtain ⟨hsuf, hc'⟩ := affStep_lines hc hw he
      rw [P_bind_ok he, P_bind_ok (x := P.advance U) rfl] at hh
      rw [he] at h1
      have hlt : (t.advance U).lines.length < fuel := by
        have := advance_lines (U := U) t
        have := hsuf.length_le
        omega
      rcases h1 with ⟨t', h2, h3⟩ | h1
      · rw [P_bind_ok h2, P_bind_ok (x := P.advance U) rfl]
        have hw' : ∀ ws, s'.words = some ws → ∀ w ∈ ws, w ≠ [] := ha.words ▸ hw
        obtain ⟨hsuf', -⟩ := affStep_lines hc hw' h2
        have hlt' : (t'.advance U).lines.length < fuel' := by
          have := advance_lines (U := U) t'
          have := hsuf'.length_le
          have : 0 < s'.lines.length := by
            apply List.length_pos_iff.2
            intro h0
            have := hfin.2
            simp [Lines.isFinished, h0] at this
          omega
        have hadv := (local_advance (U := U)).agree t t' h3
        simp only [P.advance] at hadv
        rcases hadv with ⟨t'', h4, h5⟩ | hadv
        · cases h4
          exact ih fuel' cx' _ _ hc' (advance_words t) hlt hlt' h5 h hh
        · right
          have := past_affLoop (U := U) fuel cx' _ hadv
          rw [hh] at this
          exact this
      · right
        have := past_affLoop (U := U) fuel cx' _ ((local_advance (U := U)).past t h1)
        rw [hh] at this
        exact this

end

theorem enumerate_ge {α : Type} (l : List α) (n : Nat) : ∀ p ∈ Lines.enumerate n l, n ≤ p.1 := by
  induction l generalizing n with
  | nil => simp [Lines.enumerate]
  | cons a l ih =>
    intro p hp
    rcases List.mem_cons.1 hp with rfl | hp
    · exact Nat.le_refl _
    · exact Nat.le_trans (by omega) (ih (n + 1) p hp)

/-- A list of numbered lines, split at number `n + k`. -/
theorem enumerate_split {α : Type} (l : List α) (n k : Nat) :
    (∀ p ∈ (Lines.enumerate n l).take k, p.1 < n + k) ∧
    ∀ p ∈ (Lines.enumerate n l).drop k, n + k ≤ p.1 := by
  induction l generalizing n k with
  | nil => simp [Lines.enumerate]
  | cons a l ih =>
    cases k with
    | zero => exact ⟨by simp, fun p hp => enumerate_ge _ n p hp⟩
    | succ k =>
      obtain ⟨h1, h2⟩ := ih (n + 1) k
      refine ⟨fun p hp => ?_, fun p hp => ?_⟩
      · simp only [Lines.enumerate, List.take_succ_cons, List.mem_cons] at hp
        rcases hp with rfl | hp
        · simp
        · have := h1 p hp; omega
      · simp only [Lines.enumerate, List.drop_succ_cons] at hp
        have := h2 p hp; omega

theorem parseAff_local {U : Unicode} {aff aff' : Str} {e : ParseError} {k : Nat}
    (h : parseAff U aff = .error (.error e)) (hk : e.lineNumber = some k)
    (hsame : (numbered aff).take k = (numbered aff').take k) :
    parseAff U aff' = .error (.error e) := by
  rw [numbered_eq, numbered_eq, ← List.map_take, ← List.map_take] at hsame
  have hinj : Function.Injective fun l : Nat × Str => (l.1 + 1, l.2) := by
    rintro ⟨a, b⟩ ⟨c, d⟩ h
    simp only [Prod.mk.injEq, Nat.add_right_cancel_iff] at h
    exact Prod.ext h.1 h.2
  have hsame := hinj.list_map hsame
  unfold parseAff at h ⊢
  simp only at h ⊢
  have hs1 := enumerate_split (textLines ((stripPrefix? aff [Char.ofNat 0xFEFF]).getD aff)) 0 k
  have hs2 := enumerate_split (textLines ((stripPrefix? aff' [Char.ofNat 0xFEFF]).getD aff')) 0 k
  have hw : ∀ ws, (Lines.new U aff .aff).words = some ws → ∀ w ∈ ws, w ≠ [] :=
    (reading_settle (all := _) (List.suffix_refl _)).words
  have e1 : Lines.new U aff .aff = Lines.settle U
    (Lines.enumerate 0 (textLines ((stripPrefix? aff [Char.ofNat 0xFEFF]).getD aff))) .aff := rfl
  have e2 : Lines.new U aff' .aff = Lines.settle U
    (Lines.enumerate 0 (textLines ((stripPrefix? aff' [Char.ofNat 0xFEFF]).getD aff'))) .aff := rfl
  rw [← List.take_append_drop k (Lines.enumerate 0 _)] at e1 e2
  rw [← hsame] at e2
  simp only [Nat.zero_add] at hs1 hs2
  have hloop : affLoop U ((Lines.new U aff .aff).lines.length + 1) {} (Lines.new U aff .aff)
      = .error (.error e) := by
    cases he : affLoop U ((Lines.new U aff .aff).lines.length + 1) {} (Lines.new U aff .aff) with
    | ok p => rw [he] at h; cases h
    | error x => rw [he] at h; cases h; rfl
  have nlate : ¬ Late k (.error e) := by
    intro hl
    rcases hl e rfl with h0 | ⟨j, h0, hj⟩
    · rw [hk] at h0; cases h0
    · rw [hk] at h0; cases h0; omega
  rcases settle_agree (U := U) (src := .aff) hs1.1 hs1.2 hs2.2 with ha | hp
  · rw [← e1, ← e2] at ha
    rcases local_affLoop _ ((Lines.new U aff' .aff).lines.length + 1) {} _ _ cxDefault_ok hw
      (Nat.lt_succ_self _) (Nat.lt_succ_self _) ha _ hloop with h1 | h1
    · rw [h1]
    · exact absurd h1 nlate
  · rw [← e1] at hp
    have := past_affLoop (U := U) ((Lines.new U aff .aff).lines.length + 1) {} _ hp
    rw [hloop] at this
    exact absurd this nlate

end Spellbook
