import Verif.Proof.Total
/-! # Outcomes of `check`: no panics with the default checker, an end with any checker -/

namespace Spellbook
open Run

namespace Run
variable {α β : Type}

/-- The computation does not stop for this reason. -/
def Never (e : Stop) (x : Run α) : Prop := x ≠ .error e

variable {e : Stop}

theorem Never.ok (a : α) : Never e (.ok a) := by simp [Never]
theorem Never.pure (a : α) : Never e (Pure.pure a : Run α) := by simp [Never, Pure.pure, Except.pure]
theorem Never.or {a b : Run (Option β)} (h : Never e a) (h' : Never e b) : Never e (a.or b) := by
  intro hc
  rcases or_eq_error.1 hc with h1 | ⟨_, h1⟩
  · exact h h1
  · exact h' h1
theorem Never.first {f : α → Run (Option β)} {l : List α} (h : ∀ a ∈ l, Never e (f a)) :
    Never e (first f l) := by
  intro hc
  obtain ⟨a, ha, hf⟩ := first_eq_error hc
  exact h a ha hf
theorem Never.bind {x : Run α} {f : α → Run β} (h : Never e x) (h' : ∀ a, Never e (f a)) :
    Never e (x >>= f) := by
  cases x with
  | error e' => intro hc; apply h; simp [Bind.bind, Except.bind] at hc; rw [hc]
  | ok a => exact h' a
theorem Never.map {x : Run α} (f : α → β) (h : Never e x) : Never e (Except.map f x) := by
  cases x with
  | error e' => intro hc; apply h; simp [Except.map] at hc; rw [hc]
  | ok a => simp [Never, Except.map]

end Run

namespace Checker

/-! ### No panics -/

section
variable {C : Checker} {s : Search} (h : ∀ word start n, Never .panic (s word start n))
include h

theorem simplifiedTriple_np {word : Str} {start i n : Nat} {fc : Forceucase} {p : CompoundingResult} :
    Never .panic (C.simplifiedTriple s word start i n fc p) := by
  unfold simplifiedTriple
  split
  · exact .ok _
  · split
    · exact .ok _
    · split
      · exact .ok _
      · exact .ok _
      · unfold tripleRecursive
        refine .bind (h _ _ _) fun o => ?_
        cases o with
        | none => exact .pure _
        | some r =>
          dsimp only
          split
          · exact .pure _
          · split <;> exact .pure _

theorem classic_np {m : Mode} {word : Str} {start i n : Nat} {fc : Forceucase} :
    Never .panic (C.classic s m word start i n fc) := by
  unfold classic
  split
  · exact .ok _
  · dsimp only
    split
    · exact .ok _
    · exact .ok _
    · refine .bind (h _ _ _) fun o => ?_
      cases o with
      | none => exact simplifiedTriple_np h
      | some r =>
        dsimp only
        split
        · exact simplifiedTriple_np h
        · split
          · exact simplifiedTriple_np h
          · exact .pure _

theorem patternTriple_np {p : CompoundPattern} {scratch word : Str} {start j n : Nat}
    {fc : Forceucase} {r : CompoundingResult} :
    Never .panic (C.patternTriple s p scratch word start j n fc r) := by
  unfold patternTriple
  split
  · exact .ok _
  · split
    · exact .ok _
    · split
      · exact .ok _
      · exact .ok _
      · refine .bind (h _ _ _) fun o => ?_
        cases o with
        | none => exact .pure _
        | some r =>
          dsimp only
          split <;> exact .pure _

theorem patternBody_np {m : Mode} {word : Str} {start i n : Nat} {fc : Forceucase}
    {p : CompoundPattern} : Never .panic (C.patternBody s m word start i n fc p) := by
  unfold patternBody
  split
  · exact .ok _
  · split
    · exact .ok _
    · dsimp only
      split
      · exact .ok _
      · split
        · exact .ok _
        · exact .ok _
        · refine .bind (h _ _ _) fun o => ?_
          cases o with
          | none => exact patternTriple_np h
          | some r =>
            dsimp only
            split
            · exact .pure _
            · exact patternTriple_np h

theorem compoundAt_np {m : Mode} {word : Str} {start i n : Nat} {fc : Forceucase} :
    Never .panic (C.compoundAt s m word start n fc i) :=
  .or (classic_np h) (.map _ (.first fun _ _ => patternBody_np h))

end

theorem checkCompoundImpl_np (C : Checker) (fc : Forceucase) : ∀ (f : Nat) (m : Mode) (word : Str)
    (start n : Nat), Never .panic (C.checkCompoundImpl fc f m word start n)
  | 0, _, _, _, _ => by simp [Never, checkCompoundImpl]
  | f + 1, m, word, start, n =>
    .first fun _ _ => compoundAt_np fun _ _ _ => checkCompoundImpl_np C fc f .atMiddle _ _ _

theorem checkRulesImpl_np (C : Checker) (fc : Forceucase) : ∀ (f : Nat) (word : Str)
    (data : List FlagSet) (start : Nat), Never .panic (C.checkRulesImpl fc f word data start)
  | 0, _, _, _ => by simp [Never, checkRulesImpl]
  | f + 1, word, data, start => by
    refine .first fun i _ => ?_
    unfold ruleAt
    split
    · exact .ok _
    · dsimp only
      split
      · exact .ok _
      · exact checkRulesImpl_np C fc f _ _ _

theorem checkCompound_np (C : Checker) (f : Nat) (m : Mode) (word : Str) (fc : Forceucase) :
    Never .panic (C.checkCompound f m word fc) := by
  unfold checkCompound
  refine .or ?_ ?_
  · split
    · exact checkCompoundImpl_np C fc f m word 0 0
    · exact .ok _
  · split
    · exact checkRulesImpl_np C fc _ _ _ _
    · exact .ok _

theorem checkWord_np (C : Checker) (f : Nat) (word : Str) (fc : Forceucase) (hh : HiddenHomonym) :
    Never .panic (C.checkWord f word fc hh) := by
  unfold checkWord
  split
  · exact .ok _
  · exact .map _ (checkCompound_np C f _ word fc)

theorem titlecase_np {C : Checker} {β : Type} {w : Str} (hw : w ≠ []) {k : Str → Run β}
    (h : ∀ t, Never .panic (k t)) : Never .panic (C.titlecase w >>= k) := by
  unfold titlecase
  cases w with
  | nil => simp at hw
  | cons c cs => exact h _

theorem doSpellSharps_np (C : Checker) (f : Nat) : ∀ (k : Nat) (before rest : Str) (depth r : Nat),
    5 - depth = k → Never .panic (C.doSpellSharps f before rest depth r) := by
  have stop : ∀ (before rest : Str) (depth r : Nat),
      5 ≤ depth ∨ splitOnce? ['s', 's'] rest = none →
      Never .panic (C.doSpellSharps f before rest depth r) := by
    intro before rest depth r h
    rw [doSpellSharps_stop C h]
    split
    · exact checkWord_np _ _ _ _ _
    · exact .ok _
  intro k
  induction k with
  | zero => exact fun before rest depth r hk => stop _ _ _ _ (Or.inl (by omega))
  | succ k ih =>
    intro before rest depth r hk
    rcases h : splitOnce? ['s', 's'] rest with _ | ⟨x, y⟩
    · exact stop _ _ _ _ (Or.inr h)
    · rw [doSpellSharps_go C (show depth < 5 by omega) h]
      exact .or (ih _ _ _ _ (by omega)) (ih _ _ _ _ (by omega))

theorem spellApostrophe_np (C : Checker) (f : Nat) (w : Str) :
    Never .panic (C.spellApostrophe f w) := by
  unfold spellApostrophe
  rcases splitOnce? ['\''] w with _ | ⟨a, b⟩
  · exact .ok _
  · dsimp only
    split
    · exact .ok _
    · rename_i hb
      refine titlecase_np (by intro h; simp [h] at hb) fun t => ?_
      exact .or (checkWord_np _ _ _ _ _) (titlecase_np (by simp) fun t => checkWord_np _ _ _ _ _)

theorem spellCasingUpper_np (C : Checker) (f : Nat) {w : Str} (hw : w ≠ []) :
    Never .panic (C.spellCasingUpper f w) := by
  refine .or (checkWord_np _ _ _ _ _) <| .or (spellApostrophe_np _ _ _) <| .or ?_ <|
    .or (titlecase_np hw fun t => .map _ (checkWord_np _ _ _ _ _)) (.map _ (checkWord_np _ _ _ _ _))
  unfold spellUpperSharps
  split
  · exact .or (doSpellSharps_np _ _ _ _ _ _ _ rfl)
      (titlecase_np hw fun t => doSpellSharps_np _ _ _ _ _ _ _ rfl)
  · exact .ok _

theorem spellCasingTitle_np (C : Checker) (f : Nat) (w : Str) :
    Never .panic (C.spellCasingTitle f w) := .or (checkWord_np _ _ _ _ _) (.map _ (checkWord_np _ _ _ _ _))

theorem spellCasingAsIs_np {C : Checker} {f : Nat} {w : Str} (hw : C.CanTitle w) (b : Bool) :
    Never .panic (C.spellCasingAsIs f w b) := by
  refine .or (checkWord_np _ _ _ _ _) (.or ?_ ?_)
  · split
    · rename_i h
      exact titlecase_np (hw.1 (by simp at h; exact h.1)) fun t => spellCasingTitle_np _ _ _
    · exact .ok _
  · split
    · rename_i h
      exact spellCasingUpper_np _ _ (hw.2 h)
    · exact .ok _

theorem spellCasing_np {C : Checker} {f : Nat} {w : Str} (hw : C.CanTitle w) :
    Never .panic (C.spellCasing f w) := by
  unfold spellCasing
  cases hc : classifyCasing C.U w with
  | none => exact spellCasingAsIs_np hw _
  | camel => exact spellCasingAsIs_np hw _
  | pascal => exact spellCasingAsIs_np hw _
  | all =>
    refine spellCasingUpper_np _ _ fun h => ?_
    subst h
    simp [classifyCasing, classifyCasing?, countCases] at hc
  | init => exact spellCasingTitle_np _ _ _

theorem anyRun_never {e : Stop} {α : Type} {g : α → Run Bool} : ∀ {l : List α},
    (∀ a ∈ l, Never e (g a)) → Never e (anyRun g l)
  | [], _ => .ok _
  | a :: as, h => by
    refine .bind (h a (by simp)) fun b => ?_
    cases b
    · exact anyRun_never fun x hx => h x (by simp [hx])
    · exact .pure _

theorem breakLoops_never {e : Stop} {C : Checker} {g : Str → Run Bool} (h : ∀ w, Never e (g w))
    (w : Str) : Never e (C.breakLoops g w) := by
  unfold breakLoops
  refine .bind (anyRun_never fun pat _ => ?_) fun b => ?_
  · split
    · exact h _
    · exact .ok _
  cases b
  swap
  · exact .pure _
  refine .bind (anyRun_never fun pat _ => ?_) fun b => ?_
  · split
    · exact h _
    · exact .ok _
  cases b
  swap
  · exact .pure _
  refine anyRun_never fun pat _ => ?_
  split
  · split
    · exact .ok _
    · refine .bind (h _) fun b => ?_
      cases b
      · exact .pure _
      · exact h _
  · exact .ok _

theorem doSpellBreak_np {C : Checker} {f : Nat} (hw : ∀ w, C.CanTitle w) : ∀ (d : Nat) (w : Str),
    Never .panic (C.doSpellBreak f d w) := by
  intro d
  induction d with
  | zero =>
    intro w
    refine .bind (spellCasing_np (hw w)) fun o => ?_
    cases o <;> exact .pure _
  | succ d ih =>
    intro w
    refine .bind (spellCasing_np (hw w)) fun o => ?_
    cases o
    · exact breakLoops_never ih w
    · exact .pure _

theorem check_np {C : Checker} {f : Nat} (hw : ∀ w, C.CanTitle w) (word : Str) :
    Never .panic (C.check f word) := by
  unfold Checker.check
  by_cases h : byteLen word > maxWordLen
  · rw [if_pos h]; exact .ok _
  · rw [if_neg h]
    unfold checkConverted
    generalize C.aff.inputConversions.convert word = w
    cases w.isEmpty
    swap
    · exact .ok _
    generalize trimEndMatches '.' w = t
    dsimp only
    generalize (byteLen t != byteLen w) = a
    simp only [Bool.false_eq_true, if_false]
    cases isNumber t
    swap
    · exact .ok _
    simp only [Bool.false_eq_true, if_false]
    refine .bind (doSpellBreak_np hw 9 _) fun b => ?_
    cases b
    · cases a
      · exact .pure _
      · exact doSpellBreak_np hw 9 _
    · exact .pure _

/-! ### An end -/

/-- From some amount of fuel on the computation comes to an end, with a result or a panic. -/
def Ends {α : Type} (g : Nat → Run α) : Prop := ∃ N, ∀ f, N ≤ f → Never .fuel (g f)

theorem Ends.const {α : Type} (r : α) : Ends fun _ => (.ok r : Run α) := ⟨0, fun _ _ => .ok r⟩

theorem Ends.or {β : Type} {g g' : Nat → Run (Option β)} (h : Ends g) (h' : Ends g') :
    Ends fun f => (g f).or (g' f) := by
  obtain ⟨N, hN⟩ := h
  obtain ⟨N', hN'⟩ := h'
  exact ⟨max N N', fun f hf => .or (hN f (by omega)) (hN' f (by omega))⟩

theorem Ends.map {α β : Type} {g : Nat → Run α} (k : α → β) (h : Ends g) :
    Ends fun f => (g f).map k := by
  obtain ⟨N, hN⟩ := h
  exact ⟨N, fun f hf => .map _ (hN f hf)⟩

/-- A computation whose continuation is only needed for the results which occur. -/
theorem Ends.bindBool {β : Type} {g : Nat → Run Bool} {k : Bool → Nat → Run β} (h : Ends g)
    (h' : ∀ b, Ends (k b)) : Ends fun f => g f >>= fun b => k b f := by
  obtain ⟨N, hN⟩ := h
  obtain ⟨N1, h1⟩ := h' true
  obtain ⟨N2, h2⟩ := h' false
  refine ⟨max N (max N1 N2), fun f hf => .bind (hN f (by omega)) fun b => ?_⟩
  cases b
  · exact h2 f (by omega)
  · exact h1 f (by omega)

theorem Ends.title {C : Checker} {β : Type} {w : Str} {k : Str → Nat → Run β}
    (h : ∀ t, Ends (k t)) : Ends fun f => C.titlecase w >>= fun t => k t f := by
  unfold titlecase
  cases w with
  | nil => exact ⟨0, fun _ _ => by simp [Never, CaseHandling.titlecase, bind, Except.bind]⟩
  | cons c cs => exact h _

theorem Ends.word {C : Checker} (hD : C.dict.Shrinking) (w : Str) (fc : Forceucase)
    (hh : HiddenHomonym) : Ends fun f => C.checkWord f w fc hh :=
  ⟨w.length + 1, fun f hf => by
    obtain ⟨r, hr⟩ := checkWord_ok hD (fuel := f) w fc hh (by omega)
    simp [Never, hr]⟩

theorem Ends.sharps {C : Checker} (hD : C.dict.Shrinking) : ∀ (k : Nat) (before rest : Str)
    (depth r : Nat), 5 - depth = k → Ends fun f => C.doSpellSharps f before rest depth r := by
  have stop : ∀ (before rest : Str) (depth r : Nat),
      5 ≤ depth ∨ splitOnce? ['s', 's'] rest = none →
      Ends fun f => C.doSpellSharps f before rest depth r := by
    intro before rest depth r h
    rw [funext fun f => doSpellSharps_stop C h]
    split
    · exact Ends.word hD _ _ _
    · exact Ends.const _
  intro k
  induction k with
  | zero => exact fun before rest depth r hk => stop _ _ _ _ (Or.inl (by omega))
  | succ k ih =>
    intro before rest depth r hk
    rcases h : splitOnce? ['s', 's'] rest with _ | ⟨x, y⟩
    · exact stop _ _ _ _ (Or.inr h)
    · rw [funext fun f => doSpellSharps_go C (show depth < 5 by omega) h]
      exact Ends.or (ih _ _ _ _ (by omega)) (ih _ _ _ _ (by omega))

theorem Ends.apostrophe {C : Checker} (hD : C.dict.Shrinking) (w : Str) :
    Ends fun f => C.spellApostrophe f w := by
  unfold spellApostrophe
  rcases splitOnce? ['\''] w with _ | ⟨a, b⟩
  · exact Ends.const _
  · dsimp only
    split
    · exact Ends.const _
    · rename_i hb
      refine Ends.title fun t => ?_
      exact Ends.or (Ends.word hD _ _ _) (Ends.title fun t => Ends.word hD _ _ _)

theorem Ends.upper {C : Checker} (hD : C.dict.Shrinking) {w : Str} :
    Ends fun f => C.spellCasingUpper f w := by
  refine Ends.or (Ends.word hD _ _ _) <| Ends.or (Ends.apostrophe hD _) <| Ends.or ?_ <|
    Ends.or (Ends.title fun t => Ends.map _ (Ends.word hD _ _ _)) (Ends.map _ (Ends.word hD _ _ _))
  unfold spellUpperSharps
  split
  · exact Ends.or (Ends.sharps hD _ _ _ _ _ rfl) (Ends.title fun t => Ends.sharps hD _ _ _ _ _ rfl)
  · exact Ends.const _

theorem Ends.titleCase {C : Checker} (hD : C.dict.Shrinking) (w : Str) :
    Ends fun f => C.spellCasingTitle f w :=
  Ends.or (Ends.word hD _ _ _) (Ends.map _ (Ends.word hD _ _ _))

theorem Ends.asIs {C : Checker} (hD : C.dict.Shrinking) (w : Str) (b : Bool) :
    Ends fun f => C.spellCasingAsIs f w b := by
  refine Ends.or (Ends.word hD _ _ _) (Ends.or ?_ ?_)
  · split
    · rename_i h
      exact Ends.title fun t => Ends.titleCase hD _
    · exact Ends.const _
  · split
    · rename_i h
      exact Ends.upper hD
    · exact Ends.const _

theorem Ends.casing {C : Checker} (hD : C.dict.Shrinking) (w : Str) :
    Ends fun f => C.spellCasing f w := by
  unfold spellCasing
  cases hc : classifyCasing C.U w with
  | none => exact Ends.asIs hD _ _
  | camel => exact Ends.asIs hD _ _
  | pascal => exact Ends.asIs hD _ _
  | all =>
    exact Ends.upper hD
  | init => exact Ends.titleCase hD _

theorem Ends.any {α : Type} {g : α → Nat → Run Bool} : ∀ {l : List α}, (∀ a ∈ l, Ends (g a)) →
    Ends fun f => anyRun (fun a => g a f) l
  | [], _ => Ends.const _
  | a :: as, h => by
    refine Ends.bindBool (h a (by simp)) (k := fun b f => if b then pure true else
      anyRun (fun a => g a f) as) fun b => ?_
    cases b
    · exact Ends.any fun x hx => h x (by simp [hx])
    · exact Ends.const _

theorem Ends.break {C : Checker} {g : Str → Nat → Run Bool} (h : ∀ w, Ends (g w)) (w : Str) :
    Ends fun f => C.breakLoops (fun w => g w f) w := by
  unfold breakLoops
  refine Ends.bindBool (k := fun b f => _) (Ends.any fun pat _ => ?_) fun b => ?_
  · split
    · exact h _
    · exact Ends.const _
  cases b
  swap
  · exact Ends.const _
  refine Ends.bindBool (k := fun b f => _) (Ends.any fun pat _ => ?_) fun b => ?_
  · split
    · exact h _
    · exact Ends.const _
  cases b
  swap
  · exact Ends.const _
  refine Ends.any fun pat _ => ?_
  split
  · split
    · exact Ends.const _
    · refine Ends.bindBool (h _) (k := fun b f => _) fun b => ?_
      cases b
      · exact Ends.const _
      · exact h _
  · exact Ends.const _

theorem Ends.spell {C : Checker} (hD : C.dict.Shrinking) : ∀ (d : Nat)
    (w : Str), Ends fun f => C.doSpellBreak f d w := by
  have bindO : ∀ (w : Str) (k : Nat → Run Bool), Ends k →
      Ends fun f => C.spellCasing f w >>= fun o => match o with
        | some flags => (pure (C.goodFlags flags) : Run Bool)
        | none => k f := by
    intro w k hk
    obtain ⟨N, hN⟩ := Ends.casing hD w
    obtain ⟨N', hN'⟩ := hk
    refine ⟨max N N', fun f hf => .bind (hN f (by omega)) fun o => ?_⟩
    cases o with
    | none => exact hN' f (by omega)
    | some F => exact .pure _
  intro d
  induction d with
  | zero => exact fun w => bindO w _ (Ends.const false)
  | succ d ih => exact fun w => bindO w _ (Ends.break ih w)

theorem Ends.check {C : Checker} (hD : C.dict.Shrinking) (word : Str) :
    Ends fun f => C.check f word := by
  unfold Checker.check
  by_cases h : byteLen word > maxWordLen
  · simp only [if_pos h]; exact Ends.const _
  · simp only [if_neg h]
    unfold checkConverted
    generalize C.aff.inputConversions.convert word = w
    cases w.isEmpty
    swap
    · exact Ends.const _
    generalize trimEndMatches '.' w = t
    dsimp only
    generalize (byteLen t != byteLen w) = a
    simp only [Bool.false_eq_true, if_false]
    cases isNumber t
    swap
    · exact Ends.const _
    simp only [Bool.false_eq_true, if_false]
    refine Ends.bindBool (Ends.spell hD 9 _) (k := fun b f => _) fun b => ?_
    cases b
    · cases a
      · exact Ends.const _
      · exact Ends.spell hD 9 _
    · exact Ends.const _

end Spellbook.Checker
