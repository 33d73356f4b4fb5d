import Verif.Proof.Suggestions
/-!
# Proofs about the outcomes of `suggest`, from the spellings of the word to the end
-/

namespace Spellbook
open Spec Props

namespace Does
variable {α β γ : Type}

theorem eq {g : Nat → Run α} {R R' : Result α → Prop} (h : Does g R) (e : R = R') : Does g R' := e ▸ h

theorem gives_then (a : α) (Q : α → Result β → Prop) : Then (fun o => o = .gives a) Q = Q a :=
  funext fun o => propext (then_gives o)

theorem assoc (R : Result α → Prop) (Q : α → Result β → Prop) (T : β → Result γ → Prop) :
    Then (Then R Q) T = Then R fun a => Then (Q a) T :=
  funext fun o => propext (then_assoc o)

theorem then_pure (R : Result α → Prop) : Then R (fun a o => o = .gives a) = R := by
  funext o
  unfold Then
  cases o <;> simp

theorem panics_then (Q : α → Result β → Prop) : Then (fun o => o = .panics) Q = fun o => o = .panics := by
  funext o
  unfold Then
  simp

theorem then_ext {R : Result α → Prop} {Q Q' : α → Result β → Prop} (h : ∀ a, Q a = Q' a) : Then R Q = Then R Q' := by
  rw [funext h]

theorem ofOption (o : Option α) : Does (fun _ => Run.ofOption o)
    (match o with | some a => (· = .gives a) | none => (· = .panics)) := by
  cases o with
  | none => exact panic
  | some a => exact ok a

end Does

theorem divided_unique {C : Checker} {w : Str} {l ms ks ms' ks' : List Str} (h : Divided C w l ms ks)
    (h' : Divided C w l ms' ks') : ms = ms' ∧ ks = ks' := by
  induction h generalizing ms' ks' with
  | nil => cases h'; exact ⟨rfl, rfl⟩
  | moved hs _ ih =>
    cases h' with
    | moved hs' h' =>
      obtain ⟨rfl, rfl⟩ := ih h'
      obtain ⟨a, c, b, rfl, ha, -, rfl⟩ := hs
      obtain ⟨a', c', b', e, ha', -, rfl⟩ := hs'
      have e1 := splitOnce?_char.2 ⟨(rfl : a ++ ' ' :: c :: b = _), ha⟩
      have e2 := splitOnce?_char.2 ⟨e, ha'⟩
      rw [e1] at e2
      cases e2
      exact ⟨rfl, rfl⟩
    | kept hn _ => exact absurd hs (hn _)
  | kept hn _ ih =>
    cases h' with
    | moved hs' _ => exact absurd hs' (hn _)
    | kept _ h' =>
      obtain ⟨rfl, rfl⟩ := ih h'
      exact ⟨rfl, rfl⟩

theorem sorted_unique {α : Type} (f : α → Nat) : ∀ {l l' : List α}, l.Pairwise (fun x y => f x < f y) →
    l'.Pairwise (fun x y => f x < f y) → (∀ a, a ∈ l ↔ a ∈ l') → l = l'
  | [], [], _, _, _ => rfl
  | [], b :: l', _, _, h => absurd ((h b).2 (by simp)) (by simp)
  | a :: l, [], _, _, h => absurd ((h a).1 (by simp)) (by simp)
  | a :: l, b :: l', h1, h2, h => by
    rw [List.pairwise_cons] at h1 h2
    have hab : a = b := by
      rcases List.mem_cons.1 ((h a).1 (by simp)) with e | e
      · exact e
      · rcases List.mem_cons.1 ((h b).2 (by simp)) with e' | e'
        · exact e'.symm
        · have := h2.1 a e
          have := h1.1 b e'
          omega
    subst hab
    rw [sorted_unique f h1.2 h2.2 fun x => ?_]
    constructor
    · intro hx
      rcases List.mem_cons.1 ((h x).1 (by simp [hx])) with e | e
      · subst e
        exact absurd (h1.1 x hx) (by omega)
      · exact e
    · intro hx
      rcases List.mem_cons.1 ((h x).2 (by simp [hx])) with e | e
      · subst e
        exact absurd (h2.1 x hx) (by omega)
      · exact e

theorem dashPieces_sorted : ∀ (rest pre cur : Str),
    (dashPieces pre cur rest).Pairwise (fun x y => x.1.length < y.1.length) ∧
    ∀ x ∈ dashPieces pre cur rest, pre.length ≤ x.1.length
  | [], pre, cur => by simp [dashPieces]
  | c :: rest, pre, cur => by
    unfold dashPieces
    split
    · obtain ⟨h1, h2⟩ := dashPieces_sorted rest (pre ++ cur ++ [c]) []
      refine ⟨List.pairwise_cons.2 ⟨fun x hx => ?_, h1⟩, fun x hx => ?_⟩
      · have := h2 x hx
        simp at this ⊢
        omega
      · rcases List.mem_cons.1 hx with rfl | hx
        · exact Nat.le_refl _
        · have := h2 x hx
          simp at this ⊢
          omega
    · exact dashPieces_sorted rest pre _

theorem dashParts_iff {w : Str} {l : List (Str × Str × Str)} : DashParts w l ↔ l = dashPieces [] [] w := by
  constructor
  · rintro ⟨h1, h2⟩
    exact sorted_unique (fun x => x.1.length) h2 (dashPieces_sorted w [] []).1 fun ⟨a, b, c⟩ =>
      (h1 a b c).trans Suggester.mem_dashPieces.symm
  · rintro rfl
    exact ⟨fun _ _ _ => Suggester.mem_dashPieces, (dashPieces_sorted w [] []).1⟩

namespace Suggester
variable {S : Suggester} {lines : List Str}

theorem titleSecond_total {w : Str} : ∀ (l done : List Str), ∃ r, S.titleSecond w done l = .ok r
  | [], done => ⟨_, rfl⟩
  | s :: l, done => by
    unfold titleSecond
    split
    · exact titleSecond_total _ _
    · rename_i a b hs
      obtain ⟨rfl, ha⟩ := splitOnce?_char.1 hs
      split
      · exact titleSecond_total _ _
      · rename_i ht
        unfold upperAt CaseHandling.upperCharAt
        have e0 : a ++ ' ' :: b = (a ++ [' ']) ++ b := by simp
        have el : a.length + 1 = (a ++ [' ']).length := by simp
        have e : (a ++ ' ' :: b).drop (a.length + 1) = b := by rw [e0, el, List.drop_left]
        rw [e]
        cases b with
        | nil => exact absurd (hasTail_iff.2 (List.nil_suffix)) ht
        | cons c b => exact titleSecond_total _ _

theorem titleSecond_iff (w : Str) (l r : List Str) : S.titleSecond w [] l = .ok r ↔ SecondFirst S.C w l r := by
  constructor
  · intro h
    obtain ⟨ms, ks, h1, rfl⟩ := titleSecond_ok h
    exact ⟨ms, ks, h1, by simp⟩
  · rintro ⟨ms, ks, h1, rfl⟩
    obtain ⟨r, h⟩ := titleSecond_total (S := S) (w := w) l []
    obtain ⟨ms', ks', h2, rfl⟩ := titleSecond_ok h
    obtain ⟨rfl, rfl⟩ := divided_unique h1 h2
    simpa using h

theorem does_second (w : Str) (l : List Str) : Does (fun _ => S.titleSecond w [] l) fun o =>
    ∃ r, SecondFirst S.C w l r ∧ o = .gives r := by
  obtain ⟨r, h⟩ := titleSecond_total (S := S) (w := w) l []
  refine .const fun o => ?_
  rw [h]
  constructor
  · intro e
    cases o with
    | panics => cases e
    | gives r' => cases e; exact ⟨r, (titleSecond_iff w l r).1 h, rfl⟩
  · rintro ⟨r', h', rfl⟩
    rw [← titleSecond_iff, h] at h'
    exact h'

theorem does_dot (w : Str) (l : List Str) {α : Type} (g : List Str → α) : 
    (fun o : Result α => ∃ d, DotSpace S.C.U w d ∧ o = .gives (g (d ++ l))) =
    fun o => o = .gives (g (S.dotSpace w l)) := by
  obtain ⟨d, e, h⟩ := dotSpace_ok (S := S) w l
  funext o
  rw [e]
  refine propext ⟨?_, fun h' => ⟨d, h, h'⟩⟩
  rintro ⟨d', h', rfl⟩
  have : d' = d := by
    rcases h with ⟨a, b, rfl, ha, hc, rfl⟩ | ⟨rfl, h⟩
    · rcases h' with ⟨a', b', e', ha', hc', rfl⟩ | ⟨rfl, h'⟩
      · have e1 := splitOnce?_char.2 ⟨(rfl : a ++ '.' :: b = _), ha⟩
        have e2 := splitOnce?_char.2 ⟨e', ha'⟩
        rw [e1] at e2
        cases e2
        rfl
      · exact absurd hc (h' a b rfl ha)
    · rcases h' with ⟨a', b', e', ha', hc', rfl⟩ | ⟨rfl, h'⟩
      · exact absurd hc' (h a' b' e' ha')
      · rfl
  rw [this]

theorem ok_then {α β : Type} (a : α) (g : α → Run β) : ((.ok a : Run α) >>= g) = g a := rfl

theorem does_titlecase (w : Str) : Does (fun _ => S.C.titlecase w) fun o =>
    if w = [] then o = .panics else o = .gives (titleOf S.C w) := by
  cases w with
  | nil => exact Does.panic
  | cons c w => exact Does.ok _

variable (hS : S.Sound lines)
include hS

theorem does_front (t : Str) {α : Type} (g : Bool → Nat → Run α) (Q : Bool → Result α → Prop)
    (h : ∀ b, Does (g b) (Q b)) : Does (fun f => S.C.check f t >>= fun b => g b f) (Then (Checked (S.knowledge lines) t) Q) :=
  (does_check hS t).bind fun b => h b

theorem does_another (t : Str) (hq : Bool) (out : List Str) : Does (fun f => S.lowThenFront f t hq out)
    (Another (S.knowledge lines) t (hq, out)) := by
  unfold lowThenFront
  refine ((does_low hS t out).bind (fun p => (does_check hS t).bind fun b => Does.pure _)).eq ?_
  unfold Another Front
  simp only [Does.assoc, Does.gives_then]
  refine Does.then_ext fun p => Does.then_ext fun b => ?_
  cases b <;> simp

theorem does_init (w : Str) : Does (fun f => S.initCase f w []) (Spelled (S.knowledge lines) w .init) := by
  unfold initCase
  refine ((does_low hS w []).bind fun p => (does_low hS (S.C.lowercase w) p.2).bind fun p' => Does.pure _).eq ?_
  simp only [Does.assoc, Does.gives_then, List.nil_append]
  rfl

theorem does_none (w : Str) : Does (fun f => S.suggestLow f w []) (Spelled (S.knowledge lines) w .none) := by
  refine (does_low hS w []).eq ?_
  simp only [List.nil_append, Prod.mk.eta, Does.then_pure]
  rfl

theorem does_keep (t : Str) : Does (fun f => S.keepLower f t []) fun o =>
    if S.C.opts.keepCaseFlag = Option.none then o = .gives [] else Front (S.knowledge lines) t o := by
  unfold keepLower
  cases S.C.opts.keepCaseFlag with
  | none => exact Does.ok _
  | some x =>
    refine ((does_check hS t).bind fun b => Does.pure _).eq ?_
    simp only [reduceCtorEq, if_false]
    unfold Front
    rfl

theorem does_all (w : Str) : Does (fun f => S.allCaps f w []) (Spelled (S.knowledge lines) w .all) := by
  unfold allCaps
  refine ((does_keep hS (S.C.lowercase w)).bind fun l => (does_low hS (S.C.lowercase w) l).bind fun p =>
    (does_titlecase (S.C.lowercase w)).bind fun t => (does_low hS t p.2).bind fun p' => Does.pure _).eq ?_
  simp only [Does.assoc, Does.gives_then]
  unfold Spelled
  refine Does.then_ext fun l => Does.then_ext fun p => ?_
  by_cases hw : S.C.lowercase w = []
  · have hw' : lowerOf (S.knowledge lines).C w = [] := hw
    simp only [hw, hw', if_true, Does.panics_then]
  · have hw' : ¬ lowerOf (S.knowledge lines).C w = [] := hw
    simp only [hw, hw', if_false, Does.gives_then]
    rfl

theorem does_camel (w : Str) : Does (fun f => S.mixedCase f false w []) (Spelled (S.knowledge lines) w .camel) := by
  unfold mixedCase
  simp only [pascalLower, pascalTitle, Bool.false_eq_true, if_false, ok_then]
  refine ((does_low hS w []).bind fun p =>
    (does_another hS (S.C.lowercase w) p.1 (S.dotSpace w p.2)).bind fun r =>
    (does_second w r.2).bind fun l => Does.pure _).eq ?_
  simp only [Does.assoc, Does.gives_then, List.nil_append]
  unfold Spelled
  refine Does.then_ext fun p => ?_
  have e := fun p : Bool × List Str => does_dot (S := S) w p.2 (fun l => (p.1, l))
  simp only [show (S.knowledge lines).C = S.C from rfl] at e ⊢
  simp only [e, Does.gives_then]
  refine Does.then_ext fun r => ?_
  funext o
  refine propext ⟨?_, ?_⟩
  · rintro (⟨⟨_, -, h⟩, -⟩ | ⟨l, ⟨r', h1, h2⟩, rfl⟩)
    · cases h
    · cases h2
      exact ⟨_, h1, rfl⟩
  · rintro ⟨l, h1, rfl⟩
    exact .inr ⟨l, ⟨l, h1, rfl⟩, rfl⟩

theorem does_pascal (c : Char) (b : Str) :
    Does (fun f => S.mixedCase f true (c :: b) []) (Spelled (S.knowledge lines) (c :: b) .pascal) := by
  unfold mixedCase
  simp only [pascalLower, pascalTitle, if_true]
  refine ((does_low hS (c :: b) []).bind fun p => ((Does.ofOption _).bind fun t => does_another hS t _ _).bind fun r =>
    (does_another hS (S.C.lowercase (c :: b)) r.1 r.2).bind fun r =>
    ((does_titlecase (c :: b)).bind fun t => does_another hS t r.1 r.2).bind fun r =>
    (does_second (c :: b) r.2).bind fun l => Does.pure _).eq ?_
  simp only [Does.assoc, List.nil_append, CaseHandling.lowerFirstChar, Does.gives_then, reduceCtorEq, if_false]
  unfold Spelled
  refine Does.then_ext fun p => ?_
  have e := fun p : Bool × List Str => does_dot (S := S) (c :: b) p.2 (fun l => (p.1, l))
  simp only [show (S.knowledge lines).C = S.C from rfl] at e ⊢
  simp only [e, Does.gives_then]
  have e' : ∀ q : Bool × List Str, (fun o => ∃ c' b', c :: b = c' :: b' ∧
      Another (S.knowledge lines) (S.C.opts.caseHandling.lowerChar S.C.U c' ++ b') q o) =
      Another (S.knowledge lines) (S.C.opts.caseHandling.lowerChar S.C.U c ++ b) q := by
    intro q
    funext o
    refine propext ⟨?_, fun h => ⟨c, b, rfl, h⟩⟩
    rintro ⟨c', b', h, h'⟩
    cases h
    exact h'
  rw [e']
  refine Does.then_ext fun r => Does.then_ext fun r => Does.then_ext fun r => ?_
  funext o
  refine propext ⟨?_, ?_⟩
  · rintro (⟨⟨_, -, h⟩, -⟩ | ⟨l, ⟨r', h1, h2⟩, rfl⟩)
    · cases h
    · cases h2
      exact ⟨_, h1, rfl⟩
  · rintro ⟨l, h1, rfl⟩
    exact .inr ⟨l, ⟨l, h1, rfl⟩, rfl⟩

/-! ## After the spellings -/

theorem does_similar (w : Str) (casing : Casing) (p : Bool × List Str) :
    Does (fun _ => S.ngramPart casing w p.1 p.2) (WithSimilar (S.knowledge lines) w casing p) := by
  unfold ngramPart WithSimilar
  by_cases hc : S.ngram = true ∧ p.1 = false ∧ S.C.opts.maxNgramSuggestions ≠ 0
  · have hc' : (S.ngram && !p.1 && S.C.opts.maxNgramSuggestions != 0) = true := by
      simp [hc.1, hc.2.1, hc.2.2]
    have e1 : ∀ o, (if (S.knowledge lines).ngram = true ∧ p.1 = false ∧
        (S.knowledge lines).C.opts.maxNgramSuggestions ≠ 0 then
        Then (· = (S.knowledge lines).similar (compared (S.knowledge lines).C w casing) p.2) (fun l o => o = .gives (p.2 ++
          if casing = .all then l.map (upperOf (S.knowledge lines).C) else l)) o else o = .gives p.2) ↔ _ :=
      fun o => by rw [if_pos (show (S.knowledge lines).ngram = true ∧ p.1 = false ∧
        (S.knowledge lines).C.opts.maxNgramSuggestions ≠ 0 from hc)]
    simp only [hc', if_true]
    refine Does.congr ?_ fun o => (e1 o).symm
    have eb : (if casing = Casing.none then w else S.C.lowercase w) = compared S.C w casing := by
      cases casing <;> rfl
    rw [eb]
    refine ((Does.const (r := S.C.ngramSuggest S.H (compared S.C w casing) p.2)
      (R := fun o => match o with
        | .gives out => ∃ new, (S.knowledge lines).similar (compared S.C w casing) p.2 = .gives new ∧ out = p.2 ++ new
        | .panics => (S.knowledge lines).similar (compared S.C w casing) p.2 = .panics) fun o => ?_).bind
        fun out => Does.pure _).congr fun o => ?_
    · unfold knowledge
      dsimp only
      cases h : S.C.ngramSuggest S.H (compared S.C w casing) p.2 with
      | ok out =>
        obtain ⟨new, rfl, -⟩ := Checker.ngramSuggest_similar hS.conds h
        cases o with
        | gives out =>
          simp only [Result.run, Except.ok.injEq, Result.gives.injEq, List.drop_left, exists_eq_left']
          exact eq_comm
        | panics => simp [Result.run]
      | error e =>
        cases e with
        | fuel => exact absurd h (Checker.ngramSuggest_nf _ _)
        | panic => cases o <;> simp [Result.run]
    · unfold Then
      constructor
      · rintro (⟨h, rfl⟩ | ⟨out, ⟨new, h, rfl⟩, rfl⟩)
        · exact .inl ⟨h.symm, rfl⟩
        · refine .inr ⟨new, h.symm, ?_⟩
          split
          · rw [List.take_left, List.drop_left]; rfl
          · rfl
      · rintro (⟨h, rfl⟩ | ⟨new, h, rfl⟩)
        · exact .inl ⟨h.symm, rfl⟩
        · refine .inr ⟨p.2 ++ new, ⟨new, h.symm, rfl⟩, ?_⟩
          split
          · rw [List.take_left, List.drop_left]; rfl
          · rfl
  · have hc' : ¬ (S.ngram && !p.1 && S.C.opts.maxNgramSuggestions != 0) = true := by
      intro h
      simp at h
      exact hc ⟨h.1.1, h.1.2, h.2⟩
    simp only [hc', if_false]
    refine (Does.ok p.2).congr fun o => ?_
    rw [if_neg (show ¬ ((S.knowledge lines).ngram = true ∧ p.1 = false ∧
        (S.knowledge lines).C.opts.maxNgramSuggestions ≠ 0) from hc)]

omit hS in
theorem does_collect {α : Type} {step : Nat → List Str → α → Run (List Str)} {F : α → Result (List Str) → Prop}
    (h : ∀ a out, Does (fun f => step f out a) (Then (F a) fun l o => o = .gives (out ++ l))) :
    ∀ (as : List α) (out : List Str), Does (fun f => as.foldlM (step f) out)
      (Then (Collect F as) fun l o => o = .gives (out ++ l))
  | [], out => by
    refine (Does.pure out).eq ?_
    have e : Collect F [] = fun o => o = .gives [] := by
      funext o; rw [Collect]
    rw [e]
    simp only [Does.gives_then, List.append_nil]
  | a :: as, out => by
    simp only [List.foldlM_cons]
    refine ((h a out).bind fun out => does_collect h as out).eq ?_
    have e : Collect F (a :: as) = Then (F a) fun l => Then (Collect F as) fun l' o => o = .gives (l ++ l') := by
      funext o; rw [Collect]
    rw [e]
    simp only [Does.assoc, Does.gives_then, List.append_assoc]

theorem does_candidate (pre post s : Str) (out : List Str) : Does (fun f => S.dashCandidate f pre post out s)
    (Then (KeepCorrected (S.knowledge lines) (pre ++ (s ++ post))) fun l o => o = .gives (out ++ l)) := by
  unfold dashCandidate
  refine ((does_word hS (pre ++ s ++ post) .forbidBad .accept).bind (Q := fun x => Then (fun o =>
    (∃ F', x = some F' ∧ S.C.opts.forbiddenWordFlag ∈ F'.elems) ∧ o = .gives [] ∨
     (¬ ∃ F', x = some F' ∧ S.C.opts.forbiddenWordFlag ∈ F'.elems) ∧ o = .gives [pre ++ (s ++ post)])
      fun l o => o = .gives (out ++ l)) fun x => ?_).congr fun o => ?_
  · cases x with
    | none =>
      refine (Does.pure _).congr fun o => ?_
      simp [Then]
    | some F =>
      dsimp only
      by_cases hF : S.C.opts.forbiddenWordFlag ∈ F.elems
      · simp only [FlagSet.contains_iff.2 hF, if_true]
        refine (Does.pure _).congr fun o => ?_
        simp [Then, hF]
      · simp only [if_neg (fun h => hF (FlagSet.contains_iff.1 h))]
        refine (Does.pure _).congr fun o => ?_
        simp [Then, hF]
  · unfold Then KeepCorrected
    rw [List.append_assoc]
    constructor
    · rintro (⟨⟨_, -, h⟩, -⟩ | ⟨x, ⟨_, hx, h⟩, ⟨h', rfl⟩ | ⟨l, hl, rfl⟩⟩)
      · cases h
      · cases h
        exact .inl ⟨⟨x, hx, h'⟩, rfl⟩
      · cases h
        exact .inr ⟨l, ⟨x, hx, hl⟩, rfl⟩
    · rintro (⟨⟨x, hx, h'⟩, rfl⟩ | ⟨l, ⟨x, hx, hl⟩, rfl⟩)
      · exact .inr ⟨x, ⟨x, hx, rfl⟩, .inl ⟨h', rfl⟩⟩
      · exact .inr ⟨x, ⟨x, hx, rfl⟩, .inr ⟨l, hl, rfl⟩⟩

theorem does_dashes {rec' : Nat → Str → List Str → Run (List Str)} {again : Str → Result (List Str) → Prop}
    (hr : ∀ t, Does (fun f => rec' f t []) (again t)) (w : Str) (out : List Str) :
    Does (fun f => S.dashes f (rec' f) w out) (WithDashes (S.knowledge lines) again w out) := by
  unfold dashes WithDashes
  by_cases hc : '-' ∈ w ∧ ∀ s ∈ out, '-' ∉ s
  · have hc' : (w.contains '-' && !(out.any fun s => s.contains '-')) = true := by
      simpa using hc
    simp only [hc', if_true]
    refine Does.congr (R := Then (Collect (fun x : Str × Str × Str => Then (Checked (S.knowledge lines) x.2.1) fun b o =>
          if b then o = .gives []
          else Then (again x.2.1) (Collect fun s => KeepCorrected (S.knowledge lines) (x.1 ++ (s ++ x.2.2))) o)
          (dashPieces [] [] w)) (fun l' o => o = .gives (out ++ l'))) ?_ fun o => ?_
    · refine does_collect (fun ⟨pre, part, post⟩ out => ?_) (dashPieces [] [] w) out
      unfold dashPart
      refine ((does_check hS part).bind (Q := fun b => Then (fun o => if b then o = .gives []
          else Then (again part) (Collect fun s => KeepCorrected (S.knowledge lines) (pre ++ (s ++ post))) o)
          fun l o => o = .gives (out ++ l)) fun b => ?_).eq ?_
      · cases b with
        | true =>
          refine (Does.pure out).eq ?_
          simp only [if_true, Does.gives_then, List.append_nil]
        | false =>
          simp only [Bool.false_eq_true, if_false]
          refine ((hr part).bind fun found => does_collect (fun s out => does_candidate hS pre post s out) found out).eq ?_
          exact (Does.assoc _ _ _).symm
      · simp only [Does.assoc]
    · rw [if_pos hc]
      constructor
      · exact fun h => ⟨_, dashParts_iff.2 rfl, h⟩
      · rintro ⟨parts, hp, h⟩
        rw [dashParts_iff] at hp
        subst hp
        exact h
  · have hc' : ¬ (w.contains '-' && !(out.any fun s => s.contains '-')) = true := by
      simpa using hc
    simp only [hc', if_false]
    refine (Does.ok out).congr fun o => ?_
    rw [if_neg hc]

omit hS in
theorem does_capitals (l : List Str) : Does (fun _ => l.mapM fun s => S.upperAt s 0) (Capitals (S.knowledge lines) l) := by
  have key : (∃ caps, List.Forall₂ (Capital S.C) l caps ∧ l.mapM (fun s => S.upperAt s 0) = .ok caps ∧ [] ∉ l) ∨
      ([] ∈ l ∧ l.mapM (fun s => S.upperAt s 0) = (.error .panic : Run (List Str))) := by
    induction l with
    | nil => exact .inl ⟨[], .nil, rfl, by simp⟩
    | cons t l ih =>
      rw [List.mapM_cons]
      cases t with
      | nil => exact .inr ⟨by simp, rfl⟩
      | cons c b =>
        rcases ih with ⟨caps, h1, h2, h3⟩ | ⟨h1, h2⟩
        · refine .inl ⟨_ :: caps, .cons ⟨c, b, rfl, rfl⟩ h1, ?_, by simpa using h3⟩
          rw [h2]
          rfl
        · refine .inr ⟨by simp [h1], ?_⟩
          rw [h2]
          rfl
  have full : ∀ {l caps : List Str}, List.Forall₂ (Capital S.C) l caps → [] ∉ l := by
    intro l caps h
    induction h with
    | nil => simp
    | cons h _ ih =>
      obtain ⟨c, b, rfl, -⟩ := h
      simpa using ih
  have uniq : ∀ {l caps caps' : List Str}, List.Forall₂ (Capital S.C) l caps → List.Forall₂ (Capital S.C) l caps' →
      caps = caps' := by
    intro l caps caps' h h'
    induction h generalizing caps' with
    | nil => cases h'; rfl
    | cons h _ ih =>
      cases h' with
      | cons h' hs =>
        obtain ⟨c, b, rfl, rfl⟩ := h
        obtain ⟨c', b', e, rfl⟩ := h'
        cases e
        rw [ih hs]
  refine .const fun o => ?_
  unfold Capitals
  rcases key with ⟨caps, h1, h2, h3⟩ | ⟨h1, h2⟩
  · rw [h2]
    constructor
    · intro h
      cases o with
      | panics => cases h
      | gives a => cases h; exact .inl ⟨_, h1, rfl⟩
    · rintro (⟨caps', h, rfl⟩ | ⟨h, -⟩)
      · rw [uniq h1 h]; rfl
      · exact absurd h h3
  · rw [h2]
    constructor
    · intro h
      cases o with
      | panics => exact .inr ⟨h1, rfl⟩
      | gives a => cases h
    · rintro (⟨caps', h, rfl⟩ | ⟨h, rfl⟩)
      · exact absurd h1 (full h)
      · rfl

theorem does_recheck (t : Str) :
    Does (fun f => S.recheck f t >>= fun r => (pure r.toList : Run (List Str))) (Again (S.knowledge lines) t) := by
  unfold recheck Again
  by_cases hs : ' ' ∈ t
  · have hs' : t.contains ' ' = true := by simpa using hs
    simp only [hs', hs, if_true]
    exact Does.pure _
  · have hs' : ¬ t.contains ' ' = true := by simpa using hs
    simp only [if_neg hs', if_neg hs, bind_assoc]
    refine (does_check hS t).bind fun b => ?_
    cases b with
    | true => exact Does.pure _
    | false =>
      simp only [Bool.false_eq_true, if_false, bind_assoc]
      refine (does_check hS (S.C.lowercase t)).bind fun b => ?_
      cases b with
      | true => exact Does.pure _
      | false =>
        simp only [Bool.false_eq_true, if_false, bind_assoc]
        cases t with
        | nil => exact Does.panic
        | cons c t =>
          simp only [reduceCtorEq, if_false]
          refine (does_check hS _).bind fun b => ?_
          cases b <;> exact Does.pure _

theorem does_recheckAll : ∀ l : List Str, Does (fun f => S.recheckAll f l) (Collect (Again (S.knowledge lines)) l)
  | [] => Does.ok _
  | t :: l => by
    unfold recheckAll
    have e : ∀ f, (do
        let r ← S.recheck f t
        let rest ← S.recheckAll f l
        pure (r.toList ++ rest) : Run (List Str)) =
        ((S.recheck f t >>= fun r => (pure r.toList : Run (List Str))) >>= fun x => S.recheckAll f l >>= fun rest =>
          pure (x ++ rest)) := by
      intro f
      rw [bind_assoc]
      simp only [pure_bind]
    simp only [e]
    refine ((does_recheck hS t).bind fun x => (does_recheckAll l).bind fun rest => Does.pure _).eq ?_
    funext o
    rw [Collect]

theorem does_ended (casing : Casing) (l : List Str) :
    Does (fun f => S.capitalise casing l >>= S.retained f casing) (Ended (S.knowledge lines) l casing) := by
  unfold capitalise retained
  cases casing <;> simp only [reduceCtorEq, or_self, or_true, true_or, if_true, if_false]
  · exact Does.ok l
  · exact (does_capitals l).bind fun caps => does_recheckAll hS caps
  · exact does_recheckAll hS l
  · exact Does.ok l
  · refine ((does_capitals (lines := lines) l).bind fun caps => Does.ok caps).eq ?_
    rw [Does.then_pure]
    rfl

theorem does_finish (casing : Casing) (l : List Str) : Does (fun f => S.finish f casing l)
    (Then (Ended (S.knowledge lines) l casing) fun l o => o = .gives ((firsts [] l).map (S.knowledge lines).output)) := by
  have e : ∀ f, S.finish f casing l = ((S.capitalise casing l >>= S.retained f casing) >>= fun out =>
      .ok ((firsts [] out).map S.C.aff.outputConversions.convert)) := by
    intro f
    unfold finish
    simp only [deduplicate?_eq, bind_assoc]
    rfl
  simp only [e]
  exact (does_ended hS casing l).bind fun l => Does.ok _

theorem does_after {rec' : Nat → Str → List Str → Run (List Str)} {again : Str → Result (List Str) → Prop}
    (hr : ∀ t, Does (fun f => rec' f t []) (again t)) (casing : Casing) (w : Str) {g : Nat → Run (Bool × List Str)}
    (hg : Does g (Spelled (S.knowledge lines) w casing)) :
    Does (fun f => g f >>= S.afterCasing f (rec' f) casing w) (Ordinary (S.knowledge lines) again w casing) := by
  unfold afterCasing Ordinary
  exact hg.bind fun p => (does_similar hS w casing p).bind fun l => (does_dashes hS hr w l).bind fun l =>
    does_finish hS casing l

theorem does_force (w : Str) : Does (fun f => S.forceTitle f w) fun o =>
    ∃ b, OnlyLacksCapital (S.knowledge lines) w b ∧ o = .gives b := by
  unfold forceTitle OnlyLacksCapital
  have hk : (S.knowledge lines).C = S.C := rfl
  simp only [hk]
  by_cases hf : S.C.opts.compoundForceUppercaseFlag = none
  · simp only [hf, Option.isSome_none, Bool.false_eq_true, if_false, if_true, exists_eq_left]
    exact Does.ok _
  · have hf' : S.C.opts.compoundForceUppercaseFlag.isSome = true := Option.isSome_iff_ne_none.2 hf
    simp only [hf, hf', if_true, if_false]
    refine ⟨fun hle => (Checker.checkCompound_le _ hle _ _ _).map _, fun o => ?_⟩
    obtain ⟨h1, h2⟩ := Checker.compound_iff hS.conds hS.chars .allowBad w
    have hk' : (S.knowledge lines).choice = S.C.choice := rfl
    rw [hk']
    constructor
    · rintro ⟨f, h⟩
      cases hc : S.C.checkCompound f .atBegin w .allowBad with
      | error e =>
        rw [hc] at h
        cases e with
        | panic => exact absurd hc (Checker.checkCompound_np _ _ _ _ _)
        | fuel => cases o <;> cases h
      | ok r =>
        rw [hc] at h
        cases o with
        | panics => cases h
        | gives b =>
          cases h
          refine ⟨_, ?_, rfl⟩
          cases r with
          | none => exact ⟨none, h1.1 ⟨f, hc⟩, by simp⟩
          | some r => exact ⟨some r.flags, (h2 _).1 ⟨f, r, hc, rfl⟩, by simp⟩
    · rintro ⟨b, ⟨x, hx, hb⟩, rfl⟩
      cases x with
      | none =>
        obtain ⟨f, hf⟩ := h1.2 hx
        refine ⟨f, ?_⟩
        rw [hf]
        have : b = false := by simpa using hb
        rw [this]; rfl
      | some F =>
        obtain ⟨f, r, hf, -⟩ := (h2 F).2 hx
        refine ⟨f, ?_⟩
        rw [hf]
        have : b = true := by simpa using hb
        rw [this]; rfl

/-! ## Everything -/

theorem does_converted {rec' : Nat → Str → List Str → Run (List Str)} {again : Str → Result (List Str) → Prop}
    (hr : ∀ t, Does (fun f => rec' f t []) (again t)) (w : Str) (hw : w ≠ []) :
    Does (fun f => S.suggestConverted f (rec' f) w []) fun o => ∃ casing, HasCasing S.C.U w casing ∧
      ((casing ≠ .none ∧ Ordinary (S.knowledge lines) again w casing o) ∨
       (casing = .none ∧ OnlyLacksCapital (S.knowledge lines) w false ∧
          Ordinary (S.knowledge lines) again w casing o) ∨
       (casing = .none ∧ OnlyLacksCapital (S.knowledge lines) w true ∧ o = .gives [titleOf S.C w])) := by
  have one : ∀ {casing : Casing} (h : classifyCasing S.C.U w = casing) (hn : casing ≠ .none) (o : Result (List Str)),
      Ordinary (S.knowledge lines) again w casing o ↔ ∃ casing, HasCasing S.C.U w casing ∧
      ((casing ≠ .none ∧ Ordinary (S.knowledge lines) again w casing o) ∨
       (casing = .none ∧ OnlyLacksCapital (S.knowledge lines) w false ∧
          Ordinary (S.knowledge lines) again w casing o) ∨
       (casing = .none ∧ OnlyLacksCapital (S.knowledge lines) w true ∧ o = .gives [titleOf S.C w])) := by
    intro casing h hn o
    constructor
    · exact fun ho => ⟨casing, classifyCasing_iff.1 h, .inl ⟨hn, ho⟩⟩
    · rintro ⟨casing', h', h2⟩
      rw [← classifyCasing_iff, h] at h'
      subst h'
      rcases h2 with ⟨-, h2⟩ | ⟨h2, -⟩ | ⟨h2, -⟩
      · exact h2
      · exact absurd h2 hn
      · exact absurd h2 hn
  unfold suggestConverted
  cases h : classifyCasing S.C.U w with
  | init => exact (does_after hS hr .init w (does_init hS w)).congr (one h (by simp))
  | all => exact (does_after hS hr .all w (does_all hS w)).congr (one h (by simp))
  | camel => exact (does_after hS hr .camel w (does_camel hS w)).congr (one h (by simp))
  | pascal =>
    cases w with
    | nil => exact absurd rfl hw
    | cons c b => exact (does_after hS hr .pascal (c :: b) (does_pascal hS c b)).congr (one h (by simp))
  | none =>
    refine ((does_force hS w).bind (Q := fun b o => (b = true ∧ o = .gives [titleOf S.C w]) ∨
      (b = false ∧ Ordinary (S.knowledge lines) again w .none o)) fun b => ?_).congr fun o => ?_
    · cases b with
      | true =>
        simp only [if_true]
        refine ((does_titlecase w).bind fun t => Does.pure _).congr fun o => ?_
        simp only [if_neg hw, Does.gives_then]
        simp
      | false =>
        simp only [Bool.false_eq_true, if_false]
        refine (does_after hS hr .none w (does_none hS w)).congr fun o => ?_
        simp
    · constructor
      · rintro (⟨⟨_, _, h⟩, -⟩ | ⟨b, ⟨_, hb, e⟩, ⟨rfl, rfl⟩ | ⟨rfl, ho⟩⟩)
        · cases h
        · cases e
          exact ⟨.none, classifyCasing_iff.1 h, .inr (.inr ⟨rfl, hb, rfl⟩)⟩
        · cases e
          exact ⟨.none, classifyCasing_iff.1 h, .inr (.inl ⟨rfl, hb, ho⟩)⟩
      · rintro ⟨casing, hc, h2⟩
        rw [← classifyCasing_iff, h] at hc
        subst hc
        rcases h2 with ⟨hn, -⟩ | ⟨-, hb, h2⟩ | ⟨-, hb, rfl⟩
        · exact absurd rfl hn
        · exact .inr ⟨false, ⟨_, hb, rfl⟩, .inr ⟨rfl, h2⟩⟩
        · exact .inr ⟨true, ⟨_, hb, rfl⟩, .inl ⟨rfl, rfl⟩⟩

theorem does_impl : ∀ (depth : Nat) (word : Str),
    Does (fun f => S.suggestImpl f depth word []) (SuggestedAt (S.knowledge lines) depth word)
  | 0, word => Does.fuel
  | depth + 1, word => by
    unfold suggestImpl
    by_cases hw : word = []
    · simp only [hw, if_true]
      refine (Does.ok []).congr fun o => ?_
      rw [SuggestedAt, if_pos rfl]
    · simp only [hw, if_false]
      refine (does_converted hS (rec' := fun f => S.suggestImpl f depth) (does_impl depth)
        (S.C.aff.inputConversions.convert word) (hS.input word hw)).congr fun o => ?_
      rw [SuggestedAt, if_neg hw]
      rfl

/-- What `suggest` does, in words of the content. -/
theorem suggested_iff (word : Str) (out : List Str) (o : Result (List Str)) :
    (∃ fuel depth, S.suggest fuel depth word out = o.run) ↔ Suggested (S.knowledge lines) word o := by
  unfold Suggested suggest
  have e : (utf8 word).length = byteLen word := rfl
  have hm : maxWordLen = 360 := rfl
  rw [e]
  simp only [List.take_zero, hm]
  split
  · constructor
    · rintro ⟨_, _, h⟩
      cases o with
      | panics => cases h
      | gives a => cases h; rfl
    · rintro rfl
      exact ⟨0, 0, rfl⟩
  · constructor
    · rintro ⟨f, d, h⟩
      exact ⟨d, ((does_impl hS d word).iff o).1 ⟨f, h⟩⟩
    · rintro ⟨d, h⟩
      obtain ⟨f, h⟩ := ((does_impl hS d word).iff o).2 h
      exact ⟨f, d, h⟩

end Suggester
end Spellbook
