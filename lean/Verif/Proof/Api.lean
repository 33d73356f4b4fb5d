import Verif.Model.Api
import Verif.Props.Happens
import Verif.Proof.Select
import Verif.Proof.Dedup
import Verif.Proof.SuggestSame
/-! # Lemmas about the settings of checkers and suggesters -/

namespace Spellbook
open Spec Props

namespace Checker

/-- The flags found are those of an entry. -/
theorem found_entry {C : Checker} (hC : C.dict.CondsParsed) {fuel : Nat} {text : Str} {fc : Forceucase}
    {hh : HiddenHomonym} {F : FlagSet} (h : C.checkWord fuel text fc hh = .ok (some F)) :
    ∃ stem, (stem, F) ∈ C.dict.words.slots := by
  unfold checkWord at h
  cases hs : C.checkSimpleWord text hh with
  | some G =>
    rw [hs] at h
    simp only [Except.ok.injEq, Option.some.injEq] at h
    subst h
    obtain ⟨stem, steps, h1, -⟩ := C05_no_invented_words C hC text hh G hs
    exact ⟨stem, h1⟩
  | none =>
    rw [hs] at h
    simp only at h
    obtain ⟨r, hr, hr'⟩ := except_map_ok.1 h
    cases r with
    | none => cases hr'
    | some r =>
      simp only [Option.map_some, Option.some.injEq] at hr'
      rcases C27_compound_sound hC hr with ⟨p, ps, h1, h2⟩ | ⟨parts, h1, p, hp, h2⟩
      · obtain ⟨m', hm'⟩ := Compound.entries h1 p (by simp)
        exact ⟨_, by rw [← hr', h2]; exact (C27_part_is_word hm').1⟩
      · exact ⟨p.1, by rw [← hr', h2]; exact h1.listed p hp⟩

/-- What a lookup, in whatever letter case, may answer: an entry. -/
abbrev OfEntry (C : Checker) (x : Run (Option FlagSet)) : Prop :=
  ∀ F, x = .ok (some F) → ∃ stem, (stem, F) ∈ C.dict.words.slots

theorem OfEntry.or {C : Checker} {x y : Run (Option FlagSet)} (h : OfEntry C x) (h' : OfEntry C y) :
    OfEntry C (x.or y) := fun F e => by
  rcases Run.or_eq_some.1 e with e | ⟨-, e⟩
  · exact h F e
  · exact h' F e

theorem OfEntry.none {C : Checker} : OfEntry C (.ok Option.none) := fun _ e => by cases e

theorem OfEntry.bind {C : Checker} {α : Type} {x : Run α} {f : α → Run (Option FlagSet)} (h : ∀ a, OfEntry C (f a)) :
    OfEntry C (x >>= f) := fun F e => by
  obtain ⟨a, -, e⟩ := Run.bind_eq_ok.1 e
  exact h a F e

theorem OfEntry.filter {C : Checker} {x : Run (Option FlagSet)} {p : FlagSet → Bool} (h : OfEntry C x) :
    OfEntry C (x.map fun r => r.filter p) := fun F e => by
  obtain ⟨a, e1, e2⟩ := except_map_ok.1 e
  cases a with
  | none => cases e2
  | some G =>
    rw [Option.filter_some] at e2
    split at e2
    · cases e2; exact h _ e1
    · cases e2

theorem OfEntry.ite {C : Checker} {p : Prop} [Decidable p] {x y : Run (Option FlagSet)} (h : OfEntry C x)
    (h' : OfEntry C y) : OfEntry C (if p then x else y) := by split <;> assumption

theorem OfEntry.sharps {C : Checker} (hC : C.dict.CondsParsed) (fuel : Nat) (k : Nat) : ∀ (before rest : Str)
    (depth r : Nat), 5 - depth = k → OfEntry C (C.doSpellSharps fuel before rest depth r) := by
  induction k using Nat.strongRecOn with
  | _ k ih =>
    intro before rest depth r hk
    unfold doSpellSharps
    split
    · split
      · exact .or (ih _ (by omega) _ _ _ _ rfl) (ih _ (by omega) _ _ _ _ rfl)
      · exact .ite (fun F e => found_entry hC e) .none
    · exact .ite (fun F e => found_entry hC e) .none

theorem OfEntry.upper {C : Checker} (hC : C.dict.CondsParsed) (fuel : Nat) (w : Str) :
    OfEntry C (C.spellCasingUpper fuel w) := by
  have hw : ∀ w fc hh, OfEntry C (C.checkWord fuel w fc hh) := fun _ _ _ F e => found_entry hC e
  unfold spellCasingUpper
  refine .or (hw _ _ _) (.or ?_ (.or ?_ (.or ?_ ?_)))
  · unfold spellApostrophe
    split
    · exact .none
    · exact .ite .none (.bind fun _ => .or (hw _ _ _) (.bind fun _ => hw _ _ _))
  · unfold spellUpperSharps
    exact .ite (.or (.sharps hC _ _ _ _ _ _ rfl) (.bind fun _ => .sharps hC _ _ _ _ _ _ rfl)) .none
  · exact .bind fun _ => .filter (hw _ _ _)
  · exact .filter (hw _ _ _)

theorem OfEntry.title {C : Checker} (hC : C.dict.CondsParsed) (fuel : Nat) (w : Str) :
    OfEntry C (C.spellCasingTitle fuel w) :=
  .or (fun F e => found_entry hC e) (.filter fun F e => found_entry hC e)

theorem OfEntry.casing {C : Checker} (hC : C.dict.CondsParsed) (fuel : Nat) (w : Str) :
    OfEntry C (C.spellCasing fuel w) := by
  have asIs : ∀ b, OfEntry C (C.spellCasingAsIs fuel w b) := fun b =>
    .or (fun F e => found_entry hC e) (.or (.ite (.bind fun _ => .title hC _ _) .none) (.ite (.upper hC _ _) .none))
  unfold spellCasing
  split
  · exact asIs _
  · exact asIs _
  · exact asIs _
  · exact .upper hC _ _
  · exact .title hC _ _

/-! ## More letter cases -/

/-- The second answers yes, or does not answer, if the first answers yes. -/
def Wider (x y : Run Bool) : Prop := x = .ok true → y = .ok true ∨ ∃ e, y = .error e

theorem Wider.any {α : Type} {f g : α → Run Bool} (h : ∀ a, Wider (f a) (g a)) : ∀ l : List α,
    Wider (anyRun f l) (anyRun g l)
  | [] => fun e => by cases e
  | a :: as => fun e => by
    rw [anyRun] at e ⊢
    cases hg : g a with
    | error e' => exact .inr ⟨e', rfl⟩
    | ok b =>
      cases b with
      | true => exact .inl rfl
      | false =>
        obtain ⟨b, hb, e⟩ := Run.bind_eq_ok.1 e
        cases b with
        | true =>
          rcases h a hb with h | ⟨_, h⟩ <;> rw [hg] at h <;> cases h
        | false => exact Wider.any h as e

theorem Wider.or {x y x' y' : Run Bool} (h : Wider x x') (h' : Wider y y') :
    Wider (x >>= fun b => if b then pure true else y) (x' >>= fun b => if b then pure true else y') := fun e => by
  cases hx : x' with
  | error e' => exact .inr ⟨e', rfl⟩
  | ok b =>
    cases b with
    | true => exact .inl rfl
    | false =>
      obtain ⟨b, hb, e⟩ := Run.bind_eq_ok.1 e
      cases b with
      | true => rcases h hb with h | ⟨_, h⟩ <;> rw [hx] at h <;> cases h
      | false => exact h' e

theorem Wider.loops {C C' : Checker} (hd : C.dict = C'.dict) {f g : Str → Run Bool} (h : ∀ w, Wider (f w) (g w))
    (w : Str) : Wider (C.breakLoops f w) (C'.breakLoops g w) := by
  rw [breakLoops_eq, breakLoops_eq]
  unfold Checker.aff
  rw [hd]
  refine .or (.any (fun p => ?_) _) (.or (.any (fun p => ?_) _) (.any (fun p => ?_) _))
  · unfold startTry
    split
    · exact h _
    · exact fun e => .inl e
  · unfold endTry
    split
    · exact h _
    · exact fun e => .inl e
  · unfold middleTry
    split
    · rename_i a b _
      by_cases hb : b.isEmpty = true
      · rw [if_pos hb, if_pos hb]; exact fun e => .inl e
      · rw [if_neg hb, if_neg hb]
        intro e
        obtain ⟨x, hx, e⟩ := Run.bind_eq_ok.1 e
        cases x with
        | false => cases e
        | true =>
          rcases h a hx with h1 | ⟨e', h1⟩
          · rw [h1]; exact h b e
          · rw [h1]; exact .inr ⟨e', rfl⟩
    · exact fun e => .inl e

/-- `C'` tries at least the letter cases which `C` tries. -/
structure TriesMore (C C' : Checker) : Prop where
  U : C.U = C'.U
  L : C.L = C'.L
  dict : C.dict = C'.dict
  title : C.checkLowerAsTitle = true → C'.checkLowerAsTitle = true
  upper : C.checkLowerAsUpper = true → C'.checkLowerAsUpper = true

theorem TriesMore.same {C C' : Checker} (h : TriesMore C C') : SameTables C C' where
  U := h.U
  aff := by rw [h.dict]
  entries := by funext k; unfold Checker.entries; rw [h.L, h.dict]

theorem TriesMore.asIs {C C' : Checker} (h : TriesMore C C') {fuel : Nat} {w : Str} {b : Bool} {F : FlagSet}
    (e : C.spellCasingAsIs fuel w b = .ok (some F)) : C'.spellCasingAsIs fuel w b ≠ .ok none := by
  have hs := h.same.forms
  unfold spellCasingAsIs at e ⊢
  rw [← hs.checkWord, ← hs.titlecase, ← hs.spellCasingTitle, ← hs.spellCasingUpper, ← hs.opts, ← hs.U]
  rw [Ne, Run.or_eq_none, Run.or_eq_none]
  rintro ⟨n1, n2, n3⟩
  rw [n1, Run.none_or] at e
  rcases Run.or_eq_some.1 e with e | ⟨-, e⟩
  · by_cases ht : (C.checkLowerAsTitle && !b) = true
    · have ht' : (C'.checkLowerAsTitle && !b) = true := by
        simp only [Bool.and_eq_true] at ht ⊢; exact ⟨h.title ht.1, ht.2⟩
      simp only [ht, ht', if_true] at e n2
      rw [n2] at e; cases e
    · simp only [ht] at e; cases e
  · by_cases hu : C.checkLowerAsUpper = true
    · simp only [hu, h.upper hu, if_true] at e n3
      rw [n3] at e; cases e
    · simp only [hu] at e; cases e

theorem TriesMore.casing {C C' : Checker} (h : TriesMore C C') {fuel : Nat} {w : Str} {F : FlagSet}
    (e : C.spellCasing fuel w = .ok (some F)) : C'.spellCasing fuel w ≠ .ok none := by
  have hs := h.same.forms
  unfold spellCasing at e ⊢
  rw [← hs.U]
  generalize classifyCasing C.U w = c at e ⊢
  cases c
  case none | camel | pascal => exact h.asIs e
  case all => change C'.spellCasingUpper fuel w ≠ _; rw [← hs.spellCasingUpper]; exact fun e' => by cases e.symm.trans e'
  case init => change C'.spellCasingTitle fuel w ≠ _; rw [← hs.spellCasingTitle]; exact fun e' => by cases e.symm.trans e'

/-- Without entries which forbid a word, more letter cases accept more words. -/
theorem TriesMore.break {C C' : Checker} (h : TriesMore C C') (hC : C.dict.CondsParsed)
    (hg : ∀ e ∈ C.dict.words.slots, Good C.dict e.2) {fuel : Nat} : ∀ (d : Nat) (w : Str),
    Wider (C.doSpellBreak fuel d w) (C'.doSpellBreak fuel d w) := by
  have good : ∀ w F, C'.spellCasing fuel w = .ok (some F) → C'.goodFlags F = true := by
    intro w F e
    obtain ⟨stem, hm⟩ := OfEntry.casing (C := C') (h.dict ▸ hC) fuel w F e
    rw [goodFlags_iff, ← h.dict]
    rw [← h.dict] at hm
    exact hg _ hm
  intro d
  induction d with
  | zero =>
    intro w e
    cases hs : C'.spellCasing fuel w with
    | error e' => exact .inr ⟨e', by rw [doSpellBreak, hs]; rfl⟩
    | ok o =>
      cases o with
      | some F => exact .inl (by rw [doSpellBreak_some hs, good _ _ hs])
      | none =>
        rw [doSpellBreak] at e
        obtain ⟨o, ho, e⟩ := Run.bind_eq_ok.1 e
        cases o with
        | some F => exact absurd hs (h.casing ho)
        | none => cases e
  | succ d ih =>
    intro w e
    cases hs : C'.spellCasing fuel w with
    | error e' => exact .inr ⟨e', by rw [doSpellBreak, hs]; rfl⟩
    | ok o =>
      cases o with
      | some F => exact .inl (by rw [doSpellBreak_some hs, good _ _ hs])
      | none =>
        rw [doSpellBreak] at e
        obtain ⟨o, ho, e⟩ := Run.bind_eq_ok.1 e
        cases o with
        | some F => exact absurd hs (h.casing ho)
        | none =>
          rw [doSpellBreak_succ_none hs]
          exact Wider.loops h.dict ih w e

theorem TriesMore.check {C C' : Checker} (h : TriesMore C C') (hC : C.dict.CondsParsed)
    (hg : ∀ e ∈ C.dict.words.slots, Good C.dict e.2) (fuel : Nat) (w : Str) :
    Wider (C.check fuel w) (C'.check fuel w) := by
  unfold Checker.check
  split
  · exact fun e => .inl e
  · unfold checkConverted Checker.aff
    rw [← h.dict]
    generalize C.dict.aff.inputConversions.convert w = w
    split
    · exact fun e => .inl e
    · dsimp only
      split
      · exact fun e => .inl e
      · refine .or (h.break hC hg 9 _) ?_
        split
        · exact h.break hC hg 9 _
        · exact fun e => .inl e

theorem lowerAs_triesMore (C : Checker) {t u t' u' : Bool} (ht : t = true → t' = true) (hu : u = true → u' = true) :
    TriesMore ((C.lowerAsTitle t).lowerAsUpper u) ((C.lowerAsTitle t').lowerAsUpper u') :=
  ⟨rfl, rfl, rfl, ht, hu⟩

end Checker

/-! ## Suggestions by similarity -/

namespace Suggester
variable {S : Suggester}

theorem mapM_prefix {f : Str → Run Str} : ∀ {a b : List Str} {r : List Str}, (a ++ b).mapM f = .ok r →
    ∃ s, a.mapM f = .ok s ∧ s <+: r
  | [], b, r, _ => ⟨[], rfl, List.nil_prefix⟩
  | x :: a, b, r, h => by
    rw [List.cons_append, List.mapM_cons] at h
    obtain ⟨y, hy, h⟩ := Run.bind_eq_ok.1 h
    obtain ⟨ys, hys, h⟩ := Run.bind_eq_ok.1 h
    obtain ⟨s, hs, hp⟩ := mapM_prefix hys
    cases h
    exact ⟨y :: s, by rw [List.mapM_cons, hy, hs]; rfl, by simpa using hp⟩

theorem recheckAll_prefix {fuel : Nat} : ∀ {a b : List Str} {r : List Str}, S.recheckAll fuel (a ++ b) = .ok r →
    ∃ s, S.recheckAll fuel a = .ok s ∧ s <+: r
  | [], b, r, _ => ⟨[], rfl, List.nil_prefix⟩
  | x :: a, b, r, h => by
    rw [List.cons_append, recheckAll] at h
    obtain ⟨y, hy, h⟩ := Run.bind_eq_ok.1 h
    obtain ⟨ys, hys, h⟩ := Run.bind_eq_ok.1 h
    obtain ⟨s, hs, hp⟩ := recheckAll_prefix hys
    cases h
    exact ⟨y.toList ++ s, by rw [recheckAll, hy, hs]; rfl, (List.prefix_append_right_inj _).2 hp⟩

theorem firsts_append {α : Type} [DecidableEq α] : ∀ (a b seen : List α), firsts seen a <+: firsts seen (a ++ b)
  | [], b, seen => List.nil_prefix
  | x :: a, b, seen => by
    rw [List.cons_append, firsts, firsts]
    split
    · exact firsts_append a b seen
    · simpa using firsts_append a b _

theorem finish_prefix {fuel : Nat} {casing : Casing} {a b r : List Str} (h : S.finish fuel casing (a ++ b) = .ok r) :
    ∃ s, S.finish fuel casing a = .ok s ∧ s <+: r := by
  unfold finish at h ⊢
  obtain ⟨c, hc, h⟩ := Run.bind_eq_ok.1 h
  have h1 : ∃ c', S.capitalise casing a = .ok c' ∧ c' <+: c := by
    unfold capitalise at hc ⊢
    split at hc
    · rename_i hi; rw [if_pos hi]; exact mapM_prefix hc
    · rename_i hi; rw [if_neg hi]; cases hc; exact ⟨a, rfl, List.prefix_append _ _⟩
  obtain ⟨c', hc', p, rfl⟩ := h1
  obtain ⟨d, hd, h⟩ := Run.bind_eq_ok.1 h
  have h2 : ∃ d', S.retained fuel casing c' = .ok d' ∧ d' <+: d := by
    unfold retained at hd ⊢
    split at hd
    · rename_i hi; rw [if_pos hi]; exact recheckAll_prefix hd
    · rename_i hi; rw [if_neg hi]; cases hd; exact ⟨c', rfl, List.prefix_append _ _⟩
  obtain ⟨d', hd', q, rfl⟩ := h2
  rw [hc']
  dsimp only [bind, Except.bind]
  rw [hd']
  dsimp only [bind, Except.bind]
  rw [deduplicate?_eq] at h ⊢
  cases h
  exact ⟨_, rfl, (firsts_append _ _ _).map _⟩

/-- Switched off. -/
theorem same_withNgram (S : Suggester) (b : Bool) : S.Alike (S.withNgram b) :=
  alike_of_same (S' := S.withNgram b) ⟨⟨rfl, rfl, rfl⟩, rfl, rfl⟩

theorem afterCasing_prefix {fuel : Nat} {rec' rec'' : Str → List Str → Run (List Str)} {casing : Casing} {word : Str}
    (hw : '-' ∉ word) {x : Bool × List Str} {r : List Str} (h : S.afterCasing fuel rec' casing word x = .ok r) :
    ∃ s, (S.withNgram false).afterCasing fuel rec'' casing word x = .ok s ∧ s <+: r := by
  unfold afterCasing at h ⊢
  have hd : ∀ (S : Suggester) rec' out, S.dashes fuel rec' word out = .ok out := by
    intro S rec' out
    unfold dashes
    rw [if_neg]
    simp [hw]
  have hn : (S.withNgram false).ngramPart casing word x.1 x.2 = .ok x.2 := rfl
  rw [hn]
  dsimp only [bind, Except.bind]
  rw [hd, ← same_finish (same_withNgram S false)]
  obtain ⟨o, ho, h⟩ := Run.bind_eq_ok.1 h
  rw [hd] at h
  dsimp only [bind, Except.bind] at h ⊢
  have : ∃ more, o = x.2 ++ more := by
    unfold ngramPart at ho
    split at ho
    · obtain ⟨o', ho', ho⟩ := Run.bind_eq_ok.1 ho
      obtain ⟨new, rfl, -⟩ := Checker.ngramSuggest_new ho'
      cases ho
      split
      · rw [List.take_left]; exact ⟨_, rfl⟩
      · exact ⟨_, rfl⟩
    · cases ho; exact ⟨[], by simp⟩
  obtain ⟨more, rfl⟩ := this
  exact finish_prefix h

theorem suggestImpl_prefix {fuel depth : Nat} {word : Str} {out r : List Str}
    (hw : '-' ∉ S.C.dict.aff.inputConversions.convert word) (h : S.suggestImpl fuel depth word out = .ok r) :
    ∃ s, (S.withNgram false).suggestImpl fuel depth word out = .ok s ∧ s <+: r := by
  have hs := same_withNgram S false
  cases depth with
  | zero => cases h
  | succ depth =>
    rw [suggestImpl] at h ⊢
    split
    · rename_i e; rw [if_pos e] at h; cases h; exact ⟨_, rfl, List.prefix_refl _⟩
    rename_i e
    rw [if_neg e] at h
    change ∃ s, (S.withNgram false).suggestConverted fuel _ (S.C.dict.aff.inputConversions.convert word) out = _ ∧ _
    change S.suggestConverted fuel _ (S.C.dict.aff.inputConversions.convert word) out = _ at h
    generalize S.C.dict.aff.inputConversions.convert word = w at h hw
    unfold suggestConverted at h ⊢
    rw [← hs.U, ← same_forceTitle hs, ← same_suggestLow hs, ← same_initCase hs, ← same_mixedCase hs, ← same_allCaps hs,
      ← hs.titlecase]
    generalize classifyCasing S.C.U w = c at h ⊢
    cases c
    · obtain ⟨b, hb, h⟩ := Run.bind_eq_ok.1 h
      simp only [hb, bind, Except.bind]
      cases b with
      | true => exact ⟨r, h, List.prefix_refl _⟩
      | false =>
        obtain ⟨x, hx, h⟩ := Run.bind_eq_ok.1 h
        simp only [hx, bind, Except.bind]
        exact afterCasing_prefix hw h
    all_goals
      obtain ⟨x, hx, h⟩ := Run.bind_eq_ok.1 h
      simp only [hx, bind, Except.bind]
      exact afterCasing_prefix hw h

theorem suggest_prefix {fuel depth : Nat} {word : Str} {out r : List Str}
    (hw : '-' ∉ S.C.dict.aff.inputConversions.convert word) (h : S.suggest fuel depth word out = .ok r) :
    ∃ s, (S.withNgram false).suggest fuel depth word out = .ok s ∧ s <+: r := by
  unfold suggest at h ⊢
  dsimp only at h ⊢
  split
  · rename_i e; rw [if_pos e] at h; cases h; exact ⟨_, rfl, List.prefix_refl _⟩
  · rename_i e; rw [if_neg e] at h; exact suggestImpl_prefix hw h

end Suggester
end Spellbook
