import Verif.Spec.Growth
import Verif.Proof.Whole
import Verif.Props.Simple
/-!
# Larger word lists
-/

namespace Spellbook.Spec
open Checker

variable {C C' : Checker}

/-- Usable entries stay usable. -/
theorem MoreWords.usable (h : MoreWords C C') {sk : Bool} {stem : Str} {F : FlagSet} (hu : Usable C.dict sk stem F) :
    Usable C'.dict sk stem F :=
  ⟨h.old _ hu.listed, by rw [h.settings]; exact hu.not_only_in_compound, hu.not_hidden⟩

theorem step_congr {words words' : Bag FlagSet} {aff : AffData} {k : Kind} {a : Affix} {s t : Str}
    (h : Step ⟨words, aff⟩ k a s t) : Step ⟨words', aff⟩ k a s t := ⟨h.1, h.2, h.3⟩

/-- A derivation depends on the settings and on its own entry only. -/
theorem derives_congr {D D' : Dict} (ha : D'.aff = D.aff) {sk : Bool} {w stem : Str} {F : FlagSet}
    {steps : List (Kind × Affix)} (h : Derives .code D sk w stem F steps) (hu : Usable D' sk stem F) :
    Derives .code D' sk w stem F steps := by
  obtain ⟨words, aff⟩ := D
  obtain ⟨words', aff'⟩ := D'
  cases ha
  cases h with
  | listed _ h1 h2 => exact .listed hu h1 h2
  | one _ h1 h2 h3 h4 h5 => exact .one hu (step_congr h1) h2 h3 h4 h5
  | pair _ h1 h2 h3 h4 h5 h6 => exact .pair hu (step_congr h1) (step_congr h2) h3 h4 h5 h6
  | two _ h1 h2 h3 h4 h5 h6 => exact .two hu (step_congr h1) (step_congr h2) h3 h4 h5 h6
  | twoThenOne _ h1 h2 h3 h4 h5 h6 h7 h8 h9 => exact .twoThenOne hu (step_congr h1) (step_congr h2) (step_congr h3) h4 h5 h6 h7 h8 h9
  | sandwich _ h1 h2 h3 h4 h5 h6 h7 h8 h9 h10 => exact .sandwich hu (step_congr h1) h2 h3 h4 (step_congr h5) h6 h7 h8 h9 h10

/-- What the old list derives, the new one does. -/
theorem MoreWords.derives (h : MoreWords C C') {sk : Bool} {w stem : Str} {F : FlagSet} {steps : List (Kind × Affix)}
    (hd : Derives .code C.dict sk w stem F steps) : Derives .code C'.dict sk w stem F steps :=
  derives_congr h.settings hd (h.usable (Props.Derives.usable hd))

/-- What the new list derives, the old one does, or it is not marked. -/
theorem MoreWords.back (h : MoreWords C C') {sk : Bool} {w stem : Str} {F : FlagSet} {steps : List (Kind × Affix)}
    (hd : Derives .code C'.dict sk w stem F steps) :
    Derives .code C.dict sk w stem F steps ∨ ¬ Marked C.dict F := by
  have hu := Props.Derives.usable hd
  rcases h.new _ hu.1 with h1 | h1
  · left
    exact derives_congr h.settings.symm hd ⟨h1, by rw [← h.settings]; exact hu.not_only_in_compound, hu.not_hidden⟩
  · exact .inr h1

/-- Without compounds the choice among derivations decides. -/
theorem decides_simple {U : Unicode} {D : Dict} {c : Choice} (hn : D.aff.options.allowsCompounding = false)
    (hr : D.aff.compoundRules.rules = []) (fc : Forceucase) (hh : HiddenHomonym) (w : Str) (o : Option FlagSet) :
    Decides U D c fc hh w o ↔ c.simple hh w = o := by
  have hno : ∀ parts, ¬ RuleCompound D fc w parts := by
    intro parts hp
    obtain ⟨rule, h, -⟩ := hp.rule
    rw [hr] at h
    simp at h
  cases o with
  | none =>
    refine ⟨?_, fun h => .inr ⟨h, fun h => absurd h (by simp [hn]), fun ⟨parts, h, _⟩ => hno parts h⟩⟩
    rintro (⟨-, h⟩ | ⟨h, -⟩)
    · exact absurd rfl h
    · exact h
  | some F =>
    refine ⟨?_, fun h => .inl ⟨h, by simp⟩⟩
    rintro (⟨h, -⟩ | ⟨-, ⟨h, -⟩ | ⟨-, l, p, q, h, -⟩⟩)
    · exact h
    · rw [hn] at h; cases h
    · exact absurd h (hno _)

/-- `C'` differs from `C` in its entries and affixes only; what `C` derives it derives, and what only `C'` derives is
not marked. -/
structure Grows (C C' : Checker) : Prop where
  unicode : C'.U = C.U
  settings : ∃ p s, C'.dict.aff = { C.dict.aff with prefixes := p, suffixes := s }
  title : C'.checkLowerAsTitle = C.checkLowerAsTitle
  upper : C'.checkLowerAsUpper = C.checkLowerAsUpper
  derives : ∀ {sk w stem F steps}, Derives .code C.dict sk w stem F steps → Derives .code C'.dict sk w stem F steps
  back : ∀ {sk w stem F steps}, Derives .code C'.dict sk w stem F steps →
    Derives .code C.dict sk w stem F steps ∨ ¬ Marked C.dict F

theorem MoreWords.grows (h : MoreWords C C') : Grows C C' :=
  ⟨h.unicode, ⟨_, _, h.settings⟩, h.title, h.upper, h.derives, h.back⟩

theorem Grows.options (h : Grows C C') : C'.dict.aff.options = C.dict.aff.options := by
  obtain ⟨p, s, e⟩ := h.settings
  rw [e]

theorem Grows.rules (h : Grows C C') : C'.dict.aff.compoundRules = C.dict.aff.compoundRules := by
  obtain ⟨p, s, e⟩ := h.settings
  rw [e]

/-- What the old list finds, the new one finds, with the same marks or with none. -/
theorem Grows.simple (h : Grows C C') (hm : SameMarks C.dict) {c c' : Choice} (hc : c.Fits C.dict)
    (hc' : c'.Fits C'.dict) {hh : HiddenHomonym} {w : Str} {F : FlagSet} (hs : c.simple hh w = some F) :
    ∃ F', c'.simple hh w = some F' ∧
      (((Good C.dict F ↔ Good C.dict F') ∧ (KeepsCase C.dict F ↔ KeepsCase C.dict F')) ∨ ¬ Marked C.dict F') := by
  obtain ⟨stem, steps, hd⟩ := hc.simple_some _ _ _ hs
  cases hs' : c'.simple hh w with
  | none => exact absurd ⟨_, _, _, h.derives hd⟩ (hc'.simple_none _ _ hs')
  | some F' =>
    refine ⟨F', rfl, ?_⟩
    obtain ⟨stem', steps', hd'⟩ := hc'.simple_some _ _ _ hs'
    rcases h.back hd' with h1 | h1
    · exact .inl (hm _ _ _ _ _ _ _ _ hd h1)
    · exact .inr h1

/-- What only the new list finds is not marked. -/
theorem Grows.fresh (h : Grows C C') {c c' : Choice} (hc : c.Fits C.dict) (hc' : c'.Fits C'.dict)
    {hh : HiddenHomonym} {w : Str} {F' : FlagSet} (hs : c.simple hh w = none) (hs' : c'.simple hh w = some F') :
    ¬ Marked C.dict F' := by
  obtain ⟨stem', steps', hd'⟩ := hc'.simple_some _ _ _ hs'
  rcases h.back hd' with h1 | h1
  · exact absurd ⟨_, _, _, h1⟩ (hc.simple_none _ _ hs)
  · exact h1

theorem Grows.good (h : Grows C C') (F : FlagSet) : Good C'.dict F ↔ Good C.dict F := by
  unfold Good; rw [h.options]

theorem Grows.keeps (h : Grows C C') (F : FlagSet) : KeepsCase C'.dict F ↔ KeepsCase C.dict F := by
  unfold KeepsCase; rw [h.options]

theorem Grows.attempts (h : Grows C C') (w : Str) (casing : Casing) :
    Spec.attempts C' w casing = Spec.attempts C w casing := by
  have h1 : C'.opts = C.opts := by exact h.options
  have e1 : titleOf C' = titleOf C := by funext w; cases w <;> simp [titleOf, h1, h.unicode]
  have e2 : lowerOf C' = lowerOf C := by funext w; simp [lowerOf, h1, h.unicode]
  have e3 : upperOf C' = upperOf C := by funext w; simp [upperOf, h1, h.unicode]
  have e4 : articleForms C' = articleForms C := by funext w; simp [articleForms, e1, e2]
  have e5 : capsAttempts C' = capsAttempts C := by funext w; simp [capsAttempts, e1, e2, e4, h.options]
  have e6 : titleAttempts C' = titleAttempts C := by funext w; simp [titleAttempts, e2, h.options]
  cases casing <;> simp [Spec.attempts, plainAttempts, e1, e3, e5, e6, h.title, h.upper]

section
variable (h : Grows C C') (hm : SameMarks C.dict) {c c' : Choice} (hc : c.Fits C.dict) (hc' : c'.Fits C'.dict)
  (hn : C.dict.aff.options.allowsCompounding = false) (hr : C.dict.aff.compoundRules.rules = [])
include h hm hc hc' hn hr

/-- A failing attempt fails again, or finds something good. -/
theorem Grows.fails {a : Attempt} (ha : a.Fails C c) :
    a.Fails C' c' ∨ ∃ F, a.Succeeds C' c' F ∧ Good C'.dict F := by
  have hn' : C'.dict.aff.options.allowsCompounding = false := by rw [h.options]; exact hn
  have hr' : C'.dict.aff.compoundRules.rules = [] := by rw [h.rules]; exact hr
  unfold Attempt.Fails Attempt.Succeeds at *
  simp only [decides_simple hn hr, decides_simple hn' hr', h.good, h.keeps] at *
  rcases ha with ha | ⟨F, ha, hk, hF⟩
  · cases hs' : c'.simple a.hidden a.text with
    | none => exact .inl (.inl rfl)
    | some F' =>
      have := h.fresh hc hc' ha hs'
      unfold Marked at this
      push Not at this
      exact .inr ⟨F', ⟨rfl, .inr this.2⟩, this.1⟩
  · obtain ⟨F', hs', hF'⟩ := h.simple hm hc hc' ha
    rcases hF' with hF' | hF'
    · exact .inl (.inr ⟨F', hs', hk, hF'.2.1 hF⟩)
    · unfold Marked at hF'
      push Not at hF'
      exact .inr ⟨F', ⟨hs', .inr hF'.2⟩, hF'.1⟩

/-- An attempt with a good result has a good result again. -/
theorem Grows.succeeds {a : Attempt} {F : FlagSet} (ha : a.Succeeds C c F) (hF : Good C.dict F) :
    ∃ F', a.Succeeds C' c' F' ∧ Good C'.dict F' := by
  have hn' : C'.dict.aff.options.allowsCompounding = false := by rw [h.options]; exact hn
  have hr' : C'.dict.aff.compoundRules.rules = [] := by rw [h.rules]; exact hr
  unfold Attempt.Succeeds at *
  simp only [decides_simple hn hr, decides_simple hn' hr', h.good, h.keeps] at *
  obtain ⟨hs, hk⟩ := ha
  obtain ⟨F', hs', hF'⟩ := h.simple hm hc hc' hs
  rcases hF' with hF' | hF'
  · exact ⟨F', ⟨hs', hk.imp id fun hk h => hk (hF'.2.2 h)⟩, hF'.1.1 hF⟩
  · unfold Marked at hF'
    push Not at hF'
    exact ⟨F', ⟨hs', .inr hF'.2⟩, hF'.1⟩

/-- Of attempts of which one has a good result, and those before fail, the first with a result has a good one. -/
theorem Grows.first {before after : List Attempt} {a : Attempt} {F : FlagSet} (hb : ∀ x ∈ before, x.Fails C c)
    (ha : a.Succeeds C c F) (hF : Good C.dict F) :
    ∃ before' a' after' F', before ++ a :: after = before' ++ a' :: after' ∧ (∀ x ∈ before', x.Fails C' c') ∧
      a'.Succeeds C' c' F' ∧ Good C'.dict F' := by
  induction before with
  | nil =>
    obtain ⟨F', h1, h2⟩ := h.succeeds hm hc hc' hn hr ha hF
    exact ⟨[], a, after, F', rfl, by simp, h1, h2⟩
  | cons x before ih =>
    rcases h.fails hm hc hc' hn hr (hb x (by simp)) with h1 | ⟨F', h1, h2⟩
    · obtain ⟨b', a', af', F', e, h2, h3, h4⟩ := ih fun y hy => hb y (by simp [hy])
      refine ⟨x :: b', a', af', F', by rw [List.cons_append, e]; rfl, ?_, h3, h4⟩
      intro y hy
      rcases List.mem_cons.1 hy with rfl | hy
      · exact h1
      · exact h2 y hy
    · exact ⟨[], x, before ++ a :: after, F', rfl, by simp, h1, h2⟩

theorem Grows.noneVerdict {w : Str} (hv : WordVerdict C c w none) :
    WordVerdict C' c' w none ∨ WordVerdict C' c' w (some true) := by
  obtain ⟨casing, hcas, hf⟩ := hv
  have hcas' : HasCasing C'.U w casing := by rw [h.unicode]; exact hcas
  have key : ∀ l : List Attempt, (∀ a ∈ l, a.Fails C c) → (∀ a ∈ l, a.Fails C' c') ∨
      ∃ before a after F, l = before ++ a :: after ∧ (∀ x ∈ before, x.Fails C' c') ∧ a.Succeeds C' c' F ∧
        Good C'.dict F := by
    intro l hl
    induction l with
    | nil => exact .inl (by simp)
    | cons x l ih =>
      rcases h.fails hm hc hc' hn hr (hl x (by simp)) with h1 | ⟨F', h1, h2⟩
      · rcases ih fun y hy => hl y (by simp [hy]) with h2 | ⟨b, a, af, F, e, h2, h3, h4⟩
        · exact .inl fun y hy => by
            rcases List.mem_cons.1 hy with rfl | hy
            · exact h1
            · exact h2 y hy
        · refine .inr ⟨x :: b, a, af, F, by rw [e]; rfl, ?_, h3, h4⟩
          intro y hy
          rcases List.mem_cons.1 hy with rfl | hy
          · exact h1
          · exact h2 y hy
      · exact .inr ⟨[], x, l, F', rfl, by simp, h1, h2⟩
  rcases key _ hf with h1 | ⟨b, a, af, F, e, h1, h2, h3⟩
  · exact .inl ⟨casing, hcas', by rw [h.attempts]; exact h1⟩
  · exact .inr ⟨casing, b, a, af, F, hcas', by rw [h.attempts]; exact e, h1, h2, by simp [h3]⟩

theorem Grows.trueVerdict {w : Str} (hv : WordVerdict C c w (some true)) : WordVerdict C' c' w (some true) := by
  obtain ⟨casing, b, a, af, F, hcas, e, hf, ha, hF⟩ := hv
  obtain ⟨b', a', af', F', e', h1, h2, h3⟩ := h.first hm hc hc' hn hr hf ha (hF.1 rfl) (after := af)
  exact ⟨casing, b', a', af', F', by rw [h.unicode]; exact hcas, by rw [h.attempts, e]; exact e', h1, h2, by simp [h3]⟩

theorem Grows.breaks {lines : List Str} {n : Nat} {w : Str} (hb : Breaks lines (WordVerdict C c) n w) :
    Breaks lines (WordVerdict C' c') n w := by
  induction hb with
  | direct hv => exact .direct (h.trueVerdict hm hc hc' hn hr hv)
  | start hv hl hp e _ ih =>
    rcases h.noneVerdict hm hc hc' hn hr hv with hv | hv
    · exact .start hv hl hp e ih
    · exact .direct hv
  | stop hv hl hp e _ ih =>
    rcases h.noneVerdict hm hc hc' hn hr hv with hv | hv
    · exact .stop hv hl hp e ih
    · exact .direct hv
  | middle hv hl hp e hne _ _ ih1 ih2 =>
    rcases h.noneVerdict hm hc hc' hn hr hv with hv | hv
    · exact .middle hv hl hp e hne ih1 ih2
    · exact .direct hv

end

end Spellbook.Spec
