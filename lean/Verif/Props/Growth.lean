import Verif.Proof.Growth
import Verif.Props.Whole
import Verif.Props.SuggestCase
/-!
# C84 More words
-/

namespace Spellbook.Props
open Spec Run Checker

variable {C C' : Checker}

/-- The words a checker accepts are accepted by a larger one. -/
theorem accepts_grows {U U' : Unicode} (hD : Reachable U C.dict) (hD' : Reachable U' C'.dict) (h : Grows C C')
    (hm : SameMarks C.dict) (hn : C.dict.aff.options.allowsCompounding = false)
    (hr : C.dict.aff.compoundRules.rules = []) (hS : C.dict.Shrinking) (h1 : C.checkLowerAsTitle = false)
    (h2 : C.checkLowerAsUpper = false) {word : Str} (ha : Accepts C word) : Accepts C' word := by
  obtain ⟨hC, hmin, -⟩ := C54_well_made hD
  obtain ⟨hC', hmin', -⟩ := C54_well_made hD'
  obtain ⟨lines, hb, -⟩ := (wellMade_reachable hD).breaks
  obtain ⟨p, s, e⟩ := h.settings
  have hS' : C'.dict.Shrinking := by
    obtain ⟨a, b, c⟩ := hS
    exact ⟨by rw [e]; exact a, by rw [e]; exact b, by rw [e]; exact c⟩
  have h1' := h.title.trans h1
  have h2' := h.upper.trans h2
  rw [C51_preparation C' lines (by rw [e]; exact hb) hS' h1' h2', ← correct_prepared hC' hmin' h1' h2']
  have := C51_preparation_sound C lines hb word ha
  rw [← correct_prepared hC hmin h1 h2] at this
  obtain ⟨hl, hcor⟩ := this
  rw [e]
  refine ⟨hl, hcor.imp id ?_⟩
  rintro ⟨t, n, et, ht, hcor⟩
  refine ⟨t, n, et, ht, hcor.imp id (Or.imp ?_ (And.imp id ?_))⟩
  · rw [e]
    exact h.breaks hm (choice_fits hC) (choice_fits hC') hn hr
  · exact h.breaks hm (choice_fits hC) (choice_fits hC') hn hr

/-- **C84** (check): with a dictionary without compounds, whose homonyms have the same marks, no correct word becomes wrong
when further entries without marks are added. -/
theorem C84_check {U U' : Unicode} (hD : Reachable U C.dict) (hD' : Reachable U' C'.dict) (h : MoreWords C C')
    (hm : SameMarks C.dict) (hn : C.dict.aff.options.allowsCompounding = false)
    (hr : C.dict.aff.compoundRules.rules = []) (hS : C.dict.Shrinking) (h1 : C.checkLowerAsTitle = false)
    (h2 : C.checkLowerAsUpper = false) {word : Str} (ha : Accepts C word) : Accepts C' word :=
  accepts_grows hD hD' h.grows hm hn hr hS h1 h2 ha

/-- Adding a line by `add` whose flags are no marks makes such a larger list. -/
theorem moreWords_add {U : Unicode} {L : Layout} {D D' : Dict} {line : Str} (h : D.add U line = .ok D')
    (hm : ∀ stem F, LineMeans U D.aff.flagType D.aff.flagAliases D.aff.ignoreChars line stem F → ¬ Marked D F) :
    MoreWords { U, L, dict := D } { U, L, dict := D' } := by
  obtain ⟨stem, F, hl, ha, hs⟩ := C11_added.1 h
  refine ⟨rfl, ha, rfl, rfl, fun e he => ?_, fun e he => ?_⟩
  · change e ∈ D'.words.slots
    rw [hs]
    exact List.mem_append_left _ he
  · change e ∈ D'.words.slots at he
    rw [hs, List.mem_append, List.mem_singleton] at he
    rcases he with he | rfl
    · exact .inl he
    · exact .inr (hm _ _ hl)

/-- **C84** (add): a word added without marks makes no correct word wrong. -/
theorem C84_add {U : Unicode} {L : Layout} {D D' : Dict} {line : Str} (hD : Reachable U D) (h : D.add U line = .ok D')
    (hl : ∀ stem F, LineMeans U D.aff.flagType D.aff.flagAliases D.aff.ignoreChars line stem F → ¬ Marked D F)
    (hm : SameMarks D) (hn : D.aff.options.allowsCompounding = false) (hr : D.aff.compoundRules.rules = [])
    (hS : D.Shrinking) {word : Str} (ha : Accepts { U, L, dict := D } word) : Accepts { U, L, dict := D' } word :=
  C84_check (C := { U, L, dict := D }) hD (.added hD h) (moreWords_add h hl) hm hn hr hS rfl rfl ha

/-! ## Suggestions -/

section
variable (hn : C.dict.aff.options.allowsCompounding = false) (hr : C.dict.aff.compoundRules.rules = [])
include hn hr

theorem checkCompound_none (fuel : Nat) (w : Str) (fc : Forceucase) : C.checkCompound fuel .atBegin w fc = .ok none := by
  unfold Checker.checkCompound
  have h1 : C.opts.allowsCompounding = false := hn
  have h2 : C.aff.compoundRules.isEmpty = true := by
    change C.dict.aff.compoundRules.isEmpty = true
    simp [CompoundRuleTable.isEmpty, hr]
  simp [h1, h2, Run.or]

theorem checkWord_alone (fuel : Nat) (w : Str) (fc : Forceucase) (hh : HiddenHomonym) :
    C.checkWord fuel w fc hh = .ok (C.checkSimpleWord w hh) := by
  unfold Checker.checkWord
  rw [checkCompound_none hn hr]
  cases C.checkSimpleWord w hh <;> rfl

end

section
variable (h : MoreWords C C') (hm : SameMarks C.dict) (hC : C.dict.CondsParsed) (hC' : C'.dict.CondsParsed)
  (hn : C.dict.aff.options.allowsCompounding = false) (hr : C.dict.aff.compoundRules.rules = [])
include h hm hC hC'

theorem _root_.Spellbook.Spec.MoreWords.isSome {w : Str} {hh : HiddenHomonym} (hs : (C.checkSimpleWord w hh).isSome = true) :
    (C'.checkSimpleWord w hh).isSome = true := by
  obtain ⟨F, hF⟩ := Option.isSome_iff_exists.1 hs
  obtain ⟨F', hF', -⟩ := h.grows.simple hm (choice_fits hC) (choice_fits hC') (hh := hh) (w := w) hF
  exact Option.isSome_iff_exists.2 ⟨F', hF'⟩

include hn hr

theorem _root_.Spellbook.Spec.MoreWords.suggestable {fuel fuel' : Nat} {t : Str} (hs : Suggestable C fuel t) : Suggestable C' fuel' t := by
  have hn' : C'.dict.aff.options.allowsCompounding = false := by rw [h.settings]; exact hn
  have hr' : C'.dict.aff.compoundRules.rules = [] := by rw [h.settings]; exact hr
  obtain ⟨F, hF, hg⟩ := hs
  rw [checkWord_alone hn hr, Except.ok.injEq] at hF
  obtain ⟨F', hF', hk⟩ := h.grows.simple hm (choice_fits hC) (choice_fits hC') (hh := .skip) (w := t) hF
  have hg' : Good C'.dict F' := by
    rw [h.grows.good]
    rcases hk with hk | hk
    · exact hk.1.1 hg
    · by_contra h; exact hk (.inl h)
  exact ⟨F', by rw [checkWord_alone hn' hr']; exact congrArg _ hF', hg'⟩

theorem _root_.Spellbook.Spec.MoreWords.spaced {fuel fuel' : Nat} {t : Str} (hs : SpacedWords C fuel t) : SpacedWords C' fuel' t := by
  have hn' : C'.dict.aff.options.allowsCompounding = false := by rw [h.settings]; exact hn
  have hr' : C'.dict.aff.compoundRules.rules = [] := by rw [h.settings]; exact hr
  obtain ⟨parts, last, h1, h2, h3, h4⟩ := hs
  refine ⟨parts, last, h1, h2, h3, fun p hp => ⟨(h4 p hp).1, ?_⟩⟩
  obtain ⟨F, hF⟩ := (h4 p hp).2
  rw [checkWord_alone hn hr, Except.ok.injEq] at hF
  have := h.isSome hm hC hC' (hh := .skip) (w := p) (by rw [hF]; rfl)
  obtain ⟨F', hF'⟩ := Option.isSome_iff_exists.1 this
  exact ⟨F', by rw [checkWord_alone hn' hr', hF']⟩

theorem _root_.Spellbook.Spec.MoreWords.proposals {fuel fuel' : Nat} {w t : Str} (ht : t ∈ proposals C fuel (editBudget C w) w) :
    t ∈ Spec.proposals C' fuel' (editBudget C' w) w := by
  have haff : C'.aff = C.aff := h.settings
  have hopts : C'.opts = C.opts := by unfold Checker.opts; rw [h.settings]
  have hb : editBudget C' w = editBudget C w := by unfold editBudget lookupCost; rw [haff, hopts]
  have hs : ∀ l, t ∈ suggestables C fuel l → t ∈ suggestables C' fuel' l := by
    intro l hl
    unfold suggestables at *
    simp only [List.mem_filter, decide_eq_true_eq] at *
    exact ⟨hl.1, h.suggestable hm hC hC' hn hr hl.2⟩
  have hrep : t ∈ repWords C fuel w → t ∈ repWords C' fuel' w := by
    intro hl
    unfold repWords at *
    simp only [List.mem_filter, decide_eq_true_eq, haff] at *
    exact ⟨hl.1, hl.2.imp (h.suggestable hm hC hC' hn hr) (h.spaced hm hC hC' hn hr)⟩
  have htwo : t ∈ splitWords C w → t ∈ splitWords C' w := by
    intro hl
    unfold splitWords at *
    rw [hopts]
    split at hl
    · cases hl
    · rename_i hns
      rw [if_neg hns]
      rw [List.mem_flatMap] at *
      obtain ⟨s, hs, hl⟩ := hl
      refine ⟨s, hs, ?_⟩
      unfold inTwo at *
      split at hl
      · rename_i h2
        rw [if_pos ⟨h.isSome hm hC hC' h2.1, h.isSome hm hC hC' h2.2⟩, haff]
        exact hl
      · cases hl
  have hup : upperOf C' w = upperOf C w := by unfold upperOf; rw [hopts, h.unicode]
  unfold Spec.proposals goodProposals at *
  rw [hb, haff, hup, h.unicode]
  simp only [List.mem_append] at *
  rcases ht with (((((((((((ht | ht) | ht) | ht) | ht) | ht) | ht) | ht) | ht) | ht) | ht) | ht)
  all_goals first
    | simp only [hs _ ht, true_or, or_true]
    | simp only [hrep ht, true_or, or_true]
    | simp only [htwo ht, true_or, or_true]

end

/-- **C84** (suggestions): for a word in lower case and without a dash, no suggestion by edits gets lost either. -/
theorem C84_suggest {U U' : Unicode} {S S' : Suggester} (hD : Reachable U S.C.dict) (hD' : Reachable U' S'.C.dict)
    (h : MoreWords S.C S'.C) (hm : SameMarks S.C.dict) (hn : S.C.dict.aff.options.allowsCompounding = false)
    (hr : S.C.dict.aff.compoundRules.rules = []) (hng : S.ngram = false) (hng' : S'.ngram = false) {word : Str}
    (hc : ∀ c ∈ S.C.aff.inputConversions.convert word, S.C.U.isUpper c = false)
    (hd : '-' ∉ S.C.aff.inputConversions.convert word) {out out' r r' : List Str} (hs : Suggests S word out r)
    (hs' : Suggests S' word out' r') : ∀ t ∈ r, t ∈ r' := by
  intro t ht
  have hne : word ≠ [] := by
    rintro rfl
    obtain ⟨fuel, depth, hs⟩ := hs
    unfold Suggester.suggest at hs
    rw [if_neg (by decide)] at hs
    cases depth with
    | zero => cases hs
    | succ d =>
      unfold Suggester.suggestImpl at hs
      simp only [if_true, Except.ok.injEq] at hs
      rw [← hs] at ht
      simp at ht
  have hlen : (utf8 word).length ≤ 360 := by
    by_contra hlong
    obtain ⟨fuel, depth, hs⟩ := hs
    unfold Suggester.suggest at hs
    rw [if_pos (by unfold byteLen maxWordLen; omega)] at hs
    simp only [Except.ok.injEq] at hs
    rw [← hs] at ht
    simp at ht
  obtain ⟨hC, -⟩ := C54_well_made hD
  obtain ⟨hC', -⟩ := C54_well_made hD'
  have haff : S'.C.aff = S.C.aff := h.settings
  have hcas : classifyCasing S.C.U (S.C.aff.inputConversions.convert word) = .none := classifyCasing_iff.2 hc
  have hcas' : classifyCasing S'.C.U (S'.C.aff.inputConversions.convert word) = .none := by
    rw [haff, h.unicode]; exact hcas
  have hlack : ∀ {C : Checker} (_ : C.dict.aff.options.allowsCompounding = false)
      (_ : C.dict.aff.compoundRules.rules = []) (w : Str), ¬ LacksCapital C w := by
    rintro C a b w ⟨-, fuel, c, hx⟩
    rw [checkCompound_none a b] at hx
    cases hx
  have hn' : S'.C.dict.aff.options.allowsCompounding = false := by rw [h.settings]; exact hn
  have hr' : S'.C.dict.aff.compoundRules.rules = [] := by rw [h.settings]; exact hr
  have key : ∀ {U : Unicode} {S : Suggester} {out r : List Str}, Reachable U S.C.dict → Suggests S word out r →
      classifyCasing S.C.U (S.C.aff.inputConversions.convert word) = .none → S.ngram = false →
      '-' ∉ S.C.aff.inputConversions.convert word → ¬ LacksCapital S.C (S.C.aff.inputConversions.convert word) →
      ∃ fuel, r = (firsts [] (proposals S.C fuel (editBudget S.C (S.C.aff.inputConversions.convert word))
        (S.C.aff.inputConversions.convert word))).map S.C.aff.outputConversions.convert := by
    intro U S out r hD hs hcas hng hd hl
    obtain ⟨fuel, depth, good, sp, sim, dash, l, h1, h2, h3, h4, h5⟩ := C59_exact hD hs hne hlen rfl hcas fun _ => hl
    have e1 : sim = [] := h2.none (by simp [hng])
    have e2 : dash = [] := List.eq_nil_iff_forall_not_mem.2 fun t ht => hd ((h3 t).1 ht).1
    subst e1 e2
    cases h4
    cases h1 with
    | none hp =>
      refine ⟨fuel, ?_⟩
      rw [h5, ← hp.1]
      simp
  obtain ⟨fuel, e⟩ := key hD hs hcas hng hd (hlack hn hr _)
  obtain ⟨fuel', e'⟩ := key hD' hs' hcas' hng' (by rw [haff]; exact hd) (hlack hn' hr' _)
  rw [e, List.mem_map] at ht
  obtain ⟨s, hs, rfl⟩ := ht
  rw [e', List.mem_map, haff]
  refine ⟨s, ?_, rfl⟩
  rw [mem_firsts] at *
  exact ⟨h.proposals hm hC hC' hn hr hs.1, by simp⟩

/-! ## The hypotheses can be met -/

instance (D : Dict) (F : FlagSet) : Decidable (Marked D F) := by unfold Marked KeepsCase; infer_instance

/-- Without marked entries all marks agree. -/
theorem sameMarks_none {D : Dict} (h : ∀ e ∈ D.words.slots, ¬ Marked D e.2) : SameMarks D := by
  intro sk w stem F steps stem' F' steps' h1 h2
  have a := h _ (Derives.usable h1).listed
  have b := h _ (Derives.usable h2).listed
  unfold Marked at a b
  simp only [not_or, not_not] at a b
  exact ⟨iff_of_true a.1 b.1, iff_of_false a.2 b.2⟩

/-- Without affixes they agree if no stem has entries with different flags. -/
theorem sameMarks_plain {D : Dict} (hp : D.aff.prefixes.table = []) (hs : D.aff.suffixes.table = []) (h : NoConflict D) :
    SameMarks D := by
  have key : ∀ {sk w stem F steps}, Derives .code D sk w stem F steps → (w, F) ∈ D.words.slots := by
    have hno : ∀ {k a s t}, ¬ Step D k a s t := by
      intro k a s t hst
      have := hst.mem
      cases k <;> simp [tableOf, hp, hs] at this
    intro sk w stem F steps hd
    cases hd with
    | listed hu e _ => rw [e]; exact hu.listed
    | one _ h1 _ _ _ _ => exact absurd h1 hno
    | pair _ h1 _ _ _ _ _ => exact absurd h1 hno
    | two _ h1 _ _ _ _ _ => exact absurd h1 hno
    | twoThenOne _ h1 _ _ _ _ _ _ _ _ => exact absurd h1 hno
    | sandwich _ h1 _ _ _ _ _ _ _ _ _ => exact absurd h1 hno
  intro sk w stem F steps stem' F' steps' h1 h2
  rw [h w F F' (key h1) (key h2)]
  exact ⟨.rfl, .rfl⟩

/-- The meaning of a line is unique. -/
theorem lineMeans_added {U : Unicode} {D D' : Dict} {line : Str} (h : D.add U line = .ok D') {stem : Str} {F : FlagSet}
    (hl : LineMeans U D.aff.flagType D.aff.flagAliases D.aff.ignoreChars line stem F) : (stem, F) ∈ D'.words.slots := by
  have := (C11_added (D' := ⟨⟨D.words.slots ++ [(stem, F)]⟩, D.aff⟩)).2 ⟨stem, F, hl, rfl, rfl⟩
  rw [h, Except.ok.injEq] at this
  subst this
  simp

/-- A dictionary loaded from texts, with a line added, which pass a test. -/
theorem of_added {aff dic line : String} {p : Dict → Dict → Bool}
    (h : ((loadChecker aff dic).any fun C => match C.dict.add .sample line.toList with
      | .ok D' => p C.dict D'
      | .error _ => false) = true) :
    ∃ D D', Reachable .sample D ∧ D.add .sample line.toList = .ok D' ∧ p D D' = true := by
  obtain ⟨C, h1, h2⟩ := of_load h
  refine ⟨C.dict, ?_⟩
  cases hx : C.dict.add .sample line.toList with
  | error e => rw [hx] at h2; cases h2
  | ok D' => rw [hx] at h2; exact ⟨D', (loadChecker_reachable h1).1, rfl, h2⟩

/-- The checker of a dictionary. -/
abbrev checkerOf (D : Dict) : Checker := { U := .sample, L := .default, dict := D }

/-- A dictionary with affixes, to which a word is added: the theorems apply, the old words stay correct, and so do
the suggestions. -/
example : ∃ D D', Reachable .sample D ∧ D.add .sample "cuts".toList = .ok D' ∧
    (∀ word, Accepts (checkerOf D) word → Accepts (checkerOf D') word) ∧
    Accepts (checkerOf D) "cats".toList ∧ Rejects (checkerOf D) "cuts".toList ∧ Accepts (checkerOf D') "cuts".toList ∧
    (∀ r r', Suggests (editsOnly (checkerOf D)) "cts".toList [] r → Suggests (editsOnly (checkerOf D')) "cts".toList [] r' →
      ∀ t ∈ r, t ∈ r') ∧
    Suggests (editsOnly (checkerOf D)) "cts".toList [] ["cats".toList] ∧
    Suggests (editsOnly (checkerOf D')) "cts".toList [] ["cuts".toList, "cats".toList] := by
  obtain ⟨D, D', hD, ha, h⟩ := of_added (aff := "SFX A Y 1\nSFX A 0 s .\nTRY ua\n") (dic := "1\ncat/A\n") (line := "cuts")
    (p := fun D D' => decide (∀ e ∈ D'.words.slots, ¬ Marked D e.2) && decide (D.aff.options.allowsCompounding = false) &&
      decide (D.aff.compoundRules.rules = []) && decide (0 < D.aff.options.minChars) &&
      decide (D.aff.options.compoundSimplifiedTriple = false) && decide (D.aff.compoundPatterns = []) &&
      decide ((checkerOf D).check 9 "cats".toList = .ok true) && decide ((checkerOf D).check 9 "cuts".toList = .ok false) &&
      decide ((checkerOf D').check 9 "cuts".toList = .ok true) &&
      decide ((editsOnly (checkerOf D)).suggest 9 9 "cts".toList [] = .ok ["cats".toList]) &&
      decide ((editsOnly (checkerOf D')).suggest 9 9 "cts".toList [] = .ok ["cuts".toList, "cats".toList]) &&
      decide (D.aff.inputConversions.convert "cts".toList = "cts".toList)) (by decide +kernel)
  simp only [Bool.and_eq_true, decide_eq_true_eq] at h
  obtain ⟨⟨⟨⟨⟨⟨⟨⟨⟨⟨⟨hm, hn⟩, hr⟩, hmin⟩, ht⟩, hp⟩, c1⟩, c2⟩, c3⟩, s1⟩, s2⟩, hi⟩ := h
  obtain ⟨stem, F, -, hset, hslots⟩ := C11_added.1 ha
  have hsame : SameMarks D := sameMarks_none fun e he => hm e (by rw [hslots]; exact List.mem_append_left _ he)
  have hline : ∀ stem F, LineMeans .sample D.aff.flagType D.aff.flagAliases D.aff.ignoreChars "cuts".toList stem F →
      ¬ Marked D F := fun stem F hl => hm _ (lineMeans_added ha hl)
  refine ⟨D, D', hD, ha, fun word hw => C84_add hD ha hline hsame hn hr
    ⟨hmin, fun h => Bool.noConfusion (ht.symm.trans h), fun c hc => absurd hc (by rw [hp]; simp)⟩ hw, ⟨9, c1⟩, ⟨9, c2⟩,
    ⟨9, c3⟩, fun r r' h1 h2 => ?_, ⟨9, 9, s1⟩, ⟨9, 9, s2⟩⟩
  exact C84_suggest (S := editsOnly (checkerOf D)) (S' := editsOnly (checkerOf D')) hD (.added hD ha)
    (moreWords_add ha hline) hsame hn hr rfl rfl
    (by show ∀ c ∈ D.aff.inputConversions.convert _, Unicode.sample.isUpper c = false; rw [hi]; decide)
    (by show _ ∉ D.aff.inputConversions.convert _; rw [hi]; decide) h1 h2

/-- The condition on the marks can hold with marked entries. -/
example : ∃ D, Reachable .sample D ∧ SameMarks D ∧ (∃ e ∈ D.words.slots, ¬ Good D e.2) ∧ (∃ e ∈ D.words.slots, KeepsCase D e.2) := by
  obtain ⟨C, h1, h2⟩ := of_load (aff := "FORBIDDENWORD F\nKEEPCASE K\n") (dic := "3\nfoo/F\nbar/K\nbaz\n") (L := .default)
    (p := fun C => decide (C.dict.aff.prefixes.table = []) && decide (C.dict.aff.suffixes.table = []) &&
      decide (∀ e ∈ C.dict.words.slots, ∀ e' ∈ C.dict.words.slots, e.1 = e'.1 → e.2 = e'.2) &&
      decide (∃ e ∈ C.dict.words.slots, ¬ Good C.dict e.2) &&
      decide (∃ e ∈ C.dict.words.slots, Has e.2 C.dict.aff.options.keepCaseFlag)) (by decide +kernel)
  simp only [Bool.and_eq_true, decide_eq_true_eq] at h2
  obtain ⟨⟨⟨⟨hp, hs⟩, hc⟩, hg⟩, hk⟩ := h2
  exact ⟨C.dict, (loadChecker_reachable h1).1, sameMarks_plain hp hs fun stem F G a b => hc _ a _ b rfl, hg, hk⟩

/-! ## Where more words take something away -/

/-- A word marked FORBIDDENWORD takes away the form of another entry, as it should. -/
theorem C84_forbidden_negation : ∃ D D', Reachable .sample D ∧ D.add .sample "cats/F".toList = .ok D' ∧
    (∀ e ∈ D.words.slots, ¬ Marked D e.2) ∧ D.aff.options.allowsCompounding = false ∧ D.aff.compoundRules.rules = [] ∧
    Accepts (checkerOf D) "cats".toList ∧ Rejects (checkerOf D') "cats".toList := by
  obtain ⟨D, D', hD, ha, h⟩ := of_added (aff := "FORBIDDENWORD F\nSFX A Y 1\nSFX A 0 s .\n") (dic := "1\ncat/A\n")
    (line := "cats/F") (p := fun D D' => decide (∀ e ∈ D.words.slots, ¬ Marked D e.2) &&
      decide (D.aff.options.allowsCompounding = false) && decide (D.aff.compoundRules.rules = []) &&
      decide ((checkerOf D).check 9 "cats".toList = .ok true) && decide ((checkerOf D').check 9 "cats".toList = .ok false))
    (by decide +kernel)
  simp only [Bool.and_eq_true, decide_eq_true_eq] at h
  obtain ⟨⟨⟨⟨hm, hn⟩, hr⟩, c1⟩, c2⟩ := h
  exact ⟨D, D', hD, ha, hm, hn, hr, ⟨9, c1⟩, ⟨9, c2⟩⟩

/-- With compounds a word without any flags can make a correct word wrong: with CHECKCOMPOUNDREP the compound `foobar`
is rejected as soon as `foubar`, which REP makes of it, is a word. -/
theorem C84_compound_negation : ∃ D D', Reachable .sample D ∧ D.add .sample "foubar".toList = .ok D' ∧
    MoreWords (checkerOf D) (checkerOf D') ∧ SameMarks D ∧ D.Shrinking ∧
    Accepts (checkerOf D) "foobar".toList ∧ Rejects (checkerOf D') "foobar".toList := by
  obtain ⟨D, D', hD, ha, h⟩ := of_added (aff := "COMPOUNDFLAG C\nCHECKCOMPOUNDREP\nREP 1\nREP o u\n")
    (dic := "2\nfoo/C\nbar/C\n") (line := "foubar") (p := fun D D' => decide (∀ e ∈ D'.words.slots, ¬ Marked D e.2) &&
      decide (0 < D.aff.options.minChars) && decide (D.aff.options.compoundSimplifiedTriple = false) &&
      decide (D.aff.compoundPatterns = []) && decide ((checkerOf D).check 99 "foobar".toList = .ok true) &&
      decide ((checkerOf D').check 99 "foobar".toList = .ok false)) (by decide +kernel)
  simp only [Bool.and_eq_true, decide_eq_true_eq] at h
  obtain ⟨⟨⟨⟨⟨hm, hmin⟩, ht⟩, hp⟩, c1⟩, c2⟩ := h
  obtain ⟨stem, F, -, hset, hslots⟩ := C11_added.1 ha
  exact ⟨D, D', hD, ha, moreWords_add ha fun stem F hl => hm _ (lineMeans_added ha hl),
    sameMarks_none fun e he => hm e (by rw [hslots]; exact List.mem_append_left _ he),
    ⟨hmin, fun h => Bool.noConfusion (ht.symm.trans h), fun c hc => absurd hc (by rw [hp]; simp)⟩, ⟨99, c1⟩, ⟨99, c2⟩⟩

/-- Suggestions for a capitalized word get lost: `foo`, marked KEEPCASE, is suggested for `Fo` since `Foo` is no word;
with the added word `Foo` it is not. -/
theorem C84_title_negation : ∃ D D', Reachable .sample D ∧ D.add .sample "Foo".toList = .ok D' ∧
    MoreWords (checkerOf D) (checkerOf D') ∧ SameMarks D ∧ D.aff.options.allowsCompounding = false ∧
    D.aff.compoundRules.rules = [] ∧ Suggests (editsOnly (checkerOf D)) "Fo".toList [] ["foo".toList] ∧
    Suggests (editsOnly (checkerOf D')) "Fo".toList [] ["Foo".toList] := by
  obtain ⟨D, D', hD, ha, h⟩ := of_added (aff := "KEEPCASE K\nTRY o\n") (dic := "1\nfoo/K\n") (line := "Foo")
    (p := fun D D' => decide (∀ e ∈ D'.words.slots, e ∈ D.words.slots ∨ ¬ Marked D e.2) &&
      decide (D.aff.options.allowsCompounding = false) && decide (D.aff.compoundRules.rules = []) &&
      decide (D.aff.prefixes.table = []) && decide (D.aff.suffixes.table = []) &&
      decide (∀ e ∈ D.words.slots, ∀ e' ∈ D.words.slots, e.1 = e'.1 → e.2 = e'.2) &&
      decide ((editsOnly (checkerOf D)).suggest 9 9 "Fo".toList [] = .ok ["foo".toList]) &&
      decide ((editsOnly (checkerOf D')).suggest 9 9 "Fo".toList [] = .ok ["Foo".toList])) (by decide +kernel)
  simp only [Bool.and_eq_true, decide_eq_true_eq] at h
  obtain ⟨⟨⟨⟨⟨⟨⟨hm, hn⟩, hr⟩, hp⟩, hs⟩, hc⟩, s1⟩, s2⟩ := h
  obtain ⟨stem, F, -, hset, hslots⟩ := C11_added.1 ha
  refine ⟨D, D', hD, ha, ⟨rfl, hset, rfl, rfl, fun e he => ?_, hm⟩,
    sameMarks_plain hp hs fun stem F G a b => hc _ a _ b rfl, hn, hr, ⟨9, 9, s1⟩, ⟨9, 9, s2⟩⟩
  show e ∈ D'.words.slots
  rw [hslots]
  exact List.mem_append_left _ he

/-- And suggestions by similarity get lost, since they are made only as long as there are no good ones: `abcde` is
suggested for `cdabe` until REP can make the word `xxabe` of it. -/
theorem C84_similar_negation : ∃ D D', Reachable .sample D ∧ D.add .sample "xxabe".toList = .ok D' ∧
    MoreWords (checkerOf D) (checkerOf D') ∧ SameMarks D ∧ D.aff.options.allowsCompounding = false ∧
    D.aff.compoundRules.rules = [] ∧
    Suggests { C := checkerOf D, H := .sample } "cdabe".toList [] ["abcde".toList] ∧
    Suggests { C := checkerOf D', H := .sample } "cdabe".toList [] ["xxabe".toList] := by
  obtain ⟨D, D', hD, ha, h⟩ := of_added (aff := "REP 1\nREP cd xx\n") (dic := "1\nabcde\n") (line := "xxabe")
    (p := fun D D' => decide (∀ e ∈ D'.words.slots, ¬ Marked D e.2) &&
      decide (D.aff.options.allowsCompounding = false) && decide (D.aff.compoundRules.rules = []) &&
      decide (Suggester.suggest { C := checkerOf D, H := .sample } 9 9 "cdabe".toList [] = .ok ["abcde".toList]) &&
      decide (Suggester.suggest { C := checkerOf D', H := .sample } 9 9 "cdabe".toList [] = .ok ["xxabe".toList]))
    (by decide +kernel)
  simp only [Bool.and_eq_true, decide_eq_true_eq] at h
  obtain ⟨⟨⟨⟨hm, hn⟩, hr⟩, s1⟩, s2⟩ := h
  obtain ⟨stem, F, -, hset, hslots⟩ := C11_added.1 ha
  exact ⟨D, D', hD, ha, moreWords_add ha fun stem F hl => hm _ (lineMeans_added ha hl),
    sameMarks_none fun e he => hm e (by rw [hslots]; exact List.mem_append_left _ he), hn, hr, ⟨9, 9, s1⟩, ⟨9, 9, s2⟩⟩

end Spellbook.Props
