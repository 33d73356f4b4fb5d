import Verif.Spec.Api
import Verif.Proof.Api
/-!
# The settings of checkers and suggesters

C76 (`check_lower_as_title`, `check_lower_as_upper`) and C77 (`with_ngram_suggestions`).
-/

namespace Spellbook.Props
open Spec Checker

variable {U : Unicode}

/-! ## C76 Other letter cases -/

/-- **C76**: in a dictionary where no entry forbids a word, a word which is accepted is still accepted if the
checker also tries its title-case or its upper-case form; unless the call panics or recurses without end. -/
theorem C76_widens {C : Checker} (hD : Reachable U C.dict) (hg : NothingForbidden C.dict) {t u t' u' : Bool}
    (ht : t = true → t' = true) (hu : u = true → u' = true) {word : Str}
    (h : Accepts ((C.lowerAsTitle t).lowerAsUpper u) word) :
    Accepts ((C.lowerAsTitle t').lowerAsUpper u') word ∨ Panics ((C.lowerAsTitle t').lowerAsUpper u') word ∨
      Diverges ((C.lowerAsTitle t').lowerAsUpper u') word := by
  obtain ⟨hC, -⟩ := C54_well_made hD
  obtain ⟨f, hf⟩ := h
  rcases (C26_one_outcome ((C.lowerAsTitle t').lowerAsUpper u') word).1 with h | ⟨f', hf'⟩ | h | h
  · exact .inl h
  · have h1 := (check_le ((C.lowerAsTitle t).lowerAsUpper u) (Nat.le_max_left f f') word).ok hf
    have h2 := (check_le ((C.lowerAsTitle t').lowerAsUpper u') (Nat.le_max_right f f') word).ok hf'
    rcases (lowerAs_triesMore C ht hu).check hC hg _ word h1 with h | ⟨e, h⟩ <;> rw [h2] at h <;> cases h
  · exact .inr (.inl h)
  · exact .inr (.inr h)

/-- The verdict on a word which is looked at as one. -/
theorem single_accepts {C : Checker} {lines : List Str} (hb : BreakTable.new lines = some C.dict.aff.breakTable)
    {word : Str} (hw : Single C lines word) :
    Accepts C word ↔ ∃ fuel F, C.spellCasing fuel word = .ok (some F) ∧ Good C.dict F := by
  constructor
  · intro h
    have := C08_break_sound C lines hb word hw.untouched hw.number h
    cases this with
    | direct hv => obtain ⟨f, F, h1, h2⟩ := hv; exact ⟨f, F, h1, h2.1 rfl⟩
    | start _ hl hline he _ => exact absurd ⟨_, hline, _, he, rfl⟩ (hw.uncut _ hl .start [_])
    | stop _ hl hline he _ => exact absurd ⟨_, hline, _, he, rfl⟩ (hw.uncut _ hl .stop [_])
    | middle _ hl hline hs hne _ _ => exact absurd ⟨_, hline, _, _, hs, hne, rfl⟩ (hw.uncut _ hl .middle [_, _])
  · rintro ⟨f, F, h1, h2⟩
    exact ⟨f, by rw [check_untouched hw.untouched hw.number, spellBreak, doSpellBreak_some h1, goodFlags_iff.2 h2]⟩

theorem Single.of_dict {C C' : Checker} (hd : C.dict = C'.dict) {lines : List Str} {word : Str} (h : Single C lines word) :
    Single C' lines word where
  untouched := ⟨h.1.1, hd ▸ h.1.2, hd ▸ h.1.3, h.1.4, h.1.5⟩
  number := h.number
  uncut := h.uncut

theorem single_lowerAs {C : Checker} {lines : List Str} (hb : BreakTable.new lines = some C.dict.aff.breakTable)
    {word : Str} (hw : Single C lines word) (t u : Bool) : Accepts ((C.lowerAsTitle t).lowerAsUpper u) word ↔
      ∃ fuel F, ((C.lowerAsTitle t).lowerAsUpper u).spellCasing fuel word = .ok (some F) ∧ Good C.dict F :=
  single_accepts (C := (C.lowerAsTitle t).lowerAsUpper u) hb (Single.of_dict (C := C) (C' := (C.lowerAsTitle t).lowerAsUpper u) rfl hw)

/-- **C76**: whatever the dictionary forbids, a word which is looked at as one and accepted by the default checker
is accepted by every checker. -/
theorem C76_single {C : Checker} {lines : List Str} (hb : BreakTable.new lines = some C.dict.aff.breakTable)
    {word : Str} (hw : Single C lines word) (t u : Bool)
    (h : Accepts ((C.lowerAsTitle false).lowerAsUpper false) word) :
    Accepts ((C.lowerAsTitle t).lowerAsUpper u) word := by
  have hs := (lowerAs_triesMore C (t := false) (u := false) (t' := t) (u' := u) nofun nofun).same.forms
  rw [single_lowerAs hb hw] at h ⊢
  obtain ⟨f, F, h1, h2⟩ := h
  refine ⟨f, F, ?_, h2⟩
  unfold spellCasing at h1 ⊢
  rw [← hs.U]
  have asIs : ∀ b, ((C.lowerAsTitle false).lowerAsUpper false).spellCasingAsIs f word b = .ok (some F) →
      ((C.lowerAsTitle t).lowerAsUpper u).spellCasingAsIs f word b = .ok (some F) := by
    intro b e
    unfold spellCasingAsIs at e ⊢
    rw [← hs.checkWord]
    rcases Run.or_eq_some.1 e with e | ⟨-, e⟩
    · rw [e]; rfl
    · cases e
  generalize classifyCasing ((C.lowerAsTitle false).lowerAsUpper false).U word = c at h1 ⊢
  cases c
  case none | camel | pascal => exact asIs _ h1
  case all => exact hs.spellCasingUpper ▸ h1
  case init => exact hs.spellCasingTitle ▸ h1

/-- **C76**: the settings do not matter to a word with an initial capital or in all capitals which is looked at as
one. -/
theorem C76_capitals {C : Checker} {lines : List Str} (hb : BreakTable.new lines = some C.dict.aff.breakTable)
    {word : Str} (hw : Single C lines word) (hc : HasCasing C.U word .init ∨ HasCasing C.U word .all)
    (t u t' u' : Bool) :
    Accepts ((C.lowerAsTitle t).lowerAsUpper u) word ↔ Accepts ((C.lowerAsTitle t').lowerAsUpper u') word := by
  have hs : SameForms ((C.lowerAsTitle t).lowerAsUpper u) ((C.lowerAsTitle t').lowerAsUpper u') :=
    SameTables.forms ⟨rfl, rfl, rfl⟩
  rw [single_lowerAs hb hw, single_lowerAs hb hw]
  refine exists_congr fun f => exists_congr fun F => and_congr_left fun _ => ?_
  unfold spellCasing
  rw [← hs.U, ← hs.spellCasingTitle, ← hs.spellCasingUpper]
  rcases hc with hc | hc
  · have e : classifyCasing ((C.lowerAsTitle t).lowerAsUpper u).U word = .init := classifyCasing_iff.2 hc
    simp only [e]
  · have e : classifyCasing ((C.lowerAsTitle t).lowerAsUpper u).U word = .all := classifyCasing_iff.2 hc
    simp only [e]

/-- **C76**: in a dictionary where no entry forbids a word, a word which does not begin with a capital is accepted
by the checker which also tries the title-case form exactly if the default checker accepts the word or its title-case
form; and likewise for the upper-case form and for both. For words looked at as one and well-behaved
dictionaries. -/
theorem C76_exact {C : Checker} (hD : Reachable U C.dict) (hS : C.dict.Shrinking) (hg : NothingForbidden C.dict)
    {lines : List Str} (hb : BreakTable.new lines = some C.dict.aff.breakTable) {word : Str}
    (hc : HasCasing C.U word .none ∨ HasCasing C.U word .camel) (hw : Single C lines word)
    (ht : HasCasing C.U (titleOf C word) .init) (hwt : Single C lines (titleOf C word))
    (hu : HasCasing C.U (upperOf C word) .all) (hwu : Single C lines (upperOf C word)) (t u : Bool) :
    Accepts ((C.lowerAsTitle t).lowerAsUpper u) word ↔
      Accepts ((C.lowerAsTitle false).lowerAsUpper false) word ∨
      (t = true ∧ Accepts ((C.lowerAsTitle false).lowerAsUpper false) (titleOf C word)) ∨
      (u = true ∧ Accepts ((C.lowerAsTitle false).lowerAsUpper false) (upperOf C word)) := by
  obtain ⟨hC, -⟩ := C54_well_made hD
  have hs := (lowerAs_triesMore C (t := false) (u := false) (t' := t) (u' := u) nofun nofun).same.forms
  have acc : ∀ {t u : Bool} {w}, Single C lines w → (Accepts ((C.lowerAsTitle t).lowerAsUpper u) w ↔
      ∃ f F, ((C.lowerAsTitle t).lowerAsUpper u).spellCasing f w = .ok (some F)) := by
    intro t u w h
    rw [single_lowerAs hb h]
    refine exists_congr fun f => exists_congr fun F => ⟨And.left, fun e => ⟨e, ?_⟩⟩
    obtain ⟨stem, hm⟩ := OfEntry.casing (C := (C.lowerAsTitle t).lowerAsUpper u) hC f w F e
    exact hg _ hm
  rw [acc hw, acc hw, acc hwt, acc hwu]
  have e1 : ∀ t u f, ((C.lowerAsTitle t).lowerAsUpper u).spellCasing f word =
      ((C.lowerAsTitle t).lowerAsUpper u).spellCasingAsIs f word false := by
    intro t u f
    unfold spellCasing
    rcases hc with hc | hc
    · rw [show classifyCasing ((C.lowerAsTitle t).lowerAsUpper u).U word = .none from classifyCasing_iff.2 hc]
    · rw [show classifyCasing ((C.lowerAsTitle t).lowerAsUpper u).U word = .camel from classifyCasing_iff.2 hc]
  have e2 : ∀ f, ((C.lowerAsTitle false).lowerAsUpper false).spellCasing f (titleOf C word) =
      ((C.lowerAsTitle t).lowerAsUpper u).spellCasingTitle f (titleOf C word) := by
    intro f
    unfold spellCasing
    rw [show classifyCasing ((C.lowerAsTitle false).lowerAsUpper false).U (titleOf C word) = .init from
      classifyCasing_iff.2 ht, hs.spellCasingTitle]
  have e3 : ∀ f, ((C.lowerAsTitle false).lowerAsUpper false).spellCasing f (upperOf C word) =
      ((C.lowerAsTitle t).lowerAsUpper u).spellCasingUpper f (upperOf C word) := by
    intro f
    unfold spellCasing
    rw [show classifyCasing ((C.lowerAsTitle false).lowerAsUpper false).U (upperOf C word) = .all from
      classifyCasing_iff.2 hu, hs.spellCasingUpper]
  have e4 : ∀ f, ((C.lowerAsTitle false).lowerAsUpper false).spellCasing f word =
      ((C.lowerAsTitle t).lowerAsUpper u).checkWord f word .forbidBad .accept := by
    intro f
    rw [e1, ← hs.checkWord]
    unfold spellCasingAsIs
    change Run.or _ (Run.or (.ok none) (.ok none)) = _
    rw [Run.or_none, Run.or_none]
  have e5 : ∀ f, ((C.lowerAsTitle t).lowerAsUpper u).spellCasing f word =
      (((C.lowerAsTitle t).lowerAsUpper u).checkWord f word .forbidBad .accept).or
        ((if t then ((C.lowerAsTitle t).lowerAsUpper u).spellCasingTitle f (titleOf C word) else .ok none).or
          (if u then ((C.lowerAsTitle t).lowerAsUpper u).spellCasingUpper f (upperOf C word) else .ok none)) := by
    intro f
    rw [e1]
    unfold spellCasingAsIs
    rw [titlecase_titleOf hw.untouched.nonempty]
    cases t <;> rfl
  simp only [e2, e3, e4, e5]
  generalize hX : (C.lowerAsTitle t).lowerAsUpper u = X
  have hXs : X.dict.Shrinking := hX ▸ hS
  constructor
  · rintro ⟨f, F, e⟩
    rcases Run.or_eq_some.1 e with e | ⟨-, e⟩
    · exact .inl ⟨f, F, e⟩
    rcases Run.or_eq_some.1 e with e | ⟨-, e⟩
    · cases t with
      | true => exact .inr (.inl ⟨rfl, f, F, e⟩)
      | false => cases e
    · cases u with
      | true => exact .inr (.inr ⟨rfl, f, F, e⟩)
      | false => cases e
  · obtain ⟨N, hN⟩ := Conv.word hXs word .forbidBad .accept
    obtain ⟨M, hM⟩ := Conv.titleCase hXs (titleOf C word)
    rintro (⟨f, F, e⟩ | ⟨rfl, f, F, e⟩ | ⟨rfl, f, F, e⟩)
    · exact ⟨f, F, by rw [e]; rfl⟩
    · obtain ⟨r, hr⟩ := hN (max N f) (by omega)
      have e' := (spellCasingTitle_le X (Nat.le_max_right N f) _).ok e
      refine ⟨max N f, ?_⟩
      dsimp only at hr
      rw [hr, if_pos rfl, e']
      cases r with
      | some G => exact ⟨G, rfl⟩
      | none => exact ⟨F, rfl⟩
    · obtain ⟨r, hr⟩ := hN (max (max N M) f) (by omega)
      obtain ⟨r', hr'⟩ := hM (max (max N M) f) (by omega)
      have e' := (spellCasingUpper_le X (Nat.le_max_right (max N M) f) _).ok e
      refine ⟨max (max N M) f, ?_⟩
      dsimp only at hr hr'
      rw [hr, hr', if_pos rfl, e']
      cases r with
      | some G => exact ⟨G, rfl⟩
      | none =>
        cases t with
        | false => exact ⟨F, rfl⟩
        | true =>
          cases r' with
          | some G => exact ⟨G, rfl⟩
          | none => exact ⟨F, rfl⟩

/-- **C76** is false where an entry forbids a word: `foo-bar` is cut into two words, but not any more if its
title-case form is known, and forbidden. -/
theorem C76_forbidden_negation : ∃ D, parse .sample .default "FORBIDDENWORD !\n".toList
      "3\nfoo\nbar\nFoo-bar/!\n".toList = .ok D ∧
    Accepts (D.checker .sample .default) "foo-bar".toList ∧
    Rejects ((D.checker .sample .default).lowerAsTitle true) "foo-bar".toList := by
  obtain ⟨D, h1, h2⟩ := of_map (x := parse .sample .default "FORBIDDENWORD !\n".toList
      "3\nfoo\nbar\nFoo-bar/!\n".toList)
    (D := fun D => decide ((D.checker .sample .default).check 1 "foo-bar".toList = .ok true) &&
      decide (((D.checker .sample .default).lowerAsTitle true).check 1 "foo-bar".toList = .ok false)) (by decide +kernel)
  simp only [Bool.and_eq_true, decide_eq_true_eq] at h2
  exact ⟨D, h1, ⟨1, h2.1⟩, ⟨1, h2.2⟩⟩

/-- **C76**: the call may panic instead, also without entries which forbid a word: a dictionary with the entry `.` -/
theorem C76_panic_negation : ∃ D, parse .sample .default [] "1\n.\n".toList = .ok D ∧ NothingForbidden D ∧
    Accepts (D.checker .sample .default) ".".toList ∧
    Panics ((D.checker .sample .default).lowerAsTitle true) ".".toList ∧
    Panics ((D.checker .sample .default).lowerAsUpper true) ".".toList := by
  obtain ⟨D, h1, h2⟩ := of_map (x := parse .sample .default [] "1\n.\n".toList)
    (D := fun D => decide ((D.checker .sample .default).check 1 ".".toList = .ok true) &&
      decide (((D.checker .sample .default).lowerAsTitle true).check 1 ".".toList = .error .panic) &&
      decide (((D.checker .sample .default).lowerAsUpper true).check 1 ".".toList = .error .panic) &&
      D.words.slots.all (fun e => (D.checker .sample .default).goodFlags e.2)) (by decide +kernel)
  simp only [Bool.and_eq_true, decide_eq_true_eq, List.all_eq_true] at h2
  exact ⟨D, h1, fun e he => goodFlags_iff.1 (h2.2 e he), ⟨1, h2.1.1.1⟩, ⟨1, h2.1.1.2⟩, ⟨1, h2.1.2⟩⟩

/-- The examples of the documentation: `alice` and `rsvp` are accepted in their title-case and upper-case forms. -/
example : ∃ C : Checker, Reachable .sample C.dict ∧ C.dict.Shrinking ∧ NothingForbidden C.dict ∧
    BreakTable.new [] = some C.dict.aff.breakTable ∧
    (∀ word ∈ ["alice".toList, "rsvp".toList, "bob".toList], HasCasing C.U word .none ∧ Single C [] word ∧
      HasCasing C.U (titleOf C word) .init ∧ Single C [] (titleOf C word) ∧
      HasCasing C.U (upperOf C word) .all ∧ Single C [] (upperOf C word)) ∧
    Accepts ((C.lowerAsTitle true).lowerAsUpper false) "alice".toList ∧
    Accepts ((C.lowerAsTitle false).lowerAsUpper true) "rsvp".toList ∧
    ¬ Accepts ((C.lowerAsTitle true).lowerAsUpper false) "rsvp".toList ∧
    ¬ Accepts ((C.lowerAsTitle false).lowerAsUpper false) "alice".toList := by
  let words : List Str := ["alice".toList, "rsvp".toList, "bob".toList]
  obtain ⟨C, h1, h2⟩ := of_load (aff := "BREAK 0\n") (dic := "2\nAlice\nRSVP\n") (L := .default)
    (p := fun C => decide (C.check 1 "alice".toList = .ok false) &&
      decide (C.check 1 "Alice".toList = .ok true) && decide (C.check 1 "RSVP".toList = .ok true) &&
      decide (C.check 1 "rsvp".toList = .ok false) && decide (C.check 1 "Rsvp".toList = .ok false) &&
      decide (C.dict.aff.inputConversions = .empty) && decide (BreakTable.new [] = some C.dict.aff.breakTable) &&
      C.dict.words.slots.all (fun e => C.goodFlags e.2) &&
      decide (0 < C.dict.aff.options.minChars) && !C.dict.aff.options.compoundSimplifiedTriple &&
      C.dict.aff.compoundPatterns.isEmpty &&
      words.all (fun w => decide (classifyCasing .sample w = .none) &&
        decide (classifyCasing .sample (titleOf C w) = .init) &&
        decide (classifyCasing .sample (upperOf C w) = .all) &&
        [w, titleOf C w, upperOf C w].all fun w => !isNumber w &&
          (decide ((utf8 w).length ≤ 360) && w.all (fun c => !C.dict.aff.ignoreChars.contains c)
            && !w.isEmpty && (w.getLast? != some '.'))) &&
      decide (titleOf C "alice".toList = "Alice".toList) && decide (upperOf C "rsvp".toList = "RSVP".toList) &&
      decide (titleOf C "rsvp".toList = "Rsvp".toList)) (by decide +kernel)
  obtain ⟨hr, ho1, ho2, hU⟩ := loadChecker_reachable h1
  simp only [Bool.and_eq_true, decide_eq_true_eq, List.all_eq_true, Bool.not_eq_true'] at h2
  obtain ⟨⟨⟨⟨⟨⟨⟨⟨⟨⟨⟨⟨⟨⟨c1, c2⟩, c3⟩, c4⟩, c5⟩, c6⟩, c7⟩, c8⟩, c9⟩, c10⟩, c11⟩, c12⟩, c13⟩, c14⟩, c15⟩ := h2
  have hS : C.dict.Shrinking := ⟨c9, by simp [c10], by simp [List.isEmpty_iff.1 c11]⟩
  have hg : NothingForbidden C.dict := fun e he => goodFlags_iff.1 (c8 e he)
  have hall : ∀ word ∈ words, HasCasing C.U word .none ∧ Single C [] word ∧
      HasCasing C.U (titleOf C word) .init ∧ Single C [] (titleOf C word) ∧
      HasCasing C.U (upperOf C word) .all ∧ Single C [] (upperOf C word) := by
    intro w hw
    obtain ⟨⟨⟨d1, d2⟩, d3⟩, d4⟩ := c12 w hw
    have single : ∀ x ∈ [w, titleOf C w, upperOf C w], Single C [] x := by
      intro x hx
      obtain ⟨e1, e2⟩ := d4 x hx
      refine ⟨untouched_of c6 ?_, by rw [← isNumber_iff, e1]; decide, by simp⟩
      simp only [Bool.and_eq_true, decide_eq_true_eq, List.all_eq_true, Bool.not_eq_true']
      exact e2
    rw [hU]
    exact ⟨classifyCasing_iff.1 d1, single _ (by simp), classifyCasing_iff.1 d2, single _ (by simp),
      classifyCasing_iff.1 d3, single _ (by simp)⟩
  have hC0 : (C.lowerAsTitle false).lowerAsUpper false = C := by
    cases C; cases ho1; cases ho2; rfl
  have key := fun {w} (hw : w ∈ words) t u => by
    obtain ⟨a1, a2, a3, a4, a5, a6⟩ := hall w hw
    exact C76_exact hr hS hg c7 (.inl a1) a2 a3 a4 a5 a6 t u
  refine ⟨C, hr, hS, hg, c7, hall, ?_, ?_, ?_, ?_⟩
  · rw [key (by simp [words])]
    exact .inr (.inl ⟨rfl, by rw [hC0, c13]; exact ⟨1, c2⟩⟩)
  · rw [key (by simp [words])]
    exact .inr (.inr ⟨rfl, by rw [hC0, c14]; exact ⟨1, c3⟩⟩)
  · rw [key (by simp [words])]
    rintro (h | ⟨-, h⟩ | ⟨h, -⟩)
    · rw [hC0] at h; exact (C26_one_outcome _ _).2.1 ⟨h, 1, c4⟩
    · rw [hC0, c15] at h; exact (C26_one_outcome _ _).2.1 ⟨h, 1, c5⟩
    · cases h
  · rw [hC0]; exact fun h => (C26_one_outcome _ _).2.1 ⟨h, 1, c1⟩

/-! ## C77 Suggestions by similarity -/

/-- **C77**: for a word without a dash, the suggestions without those by similarity are the first of the suggestions
with those by similarity, in the same order. -/
theorem C77_prefix {S : Suggester} {word : Str} {out r : List Str}
    (hw : '-' ∉ S.C.dict.aff.inputConversions.convert word) (h : Suggests (S.withNgram true) word out r) :
    ∃ s, Suggests (S.withNgram false) word out s ∧ s <+: r := by
  obtain ⟨f, d, h⟩ := h
  obtain ⟨s, h1, h2⟩ := Suggester.suggest_prefix (S := S.withNgram true) hw h
  exact ⟨s, ⟨f, d, h1⟩, h2⟩

/-- **C77**: conversely, whenever there are suggestions without those by similarity, there are more of them with those by
similarity; unless the search for similar words panics or recurses without end. -/
theorem C77_more {S : Suggester} {word : Str} {out s : List Str}
    (hw : '-' ∉ S.C.dict.aff.inputConversions.convert word) (h : Suggests (S.withNgram false) word out s) :
    (∃ r, Suggests (S.withNgram true) word out r ∧ s <+: r) ∨ SuggestPanics (S.withNgram true) word out ∨
      SuggestDiverges (S.withNgram true) word out := by
  rcases (C39_one_outcome (S.withNgram true) word out).1 with ⟨r, hr⟩ | h' | h'
  · obtain ⟨s', h1, h2⟩ := C77_prefix hw hr
    rw [← (C39_one_outcome (S.withNgram false) word out).2.1 s s' h h1] at h2
    exact .inl ⟨r, hr, h2⟩
  · exact .inr (.inl h')
  · exact .inr (.inr h')

/-- A word which is similar to another, and one edit away from none: only the suggestions by similarity find anything. -/
example : ∃ S : Suggester, Reachable .sample S.C.dict ∧
    '-' ∉ S.C.dict.aff.inputConversions.convert "barbazqq".toList ∧
    Suggests (S.withNgram true) "barbazqq".toList [] ["barbazyz".toList] ∧
    Suggests (S.withNgram false) "barbazqq".toList [] [] := by
  obtain ⟨D, h1, h2⟩ := of_map (x := parse .sample .default [] "1\nbarbazyz\n".toList)
    (D := fun D =>
      decide (((D.suggester .sample .default .sample).withNgram false).suggest 9 9 "barbazqq".toList [] = .ok []) &&
      decide (((D.suggester .sample .default .sample).withNgram true).suggest 9 9 "barbazqq".toList [] =
        .ok ["barbazyz".toList]) &&
      decide ('-' ∉ D.aff.inputConversions.convert "barbazqq".toList)) (by decide +kernel)
  simp only [Bool.and_eq_true, decide_eq_true_eq] at h2
  exact ⟨D.suggester .sample .default .sample, .loaded h1, h2.2, ⟨9, 9, h2.1.2⟩, ⟨9, 9, h2.1.1⟩⟩

/-- **C77** is false for words with a dash: a similar word with a dash keeps the parts from being corrected. -/
theorem C77_dash_negation : ∃ D, parse .sample .default [] "2\nfo\nfxo-barbazy\n".toList = .ok D ∧
    Suggests ((D.suggester .sample .default .sample).withNgram false) "fxo-barbazq".toList [] ["fo-barbazq".toList] ∧
    Suggests (D.suggester .sample .default .sample) "fxo-barbazq".toList [] ["fxo-barbazy".toList] := by
  obtain ⟨D, h1, h2⟩ := of_map (x := parse .sample .default [] "2\nfo\nfxo-barbazy\n".toList)
    (D := fun D =>
      decide (((D.suggester .sample .default .sample).withNgram false).suggest 9 9 "fxo-barbazq".toList [] =
        .ok ["fo-barbazq".toList]) &&
      decide ((D.suggester .sample .default .sample).suggest 9 9 "fxo-barbazq".toList [] =
        .ok ["fxo-barbazy".toList])) (by decide +kernel)
  simp only [Bool.and_eq_true, decide_eq_true_eq] at h2
  exact ⟨D, h1, ⟨9, 9, h2.1⟩, ⟨9, 9, h2.2⟩⟩

end Spellbook.Props
