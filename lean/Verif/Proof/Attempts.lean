import Verif.Spec.Attempts
import Verif.Proof.Check
import Verif.Proof.Outcome
/-!
# Proofs about letter-case attempts
-/

namespace Spellbook
open Spec

namespace Checker

/-- The run of one attempt. -/
def attempt (C : Checker) (fuel : Nat) (a : Attempt) : Run (Option FlagSet) :=
  (C.checkWord fuel a.text a.upper a.hidden).map fun r =>
    r.filter fun F => a.keepCase || !hasFlag F C.opts.keepCaseFlag

theorem sharpTexts_cons {c : Char} {s : Str} {k : Nat} (h : ¬ ['s', 's'] <+: c :: s) :
    sharpTexts (k + 1) (c :: s) = (sharpTexts (k + 1) s).map (c :: ·) := by
  rw [sharpTexts, sharpTexts, splitOnce?, if_neg (by simpa using h)]
  cases hs : splitOnce? ['s', 's'] s with
  | none => rfl
  | some ab => simp [List.map_map, Function.comp_def]

theorem sharps_eq : ∀ (k : Nat) (s : Str), sharps k s = sharpTexts k s
  | 0, s => by rw [sharps, sharpTexts]
  | k + 1, [] => by rw [sharps, sharpTexts]; rfl
  | k + 1, [c] => by
    rw [sharps, sharpTexts_cons (by intro h; simpa using h.length_le), sharpTexts]; rfl
  | k + 1, c :: d :: s => by
    rw [sharps]
    split
    · rename_i h
      obtain ⟨rfl, rfl⟩ := h
      rw [sharps_eq k s, sharpTexts, splitOnce?, if_pos (by simp)]
      rfl
    · rename_i h
      have hp : ¬ ['s', 's'] <+: c :: d :: s := by
        rintro ⟨t, ht⟩
        simp only [List.cons_append, List.nil_append, List.cons.injEq] at ht
        exact h ⟨ht.1.symm, ht.2.1.symm⟩
      rw [sharps_eq (k + 1) (d :: s), sharpTexts_cons hp]

theorem containsStr_infix {p w : Str} : containsStr w p = true ↔ p <:+: w := by
  rw [containsStr_iff]
  constructor
  · rintro ⟨a, b, rfl⟩; exact ⟨a, b, rfl⟩
  · rintro ⟨a, b, h⟩; exact ⟨a, b, h.symm⟩

theorem splitOnce?_apostrophe : ∀ (w : Str), splitOnce? ['\''] w =
    match w.dropWhile (· ≠ '\'') with
    | [] => none
    | _ :: b => some (w.takeWhile (· ≠ '\''), b)
  | [] => rfl
  | c :: s => by
    rw [splitOnce?]
    by_cases hc : c = '\''
    · subst hc; simp
    · have : ¬ (['\''].isPrefixOf (c :: s) = true) := by simpa using fun h : '\'' = c => hc h.symm
      rw [if_neg this, splitOnce?_apostrophe s, List.dropWhile_cons_of_pos (by simpa using hc),
        List.takeWhile_cons_of_pos (by simpa using hc)]
      cases s.dropWhile (· ≠ '\'') <;> rfl

theorem titlecase_titleOf {C : Checker} {w : Str} (hw : w ≠ []) : C.titlecase w = .ok (titleOf C w) := by
  cases w with
  | nil => exact absurd rfl hw
  | cons c cs => rfl

theorem attempt_keep (C : Checker) (fuel : Nat) (t : Str) (fc : Forceucase) (hh : HiddenHomonym) :
    C.attempt fuel ⟨t, fc, hh, true⟩ = C.checkWord fuel t fc hh := by
  unfold attempt
  cases C.checkWord fuel t fc hh with
  | error e => rfl
  | ok o => cases o <;> rfl

theorem attempt_drop (C : Checker) (fuel : Nat) (t : Str) (fc : Forceucase) (hh : HiddenHomonym) :
    C.attempt fuel ⟨t, fc, hh, false⟩ = (C.checkWord fuel t fc hh).map C.dropKeepCase := rfl

theorem first_keep (C : Checker) (fuel : Nat) (fc : Forceucase) (hh : HiddenHomonym) (l : List Str) :
    Run.first (C.attempt fuel) (l.map fun t => ⟨t, fc, hh, true⟩)
      = Run.first (fun t => C.checkWord fuel t fc hh) l := by
  rw [Run.first_map]
  congr 1
  funext t
  exact attempt_keep C fuel t fc hh

theorem spellSharps_forms (C : Checker) (fuel : Nat) (w : Str) : C.spellSharps fuel w =
    Run.first (fun t => C.checkWord fuel t .allowBad .accept) (sharpForms w) := by
  rw [spellSharps_eq, sharpForms]
  by_cases h : ['s', 's'] <:+: w
  · rw [if_pos (containsStr_infix.2 h), if_pos h, sharps_eq]
  · rw [if_neg (fun h' => h (containsStr_infix.1 h')), if_neg h]

theorem spellApostrophe_forms (C : Checker) (fuel : Nat) (w : Str) : C.spellApostrophe fuel w =
    Run.first (fun t => C.checkWord fuel t .allowBad .accept) (articleForms C w) := by
  unfold spellApostrophe articleForms
  rw [splitOnce?_apostrophe]
  cases hd : w.dropWhile (· ≠ '\'') with
  | nil => rfl
  | cons q b =>
    cases b with
    | nil => rfl
    | cons b bs =>
      simp only [List.isEmpty_cons, Bool.false_eq_true, if_false]
      rw [titlecase_titleOf (by simp)]
      show Run.or _ (C.titlecase _ >>= _) = _
      rw [titlecase_titleOf (by simp), Run.first, Run.first, Run.first, Run.or_none]
      rfl

theorem spellUpperSharps_forms (C : Checker) (fuel : Nat) {w : Str} (hw : w ≠ []) : C.spellUpperSharps fuel w =
    Run.first (fun t => C.checkWord fuel t .allowBad .accept)
      (if C.dict.aff.options.checksharps = true ∧ ['S', 'S'] <:+: w then
        sharpForms (lowerOf C w) ++ sharpForms (titleOf C w) else []) := by
  unfold spellUpperSharps
  by_cases h : C.dict.aff.options.checksharps = true ∧ ['S', 'S'] <:+: w
  · rw [if_pos h, if_pos (by simp [h.1, containsStr_infix.2 h.2]), Run.first_append, titlecase_titleOf hw,
      ← spellSharps_forms, ← spellSharps_forms]
    rfl
  · rw [if_neg h, if_neg (by
      intro h'; rw [Bool.and_eq_true] at h'; exact h ⟨h'.1, containsStr_infix.1 h'.2⟩)]
    rfl

theorem spellCasingUpper_forms (C : Checker) (fuel : Nat) {w : Str} (hw : w ≠ []) :
    C.spellCasingUpper fuel w = Run.first (C.attempt fuel) (capsAttempts C w) := by
  unfold spellCasingUpper capsAttempts
  rw [Run.first_append, first_keep, Run.first, Run.first_append, ← spellApostrophe_forms,
    ← spellUpperSharps_forms C fuel hw, titlecase_titleOf hw, Run.first, Run.first, Run.first, Run.or_none,
    attempt_drop, attempt_drop]
  show Run.or _ (Run.or _ (Run.or _ (Run.or _ _))) = _
  cases C.checkWord fuel w .allowBad .accept with
  | error e => rfl
  | ok o =>
    cases o with
    | some F => rfl
    | none =>
      cases C.spellApostrophe fuel w with
      | error e => rfl
      | ok o =>
        cases o with
        | some F => rfl
        | none => rfl

theorem spellCasingTitle_forms (C : Checker) (fuel : Nat) (w : Str) :
    C.spellCasingTitle fuel w = Run.first (C.attempt fuel) (titleAttempts C w) := by
  unfold spellCasingTitle titleAttempts
  rw [Run.first, Run.first, Run.first, Run.or_none, attempt_keep]
  congr 1
  unfold attempt
  simp only
  congr 1
  funext r
  unfold titleKeepCase
  congr 1
  funext F
  show _ = ((C.opts.checksharps && decide _) || _)
  have : (lowerOf C w).contains 'ß' = decide ('ß' ∈ lowerOf C w) := by simp
  rw [← this]
  show (!(_ && !(_ && (lowerOf C w).contains 'ß'))) = _
  cases hasFlag F C.opts.keepCaseFlag <;> cases C.opts.checksharps <;> cases (lowerOf C w).contains 'ß' <;> rfl

theorem spellCasingAsIs_forms {C : Checker} (fuel : Nat) {w : Str} (hw : C.CanTitle w) (b : Bool) :
    C.spellCasingAsIs fuel w b = Run.first (C.attempt fuel) (plainAttempts C w b) := by
  unfold spellCasingAsIs plainAttempts
  rw [List.append_assoc, Run.first_append, Run.first_append, Run.first, Run.first, Run.or_none, attempt_keep]
  congr 1
  congr 1
  · by_cases h : C.checkLowerAsTitle = true ∧ b = false
    · rw [if_pos h, if_pos (by simp [h.1, h.2]), titlecase_titleOf (hw.1 h.1), ← spellCasingTitle_forms]
      rfl
    · rw [if_neg h, if_neg (by simpa using h)]
      rfl
  · by_cases h : C.checkLowerAsUpper = true
    · rw [if_pos h, if_pos h]
      exact spellCasingUpper_forms C fuel (hw.2 h)
    · rw [if_neg h, if_neg h]
      rfl

theorem spellCasing_forms {C : Checker} (fuel : Nat) {w : Str} (hw : C.CanTitle w) :
    C.spellCasing fuel w = Run.first (C.attempt fuel) (attempts C w (classifyCasing C.U w)) := by
  unfold spellCasing
  cases hc : classifyCasing C.U w with
  | none => exact spellCasingAsIs_forms fuel hw _
  | camel => exact spellCasingAsIs_forms fuel hw _
  | pascal => exact spellCasingAsIs_forms fuel hw _
  | init => exact spellCasingTitle_forms C fuel w
  | all =>
    refine spellCasingUpper_forms C fuel fun h => ?_
    subst h
    obtain ⟨⟨c, hc, -⟩, -⟩ := classifyCasing_iff.1 hc
    cases hc

theorem attempt_settles {C : Checker} {a : Attempt} {f : Nat} {o : Option FlagSet} (h : C.attempt f a = .ok o) :
    Settles (fun f => C.attempt f a) o := by
  unfold attempt at h
  cases hw : C.checkWord f a.text a.upper a.hidden with
  | error e => rw [hw] at h; cases h
  | ok r =>
    obtain ⟨N, hN⟩ := checkWord_settles hw
    refine ⟨N, fun f' hf => ?_⟩
    have := hN f' hf
    dsimp only at this ⊢
    unfold attempt
    rw [this, ← h, hw]

theorem hits_iff {C : Checker} {a : Attempt} {F : FlagSet} : a.Hits C F ↔ ∃ fuel, C.attempt fuel a = .ok (some F) := by
  unfold Attempt.Hits Finds KeepsCase attempt
  rw [← hasFlag_iff]
  constructor
  · rintro ⟨⟨f, hf⟩, hk⟩
    refine ⟨f, ?_⟩
    rw [hf]
    show Except.ok (Option.filter _ (some F)) = _
    rw [Option.filter_some, if_pos]
    rcases hk with hk | hk
    · simp [hk]
    · simp only [Bool.or_eq_true, Bool.not_eq_true']
      exact .inr (by simpa using hk)
  · rintro ⟨f, hf⟩
    cases hw : C.checkWord f a.text a.upper a.hidden with
    | error e => rw [hw] at hf; cases hf
    | ok o =>
      rw [hw] at hf
      cases o with
      | none => cases hf
      | some G =>
        change Except.ok (Option.filter _ (some G)) = _ at hf
        rw [Option.filter_some] at hf
        split at hf
        · rename_i hG
          simp only [Except.ok.injEq, Option.some.injEq] at hf
          subst hf
          refine ⟨⟨f, hw⟩, ?_⟩
          simp only [Bool.or_eq_true, Bool.not_eq_true'] at hG
          simpa using hG
        · simp at hf

theorem misses_iff {C : Checker} {a : Attempt} : a.Misses C ↔ ∃ fuel, C.attempt fuel a = .ok none := by
  unfold Attempt.Misses FindsNothing Finds KeepsCase attempt
  constructor
  · rintro (⟨f, hf⟩ | ⟨F, ⟨f, hf⟩, hk, hF⟩)
    · exact ⟨f, by rw [hf]; rfl⟩
    · refine ⟨f, ?_⟩
      rw [hf]
      show Except.ok (Option.filter _ (some F)) = _
      rw [Option.filter_some, if_neg]
      rw [← hasFlag_iff] at hF
      simp only [hk, Bool.false_or, Bool.not_eq_true', Bool.not_eq_false]
      exact hF
  · rintro ⟨f, hf⟩
    cases hw : C.checkWord f a.text a.upper a.hidden with
    | error e => rw [hw] at hf; cases hf
    | ok o =>
      rw [hw] at hf
      cases o with
      | none => exact .inl ⟨f, hw⟩
      | some G =>
        right
        change Except.ok (Option.filter _ (some G)) = _ at hf
        rw [Option.filter_some] at hf
        split at hf
        · simp at hf
        · rename_i hG
          refine ⟨G, ⟨f, hw⟩, ?_⟩
          simp only [Bool.or_eq_true, Bool.not_eq_true', not_or, Bool.not_eq_true, Bool.not_eq_false] at hG
          exact ⟨hG.1, hasFlag_iff.1 hG.2⟩

theorem first_none_settles {C : Checker} : ∀ {l : List Attempt}, (∀ a ∈ l, a.Misses C) →
    Settles (fun f => Run.first (C.attempt f) l) none
  | [], _ => ⟨0, fun _ _ => rfl⟩
  | a :: l, h => by
    obtain ⟨N, hN⟩ := first_none_settles (l := l) fun x hx => h x (List.mem_cons_of_mem _ hx)
    obtain ⟨f, hf⟩ := misses_iff.1 (h a (by simp))
    obtain ⟨M, hM⟩ := attempt_settles hf
    refine ⟨max N M, fun f hf => ?_⟩
    have h1 := hN f (by omega)
    have h2 := hM f (by omega)
    dsimp only at h1 h2 ⊢
    rw [Run.first, h2, h1]
    rfl

theorem first_some_settles {C : Checker} {l : List Attempt} {F : FlagSet} (h : FirstHit C l F) :
    Settles (fun f => Run.first (C.attempt f) l) (some F) := by
  obtain ⟨before, a, after, rfl, h1, h2⟩ := h
  obtain ⟨N, hN⟩ := first_none_settles h1
  obtain ⟨f, hf⟩ := hits_iff.1 h2
  obtain ⟨M, hM⟩ := attempt_settles hf
  refine ⟨max N M, fun f hf => ?_⟩
  have h1 := hN f (by omega)
  have h2 := hM f (by omega)
  dsimp only at h1 h2 ⊢
  rw [Run.first_append, h1, Run.first, h2]
  rfl

theorem firstHit_of {C : Checker} {f : Nat} {F : FlagSet} : ∀ {l : List Attempt},
    Run.first (C.attempt f) l = .ok (some F) → FirstHit C l F
  | [], h => by cases h
  | a :: l, h => by
    rw [Run.first] at h
    cases ha : C.attempt f a with
    | error e => rw [ha] at h; cases h
    | ok o =>
      rw [ha] at h
      cases o with
      | some G =>
        simp only [Run.or, Except.ok.injEq, Option.some.injEq] at h
        subst h
        exact ⟨[], a, l, rfl, by simp, hits_iff.2 ⟨f, ha⟩⟩
      | none =>
        obtain ⟨b, x, r, rfl, h1, h2⟩ := firstHit_of (l := l) h
        refine ⟨a :: b, x, r, rfl, ?_, h2⟩
        intro y hy
        rcases List.mem_cons.1 hy with rfl | hy
        · exact misses_iff.2 ⟨f, ha⟩
        · exact h1 y hy

end Checker
end Spellbook
