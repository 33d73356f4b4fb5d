import Verif.Spec.Outcome
import Verif.Proof.Whole
/-!
# Proofs about the outcomes of `check`
-/

namespace Spellbook
open Spec Props

/-- The run with this outcome. -/
def Spec.Outcome.run : Outcome → Run Bool
  | .yes => .ok true
  | .no => .ok false
  | .panics => .error .panic

namespace Checker

/-- The run has the outcome if the fuel suffices. -/
def Gives (g : Nat → Run Bool) (o : Outcome) : Prop := ∃ f, g f = o.run

/-- More fuel does not change an outcome. -/
def Mono {α : Type} (g : Nat → Run α) : Prop := ∀ {f f'}, f ≤ f' → Run.Le (g f) (g f')

theorem Mono.up {g : Nat → Run Bool} (hg : Mono g) {f f' : Nat} {o : Outcome} (h : g f = o.run) (hf : f ≤ f') :
    g f' = o.run := by
  cases o with
  | yes => exact (hg hf).ok h
  | no => exact (hg hf).ok h
  | panics => exact (hg hf).panic h

theorem Gives.const {r : Run Bool} {o : Outcome} : Gives (fun _ => r) o ↔ r = o.run :=
  ⟨fun ⟨_, h⟩ => h, fun h => ⟨0, h⟩⟩

theorem gives_or {g h : Nat → Run Bool} (hg : Mono g) (hh : Mono h) {o : Outcome} :
    Gives (fun f => g f >>= fun b => if b then pure true else h f) o ↔
      (Gives g o ∧ o ≠ .no) ∨ (Gives g .no ∧ Gives h o) := by
  constructor
  · rintro ⟨f, hf⟩
    cases hgf : g f with
    | error e =>
      simp only [hgf] at hf
      cases o with
      | panics => exact .inl ⟨⟨f, hgf.trans hf⟩, by simp⟩
      | yes => cases hf
      | no => cases hf
    | ok b =>
      simp only [hgf] at hf
      cases b with
      | true =>
        change Except.ok true = _ at hf
        cases o with
        | yes => exact .inl ⟨⟨f, hgf⟩, by simp⟩
        | no => cases hf
        | panics => cases hf
      | false => exact .inr ⟨⟨f, hgf⟩, ⟨f, hf⟩⟩
  · rintro (⟨⟨f, hf⟩, hn⟩ | ⟨⟨f, hf⟩, ⟨f', hf'⟩⟩)
    · refine ⟨f, ?_⟩
      simp only [hf]
      cases o with
      | yes => rfl
      | no => exact absurd rfl hn
      | panics => rfl
    · refine ⟨max f f', ?_⟩
      have e1 := hg.up hf (Nat.le_max_left f f')
      have e2 := hh.up hf' (Nat.le_max_right f f')
      simp only [e1, e2]
      exact e2 ▸ rfl

theorem gives_and {g h : Nat → Run Bool} (hg : Mono g) (hh : Mono h) {o : Outcome} :
    Gives (fun f => g f >>= fun b => if b then h f else pure false) o ↔
      (Gives g o ∧ o ≠ .yes) ∨ (Gives g .yes ∧ Gives h o) := by
  constructor
  · rintro ⟨f, hf⟩
    cases hgf : g f with
    | error e =>
      simp only [hgf] at hf
      cases o with
      | panics => exact .inl ⟨⟨f, hgf.trans hf⟩, by simp⟩
      | yes => cases hf
      | no => cases hf
    | ok b =>
      simp only [hgf] at hf
      cases b with
      | false =>
        change Except.ok false = _ at hf
        cases o with
        | no => exact .inl ⟨⟨f, hgf⟩, by simp⟩
        | yes => cases hf
        | panics => cases hf
      | true => exact .inr ⟨⟨f, hgf⟩, ⟨f, hf⟩⟩
  · rintro (⟨⟨f, hf⟩, hn⟩ | ⟨⟨f, hf⟩, ⟨f', hf'⟩⟩)
    · refine ⟨f, ?_⟩
      simp only [hf]
      cases o with
      | no => rfl
      | yes => exact absurd rfl hn
      | panics => rfl
    · refine ⟨max f f', ?_⟩
      have e1 := hg.up hf (Nat.le_max_left f f')
      have e2 := hh.up hf' (Nat.le_max_right f f')
      simp only [e1, e2]
      exact e2 ▸ rfl

theorem anyOf_congr {α : Type} {f g : α → Outcome → Prop} : ∀ {l : List α} {o : Outcome},
    (∀ a ∈ l, ∀ o, f a o ↔ g a o) → (AnyOf f l o ↔ AnyOf g l o)
  | [], o, _ => Iff.rfl
  | a :: l, o, h => by
    unfold AnyOf
    rw [h a (by simp), h a (by simp), anyOf_congr fun x hx => h x (by simp [hx])]

theorem anyOf_append {α : Type} {f : α → Outcome → Prop} : ∀ {l r : List α} {o : Outcome},
    AnyOf f (l ++ r) o ↔ (AnyOf f l o ∧ o ≠ .no) ∨ (AnyOf f l .no ∧ AnyOf f r o)
  | [], r, o => by
    simp only [List.nil_append, AnyOf]
    constructor
    · exact fun h => .inr ⟨trivial, h⟩
    · rintro (⟨h, h'⟩ | ⟨-, h⟩)
      · exact absurd h h'
      · exact h
  | a :: l, r, o => by
    simp only [List.cons_append, AnyOf]
    rw [anyOf_append (l := l)]
    constructor
    · rintro (⟨h, h'⟩ | ⟨h, ⟨h', h''⟩ | ⟨h', h''⟩⟩)
      · exact .inl ⟨.inl ⟨h, h'⟩, h'⟩
      · exact .inl ⟨.inr ⟨h, h'⟩, h''⟩
      · exact .inr ⟨.inr ⟨h, h'⟩, h''⟩
    · rintro (⟨⟨h, h'⟩ | ⟨h, h'⟩, h''⟩ | ⟨⟨-, h⟩ | ⟨h, h'⟩, h''⟩)
      · exact .inl ⟨h, h'⟩
      · exact .inr ⟨h, .inl ⟨h', h''⟩⟩
      · exact absurd rfl h
      · exact .inr ⟨h, .inr ⟨h', h''⟩⟩

theorem gives_anyRun {α : Type} {g : Nat → α → Run Bool} (hg : ∀ a, Mono fun f => g f a) :
    ∀ {l : List α} {o : Outcome},
    Gives (fun f => anyRun (g f) l) o ↔ AnyOf (fun a => Gives fun f => g f a) l o
  | [], o => by
    show Gives (fun _ => .ok false) o ↔ o = .no
    rw [Gives.const]
    cases o <;> simp [Outcome.run]
  | a :: l, o => by
    unfold AnyOf
    rw [← gives_anyRun hg]
    exact gives_or (hg a) (fun {f f'} hf => anyRun_le (fun x => hg x hf) l)

/-- Texts which the lines do not have are skipped. -/
theorem anyOf_filterMap {α β : Type} {f : β → Outcome → Prop} {g : α → Outcome → Prop} {t : α → Option β} :
    ∀ {l : List α} {o : Outcome}, (∀ a ∈ l, t a = none → ∀ o, g a o ↔ o = .no) →
      (∀ a ∈ l, ∀ b, t a = some b → ∀ o, f b o ↔ g a o) →
      (AnyOf f (l.filterMap t) o ↔ AnyOf g l o)
  | [], o, _, _ => Iff.rfl
  | a :: l, o, h1, h2 => by
    have ih := anyOf_filterMap (l := l) (o := o) (fun x hx => h1 x (by simp [hx])) fun x hx => h2 x (by simp [hx])
    rw [List.filterMap_cons]
    split
    · rename_i ht
      rw [ih]
      have := h1 a (by simp) ht
      simp only [AnyOf, this]
      constructor
      · exact fun h => .inr ⟨trivial, h⟩
      · rintro (⟨rfl, h⟩ | ⟨-, h⟩)
        · exact absurd rfl h
        · exact h
    · rename_i b ht
      have := h2 a (by simp) b ht
      simp only [AnyOf, this, ih]

theorem anyOf_map {α β : Type} {f : β → Outcome → Prop} {t : α → β} : ∀ {l : List α} {o : Outcome},
    AnyOf f (l.map t) o ↔ AnyOf (fun a => f (t a)) l o
  | [], o => Iff.rfl
  | a :: l, o => by simp only [List.map_cons, AnyOf, anyOf_map (l := l)]

theorem first_one (C : Checker) (fuel : Nat) (t : Str) (fc : Forceucase) (hh : HiddenHomonym) :
    Run.first (C.attempt fuel) [⟨t, fc, hh, true⟩] = C.checkWord fuel t fc hh := by
  rw [Run.first, Run.first, Run.or_none, attempt_keep]

/-- What is looked up, and whether a panic follows. -/
theorem spellCasing_lookups (C : Checker) (fuel : Nat) (w : Str) : C.spellCasing fuel w =
    (Run.first (C.attempt fuel) (lookups C w (classifyCasing C.U w)).1).or
      (if (lookups C w (classifyCasing C.U w)).2 then .error .panic else .ok none) := by
  by_cases hw : C.CanTitle w
  · rw [spellCasing_forms fuel hw]
    have : lookups C w (classifyCasing C.U w) = (attempts C w (classifyCasing C.U w), false) := by
      unfold lookups
      split
      · rfl
      · rw [if_neg (fun h => hw.1 h.1 h.2.2), if_neg (fun h => hw.2 h.1 h.2)]
    rw [this]
    simp [Run.or_none]
  · have key : ∀ b : Bool, (b = true → w ≠ []) → C.spellCasingAsIs fuel w b =
        (Run.first (C.attempt fuel)
          (if C.checkLowerAsTitle = true ∧ b = false ∧ w = [] then [⟨w, .forbidBad, .accept, true⟩]
           else [⟨w, .forbidBad, .accept, true⟩] ++
            (if C.checkLowerAsTitle = true ∧ b = false then titleAttempts C (titleOf C w) else []) ++
            [⟨[], .allowBad, .accept, true⟩])).or (.error .panic) := by
      intro b hb
      unfold spellCasingAsIs
      by_cases h : C.checkLowerAsTitle = true ∧ b = false ∧ w = []
      · rw [if_pos h]
        obtain ⟨h1, rfl, rfl⟩ := h
        rw [Run.first, Run.first, Run.or_none, attempt_keep, if_pos (by simp [h1])]
        rfl
      · rw [if_neg h]
        have hu : C.checkLowerAsUpper = true ∧ C.opts.caseHandling.uppercase C.U w = [] := by
          by_contra hn
          refine hw ⟨fun h1 h2 => ?_, fun h1 h2 => hn ⟨h1, h2⟩⟩
          cases b with
          | false => exact h ⟨h1, rfl, h2⟩
          | true => exact hb rfl h2
        have e1 : (if (C.checkLowerAsTitle && !b) = true then (do
            let title ← C.titlecase w
            C.spellCasingTitle fuel title) else .ok none : Run (Option FlagSet)) =
            Run.first (C.attempt fuel)
              (if C.checkLowerAsTitle = true ∧ b = false then titleAttempts C (titleOf C w) else []) := by
          by_cases h' : C.checkLowerAsTitle = true ∧ b = false
          · have hne : w ≠ [] := fun he => h ⟨h'.1, h'.2, he⟩
            rw [if_pos h', if_pos (by simp [h'.1, h'.2]), titlecase_titleOf hne, ← spellCasingTitle_forms]
            rfl
          · rw [if_neg h', if_neg (by simpa using h')]
            rfl
        have e2 : C.spellCasingUpper fuel [] =
            (Run.first (C.attempt fuel) [⟨[], .allowBad, .accept, true⟩]).or (.error .panic) := by
          rw [Run.first, Run.first, Run.or_none, attempt_keep]
          unfold spellCasingUpper
          have h1 : C.spellApostrophe fuel [] = .ok none := rfl
          have h2 : C.spellUpperSharps fuel [] = .ok none := by
            unfold spellUpperSharps
            rw [if_neg (by simp [containsStr, splitOnce?])]
          rw [h1, h2]
          rfl
        rw [e1, hu.2, if_pos hu.1, e2, Run.first_append, Run.first_append, first_one, first_one]
        generalize C.checkWord fuel w .forbidBad .accept = a
        generalize Run.first (C.attempt fuel)
          (if C.checkLowerAsTitle = true ∧ b = false then titleAttempts C (titleOf C w) else []) = b'
        generalize C.checkWord fuel [] .allowBad .accept = c
        cases a with
        | error e => rfl
        | ok a =>
          cases a with
          | some F => rfl
          | none =>
            cases b' with
            | error e => rfl
            | ok b' => cases b' <;> rfl
    have fin : ∀ (c : Casing) (b : Bool), c ≠ .init ∧ c ≠ .all → (b = false ↔ c ≠ .pascal) → (b = true → w ≠ []) →
        C.spellCasingAsIs fuel w b = (Run.first (C.attempt fuel) (lookups C w c).1).or
          (if (lookups C w c).2 then .error .panic else .ok none) := by
      intro c b hc hb hne
      rw [key b hne]
      unfold lookups
      rw [if_neg (show ¬ (c = .init ∨ c = .all) from by simp [hc])]
      simp only [← hb]
      by_cases h : C.checkLowerAsTitle = true ∧ b = false ∧ w = []
      · rw [if_pos h, if_pos h]
        rfl
      · have hu : C.checkLowerAsUpper = true ∧ upperOf C w = [] := by
          by_contra hn
          refine hw ⟨fun h1 h2 => ?_, fun h1 h2 => hn ⟨h1, h2⟩⟩
          cases b with
          | false => exact h ⟨h1, rfl, h2⟩
          | true => exact hne rfl h2
        rw [if_neg h, if_neg h, if_pos hu]
        rfl
    have hcase := classifyCasing_iff.1 (rfl : classifyCasing C.U w = _)
    unfold spellCasing
    cases hc : classifyCasing C.U w with
    | none => exact fin .none false (by simp) (by simp) (by simp)
    | camel => exact fin .camel false (by simp) (by simp) (by simp)
    | pascal =>
      rw [hc] at hcase
      obtain ⟨-, c, r, rfl, -⟩ := hcase
      exact fin .pascal true (by simp) (by simp) (by simp)
    | init =>
      show C.spellCasingTitle fuel w = _
      rw [spellCasingTitle_forms]
      unfold lookups
      rw [if_pos (.inl rfl)]
      simp only [Bool.false_eq_true, if_false, Run.or_none]
      rfl
    | all =>
      show C.spellCasingUpper fuel w = _
      rw [spellCasingUpper_forms C fuel fun h => ?_]
      · unfold lookups
        rw [if_pos (.inr rfl)]
        simp only [Bool.false_eq_true, if_false, Run.or_none]
        rfl
      · subst h
        rw [hc] at hcase
        obtain ⟨⟨c, hc, -⟩, -⟩ := hcase
        cases hc

theorem first_np {C : Checker} {f : Nat} : ∀ {l : List Attempt}, Run.first (C.attempt f) l ≠ .error .panic
  | [] => by simp [Run.first]
  | a :: l => by
    rw [Run.first]
    have h : C.attempt f a ≠ .error .panic := by
      unfold attempt
      have := checkWord_np (C := C) (f := f) (word := a.text) (fc := a.upper) (hh := a.hidden)
      cases hw : C.checkWord f a.text a.upper a.hidden with
      | ok o => exact nofun
      | error e =>
        rw [hw] at this
        intro he
        exact this he
    cases hw : C.attempt f a with
    | error e => rw [hw] at h; exact h
    | ok o =>
      cases o with
      | some F => exact nofun
      | none => exact first_np (l := l)

/-- What a lookup of the whole word leads to. -/
theorem casing_iff {C : Checker} (hC : C.dict.CondsParsed) (hm : 0 < C.opts.minChars) (w : Str) :
    ((∃ f, C.spellCasing f w = .ok none) ↔ Unknown C C.choice w) ∧
    (((∃ f F, C.spellCasing f w = .ok (some F) ∧ Good C.dict F) ↔ Decided C C.choice w .yes) ∧
     ((∃ f F, C.spellCasing f w = .ok (some F) ∧ ¬ Good C.dict F) ↔ Decided C C.choice w .no) ∧
     ((∃ f, C.spellCasing f w = .error .panic) ↔ Decided C C.choice w .panics)) := by
  have hfail : ∀ a : Attempt, a.Misses C ↔ a.Fails C C.choice := by
    intro a
    obtain ⟨h1, h2⟩ := finds_iff hC hm a.upper a.hidden a.text
    unfold Attempt.Misses Attempt.Fails
    simp only [h1, h2]
  have hsucc : ∀ (a : Attempt) F, a.Hits C F ↔ a.Succeeds C C.choice F := by
    intro a F
    obtain ⟨h1, h2⟩ := finds_iff hC hm a.upper a.hidden a.text
    unfold Attempt.Hits Attempt.Succeeds
    simp only [h2]
  have hcase := classifyCasing_iff.1 (rfl : classifyCasing C.U w = _)
  have huniq : ∀ {c}, HasCasing C.U w c → c = classifyCasing C.U w := fun h => (classifyCasing_iff.2 h).symm
  have hex : ∀ p : Casing → Prop, (∃ c, HasCasing C.U w c ∧ p c) ↔ p (classifyCasing C.U w) := by
    intro p
    constructor
    · rintro ⟨c, hc, h⟩; rw [huniq hc] at h; exact h
    · exact fun h => ⟨_, hcase, h⟩
  unfold Unknown Decided
  simp only [hex, spellCasing_lookups]
  generalize lookups C w (classifyCasing C.U w) = lk
  obtain ⟨l, p⟩ := lk
  have hnone : (∃ f, Run.first (C.attempt f) l = .ok none) ↔ ∀ a ∈ l, a.Fails C C.choice := by
    simp only [← hfail]
    constructor
    · rintro ⟨f, hf⟩ a ha
      rw [Run.first_eq_none] at hf
      exact misses_iff.2 ⟨f, hf a ha⟩
    · intro h
      obtain ⟨N, hN⟩ := first_none_settles h
      exact ⟨N, hN N le_rfl⟩
  have hsome : ∀ F, (∃ f, Run.first (C.attempt f) l = .ok (some F)) ↔ ∃ before a after,
      l = before ++ a :: after ∧ (∀ x ∈ before, x.Fails C C.choice) ∧ a.Succeeds C C.choice F := by
    intro F
    simp only [← hfail, ← hsucc]
    constructor
    · rintro ⟨f, hf⟩
      exact firstHit_of hf
    · intro h
      obtain ⟨N, hN⟩ := first_some_settles h
      exact ⟨N, hN N le_rfl⟩
  have hor : ∀ f F, (Run.first (C.attempt f) l).or (if p then .error .panic else .ok none) = .ok (some F) ↔
      Run.first (C.attempt f) l = .ok (some F) := by
    intro f F
    cases Run.first (C.attempt f) l with
    | error e => rfl
    | ok o =>
      cases o with
      | some G => rfl
      | none => cases p <;> exact ⟨nofun, nofun⟩
  refine ⟨?_, ?_, ?_, ?_⟩
  · rw [← hnone]
    constructor
    · rintro ⟨f, hf⟩
      cases hl : Run.first (C.attempt f) l with
      | error e => rw [hl] at hf; cases hf
      | ok o =>
        rw [hl] at hf
        cases o with
        | some G => cases hf
        | none =>
          cases p with
          | true => cases hf
          | false => exact ⟨⟨f, hl⟩, rfl⟩
    · rintro ⟨⟨f, hf⟩, hp⟩
      refine ⟨f, ?_⟩
      simp only at hp
      subst hp
      rw [hf]
      rfl
  · simp only [hor]
    constructor
    · rintro ⟨f, F, h, hg⟩
      obtain ⟨before, a, after, h⟩ := (hsome F).1 ⟨f, h⟩
      exact .inl ⟨before, a, after, F, h.1, h.2.1, h.2.2, .inl ⟨trivial, hg⟩⟩
    · rintro (⟨before, a, after, F, h1, h2, h3, ⟨-, hg⟩ | ⟨h, -⟩⟩ | ⟨-, -, h⟩)
      · obtain ⟨f, hf⟩ := (hsome F).2 ⟨before, a, after, h1, h2, h3⟩
        exact ⟨f, F, hf, hg⟩
      · cases h
      · cases h
  · simp only [hor]
    constructor
    · rintro ⟨f, F, h, hg⟩
      obtain ⟨before, a, after, h⟩ := (hsome F).1 ⟨f, h⟩
      exact .inl ⟨before, a, after, F, h.1, h.2.1, h.2.2, .inr ⟨trivial, hg⟩⟩
    · rintro (⟨before, a, after, F, h1, h2, h3, ⟨h, -⟩ | ⟨-, hg⟩⟩ | ⟨-, -, h⟩)
      · cases h
      · obtain ⟨f, hf⟩ := (hsome F).2 ⟨before, a, after, h1, h2, h3⟩
        exact ⟨f, F, hf, hg⟩
      · cases h
  · constructor
    · rintro ⟨f, hf⟩
      right
      have hn := first_np (C := C) (f := f) (l := l)
      cases hl : Run.first (C.attempt f) l with
      | error e =>
        rw [hl] at hf hn
        exact absurd hf hn
      | ok o =>
        rw [hl] at hf
        cases o with
        | some G => cases hf
        | none =>
          cases p with
          | false => cases hf
          | true => exact ⟨hnone.1 ⟨f, hl⟩, by simp⟩
    · rintro (⟨before, a, after, F, h1, h2, h3, ⟨h, -⟩ | ⟨h, -⟩⟩ | ⟨h, hp, -⟩)
      · cases h
      · cases h
      · obtain ⟨f, hf⟩ := hnone.2 h
        refine ⟨f, ?_⟩
        simp only at hp
        subst hp
        rw [hf]
        rfl

theorem goodFlags_true {C : Checker} {F : FlagSet} : C.goodFlags F = true ↔ Good C.dict F := goodFlags_iff

/-- A word which is not cut. -/
theorem gives_casing {C : Checker} (hC : C.dict.CondsParsed) (hm : 0 < C.opts.minChars) (w : Str)
    {k : Nat → Run Bool} (hk : Mono k) {o : Outcome} :
    Gives (fun f => C.spellCasing f w >>= fun r => match r with
      | some flags => pure (C.goodFlags flags)
      | none => k f) o ↔ Decided C C.choice w o ∨ (Unknown C C.choice w ∧ Gives k o) := by
  obtain ⟨h1, h2, h3, h4⟩ := casing_iff hC hm w
  constructor
  · rintro ⟨f, hf⟩
    cases hs : C.spellCasing f w with
    | error e =>
      simp only [hs] at hf
      cases o with
      | panics => exact .inl (h4.1 ⟨f, hs.trans (by cases e <;> first | rfl | cases hf)⟩)
      | yes => cases hf
      | no => cases hf
    | ok r =>
      simp only [hs] at hf
      cases r with
      | none => exact .inr ⟨h1.1 ⟨f, hs⟩, f, hf⟩
      | some F =>
        change Except.ok (C.goodFlags F) = _ at hf
        left
        cases hg : C.goodFlags F with
        | true =>
          rw [hg] at hf
          cases o with
          | yes => exact h2.1 ⟨f, F, hs, goodFlags_true.1 hg⟩
          | no => cases hf
          | panics => cases hf
        | false =>
          rw [hg] at hf
          cases o with
          | no => exact h3.1 ⟨f, F, hs, fun h => by rw [goodFlags_true.2 h] at hg; cases hg⟩
          | yes => cases hf
          | panics => cases hf
  · rintro (h | ⟨h, f', hf'⟩)
    · cases o with
      | yes =>
        obtain ⟨f, F, hs, hg⟩ := h2.2 h
        refine ⟨f, ?_⟩
        simp only [hs]
        show Except.ok (C.goodFlags F) = _
        rw [goodFlags_true.2 hg]
        rfl
      | no =>
        obtain ⟨f, F, hs, hg⟩ := h3.2 h
        refine ⟨f, ?_⟩
        simp only [hs]
        show Except.ok (C.goodFlags F) = _
        rw [show C.goodFlags F = false from by
          cases hb : C.goodFlags F with
          | false => rfl
          | true => exact absurd (goodFlags_true.1 hb) hg]
        rfl
      | panics =>
        obtain ⟨f, hs⟩ := h4.2 h
        refine ⟨f, ?_⟩
        simp only [hs]
        rfl
    · obtain ⟨f, hs⟩ := h1.2 h
      refine ⟨max f f', ?_⟩
      have e1 := (spellCasing_le C (Nat.le_max_left f f') w).ok hs
      have e2 := hk.up hf' (Nat.le_max_right f f')
      simp only [e1]
      exact e2

theorem mono_break (C : Checker) (d : Nat) (w : Str) : Mono fun f => C.doSpellBreak f d w :=
  fun {_ _} hf => doSpellBreak_le C hf d w

theorem mono_const (r : Run Bool) : Mono fun _ => r := fun _ => Run.Le.refl _

theorem allOf_one {α : Type} {f : α → Outcome → Prop} {a : α} {o : Outcome} : AllOf f [a] o ↔ f a o := by
  simp only [AllOf]
  constructor
  · rintro (⟨h, -⟩ | ⟨h, rfl⟩)
    · exact h
    · exact h
  · intro h
    by_cases ho : o = .yes
    · subst ho; exact .inr ⟨h, rfl⟩
    · exact .inl ⟨h, ho⟩

theorem allOf_two {α : Type} {f : α → Outcome → Prop} {a b : α} {o : Outcome} :
    AllOf f [a, b] o ↔ (f a o ∧ o ≠ .yes) ∨ (f a .yes ∧ f b o) := by
  rw [AllOf, allOf_one]

/-- One BREAK line. -/
def Try (lines : List Str) (C : Checker) (d : Nat) (w : Str) (t : BreakAt × Str) (o : Outcome) : Prop :=
  (∃ pieces, CutInto t.1 t.2 w pieces ∧ AllOf (fun w => Gives fun f => C.doSpellBreak f d w) pieces o) ∨
  ((¬ ∃ pieces, CutInto t.1 t.2 w pieces) ∧ o = .no)

theorem gives_false {o : Outcome} : Gives (fun _ => .ok false) o ↔ o = .no := by
  rw [Gives.const]; cases o <;> simp [Outcome.run]

theorem try_start {C : Checker} {d : Nat} {w line pat : Str} {o : Outcome} {lines : List Str}
    (h : breakText .start line = some pat) :
    Gives (fun f => startTry (C.doSpellBreak f d) w pat) o ↔ Try lines C d w (.start, line) o := by
  rw [breakText_iff] at h
  have hu : ∀ p, BreakLine line .start p → p = pat := by
    intro p hp
    have e : line = '^' :: p := hp
    have e' : line = '^' :: pat := h
    rw [e] at e'
    exact (List.cons.inj e').2
  unfold startTry Try
  cases hs : stripPrefix? w pat with
  | none =>
    simp only [gives_false]
    have hno : ¬ ∃ pieces, CutInto .start line w pieces := by
      rintro ⟨pieces, p, hp, rest, rfl, -⟩
      rw [hu p hp, stripPrefix?_iff.2 rfl] at hs
      cases hs
    constructor
    · exact fun h => .inr ⟨hno, h⟩
    · rintro (⟨pieces, hp, -⟩ | ⟨-, h⟩)
      · exact absurd ⟨pieces, hp⟩ hno
      · exact h
  | some rest =>
    have e := stripPrefix?_iff.1 hs
    have hcut : ∀ pieces, CutInto .start line w pieces ↔ pieces = [rest] := by
      intro pieces
      constructor
      · rintro ⟨p, hp, r, hr, rfl⟩
        rw [hu p hp] at hr
        rw [e] at hr
        rw [List.append_cancel_left hr]
      · rintro rfl
        exact ⟨pat, h, rest, e, rfl⟩
    simp only [hcut, exists_eq_left, allOf_one, exists_eq, not_true, false_and, or_false]

theorem try_stop {C : Checker} {d : Nat} {w line pat : Str} {o : Outcome} {lines : List Str}
    (h : breakText .stop line = some pat) :
    Gives (fun f => endTry (C.doSpellBreak f d) w pat) o ↔ Try lines C d w (.stop, line) o := by
  rw [breakText_iff] at h
  have hu : ∀ p, BreakLine line .stop p → p = pat := by
    intro p hp
    have e := hp.1
    have e' := h.1
    rw [e] at e'
    exact List.append_cancel_right e'
  unfold endTry Try
  cases hs : stripSuffix? w pat with
  | none =>
    simp only [gives_false]
    have hno : ¬ ∃ pieces, CutInto .stop line w pieces := by
      rintro ⟨pieces, p, hp, rest, rfl, -⟩
      rw [hu p hp, stripSuffix?_iff.2 rfl] at hs
      cases hs
    constructor
    · exact fun h => .inr ⟨hno, h⟩
    · rintro (⟨pieces, hp, -⟩ | ⟨-, h⟩)
      · exact absurd ⟨pieces, hp⟩ hno
      · exact h
  | some rest =>
    have e := stripSuffix?_iff.1 hs
    have hcut : ∀ pieces, CutInto .stop line w pieces ↔ pieces = [rest] := by
      intro pieces
      constructor
      · rintro ⟨p, hp, r, hr, rfl⟩
        rw [hu p hp] at hr
        rw [e] at hr
        rw [List.append_cancel_right hr]
      · rintro rfl
        exact ⟨pat, h, rest, e, rfl⟩
    simp only [hcut, exists_eq_left, allOf_one, exists_eq, not_true, false_and, or_false]

theorem try_middle {C : Checker} {d : Nat} {w line pat : Str} {o : Outcome} {lines : List Str}
    (h : breakText .middle line = some pat) :
    Gives (fun f => middleTry (C.doSpellBreak f d) w pat) o ↔ Try lines C d w (.middle, line) o := by
  rw [breakText_iff] at h
  have hu : ∀ p, BreakLine line .middle p → p = pat := by
    intro p hp
    rw [← hp.1, ← h.1]
  have hnone : ∀ {o : Outcome}, (¬ ∃ a b, splitOnce? pat w = some (a, b) ∧ b ≠ []) →
      (o = .no ↔ Try lines C d w (.middle, line) o) := by
    intro o hn
    have hno : ¬ ∃ pieces, CutInto .middle line w pieces := by
      rintro ⟨pieces, p, hp, a, b, hab, hb, -⟩
      rw [hu p hp] at hab
      exact hn ⟨a, b, splitOnce?_iff.2 hab, hb⟩
    constructor
    · exact fun h => .inr ⟨hno, h⟩
    · rintro (⟨pieces, hp, -⟩ | ⟨-, h⟩)
      · exact absurd ⟨pieces, hp⟩ hno
      · exact h
  unfold middleTry
  cases hs : splitOnce? pat w with
  | none =>
    simp only [gives_false]
    exact hnone (by rw [hs]; simp)
  | some ab =>
    obtain ⟨a, b⟩ := ab
    simp only
    cases b with
    | nil =>
      simp only [List.isEmpty_nil, if_true, gives_false]
      refine hnone ?_
      rw [hs]
      rintro ⟨a', b', e, hb⟩
      simp only [Option.some.injEq, Prod.mk.injEq] at e
      exact hb e.2.symm
    | cons x b =>
      simp only [List.isEmpty_cons, Bool.false_eq_true, if_false]
      unfold Try
      have hcut : ∀ pieces, CutInto .middle line w pieces ↔ pieces = [a, x :: b] := by
        intro pieces
        constructor
        · rintro ⟨p, hp, a', b', hab, hb, rfl⟩
          rw [hu p hp] at hab
          have e := splitOnce?_iff.2 hab
          rw [hs] at e
          simp only [Option.some.injEq, Prod.mk.injEq] at e
          rw [← e.1, ← e.2]
        · rintro rfl
          exact ⟨pat, h, a, x :: b, splitOnce?_iff.1 hs, by simp, rfl⟩
      simp only [hcut, exists_eq_left, allOf_two, exists_eq, not_true, false_and, or_false]
      exact gives_and (mono_break C d a) (mono_break C d _)

theorem try_none {C : Checker} {d : Nat} {w line : Str} {place : BreakAt} {lines : List Str}
    (h : breakText place line = none) (o : Outcome) : Try lines C d w (place, line) o ↔ o = .no := by
  have hno : ¬ ∃ pieces, CutInto place line w pieces := by
    rintro ⟨pieces, p, hp, -⟩
    rw [← breakText_iff, h] at hp
    cases hp
  unfold Try
  constructor
  · rintro (⟨pieces, hp, -⟩ | ⟨-, h⟩)
    · exact absurd ⟨pieces, hp⟩ hno
    · exact h
  · exact fun h => .inr ⟨hno, h⟩

theorem gives_loops {C : Checker} {lines : List Str} (hb : BreakTable.new lines = some C.dict.aff.breakTable)
    (d : Nat) (w : Str) {o : Outcome} :
    Gives (fun f => C.breakLoops (C.doSpellBreak f d) w) o ↔ AnyOf (Try lines C d w) (breakTries lines) o := by
  have m1 : ∀ pat, Mono fun f => startTry (C.doSpellBreak f d) w pat := by
    intro pat f f' hf
    unfold startTry
    cases stripPrefix? w pat with
    | none => exact Run.Le.refl _
    | some rest => exact doSpellBreak_le C hf d rest
  have m2 : ∀ pat, Mono fun f => endTry (C.doSpellBreak f d) w pat := by
    intro pat f f' hf
    unfold endTry
    cases stripSuffix? w pat with
    | none => exact Run.Le.refl _
    | some rest => exact doSpellBreak_le C hf d rest
  have m3 : ∀ pat, Mono fun f => middleTry (C.doSpellBreak f d) w pat := by
    intro pat f f' hf
    unfold middleTry
    split
    · split
      · exact Run.Le.refl _
      · refine Run.Le.bind (doSpellBreak_le C hf d _) fun b => ?_
        cases b
        · exact Run.Le.refl _
        · exact doSpellBreak_le C hf d _
    · exact Run.Le.refl _
  obtain ⟨t1, t2, t3⟩ := BreakTable.new_spec hb
  have s1 : ∀ {o}, Gives (fun f => anyRun (startTry (C.doSpellBreak f d) w) C.aff.breakTable.startBreaks) o ↔
      AnyOf (Try lines C d w) (lines.map (BreakAt.start, ·)) o := by
    intro o
    rw [gives_anyRun m1, anyOf_map]
    rw [show C.aff.breakTable.startBreaks = _ from t1]
    exact anyOf_filterMap (fun a _ h => try_none h) fun a _ b h o => try_start h
  have s2 : ∀ {o}, Gives (fun f => anyRun (endTry (C.doSpellBreak f d) w) C.aff.breakTable.endBreaks) o ↔
      AnyOf (Try lines C d w) (lines.map (BreakAt.stop, ·)) o := by
    intro o
    rw [gives_anyRun m2, anyOf_map]
    rw [show C.aff.breakTable.endBreaks = _ from t3]
    exact anyOf_filterMap (fun a _ h => try_none h) fun a _ b h o => try_stop h
  have s3 : ∀ {o}, Gives (fun f => anyRun (middleTry (C.doSpellBreak f d) w) C.aff.breakTable.middleBreaks) o ↔
      AnyOf (Try lines C d w) (lines.map (BreakAt.middle, ·)) o := by
    intro o
    rw [gives_anyRun m3, anyOf_map]
    rw [show C.aff.breakTable.middleBreaks = _ from t2]
    exact anyOf_filterMap (fun a _ h => try_none h) fun a _ b h o => try_middle h
  have n1 : Mono fun f => anyRun (startTry (C.doSpellBreak f d) w) C.aff.breakTable.startBreaks :=
    fun {_ _} hf => anyRun_le (fun x => m1 x hf) _
  have n2 : Mono fun f => anyRun (endTry (C.doSpellBreak f d) w) C.aff.breakTable.endBreaks :=
    fun {_ _} hf => anyRun_le (fun x => m2 x hf) _
  have n3 : Mono fun f => anyRun (middleTry (C.doSpellBreak f d) w) C.aff.breakTable.middleBreaks :=
    fun {_ _} hf => anyRun_le (fun x => m3 x hf) _
  simp only [breakLoops_eq]
  rw [gives_or n1 (h := fun f => anyRun (endTry (C.doSpellBreak f d) w) C.aff.breakTable.endBreaks >>= fun b =>
        if b then pure true else anyRun (middleTry (C.doSpellBreak f d) w) C.aff.breakTable.middleBreaks),
    gives_or n2 n3, s1, s1, s2, s2, s3]
  · unfold breakTries
    rw [List.append_assoc, anyOf_append, anyOf_append]
  · intro f f' hf
    refine Run.Le.bind (n2 hf) fun b => ?_
    cases b
    · exact n3 hf
    · exact Run.Le.refl _

/-- Every outcome of BREAK. -/
theorem gives_break {C : Checker} (hC : C.dict.CondsParsed) (hm : 0 < C.opts.minChars) {lines : List Str}
    (hb : BreakTable.new lines = some C.dict.aff.breakTable) : ∀ (d : Nat) (w : Str) (o : Outcome),
    Gives (fun f => C.doSpellBreak f d w) o ↔ BreakHappens C C.choice lines d w o
  | 0, w, o => by
    unfold BreakHappens
    rw [← gives_false]
    exact gives_casing hC hm w (mono_const _)
  | d + 1, w, o => by
    unfold BreakHappens
    have ih : (fun w => Gives fun f => C.doSpellBreak f d w) = BreakHappens C C.choice lines d := by
      funext w o
      exact propext (gives_break hC hm hb d w o)
    rw [← ih]
    change _ ↔ _ ∨ (_ ∧ AnyOf (Try lines C d w) (breakTries lines) o)
    rw [← gives_loops hb]
    exact gives_casing hC hm w fun {_ _} hf => breakLoops_le C (doSpellBreak_le C hf d) w

end Checker
end Spellbook
