import Mathlib.Data.Set.Finite.Lattice
import Verif.Spec.Unmunch
import Verif.Proof.Removal
/-!
# Word lists without affixes

Two checkers without compounds whose lookups of simple words answer alike give the same answers. A dictionary and the
list of all its words are such checkers, if the marks of a word do not depend on how it was made.
-/

namespace Spellbook.Unmunch
open Spec

/-- Both lookups fail, or both find entries which are equally good and keep their case alike. -/
def Agree (C C' : Checker) (o o' : Option FlagSet) : Prop :=
  (o = none ∧ o' = none) ∨ ∃ F F', o = some F ∧ o' = some F' ∧ C.goodFlags F = C'.goodFlags F' ∧
    hasFlag F C.opts.keepCaseFlag = hasFlag F' C'.opts.keepCaseFlag

theorem Agree.or {C C' : Checker} {o o' p p' : Option FlagSet} (h1 : Agree C C' o o') (h2 : Agree C C' p p') :
    Agree C C' (o.or p) (o'.or p') := by
  rcases h1 with ⟨rfl, rfl⟩ | ⟨F, F', rfl, rfl, h⟩
  · exact h2
  · exact .inr ⟨F, F', rfl, rfl, h⟩

theorem Agree.filter {C C' : Checker} {o o' : Option FlagSet} (h : Agree C C' o o') (b : Bool) :
    Agree C C' (o.filter fun F => b || !hasFlag F C.opts.keepCaseFlag)
      (o'.filter fun F => b || !hasFlag F C'.opts.keepCaseFlag) := by
  rcases h with ⟨rfl, rfl⟩ | ⟨F, F', rfl, rfl, h, hk⟩
  · exact .inl ⟨rfl, rfl⟩
  · rw [Option.filter_some, Option.filter_some, hk]
    split
    · exact .inr ⟨F, F', rfl, rfl, h, hk⟩
    · exact .inl ⟨rfl, rfl⟩

variable {C C' : Checker} (h : ListsAll C C')

section
include h

theorem opts : C'.opts = { C.opts with needAffixFlag := none } := by
  unfold Checker.opts
  rw [h.settings]
  rfl

theorem attempts (w : Str) : Spec.attempts C' w = Spec.attempts C w := by
  have e1 : C'.opts.caseHandling = C.opts.caseHandling := by rw [opts h]
  have e2 : C'.dict.aff.options.checksharps = C.dict.aff.options.checksharps := by rw [h.settings]; rfl
  have e3 : titleOf C' = titleOf C := by
    funext w
    cases w <;> simp only [titleOf, e1, h.unicode]
  have e4 : lowerOf C' = lowerOf C := by funext; simp only [lowerOf, e1, h.unicode]
  have e5 : upperOf C' = upperOf C := by funext; simp only [upperOf, e1, h.unicode]
  have e6 : articleForms C' = articleForms C := by
    funext w
    unfold articleForms
    rw [e3, e4]
  have e7 : capsAttempts C' = capsAttempts C := by
    funext w
    unfold capsAttempts
    simp only [e2, e3, e4, e6]
  have e8 : titleAttempts C' = titleAttempts C := by
    funext w
    unfold titleAttempts
    simp only [e2, e4]
  funext c
  cases c <;> simp only [Spec.attempts, plainAttempts, e3, e5, e7, e8, h.title, h.upper]

/-- The words made without affixes in the list are the words made with affixes in the dictionary. -/
theorem derives {sk : Bool} {w : Str} {F : FlagSet} :
    (∃ stem steps, Derives .code C'.dict sk w stem F steps) ↔ ∃ stem steps, Derives .code C.dict sk w stem F steps := by
  have noMem : ∀ k (a : Affix), a ∉ tableOf C'.dict k := by
    intro k a ha
    unfold tableOf at ha
    rw [h.settings] at ha
    cases k <;> cases ha
  have weaken : ∀ {stem steps}, Derives .code C.dict sk w stem F steps → Derives .code C.dict false w stem F steps := by
    intro stem steps hd
    cases hd with
    | listed e a b => exact .listed ⟨e.1, e.2, nofun⟩ a b
    | one e a b c d f => exact .one ⟨e.1, e.2, nofun⟩ a b c d f
    | pair e a b c d f g => exact .pair ⟨e.1, e.2, nofun⟩ a b c d f g
    | two e a b c d f g => exact .two ⟨e.1, e.2, nofun⟩ a b c d f g
    | twoThenOne e a b c d f g i j k => exact .twoThenOne ⟨e.1, e.2, nofun⟩ a b c d f g i j k
    | sandwich e a b c d f g i j k l => exact .sandwich ⟨e.1, e.2, nofun⟩ a b c d f g i j k l
  have strengthen : ∀ {stem steps}, (sk = true → 65535 ∉ F.elems) → Derives .code C.dict false w stem F steps →
      Derives .code C.dict sk w stem F steps := by
    intro stem steps hk hd
    cases hd with
    | listed e a b => exact .listed ⟨e.1, e.2, hk⟩ a b
    | one e a b c d f => exact .one ⟨e.1, e.2, hk⟩ a b c d f
    | pair e a b c d f g => exact .pair ⟨e.1, e.2, hk⟩ a b c d f g
    | two e a b c d f g => exact .two ⟨e.1, e.2, hk⟩ a b c d f g
    | twoThenOne e a b c d f g i j k => exact .twoThenOne ⟨e.1, e.2, hk⟩ a b c d f g i j k
    | sandwich e a b c d f g i j k l => exact .sandwich ⟨e.1, e.2, hk⟩ a b c d f g i j k l
  constructor
  · rintro ⟨stem, steps, hd⟩
    cases hd with
    | listed e same =>
      subst same
      obtain ⟨stem, steps, hd⟩ := (h.words _ _).1 e.1
      exact ⟨stem, steps, strengthen e.3 hd⟩
    | one _ s => exact absurd s.1 (noMem _ _)
    | pair _ s => exact absurd s.1 (noMem _ _)
    | two _ s => exact absurd s.1 (noMem _ _)
    | twoThenOne _ s => exact absurd s.1 (noMem _ _)
    | sandwich _ s => exact absurd s.1 (noMem _ _)
  · rintro ⟨stem, steps, hd⟩
    have hu := Props.Derives.usable hd
    refine ⟨w, [], .listed ⟨(h.words _ _).2 ⟨stem, steps, weaken hd⟩, ?_, hu.3⟩ rfl ?_⟩
    · rw [h.settings]
      exact hu.2
    · rw [h.settings]
      rintro ⟨x, hx, -⟩
      cases hx

theorem condsParsed : C'.dict.CondsParsed := by
  intro k a ha
  unfold tableOf at ha
  rw [h.settings] at ha
  cases k <;> cases ha

variable (hm : SameMarks C.dict) (hC : C.dict.CondsParsed)
include hm hC

theorem simple (w : Str) (hh : HiddenHomonym) : Agree C C' (C.checkSimpleWord w hh) (C'.checkSimpleWord w hh) := by
  have y := Checker.checkSimpleWord_yields hC w hh
  have y' := Checker.checkSimpleWord_yields (condsParsed h) w hh
  cases e : C.checkSimpleWord w hh with
  | none =>
    refine .inl ⟨rfl, ?_⟩
    cases e' : C'.checkSimpleWord w hh with
    | none => rfl
    | some F =>
      have := y.2 ⟨F, (derives h).1 (y'.1 F e')⟩
      rw [e] at this
      cases this
  | some F =>
    obtain ⟨stem, steps, hd⟩ := y.1 F e
    obtain ⟨F', e'⟩ := Option.isSome_iff_exists.1 (y'.2 ⟨F, (derives h).2 ⟨stem, steps, hd⟩⟩)
    obtain ⟨stem', steps', hd'⟩ := (derives h).1 (y'.1 F' e')
    obtain ⟨hg, hk⟩ := hm _ _ _ _ _ _ _ _ hd hd'
    refine .inr ⟨F, F', rfl, e', ?_, ?_⟩
    · have : C'.goodFlags F' = C.goodFlags F' := by
        unfold Checker.goodFlags
        rw [opts h]
      rw [this, Bool.eq_iff_iff, Checker.goodFlags_iff, Checker.goodFlags_iff]
      exact hg
    · rw [opts h, Bool.eq_iff_iff, Checker.hasFlag_iff, Checker.hasFlag_iff]
      exact hk

variable (hn : C.dict.aff.options.allowsCompounding = false) (hr : C.dict.aff.compoundRules.rules = [])
include hn hr

theorem first (fuel : Nat) : ∀ l : List Attempt, ∃ o o',
    Run.first (C.attempt fuel) l = .ok o ∧ Run.first (C'.attempt fuel) l = .ok o' ∧ Agree C C' o o'
  | [] => ⟨_, _, rfl, rfl, .inl ⟨rfl, rfl⟩⟩
  | a :: l => by
    have hn' : C'.dict.aff.options.allowsCompounding = false := by rw [h.settings]; exact hn
    have hr' : C'.dict.aff.compoundRules.rules = [] := by rw [h.settings]; exact hr
    obtain ⟨o, o', h1, h2, h3⟩ := first fuel l
    have hb := (simple h hm hC a.text a.hidden).filter a.keepCase
    have e1 : C.attempt fuel a = .ok ((C.checkSimpleWord a.text a.hidden).filter
        fun F => a.keepCase || !hasFlag F C.opts.keepCaseFlag) := by
      rw [Checker.attempt, Props.checkWord_alone hn hr]; rfl
    have e2 : C'.attempt fuel a = .ok ((C'.checkSimpleWord a.text a.hidden).filter
        fun F => a.keepCase || !hasFlag F C'.opts.keepCaseFlag) := by
      rw [Checker.attempt, Props.checkWord_alone hn' hr']; rfl
    refine ⟨_, _, ?_, ?_, hb.or h3⟩
    · rw [Run.first, e1, h1]
      generalize Option.filter _ _ = x
      cases x <;> rfl
    · rw [Run.first, e2, h2]
      generalize Option.filter _ _ = x
      cases x <;> rfl

variable (h1 : C.checkLowerAsTitle = false) (h2 : C.checkLowerAsUpper = false)
include h1 h2

theorem spellCasing (fuel : Nat) (w : Str) : ∃ o o',
    C.spellCasing fuel w = .ok o ∧ C'.spellCasing fuel w = .ok o' ∧ Agree C C' o o' := by
  rw [Checker.spellCasing_forms fuel (Props.canTitle_default h1 h2 w),
    Checker.spellCasing_forms (C := C') fuel (Props.canTitle_default (h.title.trans h1) (h.upper.trans h2) w),
    attempts h, h.unicode]
  exact first h hm hC hn hr fuel _

theorem doSpellBreak (fuel : Nat) : ∀ (d : Nat) (w : Str), C'.doSpellBreak fuel d w = C.doSpellBreak fuel d w := by
  have hb : C'.aff.breakTable = C.aff.breakTable := by unfold Checker.aff; rw [h.settings]; rfl
  intro d
  induction d with
  | zero =>
    intro w
    obtain ⟨o, o', e, e', ha⟩ := spellCasing h hm hC hn hr h1 h2 fuel w
    rw [Checker.doSpellBreak, Checker.doSpellBreak, e, e']
    rcases ha with ⟨rfl, rfl⟩ | ⟨F, F', rfl, rfl, hg, -⟩
    · rfl
    · exact congrArg Except.ok hg.symm
  | succ d ih =>
    intro w
    obtain ⟨o, o', e, e', ha⟩ := spellCasing h hm hC hn hr h1 h2 fuel w
    rw [Checker.doSpellBreak, Checker.doSpellBreak, e, e']
    rcases ha with ⟨rfl, rfl⟩ | ⟨F, F', rfl, rfl, hg, -⟩
    · change C'.breakLoops (C'.doSpellBreak fuel d) w = C.breakLoops (C.doSpellBreak fuel d) w
      rw [show C'.doSpellBreak fuel d = C.doSpellBreak fuel d from funext ih, Checker.breakLoops, hb, Checker.breakLoops]
    · exact congrArg Except.ok hg.symm

theorem check (fuel : Nat) (w : Str) : C'.check fuel w = C.check fuel w := by
  have hi : C'.aff.inputConversions = C.aff.inputConversions := by unfold Checker.aff; rw [h.settings]; rfl
  have hg : C'.aff.ignoreChars = C.aff.ignoreChars := by unfold Checker.aff; rw [h.settings]; rfl
  simp only [Checker.check, Checker.checkConverted, Checker.spellBreak, hi, hg, doSpellBreak h hm hC hn hr h1 h2]

end

/-! ## There are finitely many words -/

/-- The texts made from a text with at most `n` affixes are finitely many. -/
theorem made_finite (D : Dict) : ∀ (n : Nat) (s : Str), {w | ∃ steps, steps.length ≤ n ∧ MadeBy D s steps w}.Finite
  | 0, s => by
    refine (Set.finite_singleton s).subset ?_
    rintro w ⟨steps, hl, hm⟩
    cases hm with
    | nil => exact rfl
    | cons => simp at hl
  | n + 1, s => by
    have one : ∀ (k : Kind) (a : Affix), {t | Applies k a s t}.Finite := by
      intro k a
      refine Set.Subsingleton.finite ?_
      intro t ht t' ht'
      cases k
      · obtain ⟨r, e, rfl⟩ := ht
        obtain ⟨r', e', rfl⟩ := ht'
        rw [List.append_cancel_left (e.symm.trans e')]
      · obtain ⟨r, e, rfl⟩ := ht
        obtain ⟨r', e', rfl⟩ := ht'
        rw [List.append_cancel_right (e.symm.trans e')]
    have all : ∀ k : Kind, (⋃ a ∈ {a | a ∈ tableOf D k}, ⋃ t ∈ {t | Applies k a s t},
        {w | ∃ steps, steps.length ≤ n ∧ MadeBy D t steps w}).Finite := fun k =>
      (List.finite_toSet _).biUnion fun a _ => (one k a).biUnion fun t _ => made_finite D n t
    refine ((Set.finite_singleton s).union ((all .pfx).union (all .sfx))).subset ?_
    rintro w ⟨steps, hl, hm⟩
    cases hm with
    | nil => exact .inl rfl
    | @cons k a _ t _ rest ha happ hm =>
      have hl' : rest.length ≤ n := by simpa using hl
      have hw : ∀ {A : Set Str}, (⋃ a ∈ {a | a ∈ tableOf D k}, ⋃ t ∈ {t | Applies k a s t},
        {w | ∃ steps, steps.length ≤ n ∧ MadeBy D t steps w}) ⊆ A → w ∈ A := fun hA => hA <| by
        simp only [Set.mem_iUnion, Set.mem_setOf_eq]
        exact ⟨a, ha, t, happ, rest, hl', hm⟩
      cases k
      · exact .inr (.inl (hw subset_rfl))
      · exact .inr (.inr (hw subset_rfl))

theorem derives_finite (D : Dict) : {e : Str × FlagSet | ∃ stem steps, Derives .code D false e.1 stem e.2 steps}.Finite := by
  have : (⋃ e ∈ {e | e ∈ D.words.slots}, (fun w => (w, e.2)) ''
      {w | ∃ steps, steps.length ≤ 3 ∧ MadeBy D e.1 steps w}).Finite :=
    (List.finite_toSet _).biUnion fun e _ => (made_finite D 3 e.1).image _
  refine this.subset ?_
  rintro ⟨w, F⟩ ⟨stem, steps, hd⟩
  simp only [Set.mem_iUnion, Set.mem_setOf_eq, Set.mem_image]
  refine ⟨(stem, F), (Props.Derives.usable hd).1, w, ⟨steps, ?_, Props.Derives.madeBy hd⟩, rfl⟩
  cases hd <;> simp

end Spellbook.Unmunch
