import Verif.Spec.Derivation
import Verif.Proof.AffixIndex
import Verif.Proof.Condition
import Verif.Proof.FlagSet
import Verif.Proof.HashBag
/-! # Simple words: the search functions against the specification -/

namespace Spellbook

/-- A search answers with something satisfying `P`, and answers if there is such a thing. -/
def Yields {α : Type} (o : Option α) (P : α → Prop) : Prop :=
  (∀ a, o = some a → P a) ∧ ((∃ a, P a) → o.isSome = true)

namespace Yields
variable {α β : Type}

theorem some (v : α) : Yields (some v) (· = v) := by
  constructor
  · intro a h; simpa using h.symm
  · simp

theorem guard {b : Bool} {o : Option α} {P : α → Prop} (h : Yields o P) :
    Yields (if b then none else o) (fun a => b = false ∧ P a) := by
  cases b with
  | true => constructor <;> simp
  | false => simpa using h

theorem guardIff {b : Bool} {p : Prop} {o : Option α} {P : α → Prop} (hb : b = false ↔ p)
    (h : p → Yields o P) : Yields (if b then none else o) (fun a => p ∧ P a) := by
  cases b with
  | true =>
    have hp : ¬ p := fun hp => by simpa using hb.2 hp
    constructor <;> simp [hp]
  | false =>
    have hp : p := hb.1 rfl
    simpa [hp] using h hp

theorem find {l : List β} {f : β → Option α} {P : β → α → Prop} (h : ∀ x ∈ l, Yields (f x) (P x)) :
    Yields (l.findSome? f) (fun a => ∃ x ∈ l, P x a) := by
  constructor
  · intro a ha
    obtain ⟨x, hx, hfx⟩ := List.exists_of_findSome?_eq_some ha
    exact ⟨x, hx, (h x hx).1 a hfx⟩
  · rintro ⟨a, x, hx, hp⟩
    rw [List.findSome?_isSome_iff]
    exact ⟨x, hx, (h x hx).2 ⟨a, hp⟩⟩

theorem congr {o : Option α} {P Q : α → Prop} (h : Yields o P) (hpq : ∀ a, P a ↔ Q a) : Yields o Q :=
  ⟨fun a ha => (hpq a).1 (h.1 a ha), fun ⟨a, ha⟩ => h.2 ⟨a, (hpq a).2 ha⟩⟩

theorem isSome_iff {o : Option α} {P : α → Prop} (h : Yields o P) : o.isSome = true ↔ ∃ a, P a :=
  ⟨fun ho => by obtain ⟨a, ha⟩ := Option.isSome_iff_exists.1 ho; exact ⟨a, h.1 a ha⟩, h.2⟩

theorem none_iff {o : Option α} {P : α → Prop} (h : Yields o P) : o = none ↔ ∀ a, ¬ P a := by
  rw [← Option.not_isSome_iff_eq_none, h.isSome_iff]; simp

theorem map {o : Option α} {P : α → Prop} (f : α → β) (h : Yields o P) :
    Yields (o.map f) (fun b => ∃ a, P a ∧ b = f a) := by
  constructor
  · intro b hb
    obtain ⟨a, ha, rfl⟩ := Option.map_eq_some_iff.1 hb
    exact ⟨a, h.1 a ha, rfl⟩
  · rintro ⟨b, a, ha, _⟩
    rw [Option.isSome_map]
    exact h.2 ⟨a, ha⟩

theorem or {o o' : Option α} {P Q : α → Prop} (h : Yields o P) (h' : Yields o' Q) :
    Yields (o.or o') (fun a => P a ∨ Q a) := by
  constructor
  · intro a ha
    cases o with
    | some v => exact Or.inl (h.1 a (by simpa using ha))
    | none => exact Or.inr (h'.1 a (by simpa using ha))
  · rintro ⟨a, ha | ha⟩
    · have := h.2 ⟨a, ha⟩; simp [this]
    · have := h'.2 ⟨a, ha⟩; simp [this]

theorem ite {b : Bool} {o o' : Option α} {P Q : α → Prop} (h : Yields o P) (h' : Yields o' Q) :
    Yields (if b then o else o') (fun a => (b = true ∧ P a) ∨ (b = false ∧ Q a)) := by
  cases b <;> simpa

end Yields

namespace Checker
open Spec

/-! ### The vocabulary of the specification -/

theorem hasFlag_iff {F : FlagSet} {f : Option Nat} : hasFlag F f = true ↔ Has F f := by
  unfold hasFlag Has
  cases f with
  | none => simp
  | some x => simp [FlagSet.contains_iff]

theorem hasFlag_false {F : FlagSet} {f : Option Nat} : hasFlag F f = false ↔ ¬ Has F f := by
  rw [← hasFlag_iff]; simp

theorem conditionMatches_iff {D : Dict} (h : D.CondsParsed) {k : Kind} {a : Affix}
    (ha : a ∈ tableOf D k) {w : Str} : a.conditionMatches k w = true ↔ CondHolds k a w := by
  unfold CondHolds
  cases hc : a.condition with
  | none => cases k <;> simp [Affix.conditionMatches, Affix.prefixConditionMatches,
      Affix.suffixConditionMatches, hc]
  | some c =>
    have hp := h k a ha c hc
    obtain ⟨es, hes, _⟩ := Condition.parse_ok_iff.1 hp
    cases k with
    | pfx =>
      simp only [Affix.conditionMatches, Option.some.injEq, forall_eq']
      constructor
      · intro hm
        exact ⟨es, hes, (Affix.prefixConditionMatches_iff hp hc hes).1 hm⟩
      · rintro ⟨es', hes', hm⟩
        exact (Affix.prefixConditionMatches_iff hp hc hes').2 hm
    | sfx =>
      simp only [Affix.conditionMatches, Option.some.injEq, forall_eq']
      constructor
      · intro hm
        exact ⟨es, hes, (Affix.suffixConditionMatches_iff hp hc hes).1 hm⟩
      · rintro ⟨es', hes', hm⟩
        exact (Affix.suffixConditionMatches_iff hp hc hes').2 hm

theorem mem_entries {C : Checker} {w : Str} {e : Str × FlagSet} :
    e ∈ C.entries w ↔ e ∈ C.dict.words.slots ∧ e.1 = w := Bag.mem_get

theorem applies_iff {k : Kind} {a : Affix} {stem word : Str} :
    Spec.Applies k a stem word ↔ a.addMatches k word = true ∧ a.toStem k word = stem := by
  constructor
  · intro h
    exact ⟨Affix.Applies.addMatches h, Affix.toStem_of_applies h⟩
  · rintro ⟨h, rfl⟩
    exact Affix.applies_toStem h

theorem mem_affixesOf {C : Checker} {k : Kind} {w : Str} {a : Affix} :
    a ∈ C.affixesOf k w ↔ a ∈ tableOf C.dict k ∧ a.addMatches k w = true := by
  unfold affixesOf index tableOf
  cases k <;> exact AffixIndex.mem_affixesOf

/-- Searching the affixes of a word and continuing with the stem. -/
theorem exists_affix {C : Checker} {k : Kind} {word : Str} {P : Affix → Str → Prop} :
    (∃ a ∈ C.affixesOf k word, P a (a.toStem k word)) ↔
      ∃ a stem, a ∈ tableOf C.dict k ∧ Applies k a stem word ∧ P a stem := by
  constructor
  · rintro ⟨a, ha, hp⟩
    obtain ⟨h1, h2⟩ := mem_affixesOf.1 ha
    exact ⟨a, _, h1, applies_iff.2 ⟨h2, rfl⟩, hp⟩
  · rintro ⟨a, stem, h1, h2, hp⟩
    obtain ⟨h3, rfl⟩ := applies_iff.1 h2
    exact ⟨a, mem_affixesOf.2 ⟨h1, h3⟩, hp⟩

theorem exists_entry {C : Checker} {stem : Str} {P : Str × FlagSet → Prop} :
    (∃ e ∈ C.entries stem, P e) ↔ ∃ F, (stem, F) ∈ C.dict.words.slots ∧ P (stem, F) := by
  constructor
  · rintro ⟨⟨s, F⟩, he, hp⟩
    obtain ⟨h1, h2⟩ := mem_entries.1 he
    simp only at h2; subst h2
    exact ⟨F, h1, hp⟩
  · rintro ⟨F, h1, hp⟩
    exact ⟨_, mem_entries.2 ⟨h1, rfl⟩, hp⟩

theorem allFlags_contains {C : Checker} {k : Kind} {f : Nat} :
    (C.index k).allFlags.contains f = true ↔ ∃ a ∈ tableOf C.dict k, f ∈ a.flags.elems := by
  unfold AffixIndex.allFlags
  rw [FlagSet.contains_ofList]
  cases k <;> simp [index, tableOf]

theorem isEmpty_false_of_contains {F : FlagSet} {f : Nat} (h : F.contains f = true) :
    F.isEmpty = false := by
  rw [FlagSet.contains_iff] at h
  unfold FlagSet.isEmpty
  cases hF : F.elems with
  | nil => simp [hF] at h
  | cons => rfl

theorem isOuterAffixValid_iff {C : Checker} {k : Kind} {m : Mode} {a : Affix} :
    C.isOuterAffixValid k m a = true ↔
      isValid k m a C.opts = true ∧ ¬ NeedsAffix C.dict a := by
  unfold isOuterAffixValid NeedsAffix
  cases isValid k m a C.opts
  · simp
  · simp [← hasFlag_iff]

theorem isValid_full {C : Checker} {k : Kind} {a : Affix} :
    isValid k .full a C.opts = true ↔ InFullWord C.dict a := by
  unfold isValid InFullWord
  have h : (hasFlag a.flags C.opts.onlyInCompoundFlag = true) ↔ _ := hasFlag_iff
  cases k <;> simp [← h]

theorem isCircumfix_iff {C : Checker} {a : Affix} : C.isCircumfix a = true ↔ Circumfix C.dict a :=
  hasFlag_iff

theorem fullEntryOk_iff {C : Checker} {hh : HiddenHomonym} {stem : Str} {F : FlagSet}
    (h : (stem, F) ∈ C.dict.words.slots) :
    C.fullEntryOk hh F = true ↔ Usable C.dict hh.skips stem F := by
  unfold fullEntryOk
  constructor
  · intro ho
    refine ⟨h, ?_, ?_⟩
    · intro hc
      have : hasFlag F C.opts.onlyInCompoundFlag = true := hasFlag_iff.2 hc
      simp [this] at ho
    · intro hs hm
      have : F.contains hiddenHomonymFlag = true := FlagSet.contains_iff.2 hm
      simp [hs, this] at ho
  · rintro ⟨_, h2, h3⟩
    have h2' : hasFlag F C.opts.onlyInCompoundFlag = false := hasFlag_false.2 h2
    rw [h2']
    by_cases hs : hh.skips = true
    · have h3' : F.contains hiddenHomonymFlag = false := by
        rw [← Bool.not_eq_true, FlagSet.contains_iff]; exact h3 hs
      simp [h3']
    · simp [hs]

/-! ### What the functions find -/

/-- What `strip_suffix_only` and `strip_prefix_only` report. -/
def onlyForm (k : Kind) (stem : Str) (F : FlagSet) (a : Affix) : AffixForm :=
  match k with
  | .sfx => { stem, flags := F, suffixes := (some a, none) }
  | .pfx => { stem, flags := F, prefixes := (some a, none) }

/-- Searching the affixes of a word and continuing with the stem. -/
theorem _root_.Spellbook.Yields.affix {α : Type} {C : Checker} {k : Kind} {word : Str}
    {f : Affix → Option α} {P : Affix → Str → α → Prop}
    (h : ∀ a stem, a ∈ tableOf C.dict k → a.toStem k word = stem → Yields (f a) (P a stem)) :
    Yields ((C.affixesOf k word).findSome? f) fun r => ∃ a stem,
      (a ∈ tableOf C.dict k ∧ Applies k a stem word) ∧ P a stem r := by
  refine (Yields.find (P := fun a => P a (a.toStem k word))
    fun a ha => h a _ (mem_affixesOf.1 ha).1 rfl).congr ?_
  intro r
  rw [exists_affix (P := fun a stem => P a stem r)]
  simp only [and_assoc]

/-- Searching the entries of a stem. -/
theorem _root_.Spellbook.Yields.entry {α : Type} {C : Checker} {stem : Str}
    {f : Str × FlagSet → Option α} {P : FlagSet → α → Prop}
    (h : ∀ F, (stem, F) ∈ C.dict.words.slots → Yields (f (stem, F)) (P F)) :
    Yields ((C.entries stem).findSome? f) fun r => ∃ F, (stem, F) ∈ C.dict.words.slots ∧ P F r := by
  refine (Yields.find (P := fun e => P e.2) ?_).congr ?_
  · rintro ⟨s, F⟩ he
    obtain ⟨h1, h2⟩ := mem_entries.1 he
    simp only at h2; subst h2
    exact h F h1
  · intro r
    exact exists_entry (P := fun e => P e.2 r)

/-! Each test of the code as a statement of the specification. -/

theorem not_contains {F : FlagSet} {f : Nat} : (!F.contains f) = false ↔ f ∈ F.elems := by
  simp [← FlagSet.contains_iff]

theorem not_outer {C : Checker} {k : Kind} {m : Mode} {a : Affix} :
    (!C.isOuterAffixValid k m a) = false ↔ isValid k m a C.opts = true ∧ ¬ NeedsAffix C.dict a := by
  rw [← isOuterAffixValid_iff]; simp

theorem not_outer_full {C : Checker} {k : Kind} {a : Affix} :
    (!C.isOuterAffixValid k .full a) = false ↔ InFullWord C.dict a ∧ ¬ NeedsAffix C.dict a := by
  rw [not_outer, isValid_full]

theorem not_valid_full {C : Checker} {k : Kind} {a : Affix} :
    (!isValid k .full a C.opts) = false ↔ InFullWord C.dict a := by
  rw [← isValid_full (k := k)]; simp

theorem circ_false {C : Checker} {a : Affix} : C.isCircumfix a = false ↔ ¬ Circumfix C.dict a := by
  rw [← isCircumfix_iff]; simp

theorem circ_ne {C : Checker} {a b : Affix} :
    (C.isCircumfix a != C.isCircumfix b) = false ↔ (Circumfix C.dict a ↔ Circumfix C.dict b) := by
  rw [← isCircumfix_iff, ← isCircumfix_iff]
  cases C.isCircumfix a <;> cases C.isCircumfix b <;> simp

theorem not_cond {C : Checker} (hC : C.dict.CondsParsed) {k : Kind} {a : Affix}
    (ha : a ∈ tableOf C.dict k) {w : Str} :
    (!a.conditionMatches k w) = false ↔ CondHolds k a w := by
  rw [← conditionMatches_iff hC ha]; simp

theorem not_cross {a : Affix} : (!a.crossproduct) = false ↔ a.crossproduct = true := by simp

theorem hidden_false {hh : HiddenHomonym} {F : FlagSet} :
    (hh.skips && F.contains hiddenHomonymFlag) = false ↔ (hh.skips = true → 65535 ∉ F.elems) := by
  have : F.contains hiddenHomonymFlag = true ↔ 65535 ∈ F.elems := FlagSet.contains_iff
  rw [← this]
  cases hh.skips <;> simp

theorem oic_false {m : Mode} {F : FlagSet} {f : Option Nat} :
    (m == .full && hasFlag F f) = false ↔ ¬ (m = .full ∧ Has F f) := by
  rw [← hasFlag_iff, ← Bool.not_eq_true]; simp

theorem stripOnly_yields {C : Checker} (hC : C.dict.CondsParsed) (k : Kind) (m : Mode) (word : Str)
    (hh : HiddenHomonym) :
    Yields (C.stripOnly k m word hh) fun form => ∃ a stem,
      (a ∈ tableOf C.dict k ∧ Applies k a stem word) ∧
      (isValid k m a C.opts = true ∧ ¬ NeedsAffix C.dict a) ∧
      ¬ (a.add ≠ [] ∧ m = .atEnd ∧ ¬ InFullWord C.dict a) ∧
      ¬ Circumfix C.dict a ∧ CondHolds k a stem ∧
      ∃ F, (stem, F) ∈ C.dict.words.slots ∧
      a.flag ∈ F.elems ∧ ¬ (m = .full ∧ Has F C.opts.onlyInCompoundFlag) ∧
      (hh.skips = true → 65535 ∉ F.elems) ∧
      (C.isValidInsideCompound m F = true ∨ C.isValidInsideCompound m a.flags = true) ∧
      form = onlyForm k stem F a := by
  refine Yields.affix fun a stem ha hst => ?_
  unfold onlyAffix
  simp only [hst]
  refine .guardIff not_outer fun _ => .guardIff ?_ fun _ => .guardIff circ_false fun _ =>
    .guardIff (not_cond hC ha) fun _ => .entry fun F hF => ?_
  · rw [← Bool.not_eq_true]
    simp [InFullWord, ← hasFlag_iff, and_assoc]
  · unfold onlyEntry
    refine .guardIff not_contains fun _ => .guardIff oic_false fun _ => .guardIff hidden_false
      fun _ => .guardIff (by cases C.isValidInsideCompound m F <;> simp) fun _ => ?_
    cases k <;> exact .some _

theorem stripComm_yields {C : Checker} (hC : C.dict.CondsParsed) (m : Mode) (word : Str)
    (hh : HiddenHomonym) :
    Yields (C.stripComm m word hh) fun form => ∃ p stem,
      (p ∈ tableOf C.dict .pfx ∧ Applies .pfx p stem word) ∧
      p.crossproduct = true ∧ isValid .pfx m p C.opts = true ∧ CondHolds .pfx p stem ∧
      ∃ s stem2, (s ∈ tableOf C.dict .sfx ∧ Applies .sfx s stem2 stem) ∧
      s.crossproduct = true ∧ isValid .sfx m s C.opts = true ∧
      ¬ (NeedsAffix C.dict p ∧ NeedsAffix C.dict s) ∧
      (Circumfix C.dict p ↔ Circumfix C.dict s) ∧ CondHolds .sfx s stem2 ∧
      ∃ F, (stem2, F) ∈ C.dict.words.slots ∧
      ((¬ NeedsAffix C.dict p ∧ s.flag ∈ F.elems ∧ (p.flag ∈ s.flags.elems ∨ p.flag ∈ F.elems)) ∨
        (¬ NeedsAffix C.dict s ∧ p.flag ∈ F.elems ∧ (s.flag ∈ p.flags.elems ∨ s.flag ∈ F.elems))) ∧
      ¬ (m = .full ∧ Has F C.opts.onlyInCompoundFlag) ∧
      (hh.skips = true → 65535 ∉ F.elems) ∧
      (C.isValidInsideCompound m F = true ∨ C.isValidInsideCompound m s.flags = true ∨
        C.isValidInsideCompound m p.flags = true) ∧
      form = { stem := stem2, flags := F, prefixes := (some p, none), suffixes := (some s, none) } := by
  refine Yields.affix fun p stem hp hst => ?_
  unfold commPrefix
  simp only [hst]
  refine .guardIff not_cross fun _ => .guardIff (by simp) fun _ =>
    .guardIff (not_cond hC hp) fun _ => .affix fun s stem2 hs hst2 => ?_
  unfold commSuffix
  simp only [hst2]
  refine .guardIff not_cross fun _ => .guardIff (by simp) fun _ => .guardIff ?_ fun _ =>
    .guardIff circ_ne fun _ => .guardIff (not_cond hC hs) fun _ => .entry fun F hF => ?_
  · rw [← Bool.not_eq_true]
    simp [NeedsAffix, ← hasFlag_iff]
  · unfold commEntry
    dsimp only
    refine .guardIff ?_ fun _ => .guardIff oic_false fun _ => .guardIff hidden_false fun _ =>
      .guardIff ?_ fun _ => .some _
    · rw [← Bool.not_eq_true]
      simp only [NeedsAffix, ← hasFlag_iff, ← FlagSet.contains_iff]
      simp only [Bool.and_eq_true, Bool.not_eq_true', not_and]
      cases hasFlag p.flags C.opts.needAffixFlag <;> cases hasFlag s.flags C.opts.needAffixFlag <;>
      cases F.contains s.flag <;> cases F.contains p.flag <;> cases s.flags.contains p.flag <;>
      cases p.flags.contains s.flag <;> simp
    · cases C.isValidInsideCompound m F <;> cases C.isValidInsideCompound m s.flags <;>
      cases C.isValidInsideCompound m p.flags <;> simp

/-- What `strip_suffix_then_suffix` and `strip_prefix_then_prefix` report. -/
def twoForm (k : Kind) (stem : Str) (F : FlagSet) (outer inner : Affix) : AffixForm :=
  match k with
  | .sfx => { stem, flags := F, suffixes := (some outer, some inner) }
  | .pfx => { stem, flags := F, prefixes := (some outer, some inner) }

theorem not_full {C : Checker} {hh : HiddenHomonym} {stem : Str} {F : FlagSet}
    (h : (stem, F) ∈ C.dict.words.slots) :
    (!C.fullEntryOk hh F) = false ↔ Usable C.dict hh.skips stem F := by
  rw [← fullEntryOk_iff h]; simp

/-- A search behind a fast lane which is implied by what is searched for. -/
theorem _root_.Spellbook.Yields.fast {α : Type} {b : Bool} {o : Option α} {P : α → Prop}
    (h : Yields o P) (hb : ∀ a, P a → b = false) : Yields (if b then none else o) P :=
  (Yields.guard h).congr fun a => ⟨fun x => x.2, fun x => ⟨hb a x, x⟩⟩

theorem stripTwo_yields {C : Checker} (hC : C.dict.CondsParsed) (k : Kind) (word : Str)
    (hh : HiddenHomonym) :
    Yields (C.stripTwo k word hh) fun form => ∃ outer stem,
      (outer ∈ tableOf C.dict k ∧ Applies k outer stem word) ∧
      (InFullWord C.dict outer ∧ ¬ NeedsAffix C.dict outer) ∧ ¬ Circumfix C.dict outer ∧
      CondHolds k outer stem ∧
      ∃ inner stem2, (inner ∈ tableOf C.dict k ∧ Applies k inner stem2 stem) ∧
      outer.flag ∈ inner.flags.elems ∧ InFullWord C.dict inner ∧ ¬ Circumfix C.dict inner ∧
      CondHolds k inner stem2 ∧
      ∃ F, (stem2, F) ∈ C.dict.words.slots ∧ inner.flag ∈ F.elems ∧ Usable C.dict hh.skips stem2 F ∧
      form = twoForm k stem2 F outer inner := by
  refine Yields.fast (Yields.affix fun outer stem ho hst => ?_) ?_
  · unfold twoOuter
    simp only [hst]
    refine .fast (.guardIff not_outer_full fun _ => .guardIff circ_false fun _ =>
      .guardIff (not_cond hC ho) fun _ => .affix fun inner stem2 hi hst2 => ?_) ?_
    · unfold twoInner
      simp only [hst2]
      refine .guardIff not_contains fun _ => .guardIff not_valid_full fun _ =>
        .guardIff circ_false fun _ => .guardIff (not_cond hC hi) fun _ => .entry fun F hF => ?_
      unfold twoEntry
      refine .guardIff not_contains fun _ => .guardIff (not_full hF) fun _ => ?_
      cases k <;> exact .some _
    · rintro form ⟨_, _, _, inner, _, ⟨hi, _⟩, hf, _⟩
      simpa using allFlags_contains.2 ⟨inner, hi, hf⟩
  · rintro form ⟨outer, _, _, _, _, _, inner, _, ⟨hi, _⟩, hf, _⟩
    exact isEmpty_false_of_contains (allFlags_contains.2 ⟨inner, hi, hf⟩)

theorem suffix_allFlags {C : Checker} {f : Nat} :
    C.aff.suffixes.allFlags.contains f = true ↔ ∃ a ∈ tableOf C.dict .sfx, f ∈ a.flags.elems :=
  allFlags_contains (C := C) (k := .sfx)

theorem prefix_allFlags {C : Checker} {f : Nat} :
    C.aff.prefixes.allFlags.contains f = true ↔ ∃ a ∈ tableOf C.dict .pfx, f ∈ a.flags.elems :=
  allFlags_contains (C := C) (k := .pfx)

theorem stripOneTwo_yields {C : Checker} (hC : C.dict.CondsParsed) (k : Kind) (word : Str)
    (hh : HiddenHomonym) :
    Yields (C.stripOneTwo k word hh) fun form => ∃ one stem,
      (one ∈ tableOf C.dict k ∧ Applies k one stem word) ∧ one.crossproduct = true ∧
      (InFullWord C.dict one ∧ ¬ NeedsAffix C.dict one) ∧ CondHolds k one stem ∧
      ∃ outer stem2, (outer ∈ tableOf C.dict k.other ∧ Applies k.other outer stem2 stem) ∧
      (∃ s ∈ tableOf C.dict .sfx, outer.flag ∈ s.flags.elems) ∧
      outer.crossproduct = true ∧ InFullWord C.dict outer ∧
      (Circumfix C.dict one ↔ Circumfix C.dict outer) ∧ CondHolds k.other outer stem2 ∧
      ∃ inner stem3, (inner ∈ tableOf C.dict k.other ∧ Applies k.other inner stem3 stem2) ∧
      outer.flag ∈ inner.flags.elems ∧ InFullWord C.dict inner ∧ ¬ Circumfix C.dict inner ∧
      CondHolds k.other inner stem3 ∧
      ∃ F, (stem3, F) ∈ C.dict.words.slots ∧
      (one.flag ∈ outer.flags.elems ∨ one.flag ∈ F.elems) ∧ inner.flag ∈ F.elems ∧
      Usable C.dict hh.skips stem3 F ∧ form = threeForm k (stem3, F) one outer inner := by
  refine Yields.fast (Yields.affix fun one stem ho hst => ?_) ?_
  · unfold oneTwoFirst
    simp only [hst]
    refine .guardIff not_cross fun _ => .guardIff not_outer_full fun _ =>
      .guardIff (not_cond hC ho) fun _ => .affix fun outer stem2 hou hst2 => ?_
    unfold oneTwoOuter
    simp only [hst2]
    refine .guardIff ?_ fun _ => .guardIff not_cross fun _ => .guardIff not_valid_full fun _ =>
      .guardIff circ_ne fun _ => .guardIff (not_cond hC hou) fun _ => .affix fun inner stem3 hi hst3 => ?_
    · rw [← suffix_allFlags]; simp
    unfold oneTwoInner
    simp only [hst3]
    refine .guardIff not_contains fun _ => .guardIff not_valid_full fun _ =>
      .guardIff circ_false fun _ => .guardIff (not_cond hC hi) fun _ => .entry fun F hF => ?_
    unfold oneTwoEntry
    refine .guardIff ?_ fun _ => .guardIff not_contains fun _ => .guardIff (not_full hF) fun _ => .some _
    simp only [← FlagSet.contains_iff]
    cases outer.flags.contains one.flag <;> simp
  · rintro form ⟨_, _, _, _, _, _, outer, _, _, ⟨s, hs, hf⟩, _⟩
    exact isEmpty_false_of_contains (suffix_allFlags.2 ⟨s, hs, hf⟩)

theorem stripSandwich_yields {C : Checker} (hC : C.dict.CondsParsed) (k : Kind) (word : Str)
    (hh : HiddenHomonym) :
    Yields (C.stripSandwich k word hh) fun form => ∃ outer stem,
      (outer ∈ tableOf C.dict k ∧ Applies k outer stem word) ∧ outer.crossproduct = true ∧
      (InFullWord C.dict outer ∧ ¬ NeedsAffix C.dict outer) ∧ CondHolds k outer stem ∧
      ∃ mid stem2, (mid ∈ tableOf C.dict k.other ∧ Applies k.other mid stem2 stem) ∧
      mid.crossproduct = true ∧ InFullWord C.dict mid ∧ CondHolds k.other mid stem ∧
      ∃ inner stem3, (inner ∈ tableOf C.dict k ∧ Applies k inner stem3 stem2) ∧
      inner.crossproduct = true ∧
      (outer.flag ∈ inner.flags.elems ∨ outer.flag ∈ mid.flags.elems) ∧ InFullWord C.dict inner ∧
      (((Circumfix C.dict mid ↔ Circumfix C.dict outer) ∧ ¬ Circumfix C.dict inner) ∨
        ((Circumfix C.dict mid ↔ Circumfix C.dict inner) ∧ ¬ Circumfix C.dict outer)) ∧
      CondHolds k inner stem3 ∧
      ∃ F, (stem3, F) ∈ C.dict.words.slots ∧
      (mid.flag ∈ inner.flags.elems ∨ mid.flag ∈ F.elems) ∧ inner.flag ∈ F.elems ∧
      Usable C.dict hh.skips stem3 F ∧ form = threeForm k.other (stem3, F) mid outer inner := by
  have key : ∀ {f : Nat} {inner mid : Affix}, inner ∈ tableOf C.dict k →
      mid ∈ tableOf C.dict k.other → (f ∈ inner.flags.elems ∨ f ∈ mid.flags.elems) →
      C.aff.prefixes.allFlags.contains f = true ∨ C.aff.suffixes.allFlags.contains f = true := by
    intro f inner mid hi hm h
    rw [prefix_allFlags, suffix_allFlags]
    cases k with
    | pfx =>
      rcases h with h | h
      · exact Or.inl ⟨_, hi, h⟩
      · exact Or.inr ⟨_, hm, h⟩
    | sfx =>
      rcases h with h | h
      · exact Or.inr ⟨_, hi, h⟩
      · exact Or.inl ⟨_, hm, h⟩
  refine Yields.fast (Yields.affix fun outer stem ho hst => ?_) ?_
  · unfold sandwichOuter
    simp only [hst]
    refine .fast (.guardIff not_cross fun _ => .guardIff not_outer_full fun _ =>
      .guardIff (not_cond hC ho) fun _ => .affix fun mid stem2 hm hst2 => ?_) ?_
    · unfold sandwichMid
      simp only [hst2]
      refine .guardIff not_cross fun _ => .guardIff not_valid_full fun _ =>
        .guardIff (not_cond hC hm) fun _ => .affix fun inner stem3 hi hst3 => ?_
      unfold sandwichInner
      simp only [hst3]
      refine .guardIff not_cross fun _ => .guardIff ?_ fun _ => .guardIff not_valid_full fun _ =>
        .guardIff ?_ fun _ => .guardIff (not_cond hC hi) fun _ => .entry fun F hF => ?_
      · simp only [← FlagSet.contains_iff]
        cases inner.flags.contains outer.flag <;> simp
      · simp only [← isCircumfix_iff]
        cases C.isCircumfix mid <;> cases C.isCircumfix outer <;> cases C.isCircumfix inner <;> simp
      · unfold sandwichEntry
        refine .guardIff ?_ fun _ => .guardIff not_contains fun _ => .guardIff (not_full hF)
          fun _ => .some _
        simp only [← FlagSet.contains_iff]
        cases inner.flags.contains mid.flag <;> simp
    · rintro form ⟨_, _, _, mid, _, ⟨hm, _⟩, _, _, _, inner, _, ⟨hi, _⟩, _, hf, _⟩
      rcases key hi hm hf with h | h <;> simp only [h] <;> simp
  · rintro form ⟨outer, _, _, _, _, _, mid, _, ⟨hm, _⟩, _, _, _, inner, _, ⟨hi, _⟩, _, hf, _⟩
    rcases key hi hm hf with h | h <;> simp [isEmpty_false_of_contains h]

theorem direct_yields {C : Checker} (word : Str) (hh : HiddenHomonym) :
    Yields ((C.entries word).findSome? (C.directEntry hh)) fun F' => ∃ F,
      (word, F) ∈ C.dict.words.slots ∧ ¬ Has F C.opts.needAffixFlag ∧
      ¬ Has F C.opts.onlyInCompoundFlag ∧ (hh.skips = true → 65535 ∉ F.elems) ∧ F' = F := by
  refine .entry fun F hF => ?_
  unfold directEntry
  exact .guardIff hasFlag_false fun _ => .guardIff hasFlag_false fun _ => .guardIff hidden_false
    fun _ => .some _

/-- The lookup of simple words finds exactly the derivable words. -/
theorem checkSimpleWord_yields {C : Checker} (hC : C.dict.CondsParsed) (word : Str)
    (hh : HiddenHomonym) :
    Yields (C.checkSimpleWord word hh) fun F =>
      ∃ stem steps, Derives .code C.dict hh.skips word stem F steps := by
  have h := (direct_yields (C := C) word hh).or <|
    ((stripOnly_yields hC .sfx .full word hh).map (·.flags)).or <|
    ((stripOnly_yields hC .pfx .full word hh).map (·.flags)).or <|
    ((stripComm_yields hC .full word hh).map (·.flags)).or <|
    Yields.ite (b := C.opts.complexPrefixes)
      (((stripTwo_yields hC .pfx word hh).map (·.flags)).or <|
       ((stripOneTwo_yields hC .sfx word hh).map (·.flags)).or <|
       ((stripSandwich_yields hC .pfx word hh).map (·.flags)))
      (((stripTwo_yields hC .sfx word hh).map (·.flags)).or <|
       ((stripOneTwo_yields hC .pfx word hh).map (·.flags)).or <|
       ((stripSandwich_yields hC .sfx word hh).map (·.flags)))
  refine h.congr fun F => ?_
  have hone : ∀ k, (∃ form : AffixForm, (∃ a stem,
      (a ∈ tableOf C.dict k ∧ Applies k a stem word) ∧
      (isValid k .full a C.opts = true ∧ ¬ NeedsAffix C.dict a) ∧
      ¬ (a.add ≠ [] ∧ Mode.full = .atEnd ∧ ¬ InFullWord C.dict a) ∧
      ¬ Circumfix C.dict a ∧ CondHolds k a stem ∧
      ∃ F, (stem, F) ∈ C.dict.words.slots ∧
      a.flag ∈ F.elems ∧ ¬ (Mode.full = .full ∧ Has F C.opts.onlyInCompoundFlag) ∧
      (hh.skips = true → 65535 ∉ F.elems) ∧
      (C.isValidInsideCompound .full F = true ∨ C.isValidInsideCompound .full a.flags = true) ∧
      form = onlyForm k stem F a) ∧ F = form.flags) →
      ∃ stem steps, Derives .code C.dict hh.skips word stem F steps := by
    rintro k ⟨form, ⟨a, stem, ⟨ha, happ⟩, ⟨hv, hn⟩, _, hcirc, hcond, F', hF, hfl, ho, hh', _, rfl⟩, rfl⟩
    have : (onlyForm k stem F' a).flags = F' := by cases k <;> rfl
    rw [this]
    exact ⟨stem, _, .one ⟨hF, fun x => ho ⟨rfl, x⟩, hh'⟩ ⟨ha, happ, hcond⟩ hfl (isValid_full.1 hv) hn hcirc⟩
  have htwo : ∀ k, doubled C.dict = k → (∃ form : AffixForm, (∃ outer stem,
      (outer ∈ tableOf C.dict k ∧ Applies k outer stem word) ∧
      (InFullWord C.dict outer ∧ ¬ NeedsAffix C.dict outer) ∧ ¬ Circumfix C.dict outer ∧
      CondHolds k outer stem ∧
      ∃ inner stem2, (inner ∈ tableOf C.dict k ∧ Applies k inner stem2 stem) ∧
      outer.flag ∈ inner.flags.elems ∧ InFullWord C.dict inner ∧ ¬ Circumfix C.dict inner ∧
      CondHolds k inner stem2 ∧
      ∃ F, (stem2, F) ∈ C.dict.words.slots ∧ inner.flag ∈ F.elems ∧ Usable C.dict hh.skips stem2 F ∧
      form = twoForm k stem2 F outer inner) ∧ F = form.flags) →
      ∃ stem steps, Derives .code C.dict hh.skips word stem F steps := by
    rintro k rfl ⟨form, ⟨outer, stem, ⟨ho, happ⟩, ⟨hf, hn⟩, hc, hcond, inner, stem2, ⟨hi, happ2⟩, hlic,
      hf2, hc2, hcond2, F', hF, hfl, hu, rfl⟩, rfl⟩
    have : (twoForm (doubled C.dict) stem2 F' outer inner).flags = F' := by
      cases doubled C.dict <;> rfl
    rw [this]
    exact ⟨stem2, _, .two hu ⟨hi, happ2, hcond2⟩ ⟨ho, happ, hcond⟩ ⟨hf2, hf⟩ hn ⟨hc2, hc⟩ ⟨hfl, hlic⟩⟩
  have hthree : ∀ k, (doubled C.dict).other = k → (∃ form : AffixForm, (∃ one stem,
      (one ∈ tableOf C.dict k ∧ Applies k one stem word) ∧ one.crossproduct = true ∧
      (InFullWord C.dict one ∧ ¬ NeedsAffix C.dict one) ∧ CondHolds k one stem ∧
      ∃ outer stem2, (outer ∈ tableOf C.dict k.other ∧ Applies k.other outer stem2 stem) ∧
      (∃ s ∈ tableOf C.dict .sfx, outer.flag ∈ s.flags.elems) ∧
      outer.crossproduct = true ∧ InFullWord C.dict outer ∧
      (Circumfix C.dict one ↔ Circumfix C.dict outer) ∧ CondHolds k.other outer stem2 ∧
      ∃ inner stem3, (inner ∈ tableOf C.dict k.other ∧ Applies k.other inner stem3 stem2) ∧
      outer.flag ∈ inner.flags.elems ∧ InFullWord C.dict inner ∧ ¬ Circumfix C.dict inner ∧
      CondHolds k.other inner stem3 ∧
      ∃ F, (stem3, F) ∈ C.dict.words.slots ∧
      (one.flag ∈ outer.flags.elems ∨ one.flag ∈ F.elems) ∧ inner.flag ∈ F.elems ∧
      Usable C.dict hh.skips stem3 F ∧ form = threeForm k (stem3, F) one outer inner) ∧
        F = form.flags) →
      ∃ stem steps, Derives .code C.dict hh.skips word stem F steps := by
    have hoo : (doubled C.dict).other.other = doubled C.dict := by cases doubled C.dict <;> rfl
    rintro k rfl ⟨form, ⟨one, stem, ⟨ho, happ⟩, hx, ⟨hf, hn⟩, hcond, outer, stem2, ⟨hou, happ2⟩, hq, hx2,
      hf2, hcirc, hcond2, inner, stem3, ⟨hi, happ3⟩, hlic, hf3, hc3, hcond3, F', hF, hl1, hl2, hu, rfl⟩, rfl⟩
    have : (threeForm (doubled C.dict).other (stem3, F') one outer inner).flags = F' := by
      cases doubled C.dict <;> rfl
    rw [hoo] at hou happ2 hcond2 hi happ3 hcond3
    rw [this]
    exact ⟨stem3, _, .twoThenOne hu ⟨hi, happ3, hcond3⟩ ⟨hou, happ2, hcond2⟩ ⟨ho, happ, hcond⟩
      ⟨hx2, hx⟩ ⟨hf3, hf2, hf⟩ hn ⟨hc3, hcirc.symm⟩ ⟨hl2, hlic, hl1⟩ (fun _ => hq)⟩
  have hsand : ∀ k, doubled C.dict = k → (∃ form : AffixForm, (∃ outer stem,
      (outer ∈ tableOf C.dict k ∧ Applies k outer stem word) ∧ outer.crossproduct = true ∧
      (InFullWord C.dict outer ∧ ¬ NeedsAffix C.dict outer) ∧ CondHolds k outer stem ∧
      ∃ mid stem2, (mid ∈ tableOf C.dict k.other ∧ Applies k.other mid stem2 stem) ∧
      mid.crossproduct = true ∧ InFullWord C.dict mid ∧ CondHolds k.other mid stem ∧
      ∃ inner stem3, (inner ∈ tableOf C.dict k ∧ Applies k inner stem3 stem2) ∧
      inner.crossproduct = true ∧
      (outer.flag ∈ inner.flags.elems ∨ outer.flag ∈ mid.flags.elems) ∧ InFullWord C.dict inner ∧
      (((Circumfix C.dict mid ↔ Circumfix C.dict outer) ∧ ¬ Circumfix C.dict inner) ∨
        ((Circumfix C.dict mid ↔ Circumfix C.dict inner) ∧ ¬ Circumfix C.dict outer)) ∧
      CondHolds k inner stem3 ∧
      ∃ F, (stem3, F) ∈ C.dict.words.slots ∧
      (mid.flag ∈ inner.flags.elems ∨ mid.flag ∈ F.elems) ∧ inner.flag ∈ F.elems ∧
      Usable C.dict hh.skips stem3 F ∧ form = threeForm k.other (stem3, F) mid outer inner) ∧
        F = form.flags) →
      ∃ stem steps, Derives .code C.dict hh.skips word stem F steps := by
    rintro k rfl ⟨form, ⟨outer, stem, ⟨ho, happ⟩, hx, ⟨hf, hn⟩, hcond, mid, stem2, ⟨hm, happ2⟩, hx2,
      hf2, hcond2, inner, stem3, ⟨hi, happ3⟩, hx3, hlic, hf3, hcirc, hcond3, F', hF, hl1, hl2, hu, rfl⟩, rfl⟩
    have : (threeForm (doubled C.dict).other (stem3, F') mid outer inner).flags = F' := by
      cases doubled C.dict <;> rfl
    rw [this]
    exact ⟨stem3, _, .sandwich hu ⟨hi, happ3, hcond3⟩ hm happ2 (by simpa [Quirks.code] using hcond2)
      ⟨ho, happ, hcond⟩ ⟨hx3, hx2, hx⟩ ⟨hf3, hf2, hf⟩ hn hcirc ⟨hl2, hl1, hlic⟩⟩
  constructor
  · rintro (⟨F', h1, h2, h3, h4, rfl⟩ | h | h | h | ⟨hb, h | h | h⟩ | ⟨hb, h | h | h⟩)
    · exact ⟨word, [], .listed ⟨h1, h3, h4⟩ rfl h2⟩
    · exact hone _ h
    · exact hone _ h
    · obtain ⟨form, ⟨p, stem, ⟨hp, happ⟩, hx, hv, hcond, s, stem2, ⟨hs, happ2⟩, hx2, hv2, hn, hcirc, hcond2,
        F', hF, hlic, ho, hh', _, rfl⟩, rfl⟩ := h
      exact ⟨stem2, _, .pair ⟨hF, fun x => ho ⟨rfl, x⟩, hh'⟩ ⟨hs, happ2, hcond2⟩ ⟨hp, happ, hcond⟩
        ⟨hx2, hx⟩ ⟨isValid_full.1 hv2, isValid_full.1 hv⟩ hcirc.symm hlic⟩
    · exact htwo .pfx (by simp [doubled, hb]) h
    · exact hthree .sfx (by simp [doubled, hb, Kind.other]) h
    · exact hsand .pfx (by simp [doubled, hb]) h
    · exact htwo .sfx (by simp [doubled, hb]) h
    · exact hthree .pfx (by simp [doubled, hb, Kind.other]) h
    · exact hsand .sfx (by simp [doubled, hb]) h
  · have hdoub : ∀ {P : Prop} {Q : Prop}, (doubled C.dict = .pfx → P) → (doubled C.dict = .sfx → Q) →
        (C.opts.complexPrefixes = true ∧ P) ∨ (C.opts.complexPrefixes = false ∧ Q) := by
      intro P Q hP hQ
      cases hb : C.opts.complexPrefixes with
      | true => exact Or.inl ⟨rfl, hP (by simp [doubled, hb])⟩
      | false => exact Or.inr ⟨rfl, hQ (by simp [doubled, hb])⟩
    rintro ⟨stem, steps, hd⟩
    cases hd with
    | listed entry same plain =>
      subst same
      exact Or.inl ⟨F, entry.1, plain, entry.2, entry.3, rfl⟩
    | @one k a entry step licence full alone nocirc =>
      have hx : ∃ form : AffixForm, (∃ a stem,
          (a ∈ tableOf C.dict k ∧ Applies k a stem word) ∧
          (isValid k .full a C.opts = true ∧ ¬ NeedsAffix C.dict a) ∧
          ¬ (a.add ≠ [] ∧ Mode.full = .atEnd ∧ ¬ InFullWord C.dict a) ∧
          ¬ Circumfix C.dict a ∧ CondHolds k a stem ∧
          ∃ F, (stem, F) ∈ C.dict.words.slots ∧
          a.flag ∈ F.elems ∧ ¬ (Mode.full = .full ∧ Has F C.opts.onlyInCompoundFlag) ∧
          (hh.skips = true → 65535 ∉ F.elems) ∧
          (C.isValidInsideCompound .full F = true ∨ C.isValidInsideCompound .full a.flags = true) ∧
          form = onlyForm k stem F a) ∧ F = form.flags := by
        refine ⟨_, ⟨a, stem, ⟨step.1, step.2⟩, ⟨isValid_full.2 full, alone⟩, by simp, nocirc, step.3,
          F, entry.1, licence, fun x => entry.2 x.2, entry.3, Or.inl rfl, rfl⟩, ?_⟩
        cases k <;> rfl
      cases k with
      | sfx => exact Or.inr (Or.inl hx)
      | pfx => exact Or.inr (Or.inr (Or.inl hx))
    | @pair s p mid entry step1 step2 cross full circ licence =>
      refine Or.inr (Or.inr (Or.inr (Or.inl ⟨_, ⟨p, mid, ⟨step2.1, step2.2⟩, cross.2,
        isValid_full.2 full.2, step2.3, s, stem, ⟨step1.1, step1.2⟩, cross.1, isValid_full.2 full.1,
        ?_, circ.symm, step1.3, F, entry.1, licence, fun x => entry.2 x.2, entry.3, Or.inl rfl, rfl⟩,
        rfl⟩)))
      rcases licence with h | h
      · exact fun x => h.1 x.1
      · exact fun x => h.1 x.2
    | @two inner outer mid entry step1 step2 full alone nocirc licence =>
      refine Or.inr (Or.inr (Or.inr (Or.inr (hdoub ?_ ?_)))) <;> intro hk <;> rw [hk] at step1 step2
      · exact Or.inl ⟨_, ⟨outer, mid, ⟨step2.1, step2.2⟩, ⟨full.2, alone⟩, nocirc.2, step2.3, inner, stem,
          ⟨step1.1, step1.2⟩, licence.2, full.1, nocirc.1, step1.3, F, entry.1, licence.1, entry, rfl⟩, rfl⟩
      · exact Or.inl ⟨_, ⟨outer, mid, ⟨step2.1, step2.2⟩, ⟨full.2, alone⟩, nocirc.2, step2.3, inner, stem,
          ⟨step1.1, step1.2⟩, licence.2, full.1, nocirc.1, step1.3, F, entry.1, licence.1, entry, rfl⟩, rfl⟩
    | @twoThenOne inner outer last mid1 mid2 entry step1 step2 step3 cross full alone circ licence quirk =>
      refine Or.inr (Or.inr (Or.inr (Or.inr (hdoub ?_ ?_)))) <;> intro hk <;>
        rw [hk] at step1 step2 step3
      · exact Or.inr (Or.inl ⟨_, ⟨last, mid2, ⟨step3.1, step3.2⟩, cross.2, ⟨full.2.2, alone⟩, step3.3,
          outer, mid1, ⟨step2.1, step2.2⟩, quirk rfl, cross.1, full.2.1, circ.2.symm, step2.3,
          inner, stem, ⟨step1.1, step1.2⟩, licence.2.1, full.1, circ.1, step1.3, F, entry.1,
          licence.2.2, licence.1, entry, rfl⟩, rfl⟩)
      · exact Or.inr (Or.inl ⟨_, ⟨last, mid2, ⟨step3.1, step3.2⟩, cross.2, ⟨full.2.2, alone⟩, step3.3,
          outer, mid1, ⟨step2.1, step2.2⟩, quirk rfl, cross.1, full.2.1, circ.2.symm, step2.3,
          inner, stem, ⟨step1.1, step1.2⟩, licence.2.1, full.1, circ.1, step1.3, F, entry.1,
          licence.2.2, licence.1, entry, rfl⟩, rfl⟩)
    | @sandwich inner mid outer mid1 mid2 entry step1 mem2 applies2 cond2 step3 cross full alone circ licence =>
      refine Or.inr (Or.inr (Or.inr (Or.inr (hdoub ?_ ?_)))) <;> intro hk <;>
        rw [hk] at step1 step3 mem2 applies2 cond2
      · exact Or.inr (Or.inr ⟨_, ⟨outer, mid2, ⟨step3.1, step3.2⟩, cross.2.2, ⟨full.2.2, alone⟩, step3.3,
          mid, mid1, ⟨mem2, applies2⟩, cross.2.1, full.2.1, by simpa [Quirks.code] using cond2,
          inner, stem, ⟨step1.1, step1.2⟩, cross.1, licence.2.2, full.1, circ, step1.3, F, entry.1,
          licence.2.1, licence.1, entry, rfl⟩, rfl⟩)
      · exact Or.inr (Or.inr ⟨_, ⟨outer, mid2, ⟨step3.1, step3.2⟩, cross.2.2, ⟨full.2.2, alone⟩, step3.3,
          mid, mid1, ⟨mem2, applies2⟩, cross.2.1, full.2.1, by simpa [Quirks.code] using cond2,
          inner, stem, ⟨step1.1, step1.2⟩, cross.1, licence.2.2, full.1, circ, step1.3, F, entry.1,
          licence.2.1, licence.1, entry, rfl⟩, rfl⟩)

end Checker
end Spellbook
