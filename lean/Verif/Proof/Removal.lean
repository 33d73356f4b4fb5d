import Verif.Spec.Removal
import Verif.Proof.History
import Verif.Proof.Rename
import Verif.Proof.Unused
import Verif.Props.Growth
/-!
# Removing a stem: the same forms are found, some of them marked

With a flag of FORBIDDENWORD which is used for nothing else, `remove_stem` changes no test on the entries but the one
for that flag. So every lookup finds the same entry as before.
-/

namespace Spellbook.Removal
open Spec

/-- The flags of an entry of `stem` after the removal of `s`. -/
def mark (D : Dict) (s stem : Str) (F : FlagSet) : FlagSet := if stem = s then D.forbid F else F

/-- An entry after the removal. -/
def markEntry (D : Dict) (s : Str) (e : Str × FlagSet) : Str × FlagSet := (e.1, mark D s e.1 e.2)

/-- A form found after the removal. -/
def markForm (D : Dict) (s : Str) (f : AffixForm) : AffixForm := { f with flags := mark D s f.stem f.flags }

theorem contains {D : Dict} {s stem : Str} {F : FlagSet} {f : Nat} (hf : f ≠ D.aff.options.forbiddenWordFlag) :
    (mark D s stem F).contains f = F.contains f := by
  unfold mark
  split
  · rw [Bool.eq_iff_iff, Dict.forbid_contains]
    simp [hf]
  · rfl

theorem forbidden {D : Dict} {s stem : Str} {F : FlagSet} (hf : F.contains D.aff.options.forbiddenWordFlag = true) :
    (mark D s stem F).contains D.aff.options.forbiddenWordFlag = true := by
  unfold mark
  split
  · exact Dict.forbid_contains.2 (.inl hf)
  · exact hf

theorem flag {D : Dict} {s stem : Str} {F : FlagSet} {o : Option Nat} (hf : o ≠ some D.aff.options.forbiddenWordFlag) :
    hasFlag (mark D s stem F) o = hasFlag F o := by
  cases o with
  | none => rfl
  | some f => exact contains fun e => hf (congrArg some e)

theorem findSome_mem {α β β' : Type} {g : β → β'} {f : α → Option β} {f' : α → Option β'} :
    ∀ {l : List α}, (∀ a ∈ l, f' a = (f a).map g) → l.findSome? f' = (l.findSome? f).map g
  | [], _ => rfl
  | a :: l, h => by
    rw [List.findSome?_cons, List.findSome?_cons, h a (.head _)]
    cases f a with
    | none => exact findSome_mem fun b hb => h b (.tail _ hb)
    | some b => rfl

variable {C : Checker} {s : Str}

theorem entries (w : Str) : (removed C s).entries w = (C.entries w).map (markEntry C.dict s) := by
  have hs : (C.dict.removeStem C.L s).2.words.slots = C.dict.words.slots.map (markEntry C.dict s) := by
    rw [Dict.removeStem_slots]
    refine List.map_congr_left fun e _ => ?_
    unfold Bag.upd markEntry mark
    split <;> rfl
  have hb : (C.dict.removeStem C.L s).2.words = ⟨C.dict.words.slots.map (markEntry C.dict s)⟩ := by rw [← hs]
  have hk : (⟨C.dict.words.slots.map (markEntry C.dict s)⟩ : Bag FlagSet).keys = C.dict.words.keys := by
    simp only [Bag.keys, List.map_map]; rfl
  simp only [Checker.entries, removed, hb, Bag.get]
  rw [hk]
  generalize C.L.probe C.dict.words.keys (C.L.hash w) = is
  rw [show (is.filterMap fun i => (C.dict.words.slots.map (markEntry C.dict s))[i]?)
    = (is.filterMap fun i => C.dict.words.slots[i]?).map (markEntry C.dict s) by
      rw [List.map_filterMap]; simp only [List.getElem?_map]]
  exact filter_rename (fun _ => rfl) _

theorem opts : (removed C s).opts = C.opts := rfl
theorem affixesOf : (removed C s).affixesOf = C.affixesOf := rfl
theorem index : (removed C s).index = C.index := rfl
theorem isOuterAffixValid : (removed C s).isOuterAffixValid = C.isOuterAffixValid := rfl
theorem isCircumfix : (removed C s).isCircumfix = C.isCircumfix := rfl
theorem isValidInsideCompound : (removed C s).isValidInsideCompound = C.isValidInsideCompound := rfl
theorem aff : (removed C s).aff = C.aff := rfl

theorem inside (F : FlagSet) : C.isValidInsideCompound .full F = true := rfl

variable (h : ForbidApart C.dict)
include h

theorem apart {k : Kind} {w : Str} {a : Affix} (ha : a ∈ C.affixesOf k w) :
    a.flag ≠ C.dict.aff.options.forbiddenWordFlag := by
  have := Unused.mem_table ha
  cases k
  · exact h.prefixes a this
  · exact h.suffixes a this

theorem hidden (stem : Str) (F : FlagSet) :
    (mark C.dict s stem F).contains hiddenHomonymFlag = F.contains hiddenHomonymFlag :=
  contains fun e => h.hidden e.symm

theorem inCompound (stem : Str) (F : FlagSet) :
    hasFlag (mark C.dict s stem F) C.opts.onlyInCompoundFlag = hasFlag F C.opts.onlyInCompoundFlag :=
  flag h.onlyInCompound

theorem needed (stem : Str) (F : FlagSet) :
    hasFlag (mark C.dict s stem F) C.opts.needAffixFlag = hasFlag F C.opts.needAffixFlag :=
  flag h.needAffix

section
variable {a b c : Affix} (ha : a.flag ≠ C.dict.aff.options.forbiddenWordFlag)
  (hb : b.flag ≠ C.dict.aff.options.forbiddenWordFlag) (hc : c.flag ≠ C.dict.aff.options.forbiddenWordFlag)

include ha in
theorem onlyEntry (k : Kind) (hh : HiddenHomonym) (e : Str × FlagSet) :
    (removed C s).onlyEntry k .full hh a (markEntry C.dict s e)
      = (C.onlyEntry k .full hh a e).map (markForm C.dict s) := by
  cases k <;>
  simp only [Checker.onlyEntry, markEntry, contains ha, opts, inCompound h, hidden h,
    isValidInsideCompound, inside, apply_ite (Option.map (markForm C.dict s)), Option.map_none, Option.map_some] <;>
  rfl

include ha in
theorem onlyAffix (k : Kind) (w : Str) (hh : HiddenHomonym) :
    (removed C s).onlyAffix k .full w hh a = (C.onlyAffix k .full w hh a).map (markForm C.dict s) := by
  simp only [Checker.onlyAffix, isOuterAffixValid, opts, isCircumfix, entries,
    findSome_rename (onlyEntry h ha k hh), apply_ite (Option.map (markForm C.dict s)), Option.map_none]

include ha hb in
theorem commEntry (hh : HiddenHomonym) (e : Str × FlagSet) :
    (removed C s).commEntry .full hh a b (markEntry C.dict s e)
      = (C.commEntry .full hh a b e).map (markForm C.dict s) := by
  simp only [Checker.commEntry, markEntry, contains ha, contains hb, opts, inCompound h, hidden h,
    isValidInsideCompound, inside, apply_ite (Option.map (markForm C.dict s)), Option.map_none, Option.map_some]
  rfl

include ha hb in
theorem commSuffix (w : Str) (hh : HiddenHomonym) :
    (removed C s).commSuffix .full w hh a b = (C.commSuffix .full w hh a b).map (markForm C.dict s) := by
  simp only [Checker.commSuffix, isCircumfix, opts, entries, findSome_rename (commEntry h ha hb hh),
    apply_ite (Option.map (markForm C.dict s)), Option.map_none]

include ha in
theorem commPrefix (w : Str) (hh : HiddenHomonym) :
    (removed C s).commPrefix .full w hh a = (C.commPrefix .full w hh a).map (markForm C.dict s) := by
  simp only [Checker.commPrefix, opts, affixesOf, findSome_mem (fun b hb => commSuffix h ha (apart h hb) _ hh),
    apply_ite (Option.map (markForm C.dict s)), Option.map_none]

theorem fullEntryOk (hh : HiddenHomonym) (stem : Str) (F : FlagSet) :
    (removed C s).fullEntryOk hh (mark C.dict s stem F) = C.fullEntryOk hh F := by
  simp only [Checker.fullEntryOk, opts, inCompound h, hidden h]

include hb in
theorem twoEntry (k : Kind) (hh : HiddenHomonym) (e : Str × FlagSet) :
    (removed C s).twoEntry k hh a b (markEntry C.dict s e) = (C.twoEntry k hh a b e).map (markForm C.dict s) := by
  cases k <;>
  simp only [Checker.twoEntry, markEntry, contains hb, fullEntryOk h,
    apply_ite (Option.map (markForm C.dict s)), Option.map_none, Option.map_some] <;>
  rfl

include hb in
theorem twoInner (k : Kind) (w : Str) (hh : HiddenHomonym) :
    (removed C s).twoInner k w hh a b = (C.twoInner k w hh a b).map (markForm C.dict s) := by
  simp only [Checker.twoInner, isCircumfix, opts, entries, findSome_rename (twoEntry h (a := a) hb k hh),
    apply_ite (Option.map (markForm C.dict s)), Option.map_none]

theorem twoOuter (k : Kind) (w : Str) (hh : HiddenHomonym) (a : Affix) :
    (removed C s).twoOuter k w hh a = (C.twoOuter k w hh a).map (markForm C.dict s) := by
  simp only [Checker.twoOuter, index, isOuterAffixValid, isCircumfix, affixesOf,
    findSome_mem (fun b hb => twoInner h (a := a) (apart h hb) k _ hh),
    apply_ite (Option.map (markForm C.dict s)), Option.map_none]

include ha hc in
theorem oneTwoEntry (k : Kind) (hh : HiddenHomonym) (e : Str × FlagSet) :
    (removed C s).oneTwoEntry k hh a b c (markEntry C.dict s e)
      = (C.oneTwoEntry k hh a b c e).map (markForm C.dict s) := by
  cases k <;>
  simp only [Checker.oneTwoEntry, markEntry, contains ha, contains hc, fullEntryOk h,
    apply_ite (Option.map (markForm C.dict s)), Option.map_none, Option.map_some] <;>
  rfl

include ha hc in
theorem oneTwoInner (k : Kind) (w : Str) (hh : HiddenHomonym) :
    (removed C s).oneTwoInner k w hh a b c = (C.oneTwoInner k w hh a b c).map (markForm C.dict s) := by
  simp only [Checker.oneTwoInner, isCircumfix, opts, entries,
    findSome_rename (oneTwoEntry h (b := b) ha hc k hh), apply_ite (Option.map (markForm C.dict s)), Option.map_none]

include ha in
theorem oneTwoOuter (k : Kind) (w : Str) (hh : HiddenHomonym) (b : Affix) :
    (removed C s).oneTwoOuter k w hh a b = (C.oneTwoOuter k w hh a b).map (markForm C.dict s) := by
  simp only [Checker.oneTwoOuter, aff, isCircumfix, opts, affixesOf,
    findSome_mem (fun c hc => oneTwoInner h (b := b) ha (apart h hc) k _ hh),
    apply_ite (Option.map (markForm C.dict s)), Option.map_none]

include ha in
theorem oneTwoFirst (k : Kind) (w : Str) (hh : HiddenHomonym) :
    (removed C s).oneTwoFirst k w hh a = (C.oneTwoFirst k w hh a).map (markForm C.dict s) := by
  simp only [Checker.oneTwoFirst, isOuterAffixValid, affixesOf,
    findSome_mem (fun b _ => oneTwoOuter h ha k _ hh b),
    apply_ite (Option.map (markForm C.dict s)), Option.map_none]

include hb hc in
theorem sandwichEntry (k : Kind) (hh : HiddenHomonym) (e : Str × FlagSet) :
    (removed C s).sandwichEntry k hh a b c (markEntry C.dict s e)
      = (C.sandwichEntry k hh a b c e).map (markForm C.dict s) := by
  cases k <;>
  simp only [Checker.sandwichEntry, markEntry, contains hb, contains hc, fullEntryOk h,
    apply_ite (Option.map (markForm C.dict s)), Option.map_none, Option.map_some] <;>
  rfl

include hb hc in
theorem sandwichInner (k : Kind) (w : Str) (hh : HiddenHomonym) :
    (removed C s).sandwichInner k w hh a b c = (C.sandwichInner k w hh a b c).map (markForm C.dict s) := by
  simp only [Checker.sandwichInner, isCircumfix, opts, entries,
    findSome_rename (sandwichEntry h (a := a) hb hc k hh), apply_ite (Option.map (markForm C.dict s)), Option.map_none]

include hb in
theorem sandwichMid (k : Kind) (w : Str) (hh : HiddenHomonym) :
    (removed C s).sandwichMid k w hh a b = (C.sandwichMid k w hh a b).map (markForm C.dict s) := by
  simp only [Checker.sandwichMid, opts, affixesOf,
    findSome_mem (fun c hc => sandwichInner h (a := a) hb (apart h hc) k _ hh),
    apply_ite (Option.map (markForm C.dict s)), Option.map_none]

theorem sandwichOuter (k : Kind) (w : Str) (hh : HiddenHomonym) (a : Affix) :
    (removed C s).sandwichOuter k w hh a = (C.sandwichOuter k w hh a).map (markForm C.dict s) := by
  simp only [Checker.sandwichOuter, aff, isOuterAffixValid, affixesOf,
    findSome_mem (fun b hb => sandwichMid h (a := a) (apart h hb) k _ hh),
    apply_ite (Option.map (markForm C.dict s)), Option.map_none]

end

theorem stripOnly (k : Kind) (w : Str) (hh : HiddenHomonym) :
    (removed C s).stripOnly k .full w hh = (C.stripOnly k .full w hh).map (markForm C.dict s) := by
  rw [Checker.stripOnly, affixesOf, findSome_mem fun a ha => onlyAffix h (apart h ha) k w hh, Checker.stripOnly]

theorem stripComm (w : Str) (hh : HiddenHomonym) :
    (removed C s).stripComm .full w hh = (C.stripComm .full w hh).map (markForm C.dict s) := by
  rw [Checker.stripComm, affixesOf, findSome_mem fun a ha => commPrefix h (apart h ha) w hh, Checker.stripComm]

theorem stripTwo (k : Kind) (w : Str) (hh : HiddenHomonym) :
    (removed C s).stripTwo k w hh = (C.stripTwo k w hh).map (markForm C.dict s) := by
  simp only [Checker.stripTwo, index, affixesOf, findSome_mem fun a _ => twoOuter h k w hh a,
    apply_ite (Option.map (markForm C.dict s)), Option.map_none]

theorem stripOneTwo (k : Kind) (w : Str) (hh : HiddenHomonym) :
    (removed C s).stripOneTwo k w hh = (C.stripOneTwo k w hh).map (markForm C.dict s) := by
  simp only [Checker.stripOneTwo, aff, affixesOf, findSome_mem fun a ha => oneTwoFirst h (apart h ha) k w hh,
    apply_ite (Option.map (markForm C.dict s)), Option.map_none]

theorem stripSandwich (k : Kind) (w : Str) (hh : HiddenHomonym) :
    (removed C s).stripSandwich k w hh = (C.stripSandwich k w hh).map (markForm C.dict s) := by
  simp only [Checker.stripSandwich, aff, affixesOf, findSome_mem fun a _ => sandwichOuter h k w hh a,
    apply_ite (Option.map (markForm C.dict s)), Option.map_none]

/-! ## The stems of the forms found -/

omit h in
/-- The text is made from the stem by affixes. -/
abbrev Made (D : Dict) (stem w : Str) : Prop := ∃ steps, MadeBy D stem steps w

section
omit h
variable (hC : C.dict.CondsParsed) {w : Str} {hh : HiddenHomonym} {f : AffixForm}
include hC

theorem stripOnly_made {k : Kind} (hf : C.stripOnly k .full w hh = some f) : Made C.dict f.stem w := by
  obtain ⟨a, stem, ⟨ha, happ⟩, -, -, -, -, F, -, -, -, -, -, rfl⟩ := (Checker.stripOnly_yields hC k .full w hh).1 f hf
  cases k <;> exact ⟨_, .cons ha happ .nil⟩

theorem stripComm_made (hf : C.stripComm .full w hh = some f) : Made C.dict f.stem w := by
  obtain ⟨a, stem, ⟨ha, happ⟩, -, -, -, b, stem2, ⟨hb, happ2⟩, -, -, -, -, -, F, -, -, -, -, -, rfl⟩ :=
    (Checker.stripComm_yields hC .full w hh).1 f hf
  exact ⟨_, .cons hb happ2 (.cons ha happ .nil)⟩

theorem stripTwo_made {k : Kind} (hf : C.stripTwo k w hh = some f) : Made C.dict f.stem w := by
  obtain ⟨a, stem, ⟨ha, happ⟩, -, -, -, b, stem2, ⟨hb, happ2⟩, -, -, -, -, F, -, -, -, rfl⟩ :=
    (Checker.stripTwo_yields hC k w hh).1 f hf
  cases k <;> exact ⟨_, .cons hb happ2 (.cons ha happ .nil)⟩

theorem stripOneTwo_made {k : Kind} (hf : C.stripOneTwo k w hh = some f) : Made C.dict f.stem w := by
  obtain ⟨a, stem, ⟨ha, happ⟩, -, -, -, b, stem2, ⟨hb, happ2⟩, -, -, -, -, -, c, stem3, ⟨hc, happ3⟩, -, -, -, -, F, -, -,
    -, -, rfl⟩ := (Checker.stripOneTwo_yields hC k w hh).1 f hf
  cases k <;> exact ⟨_, .cons hc happ3 (.cons hb happ2 (.cons ha happ .nil))⟩

theorem stripSandwich_made {k : Kind} (hf : C.stripSandwich k w hh = some f) : Made C.dict f.stem w := by
  obtain ⟨a, stem, ⟨ha, happ⟩, -, -, -, b, stem2, ⟨hb, happ2⟩, -, -, -, c, stem3, ⟨hc, happ3⟩, -, -, -, -, -, F, -, -,
    -, -, rfl⟩ := (Checker.stripSandwich_yields hC k w hh).1 f hf
  cases k <;> exact ⟨_, .cons hc happ3 (.cons hb happ2 (.cons ha happ .nil))⟩

end

omit h in
/-- Both lookups fail, or both find the entry of the same stem, which is the removed one only if `Q`. -/
def Both (D : Dict) (s : Str) (Q : Prop) (o o' : Option FlagSet) : Prop :=
  (o = none ∧ o' = none) ∨ ∃ stem F, (stem = s → Q) ∧ o = some F ∧ o' = some (mark D s stem F)

omit h in
theorem Both.or {D : Dict} {Q : Prop} {o o' p p' : Option FlagSet} (h1 : Both D s Q o o') (h2 : Both D s Q p p') :
    Both D s Q (o.or p) (o'.or p') := by
  rcases h1 with ⟨rfl, rfl⟩ | ⟨stem, F, hq, rfl, rfl⟩
  · exact h2
  · exact .inr ⟨stem, F, hq, rfl, rfl⟩

omit h in
theorem Both.form {D : Dict} {w : Str} {o o' : Option AffixForm} (ho : o' = o.map (markForm D s))
    (hm : ∀ f, o = some f → Made D f.stem w) :
    Both D s (Made D s w) (o.map (·.flags)) (o'.map (·.flags)) := by
  subst ho
  cases o with
  | none => exact .inl ⟨rfl, rfl⟩
  | some f => exact .inr ⟨f.stem, f.flags, fun e => e ▸ hm f rfl, rfl, rfl⟩

theorem direct (hh : HiddenHomonym) (w : Str) : ∀ l : List (Str × FlagSet), (∀ e ∈ l, e.1 = w) →
    Both C.dict s (Made C.dict s w) (l.findSome? (C.directEntry hh))
      ((l.map (markEntry C.dict s)).findSome? ((removed C s).directEntry hh))
  | [], _ => .inl ⟨rfl, rfl⟩
  | e :: l, hl => by
    have he : (removed C s).directEntry hh (markEntry C.dict s e)
        = (C.directEntry hh e).map (mark C.dict s e.1) := by
      simp only [Checker.directEntry, markEntry, opts, needed h, inCompound h, hidden h,
        apply_ite (Option.map (mark C.dict s e.1)), Option.map_none, Option.map_some]
    rw [List.map_cons, List.findSome?_cons, List.findSome?_cons, he]
    cases C.directEntry hh e with
    | none => exact direct hh w l fun e he => hl e (.tail _ he)
    | some F =>
      refine .inr ⟨e.1, F, fun hs => ⟨[], ?_⟩, rfl, rfl⟩
      rw [← hl e (.head _), hs]
      exact .nil

theorem checkSimpleWord (hC : C.dict.CondsParsed) (w : Str) (hh : HiddenHomonym) :
    Both C.dict s (Made C.dict s w) (C.checkSimpleWord w hh) ((removed C s).checkSimpleWord w hh) := by
  rw [Checker.checkSimpleWord, Checker.checkSimpleWord, entries, opts]
  have hw : ∀ e ∈ C.entries w, e.1 = w := fun e he => by
    have := (List.mem_filter.1 he).2
    simpa using (beq_iff_eq.1 this).symm
  refine (direct h hh w _ hw).or <| (Both.form (stripOnly h _ _ _) fun _ => stripOnly_made hC).or <|
    (Both.form (stripOnly h _ _ _) fun _ => stripOnly_made hC).or <|
    (Both.form (stripComm h _ _) fun _ => stripComm_made hC).or ?_
  split
  all_goals exact (Both.form (stripTwo h _ _ _) fun _ => stripTwo_made hC).or <|
    (Both.form (stripOneTwo h _ _ _) fun _ => stripOneTwo_made hC).or <|
    Both.form (stripSandwich h _ _ _) fun _ => stripSandwich_made hC

/-! ## Letter case -/

omit h in
theorem Both.mono {D : Dict} {Q Q' : Prop} {o o' : Option FlagSet} (h1 : Both D s Q o o') (hq : Q → Q') :
    Both D s Q' o o' := by
  rcases h1 with h1 | ⟨stem, F, h1, h2⟩
  · exact .inl h1
  · exact .inr ⟨stem, F, hq ∘ h1, h2⟩

omit h in
theorem Both.filter {D : Dict} {Q : Prop} {o o' : Option FlagSet} (h1 : Both D s Q o o') {p : FlagSet → Bool}
    (hp : ∀ stem F, p (mark D s stem F) = p F) : Both D s Q (o.filter p) (o'.filter p) := by
  rcases h1 with ⟨rfl, rfl⟩ | ⟨stem, F, hq, rfl, rfl⟩
  · exact .inl ⟨rfl, rfl⟩
  · rw [Option.filter_some, Option.filter_some, hp]
    split
    · exact .inr ⟨stem, F, hq, rfl, rfl⟩
    · exact .inl ⟨rfl, rfl⟩

section
variable (hn : C.dict.aff.options.allowsCompounding = false) (hr : C.dict.aff.compoundRules.rules = [])
include hn hr

theorem first (hC : C.dict.CondsParsed) (fuel : Nat) : ∀ l : List Attempt, ∃ o o',
    Run.first (C.attempt fuel) l = .ok o ∧ Run.first ((removed C s).attempt fuel) l = .ok o' ∧
      Both C.dict s (∃ a ∈ l, Made C.dict s a.text) o o'
  | [] => ⟨_, _, rfl, rfl, .inl ⟨rfl, rfl⟩⟩
  | a :: l => by
    obtain ⟨o, o', h1, h2, h3⟩ := first hC fuel l
    have hb := (checkSimpleWord (s := s) h hC a.text a.hidden).filter
      (p := fun F => a.keepCase || !hasFlag F C.opts.keepCaseFlag) (fun stem F => by rw [flag h.keepCase])
    have e1 : C.attempt fuel a = .ok ((C.checkSimpleWord a.text a.hidden).filter
        fun F => a.keepCase || !hasFlag F C.opts.keepCaseFlag) := by
      rw [Checker.attempt, Props.checkWord_alone hn hr]; rfl
    have e2 : (removed C s).attempt fuel a = .ok (((removed C s).checkSimpleWord a.text a.hidden).filter
        fun F => a.keepCase || !hasFlag F C.opts.keepCaseFlag) := by
      rw [Checker.attempt, Props.checkWord_alone (C := removed C s) hn hr]; rfl
    refine ⟨_, _, ?_, ?_, (hb.mono fun hq => ⟨a, .head _, hq⟩).or
      (h3.mono fun ⟨b, hb, hq⟩ => ⟨b, .tail _ hb, hq⟩)⟩
    · rw [Run.first, e1, h1]
      generalize Option.filter _ _ = x
      cases x <;> rfl
    · rw [Run.first, e2, h2]
      generalize Option.filter _ _ = x
      cases x <;> rfl

/-- A spelling of the piece is made from the removed stem. -/
abbrev _root_.Spellbook.Removal.Spelled (C : Checker) (s piece : Str) : Prop :=
  ∃ a ∈ attempts C piece (classifyCasing C.U piece), Made C.dict s a.text

theorem spellCasing (hC : C.dict.CondsParsed) (h1 : C.checkLowerAsTitle = false) (h2 : C.checkLowerAsUpper = false)
    (fuel : Nat) (w : Str) : ∃ o o', C.spellCasing fuel w = .ok o ∧ (removed C s).spellCasing fuel w = .ok o' ∧
      Both C.dict s (Spelled C s w) o o' := by
  rw [Checker.spellCasing_forms fuel (Props.canTitle_default h1 h2 w),
    Checker.spellCasing_forms (C := removed C s) fuel (Props.canTitle_default h1 h2 w)]
  exact first h hn hr hC fuel _

end

/-! ## BREAK -/

omit h in
theorem goodFlags {stem : Str} {F : FlagSet} :
    ((removed C s).goodFlags (mark C.dict s stem F) = true → C.goodFlags F = true) ∧
    (stem ≠ s → (removed C s).goodFlags (mark C.dict s stem F) = C.goodFlags F) := by
  constructor
  · intro hg
    unfold Checker.goodFlags at *
    rw [opts] at hg
    by_cases hf : F.contains C.opts.forbiddenWordFlag = true
    · rw [if_pos (forbidden hf)] at hg
      cases hg
    · rw [if_neg hf]
      split at hg
      · cases hg
      by_cases hw : C.opts.warnFlag = some C.opts.forbiddenWordFlag
      · rw [hw]
        simp only [hasFlag] at *
        simp [hf]
      · rwa [flag hw] at hg
  · intro hs
    unfold mark
    rw [if_neg hs]
    rfl

/-- Two answers: the second is yes only if the first is, and they differ only if `Q`. -/
def Fewer (Q : Prop) (r r' : Run Bool) : Prop :=
  ∃ b b', r = .ok b ∧ r' = .ok b' ∧ (b' = true → b = true) ∧ (b ≠ b' → Q)

omit h in
theorem Fewer.no {Q : Prop} : Fewer Q (.ok false) (.ok false) := ⟨_, _, rfl, rfl, id, fun x => absurd rfl x⟩

omit h in
theorem Fewer.yes {Q : Prop} : Fewer Q (.ok true) (.ok true) := ⟨_, _, rfl, rfl, id, fun x => absurd rfl x⟩

omit h in
theorem Fewer.mono {Q Q' : Prop} {r r' : Run Bool} (h1 : Fewer Q r r') (hq : Q → Q') : Fewer Q' r r' := by
  obtain ⟨b, b', e, e', h2, h3⟩ := h1
  exact ⟨b, b', e, e', h2, hq ∘ h3⟩

omit h in
theorem Fewer.either {Q : Prop} {a a' b b' : Run Bool} (h1 : Fewer Q a a') (h2 : Fewer Q b b') :
    Fewer Q (do if ← a then pure true else b) (do if ← a' then pure true else b') := by
  obtain ⟨x, x', rfl, rfl, h3, h4⟩ := h1
  obtain ⟨y, y', rfl, rfl, h5, h6⟩ := h2
  cases x <;> cases x'
  · exact ⟨y, y', rfl, rfl, h5, h6⟩
  · exact absurd (h3 rfl) (by simp)
  · exact ⟨true, y', rfl, rfl, fun _ => rfl, fun _ => h4 (by simp)⟩
  · exact .yes

omit h in
theorem Fewer.both {Q : Prop} {a a' b b' : Run Bool} (h1 : Fewer Q a a') (h2 : Fewer Q b b') :
    Fewer Q (do if ← a then b else pure false) (do if ← a' then b' else pure false) := by
  obtain ⟨x, x', rfl, rfl, h3, h4⟩ := h1
  obtain ⟨y, y', rfl, rfl, h5, h6⟩ := h2
  cases x <;> cases x'
  · exact .no
  · exact absurd (h3 rfl) (by simp)
  · exact ⟨y, false, rfl, rfl, by simp, fun _ => h4 (by simp)⟩
  · exact ⟨y, y', rfl, rfl, h5, h6⟩

omit h in
theorem Fewer.any {α : Type} {Q : Prop} {f f' : α → Run Bool} (hf : ∀ a, Fewer Q (f a) (f' a)) :
    ∀ l : List α, Fewer Q (Checker.anyRun f l) (Checker.anyRun f' l)
  | [] => .no
  | a :: l => (hf a).either (Fewer.any hf l)

/-- A spelling of some piece of the text is made from the removed stem. -/
def Concerns (C : Checker) (s w : Str) : Prop := ∃ piece, piece <:+: w ∧ Spelled C s piece

omit h in
theorem Concerns.mono {w w' : Str} (hc : Concerns C s w) (hw : w <:+: w') : Concerns C s w' := by
  obtain ⟨p, h1, h2⟩ := hc
  exact ⟨p, h1.trans hw, h2⟩

section
variable (hn : C.dict.aff.options.allowsCompounding = false) (hr : C.dict.aff.compoundRules.rules = [])
  (hC : C.dict.CondsParsed) (h1 : C.checkLowerAsTitle = false) (h2 : C.checkLowerAsUpper = false)
include hn hr hC h1 h2

theorem doSpellBreak (fuel : Nat) : ∀ (d : Nat) (w : Str),
    Fewer (Concerns C s w) (C.doSpellBreak fuel d w) ((removed C s).doSpellBreak fuel d w) := by
  have good : ∀ {w stem : Str} {F : FlagSet}, (stem = s → Spelled C s w) → Fewer (Concerns C s w)
      (.ok (C.goodFlags F)) (.ok ((removed C s).goodFlags (mark C.dict s stem F))) := by
    intro w stem F hq
    refine ⟨_, _, rfl, rfl, goodFlags.1, fun hne => ⟨w, List.infix_refl _, hq ?_⟩⟩
    by_contra hs
    exact hne (goodFlags.2 hs).symm
  intro d
  induction d with
  | zero =>
    intro w
    obtain ⟨o, o', e, e', hb⟩ := spellCasing (s := s) h hn hr hC h1 h2 fuel w
    rw [Checker.doSpellBreak, Checker.doSpellBreak, e, e']
    rcases hb with ⟨rfl, rfl⟩ | ⟨stem, F, hq, rfl, rfl⟩
    · exact .no
    · exact good hq
  | succ d ih =>
    intro w
    obtain ⟨o, o', e, e', hb⟩ := spellCasing (s := s) h hn hr hC h1 h2 fuel w
    rw [Checker.doSpellBreak, Checker.doSpellBreak, e, e']
    rcases hb with ⟨rfl, rfl⟩ | ⟨stem, F, hq, rfl, rfl⟩
    · refine (Fewer.any (fun pat => ?_) _).either <| (Fewer.any (fun pat => ?_) _).either <| Fewer.any (fun pat => ?_) _
      · cases hs : stripPrefix? w pat with
        | none => exact .no
        | some rest =>
          rw [stripPrefix?_iff] at hs
          exact (ih rest).mono fun hc => hc.mono (hs ▸ (List.suffix_append _ _).isInfix)
      · cases hs : stripSuffix? w pat with
        | none => exact .no
        | some rest =>
          rw [stripSuffix?_iff] at hs
          exact (ih rest).mono fun hc => hc.mono (hs ▸ (List.prefix_append _ _).isInfix)
      · cases hs : splitOnce? pat w with
        | none => exact .no
        | some ab =>
          obtain ⟨x, y⟩ := ab
          have hw := splitOnce?_append hs
          dsimp only
          split
          · exact .no
          · refine ((ih x).mono fun hc => hc.mono ?_).both ((ih y).mono fun hc => hc.mono ?_)
            · rw [hw]; exact (List.prefix_append _ _).isInfix
            · rw [hw, ← List.append_assoc]; exact (List.suffix_append _ _).isInfix
    · exact good hq

theorem check (fuel : Nat) (w : Str) :
    Fewer (Concerns C s (C.aff.inputConversions.convert w) ∨
        Concerns C s (eraseChars (trimEndMatches '.' (C.aff.inputConversions.convert w)) C.aff.ignoreChars))
      (C.check fuel w) ((removed C s).check fuel w) := by
  rw [Checker.check, Checker.check, aff]
  split
  · exact .no
  generalize C.aff.inputConversions.convert w = t
  rw [Checker.checkConverted, Checker.checkConverted, aff]
  split
  · exact .yes
  dsimp only
  split
  · exact .yes
  refine ((doSpellBreak h hn hr hC h1 h2 fuel 9 _).mono .inr).either ?_
  split
  · exact (doSpellBreak h hn hr hC h1 h2 fuel 9 _).mono .inl
  · exact .no

end
end Spellbook.Removal
