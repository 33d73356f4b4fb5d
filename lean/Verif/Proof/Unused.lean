import Verif.Spec.Unused
import Verif.Proof.SuggestSame
import Verif.Proof.NgramSafe
/-!
# Affix rules which nothing refers to
-/

namespace Spellbook
open Spec
namespace Unused

theorem findSome_filter {α β : Type} {p : α → Bool} {f g : α → Option β} : ∀ {l : List α},
    (∀ a ∈ l, p a = true → g a = f a) → (∀ a ∈ l, p a = false → f a = none) →
    (l.filter p).findSome? g = l.findSome? f
  | [], _, _ => rfl
  | a :: l, h1, h2 => by
    have ih := findSome_filter (p := p) (f := f) (g := g) (l := l) (fun b hb => h1 b (.tail _ hb))
      fun b hb => h2 b (.tail _ hb)
    cases hp : p a with
    | true =>
      rw [List.filter_cons_of_pos hp, List.findSome?_cons, List.findSome?_cons, h1 a (.head _) hp, ih]
    | false =>
      rw [List.filter_cons_of_neg (by rw [hp]; decide), List.findSome?_cons, h2 a (.head _) hp, ih]

variable {keep : Nat → Bool} {C : Checker}

theorem index (k : Kind) : (keepChecker keep C).index k = keepRules keep (C.index k) := by cases k <;> rfl

theorem affixesOf (k : Kind) (w : Str) :
    (keepChecker keep C).affixesOf k w = (C.affixesOf k w).filter fun a => keep a.flag := by
  rw [Checker.affixesOf, index, Checker.affixesOf, AffixIndex.affixesOf_eq, AffixIndex.affixesOf_eq]
  exact List.filter_comm ..

/-! ## Continuation flags -/

theorem mem_allFlags {k : Kind} {idx : AffixIndex k} {f : Nat} :
    idx.allFlags.contains f = true ↔ ∃ a ∈ idx.table, f ∈ a.flags.elems := by
  rw [AffixIndex.allFlags, FlagSet.contains_iff, FlagSet.mem_ofList, List.mem_flatMap]

theorem allFlags_isEmpty {k : Kind} {idx : AffixIndex k} (h : idx.allFlags.isEmpty = true) (f : Nat) :
    idx.allFlags.contains f = false := by
  cases hc : idx.allFlags.contains f with
  | false => rfl
  | true =>
    rw [FlagSet.contains_iff] at hc
    rw [FlagSet.isEmpty, List.isEmpty_iff] at h
    rw [h] at hc
    cases hc

theorem mem_table {k : Kind} {w : Str} {a : Affix} (h : a ∈ C.affixesOf k w) : a ∈ (C.index k).table := by
  rw [Checker.affixesOf, AffixIndex.affixesOf_eq] at h
  exact List.mem_of_mem_filter h

theorem allFlags_of_mem {k : Kind} {w : Str} {a : Affix} (h : a ∈ C.affixesOf k w) {f : Nat}
    (hf : a.flags.contains f = true) : (C.index k).allFlags.contains f = true :=
  mem_allFlags.2 ⟨a, mem_table h, FlagSet.contains_iff.1 hf⟩

/-! ## The early exits which are right

Three of the four tests on the continuation flags of a table only avoid work. -/

/-- `twoOuter` without the test. -/
def twoPlain (C : Checker) (k : Kind) (w : Str) (hh : HiddenHomonym) (outer : Affix) : Option AffixForm :=
  if !C.isOuterAffixValid k .full outer then none
  else if C.isCircumfix outer then none
  else
    let stem := outer.toStem k w
    if !outer.conditionMatches k stem then none
    else (C.affixesOf k stem).findSome? (C.twoInner k stem hh outer)

theorem twoPlain_none {k : Kind} {w : Str} {hh : HiddenHomonym} {outer : Affix}
    (h : (C.index k).allFlags.contains outer.flag = false) : twoPlain C k w hh outer = none := by
  unfold twoPlain
  split
  · rfl
  split
  · rfl
  dsimp only
  split
  · rfl
  refine List.findSome?_eq_none_iff.2 fun inner hi => ?_
  unfold Checker.twoInner
  rw [if_pos]
  cases hf : inner.flags.contains outer.flag with
  | false => rfl
  | true => rw [allFlags_of_mem hi hf] at h; cases h

theorem twoOuter_eq (k : Kind) (w : Str) (hh : HiddenHomonym) : C.twoOuter k w hh = twoPlain C k w hh := by
  funext outer
  rw [Checker.twoOuter]
  split
  · rename_i h
    rw [twoPlain_none (by simpa using h)]
  · rfl

theorem stripTwo_eq (k : Kind) (w : Str) (hh : HiddenHomonym) :
    C.stripTwo k w hh = (C.affixesOf k w).findSome? (twoPlain C k w hh) := by
  rw [Checker.stripTwo, twoOuter_eq]
  split
  · rename_i h
    exact (List.findSome?_eq_none_iff.2 fun a _ => twoPlain_none (allFlags_isEmpty h _)).symm
  · rfl

/-- `oneTwoOuter` with another test. -/
def oneTwoTest (C : Checker) (k : Kind) (test : Nat → Bool) (stem : Str) (hh : HiddenHomonym) (one outer : Affix) :
    Option AffixForm :=
  if !test outer.flag then none
  else if !outer.crossproduct then none
  else if !isValid k.other .full outer C.opts then none
  else if C.isCircumfix one != C.isCircumfix outer then none
  else
    let stem2 := outer.toStem k.other stem
    if !outer.conditionMatches k.other stem2 then none
    else (C.affixesOf k.other stem2).findSome? (C.oneTwoInner k stem2 hh one outer)

/-- `oneTwoFirst` with another test. -/
def oneTwoTestFirst (C : Checker) (k : Kind) (test : Nat → Bool) (w : Str) (hh : HiddenHomonym) (one : Affix) :
    Option AffixForm :=
  if !one.crossproduct then none
  else if !C.isOuterAffixValid k .full one then none
  else
    let stem := one.toStem k w
    if !one.conditionMatches k stem then none
    else (C.affixesOf k.other stem).findSome? (oneTwoTest C k test stem hh one)

theorem oneTwoTest_none {k : Kind} {test : Nat → Bool} {w : Str} {hh : HiddenHomonym} {one outer : Affix}
    (h : (C.index k.other).allFlags.contains outer.flag = false) : oneTwoTest C k test w hh one outer = none := by
  unfold oneTwoTest
  split
  · rfl
  split
  · rfl
  split
  · rfl
  split
  · rfl
  dsimp only
  split
  · rfl
  refine List.findSome?_eq_none_iff.2 fun inner hi => ?_
  unfold Checker.oneTwoInner
  rw [if_pos]
  cases hf : inner.flags.contains outer.flag with
  | false => rfl
  | true => rw [allFlags_of_mem hi hf] at h; cases h

theorem oneTwo_test (k : Kind) (w : Str) (hh : HiddenHomonym) :
    C.stripOneTwo k w hh
      = (C.affixesOf k w).findSome? (oneTwoTestFirst C k C.aff.suffixes.allFlags.contains w hh) := by
  rw [Checker.stripOneTwo]
  split
  · rename_i h
    refine (List.findSome?_eq_none_iff.2 fun one _ => ?_).symm
    unfold oneTwoTestFirst
    split
    · rfl
    split
    · rfl
    dsimp only
    split
    · rfl
    refine List.findSome?_eq_none_iff.2 fun outer _ => ?_
    unfold oneTwoTest
    rw [allFlags_isEmpty h]
    rfl
  · rfl

/-- For two suffixes the right table is asked. -/
theorem oneTwo_pfx (w : Str) (hh : HiddenHomonym) :
    C.stripOneTwo .pfx w hh = (C.affixesOf .pfx w).findSome? (oneTwoTestFirst C .pfx (fun _ => true) w hh) := by
  rw [oneTwo_test]
  congr 1
  funext one
  unfold oneTwoTestFirst
  congr 3
  refine congrArg (fun f => ite _ none ((C.affixesOf _ _).findSome? f)) ?_
  funext outer
  cases hc : C.aff.suffixes.allFlags.contains outer.flag with
  | true => unfold oneTwoTest; rw [hc]
  | false =>
    have : (C.index Kind.pfx.other).allFlags.contains outer.flag = false := hc
    rw [oneTwoTest_none this, oneTwoTest_none this]

/-- `sandwichOuter` without the test. -/
def sandwichPlain (C : Checker) (k : Kind) (w : Str) (hh : HiddenHomonym) (outer : Affix) : Option AffixForm :=
  if !outer.crossproduct then none
  else if !C.isOuterAffixValid k .full outer then none
  else
    let stem := outer.toStem k w
    if !outer.conditionMatches k stem then none
    else (C.affixesOf k.other stem).findSome? (C.sandwichMid k stem hh outer)

theorem sandwichPlain_none {k : Kind} {w : Str} {hh : HiddenHomonym} {outer : Affix}
    (h : ∀ k, (C.index k).allFlags.contains outer.flag = false) : sandwichPlain C k w hh outer = none := by
  unfold sandwichPlain
  split
  · rfl
  split
  · rfl
  dsimp only
  split
  · rfl
  refine List.findSome?_eq_none_iff.2 fun mid hm => ?_
  unfold Checker.sandwichMid
  split
  · rfl
  split
  · rfl
  dsimp only
  split
  · rfl
  refine List.findSome?_eq_none_iff.2 fun inner hi => ?_
  unfold Checker.sandwichInner
  split
  · rfl
  rw [if_pos]
  have h1 : inner.flags.contains outer.flag = false := by
    cases hf : inner.flags.contains outer.flag with
    | false => rfl
    | true => have := h k; rw [allFlags_of_mem hi hf] at this; cases this
  have h2 : mid.flags.contains outer.flag = false := by
    cases hf : mid.flags.contains outer.flag with
    | false => rfl
    | true => have := h k.other; rw [allFlags_of_mem hm hf] at this; cases this
  rw [h1, h2]
  rfl

theorem stripSandwich_eq (k : Kind) (w : Str) (hh : HiddenHomonym) :
    C.stripSandwich k w hh = (C.affixesOf k w).findSome? (sandwichPlain C k w hh) := by
  have e : C.sandwichOuter k w hh = sandwichPlain C k w hh := by
    funext outer
    rw [Checker.sandwichOuter]
    split
    · rename_i h
      rw [Bool.and_eq_true, Bool.not_eq_true', Bool.not_eq_true'] at h
      rw [sandwichPlain_none fun k => by cases k; exacts [h.1, h.2]]
    · rfl
  rw [Checker.stripSandwich, e]
  split
  · rename_i h
    rw [Bool.and_eq_true] at h
    refine (List.findSome?_eq_none_iff.2 fun a _ => sandwichPlain_none fun k => ?_).symm
    cases k
    exacts [allFlags_isEmpty h.1 _, allFlags_isEmpty h.2 _]
  · rfl

/-! ## Rules which do not stay find nothing -/

section
variable (h : NotUsed keep C.dict)
include h

theorem entry {w : Str} {e : Str × FlagSet} (he : e ∈ C.entries w) {f : Nat} (hf : keep f = false) :
    e.2.contains f = false := by
  cases hc : e.2.contains f with
  | false => rfl
  | true =>
    rw [h.words e (Bag.mem_get.1 he).1 f (FlagSet.contains_iff.1 hc)] at hf
    cases hf

theorem rule {k : Kind} {w : Str} {a : Affix} (ha : a ∈ C.affixesOf k w) (hk : keep a.flag = true) {f : Nat}
    (hf : keep f = false) : a.flags.contains f = false := by
  cases hc : a.flags.contains f with
  | false => rfl
  | true =>
    have : keep f = true := by
      have hm := mem_table ha
      cases k
      · exact h.prefixes a hm hk f (FlagSet.contains_iff.1 hc)
      · exact h.suffixes a hm hk f (FlagSet.contains_iff.1 hc)
    rw [this] at hf
    cases hf

theorem onlyAffix_none {k : Kind} {m : Mode} {w : Str} {hh : HiddenHomonym} {a : Affix} (ha : keep a.flag = false) :
    C.onlyAffix k m w hh a = none := by
  unfold Checker.onlyAffix
  split
  · rfl
  split
  · rfl
  split
  · rfl
  dsimp only
  split
  · rfl
  refine List.findSome?_eq_none_iff.2 fun e he => ?_
  unfold Checker.onlyEntry
  rw [entry h he ha]
  rfl

theorem stripOnly : (keepChecker keep C).stripOnly = C.stripOnly := by
  funext k m w hh
  rw [Checker.stripOnly, Checker.stripOnly, affixesOf]
  exact findSome_filter (fun _ _ _ => rfl) fun a _ ha => onlyAffix_none h ha

theorem commSuffix_none {m : Mode} {w w' : Str} {hh : HiddenHomonym} {pre suf : Affix}
    (hp : pre ∈ C.affixesOf .pfx w') (hs : suf ∈ C.affixesOf .sfx w)
    (hd : keep pre.flag = false ∨ keep suf.flag = false) : C.commSuffix m w hh pre suf = none := by
  unfold Checker.commSuffix
  split
  · rfl
  split
  · rfl
  split
  · rfl
  split
  · rfl
  dsimp only
  split
  · rfl
  refine List.findSome?_eq_none_iff.2 fun e he => ?_
  unfold Checker.commEntry
  dsimp only
  rw [if_pos]
  cases hkp : keep pre.flag with
  | false =>
    rw [entry h he hkp]
    cases hks : keep suf.flag with
    | false => rw [entry h he hks]; simp
    | true => rw [rule h hs hks hkp]; simp
  | true =>
    have hks : keep suf.flag = false := by
      rcases hd with hd | hd
      · rw [hkp] at hd; cases hd
      · exact hd
    rw [entry h he hks, rule h hp hkp hks]
    simp

theorem stripComm : (keepChecker keep C).stripComm = C.stripComm := by
  funext m w hh
  rw [Checker.stripComm, Checker.stripComm, affixesOf]
  refine findSome_filter (fun pre hp _ => ?_) fun pre hp hd => ?_
  · unfold Checker.commPrefix
    dsimp only
    rw [affixesOf]
    congr 3
    exact findSome_filter (fun _ _ _ => rfl) fun suf hs hd => commSuffix_none h hp hs (.inr hd)
  · unfold Checker.commPrefix
    split
    · rfl
    split
    · rfl
    dsimp only
    split
    · rfl
    exact List.findSome?_eq_none_iff.2 fun suf hs => commSuffix_none h hp hs (.inl hd)

theorem twoInner_none {k : Kind} {w : Str} {hh : HiddenHomonym} {outer inner : Affix}
    (hi : inner ∈ C.affixesOf k w) (hd : keep outer.flag = false ∨ keep inner.flag = false) :
    C.twoInner k w hh outer inner = none := by
  unfold Checker.twoInner
  cases hki : keep inner.flag with
  | true =>
    have hko : keep outer.flag = false := by
      rcases hd with hd | hd
      · exact hd
      · rw [hki] at hd; cases hd
    rw [rule h hi hki hko]
    rfl
  | false =>
    split
    · rfl
    split
    · rfl
    split
    · rfl
    dsimp only
    split
    · rfl
    refine List.findSome?_eq_none_iff.2 fun e he => ?_
    unfold Checker.twoEntry
    rw [entry h he hki]
    rfl

theorem stripTwo : (keepChecker keep C).stripTwo = C.stripTwo := by
  funext k w hh
  rw [stripTwo_eq, stripTwo_eq, affixesOf]
  refine findSome_filter (fun outer _ _ => ?_) fun outer _ hd => ?_
  · unfold twoPlain
    dsimp only
    rw [affixesOf]
    congr 3
    exact findSome_filter (fun _ _ _ => rfl) fun inner hi hd => twoInner_none h hi (.inr hd)
  · unfold twoPlain
    split
    · rfl
    split
    · rfl
    dsimp only
    split
    · rfl
    exact List.findSome?_eq_none_iff.2 fun inner hi => twoInner_none h hi (.inl hd)

theorem oneTwoInner_none {k : Kind} {w w' : Str} {hh : HiddenHomonym} {one outer inner : Affix}
    (ho : outer ∈ C.affixesOf k.other w') (hi : inner ∈ C.affixesOf k.other w)
    (hd : keep one.flag = false ∨ keep outer.flag = false ∨ keep inner.flag = false) :
    C.oneTwoInner k w hh one outer inner = none := by
  unfold Checker.oneTwoInner
  split
  · rfl
  rename_i hf
  split
  · rfl
  split
  · rfl
  dsimp only
  split
  · rfl
  refine List.findSome?_eq_none_iff.2 fun e he => ?_
  unfold Checker.oneTwoEntry
  cases hki : keep inner.flag with
  | false => rw [entry h he hki]; simp
  | true =>
    cases hko : keep outer.flag with
    | false => rw [rule h hi hki hko] at hf; exact absurd rfl hf
    | true =>
      have hk1 : keep one.flag = false := by
        rcases hd with hd | hd | hd
        · exact hd
        · rw [hko] at hd; cases hd
        · rw [hki] at hd; cases hd
      rw [rule h ho hko hk1, entry h he hk1]
      rfl

theorem oneTwoTest_keep {k : Kind} {test test' : Nat → Bool}
    (ht : ∀ f, keep f = true → test' f = test f) (w : Str) (hh : HiddenHomonym) :
    ((keepChecker keep C).affixesOf k w).findSome? (oneTwoTestFirst (keepChecker keep C) k test' w hh)
      = (C.affixesOf k w).findSome? (oneTwoTestFirst C k test w hh) := by
  rw [affixesOf]
  refine findSome_filter (fun one _ _ => ?_) fun one _ hd => ?_
  · unfold oneTwoTestFirst
    dsimp only
    rw [affixesOf]
    congr 3
    refine findSome_filter (fun outer ho hk => ?_) fun outer ho hd => ?_
    · unfold oneTwoTest
      dsimp only
      rw [affixesOf, ht _ hk]
      congr 5
      exact findSome_filter (fun _ _ _ => rfl) fun inner hi hd => oneTwoInner_none h ho hi (.inr (.inr hd))
    · unfold oneTwoTest
      split
      · rfl
      split
      · rfl
      split
      · rfl
      split
      · rfl
      dsimp only
      split
      · rfl
      exact List.findSome?_eq_none_iff.2 fun inner hi => oneTwoInner_none h ho hi (.inr (.inl hd))
  · unfold oneTwoTestFirst
    split
    · rfl
    split
    · rfl
    dsimp only
    split
    · rfl
    refine List.findSome?_eq_none_iff.2 fun outer ho => ?_
    unfold oneTwoTest
    split
    · rfl
    split
    · rfl
    split
    · rfl
    split
    · rfl
    dsimp only
    split
    · rfl
    exact List.findSome?_eq_none_iff.2 fun inner hi => oneTwoInner_none h ho hi (.inl hd)

theorem stripOneTwo_pfx : (keepChecker keep C).stripOneTwo .pfx = C.stripOneTwo .pfx := by
  funext w hh
  rw [oneTwo_pfx, oneTwo_pfx]
  exact oneTwoTest_keep h (fun _ _ => rfl) w hh

theorem stripOneTwo_all (hs : SuffixFlagsStay keep C.dict) (k : Kind) :
    (keepChecker keep C).stripOneTwo k = C.stripOneTwo k := by
  funext w hh
  rw [oneTwo_test, oneTwo_test]
  refine oneTwoTest_keep h (fun f _ => ?_) w hh
  rw [Bool.eq_iff_iff, mem_allFlags, mem_allFlags]
  constructor
  · rintro ⟨a, ha, hf⟩
    exact ⟨a, List.mem_of_mem_filter ha, hf⟩
  · rintro ⟨a, ha, hf⟩
    obtain ⟨b, hb, hk, hf⟩ := hs a ha f hf
    exact ⟨b, List.mem_filter.2 ⟨hb, hk⟩, hf⟩

theorem sandwichInner_none {k : Kind} {w w' : Str} {hh : HiddenHomonym} {outer mid inner : Affix}
    (hm : mid ∈ C.affixesOf k.other w') (hi : inner ∈ C.affixesOf k w)
    (hd : keep outer.flag = false ∨ keep mid.flag = false ∨ keep inner.flag = false) :
    C.sandwichInner k w hh outer mid inner = none := by
  unfold Checker.sandwichInner
  split
  · rfl
  split
  · rfl
  rename_i hf
  split
  · rfl
  split
  · rfl
  dsimp only
  split
  · rfl
  refine List.findSome?_eq_none_iff.2 fun e he => ?_
  unfold Checker.sandwichEntry
  cases hki : keep inner.flag with
  | false => rw [entry h he hki]; simp
  | true =>
    cases hkm : keep mid.flag with
    | false => rw [rule h hi hki hkm, entry h he hkm]; rfl
    | true =>
      have hko : keep outer.flag = false := by
        rcases hd with hd | hd | hd
        · exact hd
        · rw [hkm] at hd; cases hd
        · rw [hki] at hd; cases hd
      rw [rule h hi hki hko, rule h hm hkm hko] at hf
      exact absurd rfl hf

theorem stripSandwich : (keepChecker keep C).stripSandwich = C.stripSandwich := by
  funext k w hh
  rw [stripSandwich_eq, stripSandwich_eq, affixesOf]
  have none' : ∀ {outer mid : Affix} {w w' : Str}, mid ∈ C.affixesOf k.other w' →
      (keep outer.flag = false ∨ keep mid.flag = false) → C.sandwichMid k w hh outer mid = none := by
    intro outer mid w w' hm hd
    unfold Checker.sandwichMid
    split
    · rfl
    split
    · rfl
    dsimp only
    split
    · rfl
    exact List.findSome?_eq_none_iff.2 fun inner hi => sandwichInner_none h hm hi
      (hd.elim .inl fun hd => .inr (.inl hd))
  refine findSome_filter (fun outer _ _ => ?_) fun outer _ hd => ?_
  · unfold sandwichPlain
    dsimp only
    rw [affixesOf]
    congr 3
    refine findSome_filter (fun mid hm _ => ?_) fun mid hm hd => none' hm (.inr hd)
    unfold Checker.sandwichMid
    dsimp only
    rw [affixesOf]
    congr 3
    exact findSome_filter (fun _ _ _ => rfl) fun inner hi hd => sandwichInner_none h hm hi (.inr (.inr hd))
  · unfold sandwichPlain
    split
    · rfl
    split
    · rfl
    dsimp only
    split
    · rfl
    exact List.findSome?_eq_none_iff.2 fun mid hm => none' hm (.inl hd)

/-! ## Lookups -/

theorem checkSimpleWord (hc : C.opts.complexPrefixes = false ∨ SuffixFlagsStay keep C.dict) :
    (keepChecker keep C).checkSimpleWord = C.checkSimpleWord := by
  funext w hh
  unfold Checker.checkSimpleWord
  rw [stripOnly h, stripComm h, stripTwo h, stripSandwich h]
  rcases hc with hc | hc
  · rw [stripOneTwo_pfx h]
    have hc' : (keepChecker keep C).opts.complexPrefixes = false := hc
    rw [hc, hc']
    rfl
  · rw [stripOneTwo_all h hc, stripOneTwo_all h hc]
    rfl

theorem alike (hc : C.opts.complexPrefixes = false ∨ SuffixFlagsStay keep C.dict) :
    Checker.Alike (keepChecker keep C) C where
  U := rfl
  opts := rfl
  breakTable := rfl
  compoundRules := rfl
  compoundSyllableVowels := rfl
  compoundPatterns := rfl
  inputConversions := rfl
  outputConversions := rfl
  replacements := rfl
  similarities := rfl
  ignoreChars := rfl
  keyboardCloseness := rfl
  tryChars := rfl
  found := fun _ _ => rfl
  stripOnly := stripOnly h
  stripComm := stripComm h
  checkSimpleWord := checkSimpleWord h hc
  lowerAsTitle := rfl
  lowerAsUpper := rfl

/-! ## Similar words -/

theorem affixesFor {k : Kind} {flags : FlagSet} (hf : ∀ f ∈ flags.elems, keep f = true) (t w : Str) :
    (keepChecker keep C).affixesFor k flags t w = C.affixesFor k flags t w := by
  rw [Checker.affixesFor, Checker.affixesFor, index]
  change (List.filter _ _).filter _ = _
  rw [List.filter_filter]
  refine List.filter_congr fun a _ => ?_
  change (C.affixFits k flags t a && Checker.addFits k w a && keep a.flag) = (C.affixFits k flags t a && Checker.addFits k w a)
  cases hk : keep a.flag with
  | true => rw [Bool.and_true]
  | false =>
    have : flags.contains a.flag = false := by
      cases hc : flags.contains a.flag with
      | false => rfl
      | true => rw [hf _ (FlagSet.contains_iff.1 hc)] at hk; cases hk
    rw [Checker.affixFits, this]
    simp

omit h in
theorem roots_mem {H : Heaps} {w : Str} {rs : List (MinScored (Str × FlagSet))} (hr : C.ngramRoots H w = .ok rs) :
    ∀ r ∈ rs, r.inner ∈ C.dict.words.slots := by
  have key : ∀ (es : List (Str × FlagSet)) (l rs : List (MinScored (Str × FlagSet))),
      (∀ e ∈ es, e ∈ C.dict.words.slots) → (∀ r ∈ l, r.inner ∈ C.dict.words.slots) →
      es.foldlM (C.offerRoot H w) l = .ok rs → ∀ r ∈ rs, r.inner ∈ C.dict.words.slots := by
    intro es
    induction es with
    | nil => intro l rs _ hl hr; cases hr; exact hl
    | cons e es ih =>
      intro l rs he hl hr
      rw [List.foldlM_cons] at hr
      obtain ⟨l', h1, hr⟩ := Run.bind_eq_ok.1 hr
      refine ih l' rs (fun e' h' => he e' (.tail _ h')) ?_ hr
      unfold Checker.offerRoot at h1
      split at h1
      · cases h1; exact hl
      · obtain ⟨n, -, h1⟩ := Run.bind_eq_ok.1 h1
        cases h1
        intro r hm
        rcases Checker.offer_mem hm with rfl | hm
        · exact he e (.head _)
        · exact hl r hm
  exact key _ _ _ (fun e he => (Bag.iter_perm C.L C.dict.words).mem_iff.1 he) (by simp) hr

theorem expandStem {flags : FlagSet} (hf : ∀ f ∈ flags.elems, keep f = true) (t w : Str) :
    (keepChecker keep C).expandStem t flags w = C.expandStem t flags w := by
  simp only [Checker.expandStem, Checker.suffixForms, Checker.crossForms, Checker.prefixForms, affixesFor h hf]
  rfl

theorem ngramGuesses {H : Heaps} {w : Str} : ∀ {rs : List (MinScored (Str × FlagSet))},
    (∀ r ∈ rs, r.inner ∈ C.dict.words.slots) →
    (keepChecker keep C).ngramGuesses H w rs = C.ngramGuesses H w rs := by
  intro rs
  unfold Checker.ngramGuesses
  generalize ([] : List (MinScored Str)) = l
  induction rs generalizing l with
  | nil => intro _; rfl
  | cons r rs ih =>
    intro hr
    rw [List.foldlM_cons, List.foldlM_cons, expandStem h (h.words _ (hr r (.head _)))]
    have hi : ∀ l', _ = _ := fun l' => ih l' fun r' h' => hr r' (.tail _ h')
    change Except.bind _ _ = Except.bind _ _
    exact congrArg (Except.bind _) (funext hi)

theorem ngramSuggest (H : Heaps) (w : Str) (out : List Str) :
    (keepChecker keep C).ngramSuggest H w out = C.ngramSuggest H w out := by
  unfold Checker.ngramSuggest
  cases charsStr w with
  | error e => rfl
  | ok w =>
    change (do let roots ← C.ngramRoots H w; _) = (do let roots ← C.ngramRoots H w; _)
    cases hr : C.ngramRoots H w with
    | error e => rfl
    | ok rs =>
      change (do let g ← (keepChecker keep C).ngramGuesses H w rs; _) = (do let g ← C.ngramGuesses H w rs; _)
      rw [ngramGuesses h (roots_mem hr)]
      have h1 : ∀ l, (keepChecker keep C).rescore w l = C.rescore w l := by
        intro l
        induction l with
        | nil => rfl
        | cons g l ih => rw [Checker.rescore, Checker.rescore, ih]; rfl
      have h2 : ∀ b old limit l out, (keepChecker keep C).selectGuesses b old limit l out
          = C.selectGuesses b old limit l out := by
        intro b old limit l
        induction l with
        | nil => intro out; rfl
        | cons g l ih =>
          intro out
          rw [Checker.selectGuesses, Checker.selectGuesses]
          simp only [ih]
          rfl
      simp only [h1, h2]
      rfl

end

/-! ## Suggestions -/

theorem suggest {S : Suggester} (h : NotUsed keep S.C.dict)
    (hc : S.C.opts.complexPrefixes = false ∨ SuffixFlagsStay keep S.C.dict)
    (hm : (keepSuggester keep S).maxAttempts = S.maxAttempts) : (keepSuggester keep S).suggest = S.suggest := by
  refine Suggester.alike_suggest ⟨alike h hc, hm⟩ ?_
  funext c w q out
  have e : (keepSuggester keep S).C.ngramSuggest = S.C.ngramSuggest := by
    funext H w out
    exact ngramSuggest h H w out
  unfold Suggester.ngramPart
  rw [e]
  rfl

end Unused
end Spellbook
