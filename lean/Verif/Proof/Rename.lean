import Verif.Proof.AffixIndex
import Verif.Proof.FlagSet
import Verif.Spec.Rename
/-!
# `check` and `suggest` do not depend on the names of flags

Each lemma says that a function of the checker with renamed flags gives the renamed result.
-/

namespace Spellbook
open Spec

/-! ## Flag sets -/

section Flags
variable {p : Nat → Nat}

theorem mem_renameFlags {s : FlagSet} {f : Nat} :
    f ∈ (renameFlags p s).elems ↔ ∃ g ∈ s.elems, p g = f := by
  simp only [renameFlags, FlagSet.mem_ofList, List.mem_map]

theorem renameFlags_contains (hp : ∀ f g, p f = p g → f = g) (s : FlagSet) (f : Nat) :
    (renameFlags p s).contains (p f) = s.contains f := by
  rw [Bool.eq_iff_iff, FlagSet.contains_iff, FlagSet.contains_iff, mem_renameFlags]
  constructor
  · rintro ⟨g, hg, he⟩
    exact hp _ _ he ▸ hg
  · exact fun h => ⟨f, h, rfl⟩

theorem renameFlags_fixed (hp : ∀ f g, p f = p g → f = g) (s : FlagSet) {f : Nat} (hf : p f = f) :
    (renameFlags p s).contains f = s.contains f := by
  have := renameFlags_contains hp s f
  rwa [hf] at this

theorem renameFlags_hasFlag (hp : ∀ f g, p f = p g → f = g) (s : FlagSet) (o : Option Nat) :
    hasFlag (renameFlags p s) (o.map p) = hasFlag s o := by
  cases o with
  | none => rfl
  | some f => exact renameFlags_contains hp s f

theorem renameFlags_any (hp : ∀ f g, p f = p g → f = g) (s : FlagSet) (o : Option Nat) :
    ((o.map p).any fun f => !(renameFlags p s).contains f) = o.any fun f => !s.contains f := by
  cases o with
  | none => rfl
  | some f => simp only [Option.map_some, Option.any_some, renameFlags_contains hp]

theorem renameFlags_inj (hp : ∀ f g, p f = p g → f = g) (s t : FlagSet) :
    renameFlags p s = renameFlags p t ↔ s = t := by
  constructor
  · intro h
    refine FlagSet.ext fun f => ?_
    rw [← renameFlags_contains hp s f, h, renameFlags_contains hp]
  · rintro rfl; rfl

theorem renameFlags_isEmpty (s : FlagSet) : (renameFlags p s).isEmpty = s.isEmpty := by
  rw [FlagSet.isEmpty, FlagSet.isEmpty, Bool.eq_iff_iff, List.isEmpty_iff, List.isEmpty_iff,
    List.eq_nil_iff_forall_not_mem, List.eq_nil_iff_forall_not_mem]
  constructor
  · intro h f hf
    exact h (p f) (mem_renameFlags.2 ⟨f, hf, rfl⟩)
  · intro h f hf
    obtain ⟨g, hg, _⟩ := mem_renameFlags.1 hf
    exact h g hg

theorem renameFlags_hasIntersection (hp : ∀ f g, p f = p g → f = g) (s t : FlagSet) :
    (renameFlags p s).hasIntersection (renameFlags p t) = s.hasIntersection t := by
  rw [Bool.eq_iff_iff, FlagSet.hasIntersection_iff, FlagSet.hasIntersection_iff]
  constructor
  · rintro ⟨f, h1, h2⟩
    obtain ⟨g, hg, rfl⟩ := mem_renameFlags.1 h1
    obtain ⟨g', hg', he⟩ := mem_renameFlags.1 h2
    exact ⟨g, hg, hp _ _ he ▸ hg'⟩
  · rintro ⟨f, h1, h2⟩
    exact ⟨p f, mem_renameFlags.2 ⟨f, h1, rfl⟩, mem_renameFlags.2 ⟨f, h2, rfl⟩⟩

theorem elems_eq {s t : FlagSet} (h : ∀ f, f ∈ s.elems ↔ f ∈ t.elems) : s = t := by
  refine FlagSet.ext fun f => ?_
  rw [Bool.eq_iff_iff, FlagSet.contains_iff, FlagSet.contains_iff, h]

theorem renameIndex_allFlags {k : Kind} (idx : AffixIndex k) :
    (renameIndex p idx).allFlags = renameFlags p idx.allFlags := by
  refine elems_eq fun f => ?_
  simp only [AffixIndex.allFlags, FlagSet.mem_ofList, mem_renameFlags, renameIndex, List.mem_flatMap,
    List.mem_map, renameAffix]
  constructor
  · rintro ⟨_, ⟨a, ha, rfl⟩, hf⟩
    obtain ⟨g, hg, he⟩ := mem_renameFlags.1 hf
    exact ⟨g, ⟨a, ha, hg⟩, he⟩
  · rintro ⟨g, ⟨a, ha, hg⟩, he⟩
    exact ⟨_, ⟨a, ha, rfl⟩, mem_renameFlags.2 ⟨g, hg, he⟩⟩

theorem renameRules_allFlags (t : CompoundRuleTable) :
    (⟨t.rules.map (renameRule p)⟩ : CompoundRuleTable).allFlags = renameFlags p t.allFlags := by
  refine elems_eq fun f => ?_
  simp only [CompoundRuleTable.allFlags, FlagSet.mem_ofList, mem_renameFlags, List.mem_flatMap,
    List.mem_map, renameRule]
  constructor
  · rintro ⟨_, ⟨a, ha, rfl⟩, e, he, rfl⟩
    obtain ⟨g, hg, rfl⟩ := List.mem_map.1 he
    exact ⟨g.flag, ⟨a, ha, g, hg, rfl⟩, rfl⟩
  · rintro ⟨_, ⟨a, ha, e, he, rfl⟩, rfl⟩
    exact ⟨_, ⟨a, ha, rfl⟩, _, List.mem_map.2 ⟨e, he, rfl⟩, rfl⟩

end Flags

/-! ## Loops -/

theorem findSome_rename {α α' β β' : Type} {r : α → α'} {g : β → β'} {f : α → Option β}
    {f' : α' → Option β'} (h : ∀ a, f' (r a) = (f a).map g) (l : List α) :
    (l.map r).findSome? f' = (l.findSome? f).map g := by
  induction l with
  | nil => rfl
  | cons a l ih =>
    rw [List.map_cons, List.findSome?_cons, List.findSome?_cons, h]
    cases f a with
    | none => exact ih
    | some b => rfl

theorem find_rename {α α' : Type} {r : α → α'} {f : α → Bool} {f' : α' → Bool}
    (h : ∀ a, f' (r a) = f a) (l : List α) : (l.map r).find? f' = (l.find? f).map r := by
  induction l with
  | nil => rfl
  | cons a l ih =>
    rw [List.map_cons, List.find?_cons, List.find?_cons, h]
    cases f a with
    | false => exact ih
    | true => rfl

theorem any_rename {α α' : Type} {r : α → α'} {f : α → Bool} {f' : α' → Bool}
    (h : ∀ a, f' (r a) = f a) (l : List α) : (l.map r).any f' = l.any f := by
  rw [List.any_map]
  congr 1
  funext a
  exact h a

theorem filter_rename {α α' : Type} {r : α → α'} {f : α → Bool} {f' : α' → Bool}
    (h : ∀ a, f' (r a) = f a) (l : List α) : (l.map r).filter f' = (l.filter f).map r := by
  rw [List.filter_map]
  congr 2
  funext a
  exact h a

/-- The form of a word with its flags and affixes renamed. -/
def renameForm (p : Nat → Nat) (f : AffixForm) : AffixForm :=
  { stem := f.stem, flags := renameFlags p f.flags,
    prefixes := (f.prefixes.1.map (renameAffix p), f.prefixes.2.map (renameAffix p)),
    suffixes := (f.suffixes.1.map (renameAffix p), f.suffixes.2.map (renameAffix p)) }

/-- The result for a part of a compound with its flags renamed. -/
def renameResult (p : Nat → Nat) (r : CompoundingResult) : CompoundingResult :=
  { r with flags := renameFlags p r.flags }

/-! ## Simple words -/

namespace Renamed
open Checker
variable {p : Nat → Nat} {W : Writing} {C : Checker} (h : Renaming p C.aff)

theorem entries (w : Str) :
    (renameChecker p W C).entries w = (C.entries w).map (renameEntry p) := by
  have hk : (⟨C.dict.words.slots.map (renameEntry p)⟩ : Bag FlagSet).keys = C.dict.words.keys := by
    simp only [Bag.keys, List.map_map]; rfl
  simp only [Checker.entries, renameChecker, renameDict, Bag.get]
  rw [hk]
  generalize C.L.probe C.dict.words.keys (C.L.hash w) = is
  rw [show (is.filterMap fun i => (C.dict.words.slots.map (renameEntry p))[i]?)
    = (is.filterMap fun i => C.dict.words.slots[i]?).map (renameEntry p) by
      rw [List.map_filterMap]; simp only [List.getElem?_map]]
  exact filter_rename (fun _ => rfl) _

theorem iter :
    (renameChecker p W C).dict.words.iter (renameChecker p W C).L
      = (C.dict.words.iter C.L).map (renameEntry p) := by
  have hk : (⟨C.dict.words.slots.map (renameEntry p)⟩ : Bag FlagSet).keys = C.dict.words.keys := by
    simp only [Bag.keys, List.map_map]; rfl
  simp only [renameChecker, renameDict, Bag.iter]
  rw [hk, List.map_filterMap]
  simp only [List.getElem?_map]

theorem index (k : Kind) : (renameChecker p W C).index k = renameIndex p (C.index k) := by
  cases k <;> rfl

theorem affixesOf (k : Kind) (w : Str) :
    (renameChecker p W C).affixesOf k w = (C.affixesOf k w).map (renameAffix p) := by
  rw [Checker.affixesOf, Checker.affixesOf, index, AffixIndex.affixesOf_eq, AffixIndex.affixesOf_eq]
  exact filter_rename (fun _ => rfl) _

theorem suffixFlags :
    (renameChecker p W C).aff.suffixes.allFlags = renameFlags p C.aff.suffixes.allFlags :=
  renameIndex_allFlags _

theorem prefixFlags :
    (renameChecker p W C).aff.prefixes.allFlags = renameFlags p C.aff.prefixes.allFlags :=
  renameIndex_allFlags _


theorem o_needAffix : (renameChecker p W C).opts.needAffixFlag = C.opts.needAffixFlag.map p := rfl
theorem o_onlyInCompound :
    (renameChecker p W C).opts.onlyInCompoundFlag = C.opts.onlyInCompoundFlag.map p := rfl
theorem o_circumfix : (renameChecker p W C).opts.circumfixFlag = C.opts.circumfixFlag.map p := rfl
theorem o_forbidden : (renameChecker p W C).opts.forbiddenWordFlag = p C.opts.forbiddenWordFlag := rfl
theorem o_keepCase : (renameChecker p W C).opts.keepCaseFlag = C.opts.keepCaseFlag.map p := rfl
theorem o_warn : (renameChecker p W C).opts.warnFlag = C.opts.warnFlag.map p := rfl
theorem o_compound : (renameChecker p W C).opts.compoundFlag = C.opts.compoundFlag.map p := rfl
theorem o_begin : (renameChecker p W C).opts.compoundBeginFlag = C.opts.compoundBeginFlag.map p := rfl
theorem o_middle :
    (renameChecker p W C).opts.compoundMiddleFlag = C.opts.compoundMiddleFlag.map p := rfl
theorem o_end : (renameChecker p W C).opts.compoundEndFlag = C.opts.compoundEndFlag.map p := rfl
theorem o_root : (renameChecker p W C).opts.compoundRootFlag = C.opts.compoundRootFlag.map p := rfl
theorem o_force : (renameChecker p W C).opts.compoundForceUppercaseFlag
    = C.opts.compoundForceUppercaseFlag.map p := rfl
theorem o_noSuggest : (renameChecker p W C).opts.noSuggestFlag = C.opts.noSuggestFlag.map p := rfl
theorem a_flag (a : Affix) : (renameAffix p a).flag = p a.flag := rfl
theorem a_flags (a : Affix) : (renameAffix p a).flags = renameFlags p a.flags := rfl
theorem a_add (a : Affix) : (renameAffix p a).add = a.add := rfl
theorem a_cross (a : Affix) : (renameAffix p a).crossproduct = a.crossproduct := rfl
theorem a_toStem (k : Kind) (a : Affix) (w : Str) : (renameAffix p a).toStem k w = a.toStem k w := by
  cases k <;> rfl
theorem a_cond (k : Kind) (a : Affix) (w : Str) :
    (renameAffix p a).conditionMatches k w = a.conditionMatches k w := by
  cases k <;> rfl
theorem e_fst (e : Str × FlagSet) : (renameEntry p e).1 = e.1 := rfl
theorem e_snd (e : Str × FlagSet) : (renameEntry p e).2 = renameFlags p e.2 := rfl

include h

theorem contains (s : FlagSet) (f : Nat) : (renameFlags p s).contains (p f) = s.contains f :=
  renameFlags_contains h.injective s f

theorem flag (s : FlagSet) (o : Option Nat) : hasFlag (renameFlags p s) (o.map p) = hasFlag s o :=
  renameFlags_hasFlag h.injective s o

theorem hidden (s : FlagSet) :
    (renameFlags p s).contains hiddenHomonymFlag = s.contains hiddenHomonymFlag :=
  renameFlags_fixed h.injective s h.hidden

theorem valid (k : Kind) (m : Mode) (a : Affix) :
    isValid k m (renameAffix p a) (renameChecker p W C).opts = isValid k m a C.opts := by
  have e1 : (renameChecker p W C).opts.compoundPermitFlag = C.opts.compoundPermitFlag.map p := rfl
  have e2 : (renameChecker p W C).opts.compoundForbidFlag = C.opts.compoundForbidFlag.map p := rfl
  simp only [isValid, a_flags, o_onlyInCompound, e1, e2, flag h]

theorem isOuterAffixValid (k : Kind) (m : Mode) (a : Affix) :
    (renameChecker p W C).isOuterAffixValid k m (renameAffix p a) = C.isOuterAffixValid k m a := by
  simp only [Checker.isOuterAffixValid, valid h, a_flags, o_needAffix, flag h]

theorem isCircumfix (a : Affix) :
    (renameChecker p W C).isCircumfix (renameAffix p a) = C.isCircumfix a := by
  simp only [Checker.isCircumfix, a_flags, o_circumfix, flag h]

theorem isValidInsideCompound (m : Mode) (s : FlagSet) :
    (renameChecker p W C).isValidInsideCompound m (renameFlags p s) = C.isValidInsideCompound m s := by
  simp only [Checker.isValidInsideCompound, o_compound, o_begin, o_middle, o_end, flag h]

theorem onlyEntry (k : Kind) (m : Mode) (hh : HiddenHomonym) (a : Affix) (e : Str × FlagSet) :
    (renameChecker p W C).onlyEntry k m hh (renameAffix p a) (renameEntry p e)
      = (C.onlyEntry k m hh a e).map (renameForm p) := by
  cases k <;>
  simp only [Checker.onlyEntry, e_snd, a_flag, a_flags, contains h, o_onlyInCompound, flag h, hidden h,
    isValidInsideCompound h, apply_ite (Option.map (renameForm p)), Option.map_none, Option.map_some] <;>
  rfl

theorem onlyAffix (k : Kind) (m : Mode) (w : Str) (hh : HiddenHomonym) (a : Affix) :
    (renameChecker p W C).onlyAffix k m w hh (renameAffix p a)
      = (C.onlyAffix k m w hh a).map (renameForm p) := by
  simp only [Checker.onlyAffix, isOuterAffixValid h, a_add, a_flags, o_onlyInCompound, flag h,
    isCircumfix h, a_toStem, a_cond, entries, findSome_rename (onlyEntry h k m hh a),
    apply_ite (Option.map (renameForm p)), Option.map_none]

theorem stripOnly (k : Kind) (m : Mode) (w : Str) (hh : HiddenHomonym) :
    (renameChecker p W C).stripOnly k m w hh = (C.stripOnly k m w hh).map (renameForm p) := by
  rw [Checker.stripOnly, affixesOf, findSome_rename (onlyAffix h k m w hh), Checker.stripOnly]

theorem commEntry (m : Mode) (hh : HiddenHomonym) (a b : Affix) (e : Str × FlagSet) :
    (renameChecker p W C).commEntry m hh (renameAffix p a) (renameAffix p b) (renameEntry p e)
      = (C.commEntry m hh a b e).map (renameForm p) := by
  simp only [Checker.commEntry, e_snd, a_flag, a_flags, contains h, o_needAffix, o_onlyInCompound,
    flag h, hidden h, isValidInsideCompound h, apply_ite (Option.map (renameForm p)), Option.map_none,
    Option.map_some]
  rfl

theorem commSuffix (m : Mode) (w : Str) (hh : HiddenHomonym) (a b : Affix) :
    (renameChecker p W C).commSuffix m w hh (renameAffix p a) (renameAffix p b)
      = (C.commSuffix m w hh a b).map (renameForm p) := by
  simp only [Checker.commSuffix, a_cross, valid h, a_flags, o_needAffix, flag h, isCircumfix h,
    a_toStem, a_cond, entries, findSome_rename (commEntry h m hh a b),
    apply_ite (Option.map (renameForm p)), Option.map_none]

theorem commPrefix (m : Mode) (w : Str) (hh : HiddenHomonym) (a : Affix) :
    (renameChecker p W C).commPrefix m w hh (renameAffix p a)
      = (C.commPrefix m w hh a).map (renameForm p) := by
  simp only [Checker.commPrefix, a_cross, valid h, a_toStem, a_cond, affixesOf,
    findSome_rename (commSuffix h m _ hh a), apply_ite (Option.map (renameForm p)), Option.map_none]

theorem stripComm (m : Mode) (w : Str) (hh : HiddenHomonym) :
    (renameChecker p W C).stripComm m w hh = (C.stripComm m w hh).map (renameForm p) := by
  rw [Checker.stripComm, affixesOf, findSome_rename (commPrefix h m w hh), Checker.stripComm]

theorem fullEntryOk (hh : HiddenHomonym) (s : FlagSet) :
    (renameChecker p W C).fullEntryOk hh (renameFlags p s) = C.fullEntryOk hh s := by
  simp only [Checker.fullEntryOk, o_onlyInCompound, flag h, hidden h]

theorem twoEntry (k : Kind) (hh : HiddenHomonym) (a b : Affix) (e : Str × FlagSet) :
    (renameChecker p W C).twoEntry k hh (renameAffix p a) (renameAffix p b) (renameEntry p e)
      = (C.twoEntry k hh a b e).map (renameForm p) := by
  cases k <;>
  simp only [Checker.twoEntry, e_snd, a_flag, contains h, fullEntryOk h,
    apply_ite (Option.map (renameForm p)), Option.map_none, Option.map_some] <;>
  rfl

theorem twoInner (k : Kind) (w : Str) (hh : HiddenHomonym) (a b : Affix) :
    (renameChecker p W C).twoInner k w hh (renameAffix p a) (renameAffix p b)
      = (C.twoInner k w hh a b).map (renameForm p) := by
  simp only [Checker.twoInner, a_flags, a_flag, contains h, valid h, isCircumfix h, a_toStem, a_cond,
    entries, findSome_rename (twoEntry h k hh a b), apply_ite (Option.map (renameForm p)),
    Option.map_none]

theorem twoOuter (k : Kind) (w : Str) (hh : HiddenHomonym) (a : Affix) :
    (renameChecker p W C).twoOuter k w hh (renameAffix p a)
      = (C.twoOuter k w hh a).map (renameForm p) := by
  simp only [Checker.twoOuter, index, renameIndex_allFlags, a_flag, contains h, isOuterAffixValid h,
    isCircumfix h, a_toStem, a_cond, affixesOf, findSome_rename (twoInner h k _ hh a),
    apply_ite (Option.map (renameForm p)), Option.map_none]

theorem stripTwo (k : Kind) (w : Str) (hh : HiddenHomonym) :
    (renameChecker p W C).stripTwo k w hh = (C.stripTwo k w hh).map (renameForm p) := by
  simp only [Checker.stripTwo, index, renameIndex_allFlags, renameFlags_isEmpty, affixesOf,
    findSome_rename (twoOuter h k w hh), apply_ite (Option.map (renameForm p)), Option.map_none]

theorem oneTwoEntry (k : Kind) (hh : HiddenHomonym) (a b c : Affix) (e : Str × FlagSet) :
    (renameChecker p W C).oneTwoEntry k hh (renameAffix p a) (renameAffix p b) (renameAffix p c)
      (renameEntry p e) = (C.oneTwoEntry k hh a b c e).map (renameForm p) := by
  cases k <;>
  simp only [Checker.oneTwoEntry, e_snd, a_flags, a_flag, contains h, fullEntryOk h,
    apply_ite (Option.map (renameForm p)), Option.map_none, Option.map_some] <;>
  rfl

theorem oneTwoInner (k : Kind) (w : Str) (hh : HiddenHomonym) (a b c : Affix) :
    (renameChecker p W C).oneTwoInner k w hh (renameAffix p a) (renameAffix p b) (renameAffix p c)
      = (C.oneTwoInner k w hh a b c).map (renameForm p) := by
  simp only [Checker.oneTwoInner, a_flags, a_flag, contains h, valid h, isCircumfix h, a_toStem, a_cond,
    entries, findSome_rename (oneTwoEntry h k hh a b c), apply_ite (Option.map (renameForm p)),
    Option.map_none]

theorem oneTwoOuter (k : Kind) (w : Str) (hh : HiddenHomonym) (a b : Affix) :
    (renameChecker p W C).oneTwoOuter k w hh (renameAffix p a) (renameAffix p b)
      = (C.oneTwoOuter k w hh a b).map (renameForm p) := by
  simp only [Checker.oneTwoOuter, suffixFlags, a_flag, contains h, a_cross, valid h, isCircumfix h,
    a_toStem, a_cond, affixesOf, findSome_rename (oneTwoInner h k _ hh a b),
    apply_ite (Option.map (renameForm p)), Option.map_none]

theorem oneTwoFirst (k : Kind) (w : Str) (hh : HiddenHomonym) (a : Affix) :
    (renameChecker p W C).oneTwoFirst k w hh (renameAffix p a)
      = (C.oneTwoFirst k w hh a).map (renameForm p) := by
  simp only [Checker.oneTwoFirst, a_cross, isOuterAffixValid h, a_toStem, a_cond, affixesOf,
    findSome_rename (oneTwoOuter h k _ hh a), apply_ite (Option.map (renameForm p)), Option.map_none]

theorem stripOneTwo (k : Kind) (w : Str) (hh : HiddenHomonym) :
    (renameChecker p W C).stripOneTwo k w hh = (C.stripOneTwo k w hh).map (renameForm p) := by
  simp only [Checker.stripOneTwo, suffixFlags, renameFlags_isEmpty, affixesOf,
    findSome_rename (oneTwoFirst h k w hh), apply_ite (Option.map (renameForm p)), Option.map_none]

theorem sandwichEntry (k : Kind) (hh : HiddenHomonym) (a b c : Affix) (e : Str × FlagSet) :
    (renameChecker p W C).sandwichEntry k hh (renameAffix p a) (renameAffix p b) (renameAffix p c)
      (renameEntry p e) = (C.sandwichEntry k hh a b c e).map (renameForm p) := by
  cases k <;>
  simp only [Checker.sandwichEntry, e_snd, a_flags, a_flag, contains h, fullEntryOk h,
    apply_ite (Option.map (renameForm p)), Option.map_none, Option.map_some] <;>
  rfl

theorem sandwichInner (k : Kind) (w : Str) (hh : HiddenHomonym) (a b c : Affix) :
    (renameChecker p W C).sandwichInner k w hh (renameAffix p a) (renameAffix p b) (renameAffix p c)
      = (C.sandwichInner k w hh a b c).map (renameForm p) := by
  simp only [Checker.sandwichInner, a_cross, a_flags, a_flag, contains h, valid h, isCircumfix h,
    a_toStem, a_cond, entries, findSome_rename (sandwichEntry h k hh a b c),
    apply_ite (Option.map (renameForm p)), Option.map_none]

theorem sandwichMid (k : Kind) (w : Str) (hh : HiddenHomonym) (a b : Affix) :
    (renameChecker p W C).sandwichMid k w hh (renameAffix p a) (renameAffix p b)
      = (C.sandwichMid k w hh a b).map (renameForm p) := by
  simp only [Checker.sandwichMid, a_cross, valid h, a_toStem, a_cond, affixesOf,
    findSome_rename (sandwichInner h k _ hh a b), apply_ite (Option.map (renameForm p)),
    Option.map_none]

theorem sandwichOuter (k : Kind) (w : Str) (hh : HiddenHomonym) (a : Affix) :
    (renameChecker p W C).sandwichOuter k w hh (renameAffix p a)
      = (C.sandwichOuter k w hh a).map (renameForm p) := by
  simp only [Checker.sandwichOuter, suffixFlags, prefixFlags, a_flag, contains h, a_cross,
    isOuterAffixValid h, a_toStem, a_cond, affixesOf, findSome_rename (sandwichMid h k _ hh a),
    apply_ite (Option.map (renameForm p)), Option.map_none]

theorem stripSandwich (k : Kind) (w : Str) (hh : HiddenHomonym) :
    (renameChecker p W C).stripSandwich k w hh = (C.stripSandwich k w hh).map (renameForm p) := by
  simp only [Checker.stripSandwich, suffixFlags, prefixFlags, renameFlags_isEmpty, affixesOf,
    findSome_rename (sandwichOuter h k w hh), apply_ite (Option.map (renameForm p)), Option.map_none]

theorem directEntry (hh : HiddenHomonym) (e : Str × FlagSet) :
    (renameChecker p W C).directEntry hh (renameEntry p e)
      = (C.directEntry hh e).map (renameFlags p) := by
  simp only [Checker.directEntry, e_snd, o_needAffix, o_onlyInCompound, flag h, hidden h,
    apply_ite (Option.map (renameFlags p)), Option.map_none, Option.map_some]

theorem checkSimpleWord (w : Str) (hh : HiddenHomonym) :
    (renameChecker p W C).checkSimpleWord w hh = (C.checkSimpleWord w hh).map (renameFlags p) := by
  have e : ∀ o : Option AffixForm, (o.map (renameForm p)).map (·.flags)
      = (o.map (·.flags)).map (renameFlags p) := fun o => by cases o <;> rfl
  have ho : (renameChecker p W C).opts.complexPrefixes = C.opts.complexPrefixes := rfl
  simp only [Checker.checkSimpleWord, entries, findSome_rename (directEntry h hh), stripOnly h,
    stripComm h, stripTwo h, stripOneTwo h, stripSandwich h, e, ho, ← Option.map_or,
    ← apply_ite (Option.map (renameFlags p))]

/-! ## Compounds -/

omit h in
theorem vowels : (renameChecker p W C).aff.compoundSyllableVowels = C.aff.compoundSyllableVowels := rfl

omit h in
theorem countSyllables (w : Str) : (renameChecker p W C).countSyllables w = C.countSyllables w := rfl

omit h in
theorem numWordsModifier (a : Affix) :
    (renameChecker p W C).numWordsModifier (renameAffix p a) = C.numWordsModifier a := rfl

theorem syllableModifier (m : Mode) (s : FlagSet) :
    (renameChecker p W C).syllableModifier m (renameFlags p s) = C.syllableModifier m s := by
  simp only [Checker.syllableModifier, vowels]
  by_cases hv : C.aff.compoundSyllableVowels = []
  · simp [hv]
  · obtain ⟨_, h2, h3⟩ := h.syllables hv
    rw [renameFlags_fixed h.injective s h2, renameFlags_fixed h.injective s h3]
    rfl

theorem syllableModifierWithSuffix (m : Mode) (s : FlagSet) (a : Affix) :
    (renameChecker p W C).syllableModifierWithSuffix m (renameFlags p s) (renameAffix p a)
      = C.syllableModifierWithSuffix m s a := by
  have ho : (renameChecker p W C).opts.compoundSyllableNum = C.opts.compoundSyllableNum := rfl
  simp only [Checker.syllableModifierWithSuffix, vowels, countSyllables, a_add, a_flag, ho]
  by_cases hv : C.aff.compoundSyllableVowels = []
  · simp [hv]
  · obtain ⟨h1, h2, h3⟩ := h.syllables hv
    have e : ∀ f n, p n = n → (p f = n ↔ f = n) := fun f n hn =>
      ⟨fun hf => h.injective _ _ (hf.trans hn.symm), fun hf => hf ▸ hn⟩
    simp only [e _ _ h1, e _ _ h2, e _ _ h3, renameFlags_fixed h.injective s h3]
    rfl

omit h in
theorem positionFlag (m : Mode) :
    (renameChecker p W C).positionFlag m = (C.positionFlag m).map p := by
  cases m <;> rfl

theorem compoundEntry (m : Mode) (e : Str × FlagSet) :
    (renameChecker p W C).compoundEntry m (renameEntry p e)
      = (C.compoundEntry m e).map (renameResult p) := by
  simp only [Checker.compoundEntry, e_snd, o_needAffix, o_compound, positionFlag, flag h, hidden h,
    syllableModifier h, apply_ite (Option.map (renameResult p)), Option.map_none, Option.map_some]
  rfl

theorem suffixResult (m : Mode) (f : AffixForm) :
    (renameChecker p W C).suffixResult m (renameForm p f)
      = (C.suffixResult m f).map (renameResult p) := by
  obtain ⟨st, fl, ⟨p1, p2⟩, s1, s2⟩ := f
  cases s1 with
  | none => rfl
  | some a =>
    simp only [Checker.suffixResult, renameForm, Option.map_some, syllableModifierWithSuffix h]
    rfl

omit h in
theorem prefixResult (f : AffixForm) :
    (renameChecker p W C).prefixResult (renameForm p f) = (C.prefixResult f).map (renameResult p) := by
  obtain ⟨st, fl, ⟨p1, p2⟩, s1, s2⟩ := f
  cases p1 <;> rfl

theorem commResult (m : Mode) (f : AffixForm) :
    (renameChecker p W C).commResult m (renameForm p f) = (C.commResult m f).map (renameResult p) := by
  obtain ⟨st, fl, ⟨p1, p2⟩, s1, s2⟩ := f
  cases p1 with
  | none => rfl
  | some a =>
    cases s1 with
    | none => rfl
    | some b =>
      simp only [Checker.commResult, renameForm, Option.map_some, syllableModifierWithSuffix h]
      rfl

omit h in
theorem bind_map {α α' β β' : Type} {r : α → α'} {g : β → β'} {f : α → Option β} {f' : α' → Option β'}
    (hf : ∀ a, f' (r a) = (f a).map g) (o : Option α) : (o.map r).bind f' = (o.bind f).map g := by
  cases o with
  | none => rfl
  | some a => exact hf a

theorem checkWordInCompound (m : Mode) (w : Str) :
    (renameChecker p W C).checkWordInCompound m w
      = (C.checkWordInCompound m w).map (renameResult p) := by
  simp only [Checker.checkWordInCompound, entries, findSome_rename (compoundEntry h m), stripOnly h,
    stripComm h, bind_map (suffixResult h m), bind_map prefixResult, bind_map (commResult h m),
    ← Option.map_or]

theorem matchPattern (c : CompoundPattern) (w : Str) (i : Nat) (r s : CompoundingResult) :
    matchCompoundPattern (renamePattern p c) w i (renameResult p r) (renameResult p s)
      = matchCompoundPattern c w i r s := by
  have e1 := renameFlags_any h.injective r.flags c.firstWordFlag
  have e2 := renameFlags_any h.injective s.flags c.secondWordFlag
  simp only [matchCompoundPattern, renamePattern, renameResult, e1, e2]
  rfl

theorem forbiddenByPatterns (w : Str) (i : Nat) (r s : CompoundingResult) :
    (renameChecker p W C).forbiddenByPatterns w i (renameResult p r) (renameResult p s)
      = C.forbiddenByPatterns w i r s :=
  any_rename (fun c => matchPattern h c w i r s) _

theorem isSimpleWord (w : Str) : (renameChecker p W C).isSimpleWord w = C.isSimpleWord w := by
  rw [Checker.isSimpleWord, checkSimpleWord h, Option.isSome_map, Checker.isSimpleWord]

theorem isRepSimilar (w : Str) : (renameChecker p W C).isRepSimilar w = C.isRepSimilar w := by
  have e : (renameChecker p W C).aff.replacements = C.aff.replacements := rfl
  simp only [Checker.isRepSimilar, e, isSimpleWord h]

theorem wordCount (r : CompoundingResult) :
    (renameChecker p W C).wordCount (renameResult p r) = C.wordCount r := by
  have e : hasFlag (renameResult p r).flags (renameChecker p W C).opts.compoundRootFlag
      = hasFlag r.flags C.opts.compoundRootFlag := flag h _ _
  rw [Checker.wordCount, e]
  rfl

omit h in
theorem r_flags (r : CompoundingResult) : (renameResult p r).flags = renameFlags p r.flags := rfl

theorem r_eq (r s : CompoundingResult) : (renameResult p r == renameResult p s) = (r == s) := by
  rw [Bool.eq_iff_iff, beq_iff_eq, beq_iff_eq]
  constructor
  · intro he
    obtain ⟨a1, a2, a3, a4, a5⟩ := r
    obtain ⟨b1, b2, b3, b4, b5⟩ := s
    simp only [renameResult, CompoundingResult.mk.injEq, renameFlags_inj h.injective] at he ⊢
    exact he
  · rintro rfl; rfl

theorem classicSecond (w : Str) (start i n : Nat) (fc : Forceucase) (r : CompoundingResult) :
    (renameChecker p W C).classicSecond w start i n fc (renameResult p r)
      = C.classicSecond w start i n fc r := by
  have e1 : (renameChecker p W C).opts.compoundCheckDuplicate = C.opts.compoundCheckDuplicate := rfl
  have e2 : (renameChecker p W C).opts.compoundCheckRep = C.opts.compoundCheckRep := rfl
  have e3 : (renameChecker p W C).opts.compoundMaxWordCount = C.opts.compoundMaxWordCount := rfl
  have e4 : (renameChecker p W C).opts.compoundSyllableMax = C.opts.compoundSyllableMax := rfl
  rw [Checker.classicSecond, Checker.classicSecond, checkWordInCompound h]
  cases C.checkWordInCompound .atEnd (w.drop i) with
  | none => rfl
  | some q =>
    simp only [Option.map_some, r_flags, o_forbidden, contains h, forbiddenByPatterns h, r_eq h,
      isRepSimilar h, o_force, flag h, wordCount h, vowels, countSyllables, e1, e2, e3, e4]
    rfl

theorem repAfterRecursion (w : Str) (start i : Nat) (r : CompoundingResult) :
    (renameChecker p W C).repAfterRecursion w start i (renameResult p r)
      = C.repAfterRecursion w start i r := by
  have e2 : (renameChecker p W C).opts.compoundCheckRep = C.opts.compoundCheckRep := rfl
  simp only [Checker.repAfterRecursion, isRepSimilar h, e2]
  rfl

/-- The results of a search, renamed. -/
abbrev rn (p : Nat → Nat) : Run (Option CompoundingResult) → Run (Option CompoundingResult) :=
  Except.map (Option.map (renameResult p))

theorem tripleRecursive {s s' : Search} (hs : ∀ w a b, s' w a b = rn p (s w a b)) (t w : Str)
    (start i n : Nat) (r : CompoundingResult) :
    (renameChecker p W C).tripleRecursive s' t w start i n (renameResult p r)
      = rn p (C.tripleRecursive s t w start i n r) := by
  rw [Checker.tripleRecursive, Checker.tripleRecursive, hs]
  rcases s t i (n + 1) with e | (_ | q)
  · rfl
  · rfl
  · show (if _ then _ else _) = rn p (if _ then _ else _)
    rw [forbiddenByPatterns h, repAfterRecursion h]
    split
    · rfl
    split <;> rfl

theorem tripleSecond (t w : Str) (start i n : Nat) (fc : Forceucase) (r : CompoundingResult) :
    (renameChecker p W C).tripleSecond t w start i n fc (renameResult p r)
      = C.tripleSecond t w start i n fc r := by
  have e1 : (renameChecker p W C).opts.compoundCheckDuplicate = C.opts.compoundCheckDuplicate := rfl
  have e2 : (renameChecker p W C).opts.compoundCheckRep = C.opts.compoundCheckRep := rfl
  have e3 : (renameChecker p W C).opts.compoundMaxWordCount = C.opts.compoundMaxWordCount := rfl
  rw [Checker.tripleSecond, Checker.tripleSecond, checkWordInCompound h]
  cases C.checkWordInCompound .atEnd (t.drop i) with
  | none => rfl
  | some q =>
    simp only [Option.map_some, r_flags, o_forbidden, contains h, forbiddenByPatterns h, r_eq h,
      isRepSimilar h, o_force, flag h, e1, e2, e3]

theorem simplifiedTriple {s s' : Search} (hs : ∀ w a b, s' w a b = rn p (s w a b)) (w : Str)
    (start i n : Nat) (fc : Forceucase) (r : CompoundingResult) :
    (renameChecker p W C).simplifiedTriple s' w start i n fc (renameResult p r)
      = rn p (C.simplifiedTriple s w start i n fc r) := by
  have e1 : (renameChecker p W C).opts.compoundSimplifiedTriple = C.opts.compoundSimplifiedTriple := rfl
  rw [Checker.simplifiedTriple, Checker.simplifiedTriple, e1]
  split
  · rfl
  cases tripled w i with
  | none => rfl
  | some t =>
    dsimp only
    rw [tripleSecond h]
    cases C.tripleSecond t w start i n fc r with
    | accept => rfl
    | reject => rfl
    | next => exact tripleRecursive h hs _ _ _ _ _ _

theorem tryRecursive {s s' : Search} (hs : ∀ w a b, s' w a b = rn p (s w a b)) (w : Str)
    (start i n : Nat) (fc : Forceucase) (r : CompoundingResult) :
    (renameChecker p W C).tryRecursive s' w start i n fc (renameResult p r)
      = rn p (C.tryRecursive s w start i n fc r) := by
  rw [Checker.tryRecursive, Checker.tryRecursive, hs]
  rcases s w i (n + 1) with e | (_ | q)
  · rfl
  · exact simplifiedTriple h hs _ _ _ _ _ _
  · show (if _ then _ else _) = rn p (if _ then _ else _)
    rw [forbiddenByPatterns h, repAfterRecursion h, simplifiedTriple h hs]
    split
    · rfl
    split <;> rfl

theorem classicFirst (m : Mode) (w : Str) (start i : Nat) :
    (renameChecker p W C).classicFirst m w start i
      = (C.classicFirst m w start i).map (renameResult p) := by
  have e1 : (renameChecker p W C).opts.compoundCheckTriple = C.opts.compoundCheckTriple := rfl
  have e2 : (renameChecker p W C).opts.compoundCheckCase = C.opts.compoundCheckCase := rfl
  have e3 : (renameChecker p W C).U = C.U := rfl
  rw [Checker.classicFirst, Checker.classicFirst, checkWordInCompound h]
  cases C.checkWordInCompound m (slice w start i) with
  | none => rfl
  | some q =>
    simp only [Option.map_some, r_flags, o_forbidden, contains h, e1, e2, e3,
      apply_ite (Option.map (renameResult p)), Option.map_none]

theorem classic {s s' : Search} (hs : ∀ w a b, s' w a b = rn p (s w a b)) (m : Mode) (w : Str)
    (start i n : Nat) (fc : Forceucase) :
    (renameChecker p W C).classic s' m w start i n fc = rn p (C.classic s m w start i n fc) := by
  rw [Checker.classic, Checker.classic, classicFirst h]
  cases C.classicFirst m w start i with
  | none => rfl
  | some r =>
    dsimp only [Option.map_some]
    rw [wordCount h, classicSecond h]
    cases C.classicSecond w start i (n + C.wordCount r) fc r with
    | accept => rfl
    | reject => rfl
    | next => exact tryRecursive h hs _ _ _ _ _ _

theorem patternFirst (c : CompoundPattern) (m : Mode) (w : Str) (start j : Nat) :
    (renameChecker p W C).patternFirst (renamePattern p c) m w start j
      = (C.patternFirst c m w start j).map (renameResult p) := by
  have e1 : (renameChecker p W C).opts.compoundCheckTriple = C.opts.compoundCheckTriple := rfl
  rw [Checker.patternFirst, Checker.patternFirst, checkWordInCompound h]
  cases C.checkWordInCompound m (slice w start j) with
  | none => rfl
  | some q =>
    have e2 := renameFlags_any h.injective q.flags c.firstWordFlag
    simp only [Option.map_some, r_flags, o_forbidden, contains h, renamePattern, e1, e2,
      apply_ite (Option.map (renameResult p)), Option.map_none]

theorem patternSecond (c : CompoundPattern) (t w : Str) (start n : Nat) (fc : Forceucase)
    (r : CompoundingResult) :
    (renameChecker p W C).patternSecond (renamePattern p c) t w start n fc (renameResult p r)
      = C.patternSecond c t w start n fc r := by
  have e1 : (renameChecker p W C).opts.compoundCheckDuplicate = C.opts.compoundCheckDuplicate := rfl
  have e2 : (renameChecker p W C).opts.compoundCheckRep = C.opts.compoundCheckRep := rfl
  have e3 : (renameChecker p W C).opts.compoundMaxWordCount = C.opts.compoundMaxWordCount := rfl
  rw [Checker.patternSecond, Checker.patternSecond, checkWordInCompound h]
  cases C.checkWordInCompound .atEnd t with
  | none => rfl
  | some q =>
    have e4 := renameFlags_any h.injective q.flags c.secondWordFlag
    simp only [Option.map_some, r_flags, o_forbidden, contains h, r_eq h,
      isRepSimilar h, o_force, flag h, e1, e2, e3, renamePattern, e4]

theorem patternRecursionOk (c : CompoundPattern) (t w : Str) (start j : Nat) (r : CompoundingResult) :
    (renameChecker p W C).patternRecursionOk (renamePattern p c) t w start j (renameResult p r)
      = C.patternRecursionOk c t w start j r := by
  have e2 : (renameChecker p W C).opts.compoundCheckRep = C.opts.compoundCheckRep := rfl
  have e4 := renameFlags_any h.injective r.flags c.secondWordFlag
  simp only [Checker.patternRecursionOk, renamePattern, renameResult, e4, e2, isRepSimilar h]

theorem patternTripleRecursionOk (c : CompoundPattern) (t s w : Str) (start j : Nat)
    (r : CompoundingResult) :
    (renameChecker p W C).patternTripleRecursionOk (renamePattern p c) t s w start j (renameResult p r)
      = C.patternTripleRecursionOk c t s w start j r := by
  have e2 : (renameChecker p W C).opts.compoundCheckRep = C.opts.compoundCheckRep := rfl
  have e4 := renameFlags_any h.injective r.flags c.secondWordFlag
  simp only [Checker.patternTripleRecursionOk, renamePattern, renameResult, e4, e2, isRepSimilar h]
  rfl

/-- The results for one pattern, renamed. -/
abbrev rn2 (p : Nat → Nat) :
    Run (Option (Option CompoundingResult)) → Run (Option (Option CompoundingResult)) :=
  Except.map (Option.map (Option.map (renameResult p)))

theorem patternTriple {s s' : Search} (hs : ∀ w a b, s' w a b = rn p (s w a b)) (c : CompoundPattern)
    (t w : Str) (start j n : Nat) (fc : Forceucase) (r : CompoundingResult) :
    (renameChecker p W C).patternTriple s' (renamePattern p c) t w start j n fc (renameResult p r)
      = rn2 p (C.patternTriple s c t w start j n fc r) := by
  have e1 : (renameChecker p W C).opts.compoundSimplifiedTriple = C.opts.compoundSimplifiedTriple := rfl
  rw [Checker.patternTriple, Checker.patternTriple, e1]
  split
  · rfl
  cases tripled t j with
  | none => rfl
  | some tt =>
    dsimp only
    rw [patternSecond h]
    cases C.patternSecond c (tt.drop j) w start n fc r with
    | accept => rfl
    | reject => rfl
    | next =>
      dsimp only
      rw [hs]
      rcases s tt j (n + 1) with e | (_ | q)
      · rfl
      · rfl
      · show (if _ then _ else _) = rn2 p (if _ then _ else _)
        rw [patternTripleRecursionOk h]
        split <;> rfl

theorem patternBody {s s' : Search} (hs : ∀ w a b, s' w a b = rn p (s w a b)) (m : Mode)
    (w : Str) (start i n : Nat) (fc : Forceucase) (c : CompoundPattern) :
    (renameChecker p W C).patternBody s' m w start i n fc (renamePattern p c)
      = rn2 p (C.patternBody s m w start i n fc c) := by
  have e1 : (renamePattern p c).replacement = c.replacement := rfl
  have e2 : (renamePattern p c).first = c.first := rfl
  have e3 : (renamePattern p c).second = c.second := rfl
  rw [Checker.patternBody, Checker.patternBody, e1, e2, e3]
  cases c.replacement with
  | none => rfl
  | some t =>
    dsimp only
    split
    · rfl
    rw [patternFirst h]
    cases C.patternFirst c m (w.take i ++ (c.first ++ c.second) ++ w.drop (i + t.length)) start
        (i + c.first.length) with
    | none => rfl
    | some r =>
      dsimp only [Option.map_some]
      rw [patternSecond h]
      generalize w.take i ++ (c.first ++ c.second) ++ w.drop (i + t.length) = scratch
      generalize i + c.first.length = j
      cases C.patternSecond c (scratch.drop j) w start n fc r with
      | accept => rfl
      | reject => rfl
      | next =>
        dsimp only
        rw [hs]
        rcases s scratch j (n + 1) with e | (_ | q)
        · rfl
        · exact patternTriple h hs _ _ _ _ _ _ _ _
        · show (if _ then _ else _) = rn2 p (if _ then _ else _)
          rw [patternRecursionOk h, patternTriple h hs]
          split <;> rfl

omit h in
theorem or_map {β β' : Type} (g : β → β') (a b : Run (Option β)) :
    Run.or (Except.map (Option.map g) a) (Except.map (Option.map g) b)
      = Except.map (Option.map g) (Run.or a b) := by
  rcases a with e | (_ | q) <;> rfl

omit h in
theorem or_eq {β β' : Type} {g : β → β'} {a b : Run (Option β)} {a' b' : Run (Option β')}
    (ha : a' = Except.map (Option.map g) a) (hb : b' = Except.map (Option.map g) b) :
    Run.or a' b' = Except.map (Option.map g) (Run.or a b) := by
  rw [ha, hb, or_map]

omit h in
theorem first_map {α α' β β' : Type} {r : α → α'} {g : β → β'} {f : α → Run (Option β)}
    {f' : α' → Run (Option β')} (hf : ∀ a, f' (r a) = Except.map (Option.map g) (f a)) :
    ∀ l : List α, Run.first f' (l.map r) = Except.map (Option.map g) (Run.first f l)
  | [] => rfl
  | a :: l => by
    rw [List.map_cons, Run.first, Run.first, hf, first_map hf l, or_map]

theorem withPatternReplacements {s s' : Search} (hs : ∀ w a b, s' w a b = rn p (s w a b)) (m : Mode)
    (w : Str) (start i n : Nat) (fc : Forceucase) :
    (renameChecker p W C).withPatternReplacements s' m w start i n fc
      = rn p (C.withPatternReplacements s m w start i n fc) := by
  have e : (renameChecker p W C).aff.compoundPatterns = C.aff.compoundPatterns.map (renamePattern p) := rfl
  rw [Checker.withPatternReplacements, Checker.withPatternReplacements, e,
    first_map (patternBody h hs m w start i n fc)]
  rcases Run.first (C.patternBody s m w start i n fc) C.aff.compoundPatterns with e | (_ | _ | q) <;> rfl

theorem compoundAt {s s' : Search} (hs : ∀ w a b, s' w a b = rn p (s w a b)) (m : Mode)
    (w : Str) (start n : Nat) (fc : Forceucase) (i : Nat) :
    (renameChecker p W C).compoundAt s' m w start n fc i = rn p (C.compoundAt s m w start n fc i) := by
  rw [Checker.compoundAt, classic h hs, withPatternReplacements h hs, or_map, Checker.compoundAt]

theorem checkCompoundImpl (fc : Forceucase) (fuel : Nat) :
    ∀ (m : Mode) (w : Str) (start n : Nat),
      (renameChecker p W C).checkCompoundImpl fc fuel m w start n
        = rn p (C.checkCompoundImpl fc fuel m w start n) := by
  induction fuel with
  | zero => intros; rfl
  | succ k ih =>
    intro m w start n
    have e : (renameChecker p W C).opts.minChars = C.opts.minChars := rfl
    have := first_map (r := id) (compoundAt (W := W) h (ih .atMiddle) m w start n fc) (splitPoints w start C.opts.minChars)
    rw [List.map_id] at this
    rw [Checker.checkCompoundImpl, e, this, Checker.checkCompoundImpl]

theorem rulePart (e : Str × FlagSet) :
    (renameChecker p W C).rulePart (renameEntry p e) = C.rulePart e := by
  have e1 : (renameChecker p W C).aff.compoundRules.hasAnyFlags (renameFlags p e.2)
      = C.aff.compoundRules.hasAnyFlags e.2 := by
    have := renameRules_allFlags (p := p) C.aff.compoundRules
    unfold CompoundRuleTable.hasAnyFlags
    rw [show (renameChecker p W C).aff.compoundRules = ⟨C.aff.compoundRules.rules.map (renameRule p)⟩ from rfl,
      this, renameFlags_hasIntersection h.injective]
  simp only [Checker.rulePart, e_snd, e1, o_needAffix, flag h]

theorem ruleFlagMatches (d : List FlagSet) (i f : Nat) :
    Spellbook.ruleFlagMatches (d.map (renameFlags p)) i (p f) = Spellbook.ruleFlagMatches d i f := by
  unfold Spellbook.ruleFlagMatches
  rw [List.getElem?_map]
  cases d[i]? with
  | none => rfl
  | some s => exact contains h s f

theorem ruleLoop (r : CompoundRule) (d : List FlagSet) (stack : List (Nat × Nat)) :
    Spellbook.ruleLoop (renameRule p r) (d.map (renameFlags p)) stack = Spellbook.ruleLoop r d stack := by
  fun_induction Spellbook.ruleLoop r d stack with
  | case1 => rw [Spellbook.ruleLoop]
  | case2 a b stack hx =>
    rw [Spellbook.ruleLoop]
    have : (renameRule p r)[a]? = none := by rw [renameRule, List.getElem?_map, hx]; rfl
    split
    · rw [List.length_map]
    · rename_i he; rw [this] at he; cases he
  | case3 a b stack el hx ih =>
    rw [Spellbook.ruleLoop]
    have : (renameRule p r)[a]? = some { el with flag := p el.flag } := by
      rw [renameRule, List.getElem?_map, hx]; rfl
    split
    · rename_i he; rw [this] at he; cases he
    · rename_i el' he
      rw [this] at he
      cases he
      rw [← ih]
      show Spellbook.ruleLoop _ _ (rulePush _ (Spellbook.ruleFlagMatches _ _ (p el.flag)) _ _ ++ _) = _
      rw [ruleFlagMatches h]
      rfl

theorem anyRuleMatches (d : List FlagSet) :
    (renameChecker p W C).aff.compoundRules.anyRuleMatches (d.map (renameFlags p))
      = C.aff.compoundRules.anyRuleMatches d :=
  any_rename (fun r => ruleLoop h r d _) _

theorem ruleDirect (w : Str) (d : List FlagSet) (i : Nat) (fc : Forceucase) :
    (renameChecker p W C).ruleDirect w (d.map (renameFlags p)) i fc = C.ruleDirect w d i fc := by
  rw [Checker.ruleDirect, Checker.ruleDirect, entries, find_rename (rulePart h)]
  cases (C.entries (w.drop i)).find? C.rulePart with
  | none => rfl
  | some e =>
    have := anyRuleMatches (W := W) h (d ++ [e.2])
    rw [List.map_append] at this
    simp only [Option.map_some, e_snd, o_force, flag h]
    rw [← this]
    rfl

theorem ruleAt {s s' : Str → List FlagSet → Nat → Run (Option CompoundingResult)}
    (hs : ∀ w d b, s' w (d.map (renameFlags p)) b = rn p (s w d b)) (w : Str) (d : List FlagSet)
    (start : Nat) (fc : Forceucase) (i : Nat) :
    (renameChecker p W C).ruleAt s' w (d.map (renameFlags p)) start fc i
      = rn p (C.ruleAt s w d start fc i) := by
  rw [Checker.ruleAt, Checker.ruleAt, entries, find_rename (rulePart h)]
  cases (C.entries (slice w start i)).find? C.rulePart with
  | none => rfl
  | some e =>
    have e1 : d.map (renameFlags p) ++ [renameFlags p e.2] = (d ++ [e.2]).map (renameFlags p) := by
      rw [List.map_append]; rfl
    simp only [Option.map_some, e_snd, e1, ruleDirect h, hs]
    cases C.ruleDirect w (d ++ [e.2]) i fc <;> rfl

theorem checkRulesImpl (fc : Forceucase) (fuel : Nat) :
    ∀ (w : Str) (d : List FlagSet) (start : Nat),
      (renameChecker p W C).checkRulesImpl fc fuel w (d.map (renameFlags p)) start
        = rn p (C.checkRulesImpl fc fuel w d start) := by
  induction fuel with
  | zero => intros; rfl
  | succ k ih =>
    intro w d start
    have e : (renameChecker p W C).opts.minChars = C.opts.minChars := rfl
    have := first_map (r := id) (ruleAt (W := W) h ih w d start fc) (splitPoints w start C.opts.minChars)
    rw [List.map_id] at this
    rw [Checker.checkRulesImpl, e, this, Checker.checkRulesImpl]

theorem checkCompound (fuel : Nat) (m : Mode) (w : Str) (fc : Forceucase) :
    (renameChecker p W C).checkCompound fuel m w fc = rn p (C.checkCompound fuel m w fc) := by
  have e1 : (renameChecker p W C).opts.allowsCompounding = C.opts.allowsCompounding := by
    simp only [AffOptions.allowsCompounding, o_compound, o_begin, o_middle, o_end, Option.isSome_map]
  have e2 : (renameChecker p W C).aff.compoundRules.isEmpty = C.aff.compoundRules.isEmpty := by
    simp only [CompoundRuleTable.isEmpty, renameChecker, renameDict, renameAff, Checker.aff,
      List.isEmpty_map]
  have e3 := checkRulesImpl (W := W) h fc (w.length + 1) w [] 0
  rw [Checker.checkCompound, Checker.checkCompound, e1, e2, checkCompoundImpl h, Checker.checkRules,
    Checker.checkRules]
  rw [List.map_nil] at e3
  rw [e3]
  refine or_eq ?_ ?_ <;> split <;> rfl

/-! ## Words -/

/-- The flags found, renamed. -/
abbrev rf (p : Nat → Nat) : Run (Option FlagSet) → Run (Option FlagSet) :=
  Except.map (Option.map (renameFlags p))

theorem checkWord (fuel : Nat) (w : Str) (fc : Forceucase) (hh : HiddenHomonym) :
    (renameChecker p W C).checkWord fuel w fc hh = rf p (C.checkWord fuel w fc hh) := by
  rw [Checker.checkWord, Checker.checkWord, checkSimpleWord h, checkCompound h]
  cases C.checkSimpleWord w hh with
  | some s => rfl
  | none => rcases C.checkCompound fuel .atBegin w fc with e | (_ | q) <;> rfl

omit h in
theorem titlecase (w : Str) : (renameChecker p W C).titlecase w = C.titlecase w := rfl

omit h in
theorem lowercase (w : Str) : (renameChecker p W C).lowercase w = C.lowercase w := rfl

theorem dropKeepCase (r : Option FlagSet) :
    (renameChecker p W C).dropKeepCase (r.map (renameFlags p))
      = (C.dropKeepCase r).map (renameFlags p) := by
  cases r with
  | none => rfl
  | some s =>
    simp only [Checker.dropKeepCase, Option.map_some, Option.filter_some, o_keepCase, flag h]
    split <;> rfl

theorem titleKeepCase (l : Str) (r : Option FlagSet) :
    (renameChecker p W C).titleKeepCase l (r.map (renameFlags p))
      = (C.titleKeepCase l r).map (renameFlags p) := by
  have e : (renameChecker p W C).opts.checksharps = C.opts.checksharps := rfl
  cases r with
  | none => rfl
  | some s =>
    simp only [Checker.titleKeepCase, Option.map_some, Option.filter_some, o_keepCase, flag h, e]
    split <;> rfl

omit h in
theorem bind_rf {α : Type} (r : Run α) {f f' : α → Run (Option FlagSet)} (hf : ∀ a, f' a = rf p (f a)) :
    (r >>= f') = rf p (r >>= f) := by
  cases r with
  | error e => rfl
  | ok a => exact hf a

omit h in
theorem map_rf {f f' : Option FlagSet → Option FlagSet}
    (hf : ∀ r, f' (r.map (renameFlags p)) = (f r).map (renameFlags p)) (r : Run (Option FlagSet)) :
    (rf p r).map f' = rf p (r.map f) := by
  cases r with
  | error e => rfl
  | ok a => exact congrArg Except.ok (hf a)

theorem doSpellSharps (fuel : Nat) (n : Nat) : ∀ (before rest : Str) (depth r : Nat), 5 - depth = n →
    (renameChecker p W C).doSpellSharps fuel before rest depth r
      = rf p (C.doSpellSharps fuel before rest depth r) := by
  induction n using Nat.strongRecOn with
  | _ n ih =>
    intro before rest depth r hd
    rw [Checker.doSpellSharps, Checker.doSpellSharps]
    split
    · split
      · rw [ih (5 - (depth + 1)) (by omega) _ _ _ _ rfl, ih (5 - (depth + 1)) (by omega) _ _ _ _ rfl,
          or_map]
      · split
        · exact checkWord h _ _ _ _
        · rfl
    · split
      · exact checkWord h _ _ _ _
      · rfl

theorem spellSharps (fuel : Nat) (w : Str) :
    (renameChecker p W C).spellSharps fuel w = rf p (C.spellSharps fuel w) :=
  doSpellSharps h fuel _ _ _ _ _ rfl

theorem spellApostrophe (fuel : Nat) (w : Str) :
    (renameChecker p W C).spellApostrophe fuel w = rf p (C.spellApostrophe fuel w) := by
  rw [Checker.spellApostrophe, Checker.spellApostrophe]
  rcases splitOnce? ['\''] w with _ | ⟨a, b⟩
  · rfl
  dsimp only
  split
  · rfl
  refine bind_rf _ fun t => ?_
  exact or_eq (checkWord h _ _ _ _) (bind_rf _ fun u => checkWord h _ _ _ _)

theorem spellUpperSharps (fuel : Nat) (w : Str) :
    (renameChecker p W C).spellUpperSharps fuel w = rf p (C.spellUpperSharps fuel w) := by
  have e : (renameChecker p W C).opts.checksharps = C.opts.checksharps := rfl
  rw [Checker.spellUpperSharps, Checker.spellUpperSharps, e]
  split
  · exact or_eq (spellSharps h _ _) (bind_rf _ fun u => spellSharps h _ _)
  · rfl

theorem spellCasingUpper (fuel : Nat) (w : Str) :
    (renameChecker p W C).spellCasingUpper fuel w = rf p (C.spellCasingUpper fuel w) := by
  have e : ((renameChecker p W C).titlecase w >>= fun t =>
      ((renameChecker p W C).checkWord fuel t .allowBad .accept).map (renameChecker p W C).dropKeepCase)
      = rf p (C.titlecase w >>= fun t => (C.checkWord fuel t .allowBad .accept).map C.dropKeepCase) :=
    bind_rf _ fun t => by rw [checkWord h, map_rf (dropKeepCase h)]
  rw [Checker.spellCasingUpper, e, checkWord h, spellApostrophe h, spellUpperSharps h, lowercase,
    checkWord h, map_rf (dropKeepCase h), or_map, or_map, or_map, or_map, Checker.spellCasingUpper]

theorem spellCasingTitle (fuel : Nat) (w : Str) :
    (renameChecker p W C).spellCasingTitle fuel w = rf p (C.spellCasingTitle fuel w) := by
  rw [Checker.spellCasingTitle, checkWord h, lowercase, checkWord h, map_rf (titleKeepCase h _), or_map,
    Checker.spellCasingTitle]

theorem spellCasingAsIs (fuel : Nat) (w : Str) (pascal : Bool) :
    (renameChecker p W C).spellCasingAsIs fuel w pascal = rf p (C.spellCasingAsIs fuel w pascal) := by
  have e1 : (renameChecker p W C).checkLowerAsTitle = C.checkLowerAsTitle := rfl
  have e2 : (renameChecker p W C).checkLowerAsUpper = C.checkLowerAsUpper := rfl
  rw [Checker.spellCasingAsIs, Checker.spellCasingAsIs, e1, e2]
  refine or_eq (checkWord h _ _ _ _) (or_eq ?_ ?_)
  · split
    · exact bind_rf _ fun t => spellCasingTitle h _ _
    · rfl
  · split
    · exact spellCasingUpper h _ _
    · rfl

theorem spellCasing (fuel : Nat) (w : Str) :
    (renameChecker p W C).spellCasing fuel w = rf p (C.spellCasing fuel w) := by
  have e : (renameChecker p W C).U = C.U := rfl
  rw [Checker.spellCasing, Checker.spellCasing, e, spellCasingAsIs h, spellCasingAsIs h,
    spellCasingUpper h, spellCasingTitle h]
  cases classifyCasing C.U w <;> rfl

theorem goodFlags (s : FlagSet) :
    (renameChecker p W C).goodFlags (renameFlags p s) = C.goodFlags s := by
  have e : (renameChecker p W C).opts.forbidWarn = C.opts.forbidWarn := rfl
  simp only [Checker.goodFlags, o_forbidden, contains h, o_warn, flag h, e]

omit h in
theorem breakLoops (f : Str → Run Bool) (w : Str) :
    (renameChecker p W C).breakLoops f w = C.breakLoops f w := rfl

theorem doSpellBreak (fuel d : Nat) :
    (renameChecker p W C).doSpellBreak fuel d = C.doSpellBreak fuel d := by
  induction d with
  | zero =>
    funext w
    rw [Checker.doSpellBreak, Checker.doSpellBreak, spellCasing h]
    rcases C.spellCasing fuel w with e | (_ | s)
    · rfl
    · rfl
    · exact congrArg Except.ok (goodFlags h s)
  | succ d ih =>
    funext w
    rw [Checker.doSpellBreak, Checker.doSpellBreak, spellCasing h, ih]
    rcases C.spellCasing fuel w with e | (_ | s)
    · rfl
    · rfl
    · exact congrArg Except.ok (goodFlags h s)

theorem check (fuel : Nat) (w : Str) : (renameChecker p W C).check fuel w = C.check fuel w := by
  have e : (renameChecker p W C).spellBreak = C.spellBreak := by
    funext fuel w
    rw [Checker.spellBreak, doSpellBreak h, Checker.spellBreak]
  have e1 : (renameChecker p W C).aff.ignoreChars = C.aff.ignoreChars := rfl
  have e2 : (renameChecker p W C).aff.inputConversions = C.aff.inputConversions := rfl
  simp only [Checker.check, Checker.checkConverted, e, e1, e2]

end Renamed
end Spellbook
