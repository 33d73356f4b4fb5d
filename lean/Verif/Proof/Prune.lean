import Verif.Proof.Rename
import Verif.Spec.Prune
/-!
# `check` does not depend on flags nothing asks about

Each lemma says that a function of the checker with fewer flags gives the result with fewer flags.
-/

namespace Spellbook
open Spec

/-! ## Flag sets -/

section Flags
variable {p : Nat → Bool}

theorem mem_pruneFlags {s : FlagSet} {f : Nat} :
    f ∈ (pruneFlags p s).elems ↔ f ∈ s.elems ∧ p f = true := by
  simp only [pruneFlags, FlagSet.mem_ofList, List.mem_filter]

theorem pruneFlags_contains {f : Nat} (hf : p f = true) (s : FlagSet) :
    (pruneFlags p s).contains f = s.contains f := by
  rw [Bool.eq_iff_iff, FlagSet.contains_iff, FlagSet.contains_iff, mem_pruneFlags]
  exact ⟨fun h => h.1, fun h => ⟨h, hf⟩⟩

theorem pruneFlags_hasFlag {o : Option Nat} (ho : ∀ f, o = some f → p f = true) (s : FlagSet) :
    hasFlag (pruneFlags p s) o = hasFlag s o := by
  cases o with
  | none => rfl
  | some f => exact pruneFlags_contains (ho f rfl) s

theorem pruneFlags_any {o : Option Nat} (ho : ∀ f, o = some f → p f = true) (s : FlagSet) :
    (o.any fun f => !(pruneFlags p s).contains f) = o.any fun f => !s.contains f := by
  cases o with
  | none => rfl
  | some f => simp only [Option.any_some, pruneFlags_contains (ho f rfl)]

theorem pruneFlags_hasIntersection {s : FlagSet} (hs : ∀ f ∈ s.elems, p f = true) (t : FlagSet) :
    s.hasIntersection (pruneFlags p t) = s.hasIntersection t := by
  rw [Bool.eq_iff_iff, FlagSet.hasIntersection_iff, FlagSet.hasIntersection_iff]
  constructor
  · rintro ⟨f, h1, h2⟩
    exact ⟨f, h1, (mem_pruneFlags.1 h2).1⟩
  · rintro ⟨f, h1, h2⟩
    exact ⟨f, h1, mem_pruneFlags.2 ⟨h2, hs f h1⟩⟩

theorem pruneIndex_allFlags {k : Kind} (idx : AffixIndex k) :
    (pruneIndex p idx).allFlags = pruneFlags p idx.allFlags := by
  refine elems_eq fun f => ?_
  simp only [AffixIndex.allFlags, FlagSet.mem_ofList, mem_pruneFlags, pruneIndex, List.mem_flatMap,
    List.mem_map, pruneAffix]
  constructor
  · rintro ⟨_, ⟨a, ha, rfl⟩, hf⟩
    obtain ⟨h1, h2⟩ := mem_pruneFlags.1 hf
    exact ⟨⟨a, ha, h1⟩, h2⟩
  · rintro ⟨⟨a, ha, h1⟩, h2⟩
    exact ⟨_, ⟨a, ha, rfl⟩, mem_pruneFlags.2 ⟨h1, h2⟩⟩

end Flags

/-! ## Loops -/

theorem findSome_prune {α α' β β' : Type} {r : α → α'} {g : β → β'} {f : α → Option β}
    {f' : α' → Option β'} {l : List α} (h : ∀ a ∈ l, f' (r a) = (f a).map g) :
    (l.map r).findSome? f' = (l.findSome? f).map g := by
  induction l with
  | nil => rfl
  | cons a l ih =>
    rw [List.map_cons, List.findSome?_cons, List.findSome?_cons, h a (List.mem_cons_self ..),
      ih fun b hb => h b (List.mem_cons_of_mem _ hb)]
    cases f a <;> rfl

/-- The loops over double affixes need no fast lane: with no continuation flag they find nothing. -/
theorem empty_contains {s : FlagSet} (hs : s.isEmpty = true) (f : Nat) : s.contains f = false := by
  have h0 : s.elems = [] := by
    rw [FlagSet.isEmpty, List.isEmpty_iff] at hs
    exact hs
  rw [← Bool.not_eq_true, FlagSet.contains_iff, h0]
  exact List.not_mem_nil

theorem findSome_none {α β : Type} {f : α → Option β} (h : ∀ a, f a = none) (l : List α) :
    l.findSome? f = none :=
  List.findSome?_eq_none_iff.2 fun a _ => h a

namespace Checker

theorem stripTwo_loop (C : Checker) (k : Kind) (w : Str) (hh : HiddenHomonym) :
    C.stripTwo k w hh = (C.affixesOf k w).findSome? (C.twoOuter k w hh) := by
  rw [stripTwo]
  split
  · rename_i he
    refine (findSome_none (fun a => ?_) _).symm
    rw [twoOuter, empty_contains he]
    rfl
  · rfl

theorem stripOneTwo_loop (C : Checker) (k : Kind) (w : Str) (hh : HiddenHomonym) :
    C.stripOneTwo k w hh = (C.affixesOf k w).findSome? (C.oneTwoFirst k w hh) := by
  rw [stripOneTwo]
  split
  · rename_i he
    refine (findSome_none (fun a => ?_) _).symm
    have : ∀ t b, C.oneTwoOuter k t hh a b = none := fun t b => by
      rw [oneTwoOuter, empty_contains he]
      rfl
    simp only [oneTwoFirst, findSome_none (this _), ite_self]
  · rfl

theorem stripSandwich_loop (C : Checker) (k : Kind) (w : Str) (hh : HiddenHomonym) :
    C.stripSandwich k w hh = (C.affixesOf k w).findSome? (C.sandwichOuter k w hh) := by
  rw [stripSandwich]
  split
  · rename_i he
    rw [Bool.and_eq_true] at he
    refine (findSome_none (fun a => ?_) _).symm
    rw [sandwichOuter, empty_contains he.1, empty_contains he.2]
    rfl
  · rfl

end Checker

/-- The form of a word with fewer flags. -/
def pruneForm (p : Nat → Bool) (f : AffixForm) : AffixForm :=
  { stem := f.stem, flags := pruneFlags p f.flags,
    prefixes := (f.prefixes.1.map (pruneAffix p), f.prefixes.2.map (pruneAffix p)),
    suffixes := (f.suffixes.1.map (pruneAffix p), f.suffixes.2.map (pruneAffix p)) }

/-- The result for a part of a compound with fewer flags. -/
def pruneResult (p : Nat → Bool) (r : CompoundingResult) : CompoundingResult :=
  { r with flags := pruneFlags p r.flags }

/-! ## Simple words -/

namespace Pruned
open Checker
variable {p : Nat → Bool} {C : Checker} (h : Keeps p C.aff)

theorem entries (w : Str) :
    (pruneChecker p C).entries w = (C.entries w).map (pruneEntry p) := by
  have hk : (⟨C.dict.words.slots.map (pruneEntry p)⟩ : Bag FlagSet).keys = C.dict.words.keys := by
    simp only [Bag.keys, List.map_map]; rfl
  simp only [Checker.entries, pruneChecker, pruneDict, Bag.get]
  rw [hk]
  generalize C.L.probe C.dict.words.keys (C.L.hash w) = is
  rw [show (is.filterMap fun i => (C.dict.words.slots.map (pruneEntry p))[i]?)
    = (is.filterMap fun i => C.dict.words.slots[i]?).map (pruneEntry p) by
      rw [List.map_filterMap]; simp only [List.getElem?_map]]
  exact filter_rename (fun _ => rfl) _

theorem iter :
    (pruneChecker p C).dict.words.iter (pruneChecker p C).L
      = (C.dict.words.iter C.L).map (pruneEntry p) := by
  have hk : (⟨C.dict.words.slots.map (pruneEntry p)⟩ : Bag FlagSet).keys = C.dict.words.keys := by
    simp only [Bag.keys, List.map_map]; rfl
  simp only [pruneChecker, pruneDict, Bag.iter]
  rw [hk, List.map_filterMap]
  simp only [List.getElem?_map]

theorem index (k : Kind) : (pruneChecker p C).index k = pruneIndex p (C.index k) := by
  cases k <;> rfl

theorem affixesOf (k : Kind) (w : Str) :
    (pruneChecker p C).affixesOf k w = (C.affixesOf k w).map (pruneAffix p) := by
  rw [Checker.affixesOf, Checker.affixesOf, index, AffixIndex.affixesOf_eq, AffixIndex.affixesOf_eq]
  exact filter_rename (fun _ => rfl) _

theorem suffixFlags :
    (pruneChecker p C).aff.suffixes.allFlags = pruneFlags p C.aff.suffixes.allFlags :=
  pruneIndex_allFlags _

theorem prefixFlags :
    (pruneChecker p C).aff.prefixes.allFlags = pruneFlags p C.aff.prefixes.allFlags :=
  pruneIndex_allFlags _


theorem opts : (pruneChecker p C).opts = C.opts := rfl
theorem a_flag (a : Affix) : (pruneAffix p a).flag = a.flag := rfl
theorem a_flags (a : Affix) : (pruneAffix p a).flags = pruneFlags p a.flags := rfl
theorem a_add (a : Affix) : (pruneAffix p a).add = a.add := rfl
theorem a_cross (a : Affix) : (pruneAffix p a).crossproduct = a.crossproduct := rfl
theorem a_toStem (k : Kind) (a : Affix) (w : Str) : (pruneAffix p a).toStem k w = a.toStem k w := by
  cases k <;> rfl
theorem a_cond (k : Kind) (a : Affix) (w : Str) :
    (pruneAffix p a).conditionMatches k w = a.conditionMatches k w := by
  cases k <;> rfl
theorem e_fst (e : Str × FlagSet) : (pruneEntry p e).1 = e.1 := rfl
theorem e_snd (e : Str × FlagSet) : (pruneEntry p e).2 = pruneFlags p e.2 := rfl

include h

/-- An option is asked about. -/
theorem opt {o : Option Nat} (ho : o ∈ flagOptions C.opts) (s : FlagSet) :
    hasFlag (pruneFlags p s) o = hasFlag s o :=
  pruneFlags_hasFlag (fun f hf => h f (.option (hf ▸ ho))) s

theorem needAffix (s : FlagSet) : hasFlag (pruneFlags p s) C.opts.needAffixFlag = hasFlag s C.opts.needAffixFlag :=
  opt h (by simp [flagOptions]) s
theorem onlyInCompound (s : FlagSet) :
    hasFlag (pruneFlags p s) C.opts.onlyInCompoundFlag = hasFlag s C.opts.onlyInCompoundFlag :=
  opt h (by simp [flagOptions]) s
theorem circumfix (s : FlagSet) : hasFlag (pruneFlags p s) C.opts.circumfixFlag = hasFlag s C.opts.circumfixFlag :=
  opt h (by simp [flagOptions]) s
theorem keepCase (s : FlagSet) : hasFlag (pruneFlags p s) C.opts.keepCaseFlag = hasFlag s C.opts.keepCaseFlag :=
  opt h (by simp [flagOptions]) s
theorem warn (s : FlagSet) : hasFlag (pruneFlags p s) C.opts.warnFlag = hasFlag s C.opts.warnFlag :=
  opt h (by simp [flagOptions]) s
theorem compound (s : FlagSet) : hasFlag (pruneFlags p s) C.opts.compoundFlag = hasFlag s C.opts.compoundFlag :=
  opt h (by simp [flagOptions]) s
theorem compoundBegin (s : FlagSet) :
    hasFlag (pruneFlags p s) C.opts.compoundBeginFlag = hasFlag s C.opts.compoundBeginFlag :=
  opt h (by simp [flagOptions]) s
theorem compoundMiddle (s : FlagSet) :
    hasFlag (pruneFlags p s) C.opts.compoundMiddleFlag = hasFlag s C.opts.compoundMiddleFlag :=
  opt h (by simp [flagOptions]) s
theorem compoundEnd (s : FlagSet) :
    hasFlag (pruneFlags p s) C.opts.compoundEndFlag = hasFlag s C.opts.compoundEndFlag :=
  opt h (by simp [flagOptions]) s
theorem compoundPermit (s : FlagSet) :
    hasFlag (pruneFlags p s) C.opts.compoundPermitFlag = hasFlag s C.opts.compoundPermitFlag :=
  opt h (by simp [flagOptions]) s
theorem compoundForbid (s : FlagSet) :
    hasFlag (pruneFlags p s) C.opts.compoundForbidFlag = hasFlag s C.opts.compoundForbidFlag :=
  opt h (by simp [flagOptions]) s
theorem compoundRoot (s : FlagSet) :
    hasFlag (pruneFlags p s) C.opts.compoundRootFlag = hasFlag s C.opts.compoundRootFlag :=
  opt h (by simp [flagOptions]) s
theorem forceUppercase (s : FlagSet) :
    hasFlag (pruneFlags p s) C.opts.compoundForceUppercaseFlag = hasFlag s C.opts.compoundForceUppercaseFlag :=
  opt h (by simp [flagOptions]) s
theorem noSuggest (s : FlagSet) : hasFlag (pruneFlags p s) C.opts.noSuggestFlag = hasFlag s C.opts.noSuggestFlag :=
  opt h (by simp [flagOptions]) s

theorem forbidden (s : FlagSet) :
    (pruneFlags p s).contains C.opts.forbiddenWordFlag = s.contains C.opts.forbiddenWordFlag :=
  pruneFlags_contains (h _ (.option (by simp [flagOptions, Checker.opts]))) s

theorem hidden (s : FlagSet) :
    (pruneFlags p s).contains hiddenHomonymFlag = s.contains hiddenHomonymFlag :=
  pruneFlags_contains (h _ .hidden) s

theorem affixFlag {k : Kind} {w : Str} {a : Affix} (ha : a ∈ C.affixesOf k w) : p a.flag = true := by
  rw [Checker.affixesOf, AffixIndex.affixesOf_eq] at ha
  have := (List.mem_filter.1 ha).1
  cases k with
  | pfx => exact h _ (.pfx this)
  | sfx => exact h _ (.sfx this)

theorem valid (k : Kind) (m : Mode) (a : Affix) :
    isValid k m (pruneAffix p a) C.opts = isValid k m a C.opts := by
  simp only [isValid, a_flags, opts, onlyInCompound h, compoundPermit h, compoundForbid h]

theorem isOuterAffixValid (k : Kind) (m : Mode) (a : Affix) :
    (pruneChecker p C).isOuterAffixValid k m (pruneAffix p a) = C.isOuterAffixValid k m a := by
  simp only [Checker.isOuterAffixValid, opts, valid h, a_flags, opts, needAffix h]

theorem isCircumfix (a : Affix) :
    (pruneChecker p C).isCircumfix (pruneAffix p a) = C.isCircumfix a := by
  simp only [Checker.isCircumfix, a_flags, opts, circumfix h]

theorem isValidInsideCompound (m : Mode) (s : FlagSet) :
    (pruneChecker p C).isValidInsideCompound m (pruneFlags p s) = C.isValidInsideCompound m s := by
  simp only [Checker.isValidInsideCompound, opts, compound h, compoundBegin h,
    compoundMiddle h, compoundEnd h]

theorem onlyEntry (k : Kind) (m : Mode) (hh : HiddenHomonym) {a : Affix} (ha : p a.flag = true) (e : Str × FlagSet) :
    (pruneChecker p C).onlyEntry k m hh (pruneAffix p a) (pruneEntry p e)
      = (C.onlyEntry k m hh a e).map (pruneForm p) := by
  cases k <;>
  simp only [Checker.onlyEntry, e_snd, a_flag, a_flags, pruneFlags_contains ha, opts, needAffix h, onlyInCompound h, hidden h,
    isValidInsideCompound h, apply_ite (Option.map (pruneForm p)), Option.map_none, Option.map_some] <;>
  rfl

theorem onlyAffix (k : Kind) (m : Mode) (w : Str) (hh : HiddenHomonym) {a : Affix} (ha : p a.flag = true) :
    (pruneChecker p C).onlyAffix k m w hh (pruneAffix p a)
      = (C.onlyAffix k m w hh a).map (pruneForm p) := by
  simp only [Checker.onlyAffix, isOuterAffixValid h, a_add, a_flags, opts, needAffix h, onlyInCompound h,
    isCircumfix h, a_toStem, a_cond, entries, findSome_rename (onlyEntry h k m hh ha),
    apply_ite (Option.map (pruneForm p)), Option.map_none]

theorem stripOnly (k : Kind) (m : Mode) (w : Str) (hh : HiddenHomonym) :
    (pruneChecker p C).stripOnly k m w hh = (C.stripOnly k m w hh).map (pruneForm p) := by
  rw [Checker.stripOnly, affixesOf, findSome_prune (fun a ha => onlyAffix h k m w hh (affixFlag h ha)), Checker.stripOnly]

theorem commEntry (m : Mode) (hh : HiddenHomonym) {a b : Affix} (ha : p a.flag = true) (hb : p b.flag = true) (e : Str × FlagSet) :
    (pruneChecker p C).commEntry m hh (pruneAffix p a) (pruneAffix p b) (pruneEntry p e)
      = (C.commEntry m hh a b e).map (pruneForm p) := by
  simp only [Checker.commEntry, e_snd, a_flag, a_flags, pruneFlags_contains ha, pruneFlags_contains hb, opts,
    needAffix h, onlyInCompound h, hidden h, isValidInsideCompound h, apply_ite (Option.map (pruneForm p)), Option.map_none,
    Option.map_some]
  rfl

theorem commSuffix (m : Mode) (w : Str) (hh : HiddenHomonym) {a b : Affix} (ha : p a.flag = true) (hb : p b.flag = true) :
    (pruneChecker p C).commSuffix m w hh (pruneAffix p a) (pruneAffix p b)
      = (C.commSuffix m w hh a b).map (pruneForm p) := by
  simp only [Checker.commSuffix, a_cross, opts, valid h, a_flags, opts, needAffix h, onlyInCompound h, isCircumfix h,
    a_toStem, a_cond, entries, findSome_rename (commEntry h m hh ha hb),
    apply_ite (Option.map (pruneForm p)), Option.map_none]

theorem commPrefix (m : Mode) (w : Str) (hh : HiddenHomonym) {a : Affix} (ha : p a.flag = true) :
    (pruneChecker p C).commPrefix m w hh (pruneAffix p a)
      = (C.commPrefix m w hh a).map (pruneForm p) := by
  simp only [Checker.commPrefix, a_cross, opts, valid h, a_toStem, a_cond, affixesOf,
    findSome_prune (fun b hb => commSuffix h m _ hh ha (affixFlag h hb)), apply_ite (Option.map (pruneForm p)), Option.map_none]

theorem stripComm (m : Mode) (w : Str) (hh : HiddenHomonym) :
    (pruneChecker p C).stripComm m w hh = (C.stripComm m w hh).map (pruneForm p) := by
  rw [Checker.stripComm, affixesOf, findSome_prune (fun a ha => commPrefix h m w hh (affixFlag h ha)), Checker.stripComm]

theorem fullEntryOk (hh : HiddenHomonym) (s : FlagSet) :
    (pruneChecker p C).fullEntryOk hh (pruneFlags p s) = C.fullEntryOk hh s := by
  simp only [Checker.fullEntryOk, opts, needAffix h, onlyInCompound h, hidden h]

theorem twoEntry (k : Kind) (hh : HiddenHomonym) {a b : Affix} (ha : p a.flag = true) (hb : p b.flag = true) (e : Str × FlagSet) :
    (pruneChecker p C).twoEntry k hh (pruneAffix p a) (pruneAffix p b) (pruneEntry p e)
      = (C.twoEntry k hh a b e).map (pruneForm p) := by
  cases k <;>
  simp only [Checker.twoEntry, e_snd, a_flag, pruneFlags_contains ha, pruneFlags_contains hb, fullEntryOk h,
    apply_ite (Option.map (pruneForm p)), Option.map_none, Option.map_some] <;>
  rfl

theorem twoInner (k : Kind) (w : Str) (hh : HiddenHomonym) {a b : Affix} (ha : p a.flag = true) (hb : p b.flag = true) :
    (pruneChecker p C).twoInner k w hh (pruneAffix p a) (pruneAffix p b)
      = (C.twoInner k w hh a b).map (pruneForm p) := by
  simp only [Checker.twoInner, a_flags, a_flag, pruneFlags_contains ha, pruneFlags_contains hb, opts, valid h, isCircumfix h, a_toStem, a_cond,
    entries, findSome_rename (twoEntry h k hh ha hb), apply_ite (Option.map (pruneForm p)),
    Option.map_none]

theorem twoOuter (k : Kind) (w : Str) (hh : HiddenHomonym) {a : Affix} (ha : p a.flag = true) :
    (pruneChecker p C).twoOuter k w hh (pruneAffix p a)
      = (C.twoOuter k w hh a).map (pruneForm p) := by
  simp only [Checker.twoOuter, index, pruneIndex_allFlags, a_flag, pruneFlags_contains ha, isOuterAffixValid h,
    isCircumfix h, a_toStem, a_cond, affixesOf, findSome_prune (fun b hb => twoInner h k _ hh ha (affixFlag h hb)),
    apply_ite (Option.map (pruneForm p)), Option.map_none]

theorem stripTwo (k : Kind) (w : Str) (hh : HiddenHomonym) :
    (pruneChecker p C).stripTwo k w hh = (C.stripTwo k w hh).map (pruneForm p) := by
  rw [stripTwo_loop, stripTwo_loop, affixesOf, findSome_prune (fun a ha => twoOuter h k w hh (affixFlag h ha))]

theorem oneTwoEntry (k : Kind) (hh : HiddenHomonym) {a b c : Affix} (ha : p a.flag = true) (hb : p b.flag = true) (hc : p c.flag = true) (e : Str × FlagSet) :
    (pruneChecker p C).oneTwoEntry k hh (pruneAffix p a) (pruneAffix p b) (pruneAffix p c)
      (pruneEntry p e) = (C.oneTwoEntry k hh a b c e).map (pruneForm p) := by
  cases k <;>
  simp only [Checker.oneTwoEntry, e_snd, a_flags, a_flag, pruneFlags_contains ha, pruneFlags_contains hb, pruneFlags_contains hc, fullEntryOk h,
    apply_ite (Option.map (pruneForm p)), Option.map_none, Option.map_some] <;>
  rfl

theorem oneTwoInner (k : Kind) (w : Str) (hh : HiddenHomonym) {a b c : Affix} (ha : p a.flag = true) (hb : p b.flag = true) (hc : p c.flag = true) :
    (pruneChecker p C).oneTwoInner k w hh (pruneAffix p a) (pruneAffix p b) (pruneAffix p c)
      = (C.oneTwoInner k w hh a b c).map (pruneForm p) := by
  simp only [Checker.oneTwoInner, a_flags, a_flag, pruneFlags_contains ha, pruneFlags_contains hb, pruneFlags_contains hc, opts, valid h, isCircumfix h, a_toStem, a_cond,
    entries, findSome_rename (oneTwoEntry h k hh ha hb hc), apply_ite (Option.map (pruneForm p)),
    Option.map_none]

theorem oneTwoOuter (k : Kind) (w : Str) (hh : HiddenHomonym) {a b : Affix} (ha : p a.flag = true) (hb : p b.flag = true) :
    (pruneChecker p C).oneTwoOuter k w hh (pruneAffix p a) (pruneAffix p b)
      = (C.oneTwoOuter k w hh a b).map (pruneForm p) := by
  simp only [Checker.oneTwoOuter, suffixFlags, a_flag, pruneFlags_contains ha, pruneFlags_contains hb, a_cross, opts, valid h, isCircumfix h,
    a_toStem, a_cond, affixesOf, findSome_prune (fun c hc => oneTwoInner h k _ hh ha hb (affixFlag h hc)),
    apply_ite (Option.map (pruneForm p)), Option.map_none]

theorem oneTwoFirst (k : Kind) (w : Str) (hh : HiddenHomonym) {a : Affix} (ha : p a.flag = true) :
    (pruneChecker p C).oneTwoFirst k w hh (pruneAffix p a)
      = (C.oneTwoFirst k w hh a).map (pruneForm p) := by
  simp only [Checker.oneTwoFirst, a_cross, isOuterAffixValid h, a_toStem, a_cond, affixesOf,
    findSome_prune (fun b hb => oneTwoOuter h k _ hh ha (affixFlag h hb)), apply_ite (Option.map (pruneForm p)), Option.map_none]

theorem stripOneTwo (k : Kind) (w : Str) (hh : HiddenHomonym) :
    (pruneChecker p C).stripOneTwo k w hh = (C.stripOneTwo k w hh).map (pruneForm p) := by
  rw [stripOneTwo_loop, stripOneTwo_loop, affixesOf, findSome_prune (fun a ha => oneTwoFirst h k w hh (affixFlag h ha))]

theorem sandwichEntry (k : Kind) (hh : HiddenHomonym) {a b c : Affix} (ha : p a.flag = true) (hb : p b.flag = true) (hc : p c.flag = true) (e : Str × FlagSet) :
    (pruneChecker p C).sandwichEntry k hh (pruneAffix p a) (pruneAffix p b) (pruneAffix p c)
      (pruneEntry p e) = (C.sandwichEntry k hh a b c e).map (pruneForm p) := by
  cases k <;>
  simp only [Checker.sandwichEntry, e_snd, a_flags, a_flag, pruneFlags_contains ha, pruneFlags_contains hb, pruneFlags_contains hc, fullEntryOk h,
    apply_ite (Option.map (pruneForm p)), Option.map_none, Option.map_some] <;>
  rfl

theorem sandwichInner (k : Kind) (w : Str) (hh : HiddenHomonym) {a b c : Affix} (ha : p a.flag = true) (hb : p b.flag = true) (hc : p c.flag = true) :
    (pruneChecker p C).sandwichInner k w hh (pruneAffix p a) (pruneAffix p b) (pruneAffix p c)
      = (C.sandwichInner k w hh a b c).map (pruneForm p) := by
  simp only [Checker.sandwichInner, a_cross, a_flags, a_flag, pruneFlags_contains ha, pruneFlags_contains hb, pruneFlags_contains hc, opts, valid h, isCircumfix h,
    a_toStem, a_cond, entries, findSome_rename (sandwichEntry h k hh ha hb hc),
    apply_ite (Option.map (pruneForm p)), Option.map_none]

theorem sandwichMid (k : Kind) (w : Str) (hh : HiddenHomonym) {a b : Affix} (ha : p a.flag = true) (hb : p b.flag = true) :
    (pruneChecker p C).sandwichMid k w hh (pruneAffix p a) (pruneAffix p b)
      = (C.sandwichMid k w hh a b).map (pruneForm p) := by
  simp only [Checker.sandwichMid, a_cross, opts, valid h, a_toStem, a_cond, affixesOf,
    findSome_prune (fun c hc => sandwichInner h k _ hh ha hb (affixFlag h hc)), apply_ite (Option.map (pruneForm p)),
    Option.map_none]

theorem sandwichOuter (k : Kind) (w : Str) (hh : HiddenHomonym) {a : Affix} (ha : p a.flag = true) :
    (pruneChecker p C).sandwichOuter k w hh (pruneAffix p a)
      = (C.sandwichOuter k w hh a).map (pruneForm p) := by
  simp only [Checker.sandwichOuter, suffixFlags, prefixFlags, a_flag, pruneFlags_contains ha, a_cross,
    isOuterAffixValid h, a_toStem, a_cond, affixesOf, findSome_prune (fun b hb => sandwichMid h k _ hh ha (affixFlag h hb)),
    apply_ite (Option.map (pruneForm p)), Option.map_none]

theorem stripSandwich (k : Kind) (w : Str) (hh : HiddenHomonym) :
    (pruneChecker p C).stripSandwich k w hh = (C.stripSandwich k w hh).map (pruneForm p) := by
  rw [stripSandwich_loop, stripSandwich_loop, affixesOf, findSome_prune (fun a ha => sandwichOuter h k w hh (affixFlag h ha))]

theorem directEntry (hh : HiddenHomonym) (e : Str × FlagSet) :
    (pruneChecker p C).directEntry hh (pruneEntry p e)
      = (C.directEntry hh e).map (pruneFlags p) := by
  simp only [Checker.directEntry, e_snd, opts, needAffix h, onlyInCompound h, hidden h,
    apply_ite (Option.map (pruneFlags p)), Option.map_none, Option.map_some]

theorem checkSimpleWord (w : Str) (hh : HiddenHomonym) :
    (pruneChecker p C).checkSimpleWord w hh = (C.checkSimpleWord w hh).map (pruneFlags p) := by
  have e : ∀ o : Option AffixForm, (o.map (pruneForm p)).map (·.flags)
      = (o.map (·.flags)).map (pruneFlags p) := fun o => by cases o <;> rfl
  have ho : (pruneChecker p C).opts.complexPrefixes = C.opts.complexPrefixes := rfl
  simp only [Checker.checkSimpleWord, entries, findSome_rename (directEntry h hh), stripOnly h,
    stripComm h, stripTwo h, stripOneTwo h, stripSandwich h, e, ho, ← Option.map_or,
    ← apply_ite (Option.map (pruneFlags p))]

/-! ## Compounds -/

omit h in
theorem vowels : (pruneChecker p C).aff.compoundSyllableVowels = C.aff.compoundSyllableVowels := rfl

omit h in
theorem countSyllables (w : Str) : (pruneChecker p C).countSyllables w = C.countSyllables w := rfl

omit h in
theorem numWordsModifier (a : Affix) :
    (pruneChecker p C).numWordsModifier (pruneAffix p a) = C.numWordsModifier a := rfl

theorem syllableModifier (m : Mode) (s : FlagSet) :
    (pruneChecker p C).syllableModifier m (pruneFlags p s) = C.syllableModifier m s := by
  simp only [Checker.syllableModifier, vowels]
  by_cases hv : C.aff.compoundSyllableVowels = []
  · simp [hv]
  · rw [pruneFlags_contains (h _ (.syllables hv (.inl rfl))), pruneFlags_contains (h _ (.syllables hv (.inr rfl)))]
    rfl

theorem syllableModifierWithSuffix (m : Mode) (s : FlagSet) (a : Affix) :
    (pruneChecker p C).syllableModifierWithSuffix m (pruneFlags p s) (pruneAffix p a)
      = C.syllableModifierWithSuffix m s a := by
  simp only [Checker.syllableModifierWithSuffix, vowels, countSyllables, a_add, a_flag, opts]
  by_cases hv : C.aff.compoundSyllableVowels = []
  · simp [hv]
  · rw [pruneFlags_contains (h _ (.syllables hv (.inr rfl)))]
    rfl

omit h in
theorem positionFlag (m : Mode) :
    (pruneChecker p C).positionFlag m = C.positionFlag m := by
  cases m <;> rfl

theorem position (m : Mode) (s : FlagSet) :
    hasFlag (pruneFlags p s) (C.positionFlag m) = hasFlag s (C.positionFlag m) := by
  cases m with
  | atBegin => exact compoundBegin h s
  | atMiddle => exact compoundMiddle h s
  | atEnd => exact compoundEnd h s
  | full => rfl

theorem compoundEntry (m : Mode) (e : Str × FlagSet) :
    (pruneChecker p C).compoundEntry m (pruneEntry p e)
      = (C.compoundEntry m e).map (pruneResult p) := by
  simp only [Checker.compoundEntry, e_snd, opts, positionFlag, needAffix h, compound h, position h, hidden h,
    syllableModifier h, apply_ite (Option.map (pruneResult p)), Option.map_none, Option.map_some]
  rfl

theorem suffixResult (m : Mode) (f : AffixForm) :
    (pruneChecker p C).suffixResult m (pruneForm p f)
      = (C.suffixResult m f).map (pruneResult p) := by
  obtain ⟨st, fl, ⟨p1, p2⟩, s1, s2⟩ := f
  cases s1 with
  | none => rfl
  | some a =>
    simp only [Checker.suffixResult, pruneForm, Option.map_some, syllableModifierWithSuffix h]
    rfl

omit h in
theorem prefixResult (f : AffixForm) :
    (pruneChecker p C).prefixResult (pruneForm p f) = (C.prefixResult f).map (pruneResult p) := by
  obtain ⟨st, fl, ⟨p1, p2⟩, s1, s2⟩ := f
  cases p1 <;> rfl

theorem commResult (m : Mode) (f : AffixForm) :
    (pruneChecker p C).commResult m (pruneForm p f) = (C.commResult m f).map (pruneResult p) := by
  obtain ⟨st, fl, ⟨p1, p2⟩, s1, s2⟩ := f
  cases p1 with
  | none => rfl
  | some a =>
    cases s1 with
    | none => rfl
    | some b =>
      simp only [Checker.commResult, pruneForm, Option.map_some, syllableModifierWithSuffix h]
      rfl

omit h in
theorem bind_map {α α' β β' : Type} {r : α → α'} {g : β → β'} {f : α → Option β} {f' : α' → Option β'}
    (hf : ∀ a, f' (r a) = (f a).map g) (o : Option α) : (o.map r).bind f' = (o.bind f).map g := by
  cases o with
  | none => rfl
  | some a => exact hf a

theorem checkWordInCompound (m : Mode) (w : Str) :
    (pruneChecker p C).checkWordInCompound m w
      = (C.checkWordInCompound m w).map (pruneResult p) := by
  simp only [Checker.checkWordInCompound, entries, findSome_rename (compoundEntry h m), stripOnly h,
    stripComm h, bind_map (suffixResult h m), bind_map prefixResult, bind_map (commResult h m),
    ← Option.map_or]

/-! ### Two parts which are the same entry

Two entries of a word which differ only in dropped flags look the same afterwards. The code finds the
first of them only, so it never compares them. -/

omit h in
theorem find_class {β : Type} {f : Str × FlagSet → Option β} {g : β → β} {f' : Str × FlagSet → Option β}
    (hf : ∀ e, f' (pruneEntry p e) = (f e).map g) {v : β → Str × FlagSet}
    (hv : ∀ e b, f e = some b → v b = e) {b : β} : ∀ {l : List (Str × FlagSet)}, l.findSome? f = some b →
      l.find? (fun e => decide (pruneEntry p e = pruneEntry p (v b))) = some (v b)
  | [], hb => by cases hb
  | e :: l, hb => by
    rw [List.findSome?_cons] at hb
    cases he : f e with
    | some b' =>
      rw [he] at hb
      cases hb
      rw [List.find?_cons, hv e b he]
      simp
    | none =>
      rw [he] at hb
      rw [List.find?_cons]
      by_cases hq : pruneEntry p e = pruneEntry p (v b)
      · exfalso
        obtain ⟨e', _, h'⟩ := List.exists_of_findSome?_eq_some hb
        have h1 := hf e
        have h2 := hf e'
        rw [hv e' b h'] at hq
        rw [hq, h2, h', he] at h1
        cases h1
      · simp only [hq, decide_false]
        exact find_class hf hv hb

/-- The first entry of its word among those which differ only in dropped flags. -/
def Early (p : Nat → Bool) (C : Checker) (e : Str × FlagSet) : Prop :=
  (C.entries e.1).find? (fun x => decide (pruneEntry p x = pruneEntry p e)) = some e

omit h in
theorem early_of {β : Type} {f : Str × FlagSet → Option β} {g : β → β} {f' : Str × FlagSet → Option β}
    (hf : ∀ e, f' (pruneEntry p e) = (f e).map g) {v : β → Str × FlagSet}
    (hv : ∀ e b, f e = some b → v b = e) {b : β} {w : Str} (hb : (C.entries w).findSome? f = some b) :
    Early p C (v b) := by
  have := find_class hf hv hb
  have hm := List.mem_of_find?_eq_some this
  rw [Checker.entries, Bag.get] at hm
  have hw := (List.mem_filter.1 hm).2
  rw [beq_iff_eq] at hw
  rw [Early, ← hw]
  exact this

omit h in
theorem early_unique {e e' : Str × FlagSet} (h1 : Early p C e) (h2 : Early p C e')
    (he : pruneEntry p e = pruneEntry p e') : e = e' := by
  have hs : e.1 = e'.1 := (Prod.mk.injEq _ _ _ _ ▸ he : _ ∧ _).1
  rw [Early, hs, he] at h1
  rw [Early, h1] at h2
  exact Option.some.inj h2

/-- Where a result comes from. -/
abbrev source (r : CompoundingResult) : Str × FlagSet := (r.stem, r.flags)

theorem early_only {k : Kind} {m : Mode} {w : Str} {hh : HiddenHomonym} {f : AffixForm}
    (hf : C.stripOnly k m w hh = some f) : Early p C (f.stem, f.flags) := by
  rw [Checker.stripOnly] at hf
  obtain ⟨a, ha, h1⟩ := List.exists_of_findSome?_eq_some hf
  rw [Checker.onlyAffix] at h1
  have h2 : (C.entries (a.toStem k w)).findSome? (C.onlyEntry k m hh a) = some f := by
    dsimp only at h1
    split at h1
    · cases h1
    split at h1
    · cases h1
    split at h1
    · cases h1
    split at h1
    · cases h1
    exact h1
  refine early_of (v := fun f => (f.stem, f.flags)) (onlyEntry h k m hh (affixFlag h ha)) (fun e b he => ?_) h2
  unfold Checker.onlyEntry at he
  split at he
  · cases he
  split at he
  · cases he
  split at he
  · cases he
  split at he
  · cases he
  cases k <;> cases he <;> rfl

theorem early_comm {m : Mode} {w : Str} {hh : HiddenHomonym} {f : AffixForm}
    (hf : C.stripComm m w hh = some f) : Early p C (f.stem, f.flags) := by
  rw [Checker.stripComm] at hf
  obtain ⟨a, ha, h1⟩ := List.exists_of_findSome?_eq_some hf
  rw [Checker.commPrefix] at h1
  dsimp only at h1
  split at h1
  · cases h1
  split at h1
  · cases h1
  split at h1
  · cases h1
  obtain ⟨b, hb, h2⟩ := List.exists_of_findSome?_eq_some h1
  rw [Checker.commSuffix] at h2
  dsimp only at h2
  split at h2
  · cases h2
  split at h2
  · cases h2
  split at h2
  · cases h2
  split at h2
  · cases h2
  split at h2
  · cases h2
  refine early_of (v := fun f => (f.stem, f.flags)) (commEntry h m hh (affixFlag h ha) (affixFlag h hb))
    (fun e b he => ?_) h2
  unfold Checker.commEntry at he
  dsimp only at he
  split at he
  · cases he
  split at he
  · cases he
  split at he
  · cases he
  split at he
  · cases he
  cases he
  rfl

theorem early_part {m : Mode} {w : Str} {r : CompoundingResult} (hr : C.checkWordInCompound m w = some r) :
    Early p C (source r) := by
  rw [Checker.checkWordInCompound, Option.or_eq_some_iff] at hr
  rcases hr with hr | ⟨_, hr⟩
  · refine early_of (v := source) (compoundEntry h m) (fun e b he => ?_) hr
    unfold Checker.compoundEntry at he
    split at he
    · cases he
    split at he
    · cases he
    split at he
    · cases he
    cases he
    rfl
  rw [Option.or_eq_some_iff] at hr
  rcases hr with hr | ⟨_, hr⟩
  · obtain ⟨f, hf, hr⟩ := Option.bind_eq_some_iff.1 hr
    have := early_only h hf
    rw [Checker.suffixResult, Option.map_eq_some_iff] at hr
    obtain ⟨_, _, rfl⟩ := hr
    exact this
  rw [Option.or_eq_some_iff] at hr
  rcases hr with hr | ⟨_, hr⟩
  · obtain ⟨f, hf, hr⟩ := Option.bind_eq_some_iff.1 hr
    have := early_only h hf
    rw [Checker.prefixResult, Option.map_eq_some_iff] at hr
    obtain ⟨_, _, rfl⟩ := hr
    exact this
  · obtain ⟨f, hf, hr⟩ := Option.bind_eq_some_iff.1 hr
    have := early_comm h hf
    rw [Checker.commResult] at hr
    split at hr
    · cases hr
      exact this
    · cases hr

omit h in
theorem any_mem {α : Type} {f g : α → Bool} : ∀ {l : List α}, (∀ a ∈ l, f a = g a) → l.any f = l.any g
  | [], _ => rfl
  | a :: l, hl => by
    rw [List.any_cons, List.any_cons, hl a (List.mem_cons_self ..),
      any_mem fun b hb => hl b (List.mem_cons_of_mem _ hb)]

theorem fstFlag {c : CompoundPattern} (hc : c ∈ C.aff.compoundPatterns) (s : FlagSet) :
    (c.firstWordFlag.any fun f => !(pruneFlags p s).contains f)
      = c.firstWordFlag.any fun f => !s.contains f :=
  pruneFlags_any (fun f hf => h f (.first hc hf)) s

theorem sndFlag {c : CompoundPattern} (hc : c ∈ C.aff.compoundPatterns) (s : FlagSet) :
    (c.secondWordFlag.any fun f => !(pruneFlags p s).contains f)
      = c.secondWordFlag.any fun f => !s.contains f :=
  pruneFlags_any (fun f hf => h f (.second hc hf)) s

theorem matchPattern {c : CompoundPattern} (hc : c ∈ C.aff.compoundPatterns) (w : Str) (i : Nat) (r s : CompoundingResult) :
    matchCompoundPattern c w i (pruneResult p r) (pruneResult p s)
      = matchCompoundPattern c w i r s := by
  simp only [matchCompoundPattern, pruneResult, fstFlag h hc, sndFlag h hc]
  rfl

theorem forbiddenByPatterns (w : Str) (i : Nat) (r s : CompoundingResult) :
    (pruneChecker p C).forbiddenByPatterns w i (pruneResult p r) (pruneResult p s)
      = C.forbiddenByPatterns w i r s :=
  any_mem (fun c hc => matchPattern h hc w i r s)

theorem isSimpleWord (w : Str) : (pruneChecker p C).isSimpleWord w = C.isSimpleWord w := by
  rw [Checker.isSimpleWord, checkSimpleWord h, Option.isSome_map, Checker.isSimpleWord]

theorem isRepSimilar (w : Str) : (pruneChecker p C).isRepSimilar w = C.isRepSimilar w := by
  have e : (pruneChecker p C).aff.replacements = C.aff.replacements := rfl
  simp only [Checker.isRepSimilar, e, isSimpleWord h]

theorem wordCount (r : CompoundingResult) :
    (pruneChecker p C).wordCount (pruneResult p r) = C.wordCount r := by
  have e : hasFlag (pruneResult p r).flags (pruneChecker p C).opts.compoundRootFlag
      = hasFlag r.flags C.opts.compoundRootFlag := compoundRoot h _
  rw [Checker.wordCount, e]
  rfl

omit h in
theorem r_flags (r : CompoundingResult) : (pruneResult p r).flags = pruneFlags p r.flags := rfl

omit h in
theorem r_eq {r s : CompoundingResult} (hr : Early p C (source r)) (hs : Early p C (source s)) :
    (pruneResult p r == pruneResult p s) = (r == s) := by
  rw [Bool.eq_iff_iff, beq_iff_eq, beq_iff_eq]
  constructor
  · intro he
    obtain ⟨a1, a2, a3, a4, a5⟩ := r
    obtain ⟨b1, b2, b3, b4, b5⟩ := s
    simp only [pruneResult, CompoundingResult.mk.injEq] at he
    obtain ⟨rfl, h2, rfl, rfl, rfl⟩ := he
    have := early_unique hr hs (Prod.ext rfl h2)
    simp only [Prod.mk.injEq] at this
    rw [this.2]
  · rintro rfl; rfl

theorem classicSecond (w : Str) (start i n : Nat) (fc : Forceucase) {r : CompoundingResult}
    (hr : Early p C (source r)) :
    (pruneChecker p C).classicSecond w start i n fc (pruneResult p r)
      = C.classicSecond w start i n fc r := by
  have e1 : (pruneChecker p C).opts.compoundCheckDuplicate = C.opts.compoundCheckDuplicate := rfl
  have e2 : (pruneChecker p C).opts.compoundCheckRep = C.opts.compoundCheckRep := rfl
  have e3 : (pruneChecker p C).opts.compoundMaxWordCount = C.opts.compoundMaxWordCount := rfl
  have e4 : (pruneChecker p C).opts.compoundSyllableMax = C.opts.compoundSyllableMax := rfl
  rw [Checker.classicSecond, Checker.classicSecond, checkWordInCompound h]
  cases hq : C.checkWordInCompound .atEnd (w.drop i) with
  | none => rfl
  | some q =>
    simp only [Option.map_some, r_flags, opts, forbidden h, forbiddenByPatterns h, r_eq hr (early_part h hq),
      isRepSimilar h, forceUppercase h, wordCount h, vowels, countSyllables, e1, e2, e3, e4]
    rfl

theorem repAfterRecursion (w : Str) (start i : Nat) (r : CompoundingResult) :
    (pruneChecker p C).repAfterRecursion w start i (pruneResult p r)
      = C.repAfterRecursion w start i r := by
  have e2 : (pruneChecker p C).opts.compoundCheckRep = C.opts.compoundCheckRep := rfl
  simp only [Checker.repAfterRecursion, isRepSimilar h, e2]
  rfl

/-- The results of a search, renamed. -/
abbrev rn (p : Nat → Bool) : Run (Option CompoundingResult) → Run (Option CompoundingResult) :=
  Except.map (Option.map (pruneResult p))

theorem tripleRecursive {s s' : Search} (hs : ∀ w a b, s' w a b = rn p (s w a b)) (t w : Str)
    (start i n : Nat) (r : CompoundingResult) :
    (pruneChecker p C).tripleRecursive s' t w start i n (pruneResult p r)
      = rn p (C.tripleRecursive s t w start i n r) := by
  rw [Checker.tripleRecursive, Checker.tripleRecursive, hs]
  rcases s t i (n + 1) with e | (_ | q)
  · rfl
  · rfl
  · show (if _ then _ else _) = rn p (if _ then _ else _)
    rw [forbiddenByPatterns h, repAfterRecursion h]
    split
    · rfl
    split <;> rfl

theorem tripleSecond (t w : Str) (start i n : Nat) (fc : Forceucase) {r : CompoundingResult}
    (hr : Early p C (source r)) :
    (pruneChecker p C).tripleSecond t w start i n fc (pruneResult p r)
      = C.tripleSecond t w start i n fc r := by
  have e1 : (pruneChecker p C).opts.compoundCheckDuplicate = C.opts.compoundCheckDuplicate := rfl
  have e2 : (pruneChecker p C).opts.compoundCheckRep = C.opts.compoundCheckRep := rfl
  have e3 : (pruneChecker p C).opts.compoundMaxWordCount = C.opts.compoundMaxWordCount := rfl
  rw [Checker.tripleSecond, Checker.tripleSecond, checkWordInCompound h]
  cases hq : C.checkWordInCompound .atEnd (t.drop i) with
  | none => rfl
  | some q =>
    simp only [Option.map_some, r_flags, opts, forbidden h, forbiddenByPatterns h, r_eq hr (early_part h hq),
      isRepSimilar h, forceUppercase h, e1, e2, e3]
    rfl

theorem simplifiedTriple {s s' : Search} (hs : ∀ w a b, s' w a b = rn p (s w a b)) (w : Str)
    (start i n : Nat) (fc : Forceucase) {r : CompoundingResult}
    (hr : Early p C (source r)) :
    (pruneChecker p C).simplifiedTriple s' w start i n fc (pruneResult p r)
      = rn p (C.simplifiedTriple s w start i n fc r) := by
  have e1 : (pruneChecker p C).opts.compoundSimplifiedTriple = C.opts.compoundSimplifiedTriple := rfl
  rw [Checker.simplifiedTriple, Checker.simplifiedTriple, e1]
  split
  · rfl
  cases tripled w i with
  | none => rfl
  | some t =>
    dsimp only
    rw [tripleSecond h _ _ _ _ _ _ hr]
    cases C.tripleSecond t w start i n fc r with
    | accept => rfl
    | reject => rfl
    | next => exact tripleRecursive h hs _ _ _ _ _ _

theorem tryRecursive {s s' : Search} (hs : ∀ w a b, s' w a b = rn p (s w a b)) (w : Str)
    (start i n : Nat) (fc : Forceucase) {r : CompoundingResult}
    (hr : Early p C (source r)) :
    (pruneChecker p C).tryRecursive s' w start i n fc (pruneResult p r)
      = rn p (C.tryRecursive s w start i n fc r) := by
  rw [Checker.tryRecursive, Checker.tryRecursive, hs]
  rcases s w i (n + 1) with e | (_ | q)
  · rfl
  · exact simplifiedTriple h hs _ _ _ _ _ hr
  · show (if _ then _ else _) = rn p (if _ then _ else _)
    rw [forbiddenByPatterns h, repAfterRecursion h, simplifiedTriple h hs _ _ _ _ _ hr]
    split
    · rfl
    split <;> rfl

theorem classicFirst (m : Mode) (w : Str) (start i : Nat) :
    (pruneChecker p C).classicFirst m w start i
      = (C.classicFirst m w start i).map (pruneResult p) := by
  have e1 : (pruneChecker p C).opts.compoundCheckTriple = C.opts.compoundCheckTriple := rfl
  have e2 : (pruneChecker p C).opts.compoundCheckCase = C.opts.compoundCheckCase := rfl
  have e3 : (pruneChecker p C).U = C.U := rfl
  rw [Checker.classicFirst, Checker.classicFirst, checkWordInCompound h]
  cases C.checkWordInCompound m (slice w start i) with
  | none => rfl
  | some q =>
    simp only [Option.map_some, r_flags, opts, forbidden h, e1, e2, e3,
      apply_ite (Option.map (pruneResult p)), Option.map_none]

theorem early_first {m : Mode} {w : Str} {start i : Nat} {r : CompoundingResult}
    (hr : C.classicFirst m w start i = some r) : Early p C (source r) := by
  rw [Checker.classicFirst] at hr
  cases hq : C.checkWordInCompound m (slice w start i) with
  | none => rw [hq] at hr; cases hr
  | some q =>
    rw [hq] at hr
    dsimp only at hr
    split at hr
    · cases hr
    split at hr
    · cases hr
    split at hr
    · cases hr
    cases hr
    exact early_part h hq

theorem classic {s s' : Search} (hs : ∀ w a b, s' w a b = rn p (s w a b)) (m : Mode) (w : Str)
    (start i n : Nat) (fc : Forceucase) :
    (pruneChecker p C).classic s' m w start i n fc = rn p (C.classic s m w start i n fc) := by
  rw [Checker.classic, Checker.classic, classicFirst h]
  cases hq : C.classicFirst m w start i with
  | none => rfl
  | some r =>
    have hr := early_first h hq
    dsimp only [Option.map_some]
    rw [wordCount h, classicSecond h _ _ _ _ _ hr]
    cases C.classicSecond w start i (n + C.wordCount r) fc r with
    | accept => rfl
    | reject => rfl
    | next => exact tryRecursive h hs _ _ _ _ _ hr

theorem patternFirst {c : CompoundPattern} (hc : c ∈ C.aff.compoundPatterns) (m : Mode) (w : Str) (start j : Nat) :
    (pruneChecker p C).patternFirst c m w start j
      = (C.patternFirst c m w start j).map (pruneResult p) := by
  have e1 : (pruneChecker p C).opts.compoundCheckTriple = C.opts.compoundCheckTriple := rfl
  rw [Checker.patternFirst, Checker.patternFirst, checkWordInCompound h]
  cases C.checkWordInCompound m (slice w start j) with
  | none => rfl
  | some q =>
    simp only [Option.map_some, r_flags, opts, forbidden h, fstFlag h hc, e1,
      apply_ite (Option.map (pruneResult p)), Option.map_none]
    rfl

theorem early_pattern {c : CompoundPattern} {m : Mode} {w : Str} {start i : Nat} {r : CompoundingResult}
    (hr : C.patternFirst c m w start i = some r) : Early p C (source r) := by
  rw [Checker.patternFirst] at hr
  cases hq : C.checkWordInCompound m (slice w start i) with
  | none => rw [hq] at hr; cases hr
  | some q =>
    rw [hq] at hr
    dsimp only at hr
    split at hr
    · cases hr
    split at hr
    · cases hr
    split at hr
    · cases hr
    cases hr
    exact early_part h hq

theorem patternSecond {c : CompoundPattern} (hc : c ∈ C.aff.compoundPatterns) (t w : Str) (start n : Nat) (fc : Forceucase)
    {r : CompoundingResult}
    (hr : Early p C (source r)) :
    (pruneChecker p C).patternSecond c t w start n fc (pruneResult p r)
      = C.patternSecond c t w start n fc r := by
  have e1 : (pruneChecker p C).opts.compoundCheckDuplicate = C.opts.compoundCheckDuplicate := rfl
  have e2 : (pruneChecker p C).opts.compoundCheckRep = C.opts.compoundCheckRep := rfl
  have e3 : (pruneChecker p C).opts.compoundMaxWordCount = C.opts.compoundMaxWordCount := rfl
  rw [Checker.patternSecond, Checker.patternSecond, checkWordInCompound h]
  cases hq : C.checkWordInCompound .atEnd t with
  | none => rfl
  | some q =>
    simp only [Option.map_some, r_flags, opts, forbidden h, r_eq hr (early_part h hq),
      isRepSimilar h, forceUppercase h, e1, e2, e3, sndFlag h hc]
    rfl

theorem patternRecursionOk {c : CompoundPattern} (hc : c ∈ C.aff.compoundPatterns) (t w : Str) (start j : Nat) (r : CompoundingResult) :
    (pruneChecker p C).patternRecursionOk c t w start j (pruneResult p r)
      = C.patternRecursionOk c t w start j r := by
  have e2 : (pruneChecker p C).opts.compoundCheckRep = C.opts.compoundCheckRep := rfl
  simp only [Checker.patternRecursionOk, pruneResult, sndFlag h hc, e2, isRepSimilar h]

theorem patternTripleRecursionOk {c : CompoundPattern} (hc : c ∈ C.aff.compoundPatterns) (t s w : Str) (start j : Nat)
    (r : CompoundingResult) :
    (pruneChecker p C).patternTripleRecursionOk c t s w start j (pruneResult p r)
      = C.patternTripleRecursionOk c t s w start j r := by
  have e2 : (pruneChecker p C).opts.compoundCheckRep = C.opts.compoundCheckRep := rfl
  simp only [Checker.patternTripleRecursionOk, pruneResult, sndFlag h hc, e2, isRepSimilar h]
  rfl

/-- The results for one pattern, renamed. -/
abbrev rn2 (p : Nat → Bool) :
    Run (Option (Option CompoundingResult)) → Run (Option (Option CompoundingResult)) :=
  Except.map (Option.map (Option.map (pruneResult p)))

theorem patternTriple {s s' : Search} (hs : ∀ w a b, s' w a b = rn p (s w a b)) {c : CompoundPattern} (hc : c ∈ C.aff.compoundPatterns)
    (t w : Str) (start j n : Nat) (fc : Forceucase) {r : CompoundingResult}
    (hr : Early p C (source r)) :
    (pruneChecker p C).patternTriple s' c t w start j n fc (pruneResult p r)
      = rn2 p (C.patternTriple s c t w start j n fc r) := by
  have e1 : (pruneChecker p C).opts.compoundSimplifiedTriple = C.opts.compoundSimplifiedTriple := rfl
  rw [Checker.patternTriple, Checker.patternTriple, e1]
  split
  · rfl
  cases tripled t j with
  | none => rfl
  | some tt =>
    dsimp only
    rw [patternSecond h hc _ _ _ _ _ hr]
    cases C.patternSecond c (tt.drop j) w start n fc r with
    | accept => rfl
    | reject => rfl
    | next =>
      dsimp only
      rw [hs]
      rcases s tt j (n + 1) with e | (_ | q)
      · rfl
      · rfl
      · show (if _ then _ else _) = rn2 p (if _ then _ else _)
        rw [patternTripleRecursionOk h hc]
        split <;> rfl

theorem patternBody {s s' : Search} (hs : ∀ w a b, s' w a b = rn p (s w a b)) (m : Mode)
    (w : Str) (start i n : Nat) (fc : Forceucase) {c : CompoundPattern} (hc : c ∈ C.aff.compoundPatterns) :
    (pruneChecker p C).patternBody s' m w start i n fc c
      = rn2 p (C.patternBody s m w start i n fc c) := by
  rw [Checker.patternBody, Checker.patternBody]
  cases c.replacement with
  | none => rfl
  | some t =>
    dsimp only
    split
    · rfl
    rw [patternFirst h hc]
    cases hq : C.patternFirst c m (w.take i ++ (c.first ++ c.second) ++ w.drop (i + t.length)) start
        (i + c.first.length) with
    | none => rfl
    | some r =>
      have hr := early_pattern h hq
      clear hq
      dsimp only [Option.map_some]
      rw [patternSecond h hc _ _ _ _ _ hr]
      generalize w.take i ++ (c.first ++ c.second) ++ w.drop (i + t.length) = scratch
      generalize i + c.first.length = j
      cases C.patternSecond c (scratch.drop j) w start n fc r with
      | accept => rfl
      | reject => rfl
      | next =>
        dsimp only
        rw [hs]
        rcases s scratch j (n + 1) with e | (_ | q)
        · rfl
        · exact patternTriple h hs hc _ _ _ _ _ _ hr
        · show (if _ then _ else _) = rn2 p (if _ then _ else _)
          rw [patternRecursionOk h hc, patternTriple h hs hc _ _ _ _ _ _ hr]
          split <;> rfl

omit h in
theorem or_map {β β' : Type} (g : β → β') (a b : Run (Option β)) :
    Run.or (Except.map (Option.map g) a) (Except.map (Option.map g) b)
      = Except.map (Option.map g) (Run.or a b) := by
  rcases a with e | (_ | q) <;> rfl

omit h in
theorem or_eq {β β' : Type} {g : β → β'} {a b : Run (Option β)} {a' b' : Run (Option β')}
    (ha : a' = Except.map (Option.map g) a) (hb : b' = Except.map (Option.map g) b) :
    Run.or a' b' = Except.map (Option.map g) (Run.or a b) := by
  rw [ha, hb, or_map]

omit h in
theorem first_map {α α' β β' : Type} {r : α → α'} {g : β → β'} {f : α → Run (Option β)}
    {f' : α' → Run (Option β')} (hf : ∀ a, f' (r a) = Except.map (Option.map g) (f a)) :
    ∀ l : List α, Run.first f' (l.map r) = Except.map (Option.map g) (Run.first f l)
  | [] => rfl
  | a :: l => by
    rw [List.map_cons, Run.first, Run.first, hf, first_map hf l, or_map]

omit h in
theorem first_mem {α β β' : Type} {g : β → β'} {f : α → Run (Option β)} {f' : α → Run (Option β')} :
    ∀ {l : List α}, (∀ a ∈ l, f' a = Except.map (Option.map g) (f a)) →
      Run.first f' l = Except.map (Option.map g) (Run.first f l)
  | [], _ => rfl
  | a :: l, hf => by
    rw [Run.first, Run.first, hf a (List.mem_cons_self ..),
      first_mem fun b hb => hf b (List.mem_cons_of_mem _ hb), or_map]

theorem withPatternReplacements {s s' : Search} (hs : ∀ w a b, s' w a b = rn p (s w a b)) (m : Mode)
    (w : Str) (start i n : Nat) (fc : Forceucase) :
    (pruneChecker p C).withPatternReplacements s' m w start i n fc
      = rn p (C.withPatternReplacements s m w start i n fc) := by
  have e : (pruneChecker p C).aff.compoundPatterns = C.aff.compoundPatterns := rfl
  have := first_mem (g := Option.map (pruneResult p)) fun c hc => patternBody h hs m w start i n fc hc
  rw [Checker.withPatternReplacements, Checker.withPatternReplacements, e, this]
  rcases Run.first (C.patternBody s m w start i n fc) C.aff.compoundPatterns with e | (_ | _ | q) <;> rfl

theorem compoundAt {s s' : Search} (hs : ∀ w a b, s' w a b = rn p (s w a b)) (m : Mode)
    (w : Str) (start n : Nat) (fc : Forceucase) (i : Nat) :
    (pruneChecker p C).compoundAt s' m w start n fc i = rn p (C.compoundAt s m w start n fc i) := by
  rw [Checker.compoundAt, classic h hs, withPatternReplacements h hs, or_map, Checker.compoundAt]

theorem checkCompoundImpl (fc : Forceucase) (fuel : Nat) :
    ∀ (m : Mode) (w : Str) (start n : Nat),
      (pruneChecker p C).checkCompoundImpl fc fuel m w start n
        = rn p (C.checkCompoundImpl fc fuel m w start n) := by
  induction fuel with
  | zero => intros; rfl
  | succ k ih =>
    intro m w start n
    have e : (pruneChecker p C).opts.minChars = C.opts.minChars := rfl
    have := first_map (r := id) (compoundAt h (ih .atMiddle) m w start n fc) (splitPoints w start C.opts.minChars)
    rw [List.map_id] at this
    rw [Checker.checkCompoundImpl, e, this, Checker.checkCompoundImpl]

theorem rulePart (e : Str × FlagSet) :
    (pruneChecker p C).rulePart (pruneEntry p e) = C.rulePart e := by
  have e1 : (pruneChecker p C).aff.compoundRules.hasAnyFlags (pruneFlags p e.2)
      = C.aff.compoundRules.hasAnyFlags e.2 := by
    refine pruneFlags_hasIntersection (fun f hf => ?_) _
    simp only [CompoundRuleTable.allFlags, FlagSet.mem_ofList, List.mem_flatMap, List.mem_map] at hf
    obtain ⟨r, hr, x, hx, rfl⟩ := hf
    exact h _ (.rule hr hx)
  simp only [Checker.rulePart, e_snd, e1, opts, needAffix h]

omit h in
theorem ruleFlagMatches (d : List FlagSet) (i : Nat) {f : Nat} (hf : p f = true) :
    Spellbook.ruleFlagMatches (d.map (pruneFlags p)) i f = Spellbook.ruleFlagMatches d i f := by
  unfold Spellbook.ruleFlagMatches
  rw [List.getElem?_map]
  cases d[i]? with
  | none => rfl
  | some s => exact pruneFlags_contains hf s

omit h in
theorem ruleLoop {r : CompoundRule} (hr : ∀ e ∈ r, p e.flag = true) (d : List FlagSet)
    (stack : List (Nat × Nat)) :
    Spellbook.ruleLoop r (d.map (pruneFlags p)) stack = Spellbook.ruleLoop r d stack := by
  fun_induction Spellbook.ruleLoop r d stack with
  | case1 => rw [Spellbook.ruleLoop]
  | case2 a b stack hx =>
    rw [Spellbook.ruleLoop]
    split
    · rw [List.length_map]
    · rename_i he; rw [hx] at he; cases he
  | case3 a b stack el hx ih =>
    rw [Spellbook.ruleLoop]
    split
    · rename_i he; rw [hx] at he; cases he
    · rename_i el' he
      rw [hx] at he
      cases he
      rw [← ih]
      rw [ruleFlagMatches d _ (hr el (List.mem_of_getElem? hx))]

theorem anyRuleMatches (d : List FlagSet) :
    (pruneChecker p C).aff.compoundRules.anyRuleMatches (d.map (pruneFlags p))
      = C.aff.compoundRules.anyRuleMatches d :=
  any_mem (fun _ hr => ruleLoop (fun _ he => h _ (.rule hr he)) d _)

theorem ruleDirect (w : Str) (d : List FlagSet) (i : Nat) (fc : Forceucase) :
    (pruneChecker p C).ruleDirect w (d.map (pruneFlags p)) i fc = C.ruleDirect w d i fc := by
  rw [Checker.ruleDirect, Checker.ruleDirect, entries, find_rename (rulePart h)]
  cases (C.entries (w.drop i)).find? C.rulePart with
  | none => rfl
  | some e =>
    have := anyRuleMatches h (d ++ [e.2])
    rw [List.map_append] at this
    simp only [Option.map_some, e_snd, opts, forceUppercase h]
    rw [← this]
    rfl

theorem ruleAt {s s' : Str → List FlagSet → Nat → Run (Option CompoundingResult)}
    (hs : ∀ w d b, s' w (d.map (pruneFlags p)) b = rn p (s w d b)) (w : Str) (d : List FlagSet)
    (start : Nat) (fc : Forceucase) (i : Nat) :
    (pruneChecker p C).ruleAt s' w (d.map (pruneFlags p)) start fc i
      = rn p (C.ruleAt s w d start fc i) := by
  rw [Checker.ruleAt, Checker.ruleAt, entries, find_rename (rulePart h)]
  cases (C.entries (slice w start i)).find? C.rulePart with
  | none => rfl
  | some e =>
    have e1 : d.map (pruneFlags p) ++ [pruneFlags p e.2] = (d ++ [e.2]).map (pruneFlags p) := by
      rw [List.map_append]; rfl
    simp only [Option.map_some, e_snd, e1, ruleDirect h, hs]
    cases C.ruleDirect w (d ++ [e.2]) i fc <;> rfl

theorem checkRulesImpl (fc : Forceucase) (fuel : Nat) :
    ∀ (w : Str) (d : List FlagSet) (start : Nat),
      (pruneChecker p C).checkRulesImpl fc fuel w (d.map (pruneFlags p)) start
        = rn p (C.checkRulesImpl fc fuel w d start) := by
  induction fuel with
  | zero => intros; rfl
  | succ k ih =>
    intro w d start
    have e : (pruneChecker p C).opts.minChars = C.opts.minChars := rfl
    have := first_map (r := id) (ruleAt h ih w d start fc) (splitPoints w start C.opts.minChars)
    rw [List.map_id] at this
    rw [Checker.checkRulesImpl, e, this, Checker.checkRulesImpl]

theorem checkCompound (fuel : Nat) (m : Mode) (w : Str) (fc : Forceucase) :
    (pruneChecker p C).checkCompound fuel m w fc = rn p (C.checkCompound fuel m w fc) := by
  have e1 : (pruneChecker p C).opts.allowsCompounding = C.opts.allowsCompounding := by
    rfl
  have e2 : (pruneChecker p C).aff.compoundRules.isEmpty = C.aff.compoundRules.isEmpty := by
    rfl
  have e3 := checkRulesImpl h fc (w.length + 1) w [] 0
  rw [Checker.checkCompound, Checker.checkCompound, e1, e2, checkCompoundImpl h, Checker.checkRules,
    Checker.checkRules]
  rw [List.map_nil] at e3
  rw [e3]
  refine or_eq ?_ ?_ <;> split <;> rfl

/-! ## Words -/

/-- The flags found, renamed. -/
abbrev rf (p : Nat → Bool) : Run (Option FlagSet) → Run (Option FlagSet) :=
  Except.map (Option.map (pruneFlags p))

theorem checkWord (fuel : Nat) (w : Str) (fc : Forceucase) (hh : HiddenHomonym) :
    (pruneChecker p C).checkWord fuel w fc hh = rf p (C.checkWord fuel w fc hh) := by
  rw [Checker.checkWord, Checker.checkWord, checkSimpleWord h, checkCompound h]
  cases C.checkSimpleWord w hh with
  | some s => rfl
  | none => rcases C.checkCompound fuel .atBegin w fc with e | (_ | q) <;> rfl

omit h in
theorem titlecase (w : Str) : (pruneChecker p C).titlecase w = C.titlecase w := rfl

omit h in
theorem lowercase (w : Str) : (pruneChecker p C).lowercase w = C.lowercase w := rfl

theorem dropKeepCase (r : Option FlagSet) :
    (pruneChecker p C).dropKeepCase (r.map (pruneFlags p))
      = (C.dropKeepCase r).map (pruneFlags p) := by
  cases r with
  | none => rfl
  | some s =>
    simp only [Checker.dropKeepCase, Option.map_some, Option.filter_some, opts, keepCase h]
    split <;> rfl

theorem titleKeepCase (l : Str) (r : Option FlagSet) :
    (pruneChecker p C).titleKeepCase l (r.map (pruneFlags p))
      = (C.titleKeepCase l r).map (pruneFlags p) := by
  have e : (pruneChecker p C).opts.checksharps = C.opts.checksharps := rfl
  cases r with
  | none => rfl
  | some s =>
    simp only [Checker.titleKeepCase, Option.map_some, Option.filter_some, opts, keepCase h, e]
    split <;> rfl

omit h in
theorem bind_rf {α : Type} (r : Run α) {f f' : α → Run (Option FlagSet)} (hf : ∀ a, f' a = rf p (f a)) :
    (r >>= f') = rf p (r >>= f) := by
  cases r with
  | error e => rfl
  | ok a => exact hf a

omit h in
theorem map_rf {f f' : Option FlagSet → Option FlagSet}
    (hf : ∀ r, f' (r.map (pruneFlags p)) = (f r).map (pruneFlags p)) (r : Run (Option FlagSet)) :
    (rf p r).map f' = rf p (r.map f) := by
  cases r with
  | error e => rfl
  | ok a => exact congrArg Except.ok (hf a)

theorem doSpellSharps (fuel : Nat) (n : Nat) : ∀ (before rest : Str) (depth r : Nat), 5 - depth = n →
    (pruneChecker p C).doSpellSharps fuel before rest depth r
      = rf p (C.doSpellSharps fuel before rest depth r) := by
  induction n using Nat.strongRecOn with
  | _ n ih =>
    intro before rest depth r hd
    rw [Checker.doSpellSharps, Checker.doSpellSharps]
    split
    · split
      · rw [ih (5 - (depth + 1)) (by omega) _ _ _ _ rfl, ih (5 - (depth + 1)) (by omega) _ _ _ _ rfl,
          or_map]
      · split
        · exact checkWord h _ _ _ _
        · rfl
    · split
      · exact checkWord h _ _ _ _
      · rfl

theorem spellSharps (fuel : Nat) (w : Str) :
    (pruneChecker p C).spellSharps fuel w = rf p (C.spellSharps fuel w) :=
  doSpellSharps h fuel _ _ _ _ _ rfl

theorem spellApostrophe (fuel : Nat) (w : Str) :
    (pruneChecker p C).spellApostrophe fuel w = rf p (C.spellApostrophe fuel w) := by
  rw [Checker.spellApostrophe, Checker.spellApostrophe]
  rcases splitOnce? ['\''] w with _ | ⟨a, b⟩
  · rfl
  dsimp only
  split
  · rfl
  refine bind_rf _ fun t => ?_
  exact or_eq (checkWord h _ _ _ _) (bind_rf _ fun u => checkWord h _ _ _ _)

theorem spellUpperSharps (fuel : Nat) (w : Str) :
    (pruneChecker p C).spellUpperSharps fuel w = rf p (C.spellUpperSharps fuel w) := by
  have e : (pruneChecker p C).opts.checksharps = C.opts.checksharps := rfl
  rw [Checker.spellUpperSharps, Checker.spellUpperSharps, e]
  split
  · exact or_eq (spellSharps h _ _) (bind_rf _ fun u => spellSharps h _ _)
  · rfl

theorem spellCasingUpper (fuel : Nat) (w : Str) :
    (pruneChecker p C).spellCasingUpper fuel w = rf p (C.spellCasingUpper fuel w) := by
  have e : ((pruneChecker p C).titlecase w >>= fun t =>
      ((pruneChecker p C).checkWord fuel t .allowBad .accept).map (pruneChecker p C).dropKeepCase)
      = rf p (C.titlecase w >>= fun t => (C.checkWord fuel t .allowBad .accept).map C.dropKeepCase) :=
    bind_rf _ fun t => by rw [checkWord h, map_rf (dropKeepCase h)]
  rw [Checker.spellCasingUpper, e, checkWord h, spellApostrophe h, spellUpperSharps h, lowercase,
    checkWord h, map_rf (dropKeepCase h), or_map, or_map, or_map, or_map, Checker.spellCasingUpper]

theorem spellCasingTitle (fuel : Nat) (w : Str) :
    (pruneChecker p C).spellCasingTitle fuel w = rf p (C.spellCasingTitle fuel w) := by
  rw [Checker.spellCasingTitle, checkWord h, lowercase, checkWord h, map_rf (titleKeepCase h _), or_map,
    Checker.spellCasingTitle]

theorem spellCasingAsIs (fuel : Nat) (w : Str) (pascal : Bool) :
    (pruneChecker p C).spellCasingAsIs fuel w pascal = rf p (C.spellCasingAsIs fuel w pascal) := by
  have e1 : (pruneChecker p C).checkLowerAsTitle = C.checkLowerAsTitle := rfl
  have e2 : (pruneChecker p C).checkLowerAsUpper = C.checkLowerAsUpper := rfl
  rw [Checker.spellCasingAsIs, Checker.spellCasingAsIs, e1, e2]
  refine or_eq (checkWord h _ _ _ _) (or_eq ?_ ?_)
  · split
    · exact bind_rf _ fun t => spellCasingTitle h _ _
    · rfl
  · split
    · exact spellCasingUpper h _ _
    · rfl

theorem spellCasing (fuel : Nat) (w : Str) :
    (pruneChecker p C).spellCasing fuel w = rf p (C.spellCasing fuel w) := by
  have e : (pruneChecker p C).U = C.U := rfl
  rw [Checker.spellCasing, Checker.spellCasing, e, spellCasingAsIs h, spellCasingAsIs h,
    spellCasingUpper h, spellCasingTitle h]
  cases classifyCasing C.U w <;> rfl

theorem goodFlags (s : FlagSet) :
    (pruneChecker p C).goodFlags (pruneFlags p s) = C.goodFlags s := by
  have e : (pruneChecker p C).opts.forbidWarn = C.opts.forbidWarn := rfl
  simp only [Checker.goodFlags, opts, forbidden h, warn h, e]

omit h in
theorem breakLoops (f : Str → Run Bool) (w : Str) :
    (pruneChecker p C).breakLoops f w = C.breakLoops f w := rfl

theorem doSpellBreak (fuel d : Nat) :
    (pruneChecker p C).doSpellBreak fuel d = C.doSpellBreak fuel d := by
  induction d with
  | zero =>
    funext w
    rw [Checker.doSpellBreak, Checker.doSpellBreak, spellCasing h]
    rcases C.spellCasing fuel w with e | (_ | s)
    · rfl
    · rfl
    · exact congrArg Except.ok (goodFlags h s)
  | succ d ih =>
    funext w
    rw [Checker.doSpellBreak, Checker.doSpellBreak, spellCasing h, ih]
    rcases C.spellCasing fuel w with e | (_ | s)
    · rfl
    · rfl
    · exact congrArg Except.ok (goodFlags h s)

theorem check (fuel : Nat) (w : Str) : (pruneChecker p C).check fuel w = C.check fuel w := by
  have e : (pruneChecker p C).spellBreak = C.spellBreak := by
    funext fuel w
    rw [Checker.spellBreak, doSpellBreak h, Checker.spellBreak]
  have e1 : (pruneChecker p C).aff.ignoreChars = C.aff.ignoreChars := rfl
  have e2 : (pruneChecker p C).aff.inputConversions = C.aff.inputConversions := rfl
  simp only [Checker.check, Checker.checkConverted, e, e1, e2]

end Pruned
end Spellbook
