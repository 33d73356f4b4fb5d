import Verif.Proof.Simple
/-!
# Properties of simple words: C05, C06, C32, C33, C48
-/

namespace Spellbook.Props
open Spec

/-! ## Sample dictionaries -/

/-- A word list for examples. -/
def mkWords (l : List (String × List Nat)) : Bag FlagSet :=
  ⟨l.map fun e => (e.1.toList, FlagSet.ofList e.2)⟩

/-- An affix for examples. -/
def affix (flag : Nat) (strip add : String) (flags : List Nat := [])
    (condition : Option Condition := none) : Affix :=
  { flag, crossproduct := true, strip := if strip = "" then none else some strip.toList,
    add := add.toList, condition, flags := FlagSet.ofList flags }

/-- A checker for examples. -/
def mkChecker (words : List (String × List Nat)) (aff : AffData) : Checker :=
  { U := .sample, L := .default, dict := { words := mkWords words, aff } }

/-- A test of `CondsParsed` that can be run. -/
def condsParsedB (D : Dict) : Bool :=
  [Kind.pfx, Kind.sfx].all fun k => (tableOf D k).all fun a =>
    match a.condition with
    | none => true
    | some c => match Condition.parse c.pattern with
      | .ok c' => c' == c
      | .error _ => false

theorem condsParsed_of {D : Dict} (h : condsParsedB D = true) : D.CondsParsed := by
  intro k a ha c hc
  simp only [condsParsedB, List.all_cons, List.all_nil, Bool.and_true, Bool.and_eq_true,
    List.all_eq_true] at h
  have h' := (match k with | .pfx => h.1 a | .sfx => h.2 a : a ∈ tableOf D k → _) ha
  rw [hc] at h'
  revert h'
  cases hp : Condition.parse c.pattern <;> simp [hp]

/-! ## Facts about derivations -/

theorem Derives.usable {q : Quirks} {D : Dict} {sk : Bool} {word stem : Str} {F : FlagSet}
    {steps : List (Kind × Affix)} (h : Derives q D sk word stem F steps) : Usable D sk stem F := by
  cases h <;> assumption

theorem Derives.madeBy {q : Quirks} {D : Dict} {sk : Bool} {word stem : Str} {F : FlagSet}
    {steps : List (Kind × Affix)} (h : Derives q D sk word stem F steps) :
    MadeBy D stem steps word := by
  cases h with
  | listed _ same _ => subst same; exact .nil
  | one _ s => exact .cons s.1 s.2 .nil
  | pair _ s1 s2 => exact .cons s1.1 s1.2 (.cons s2.1 s2.2 .nil)
  | two _ s1 s2 => exact .cons s1.1 s1.2 (.cons s2.1 s2.2 .nil)
  | twoThenOne _ s1 s2 s3 => exact .cons s1.1 s1.2 (.cons s2.1 s2.2 (.cons s3.1 s3.2 .nil))
  | sandwich _ s1 m a _ s3 => exact .cons s1.1 s1.2 (.cons m a (.cons s3.1 s3.2 .nil))

theorem MadeBy.mem {D : Dict} {stem word : Str} {steps : List (Kind × Affix)}
    (h : MadeBy D stem steps word) : ∀ x ∈ steps, x.2 ∈ tableOf D x.1 := by
  induction h with
  | nil => simp
  | cons hm _ _ ih =>
    intro x hx
    rcases List.mem_cons.1 hx with rfl | hx
    · exact hm
    · exact ih x hx

/-- Positions in a list of at most three elements. -/
private theorem split3 {α : Type} {l r : List α} {s a b c : α} (h : l ++ s :: r = [a, b, c]) :
    (l = [] ∧ s = a ∧ r = [b, c]) ∨ (l = [a] ∧ s = b ∧ r = [c]) ∨ (l = [a, b] ∧ s = c ∧ r = []) := by
  match l, h with
  | [], h => simp at h; simp [h]
  | [x], h => simp at h; simp [h]
  | [x, y], h => simp at h; simp [h]
  | x :: y :: z :: l, h => simp at h

private theorem split2 {α : Type} {l r : List α} {s a b : α} (h : l ++ s :: r = [a, b]) :
    (l = [] ∧ s = a ∧ r = [b]) ∨ (l = [a] ∧ s = b ∧ r = []) := by
  match l, h with
  | [], h => simp at h; simp [h]
  | [x], h => simp at h; simp [h]
  | x :: y :: l, h => simp at h

private theorem split1 {α : Type} {l r : List α} {s a : α} (h : l ++ s :: r = [a]) :
    l = [] ∧ s = a ∧ r = [] := by
  match l, h with
  | [], h => simp at h; simp [h]
  | x :: l, h => simp at h

theorem Derives.licensed {q : Quirks} {D : Dict} {sk : Bool} {word stem : Str} {F : FlagSet}
    {steps : List (Kind × Affix)} (h : Derives q D sk word stem F steps) :
    ∀ l s r, steps = l ++ s :: r →
      s.2.flag ∈ F.elems ∨ ∃ t ∈ l ++ r, s.2.flag ∈ t.2.flags.elems := by
  intro l s r hs
  cases h with
  | listed => simp at hs
  | one _ _ lic => obtain ⟨rfl, rfl, rfl⟩ := split1 hs.symm; exact Or.inl lic
  | pair _ _ _ _ _ _ lic =>
    rcases split2 hs.symm with ⟨rfl, rfl, rfl⟩ | ⟨rfl, rfl, rfl⟩ <;>
      rcases lic with ⟨_, h1, h2⟩ | ⟨_, h1, h2⟩ <;> simp [h1] <;> exact h2.symm
  | two _ _ _ _ _ _ lic =>
    rcases split2 hs.symm with ⟨rfl, rfl, rfl⟩ | ⟨rfl, rfl, rfl⟩ <;> simp [lic]
  | twoThenOne _ _ _ _ _ _ _ _ lic =>
    rcases split3 hs.symm with ⟨rfl, rfl, rfl⟩ | ⟨rfl, rfl, rfl⟩ | ⟨rfl, rfl, rfl⟩
    · exact Or.inl lic.1
    · exact Or.inr (by simp [lic.2.1])
    · rcases lic.2.2 with h | h
      · exact Or.inr (by simp [h])
      · exact Or.inl h
  | sandwich _ _ _ _ _ _ _ _ _ _ lic =>
    rcases split3 hs.symm with ⟨rfl, rfl, rfl⟩ | ⟨rfl, rfl, rfl⟩ | ⟨rfl, rfl, rfl⟩
    · exact Or.inl lic.1
    · rcases lic.2.1 with h | h
      · exact Or.inr (by simp [h])
      · exact Or.inl h
    · rcases lic.2.2 with h | h <;> exact Or.inr (by simp [h])

theorem Derives.first_by_stem {q : Quirks} {D : Dict} {sk : Bool} {word stem : Str} {F : FlagSet}
    {steps : List (Kind × Affix)} (h : Derives q D sk word stem F steps) :
    steps = [] ∨ ∃ s ∈ steps, s.2.flag ∈ F.elems := by
  cases h with
  | listed => exact Or.inl rfl
  | one _ _ lic => exact Or.inr (by simp [lic])
  | pair _ _ _ _ _ _ lic =>
    right
    rcases lic with ⟨_, h1, h2⟩ | ⟨_, h1, h2⟩ <;> simp [h1]
  | two _ _ _ _ _ _ lic => exact Or.inr (by simp [lic])
  | twoThenOne _ _ _ _ _ _ _ _ lic => exact Or.inr (by simp [lic.1])
  | sandwich _ _ _ _ _ _ _ _ _ _ lic => exact Or.inr (by simp [lic.1])

theorem Derives.counts {q : Quirks} {D : Dict} {sk : Bool} {word stem : Str} {F : FlagSet}
    {steps : List (Kind × Affix)} (h : Derives q D sk word stem F steps) :
    steps.length ≤ 3 ∧ ∀ k, (steps.map Prod.fst).count k ≤ 2 := by
  cases h with
  | listed => simp
  | @one k => exact ⟨by simp, fun k' => by cases k <;> cases k' <;> simp [List.count_cons]⟩
  | pair => exact ⟨by simp, fun k' => by cases k' <;> simp [List.count_cons]⟩
  | two =>
    exact ⟨by simp, fun k' => by cases k' <;> cases doubled D <;> simp [List.count_cons]⟩
  | twoThenOne =>
    exact ⟨by simp, fun k' => by cases k' <;> cases doubled D <;> simp [Kind.other, List.count_cons]⟩
  | sandwich =>
    exact ⟨by simp, fun k' => by cases k' <;> cases doubled D <;> simp [Kind.other, List.count_cons]⟩

/-! ## C05 No invented words -/

/-- Whenever the lookup of simple words answers with flags `F`, the word is the text of a listed
entry with exactly those flags to which at most two prefixes and two suffixes (at most three in all)
of the affix file were applied; each affix is licensed by a flag of the stem or by a continuation
flag of another affix used, at least one of them by the stem itself. -/
theorem C05_no_invented_words (C : Checker) (hC : C.dict.CondsParsed) (word : Str)
    (hh : HiddenHomonym) (F : FlagSet) (h : C.checkSimpleWord word hh = some F) :
    ∃ stem steps, (stem, F) ∈ C.dict.words.slots ∧ MadeBy C.dict stem steps word ∧
      steps.length ≤ 3 ∧ (∀ k, (steps.map Prod.fst).count k ≤ 2) ∧
      (∀ l s r, steps = l ++ s :: r →
        s.2.flag ∈ F.elems ∨ ∃ t ∈ l ++ r, s.2.flag ∈ t.2.flags.elems) ∧
      (steps = [] ∨ ∃ s ∈ steps, s.2.flag ∈ F.elems) ∧
      ¬ Has F C.opts.onlyInCompoundFlag ∧ (steps = [] → ¬ Has F C.opts.needAffixFlag) := by
  obtain ⟨stem, steps, hd⟩ := (Checker.checkSimpleWord_yields hC word hh).1 F h
  refine ⟨stem, steps, (Derives.usable hd).1, Derives.madeBy hd, (Derives.counts hd).1,
    (Derives.counts hd).2, Derives.licensed hd, Derives.first_by_stem hd, (Derives.usable hd).2, ?_⟩
  rintro rfl
  cases hd with
  | listed _ _ plain => exact plain

/-- The exact description: the lookup answers iff the word is derivable (with the two quirks of the
code, see C32 and C33), and its answer is the flags of an entry the word is derivable from. It does
not depend on the layout of the hash table whether there is an answer. -/
theorem C05_exact (C : Checker) (hC : C.dict.CondsParsed) (word : Str) (hh : HiddenHomonym) :
    (∀ F, C.checkSimpleWord word hh = some F →
      ∃ stem steps, Derives .code C.dict hh.skips word stem F steps) ∧
    (C.checkSimpleWord word hh = none ↔
      ¬ ∃ stem F steps, Derives .code C.dict hh.skips word stem F steps) := by
  have hy := Checker.checkSimpleWord_yields hC word hh
  refine ⟨hy.1, ?_⟩
  rw [hy.none_iff]
  constructor
  · rintro h ⟨stem, F, steps, hd⟩; exact h F ⟨stem, steps, hd⟩
  · rintro h F ⟨stem, steps, hd⟩; exact h ⟨stem, F, steps, hd⟩

/-- English-like: `work/A` with the suffix `-able` which takes the suffix `-s` and the prefix `un-`. -/
def sampleChecker : Checker :=
  mkChecker [("work", [1]), ("play", [2]), ("foo", [4])] {
    prefixes := AffixIndex.ofList .pfx [affix 2 "" "un" []],
    suffixes := AffixIndex.ofList .sfx [affix 1 "" "able" [3, 2], affix 3 "" "s", affix 5 "y" "ied"] }

theorem sampleChecker_parsed : sampleChecker.dict.CondsParsed :=
  condsParsed_of (by decide +kernel)

example : (sampleChecker.checkSimpleWord "unworkables".toList .accept).map FlagSet.elems = some [1] ∧
    sampleChecker.checkSimpleWord "unwork".toList .accept = none ∧
    (sampleChecker.checkSimpleWord "unplay".toList .accept).map FlagSet.elems = some [2] := by
  decide +kernel

/-! ## C06 Completeness of affix lookup -/

/-- The middle affix of an interleaved triple of a derivation. -/
def middle : List (Kind × Affix) → Option Affix
  | [(k, _), (k', m), _] => if k = k' then none else some m
  | _ => none

theorem Derives.to_code {D : Dict} {sk : Bool} {word stem : Str} {F : FlagSet}
    {steps : List (Kind × Affix)} (h : Derives .none D sk word stem F steps)
    (hl : steps.length ≤ 2 ∨
      (D.aff.options.complexPrefixes = false ∧ ∀ m, middle steps = some m → m.condition = none)) :
    Derives .code D sk word stem F steps := by
  cases h with
  | listed e s p => exact .listed e s p
  | one e s l f a n => exact .one e s l f a n
  | pair e s1 s2 c f ci l => exact .pair e s1 s2 c f ci l
  | two e s1 s2 f a n l => exact .two e s1 s2 f a n l
  | twoThenOne e s1 s2 s3 c f a ci l =>
    refine .twoThenOne e s1 s2 s3 c f a ci l fun _ => ?_
    simp only [List.length_cons, List.length_nil] at hl
    rcases hl with hl | ⟨hl, _⟩
    · omega
    · refine ⟨_, ?_, l.2.1⟩
      have := s1.mem
      simpa [doubled, hl] using this
  | @sandwich inner mid outer _ _ e s1 m a c s3 cr f al ci l =>
    refine .sandwich e s1 m a ?_ s3 cr f al ci l
    rcases hl with hl | ⟨_, hl⟩
    · simp at hl
    · intro c' hc'
      have : middle [(doubled D, inner), ((doubled D).other, mid), (doubled D, outer)]
          = some mid := by
        simp only [middle]
        rw [if_neg (by cases doubled D <;> simp [Kind.other])]
      rw [hl _ this] at hc'
      cases hc'

/-- Every word which the documented rules derive from an entry of the word list by at most two
affixes is found by the lookup, whatever the layout of the hash table and whatever else is in the
word list and the affix tables. So is every word derived by three affixes, except under
COMPLEXPREFIXES and except for a condition on the middle one of three interleaved affixes. -/
theorem C06_completeness (C : Checker) (hC : C.dict.CondsParsed) (word : Str) (hh : HiddenHomonym)
    {stem : Str} {F : FlagSet} {steps : List (Kind × Affix)}
    (h : Derives .none C.dict hh.skips word stem F steps)
    (hl : steps.length ≤ 2 ∨ (C.opts.complexPrefixes = false ∧
      ∀ m, middle steps = some m → m.condition = none)) :
    (C.checkSimpleWord word hh).isSome = true :=
  (Checker.checkSimpleWord_yields hC word hh).isSome_iff.2
    ⟨F, stem, steps, Derives.to_code h hl⟩

/-- The most common case spelled out: a stem with the flag of a suffix or prefix. -/
theorem C06_one_affix (C : Checker) (hC : C.dict.CondsParsed) (k : Kind) (a : Affix)
    (stem word : Str) (F : FlagSet)
    (listed : (stem, F) ∈ C.dict.words.slots) (mem : a ∈ tableOf C.dict k)
    (flag : a.flag ∈ F.elems) (applies : Applies k a stem word) (cond : CondHolds k a stem)
    (plain : ¬ Has F C.opts.onlyInCompoundFlag ∧ ¬ Has a.flags C.opts.onlyInCompoundFlag ∧
      ¬ Has a.flags C.opts.needAffixFlag ∧ ¬ Has a.flags C.opts.circumfixFlag) :
    (C.checkSimpleWord word .accept).isSome = true :=
  C06_completeness C hC word .accept
    (Derives.one (k := k) (a := a) ⟨listed, plain.1, by simp [HiddenHomonym.skips]⟩
      ⟨mem, applies, cond⟩ flag plain.2.1 plain.2.2.1 plain.2.2.2)
    (Or.inl (by simp))

/-- `unworkable` is derived from `work/A`. -/
example : Derives .none sampleChecker.dict false "unworkable".toList "work".toList
    (FlagSet.ofList [1]) [(.sfx, affix 1 "" "able" [3, 2]), (.pfx, affix 2 "" "un" [])] := by
  refine .pair (mid := "workable".toList) ⟨by decide +kernel, ?_, by simp⟩
    ⟨by decide +kernel, ⟨"work".toList, by decide, by decide⟩, ?_⟩
    ⟨by decide +kernel, ⟨"workable".toList, by decide, by decide⟩, ?_⟩ (by decide)
    ⟨?_, ?_⟩ ?_ (.inl ⟨?_, by decide +kernel, .inl (by decide +kernel)⟩)
  all_goals first
    | (intro c hc; simp [affix] at hc; done)
    | simp [Has, InFullWord, Circumfix, NeedsAffix, sampleChecker, mkChecker]

/-! ## C32 Fast lanes never change answers -/

/-- Without COMPLEXPREFIXES skipping affixes whose flag is no continuation flag never loses a word:
the lookup succeeds iff there is a derivation without any such requirement. (With COMPLEXPREFIXES
this fails, see below: two prefixes and then a suffix.) -/
theorem C32_fast_lanes_partial (C : Checker) (hC : C.dict.CondsParsed)
    (hx : C.opts.complexPrefixes = false) (word : Str) (hh : HiddenHomonym) :
    (C.checkSimpleWord word hh).isSome = true ↔
      ∃ stem F steps, Derives ⟨true, false⟩ C.dict hh.skips word stem F steps := by
  rw [(Checker.checkSimpleWord_yields hC word hh).isSome_iff]
  constructor
  · rintro ⟨F, stem, steps, h⟩
    refine ⟨stem, F, steps, ?_⟩
    cases h with
    | listed e s p => exact .listed e s p
    | one e s l f a n => exact .one e s l f a n
    | pair e s1 s2 c f ci l => exact .pair e s1 s2 c f ci l
    | two e s1 s2 f a n l => exact .two e s1 s2 f a n l
    | twoThenOne e s1 s2 s3 c f a ci l =>
      exact .twoThenOne e s1 s2 s3 c f a ci l (by simp)
    | sandwich e s1 m a c s3 cr f al ci l => exact .sandwich e s1 m a c s3 cr f al ci l
  · rintro ⟨stem, F, steps, h⟩
    refine ⟨F, stem, steps, ?_⟩
    cases h with
    | listed e s p => exact .listed e s p
    | one e s l f a n => exact .one e s l f a n
    | pair e s1 s2 c f ci l => exact .pair e s1 s2 c f ci l
    | two e s1 s2 f a n l => exact .two e s1 s2 f a n l
    | twoThenOne e s1 s2 s3 c f a ci l =>
      refine .twoThenOne e s1 s2 s3 c f a ci l fun _ => ⟨_, ?_, l.2.1⟩
      have hx : C.dict.aff.options.complexPrefixes = false := hx
      have := s1.mem
      simpa [doubled, hx] using this
    | sandwich e s1 m a c s3 cr f al ci l => exact .sandwich e s1 m a c s3 cr f al ci l

/-- Under COMPLEXPREFIXES all other shapes are complete too: a word is lost only if every derivation
of it uses two prefixes and then a suffix, and the flag of the outer prefix is no continuation flag
of any suffix. -/
theorem C32_complex_prefixes_partial (C : Checker) (hC : C.dict.CondsParsed) (word : Str)
    (hh : HiddenHomonym) {stem : Str} {F : FlagSet} {steps : List (Kind × Affix)}
    (h : Derives ⟨true, false⟩ C.dict hh.skips word stem F steps)
    (hs : ∀ a b c, steps = [(.pfx, a), (.pfx, b), (.sfx, c)] →
      ∃ s ∈ tableOf C.dict .sfx, b.flag ∈ s.flags.elems) :
    (C.checkSimpleWord word hh).isSome = true := by
  refine (Checker.checkSimpleWord_yields hC word hh).isSome_iff.2 ⟨F, stem, steps, ?_⟩
  cases h with
  | listed e s p => exact .listed e s p
  | one e s l f a n => exact .one e s l f a n
  | pair e s1 s2 c f ci l => exact .pair e s1 s2 c f ci l
  | two e s1 s2 f a n l => exact .two e s1 s2 f a n l
  | twoThenOne e s1 s2 s3 c f a ci l =>
    refine .twoThenOne e s1 s2 s3 c f a ci l fun _ => ?_
    cases hd : doubled C.dict with
    | pfx => exact hs _ _ _ (by rw [hd]; rfl)
    | sfx => exact ⟨_, by have := s1.mem; rwa [hd] at this, l.2.1⟩
  | sandwich e s1 m a c s3 cr f al ci l => exact .sandwich e s1 m a c s3 cr f al ci l

example : sampleChecker.opts.complexPrefixes = false ∧
    (sampleChecker.checkSimpleWord "unworkables".toList .accept).isSome = true := by
  decide +kernel

/-- COMPLEXPREFIXES; prefix `b` (flag 1, continues with flag 2), prefix `a` (flag 2, continues with
flag 3), suffix `c` (flag 3); stem `foo` with flag 1. -/
def laneChecker : Checker :=
  mkChecker [("foo", [1])] {
    prefixes := AffixIndex.ofList .pfx [affix 1 "" "b" [2], affix 2 "" "a" [3]],
    suffixes := AffixIndex.ofList .sfx [affix 3 "" "c"],
    options := { complexPrefixes := true } }

/-- The documented rules derive `abfooc`, but the code does not find it. -/
theorem C32_negation :
    Derives .none laneChecker.dict false "abfooc".toList "foo".toList (FlagSet.ofList [1])
      [(.pfx, affix 1 "" "b" [2]), (.pfx, affix 2 "" "a" [3]), (.sfx, affix 3 "" "c")] ∧
    laneChecker.checkSimpleWord "abfooc".toList .accept = none := by
  constructor
  · refine .twoThenOne (mid1 := "bfoo".toList) (mid2 := "abfoo".toList)
      ⟨by decide +kernel, ?_, by simp⟩
      ⟨by decide +kernel, ⟨"foo".toList, by decide, by decide⟩, ?_⟩
      ⟨by decide +kernel, ⟨"bfoo".toList, by decide, by decide⟩, ?_⟩
      ⟨by decide +kernel, ⟨"abfoo".toList, by decide, by decide⟩, ?_⟩ (by decide)
      ⟨?_, ?_, ?_⟩ ?_ ⟨?_, ?_⟩
      ⟨by decide +kernel, by decide +kernel, .inl (by decide +kernel)⟩ (by simp [Quirks.none])
    all_goals first
      | (intro c hc; simp [affix] at hc; done)
      | simp [Has, InFullWord, Circumfix, NeedsAffix, laneChecker, mkChecker]
  · decide +kernel

/-! ## C33 Conditions hold on the stem they are written for -/

/-- The word is made from the stem by the affixes, the condition of each holding on the text it is
applied to. -/
inductive MadeWell (D : Dict) : Str → List (Kind × Affix) → Str → Prop
  | nil {s} : MadeWell D s [] s
  | cons {k a s t w rest} : Step D k a s t → MadeWell D t rest w → MadeWell D s ((k, a) :: rest) w

/-- Whenever the lookup succeeds the word is made from a listed stem by affixes whose conditions hold
on the text they are applied to, except possibly that of the middle one of three interleaved
affixes, whose condition holds on the text with that affix applied. -/
theorem C33_conditions_partial (C : Checker) (hC : C.dict.CondsParsed) (word : Str)
    (hh : HiddenHomonym) (F : FlagSet) (h : C.checkSimpleWord word hh = some F) :
    ∃ stem steps, (stem, F) ∈ C.dict.words.slots ∧
      (MadeWell C.dict stem steps word ∨
       ∃ k inner mid outer t1 t2, steps = [(k, inner), (k.other, mid), (k, outer)] ∧
        Step C.dict k inner stem t1 ∧
        mid ∈ tableOf C.dict k.other ∧ Applies k.other mid t1 t2 ∧ CondHolds k.other mid t2 ∧
        Step C.dict k outer t2 word) := by
  obtain ⟨stem, steps, hd⟩ := (Checker.checkSimpleWord_yields hC word hh).1 F h
  refine ⟨stem, steps, (Derives.usable hd).1, ?_⟩
  cases hd with
  | listed _ same _ => subst same; exact .inl .nil
  | one _ s => exact .inl (.cons s .nil)
  | pair _ s1 s2 => exact .inl (.cons s1 (.cons s2 .nil))
  | two _ s1 s2 => exact .inl (.cons s1 (.cons s2 .nil))
  | twoThenOne _ s1 s2 s3 => exact .inl (.cons s1 (.cons s2 (.cons s3 .nil)))
  | sandwich _ s1 m a c s3 => exact .inr ⟨_, _, _, _, _, _, rfl, s1, m, a, by simpa [Quirks.code] using c, s3⟩

/-- In particular nothing is wrong as long as no affix of the kind that cannot be doubled has a
condition. -/
theorem C33_without_middle_conditions_partial (C : Checker) (hC : C.dict.CondsParsed) (word : Str)
    (hh : HiddenHomonym) (F : FlagSet) (h : C.checkSimpleWord word hh = some F)
    (hm : ∀ m ∈ tableOf C.dict (doubled C.dict).other, m.condition = none) :
    ∃ stem steps, (stem, F) ∈ C.dict.words.slots ∧ MadeWell C.dict stem steps word := by
  obtain ⟨stem, steps, hd⟩ := (Checker.checkSimpleWord_yields hC word hh).1 F h
  refine ⟨stem, steps, (Derives.usable hd).1, ?_⟩
  cases hd with
  | listed _ same _ => subst same; exact .nil
  | one _ s => exact .cons s .nil
  | pair _ s1 s2 => exact .cons s1 (.cons s2 .nil)
  | two _ s1 s2 => exact .cons s1 (.cons s2 .nil)
  | twoThenOne _ s1 s2 s3 => exact .cons s1 (.cons s2 (.cons s3 .nil))
  | sandwich _ s1 m a c s3 =>
    exact .cons s1 (.cons ⟨m, a, fun c hc => by rw [hm _ m] at hc; cases hc⟩ (.cons s3 .nil))

/-- Prefix `un` (flag 1) with the condition that the stem begin with `u`; suffixes `x` (flag 2,
continues with flag 3) and `y` (flag 3); stem `foo`. -/
def condChecker : Checker :=
  mkChecker [("foo", [1, 2])] {
    prefixes := AffixIndex.ofList .pfx
      [affix 1 "" "un" [] (some { pattern := ['u'], chars := 1, isLiteral := true })],
    suffixes := AffixIndex.ofList .sfx [affix 2 "" "x" [3], affix 3 "" "y"] }

theorem condChecker_parsed : condChecker.dict.CondsParsed := condsParsed_of (by decide +kernel)

/-- No text made by these affixes from `foo` with conditions respected starts with `un`. -/
theorem condChecker_texts {s : Str} {steps w} (h : MadeWell condChecker.dict s steps w)
    (hs : s.head? = some 'f') : w.head? = some 'f' := by
  induction h with
  | nil => exact hs
  | @cons k a s t w rest st _ ih =>
    apply ih
    obtain ⟨hm, ha, hc⟩ := st
    cases k with
    | pfx =>
      have hmem : ∀ a ∈ tableOf condChecker.dict .pfx,
          a.condition = some { pattern := ['u'], chars := 1, isLiteral := true } := by
        decide +kernel
      have h3 := (Checker.conditionMatches_iff condChecker_parsed hm).2 hc
      simp only [Affix.conditionMatches, Affix.prefixConditionMatches, hmem a hm] at h3
      cases s with
      | nil => simp at hs
      | cons c s =>
        simp at hs
        subst hs
        simp [startsWith] at h3
    | sfx =>
      have hmem : ∀ a ∈ tableOf condChecker.dict .sfx, a.strip = none := by decide +kernel
      obtain ⟨r, h3, h4⟩ := ha
      rw [hmem a hm] at h3
      simp at h3
      subst h3
      subst h4
      cases s <;> simp_all

/-- `unfooxy` is accepted although the condition of `un` fails on `foox`: the word cannot be made
from any listed stem with the conditions respected. -/
theorem C33_negation :
    (condChecker.checkSimpleWord "unfooxy".toList .accept).isSome = true ∧
    ∀ stem F steps, (stem, F) ∈ condChecker.dict.words.slots →
      ¬ MadeWell condChecker.dict stem steps "unfooxy".toList := by
  constructor
  · decide +kernel
  · intro stem F steps hm hw
    have : stem = "foo".toList := by
      have : ∀ e ∈ condChecker.dict.words.slots, e.1 = "foo".toList := by decide +kernel
      exact this _ hm
    subst this
    have := condChecker_texts hw (by simp)
    simp at this

/-! ## C48 Circumfixes come in pairs -/

/-- In every derivation by which a word is accepted, a circumfix prefix occurs iff a circumfix suffix
occurs. -/
theorem C48_circumfix (C : Checker) (hC : C.dict.CondsParsed) (word : Str) (hh : HiddenHomonym)
    (F : FlagSet) (h : C.checkSimpleWord word hh = some F) :
    ∃ stem steps, (stem, F) ∈ C.dict.words.slots ∧ MadeBy C.dict stem steps word ∧
      ((∃ p, (.pfx, p) ∈ steps ∧ Has p.flags C.opts.circumfixFlag) ↔
       (∃ s, (.sfx, s) ∈ steps ∧ Has s.flags C.opts.circumfixFlag)) := by
  obtain ⟨stem, steps, hd⟩ := (Checker.checkSimpleWord_yields hC word hh).1 F h
  refine ⟨stem, steps, (Derives.usable hd).1, Derives.madeBy hd, ?_⟩
  cases hd with
  | listed => simp
  | @one k a _ _ _ _ _ n =>
    have n : ¬ Has a.flags C.opts.circumfixFlag := n
    cases k <;> simp [n]
  | pair _ _ _ _ _ ci => simpa [Circumfix, or_comm] using ci.symm
  | two _ _ _ _ _ n =>
    obtain ⟨n1, n2⟩ := n
    simp only [Circumfix] at n1 n2
    cases doubled C.dict <;> simp [n1, n2]
  | twoThenOne _ _ _ _ _ _ _ ci =>
    obtain ⟨n1, n2⟩ := ci
    simp only [Circumfix] at n1 n2
    cases doubled C.dict <;> simp [Kind.other, n1, n2]
  | sandwich _ _ _ _ _ _ _ _ _ ci =>
    simp only [Circumfix] at ci
    rcases ci with ⟨n1, n2⟩ | ⟨n1, n2⟩ <;>
    cases doubled C.dict <;> simp [Kind.other, n1, n2]

/-- If no suffix is marked CIRCUMFIX then no prefix so marked takes part in any word. -/
theorem C48_half (C : Checker) (hC : C.dict.CondsParsed) (word : Str) (hh : HiddenHomonym)
    (F : FlagSet) (h : C.checkSimpleWord word hh = some F)
    (none : ∀ s ∈ tableOf C.dict .sfx, ¬ Has s.flags C.opts.circumfixFlag) :
    ∃ stem steps, (stem, F) ∈ C.dict.words.slots ∧ MadeBy C.dict stem steps word ∧
      ∀ p, (.pfx, p) ∈ steps → ¬ Has p.flags C.opts.circumfixFlag := by
  obtain ⟨stem, steps, h1, h2, h3⟩ := C48_circumfix C hC word hh F h
  refine ⟨stem, steps, h1, h2, fun p hp hc => ?_⟩
  obtain ⟨s, hs, hsc⟩ := h3.1 ⟨p, hp, hc⟩
  refine none s ?_ hsc
  exact MadeBy.mem h2 _ hs

/-- German participles: `ge-…-t`. -/
def circumfixChecker : Checker :=
  mkChecker [("spiel", [1, 2])] {
    prefixes := AffixIndex.ofList .pfx [affix 1 "" "ge" [9]],
    suffixes := AffixIndex.ofList .sfx [affix 2 "" "t" [9], affix 2 "" "en"],
    options := { circumfixFlag := some 9 } }

example : condsParsedB circumfixChecker.dict = true ∧
    ["gespielt", "spielen", "gespielen", "gespiel", "spielt"].map
      (fun w => (circumfixChecker.checkSimpleWord w.toList .accept).isSome)
      = [true, true, false, false, false] := by
  decide +kernel

end Spellbook.Props
