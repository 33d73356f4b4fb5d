import Verif.Proof.Work
import Verif.Props.Depth
import Verif.Props.Suggest
/-!
# C82 The work of `check`
-/

namespace Spellbook.Props
open Spec Run Work

/-! ## C82 A bound on the work -/

/-- What is counted are the searches of `check`: the counting program gives the same answers. -/
theorem C82_same (C : Checker) (fuel : Nat) (word : Str) : (Work.check C fuel word).result = C.check fuel word :=
  Work.check_result C fuel word

/-- **C82**: with a well-behaved dictionary (that of C26) the default checker starts at most
`144 (b + 1) ^ 9 ((c + 1) ^ n + 2 ^ n)` searches for compounds, where `b` counts the lines of BREAK, `c` the ways to go on
behind a part, and `n` the characters of the letter-case variants of the word, behind ICONV. The first power is missing
without compound flags, the second without COMPOUNDRULE. -/
theorem C82_bound {C : Checker} {k : Nat} (hD : C.dict.Shrinking) (hU : CaseGrowth C.U k)
    (h1 : C.checkLowerAsTitle = false) (h2 : C.checkLowerAsUpper = false) (word : Str) :
    WorkAtMost C word (144 * (breakCount C.dict + 1) ^ 9 *
      searchesFor C.dict (k * (C.dict.aff.inputConversions.convert word).length)) := fun fuel =>
  check_calls (sized_length hU) (fun _ _ _ h => (checkWord_calls hD ..).trans (searchesFor_mono _ h)) word
    (Nat.le_refl _) (by simp [h1, h2])

/-- **C82** (all checkers): where words in lower case are also tried in title case or in capitals, the letter case is
changed twice. -/
theorem C82_bound_all {C : Checker} {k : Nat} (hD : C.dict.Shrinking) (hU : CaseGrowth C.U k) (word : Str) :
    WorkAtMost C word (144 * (breakCount C.dict + 1) ^ 9 *
      searchesFor C.dict (k * (k * (C.dict.aff.inputConversions.convert word).length))) := fun fuel =>
  check_calls (sized_length hU) (fun _ _ _ h => (checkWord_calls hD ..).trans (searchesFor_mono _ h)) word
    (Nat.le_mul_of_pos_left _ hU.pos) fun _ => Nat.le_refl _

/-- **C82** (no compounds): with a dictionary without compound flags and COMPOUNDRULE no search is ever started. -/
theorem C82_no_compounds {C : Checker} (h1 : C.dict.aff.options.allowsCompounding = false)
    (h2 : C.dict.aff.compoundRules.rules = []) (word : Str) : WorkAtMost C word 0 := fun fuel => by
  have hW : ∀ w fc hh, (fun _ => 0 : Str → Nat) w ≤ 0 → (Work.checkWord C fuel w fc hh).calls ≤ 0 := by
    intro w fc hh _
    unfold Work.checkWord
    split
    · exact Nat.le_refl 0
    · unfold Work.checkCompound
      have e1 : C.opts.allowsCompounding = false := h1
      have e2 : C.aff.compoundRules.isEmpty = true := by
        show C.dict.aff.compoundRules.rules.isEmpty = true
        rw [h2]; rfl
      rw [e1, e2]
      exact Nat.le_refl 0
  exact check_calls (sized_zero C) hW word (Nat.le_refl _) fun _ => Nat.le_refl _

/-! ## The work is exponential -/

theorem first_none {α β : Type} {f : α → Counted (Option β)} : ∀ {l : List α}, (∀ a ∈ l, (f a).result = .ok none) →
    (Counted.first f l).result = .ok none ∧ (Counted.first f l).calls = (l.map fun a => (f a).calls).sum
  | [], _ => ⟨rfl, rfl⟩
  | a :: l, h => by
    obtain ⟨h1, h2⟩ := first_none fun b hb => h b (List.mem_cons_of_mem a hb)
    have ha := h a (by simp)
    unfold Counted.first Counted.or
    rw [ha]
    exact ⟨h1, by simp only [h2, List.map_cons, List.sum_cons]⟩

theorem le_sum_one {α : Type} {g : α → Nat} {x : α} : ∀ {l : List α}, x ∈ l → g x ≤ (l.map g).sum
  | a :: l, h => by
    rw [List.map_cons, List.sum_cons]
    rcases List.mem_cons.1 h with rfl | h
    · omega
    · have := le_sum_one (g := g) h
      omega

theorem le_sum_two {α : Type} {g : α → Nat} {x y : α} (hne : x ≠ y) : ∀ {l : List α}, x ∈ l → y ∈ l →
    g x + g y ≤ (l.map g).sum
  | a :: l, hx, hy => by
    rw [List.map_cons, List.sum_cons]
    rcases List.mem_cons.1 hx with rfl | hx' <;> rcases List.mem_cons.1 hy with rfl | hy'
    · exact absurd rfl hne
    · have := le_sum_one (g := g) hy'
      omega
    · have := le_sum_one (g := g) hx'
      omega
    · have := le_sum_two (g := g) hne hx' hy'
      omega

theorem le_bind {α β : Type} (c : Counted α) (f : α → Counted β) : c.calls ≤ (c >>= f).calls := by
  show _ ≤ (Counted.bind c f).calls
  unfold Counted.bind
  split
  · exact Nat.le_add_right _ _
  · exact Nat.le_refl _

theorem le_or {β : Type} (a b : Counted (Option β)) : a.calls ≤ (a.or b).calls := by
  unfold Counted.or
  split
  · exact Nat.le_add_right _ _
  · exact Nat.le_refl _

/-- `n` times the letter a, and b. -/
def manyA (n : Nat) : Str := List.replicate n 'a' ++ ['b']

theorem manyA_length (n : Nat) : (manyA n).length = n + 1 := by simp [manyA]

theorem manyA_slice {n s i : Nat} (h : i ≤ n) : slice (manyA n) s i = List.replicate (i - s) 'a' := by
  unfold slice manyA
  rw [List.take_append_of_le_length (by simpa using h), List.take_replicate, List.drop_replicate, Nat.min_eq_left h]

theorem manyA_drop {n i : Nat} (h : i ≤ n) : 'b' ∈ (manyA n).drop i := by
  unfold manyA
  rw [List.drop_append_of_le_length (by simpa using h)]
  simp

/-- The entries are `aaa` and `aaaa`, both with these flags, and there are no affixes. -/
structure TwoWords (C : Checker) (F : FlagSet) : Prop where
  slots : C.dict.words.slots = [("aaa".toList, F), ("aaaa".toList, F)]
  affixes : ∀ k, tableOf C.dict k = []
  min : C.dict.aff.options.minChars = 3
  fresh : C.dict.aff.options.needAffixFlag = none
  good : C.dict.aff.options.forbiddenWordFlag ∉ F.elems
  visible : 65535 ∉ F.elems

/-- A text with a b is no entry. -/
theorem TwoWords.noEntry {C : Checker} {F : FlagSet} (h : TwoWords C F) {t : Str} (hb : 'b' ∈ t) {G : FlagSet} :
    (t, G) ∉ C.dict.words.slots := by
  rw [h.slots]
  simp only [List.mem_cons, Prod.mk.injEq, List.not_mem_nil, or_false]
  rintro (⟨rfl, -⟩ | ⟨rfl, -⟩) <;> exact absurd hb (by decide)

theorem TwoWords.entry {C : Checker} {F : FlagSet} (h : TwoWords C F) {j : Nat} (hj : j = 3 ∨ j = 4) :
    (List.replicate j 'a', F) ∈ C.dict.words.slots := by
  rw [h.slots]
  rcases hj with rfl | rfl <;> simp [List.replicate]

/-- Compounds made of these two words by COMPOUNDFLAG. -/
structure Flagged (C : Checker) (F : FlagSet) : Prop extends TwoWords C F where
  conds : C.dict.CondsParsed
  compound : Has F C.dict.aff.options.compoundFlag
  patterns : C.dict.aff.compoundPatterns = []
  triple : C.dict.aff.options.compoundSimplifiedTriple = false
  checkTriple : C.dict.aff.options.compoundCheckTriple = false
  checkCase : C.dict.aff.options.compoundCheckCase = false

theorem Flagged.noPart {C : Checker} {F : FlagSet} (h : Flagged C F) {m : Mode} (hm : m ≠ .full) {t : Str} (hb : 'b' ∈ t) :
    C.checkWordInCompound m t = none := by
  cases hr : C.checkWordInCompound m t with
  | none => rfl
  | some r =>
    obtain ⟨⟨text, stem, G, affixes⟩, rfl, hp, -⟩ := Checker.checkWordInCompound_some h.conds hm hr
    cases hp with
    | listed entry _ same => rw [← same] at entry; exact absurd entry (h.noEntry hb)
    | one _ _ step => have := step.mem; rw [h.affixes] at this; cases this
    | pair _ _ step => have := step.mem; rw [h.affixes] at this; cases this

theorem Flagged.first {C : Checker} {F : FlagSet} (h : Flagged C F) {m : Mode} (hm : m ≠ .full) {n s i : Nat}
    (hi : i ≤ n) (hj : i - s = 3 ∨ i - s = 4) : ∃ r, C.classicFirst m (manyA n) s i = some r := by
  have hy := Checker.checkWordInCompound_yields h.conds hm (List.replicate (i - s) 'a')
  obtain ⟨r, hr⟩ := Option.isSome_iff_exists.1 (hy.2 ⟨_, ⟨_, _, F, []⟩, rfl,
    .listed (h.entry hj) h.visible rfl (by rw [h.fresh]; simp [Has]) (.inl h.compound), rfl⟩)
  obtain ⟨⟨text, stem, G, affixes⟩, h1, hp, rfl⟩ := hy.1 r hr
  have hF : G = F := by
    have : ∃ t, (t, G) ∈ C.dict.words.slots := by cases hp <;> exact ⟨_, ‹_›⟩
    obtain ⟨t, ht⟩ := this
    rw [h.slots] at ht
    simp only [List.mem_cons, Prod.mk.injEq, List.not_mem_nil, or_false] at ht
    exact ht.elim (·.2) (·.2)
  subst hF
  generalize hp' : (⟨text, stem, G, affixes⟩ : Piece) = p at *
  refine ⟨C.resultOf m p, ?_⟩
  unfold Checker.classicFirst
  rw [manyA_slice hi, hr]
  have e1 : (C.resultOf m p).flags.contains C.opts.forbiddenWordFlag = false := by
    rw [← Bool.not_eq_true, FlagSet.contains_iff]
    rw [Checker.resultOf_flags, ← hp']
    exact h.good
  have e2 : C.opts.compoundCheckTriple = false := h.checkTriple
  have e3 : C.opts.compoundCheckCase = false := h.checkCase
  simp [e1, e2, e3]

theorem Flagged.search {C : Checker} {F : FlagSet} (h : Flagged C F) (fc : Forceucase) (n : Nat) : ∀ (fuel : Nat)
    (m : Mode) (s parts : Nat), m ≠ .full → n + 1 - s < fuel →
    (checkCompoundImpl C fc fuel m (manyA n) s parts).result = .ok none ∧
    ∀ q, 4 * q + 2 + s ≤ n → 2 ^ q ≤ (checkCompoundImpl C fc fuel m (manyA n) s parts).calls
  | 0, _, _, _, _, hf => absurd hf (by omega)
  | fuel + 1, m, s, parts, hm, hf => by
    have hmin : C.opts.minChars = 3 := h.min
    have ht : C.opts.compoundSimplifiedTriple = false := h.triple
    have hat : ∀ i ∈ splitPoints (manyA n) s C.opts.minChars,
        (compoundAt C (checkCompoundImpl C fc fuel .atMiddle) m (manyA n) s parts fc i).result = .ok none := by
      intro i hi
      obtain ⟨h1, h2⟩ := mem_splitPoints.1 hi
      rw [manyA_length] at h2
      unfold compoundAt withPatternReplacements
      rw [show C.aff.compoundPatterns = [] from h.patterns, Counted.or_result]
      have : (classic C (checkCompoundImpl C fc fuel .atMiddle) m (manyA n) s i parts fc).result = .ok none := by
        unfold classic
        cases C.classicFirst m (manyA n) s i with
        | none => rfl
        | some part1 =>
          dsimp only
          unfold Checker.classicSecond
          rw [h.noPart (by simp) (manyA_drop (by omega))]
          dsimp only
          unfold tryRecursive simplifiedTriple
          rw [Counted.bind_result, (h.search fc n fuel .atMiddle i _ (by simp) (by omega)).1, ht]
          rfl
      rw [this]
      rfl
    unfold checkCompoundImpl
    obtain ⟨h1, h2⟩ := first_none hat
    refine ⟨h1, fun q hq => ?_⟩
    rw [Counted.call_calls, h2]
    cases q with
    | zero => omega
    | succ q =>
      have hcalls : ∀ i, i - s = 3 ∨ i - s = 4 → i ≤ s + 4 → s ≤ i → 2 ^ q ≤
          (compoundAt C (checkCompoundImpl C fc fuel .atMiddle) m (manyA n) s parts fc i).calls := by
        intro i hj hi his
        refine Nat.le_trans ?_ (le_or _ _)
        unfold classic
        obtain ⟨part1, hp⟩ := h.first hm (show i ≤ n by omega) hj
        rw [hp]
        dsimp only
        unfold Checker.classicSecond
        rw [h.noPart (by simp) (manyA_drop (by omega))]
        dsimp only
        exact ((h.search fc n fuel .atMiddle i _ (by simp) (by omega)).2 q (by omega)).trans (le_bind _ _)
      have := hcalls (s + 3) (by omega) (by omega) (by omega)
      have := hcalls (s + 4) (by omega) (by omega) (by omega)
      have := le_sum_two (g := fun i =>
        (compoundAt C (checkCompoundImpl C fc fuel .atMiddle) m (manyA n) s parts fc i).calls)
        (show s + 3 ≠ s + 4 by omega) (l := splitPoints (manyA n) s C.opts.minChars)
        (by rw [mem_splitPoints, manyA_length]; omega) (by rw [mem_splitPoints, manyA_length]; omega)
      rw [Nat.pow_succ]
      omega

/-- Compounds made of these two words by COMPOUNDRULE. -/
structure Ruled (C : Checker) (F : FlagSet) : Prop extends TwoWords C F where
  conds : C.dict.CondsParsed
  flags : C.dict.aff.options.allowsCompounding = false
  rules : C.dict.aff.compoundRules.isEmpty = false
  mentioned : C.dict.aff.compoundRules.hasAnyFlags F = true

theorem Ruled.search {C : Checker} {F : FlagSet} (h : Ruled C F) (fc : Forceucase) (n : Nat) : ∀ (fuel : Nat)
    (data : List FlagSet) (s : Nat), n + 1 - s < fuel →
    (checkRulesImpl C fc fuel (manyA n) data s).result = .ok none ∧
    ∀ q, 4 * q + 2 + s ≤ n → 2 ^ q ≤ (checkRulesImpl C fc fuel (manyA n) data s).calls
  | 0, _, _, hf => absurd hf (by omega)
  | fuel + 1, data, s, hf => by
    have hmin : C.opts.minChars = 3 := h.min
    have direct : ∀ i data, i ≤ n → C.ruleDirect (manyA n) data i fc = false := by
      intro i data hi
      unfold Checker.ruleDirect
      cases he : (C.entries ((manyA n).drop i)).find? C.rulePart with
      | none => rfl
      | some e =>
        have hm := List.mem_of_find?_eq_some he
        rw [Checker.mem_entries] at hm
        exact absurd hm.1 (by rw [← Prod.eta e, hm.2]; exact h.noEntry (manyA_drop hi))
    have hat : ∀ i ∈ splitPoints (manyA n) s C.opts.minChars,
        (ruleAt C (checkRulesImpl C fc fuel) (manyA n) data s fc i).result = .ok none := by
      intro i hi
      obtain ⟨h1, h2⟩ := mem_splitPoints.1 hi
      rw [manyA_length] at h2
      unfold ruleAt
      split
      · rfl
      · dsimp only
        rw [direct i _ (by omega)]
        exact (h.search fc n fuel _ i (by omega)).1
    unfold checkRulesImpl
    obtain ⟨h1, h2⟩ := first_none hat
    refine ⟨h1, fun q hq => ?_⟩
    rw [Counted.call_calls, h2]
    cases q with
    | zero => omega
    | succ q =>
      have hcalls : ∀ i, i - s = 3 ∨ i - s = 4 → i ≤ s + 4 → s ≤ i → 2 ^ q ≤
          (ruleAt C (checkRulesImpl C fc fuel) (manyA n) data s fc i).calls := by
        intro i hj hi his
        unfold ruleAt
        rw [manyA_slice (by omega)]
        have hs : ((C.entries (List.replicate (i - s) 'a')).find? C.rulePart).isSome = true := by
          rw [List.find?_isSome]
          refine ⟨(List.replicate (i - s) 'a', F), Checker.mem_entries.2 ⟨h.entry hj, rfl⟩, ?_⟩
          unfold Checker.rulePart
          rw [show C.opts.needAffixFlag = none from h.fresh,
            show C.aff.compoundRules.hasAnyFlags F = true from h.mentioned]
          rfl
        obtain ⟨e, he⟩ := Option.isSome_iff_exists.1 hs
        rw [he]
        dsimp only
        rw [direct i _ (by omega)]
        exact (h.search fc n fuel _ i (by omega)).2 q (by omega)
      have := hcalls (s + 3) (by omega) (by omega) (by omega)
      have := hcalls (s + 4) (by omega) (by omega) (by omega)
      have := le_sum_two (g := fun i => (ruleAt C (checkRulesImpl C fc fuel) (manyA n) data s fc i).calls)
        (show s + 3 ≠ s + 4 by omega) (l := splitPoints (manyA n) s C.opts.minChars)
        (by rw [mem_splitPoints, manyA_length]; omega) (by rw [mem_splitPoints, manyA_length]; omega)
      rw [Nat.pow_succ]
      omega

theorem TwoWords.notSimple {C : Checker} {F : FlagSet} (h : TwoWords C F) (hC : C.dict.CondsParsed) (n : Nat)
    (hh : HiddenHomonym) : C.checkSimpleWord (manyA n) hh = none := by
  have no : ∀ {k a x y}, ¬ Step C.dict k a x y := by
    intro k a x y hs
    have := hs.mem
    rw [h.affixes] at this
    cases this
  cases hr : C.checkSimpleWord (manyA n) hh with
  | none => rfl
  | some G =>
    obtain ⟨stem, steps, hd⟩ := (Checker.checkSimpleWord_yields hC (manyA n) hh).1 G hr
    cases hd with
    | listed entry same =>
      have := entry.listed
      rw [← same] at this
      exact absurd this (h.noEntry (by simp [manyA]))
    | one _ step => exact absurd step no
    | pair _ step => exact absurd step no
    | two _ step => exact absurd step no
    | twoThenOne _ step => exact absurd step no
    | sandwich _ step => exact absurd step no

/-- The work for these words is at least that of one search. -/
theorem work_least {C : Checker} (hU : C.U = .sample) (hi : C.dict.aff.inputConversions = .empty)
    (hg : C.dict.aff.ignoreChars = []) {n : Nat} (hn : n < 360) (fuel : Nat) :
    (Work.checkWord C fuel (manyA n) .forbidBad .accept).calls ≤ (Work.check C fuel (manyA n)).calls := by
  have hb : byteLen (manyA n) = n + 1 := by
    unfold byteLen utf8 manyA
    rw [List.flatMap_append, List.length_append]
    have : ∀ m, ((List.replicate m 'a').flatMap String.utf8EncodeChar).length = m := by
      intro m
      induction m with
      | zero => rfl
      | succ m ih =>
        rw [List.replicate_succ, List.flatMap_cons, List.length_append, ih]
        show 1 + m = m + 1
        omega
    rw [this]
    rfl
  have hne : (manyA n).isEmpty = false := by
    cases n <;> rfl
  have htrim : trimEndMatches '.' (manyA n) = manyA n := by
    simp [trimEndMatches, manyA]
  have hnum : isNumber (manyA n) = false := by
    rw [← Bool.not_eq_true, isNumber_iff]
    rintro ⟨sign, g, gs, h1, h2, h3, h4⟩
    have hmem : 'b' ∈ sign ++ g ++ gs.flatMap fun p => p.1 :: p.2 := by rw [← h4]; simp [manyA]
    simp only [List.mem_append, List.mem_flatMap, List.mem_cons] at hmem
    rcases hmem with (h | h) | ⟨p, hp, h | h⟩
    · rcases h1 with rfl | rfl <;> simp at h
    · exact absurd (h2.2 _ h) (by decide)
    · rcases (h3 p hp).1 with h' | h' | h' <;> rw [h'] at h <;> cases h
    · exact absurd ((h3 p hp).2.2 _ h) (by decide)
  have hcase : classifyCasing C.U (manyA n) = .none := by
    rw [classifyCasing_iff, hU]
    intro c hc
    simp only [manyA, List.mem_append, List.mem_replicate, List.mem_singleton] at hc
    rcases hc with ⟨-, rfl⟩ | rfl <;> decide
  unfold Work.check
  rw [hb, if_neg (by unfold maxWordLen; omega), show C.aff.inputConversions = .empty from hi,
    ConversionTable.empty_convert]
  unfold Work.checkConverted
  rw [hne, if_neg (by simp), htrim]
  dsimp only
  rw [hnum, if_neg (by simp)]
  refine Nat.le_trans ?_ (le_bind _ _)
  unfold eraseChars
  rw [show C.aff.ignoreChars = [] from hg]
  unfold Work.spellBreak Work.doSpellBreak
  refine Nat.le_trans ?_ (le_bind _ _)
  simp only [List.isEmpty_nil, if_true]
  unfold Work.spellCasing
  rw [hcase]
  exact le_or _ _

/-- A test for `TwoWords`. -/
def twoWords (C : Checker) (F : FlagSet) : Bool :=
  decide (C.dict.words.slots = [("aaa".toList, F), ("aaaa".toList, F)]) &&
  decide (C.dict.aff.prefixes.table = []) && decide (C.dict.aff.suffixes.table = []) &&
  decide (C.dict.aff.options.minChars = 3) && decide (C.dict.aff.options.needAffixFlag = none) &&
  decide (C.dict.aff.options.forbiddenWordFlag ∉ F.elems) && decide (65535 ∉ F.elems)

theorem twoWords_of {C : Checker} {F : FlagSet} (h : twoWords C F = true) : TwoWords C F := by
  simp only [twoWords, Bool.and_eq_true, decide_eq_true_eq] at h
  obtain ⟨⟨⟨⟨⟨⟨h1, h2⟩, h3⟩, h4⟩, h5⟩, h6⟩, h7⟩ := h
  refine ⟨h1, fun k => ?_, h4, h5, h6, h7⟩
  cases k
  · exact h2
  · exact h3

/-- **C82** (no less): with a loaded dictionary of two compound parts, `aaa` and `aaaa`, the work doubles with every four
characters: a word of 359 bytes starts more than 2 ^ 89 searches. -/
theorem C82_exponential : ∃ C : Checker, Reachable .sample C.dict ∧ C.dict.Shrinking ∧
    C.dict.aff.compoundRules.rules = [] ∧ ∀ q ≤ 89, WorkAtLeast C (manyA (4 * q + 2)) (2 ^ q) := by
  obtain ⟨C, h1, h2⟩ := of_load (aff := "COMPOUNDFLAG C\n") (dic := "2\naaa/C\naaaa/C\n") (L := .default)
    (p := fun C => twoWords C (FlagSet.ofList [67]) && decide (C.dict.aff.options.compoundFlag = some 67) &&
      decide (C.dict.aff.compoundPatterns = []) && !C.dict.aff.options.compoundSimplifiedTriple &&
      !C.dict.aff.options.compoundCheckTriple && !C.dict.aff.options.compoundCheckCase &&
      decide (C.dict.aff.inputConversions = .empty) && decide (C.dict.aff.ignoreChars = []) &&
      C.dict.aff.options.allowsCompounding && decide (C.dict.aff.compoundRules.rules = []))
    (by decide +kernel)
  simp only [Bool.and_eq_true, decide_eq_true_eq, Bool.not_eq_true'] at h2
  obtain ⟨⟨⟨⟨⟨⟨⟨⟨⟨c1, c2⟩, c3⟩, c4⟩, c5⟩, c6⟩, c7⟩, c8⟩, c9⟩, c10⟩ := h2
  obtain ⟨hr, t1, t2, hU⟩ := loadChecker_reachable h1
  have two := twoWords_of c1
  have hC := (wellMade_reachable hr).condsParsed
  have hF : Flagged C (FlagSet.ofList [67]) := { two with
    conds := hC, compound := ⟨67, c2, by decide⟩, patterns := c3, triple := c4, checkTriple := c5, checkCase := c6 }
  have hS : C.dict.Shrinking := ⟨by rw [two.min]; decide, by rw [c4]; simp, by rw [c3]; simp⟩
  refine ⟨C, hr, hS, c10, fun q hq => ?_⟩
  refine ⟨2 * (C.dict.aff.inputConversions.convert (manyA (4 * q + 2))).length + (4 * q + 5), fun fuel hf => ⟨?_, ?_⟩⟩
  · rw [C82_same]
    exact C79_depth hS (by rw [hU]; exact C79_sample_growth) t1 t2 _ (by omega)
  · refine Nat.le_trans ?_ (work_least hU c7 c8 (by omega) fuel)
    unfold Work.checkWord
    rw [two.notSimple hC]
    show 2 ^ q ≤ (Work.checkCompound C fuel .atBegin (manyA (4 * q + 2)) .forbidBad).calls
    refine Nat.le_trans ?_ (le_or _ _)
    rw [show C.opts.allowsCompounding = true from c9, if_pos rfl]
    exact (hF.search .forbidBad (4 * q + 2) fuel .atBegin 0 0 (by simp) (by omega)).2 q (by omega)

/-- **C82** (no less, COMPOUNDRULE): the same with these two words in a rule. -/
theorem C82_rules_exponential : ∃ C : Checker, Reachable .sample C.dict ∧ C.dict.Shrinking ∧
    C.dict.aff.options.allowsCompounding = false ∧ ∀ q ≤ 89, WorkAtLeast C (manyA (4 * q + 2)) (2 ^ q) := by
  obtain ⟨C, h1, h2⟩ := of_load (aff := "COMPOUNDRULE 1\nCOMPOUNDRULE C*\n") (dic := "2\naaa/C\naaaa/C\n") (L := .default)
    (p := fun C => twoWords C (FlagSet.ofList [67]) &&
      decide (C.dict.aff.compoundPatterns = []) && !C.dict.aff.options.compoundSimplifiedTriple &&
      decide (C.dict.aff.inputConversions = .empty) && decide (C.dict.aff.ignoreChars = []) &&
      !C.dict.aff.options.allowsCompounding && !C.dict.aff.compoundRules.isEmpty &&
      C.dict.aff.compoundRules.hasAnyFlags (FlagSet.ofList [67]))
    (by decide +kernel)
  simp only [Bool.and_eq_true, decide_eq_true_eq, Bool.not_eq_true'] at h2
  obtain ⟨⟨⟨⟨⟨⟨⟨c1, c3⟩, c4⟩, c7⟩, c8⟩, c9⟩, c10⟩, c11⟩ := h2
  obtain ⟨hr, t1, t2, hU⟩ := loadChecker_reachable h1
  have two := twoWords_of c1
  have hC := (wellMade_reachable hr).condsParsed
  have hF : Ruled C (FlagSet.ofList [67]) := { two with conds := hC, flags := c9, rules := c10, mentioned := c11 }
  have hS : C.dict.Shrinking := ⟨by rw [two.min]; decide, by rw [c4]; simp, by rw [c3]; simp⟩
  refine ⟨C, hr, hS, c9, fun q hq => ?_⟩
  refine ⟨2 * (C.dict.aff.inputConversions.convert (manyA (4 * q + 2))).length + 1, fun fuel hf => ⟨?_, ?_⟩⟩
  · rw [C82_same]
    exact C79_depth hS (by rw [hU]; exact C79_sample_growth) t1 t2 _ (by omega)
  · refine Nat.le_trans ?_ (work_least hU c7 c8 (by omega) fuel)
    unfold Work.checkWord
    rw [two.notSimple hC]
    show 2 ^ q ≤ (Work.checkCompound C fuel .atBegin (manyA (4 * q + 2)) .forbidBad).calls
    unfold Work.checkCompound
    rw [show C.opts.allowsCompounding = false from c9, show C.aff.compoundRules.isEmpty = false from c10]
    have := (hF.search .forbidBad (4 * q + 2) ((manyA (4 * q + 2)).length + 1) [] 0 (by rw [manyA_length]; omega)).2 q
      (by omega)
    unfold Counted.or
    simp only [Bool.false_eq_true, if_false, Counted.free_result, Counted.free_calls, Nat.zero_add]
    exact this

/-! ## Cases that meet the hypotheses -/

/-- The searches for a word, and the bound: `a` in compounds of any length. -/
example : (Work.check chainChecker 9 "aaax".toList).calls = 4 ∧ ways chainChecker.dict = 1 ∧
    searchesFor chainChecker.dict 4 = 16 ∧ chainChecker.dict.Shrinking :=
  ⟨by decide +kernel, by decide, by decide, by decide, by decide, by intro c hc; cases hc⟩

/-- A dictionary without compounds. -/
example : oconvChecker.dict.aff.options.allowsCompounding = false ∧ oconvChecker.dict.aff.compoundRules.rules = [] := by
  decide

end Spellbook.Props
