import Verif.Spec.Work
import Verif.Proof.Depth
/-!
# Proofs about the number of searches for compounds
-/

namespace Spellbook.Work
open Counted

/-! ### The results are those of the other model -/

namespace Counted
variable {α β : Type}

@[simp] theorem free_result (r : Run α) : (free r).result = r := rfl
@[simp] theorem pure_result (a : α) : (pure a : Counted α).result = .ok a := rfl
@[simp] theorem call_result (c : Counted α) : (call c).result = c.result := rfl
@[simp] theorem map_result (f : α → β) (c : Counted α) : (c.map f).result = c.result.map f := rfl

@[simp] theorem bind_result (c : Counted α) (f : α → Counted β) :
    (c >>= f).result = c.result >>= fun a => (f a).result := by
  show (bind c f).result = _
  unfold bind
  cases c.result <;> rfl

@[simp] theorem or_result (a b : Counted (Option β)) : (a.or b).result = a.result.or b.result := by
  unfold or Run.or
  split <;> simp_all

@[simp] theorem first_result {f : α → Counted (Option β)} : ∀ l : List α,
    (first f l).result = Run.first (fun a => (f a).result) l
  | [] => rfl
  | a :: l => by simp [first, Run.first, first_result l]

@[simp] theorem any_result {f : α → Counted Bool} : ∀ l : List α,
    (any f l).result = Checker.anyRun (fun a => (f a).result) l
  | [] => rfl
  | a :: l => by
    simp only [any, Checker.anyRun, bind_result]
    congr 1
    funext b
    cases b
    · simpa using any_result l
    · rfl

end Counted

variable (C : Checker)

/-- The search whose calls are not counted. -/
def plain (search : Search) : Checker.Search := fun w s n => (search w s n).result

theorem tripleRecursive_result (search : Search) (triple word : Str) (start i n : Nat) (part1 : CompoundingResult) :
    (tripleRecursive C search triple word start i n part1).result =
      C.tripleRecursive (plain search) triple word start i n part1 := by
  simp only [tripleRecursive, Checker.tripleRecursive, bind_result]
  congr 1
  funext o
  cases o
  · rfl
  · dsimp only; repeat' split
    all_goals first | rfl | contradiction

theorem simplifiedTriple_result (search : Search) (word : Str) (start i n : Nat) (fc : Forceucase)
    (part1 : CompoundingResult) : (simplifiedTriple C search word start i n fc part1).result =
      C.simplifiedTriple (plain search) word start i n fc part1 := by
  unfold simplifiedTriple Checker.simplifiedTriple
  split
  · rfl
  · cases Checker.tripled word i with
    | none => rfl
    | some triple =>
      dsimp only
      cases C.tripleSecond triple word start i n fc part1 <;> first | rfl | exact tripleRecursive_result ..

theorem tryRecursive_result (search : Search) (word : Str) (start i n : Nat) (fc : Forceucase)
    (part1 : CompoundingResult) : (tryRecursive C search word start i n fc part1).result =
      C.tryRecursive (plain search) word start i n fc part1 := by
  simp only [tryRecursive, Checker.tryRecursive, bind_result]
  congr 1
  funext o
  cases o
  · exact simplifiedTriple_result ..
  · dsimp only
    split
    · exact simplifiedTriple_result ..
    · split
      · exact simplifiedTriple_result ..
      · rfl

theorem classic_result (search : Search) (m : Mode) (word : Str) (start i n : Nat) (fc : Forceucase) :
    (classic C search m word start i n fc).result = C.classic (plain search) m word start i n fc := by
  unfold classic Checker.classic
  cases C.classicFirst m word start i with
  | none => rfl
  | some part1 =>
    dsimp only
    cases C.classicSecond word start i (n + C.wordCount part1) fc part1 <;>
      first | rfl | exact tryRecursive_result ..

theorem patternTriple_result (search : Search) (p : CompoundPattern) (scratch word : Str) (start j n : Nat)
    (fc : Forceucase) (part1 : CompoundingResult) :
    (patternTriple C search p scratch word start j n fc part1).result =
      C.patternTriple (plain search) p scratch word start j n fc part1 := by
  unfold patternTriple Checker.patternTriple
  split
  · rfl
  · cases Checker.tripled scratch j with
    | none => rfl
    | some triple =>
      dsimp only
      cases C.patternSecond p (triple.drop j) word start n fc part1 <;> first | rfl | skip
      simp only [bind_result]
      congr 1
      funext o
      cases o
      · rfl
      · dsimp only; split <;> rfl

theorem patternBody_result (search : Search) (m : Mode) (word : Str) (start i n : Nat) (fc : Forceucase)
    (p : CompoundPattern) : (patternBody C search m word start i n fc p).result =
      C.patternBody (plain search) m word start i n fc p := by
  unfold patternBody Checker.patternBody
  cases p.replacement with
  | none => rfl
  | some rep =>
    dsimp only
    split
    · rfl
    · generalize word.take i ++ (p.first ++ p.second) ++ word.drop (i + rep.length) = scratch
      cases C.patternFirst p m scratch start (i + p.first.length) with
      | none => rfl
      | some part1 =>
        dsimp only
        cases C.patternSecond p (scratch.drop (i + p.first.length)) word start n fc part1 <;> first | rfl | skip
        simp only [bind_result]
        congr 1
        funext o
        cases o
        · exact patternTriple_result ..
        · dsimp only
          split
          · rfl
          · exact patternTriple_result ..

theorem compoundAt_result (search : Search) (m : Mode) (word : Str) (start n : Nat) (fc : Forceucase) (i : Nat) :
    (compoundAt C search m word start n fc i).result = C.compoundAt (plain search) m word start n fc i := by
  simp only [compoundAt, Checker.compoundAt, or_result, classic_result, withPatternReplacements,
    Checker.withPatternReplacements, map_result, first_result, patternBody_result]

theorem checkCompoundImpl_result (fc : Forceucase) : ∀ (fuel : Nat) (m : Mode) (word : Str) (start n : Nat),
    (checkCompoundImpl C fc fuel m word start n).result = C.checkCompoundImpl fc fuel m word start n
  | 0, _, _, _, _ => rfl
  | fuel + 1, m, word, start, n => by
    simp only [checkCompoundImpl, Checker.checkCompoundImpl, call_result, first_result, compoundAt_result]
    rw [show plain (checkCompoundImpl C fc fuel .atMiddle) = C.checkCompoundImpl fc fuel .atMiddle from
      funext fun w => funext fun s => funext fun n => checkCompoundImpl_result fc fuel .atMiddle w s n]

theorem checkRulesImpl_result (fc : Forceucase) : ∀ (fuel : Nat) (word : Str) (data : List FlagSet) (start : Nat),
    (checkRulesImpl C fc fuel word data start).result = C.checkRulesImpl fc fuel word data start
  | 0, _, _, _ => rfl
  | fuel + 1, word, data, start => by
    simp only [checkRulesImpl, Checker.checkRulesImpl, call_result, first_result]
    congr 1
    funext i
    unfold ruleAt Checker.ruleAt
    cases (C.entries (slice word start i)).find? C.rulePart with
    | none => rfl
    | some part1 =>
      dsimp only
      split
      · rfl
      · exact checkRulesImpl_result ..

theorem checkCompound_result (fuel : Nat) (m : Mode) (word : Str) (fc : Forceucase) :
    (checkCompound C fuel m word fc).result = C.checkCompound fuel m word fc := by
  simp only [checkCompound, Checker.checkCompound, or_result, apply_ite Counted.result, checkCompoundImpl_result,
    checkRules, Checker.checkRules, checkRulesImpl_result, free_result]

theorem checkWord_result (fuel : Nat) (word : Str) (fc : Forceucase) (hh : HiddenHomonym) :
    (checkWord C fuel word fc hh).result = C.checkWord fuel word fc hh := by
  unfold checkWord Checker.checkWord
  cases C.checkSimpleWord word hh with
  | some => rfl
  | none => simp [checkCompound_result]

theorem doSpellSharps_result (fuel : Nat) : ∀ (k : Nat) (before rest : Str) (depth r : Nat), 5 - depth = k →
    (doSpellSharps C fuel before rest depth r).result = C.doSpellSharps fuel before rest depth r := by
  intro k
  induction k with
  | zero =>
    intro before rest depth r hk
    unfold doSpellSharps Checker.doSpellSharps
    rw [dif_neg (by omega), dif_neg (by omega)]
    split
    · exact checkWord_result ..
    · rfl
  | succ k ih =>
    intro before rest depth r hk
    unfold doSpellSharps Checker.doSpellSharps
    rw [dif_pos (by omega), dif_pos (by omega)]
    rcases splitOnce? ['s', 's'] rest with _ | ⟨x, y⟩
    rotate_left
    · dsimp only
      rw [or_result, ih _ _ _ _ (by omega), ih _ _ _ _ (by omega)]
    · dsimp only
      split
      · exact checkWord_result ..
      · rfl

theorem spellSharps_result (fuel : Nat) (word : Str) :
    (spellSharps C fuel word).result = C.spellSharps fuel word := doSpellSharps_result C fuel 5 _ _ _ _ rfl

theorem spellApostrophe_result (fuel : Nat) (word : Str) :
    (spellApostrophe C fuel word).result = C.spellApostrophe fuel word := by
  unfold spellApostrophe Checker.spellApostrophe
  rcases splitOnce? ['\''] word with _ | ⟨a, b⟩
  · rfl
  · dsimp only
    split
    · rfl
    · simp [titlecase, checkWord_result]

theorem spellCasingUpper_result (fuel : Nat) (word : Str) :
    (spellCasingUpper C fuel word).result = C.spellCasingUpper fuel word := by
  have : (spellUpperSharps C fuel word).result = C.spellUpperSharps fuel word := by
    unfold spellUpperSharps Checker.spellUpperSharps
    split
    · simp [titlecase, spellSharps_result]
    · rfl
  simp [spellCasingUpper, Checker.spellCasingUpper, checkWord_result, spellApostrophe_result, this, titlecase]

theorem spellCasingTitle_result (fuel : Nat) (word : Str) :
    (spellCasingTitle C fuel word).result = C.spellCasingTitle fuel word := by
  simp [spellCasingTitle, Checker.spellCasingTitle, checkWord_result]

theorem spellCasingAsIs_result (fuel : Nat) (word : Str) (pascal : Bool) :
    (spellCasingAsIs C fuel word pascal).result = C.spellCasingAsIs fuel word pascal := by
  simp [spellCasingAsIs, Checker.spellCasingAsIs, checkWord_result, apply_ite Counted.result, titlecase,
    spellCasingTitle_result, spellCasingUpper_result]

theorem spellCasing_result (fuel : Nat) (word : Str) :
    (spellCasing C fuel word).result = C.spellCasing fuel word := by
  unfold spellCasing Checker.spellCasing
  cases classifyCasing C.U word <;> simp [spellCasingAsIs_result, spellCasingTitle_result, spellCasingUpper_result]

theorem breakLoops_result {f : Str → Counted Bool} {g : Str → Run Bool} (h : ∀ w, (f w).result = g w) (word : Str) :
    (breakLoops C f word).result = C.breakLoops g word := by
  obtain rfl : (fun w => (f w).result) = g := funext h
  unfold breakLoops Checker.breakLoops
  simp only [bind_result, any_result]
  congr 1
  · congr 1
    funext pat
    cases stripPrefix? word pat <;> rfl
  funext b
  cases b
  · simp only [Bool.false_eq_true, if_false, bind_result, any_result]
    congr 1
    · congr 1
      funext pat
      cases stripSuffix? word pat <;> rfl
    funext b
    cases b
    · simp only [Bool.false_eq_true, if_false, any_result]
      congr 1
      funext pat
      rcases splitOnce? pat word with _ | ⟨x, y⟩
      · rfl
      · dsimp only
        split
        · rfl
        · simp only [bind_result]
          congr 1
          funext b
          cases b <;> rfl
    · rfl
  · rfl

theorem doSpellBreak_result (fuel : Nat) : ∀ (d : Nat) (word : Str),
    (doSpellBreak C fuel d word).result = C.doSpellBreak fuel d word
  | 0, word => by
    simp only [doSpellBreak, Checker.doSpellBreak, bind_result, spellCasing_result]
    congr 1
    funext o
    cases o <;> rfl
  | d + 1, word => by
    simp only [doSpellBreak, Checker.doSpellBreak, bind_result, spellCasing_result]
    congr 1
    funext o
    cases o
    · exact breakLoops_result C (doSpellBreak_result fuel d) word
    · rfl

/-- Counting does not change the answer. -/
theorem check_result (fuel : Nat) (word : Str) : (check C fuel word).result = C.check fuel word := by
  unfold check Checker.check
  split
  · rfl
  · unfold checkConverted Checker.checkConverted
    split
    · rfl
    · dsimp only
      split
      · rfl
      · simp only [bind_result, spellBreak, Checker.spellBreak, doSpellBreak_result]
        congr 1
        funext b
        cases b
        · simp only [Bool.false_eq_true, if_false]
          split
          · exact doSpellBreak_result ..
          · rfl
        · rfl


/-! ### How many searches are started -/

namespace Counted
variable {α β : Type}

@[simp] theorem free_calls (r : Run α) : (free r).calls = 0 := rfl
@[simp] theorem pure_calls (a : α) : (pure a : Counted α).calls = 0 := rfl
@[simp] theorem call_calls (c : Counted α) : (call c).calls = c.calls + 1 := rfl
@[simp] theorem map_calls (f : α → β) (c : Counted α) : (c.map f).calls = c.calls := rfl

theorem bind_calls {c : Counted α} {f : α → Counted β} {n m : Nat} (hc : c.calls ≤ n) (hf : ∀ a, (f a).calls ≤ m) :
    (c >>= f).calls ≤ n + m := by
  show (bind c f).calls ≤ _
  unfold bind
  split
  · have := hf ‹_›
    dsimp only
    omega
  · dsimp only
    omega

theorem or_calls {a b : Counted (Option β)} {n m : Nat} (ha : a.calls ≤ n) (hb : b.calls ≤ m) :
    (a.or b).calls ≤ n + m := by
  unfold or
  split
  · dsimp only; omega
  · omega

theorem first_calls {f : α → Counted (Option β)} {g : α → Nat} : ∀ {l : List α}, (∀ a ∈ l, (f a).calls ≤ g a) →
    (first f l).calls ≤ (l.map g).sum
  | [], _ => Nat.le_refl 0
  | a :: l, h => or_calls (h a (by simp)) (first_calls fun b hb => h b (by simp [hb]))

theorem any_calls {f : α → Counted Bool} {n : Nat} : ∀ {l : List α}, (∀ a ∈ l, (f a).calls ≤ n) →
    (any f l).calls ≤ l.length * n
  | [], _ => by simp [any]
  | a :: l, h => by
    rw [List.length_cons, Nat.add_mul, Nat.one_mul, Nat.add_comm]
    refine bind_calls (h a (by simp)) fun b => ?_
    cases b
    · exact any_calls fun b hb => h b (by simp [hb])
    · exact Nat.zero_le _

end Counted

open Spec

variable {C : Checker}

/-- 2 with SIMPLIFIEDTRIPLE, otherwise 1. -/
abbrev twice (C : Checker) : Nat := if C.dict.aff.options.compoundSimplifiedTriple then 2 else 1

theorem tripled_length {w t : Str} {i : Nat} (h : Checker.tripled w i = some t) : t.length = w.length + 1 := by
  unfold Checker.tripled at h
  split at h
  · split at h
    · cases h
      have : (w.take i).length + (w.drop i).length = w.length := by
        rw [← List.length_append, List.take_append_drop]
      simp only [List.length_append, List.length_cons, List.length_nil]
      omega
    · cases h
  · cases h

section
variable {search : Search} {M B : Nat} (hB : ∀ w s n, w.length - s ≤ M → (search w s n).calls ≤ B)
include hB

theorem simplifiedTriple_calls {word : Str} {i : Nat}
    (ht : C.dict.aff.options.compoundSimplifiedTriple = true → word.length + 1 - i ≤ M) (start n : Nat)
    (fc : Forceucase) (part1 : CompoundingResult) :
    (simplifiedTriple C search word start i n fc part1).calls ≤ (twice C - 1) * B := by
  unfold simplifiedTriple
  split
  · exact Nat.zero_le _
  rename_i h1
  have h1 : C.dict.aff.options.compoundSimplifiedTriple = true := by simpa [Checker.opts] using h1
  rw [twice, if_pos h1, Nat.one_mul]
  split
  · exact Nat.zero_le _
  rename_i triple h2
  split
  · exact Nat.zero_le _
  · exact Nat.zero_le _
  · unfold tripleRecursive
    refine bind_calls (m := 0) (hB _ _ _ ?_) fun o => ?_
    · rw [tripled_length h2]; exact ht h1
    · cases o
      · exact Nat.le_refl 0
      · dsimp only
        repeat' split
        all_goals exact Nat.le_refl 0

theorem patternTriple_calls {scratch : Str} {j : Nat}
    (ht : C.dict.aff.options.compoundSimplifiedTriple = true → scratch.length + 1 - j ≤ M) (p : CompoundPattern)
    (word : Str) (start n : Nat) (fc : Forceucase) (part1 : CompoundingResult) :
    (patternTriple C search p scratch word start j n fc part1).calls ≤ (twice C - 1) * B := by
  unfold patternTriple
  split
  · exact Nat.zero_le _
  rename_i h1
  have h1 : C.dict.aff.options.compoundSimplifiedTriple = true := by simpa [Checker.opts] using h1
  rw [twice, if_pos h1, Nat.one_mul]
  split
  · exact Nat.zero_le _
  rename_i triple h2
  split
  · exact Nat.zero_le _
  · exact Nat.zero_le _
  · refine bind_calls (m := 0) (hB _ _ _ ?_) fun o => ?_
    · rw [tripled_length h2]; exact ht h1
    · cases o
      · exact Nat.le_refl 0
      · dsimp only
        split <;> exact Nat.le_refl 0

omit hB in
theorem twice_mul (C : Checker) (B : Nat) : B + (twice C - 1) * B = twice C * B := by
  unfold twice
  split <;> omega

omit hB in
theorem twice_pos (C : Checker) : 1 ≤ twice C := by
  unfold twice
  split <;> omega

theorem classic_calls {word : Str} {i : Nat} (hm : word.length - i ≤ M)
    (ht : C.dict.aff.options.compoundSimplifiedTriple = true → word.length + 1 - i ≤ M) (m : Mode) (start n : Nat)
    (fc : Forceucase) : (classic C search m word start i n fc).calls ≤ twice C * B := by
  unfold classic
  split
  · exact Nat.zero_le _
  dsimp only
  split
  · exact Nat.zero_le _
  · exact Nat.zero_le _
  · rw [← twice_mul]
    refine bind_calls (hB _ _ _ hm) fun o => ?_
    cases o
    · exact simplifiedTriple_calls hB ht ..
    · dsimp only
      split
      · exact simplifiedTriple_calls hB ht ..
      · split
        · exact simplifiedTriple_calls hB ht ..
        · exact Nat.zero_le _

theorem patternBody_calls {word : Str} {i : Nat} {p : CompoundPattern}
    (hp : ∀ rep, p.replacement = some rep → rep.length ≤ word.length - i →
      p.second.length + (word.length - i) + (twice C - 1) ≤ rep.length + M) (hi : i ≤ word.length)
    (m : Mode) (start n : Nat) (fc : Forceucase) :
    (patternBody C search m word start i n fc p).calls ≤ if p.replacement.isSome then twice C * B else 0 := by
  unfold patternBody
  cases hr : p.replacement with
  | none => exact Nat.zero_le _
  | some rep =>
    dsimp only
    rw [Option.isSome_some, if_pos rfl]
    split
    · exact Nat.zero_le _
    rename_i hs
    have hl : rep.length ≤ word.length - i := by
      rw [Bool.not_eq_true', Bool.not_eq_false, startsWith_iff] at hs
      obtain ⟨t, hs⟩ := hs
      have := congrArg List.length hs
      rw [List.length_drop, List.length_append] at this
      omega
    have hp := hp rep hr hl
    have hlen : (word.take i ++ (p.first ++ p.second) ++ word.drop (i + rep.length)).length =
        i + p.first.length + p.second.length + (word.length - i - rep.length) := by
      simp only [List.length_append, List.length_take, List.length_drop]
      omega
    have ht := twice_pos C
    generalize word.take i ++ (p.first ++ p.second) ++ word.drop (i + rep.length) = scratch at hlen
    have h2 : C.dict.aff.options.compoundSimplifiedTriple = true →
        scratch.length + 1 - (i + p.first.length) ≤ M := by
      intro h
      unfold twice at hp
      rw [if_pos h] at hp
      omega
    split
    · exact Nat.zero_le _
    split
    · exact Nat.zero_le _
    · exact Nat.zero_le _
    · rw [← twice_mul]
      refine bind_calls (hB _ _ _ (by omega)) fun o => ?_
      cases o
      · exact patternTriple_calls hB h2 ..
      · dsimp only
        split
        · exact Nat.zero_le _
        · exact patternTriple_calls hB h2 ..

omit hB in
theorem sum_ite_filter {α : Type} (l : List α) (q : α → Bool) (k : Nat) :
    (l.map fun a => if q a then k else 0).sum = (l.filter q).length * k := by
  induction l with
  | nil => simp
  | cons a l ih =>
    rw [List.map_cons, List.sum_cons, ih, List.filter_cons]
    split
    · rw [List.length_cons, Nat.add_mul]; omega
    · omega

theorem compoundAt_calls (hD : C.dict.Shrinking) {word : Str} {start i : Nat}
    (hi : i + C.dict.aff.options.minChars ≤ word.length)
    (hM : word.length - i + C.dict.aff.options.minChars ≤ M + 1) (m : Mode) (n : Nat) (fc : Forceucase) :
    (compoundAt C search m word start n fc i).calls ≤ ways C.dict * B := by
  have hpos := hD.min_pos
  have h1 : (classic C search m word start i n fc).calls ≤ twice C * B :=
    classic_calls hB (by omega) (fun h => by have := hD.triple h; omega) ..
  have h2 : (withPatternReplacements C search m word start i n fc).calls ≤
      (C.dict.aff.compoundPatterns.filter fun p => p.replacement.isSome).length * (twice C * B) := by
    unfold withPatternReplacements
    rw [map_calls, ← sum_ite_filter]
    refine first_calls fun p hp => patternBody_calls hB (fun rep hr hl => ?_) (by omega) ..
    have := hD.pattern p hp rep hr
    unfold twice
    split at this <;> rename_i h
    · rw [if_pos h]; omega
    · rw [if_neg h]; omega
  refine (or_calls h1 h2).trans (Nat.le_of_eq ?_)
  unfold ways
  change _ = (1 + _) * twice C * B
  rw [Nat.add_mul, Nat.one_mul, Nat.add_mul, Nat.mul_assoc]

end

/-- Powers of different places add up to less than one power. -/
theorem powers_sum (c N : Nat) : ∀ (l : List Nat) (a : Nat), l.Pairwise (· < ·) → (∀ i ∈ l, a ≤ i ∧ i ≤ N) →
    (l.map fun i => c * (c + 1) ^ (N - i)).sum + 1 ≤ (c + 1) ^ (N + 1 - a)
  | [], a, _, _ => Nat.one_le_pow _ _ (by omega)
  | i :: l, a, hs, h => by
    rw [List.pairwise_cons] at hs
    have ih := powers_sum c N l (i + 1) hs.2 fun j hj => ⟨hs.1 j hj, (h j (by simp [hj])).2⟩
    obtain ⟨h1, h2⟩ := h i (by simp)
    rw [List.map_cons, List.sum_cons]
    have h3 : N + 1 - (i + 1) = N - i := by omega
    rw [h3] at ih
    have h4 : (c + 1) ^ (N - i + 1) ≤ (c + 1) ^ (N + 1 - a) := Nat.pow_le_pow_right (by omega) (by omega)
    rw [Nat.pow_succ, Nat.mul_comm, Nat.add_mul, Nat.one_mul] at h4
    omega

theorem splitPoints_pairwise (word : Str) (start margin : Nat) : (splitPoints word start margin).Pairwise (· < ·) := by
  unfold splitPoints
  exact List.pairwise_lt_range.filter _

theorem checkCompoundImpl_calls (hD : C.dict.Shrinking) (fc : Forceucase) : ∀ (fuel : Nat) (m : Mode) (word : Str)
    (start n : Nat), (checkCompoundImpl C fc fuel m word start n).calls ≤ (ways C.dict + 1) ^ (word.length - start)
  | 0, _, _, _, _ => Nat.zero_le _
  | fuel + 1, m, word, start, n => by
    unfold checkCompoundImpl
    rw [call_calls]
    have hpos := hD.min_pos
    by_cases hk : start + C.dict.aff.options.minChars + C.dict.aff.options.minChars ≤ word.length
    · refine (Nat.add_le_add_right (first_calls (g := fun i =>
        ways C.dict * (ways C.dict + 1) ^ (word.length + C.dict.aff.options.minChars - 1 - i)) fun i hi => ?_) 1).trans
        ((powers_sum _ _ _ (start + C.dict.aff.options.minChars) (splitPoints_pairwise ..) fun i hi => ?_).trans
          (Nat.pow_le_pow_right (by omega) (by omega)))
      · obtain ⟨h1, h2⟩ := mem_splitPoints.1 hi
        change start + C.dict.aff.options.minChars ≤ i at h1
        change i + C.dict.aff.options.minChars ≤ word.length at h2
        exact compoundAt_calls (M := word.length + C.dict.aff.options.minChars - 1 - i)
          (fun w s n h => (checkCompoundImpl_calls hD fc fuel .atMiddle w s n).trans
            (Nat.pow_le_pow_right (by omega) h)) hD h2 (by omega) ..
      · obtain ⟨h1, h2⟩ := mem_splitPoints.1 hi
        change start + C.dict.aff.options.minChars ≤ i at h1
        change i + C.dict.aff.options.minChars ≤ word.length at h2
        omega
    · have : splitPoints word start C.opts.minChars = [] := by
        rw [List.eq_nil_iff_forall_not_mem]
        intro i hi
        obtain ⟨h1, h2⟩ := mem_splitPoints.1 hi
        change start + C.dict.aff.options.minChars ≤ i at h1
        change i + C.dict.aff.options.minChars ≤ word.length at h2
        omega
      rw [this]
      exact Nat.one_le_pow _ _ (by omega)

theorem checkRulesImpl_calls (hm : 0 < C.dict.aff.options.minChars) (fc : Forceucase) : ∀ (fuel : Nat) (word : Str)
    (data : List FlagSet) (start : Nat), (checkRulesImpl C fc fuel word data start).calls ≤ 2 ^ (word.length - start)
  | 0, _, _, _ => Nat.zero_le _
  | fuel + 1, word, data, start => by
    unfold checkRulesImpl
    rw [call_calls]
    by_cases hk : start + C.dict.aff.options.minChars + C.dict.aff.options.minChars ≤ word.length
    · refine (Nat.add_le_add_right (first_calls (g := fun i => 1 * (1 + 1) ^ (word.length - i)) fun i hi => ?_) 1).trans
        ((powers_sum _ _ _ (start + 1) (splitPoints_pairwise ..) fun i hi => ?_).trans
          (Nat.pow_le_pow_right (by omega) (by omega)))
      · rw [Nat.one_mul]
        unfold ruleAt
        split
        · exact Nat.zero_le _
        · dsimp only
          split
          · exact Nat.zero_le _
          · exact checkRulesImpl_calls hm fc fuel _ _ _
      · obtain ⟨h1, h2⟩ := mem_splitPoints.1 hi
        change start + C.dict.aff.options.minChars ≤ i at h1
        change i + C.dict.aff.options.minChars ≤ word.length at h2
        omega
    · have : splitPoints word start C.opts.minChars = [] := by
        rw [List.eq_nil_iff_forall_not_mem]
        intro i hi
        obtain ⟨h1, h2⟩ := mem_splitPoints.1 hi
        change start + C.dict.aff.options.minChars ≤ i at h1
        change i + C.dict.aff.options.minChars ≤ word.length at h2
        omega
      rw [this]
      exact Nat.one_le_pow _ _ (by omega)


theorem checkCompound_calls (hD : C.dict.Shrinking) (fuel : Nat) (m : Mode) (word : Str) (fc : Forceucase) :
    (checkCompound C fuel m word fc).calls ≤ searchesFor C.dict word.length := by
  unfold checkCompound searchesFor
  refine or_calls ?_ ?_
  · change (if C.dict.aff.options.allowsCompounding = true then _ else _ : Counted _).calls ≤ _
    split
    · exact checkCompoundImpl_calls hD ..
    · exact Nat.le_refl 0
  · cases h : C.dict.aff.compoundRules.rules with
    | nil =>
      have : C.aff.compoundRules.isEmpty = true := by
        show C.dict.aff.compoundRules.rules.isEmpty = true
        rw [h]; rfl
      simp [this]
    | cons =>
      have : C.aff.compoundRules.isEmpty = false := by
        show C.dict.aff.compoundRules.rules.isEmpty = false
        rw [h]; rfl
      simp only [this, Bool.not_false, if_true, reduceCtorEq, if_false]
      exact checkRulesImpl_calls hD.min_pos ..

theorem checkWord_calls (hD : C.dict.Shrinking) (fuel : Nat) (word : Str) (fc : Forceucase) (hh : HiddenHomonym) :
    (checkWord C fuel word fc hh).calls ≤ searchesFor C.dict word.length := by
  unfold checkWord
  split
  · exact Nat.zero_le _
  · exact checkCompound_calls hD ..

theorem searchesFor_mono (D : Dict) {n m : Nat} (h : n ≤ m) : searchesFor D n ≤ searchesFor D m := by
  unfold searchesFor
  refine Nat.add_le_add ?_ ?_
  · split
    · exact Nat.pow_le_pow_right (by omega) h
    · exact Nat.le_refl 0
  · split
    · exact Nat.le_refl 0
    · exact Nat.pow_le_pow_right (by omega) h

/-- A size of texts which grows at most `k` times when the letter case is changed. -/
structure Sized (C : Checker) (size : Str → Nat) (k : Nat) : Prop where
  pos : 1 ≤ k
  sub {a b : Str} : a.Sublist b → size a ≤ size b
  lower (w : Str) : size (C.lowercase w) ≤ k * size w
  upper (w : Str) : size (C.opts.caseHandling.uppercase C.U w) ≤ k * size w
  title {w t : Str} : C.titlecase w = .ok t → size t ≤ k * size w
  sharp (x y : Str) : size (x ++ ['ß'] ++ y) ≤ size (x ++ ['s', 's'] ++ y)
  lowerTitle {a b t : Str} : C.titlecase b = .ok t → size (C.lowercase a ++ t) ≤ k * size (a ++ b)
  titleTitle {a b s t : Str} : C.titlecase a = .ok s → C.titlecase b = .ok t → size (s ++ t) ≤ k * size (a ++ b)

theorem sized_length {k : Nat} (hU : CaseGrowth C.U k) : Sized C List.length k where
  pos := hU.pos
  sub := List.Sublist.length_le
  lower := lowercase_chars hU _
  upper := uppercase_chars hU _
  title h := by
    unfold Checker.titlecase at h
    split at h
    · cases h; exact titlecase_chars hU _ ‹_›
    · cases h
  sharp x y := by simp
  lowerTitle {a b t} h := by
    unfold Checker.titlecase at h
    split at h
    · cases h
      rw [List.length_append, List.length_append, Nat.mul_add]
      exact Nat.add_le_add (lowercase_chars hU _ a) (titlecase_chars hU _ ‹_›)
    · cases h
  titleTitle {a b s t} h h' := by
    unfold Checker.titlecase at h h'
    split at h
    · cases h
      split at h'
      · cases h'
        rw [List.length_append, List.length_append, Nat.mul_add]
        exact Nat.add_le_add (titlecase_chars hU _ ‹_›) (titlecase_chars hU _ ‹_›)
      · cases h'
    · cases h

theorem sized_zero (C : Checker) : Sized C (fun _ => 0) 1 := by
  constructor <;> intros <;> simp

namespace Counted

theorem title_calls {β : Type} {w : Str} {f : Str → Counted β} {n : Nat}
    (h : ∀ t, C.titlecase w = .ok t → (f t).calls ≤ n) : (titlecase C w >>= f).calls ≤ n := by
  show (bind (free (C.titlecase w)) f).calls ≤ n
  unfold bind
  rw [free_result]
  split
  · rename_i t ht
    rw [free_calls, Nat.zero_add]
    exact h _ ht
  · exact Nat.zero_le _

end Counted

section
variable {size : Str → Nat} {k L W fuel : Nat} (hk : Sized C size k)
  (hW : ∀ w fc hh, size w ≤ L → (checkWord C fuel w fc hh).calls ≤ W)
include hk hW

theorem doSpellSharps_calls : ∀ (j : Nat) (before rest : Str) (depth r : Nat), 5 - depth = j →
    size (before ++ rest) ≤ L → (doSpellSharps C fuel before rest depth r).calls ≤ 2 ^ j * W := by
  have stop : ∀ (before rest : Str) (r j : Nat), size (before ++ rest) ≤ L →
      (if r > 0 then checkWord C fuel (before ++ rest) .allowBad .accept else free (.ok none)).calls ≤ 2 ^ j * W := by
    intro before rest r j h
    have : W ≤ 2 ^ j * W := Nat.le_mul_of_pos_left _ (Nat.two_pow_pos j)
    split
    · exact (hW _ _ _ h).trans this
    · exact Nat.zero_le _
  intro j
  induction j with
  | zero =>
    intro before rest depth r hj hl
    unfold doSpellSharps
    rw [dif_neg (by omega)]
    exact stop _ _ _ _ hl
  | succ j ih =>
    intro before rest depth r hj hl
    unfold doSpellSharps
    rw [dif_pos (by omega)]
    rcases h : splitOnce? ['s', 's'] rest with _ | ⟨x, y⟩
    · exact stop _ _ _ _ hl
    · have he := splitOnce?_append h
      have e1 : before ++ rest = (before ++ x) ++ ['s', 's'] ++ y := by rw [he]; simp
      rw [e1] at hl
      dsimp only
      have := or_calls (ih (before ++ x ++ ['ß']) y (depth + 1) (r + 1) (by omega) ((hk.sharp _ _).trans hl))
        (ih (before ++ x ++ ['s', 's']) y (depth + 1) (r + 1) (by omega) hl)
      rw [Nat.pow_succ, Nat.mul_right_comm]
      omega

theorem spellApostrophe_calls {w : Str} (hw : k * size w ≤ L) : (spellApostrophe C fuel w).calls ≤ W + W := by
  unfold spellApostrophe
  rcases h : splitOnce? ['\''] w with _ | ⟨a, b⟩
  · exact Nat.zero_le _
  · have he := splitOnce?_append h
    rw [he, ← List.append_assoc] at hw
    dsimp only
    split
    · exact Nat.zero_le _
    · refine title_calls fun t ht => or_calls (hW _ _ _ ((hk.lowerTitle ht).trans hw))
        (title_calls fun t' ht' => hW _ _ _ ((hk.titleTitle ht' ht).trans hw))

theorem spellCasingUpper_calls {w : Str} (hw : k * size w ≤ L) : (spellCasingUpper C fuel w).calls ≤ 69 * W := by
  have hp : size w ≤ k * size w := Nat.le_mul_of_pos_left _ hk.pos
  have h1 : (spellUpperSharps C fuel w).calls ≤ 32 * W + 32 * W := by
    unfold spellUpperSharps
    split
    · exact or_calls (doSpellSharps_calls hk hW 5 [] _ 0 0 rfl ((hk.lower w).trans hw))
        (title_calls fun t ht => doSpellSharps_calls hk hW 5 [] _ 0 0 rfl ((hk.title ht).trans hw))
    · exact Nat.zero_le _
  have := or_calls (hW w .allowBad .accept (hp.trans hw)) <| or_calls (spellApostrophe_calls hk hW hw) <|
    or_calls h1 <| or_calls
      (title_calls (w := w) (f := fun t => (checkWord C fuel t .allowBad .accept).map C.dropKeepCase) fun t ht =>
        hW _ _ _ ((hk.title ht).trans hw))
      (b := (checkWord C fuel (C.lowercase w) .allowBad .accept).map C.dropKeepCase)
      (hW _ _ _ ((hk.lower w).trans hw))
  unfold spellCasingUpper
  omega

theorem spellCasingTitle_calls {w : Str} (hw : k * size w ≤ L) : (spellCasingTitle C fuel w).calls ≤ 2 * W := by
  have hp : size w ≤ k * size w := Nat.le_mul_of_pos_left _ hk.pos
  have := or_calls (hW w .allowBad .skip (hp.trans hw))
    (b := (checkWord C fuel (C.lowercase w) .allowBad .accept).map (C.titleKeepCase (C.lowercase w)))
    (hW _ _ _ ((hk.lower w).trans hw))
  unfold spellCasingTitle
  omega

theorem spellCasing_calls {w : Str} (hw : k * size w ≤ L)
    (hs : C.checkLowerAsTitle = true ∨ C.checkLowerAsUpper = true → k * (k * size w) ≤ L) :
    (spellCasing C fuel w).calls ≤ 72 * W := by
  have hp : size w ≤ k * size w := Nat.le_mul_of_pos_left _ hk.pos
  have h1 : ∀ b, (spellCasingAsIs C fuel w b).calls ≤ 72 * W := by
    intro b
    unfold spellCasingAsIs
    have e : 72 * W = W + (2 * W + 69 * W) := by omega
    rw [e]
    refine or_calls (hW _ _ _ (by omega)) (or_calls ?_ ?_)
    · split
      · rename_i h
        rw [Bool.and_eq_true] at h
        exact title_calls fun t ht => spellCasingTitle_calls hk hW
          ((Nat.mul_le_mul_left k (hk.title ht)).trans (hs (.inl h.1)))
      · exact Nat.zero_le _
    · split
      · rename_i h
        exact spellCasingUpper_calls hk hW ((Nat.mul_le_mul_left k (hk.upper w)).trans (hs (.inr h)))
      · exact Nat.zero_le _
  unfold spellCasing
  split
  · exact h1 _
  · exact h1 _
  · exact h1 _
  · exact (spellCasingUpper_calls hk hW hw).trans (by omega)
  · exact (spellCasingTitle_calls hk hW hw).trans (by omega)

omit hW in
theorem breakLoops_calls {f : Str → Counted Bool} {n R : Nat} (h : ∀ w, size w ≤ n → (f w).calls ≤ R) {w : Str}
    (hw : size w ≤ n) : (breakLoops C f w).calls ≤ breakCount C.dict * R := by
  unfold breakLoops breakCount
  have e : (C.dict.aff.breakTable.startBreaks.length + C.dict.aff.breakTable.endBreaks.length +
      2 * C.dict.aff.breakTable.middleBreaks.length) * R = C.aff.breakTable.startBreaks.length * R +
      (C.aff.breakTable.endBreaks.length * R + C.aff.breakTable.middleBreaks.length * (R + R)) := by
    show (C.aff.breakTable.startBreaks.length + C.aff.breakTable.endBreaks.length +
      2 * C.aff.breakTable.middleBreaks.length) * R = _
    rw [Nat.add_mul, Nat.add_mul, Nat.mul_assoc 2, Nat.mul_add]
    omega
  rw [e]
  refine bind_calls (any_calls fun pat _ => ?_) fun b => ?_
  · split
    · rename_i rest hr
      exact h _ ((hk.sub (by rw [stripPrefix?_iff.1 hr]; exact List.sublist_append_right _ _)).trans hw)
    · exact Nat.zero_le _
  cases b
  swap
  · exact Nat.zero_le _
  refine bind_calls (any_calls fun pat _ => ?_) fun b => ?_
  · split
    · rename_i rest hr
      exact h _ ((hk.sub (by rw [stripSuffix?_iff.1 hr]; exact List.sublist_append_left _ _)).trans hw)
    · exact Nat.zero_le _
  cases b
  swap
  · exact Nat.zero_le _
  refine any_calls fun pat _ => ?_
  split
  · rename_i a b hr
    have he := splitOnce?_append hr
    split
    · exact Nat.zero_le _
    · refine bind_calls (h _ ((hk.sub ?_).trans hw)) fun b => ?_
      · rw [he]; exact List.sublist_append_left _ _
      cases b
      · exact Nat.zero_le _
      · refine h _ ((hk.sub ?_).trans hw)
        rw [he, ← List.append_assoc]; exact List.sublist_append_right _ _
  · exact Nat.zero_le _

theorem doSpellBreak_calls {n : Nat} (hn : k * n ≤ L)
    (hs : C.checkLowerAsTitle = true ∨ C.checkLowerAsUpper = true → k * (k * n) ≤ L) : ∀ (d : Nat) (w : Str),
    size w ≤ n → (doSpellBreak C fuel d w).calls ≤ (breakCount C.dict + 1) ^ d * (72 * W) := by
  have hc : ∀ w : Str, size w ≤ n → (spellCasing C fuel w).calls ≤ 72 * W := by
    intro w hw
    have h1 := Nat.mul_le_mul_left k hw
    have h2 := Nat.mul_le_mul_left k h1
    exact spellCasing_calls hk hW (h1.trans hn) fun h => h2.trans (hs h)
  intro d
  induction d with
  | zero =>
    intro w hw
    rw [Nat.pow_zero, Nat.one_mul]
    refine bind_calls (m := 0) (hc w hw) fun o => ?_
    cases o <;> exact Nat.le_refl 0
  | succ d ih =>
    intro w hw
    have h1 : 72 * W ≤ (breakCount C.dict + 1) ^ d * (72 * W) :=
      Nat.le_mul_of_pos_left _ (Nat.pos_of_ne_zero (by simp))
    have e : (breakCount C.dict + 1) ^ (d + 1) * (72 * W) =
        (breakCount C.dict + 1) ^ d * (72 * W) + breakCount C.dict * ((breakCount C.dict + 1) ^ d * (72 * W)) := by
      rw [Nat.pow_succ, Nat.mul_right_comm, Nat.mul_add, Nat.mul_one, Nat.add_comm, Nat.mul_comm _ (breakCount _)]
    rw [e]
    refine bind_calls ((hc w hw).trans h1) fun o => ?_
    cases o
    · exact breakLoops_calls hk ih hw
    · exact Nat.zero_le _

/-- The work of a word, if that of every lookup is known. -/
theorem check_calls (word : Str) (hn : k * size (C.dict.aff.inputConversions.convert word) ≤ L)
    (hs : C.checkLowerAsTitle = true ∨ C.checkLowerAsUpper = true →
      k * (k * size (C.dict.aff.inputConversions.convert word)) ≤ L) :
    (check C fuel word).calls ≤ 144 * (breakCount C.dict + 1) ^ 9 * W := by
  have e : 144 * (breakCount C.dict + 1) ^ 9 * W =
      (breakCount C.dict + 1) ^ 9 * (72 * W) + (breakCount C.dict + 1) ^ 9 * (72 * W) := by
    rw [← Nat.mul_assoc, Nat.mul_comm _ 72]
    have : 144 * (breakCount C.dict + 1) ^ 9 = 72 * (breakCount C.dict + 1) ^ 9 + 72 * (breakCount C.dict + 1) ^ 9 := by
      omega
    rw [this, Nat.add_mul]
  rw [e]
  unfold check
  split
  · exact Nat.zero_le _
  unfold checkConverted
  change k * size (C.aff.inputConversions.convert word) ≤ L at hn
  change _ → k * (k * size (C.aff.inputConversions.convert word)) ≤ L at hs
  generalize C.aff.inputConversions.convert word = w at hn hs
  split
  · exact Nat.zero_le _
  dsimp only
  split
  · exact Nat.zero_le _
  refine bind_calls (doSpellBreak_calls hk hW hn hs 9 _ (hk.sub ?_)) fun b => ?_
  · refine List.Sublist.trans (l₂ := trimEndMatches '.' w) ?_ ?_
    · unfold eraseChars
      split
      · exact List.Sublist.refl _
      · exact List.filter_sublist
    · unfold trimEndMatches
      have := (List.dropWhile_sublist (· == '.') (l := w.reverse)).reverse
      rwa [List.reverse_reverse] at this
  · cases b
    · simp only [Bool.false_eq_true, if_false]
      split
      · exact doSpellBreak_calls hk hW hn hs 9 _ (Nat.le_refl _)
      · exact Nat.zero_le _
    · exact Nat.zero_le _

end

end Spellbook.Work
