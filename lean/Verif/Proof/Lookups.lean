import Verif.Model.Lookups
import Verif.Spec.Lookups
import Verif.Proof.Work
import Verif.Proof.Suggest
import Verif.Proof.Select
import Verif.Proof.SuggestEnds
import Verif.Proof.SuggestSafe
import Verif.Proof.Dedup
import Verif.Proof.Conversion
/-!
# Proofs about the number of lookups of `suggest`
-/

namespace Spellbook.Lookups
open Work Counted

/-! ### The results are those of the other model -/

@[simp] theorem lookup_result {α : Type} (r : Run α) : (lookup r).result = r := rfl

@[simp] theorem loop_result {α β : Type} {f : β → α → Counted β} : ∀ (l : List α) (b : β),
    (loop f l b).result = l.foldlM (fun b a => (f b a).result) b
  | [], _ => rfl
  | a :: l, b => by simp [loop, loop_result l]

@[simp] theorem ite_result {α : Type} {p : Prop} [Decidable p] (a b : Counted α) :
    (if p then a else b).result = if p then a.result else b.result := by split <;> rfl

variable (S : Suggester) (fuel : Nat)

@[simp] theorem addIfCorrect_result (w : Str) (out : List Str) :
    (addIfCorrect S fuel w out).result = S.addIfCorrect fuel w out := by
  simp only [addIfCorrect, Suggester.addIfCorrect, bind_result, lookup_result]
  congr 1
  funext o
  cases o
  · rfl
  · simp only [ite_result]; rfl

@[simp] theorem addAll_result (texts out : List Str) : (addAll S fuel texts out).result = S.addAll fuel texts out := by
  simp [addAll, Suggester.addAll]; rfl

@[simp] theorem uppercaseSuggest_result (w : Str) (out : List Str) :
    (uppercaseSuggest S fuel w out).result = S.uppercaseSuggest fuel w out := by
  simp [uppercaseSuggest, Suggester.uppercaseSuggest]; rfl

@[simp] theorem allParts_result : ∀ ps, (allParts S fuel ps).result = S.allParts fuel ps
  | [] => rfl
  | p :: ps => by
    simp only [allParts, Suggester.allParts, bind_result, lookup_result]
    congr 1
    funext o
    cases o
    · rfl
    · exact allParts_result ps

@[simp] theorem tryRep_result (w : Str) (out : List Str) : (tryRep S fuel w out).result = S.tryRep fuel w out := by
  simp only [tryRep, Suggester.tryRep, bind_result, addIfCorrect_result, ite_result, allParts_result]
  rfl

@[simp] theorem repSuggest_result (w : Str) (out : List Str) :
    (repSuggest S fuel w out).result = S.repSuggest fuel w out := by
  simp [repSuggest, Suggester.repSuggest]

@[simp] theorem mapSuggest_result (w : Str) (out : List Str) :
    (mapSuggest S fuel w out).result = S.mapSuggest fuel w out := by
  simp [mapSuggest, Suggester.mapSuggest]

@[simp] theorem unlimited_result (e : Edit) (w : Str) (out : List Str) :
    (unlimited S fuel e w out).result = S.free fuel e w out := by
  simp [unlimited, Suggester.free]

@[simp] theorem limited_result (e : Edit) (w : Str) (out : List Str) :
    (limited S fuel e w out).result = S.limited fuel e w out := by
  simp [limited, Suggester.limited]

@[simp] theorem twoWordsAt_result (out : List Str) (p : Str × Str) :
    (twoWordsAt S out p).result = .ok (S.twoWordsAt out p) := by
  obtain ⟨a, b⟩ := p
  have e : ∀ {α β : Type} (x : α) (f : α → Run β), ((.ok x : Run α) >>= f) = f x := fun _ _ => rfl
  simp only [twoWordsAt, Suggester.twoWordsAt, bind_result, lookup_result, ite_result, pure_result, e]
  repeat' split
  all_goals rfl

theorem foldlM_ok {α β : Type} (f : β → α → β) : ∀ (l : List α) (b : β),
    l.foldlM (fun b a => (.ok (f b a) : Run β)) b = .ok (l.foldl f b)
  | [], _ => rfl
  | a :: l, b => foldlM_ok f l (f b a)

@[simp] theorem twoWordsSuggest_result (w : Str) (out : List Str) :
    (twoWordsSuggest S w out).result = .ok (S.twoWordsSuggest w out) := by
  unfold twoWordsSuggest Suggester.twoWordsSuggest
  split
  · rfl
  · simp [foldlM_ok]

@[simp] theorem highQuality_result (w : Str) (m n : Nat) :
    (highQuality S fuel w m n).result = S.highQuality fuel w m n := by
  simp [highQuality, Suggester.highQuality]

@[simp] theorem suggestEdits_result (w : Str) (out : List Str) :
    (suggestEdits S fuel w out).result = S.suggestEdits fuel w out := by
  simp only [suggestEdits, Suggester.suggestEdits, bind_result, unlimited_result, limited_result,
    twoWordsSuggest_result]
  rfl

@[simp] theorem suggestLow_result (w : Str) (out : List Str) :
    (suggestLow S fuel w out).result = S.suggestLow fuel w out := by
  simp [suggestLow, Suggester.suggestLow]; rfl

@[simp] theorem lowThenFront_result (w : Str) (hq : Bool) (out : List Str) :
    (lowThenFront S fuel w hq out).result = S.lowThenFront fuel w hq out := by
  simp [lowThenFront, Suggester.lowThenFront]; rfl

@[simp] theorem pascalLower_result (b : Bool) (w : Str) (r : Bool × List Str) :
    (pascalLower S fuel b w r).result = S.pascalLower fuel b w r := by
  simp [pascalLower, Suggester.pascalLower]

@[simp] theorem pascalTitle_result (b : Bool) (w : Str) (r : Bool × List Str) :
    (pascalTitle S fuel b w r).result = S.pascalTitle fuel b w r := by
  simp [pascalTitle, Suggester.pascalTitle]

@[simp] theorem mixedCase_result (b : Bool) (w : Str) (out : List Str) :
    (mixedCase S fuel b w out).result = S.mixedCase fuel b w out := by
  simp [mixedCase, Suggester.mixedCase]; rfl

@[simp] theorem keepLower_result (w : Str) (out : List Str) :
    (keepLower S fuel w out).result = S.keepLower fuel w out := by
  simp [keepLower, Suggester.keepLower]; rfl

@[simp] theorem allCaps_result (w : Str) (out : List Str) :
    (allCaps S fuel w out).result = S.allCaps fuel w out := by
  simp [allCaps, Suggester.allCaps]; rfl

@[simp] theorem initCase_result (w : Str) (out : List Str) :
    (initCase S fuel w out).result = S.initCase fuel w out := by
  simp [initCase, Suggester.initCase]; rfl

@[simp] theorem dashCandidate_result (pre post : Str) (out : List Str) (s : Str) :
    (dashCandidate S fuel pre post out s).result = S.dashCandidate fuel pre post out s := by
  simp only [dashCandidate, Suggester.dashCandidate, bind_result, lookup_result]
  congr 1
  funext o
  cases o <;> rfl

@[simp] theorem dashPart_result (rec' : Str → List Str → Counted (List Str)) (out : List Str) (p : Str × Str × Str) :
    (dashPart S fuel rec' out p).result = S.dashPart fuel (fun w o => (rec' w o).result) out p := by
  obtain ⟨a, b, c⟩ := p
  simp [dashPart, Suggester.dashPart]; rfl

@[simp] theorem dashes_result (rec' : Str → List Str → Counted (List Str)) (w : Str) (out : List Str) :
    (dashes S fuel rec' w out).result = S.dashes fuel (fun w o => (rec' w o).result) w out := by
  simp only [dashes, Suggester.dashes, ite_result, loop_result, dashPart_result]; rfl

@[simp] theorem recheck_result (s : Str) : (recheck S fuel s).result = S.recheck fuel s := by
  simp only [recheck, Suggester.recheck, bind_result, lookup_result, ite_result, free_result]; rfl

@[simp] theorem recheckAll_result : ∀ out, (recheckAll S fuel out).result = S.recheckAll fuel out
  | [] => rfl
  | s :: out => by
    simp only [recheckAll, Suggester.recheckAll, bind_result, recheck_result, recheckAll_result out]; rfl

@[simp] theorem retained_result (c : Casing) (out : List Str) :
    (retained S fuel c out).result = S.retained fuel c out := by
  simp [retained, Suggester.retained]

@[simp] theorem finish_result (c : Casing) (out : List Str) : (finish S fuel c out).result = S.finish fuel c out := by
  simp [finish, Suggester.finish]; rfl

@[simp] theorem afterCasing_result (rec' : Str → List Str → Counted (List Str)) (c : Casing) (w : Str)
    (r : Bool × List Str) :
    (afterCasing S fuel rec' c w r).result = S.afterCasing fuel (fun w o => (rec' w o).result) c w r := by
  simp [afterCasing, Suggester.afterCasing]

@[simp] theorem forceTitle_result (w : Str) : (forceTitle S fuel w).result = S.forceTitle fuel w := by
  simp [forceTitle, Suggester.forceTitle]

@[simp] theorem suggestConverted_result (rec' : Str → List Str → Counted (List Str)) (w : Str) (out : List Str) :
    (suggestConverted S fuel rec' w out).result = S.suggestConverted fuel (fun w o => (rec' w o).result) w out := by
  unfold suggestConverted Suggester.suggestConverted
  cases classifyCasing S.C.U w <;> simp only [bind_result, forceTitle_result, ite_result, afterCasing_result,
    suggestLow_result, initCase_result, mixedCase_result, allCaps_result, free_result]
  rfl

@[simp] theorem suggestImpl_result : ∀ (depth : Nat) (w : Str) (out : List Str),
    (suggestImpl S fuel depth w out).result = S.suggestImpl fuel depth w out
  | 0, _, _ => rfl
  | depth + 1, w, out => by
    simp only [suggestImpl, Suggester.suggestImpl, ite_result, suggestConverted_result, suggestImpl_result depth]
    rfl

theorem suggest_result (depth : Nat) (w : Str) (out : List Str) :
    (suggest S fuel depth w out).result = S.suggest fuel depth w out := by
  simp [suggest, Suggester.suggest]

/-! ### How many texts the methods try -/

open Spec

theorem flatMap_len {α β : Type} {f : α → List β} {k : Nat} : ∀ {l : List α}, (∀ a ∈ l, (f a).length ≤ k) →
    (l.flatMap f).length ≤ l.length * k
  | [], _ => by simp
  | a :: l, h => by
    have h1 := h a (by simp)
    have h2 := flatMap_len (f := f) (k := k) (l := l) fun b hb => h b (List.mem_cons_of_mem a hb)
    rw [List.flatMap_cons, List.length_append, List.length_cons, Nat.add_mul, Nat.one_mul]
    omega

theorem splits_rest {w a b : Str} {c : Char} (h : (a, c, b) ∈ splits w) : a.length ≤ w.length ∧ b.length ≤ w.length := by
  rw [mem_splits] at h
  subst h
  simp only [List.length_append, List.length_cons]
  omega

theorem dropped_len (w : Str) : (dropped w).length = w.length := by simp [dropped, length_splits]

theorem cuts_len (w : Str) : (cuts w).length = w.length + 1 := by simp [cuts, length_splits]

theorem inserted_len (al w : Str) : (inserted al w).length ≤ al.length * (w.length + 1) :=
  flatMap_len fun c _ => by simp [cuts_len]

theorem replaced_len (al w : Str) : (replaced al w).length ≤ al.length * w.length :=
  flatMap_len fun c _ => by
    rw [List.length_map]
    exact (List.length_filter_le _ _).trans (Nat.le_of_eq (length_splits w))

theorem pairs_len (w : Str) : (pairs w).length ≤ w.length := by
  have := flatMap_len (l := splits w) (k := 1) (f := fun s : Str × Char × Str =>
    match s.2.2 with
    | y :: b => [(s.1, s.2.1, y, b)]
    | [] => []) (by rintro ⟨a, c, b⟩ _; cases b <;> simp)
  rw [length_splits, Nat.mul_one] at this
  exact this

theorem pairs_rest {w a b : Str} {x y : Char} (h : (a, x, y, b) ∈ pairs w) :
    a.length ≤ w.length ∧ b.length ≤ w.length := by
  rw [mem_pairs] at h
  subst h
  simp only [List.length_append, List.length_cons]
  omega

theorem neighbours_len (w : Str) : (neighboursSwapped w ++ pairsSwapped w).length ≤ w.length + 2 := by
  have h1 : (neighboursSwapped w).length ≤ w.length := by simpa [neighboursSwapped] using pairs_len w
  have h2 : (pairsSwapped w).length ≤ 2 := by unfold pairsSwapped; split <;> simp
  rw [List.length_append]
  omega

theorem swapped_len (w : Str) : (swapped w).length ≤ w.length * w.length := by
  have := flatMap_len (l := splits w) (k := w.length) (f := fun s : Str × Char × Str =>
    (splits s.2.2).map fun t => s.1 ++ t.2.1 :: (t.1 ++ s.2.1 :: t.2.2)) (by
      rintro ⟨a, c, b⟩ h
      rw [List.length_map, length_splits]
      exact (splits_rest h).2)
  rwa [length_splits] at this

theorem moved_len (w : Str) : (movedRight w ++ movedLeft w).length ≤ 2 * w.length * w.length := by
  have h1 : (movedRight w).length ≤ (pairs w).length * w.length := flatMap_len (by
    rintro ⟨a, x, y, b⟩ h
    rw [List.length_map, length_splits]
    exact (pairs_rest h).2)
  have h2 : (movedLeft w).length ≤ (pairs w).reverse.length * w.length := flatMap_len (by
    rintro ⟨a, x, y, b⟩ h
    rw [List.length_map, List.length_reverse, length_splits]
    exact (pairs_rest (List.mem_reverse.1 h)).1)
  rw [List.length_reverse] at h2
  have h3 := Nat.mul_le_mul_right w.length (pairs_len w)
  rw [List.length_append, Nat.mul_assoc]
  omega

theorem keysBeside_len (kb : Str) (c : Char) : (keysBeside kb c).length ≤ 2 * kb.length := by
  have h1 : ∀ o : Option Char, o.toList.length ≤ 1 := by intro o; cases o <;> simp
  have h2 := flatMap_len (l := (splits kb).filter fun s => s.2.1 = c) (k := 2) (f := fun s : Str × Char × Str =>
    (s.1.getLast?.filter (· ≠ '|')).toList ++ (s.2.2.head?.filter (· ≠ '|')).toList) (by
      intro s _
      rw [List.length_append]
      have := h1 (s.1.getLast?.filter (· ≠ '|'))
      have := h1 (s.2.2.head?.filter (· ≠ '|'))
      omega)
  have h3 := List.length_filter_le (fun s : Str × Char × Str => decide (s.2.1 = c)) (splits kb)
  rw [length_splits] at h3
  unfold keysBeside
  omega

theorem mistyped_len (U : Unicode) (kb w : Str) : (mistyped U kb w).length ≤ w.length * (1 + 2 * kb.length) := by
  have := flatMap_len (l := splits w) (k := 1 + 2 * kb.length) (f := fun s : Str × Char × Str =>
    (if U.upper s.2.1 ≠ [s.2.1] then [s.1 ++ (U.upper s.2.1 ++ s.2.2)] else []) ++
    (keysBeside kb s.2.1).map fun k => s.1 ++ k :: s.2.2) (by
      intro s _
      rw [List.length_append, List.length_map]
      have := keysBeside_len kb s.2.1
      split <;> simp <;> omega)
  rwa [length_splits] at this

theorem undoubled_len (w : Str) : (undoubled w).length ≤ w.length := by
  have : (undoubled w).length ≤ (splits w).length * 1 := flatMap_len (by
    intro s _
    split
    · split <;> simp
    · simp)
  rwa [length_splits, Nat.mul_one] at this

theorem matchIndicesFrom_len (pat : Str) : ∀ (w : Str) (skip pos : Nat),
    (matchIndicesFrom pat skip pos w).length ≤ w.length + 1
  | [], _, _ => by unfold matchIndicesFrom; split <;> simp
  | c :: w, 0, pos => by
    unfold matchIndicesFrom
    split
    · have := matchIndicesFrom_len pat w (pat.length - 1) (pos + 1)
      simp only [List.length_cons]; omega
    · have := matchIndicesFrom_len pat w 0 (pos + 1)
      simp only [List.length_cons]; omega
  | c :: w, skip + 1, pos => by
    unfold matchIndicesFrom
    have := matchIndicesFrom_len pat w skip (pos + 1)
    simp only [List.length_cons]; omega

theorem reworded_len (R : ReplacementTable) (h1 : R.wholeLast ≤ R.startLast) (h2 : R.startLast ≤ R.endLast) (w : Str) :
    (reworded R.whole R.start R.stop R.anywhere w).length ≤ R.table.length * (w.length + 1) := by
  have e1 : ((R.whole.filter fun r => decide (w = r.1)).map fun r => r.2).length ≤ R.whole.length * (w.length + 1) := by
    rw [List.length_map]
    exact (List.length_filter_le _ _).trans (Nat.le_mul_of_pos_right _ (by omega))
  have e2 : (R.start.flatMap fun r => if r.1 <+: w then [r.2 ++ w.drop r.1.length] else []).length ≤
      R.start.length * (w.length + 1) := flatMap_len (by intro r _; split <;> simp)
  have e3 : (R.stop.flatMap fun r => if r.1 <:+ w then [w.take (w.length - r.1.length) ++ r.2] else []).length ≤
      R.stop.length * (w.length + 1) := flatMap_len (by intro r _; split <;> simp)
  have e4 : (R.anywhere.flatMap fun r => (matchIndices w r.1).map fun i =>
      w.take i ++ (r.2 ++ w.drop (i + r.1.length))).length ≤ R.anywhere.length * (w.length + 1) :=
    flatMap_len (by intro r _; rw [List.length_map]; exact matchIndicesFrom_len _ _ _ _)
  have e5 : R.whole.length + R.start.length + R.stop.length + R.anywhere.length ≤ R.table.length := by
    simp only [ReplacementTable.whole, ReplacementTable.start, ReplacementTable.stop, ReplacementTable.anywhere,
      List.length_take, List.length_drop]
    omega
  have e6 := Nat.mul_le_mul_right (w.length + 1) e5
  simp only [Nat.add_mul] at e6
  unfold reworded
  simp only [List.length_append]
  omega

theorem longest {l : List (Str × Str)} {r : Str × Str} (h : r ∈ l) :
    r.2.length ≤ (l.map fun r => r.2.length).foldr max 0 := by
  induction l with
  | nil => cases h
  | cons a l ih =>
    rw [List.map_cons, List.foldr_cons]
    rcases List.mem_cons.1 h with rfl | h
    · omega
    · have := ih h; omega

theorem reworded_longest (D : Dict) (w : Str) : ∀ t ∈ reworded D.aff.replacements.whole D.aff.replacements.start
    D.aff.replacements.stop D.aff.replacements.anywhere w, t.length ≤ w.length + longestRep D := by
  have hl : ∀ {r : Str × Str}, r ∈ D.aff.replacements.table → r.2.length ≤ longestRep D := longest
  intro t ht
  simp only [reworded, List.mem_append, List.mem_map, List.mem_filter, List.mem_flatMap] at ht
  rcases ht with ((⟨r, ⟨hr, -⟩, rfl⟩ | ⟨r, hr, ht⟩) | ⟨r, hr, ht⟩) | ⟨r, hr, i, -, rfl⟩
  · have := hl (List.mem_of_mem_take hr); omega
  · have := hl (List.mem_of_mem_take (List.mem_of_mem_drop hr))
    split at ht <;> simp at ht
    subst ht
    simp only [List.length_append, List.length_drop]; omega
  · have := hl (List.mem_of_mem_take (List.mem_of_mem_drop hr))
    split at ht <;> simp at ht
    subst ht
    simp only [List.length_append, List.length_take]; omega
  · have := hl (List.mem_of_mem_drop hr)
    simp only [List.length_append, List.length_take, List.length_drop]; omega

theorem spacedParts_len : ∀ t cur : Str, (spacedParts cur t).length ≤ t.length
  | [], _ => by simp [spacedParts]
  | c :: t, cur => by
    unfold spacedParts
    split
    · have := spacedParts_len t []; simp only [List.length_cons]; omega
    · have := spacedParts_len t (cur ++ [c]); simp only [List.length_cons]; omega

theorem editBudget_le (C : Checker) (w : Str) : editBudget C w ≤ 100000 := by
  unfold editBudget
  dsimp only
  split
  · exact (Nat.div_le_self _ _).trans (by omega)
  · omega

theorem dashPieces_len : ∀ rest pre cur : Str, (dashPieces pre cur rest).length ≤ rest.length + 1
  | [], _, _ => by simp [dashPieces]
  | c :: rest, pre, cur => by
    unfold dashPieces
    split
    · have := dashPieces_len rest (pre ++ cur ++ [c]) []; simp only [List.length_cons]; omega
    · have := dashPieces_len rest pre (cur ++ [c]); simp only [List.length_cons]; omega

theorem dashPieces_part : ∀ (rest pre cur : Str), ∀ p ∈ dashPieces pre cur rest,
    p.2.1.length ≤ cur.length + rest.length
  | [], _, _, p, h => by simp [dashPieces] at h; subst h; simp
  | c :: rest, pre, cur, p, h => by
    unfold dashPieces at h
    split at h
    · rcases List.mem_cons.1 h with rfl | h
      · simp
      · have := dashPieces_part rest _ _ p h; simp at this ⊢; omega
    · have := dashPieces_part rest _ _ p h; simp at this ⊢; omega

/-! ### Bounds on lookups and results -/

/-- At most `n` lookups, and the result, if there is one, has the property. -/
def Within {α : Type} (c : Counted α) (n : Nat) (P : α → Prop) : Prop := c.calls ≤ n ∧ ∀ a, c.result = .ok a → P a

namespace Within
variable {α β : Type} {P : α → Prop} {Q : β → Prop} {n m : Nat}

theorem free {r : Run α} (h : ∀ a, r = .ok a → P a) : Within (Counted.free r) n P := ⟨Nat.zero_le _, h⟩

theorem ok {a : α} (h : P a) : Within (Counted.free (.ok a)) n P := free (by rintro b ⟨⟩; exact h)

theorem pure {a : α} (h : P a) : Within (Pure.pure a : Counted α) n P := ok h

theorem lookup {r : Run α} (h : ∀ a, r = .ok a → P a) : Within (lookup r) 1 P := ⟨Nat.le_refl 1, h⟩

theorem mono {c : Counted α} {P' : α → Prop} {n' : Nat} (h : Within c n P) (hn : n ≤ n') (hP : ∀ a, P a → P' a) :
    Within c n' P' := ⟨h.1.trans hn, fun a ha => hP a (h.2 a ha)⟩

theorem bind {c : Counted α} {f : α → Counted β} (h : Within c n P) (hf : ∀ a, P a → Within (f a) m Q) :
    Within (c >>= f) (n + m) Q := by
  obtain ⟨h1, h2⟩ := h
  refine ⟨?_, fun b hb => ?_⟩
  · show (Counted.bind c f).calls ≤ _
    unfold Counted.bind
    cases hc : c.result with
    | error e => exact h1.trans (Nat.le_add_right _ _)
    | ok a => exact Nat.add_le_add h1 (hf a (h2 a hc)).1
  · rw [bind_result, Run.bind_eq_ok] at hb
    obtain ⟨a, ha, hb⟩ := hb
    exact (hf a (h2 a ha)).2 b hb

theorem ite {p : Prop} [Decidable p] {a b : Counted α} (ha : p → Within a n P) (hb : ¬ p → Within b n P) :
    Within (if p then a else b) n P := by
  split
  · exact ha ‹_›
  · exact hb ‹_›

end Within

/-- At most `n` lookups, which add at most `m` texts to the vector. -/
def Adds (c : Counted (List Str)) (out : List Str) (n m : Nat) : Prop :=
  Within c n fun out' => out'.length ≤ out.length + m

theorem loop_adds {α : Type} {f : List Str → α → Counted (List Str)} {n m : Nat} : ∀ {l : List α} {out : List Str},
    (∀ a ∈ l, ∀ out, Adds (f out a) out n m) → Adds (loop f l out) out (l.length * n) (l.length * m)
  | [], out, _ => Within.ok (by simp)
  | a :: l, out, h => by
    have h1 := h a (by simp) out
    have : Adds (loop f (a :: l) out) out (n + l.length * n) (m + l.length * m) :=
      Within.bind h1 fun out' ho => (loop_adds (l := l) (out := out') fun b hb => h b (List.mem_cons_of_mem a hb)).mono
        (Nat.le_refl _) fun out'' ho' => by omega
    refine Within.mono this ?_ fun out' ho => ho.trans ?_ <;> rw [List.length_cons, Nat.add_mul, Nat.one_mul] <;> omega

variable {S fuel}

theorem addIfCorrect_within (w : Str) (out : List Str) :
    Within (addIfCorrect S fuel w out) 1 fun r => r.2.length ≤ out.length + r.1.toNat := by
  refine Within.mono (Within.bind (m := 0) (Within.lookup (P := fun _ => True) fun _ _ => trivial) fun o _ => ?_)
    (Nat.le_refl _) fun _ h => h
  cases o
  · exact Within.pure (by simp)
  · refine Within.ite (fun _ => Within.pure (by simp)) fun _ => Within.ite (fun _ => Within.pure (by simp)) fun _ =>
      Within.pure (by simp)

theorem addIfCorrect_adds (w : Str) (out : List Str) :
    Adds (do pure (← addIfCorrect S fuel w out).2) out 1 1 :=
  Within.mono (Within.bind (m := 0) (addIfCorrect_within w out) fun r h => Within.pure (h.trans
    (Nat.add_le_add_left (Bool.toNat_le r.1) _))) (Nat.le_refl _) fun _ h => h

theorem addAll_adds (texts out : List Str) : Adds (addAll S fuel texts out) out texts.length texts.length := by
  have := loop_adds (l := texts) (out := out) (n := 1) (m := 1) (f := fun out t => do
    pure (← addIfCorrect S fuel t out).2) fun t _ out => addIfCorrect_adds t out
  rwa [Nat.mul_one] at this

theorem allParts_within : ∀ ps : List Str, Within (allParts S fuel ps) ps.length fun _ => True
  | [] => Within.ok trivial
  | p :: ps => by
    refine Within.mono (Within.bind (m := ps.length) (Within.lookup (P := fun _ => True) fun _ _ => trivial) fun o _ => ?_)
      (by simp; omega) fun _ h => h
    cases o
    · exact Within.pure trivial
    · exact allParts_within ps

theorem tryRep_adds (w : Str) (out : List Str) : Adds (tryRep S fuel w out) out (w.length + 1) 1 := by
  refine Within.mono (Within.bind (m := w.length) (addIfCorrect_within w out) (Q := fun o => o.length ≤ out.length + 1) ?_)
    (by omega) fun _ h => h
  rintro ⟨added, o⟩ ho
  dsimp only at ho ⊢
  cases added
  · rw [if_neg (by simp)]
    refine Within.ite (fun _ => ?_) fun _ => Within.pure (by simp at ho; omega)
    refine Within.mono (Within.bind (m := 0) (allParts_within (spacedParts [] w)) fun b _ => ?_)
      (spacedParts_len w []) fun _ h => h
    exact Within.ite (fun _ => Within.pure (by simpa using ho)) fun _ => Within.pure (by simp at ho; omega)
  · exact Within.pure ho

theorem Adds.mono {c : Counted (List Str)} {out : List Str} {n m n' m' : Nat} (h : Adds c out n m) (hn : n ≤ n')
    (hm : m ≤ m') : Adds c out n' m' := Within.mono h hn fun _ h => h.trans (Nat.add_le_add_left hm _)

theorem Adds.bind {c : Counted (List Str)} {f : List Str → Counted (List Str)} {out : List Str} {n m n' m' : Nat}
    (h : Adds c out n m) (hf : ∀ o, Adds (f o) o n' m') : Adds (c >>= f) out (n + n') (m + m') :=
  Within.bind h fun o ho => Within.mono (hf o) (Nat.le_refl _) fun o' ho' => by omega

theorem Adds.after {α : Type} {r : Run α} {f : α → Counted (List Str)} {out : List Str} {n m : Nat}
    (h : ∀ a, r = .ok a → Adds (f a) out n m) : Adds (Counted.free r >>= f) out n m :=
  Within.mono (Within.bind (n := 0) (Within.free (P := fun a => r = .ok a) fun _ h => h) h) (by omega) fun _ h => h

theorem ofOption_ok {α : Type} {o : Option α} {a : α} (h : Run.ofOption o = .ok a) : o = some a := by
  cases o <;> cases h; rfl

theorem repSuggest_adds {rules : List (Str × Str)} (hR : ReplacementTable.from' rules = some S.C.aff.replacements)
    (w : Str) (out : List Str) : Adds (repSuggest S fuel w out) out
      (S.C.aff.replacements.table.length * (w.length + 1) * (w.length + longestRep S.C.dict + 1))
      (S.C.aff.replacements.table.length * (w.length + 1)) := by
  obtain ⟨h1, h2⟩ : S.C.aff.replacements.wholeLast ≤ S.C.aff.replacements.startLast ∧
      S.C.aff.replacements.startLast ≤ S.C.aff.replacements.endLast := by
    unfold ReplacementTable.from' at hR
    simp only [Option.bind_eq_bind, Option.bind_eq_some_iff, Option.pure_def, Option.some.injEq] at hR
    obtain ⟨acc, _, h⟩ := hR
    rw [← h]
    simp
  refine Adds.after fun texts ht => ?_
  have := ofOption_ok ht
  rw [rep_run w h1 h2, Option.some.injEq] at this
  have hl := reworded_len S.C.aff.replacements h1 h2 w
  rw [this] at hl
  have hg : ∀ t ∈ texts, t.length ≤ w.length + longestRep S.C.dict := this ▸ reworded_longest S.C.dict w
  refine Adds.mono (loop_adds (n := w.length + longestRep S.C.dict + 1) (m := 1) fun t h out => (tryRep_adds t out).mono
    (by have := hg t h; omega) (Nat.le_refl _)) (Nat.mul_le_mul_right _ hl) (by omega)

theorem similarTexts_nil : ∀ (fuel : Nat) (w : Str), similarTexts [] fuel w = []
  | 0, _ => rfl
  | _ + 1, [] => rfl
  | _ + 1, _ :: _ => by simp [similarTexts]

theorem mapSuggest_adds (w : Str) (out : List Str) :
    Adds (mapSuggest S fuel w out) out (mapLookups S.C.dict) (mapLookups S.C.dict) := by
  refine Adds.after fun n hn => Adds.after fun texts ht => ?_
  have := ofOption_ok ht
  rw [mapTexts_eq, Option.some.injEq] at this
  have hb := editBudget_le S.C w
  rw [← Suggester.maxAttempts_eq hn] at hb
  have : texts.length ≤ mapLookups S.C.dict := by
    unfold mapLookups
    split
    · rename_i h
      change S.C.aff.similarities = [] at h
      rw [h, similarTexts_nil] at this
      simp [← this]
    · rw [← this, List.length_take]; omega
  exact (addAll_adds texts out).mono this this

theorem unlimited_adds {e : Edit} {w : Str} {L : List Str} {k : Nat} (he : e.run w 0 = some L) (hk : L.length ≤ k)
    (out : List Str) : Adds (unlimited S fuel e w out) out k k := by
  refine Adds.after fun texts ht => ?_
  have := ofOption_ok ht
  rw [he, Option.some.injEq] at this
  subst this
  exact (addAll_adds L out).mono hk hk

theorem limited_adds {e : Edit} {w : Str} {L : List Str} {k : Nat} (he : ∀ n, e.run w n = some (L.take n))
    (hk : L.length ≤ k) (out : List Str) : Adds (limited S fuel e w out) out (atMost k) (atMost k) := by
  refine Adds.after fun n hn => Adds.after fun texts ht => ?_
  have := ofOption_ok ht
  rw [he, Option.some.injEq] at this
  have hb := editBudget_le S.C w
  rw [← Suggester.maxAttempts_eq hn] at hb
  have : texts.length ≤ atMost k := by rw [← this, List.length_take]; unfold atMost; omega
  exact (addAll_adds texts out).mono this this

theorem twoWordsAt_adds (out : List Str) (p : Str × Str) : Adds (twoWordsAt S out p) out 2 2 := by
  obtain ⟨a, b⟩ := p
  refine Within.bind (n := 1) (m := 1) (Within.lookup (P := fun _ => True) fun _ _ => trivial) fun o _ => ?_
  refine Within.ite (fun _ => Within.pure (by simp)) fun _ => ?_
  refine Within.bind (n := 1) (m := 0) (Within.lookup (P := fun _ => True) fun _ _ => trivial) fun o _ => ?_
  refine Within.ite (fun _ => Within.pure (by simp)) fun _ => ?_
  exact Within.ite (fun _ => Within.pure (by simp)) fun _ => Within.pure (by simp)

theorem twoWordsSuggest_adds (w : Str) (out : List Str) :
    Adds (twoWordsSuggest S w out) out (2 * w.length) (2 * w.length) := by
  refine Within.ite (fun _ => Within.ok (by omega)) fun _ => ?_
  have := loop_adds (l := wordCuts w) (out := out) (n := 2) (m := 2) fun p _ out => twoWordsAt_adds (S := S) out p
  exact Adds.mono this (by simp [wordCuts]; omega) (by simp [wordCuts]; omega)

theorem highQuality_within (w : Str) (m n : Nat) : Within (highQuality S fuel w m n) 1 fun _ => True :=
  Within.ite (fun _ => Within.ok trivial) fun _ => Within.ite (fun _ => Within.ok trivial) fun _ =>
    Within.lookup fun _ _ => trivial

theorem atMost_mono {m n : Nat} (h : m ≤ n) : atMost m ≤ atMost n := by unfold atMost; omega

/-- The bound grows with the length. -/
theorem lookupsPerSpelling_mono (D : Dict) {m n : Nat} (h : m ≤ n) : lookupsPerSpelling D m ≤ lookupsPerSpelling D n := by
  unfold lookupsPerSpelling
  have h1 : D.aff.replacements.table.length * (m + 1) * (m + longestRep D + 1) ≤
      D.aff.replacements.table.length * (n + 1) * (n + longestRep D + 1) :=
    Nat.mul_le_mul (Nat.mul_le_mul_left _ (by omega)) (by omega)
  have h2 := atMost_mono (Nat.mul_le_mul h h)
  have h3 := Nat.mul_le_mul_right (1 + 2 * D.aff.keyboardCloseness.length) h
  have h4 := atMost_mono (Nat.mul_le_mul_left D.aff.tryChars.length (Nat.add_le_add_right h 1))
  have h5 := atMost_mono (Nat.mul_le_mul (Nat.mul_le_mul_left 2 h) h)
  have h6 := atMost_mono (Nat.mul_le_mul_left D.aff.tryChars.length h)
  omega

theorem suggestEdits_adds (w : Str) (out : List Str) : Adds (suggestEdits S fuel w out) out
    ((w.length + 2) + (atMost (w.length * w.length) + (w.length * (1 + 2 * S.C.dict.aff.keyboardCloseness.length) + (w.length +
      (atMost (S.C.dict.aff.tryChars.length * (w.length + 1)) + (atMost (2 * w.length * w.length) +
      (atMost (S.C.dict.aff.tryChars.length * w.length) + (w.length + 2 * w.length))))))))
    ((w.length + 2) + (atMost (w.length * w.length) + (w.length * (1 + 2 * S.C.dict.aff.keyboardCloseness.length) + (w.length +
      (atMost (S.C.dict.aff.tryChars.length * (w.length + 1)) + (atMost (2 * w.length * w.length) +
      (atMost (S.C.dict.aff.tryChars.length * w.length) + (w.length + 2 * w.length)))))))) := by
  refine Adds.bind (unlimited_adds ((adjacentSwap_free w).run 0) (neighbours_len w) out) fun out => ?_
  refine Adds.bind (limited_adds (distantSwap_budgeted w).run (swapped_len w) out) fun out => ?_
  refine Adds.bind (unlimited_adds ((keyboard_free _ _ w).run 0) (mistyped_len _ _ w) out) fun out => ?_
  refine Adds.bind (unlimited_adds (extraChar_run w 0) (Nat.le_of_eq (dropped_len w)) out) fun out => ?_
  refine Adds.bind (limited_adds (forgottenChar_budgeted _ w).run (inserted_len _ w) out) fun out => ?_
  refine Adds.bind (limited_adds (moveChar_budgeted w).run (moved_len w) out) fun out => ?_
  refine Adds.bind (limited_adds (wrongChar_budgeted _ w).run (replaced_len _ w) out) fun out => ?_
  exact Adds.bind (unlimited_adds (doubled_run w 0) (undoubled_len w) out) fun out => twoWordsSuggest_adds w out

theorem suggestLow_within {rules : List (Str × Str)} (hR : ReplacementTable.from' rules = some S.C.aff.replacements)
    {w : Str} {N : Nat} (hw : w.length ≤ N) (out : List Str) :
    Within (suggestLow S fuel w out) (lookupsPerSpelling S.C.dict N)
      fun r => r.2.length ≤ out.length + lookupsPerSpelling S.C.dict N := by
  refine Within.mono ?_ (lookupsPerSpelling_mono _ hw) fun r (h : r.2.length ≤ out.length + _) =>
    h.trans (Nat.add_le_add_left (lookupsPerSpelling_mono _ hw) _)
  have hr := Nat.le_mul_of_pos_right (S.C.dict.aff.replacements.table.length * (w.length + 1))
    (show 0 < w.length + longestRep S.C.dict + 1 by omega)
  have := Within.bind (addIfCorrect_adds (S := S) (fuel := fuel) (S.C.opts.caseHandling.uppercase S.C.U w) out)
    (f := fun o1 => (do
      let o2 ← repSuggest S fuel w o1
      let o3 ← mapSuggest S fuel w o2
      let hq ← highQuality S fuel w out.length o3.length
      let o4 ← suggestEdits S fuel w o3
      pure (hq, o4) : Counted (Bool × List Str))) (Q := fun r => r.2.length ≤ out.length + lookupsPerSpelling S.C.dict w.length) fun o1 h1 =>
    Within.bind (repSuggest_adds (fuel := fuel) hR w o1) fun o2 h2 =>
    Within.bind (mapSuggest_adds (S := S) (fuel := fuel) w o2) fun o3 h3 =>
    Within.bind (highQuality_within (S := S) (fuel := fuel) w out.length o3.length) fun hq _ =>
    Within.bind (m := 0) (suggestEdits_adds (S := S) (fuel := fuel) w o3) fun o4 h4 => Within.pure (by
      unfold lookupsPerSpelling
      dsimp only at h1 h2 h3 h4 ⊢
      change o2.length ≤ o1.length + S.C.dict.aff.replacements.table.length * (w.length + 1) at h2
      omega)
  refine Within.mono this ?_ fun _ h => h
  unfold lookupsPerSpelling
  change _ + (S.C.dict.aff.replacements.table.length * (w.length + 1) * (w.length + longestRep S.C.dict + 1) + _) ≤ _
  omega

/-! ### The spellings -/

/-- What a part of `suggest_impl` costs: at most `n` lookups, which add at most `m` suggestions. -/
def Finds (c : Counted (Bool × List Str)) (out : List Str) (n m : Nat) : Prop :=
  Within c n fun r => r.2.length ≤ out.length + m

theorem lowThenFront_finds {rules : List (Str × Str)} (hR : ReplacementTable.from' rules = some S.C.aff.replacements)
    {w : Str} {N : Nat} (hw : w.length ≤ N) (hq : Bool) (out : List Str) :
    Finds (lowThenFront S fuel w hq out) out (lookupsPerSpelling S.C.dict N + 1) (lookupsPerSpelling S.C.dict N + 1) := by
  refine Within.bind (suggestLow_within hR hw out) ?_
  rintro ⟨q, o⟩ ho
  refine Within.bind (m := 0) (Within.lookup (P := fun _ => True) fun _ _ => trivial) fun b _ => Within.pure ?_
  dsimp only at ho ⊢
  split
  · rw [List.length_cons]; omega
  · omega

theorem Finds.mono {c : Counted (Bool × List Str)} {out : List Str} {n m n' m' : Nat} (h : Finds c out n m) (hn : n ≤ n')
    (hm : m ≤ m') : Finds c out n' m' := Within.mono h hn fun _ h => h.trans (Nat.add_le_add_left hm _)

theorem titleSecond_len (w : Str) : ∀ {rest done out : List Str}, S.titleSecond w done rest = .ok out →
    out.length = done.length + rest.length
  | [], done, out, h => by cases h; simp
  | s :: rest, done, out, h => by
    unfold Suggester.titleSecond at h
    split at h
    · have := titleSecond_len w h; simp at this ⊢; omega
    · split at h
      · have := titleSecond_len w h; simp at this ⊢; omega
      · rw [Run.bind_eq_ok] at h
        obtain ⟨t, -, h⟩ := h
        have := titleSecond_len w h; simp at this ⊢; omega

section
variable {k : Nat}

theorem lowerFirst_chars {U : Unicode} (hU : CaseGrowth U k) (h : CaseHandling) {w t : Str}
    (ht : h.lowerFirstChar U w = some t) : t.length ≤ k * w.length := by
  have hp := hU.pos
  have hl : ∀ c, (h.lowerChar U c).length ≤ k := by
    intro c
    unfold CaseHandling.lowerChar
    split
    · split
      · simpa using hp
      · split
        · simpa using hp
        · exact hU.lower c
    · exact hU.lower c
  cases w with
  | nil => cases ht
  | cons c w =>
    cases ht
    have := hl c
    have := Nat.le_mul_of_pos_left w.length hp
    rw [List.length_append, List.length_cons, Nat.mul_add]
    omega

theorem titlecase_len (hU : CaseGrowth S.C.U k) {w t : Str} (ht : S.C.titlecase w = .ok t) : t.length ≤ k * w.length := by
  unfold Checker.titlecase at ht
  split at ht
  · cases ht
    exact titlecase_chars hU _ ‹_›
  · cases ht

variable {rules : List (Str × Str)} (hR : ReplacementTable.from' rules = some S.C.aff.replacements)
  (hU : CaseGrowth S.C.U k) {w : Str} {N : Nat} (hw : k * (k * w.length) ≤ N)
include hR hU hw

theorem mixedCase_finds (pascal : Bool) (out : List Str) :
    Finds (mixedCase S fuel pascal w out) out (4 * lookupsPerSpelling S.C.dict N + 3) (4 * lookupsPerSpelling S.C.dict N + 4) := by
  have hk : k * w.length ≤ N := (Nat.le_mul_of_pos_left _ hU.pos).trans hw
  have hn : w.length ≤ N := (Nat.le_mul_of_pos_left _ hU.pos).trans hk
  have hd : ∀ o : List Str, (S.dotSpace w o).length ≤ o.length + 1 := by
    intro o
    unfold Suggester.dotSpace
    split
    · split <;> simp
    · simp
  have h1 : ∀ r, Finds (pascalLower S fuel pascal w r) r.2 (lookupsPerSpelling S.C.dict N + 1)
      (lookupsPerSpelling S.C.dict N + 1) := fun r => Within.ite (fun _ =>
    Within.mono (Within.bind (n := 0) (Within.free (P := fun t => t.length ≤ N) fun t ht =>
      (lowerFirst_chars hU _ (ofOption_ok ht)).trans hk) fun t ht => lowThenFront_finds hR ht r.1 r.2) (by omega)
      fun _ h => h) fun _ => Within.ok (by omega)
  have h2 : ∀ r, Finds (pascalTitle S fuel pascal w r) r.2 (lookupsPerSpelling S.C.dict N + 1)
      (lookupsPerSpelling S.C.dict N + 1) := fun r => Within.ite (fun _ =>
    Within.mono (Within.bind (n := 0) (Within.free (P := fun t => t.length ≤ N) fun t ht =>
      (titlecase_len hU ht).trans hk) fun t ht => lowThenFront_finds hR ht r.1 r.2) (by omega)
      fun _ h => h) fun _ => Within.ok (by omega)
  have hl : (S.C.lowercase w).length ≤ N := (lowercase_chars hU _ w).trans hk
  refine Within.mono (Within.bind (suggestLow_within hR hn out) (Q := fun r => r.2.length ≤ out.length +
      (4 * lookupsPerSpelling S.C.dict N + 4)) (m := 3 * lookupsPerSpelling S.C.dict N + 3) ?_) (by omega) fun _ h => h
  rintro ⟨q, o⟩ ho
  refine Within.mono (Within.bind (h1 (q, S.dotSpace w o)) fun r hr =>
    Within.bind (lowThenFront_finds hR hl r.1 r.2) fun r' hr' => Within.bind (h2 r') fun r'' hr'' =>
    Within.bind (n := 0) (m := 0) (Within.free (P := fun o => o.length = r''.2.length) fun o ho => by
      simpa using titleSecond_len w ho) fun o' ho' => Within.pure ?_) (by omega) fun _ h => h
  have := hd o
  dsimp only at *
  omega

theorem allCaps_finds (out : List Str) : Finds (allCaps S fuel w out) out (4 * lookupsPerSpelling S.C.dict N + 3)
    (4 * lookupsPerSpelling S.C.dict N + 4) := by
  have hk : k * w.length ≤ N := (Nat.le_mul_of_pos_left _ hU.pos).trans hw
  have hl : (S.C.lowercase w).length ≤ k * w.length := lowercase_chars hU _ w
  have h1 : Adds (keepLower S fuel (S.C.lowercase w) out) out 1 1 := Within.ite (fun _ =>
    Within.bind (m := 0) (Within.lookup (P := fun _ => True) fun _ _ => trivial) fun b _ => Within.pure (by
      split <;> simp)) fun _ => Within.ok (by omega)
  refine Within.mono (Within.bind h1 (Q := fun r => r.2.length ≤ out.length + (4 * lookupsPerSpelling S.C.dict N + 4))
    (m := 2 * lookupsPerSpelling S.C.dict N) fun o ho => ?_) (by omega) fun _ h => h
  refine Within.mono (Within.bind (suggestLow_within hR (hl.trans hk) o) (m := lookupsPerSpelling S.C.dict N) ?_)
    (by omega) fun _ h => h
  rintro ⟨q1, o1⟩ ho1
  refine Within.mono (Within.bind (n := 0) (Within.free (P := fun t => t.length ≤ N) fun t ht =>
    (titlecase_len hU ht).trans ((Nat.mul_le_mul_left k hl).trans hw)) fun t ht =>
    Within.bind (m := 0) (suggestLow_within hR ht o1) ?_) (by omega) fun _ h => h
  rintro ⟨q2, o2⟩ ho2
  refine Within.pure ?_
  dsimp only at *
  rw [List.length_map]
  omega

theorem initCase_finds (out : List Str) : Finds (initCase S fuel w out) out (4 * lookupsPerSpelling S.C.dict N + 3)
    (4 * lookupsPerSpelling S.C.dict N + 4) := by
  have hk : k * w.length ≤ N := (Nat.le_mul_of_pos_left _ hU.pos).trans hw
  have hn : w.length ≤ N := (Nat.le_mul_of_pos_left _ hU.pos).trans hk
  have hl : (S.C.lowercase w).length ≤ N := (lowercase_chars hU _ w).trans hk
  refine Within.mono (Within.bind (suggestLow_within hR hn out) (Q := fun r => r.2.length ≤ out.length +
      (4 * lookupsPerSpelling S.C.dict N + 4)) (m := lookupsPerSpelling S.C.dict N) ?_) (by omega) fun _ h => h
  rintro ⟨q1, o1⟩ ho1
  refine Within.bind (m := 0) (suggestLow_within hR hl o1) ?_
  rintro ⟨q2, o2⟩ ho2
  refine Within.pure ?_
  dsimp only at *
  omega

end

/-! ### Similar words, dashes, and the end -/

theorem select_adds {C : Checker} {b : Bool} {old limit : Nat} : ∀ (gs : List (MinScored Str)) (out : List Str),
    (C.selectGuesses b old limit gs out).length ≤ out.length + gs.length
  | [], out => by simp [Checker.selectGuesses]
  | g :: gs, out => by
    unfold Checker.selectGuesses
    have h1 := select_adds (C := C) (b := b) (old := old) (limit := limit) gs out
    have h2 := select_adds (C := C) (b := b) (old := old) (limit := limit) gs (out ++ [g.inner])
    simp only [List.length_append, List.length_cons, List.length_nil] at h2 ⊢
    repeat' split
    all_goals omega

theorem ngramSuggest_adds {C : Checker} {H : Heaps} {word : Str} {out out' : List Str}
    (h : C.ngramSuggest H word out = .ok out') : out'.length ≤ out.length + 200 := by
  unfold Checker.ngramSuggest at h
  rw [Run.bind_eq_ok] at h
  obtain ⟨w, -, h⟩ := h
  rw [Run.bind_eq_ok] at h
  obtain ⟨roots, -, h⟩ := h
  rw [Run.bind_eq_ok] at h
  obtain ⟨guesses, hg, h⟩ := h
  rw [Run.bind_eq_ok] at h
  obtain ⟨resc, hr, h⟩ := h
  rw [Run.pure_eq_ok] at h
  subst h
  obtain ⟨_, _, -, -, -, _, -, hl, -⟩ := guesses_foldlM (bestOf_nil 200) hg
  have h1 := congrArg List.length (Checker.rescore_inner hr)
  simp only [List.length_map] at h1
  have h2 := (H.sort_perm guesses).length_eq
  have h3 := (H.sort_perm resc).length_eq
  refine (select_adds _ _).trans ?_
  omega

theorem ngramPart_adds {casing : Casing} {w : Str} {hq : Bool} {out out' : List Str}
    (h : S.ngramPart casing w hq out = .ok out') : out'.length ≤ out.length + 200 := by
  unfold Suggester.ngramPart at h
  split at h
  · dsimp only at h
    rw [Run.bind_eq_ok] at h
    obtain ⟨o, ho, h⟩ := h
    rw [Run.pure_eq_ok] at h
    have := ngramSuggest_adds ho
    subst h
    split
    · simp; omega
    · exact this
  · cases h; omega

theorem dashCandidate_adds (pre post : Str) (out : List Str) (s : Str) :
    Adds (dashCandidate S fuel pre post out s) out 1 1 := by
  refine Within.bind (m := 0) (Within.lookup (P := fun _ => True) fun _ _ => trivial) fun o _ => ?_
  cases o
  · exact Within.pure (by simp)
  · exact Within.pure (by split <;> simp)

theorem dashes_adds {rec' : Str → List Str → Counted (List Str)} {w : Str} {n m : Nat}
    (hrec : ∀ p ∈ dashPieces [] [] w, Within (rec' p.2.1 []) n fun r => r.length ≤ m) (out : List Str) :
    Adds (dashes S fuel rec' w out) out ((w.length + 1) * (1 + n + m)) ((w.length + 1) * m) := by
  refine Within.ite (fun _ => ?_) fun _ => Within.ok (by omega)
  have := loop_adds (l := dashPieces [] [] w) (out := out) (n := 1 + n + m) (m := m)
    (f := dashPart S fuel rec') (by
      rintro ⟨a, b, c⟩ hp out
      refine Within.mono (Within.bind (n := 1) (m := n + m) (Within.lookup (P := fun _ => True) fun _ _ => trivial)
        (Q := fun o => o.length ≤ out.length + m) fun o _ => ?_) (by omega) fun _ h => h
      refine Within.ite (fun _ => Within.pure (by omega)) fun _ => ?_
      refine Within.bind (hrec _ hp) fun found hf => ?_
      have := loop_adds (l := found) (out := out) (n := 1) (m := 1)
        (f := dashCandidate S fuel a c) fun s _ out => dashCandidate_adds a c out s
      exact Adds.mono this (by omega) (by omega))
  exact Adds.mono this (Nat.mul_le_mul_right _ (dashPieces_len w [] [])) (Nat.mul_le_mul_right _ (dashPieces_len w [] []))

theorem recheck_within (s : Str) : Within (recheck S fuel s) 3 fun _ => True := by
  refine Within.ite (fun _ => Within.pure trivial) fun _ => ?_
  refine Within.bind (n := 1) (m := 2) (Within.lookup (P := fun _ => True) fun _ _ => trivial) fun b _ => ?_
  refine Within.ite (fun _ => Within.pure trivial) fun _ => ?_
  refine Within.bind (n := 1) (m := 1) (Within.lookup (P := fun _ => True) fun _ _ => trivial) fun b _ => ?_
  refine Within.ite (fun _ => Within.pure trivial) fun _ => ?_
  refine Within.bind (n := 0) (m := 1) (Within.free (P := fun _ => True) fun _ _ => trivial) fun t _ => ?_
  refine Within.bind (n := 1) (m := 0) (Within.lookup (P := fun _ => True) fun _ _ => trivial) fun b _ => ?_
  exact Within.ite (fun _ => Within.pure trivial) fun _ => Within.pure trivial

theorem recheckAll_within : ∀ out : List Str, Within (recheckAll S fuel out) (3 * out.length) fun r => r.length ≤ out.length
  | [] => Within.ok (by simp)
  | s :: out => by
    refine Within.mono (Within.bind (recheck_within s) fun o _ => Within.bind (m := 0) (recheckAll_within out) fun r hr =>
      Within.pure ?_) (by simp; omega) fun _ h => h
    cases o <;> simp <;> omega

theorem mapM_len {α β : Type} {f : α → Run β} : ∀ {l : List α} {r : List β}, l.mapM f = .ok r → r.length = l.length
  | [], r, h => by simp [Run.pure_eq_ok] at h; subst h; rfl
  | a :: l, r, h => by
    rw [List.mapM_cons, Run.bind_eq_ok] at h
    obtain ⟨b, -, h⟩ := h
    rw [Run.bind_eq_ok] at h
    obtain ⟨r', hr, h⟩ := h
    rw [Run.pure_eq_ok] at h
    subst h
    simp [mapM_len hr]

theorem finish_within (casing : Casing) (out : List Str) :
    Within (finish S fuel casing out) (3 * out.length) fun r => r.length ≤ out.length := by
  refine Within.mono (Within.bind (n := 0) (m := 3 * out.length) (Within.free (P := fun o => o.length = out.length) ?_)
    fun o ho => ?_) (by omega) fun _ h => h
  · intro o ho
    unfold Suggester.capitalise at ho
    split at ho
    · exact mapM_len ho
    · cases ho; rfl
  · refine Within.mono (Within.bind (n := 3 * o.length) (P := fun r => r.length ≤ o.length) (m := 0) ?_ fun r hr =>
      Within.bind (n := 0) (m := 0) (Within.free (P := fun r' => r'.length ≤ r.length) ?_) fun r' hr' =>
      Within.pure ?_) (by omega) fun _ h => h
    · exact Within.ite (fun _ => recheckAll_within o) fun _ => Within.ok (Nat.le_refl _)
    · intro r' hr'
      have := ofOption_ok hr'
      rw [deduplicate?_eq, Option.some.injEq] at this
      rw [← this]
      exact (firsts_sublist _ _).length_le
    · rw [List.length_map]; omega

section
variable {rec' : Str → List Str → Counted (List Str)} {w : Str} {n m N : Nat}

theorem afterCasing_within {c : Counted (Bool × List Str)}
    (hc : Finds c [] (4 * lookupsPerSpelling S.C.dict N + 3) (4 * lookupsPerSpelling S.C.dict N + 4))
    (hd : ∀ out, Adds (dashes S fuel rec' w out) out n m) (casing : Casing) :
    Within (c >>= afterCasing S fuel rec' casing w)
      (4 * lookupsPerSpelling S.C.dict N + 3 + n + 3 * (suggestionsPerPart S.C.dict N + m))
      fun r => r.length ≤ suggestionsPerPart S.C.dict N + m := by
  refine Within.mono (Within.bind hc (m := n + 3 * (suggestionsPerPart S.C.dict N + m)) fun r hr => ?_) (by omega)
    fun _ h => h
  refine Within.mono (Within.bind (n := 0) (Within.free (P := fun o => o.length ≤ r.2.length + 200) fun _ ho =>
    ngramPart_adds ho) fun o ho => Within.bind (hd o) fun o' ho' =>
    Within.mono (finish_within casing o') (n' := 3 * (suggestionsPerPart S.C.dict N + m)) ?_ fun r' hr' => ?_) (by omega)
    fun _ h => h
  all_goals
    unfold suggestionsPerPart
    rw [List.length_nil] at hr
    omega

variable {k : Nat} {rules : List (Str × Str)} (hR : ReplacementTable.from' rules = some S.C.aff.replacements)
  (hU : CaseGrowth S.C.U k)
include hR hU

/-- The result and the work for a word behind ICONV, if those for its dashes are known. -/
theorem suggestConverted_within (hw : k * (k * w.length) ≤ N) (hd : ∀ out, Adds (dashes S fuel rec' w out) out n m) :
    Within (suggestConverted S fuel rec' w [])
      (4 * lookupsPerSpelling S.C.dict N + 3 + n + 3 * (suggestionsPerPart S.C.dict N + m))
      fun r => r.length ≤ suggestionsPerPart S.C.dict N + m := by
  have hn : w.length ≤ N := ((Nat.le_mul_of_pos_left _ hU.pos).trans (Nat.le_mul_of_pos_left _ hU.pos)).trans hw
  unfold suggestConverted
  cases classifyCasing S.C.U w
  · -- lower case
    have hf : Within (forceTitle S fuel w) 1 fun _ => True :=
      Within.ite (fun _ => Within.lookup fun _ _ => trivial) fun _ => Within.ok trivial
    have hl : Finds (call (suggestLow S fuel w [])) [] (4 * lookupsPerSpelling S.C.dict N + 3)
        (4 * lookupsPerSpelling S.C.dict N + 4) := by
      obtain ⟨h1, h2⟩ := suggestLow_within (fuel := fuel) hR hn []
      refine ⟨?_, fun a ha => (h2 a ha).trans (by omega)⟩
      show (suggestLow S fuel w []).calls + 1 ≤ _
      omega
    have ha := afterCasing_within hl hd .none
    refine Within.mono (Within.bind (Q := fun r => r.length ≤ suggestionsPerPart S.C.dict N + m) (P := fun _ => True)
      (n := 1) (m := 4 * lookupsPerSpelling S.C.dict N + 2 + n + 3 * (suggestionsPerPart S.C.dict N + m)) hf fun b _ => ?_)
      (by omega) fun _ h => h
    refine Within.ite (fun _ => ?_) fun _ => ?_
    · refine Within.mono (Within.bind (n := 0) (m := 0) (Within.free (P := fun _ => True) fun _ _ => trivial) fun t _ =>
        Within.pure ?_) (by omega) fun _ h => h
      unfold suggestionsPerPart
      simp
      omega
    · obtain ⟨h1, h2⟩ := ha
      refine ⟨?_, fun a ha => h2 a ?_⟩
      · have e : (call (suggestLow S fuel w []) >>= afterCasing S fuel rec' Casing.none w).calls =
            (suggestLow S fuel w [] >>= afterCasing S fuel rec' Casing.none w).calls + 1 := by
          show (Counted.bind _ _).calls = (Counted.bind _ _).calls + 1
          unfold Counted.bind
          rw [call_result]
          cases (suggestLow S fuel w []).result with
          | ok a => show _ + 1 + _ = _ + _ + 1; omega
          | error e => rfl
        rw [e] at h1
        show (suggestLow S fuel w [] >>= afterCasing S fuel rec' Casing.none w).calls ≤ _
        omega
      · rw [bind_result] at ha ⊢
        exact ha
  · exact afterCasing_within (initCase_finds hR hU hw []) hd .init
  · exact afterCasing_within (allCaps_finds hR hU hw []) hd .all
  · exact afterCasing_within (mixedCase_finds hR hU hw false []) hd .camel
  · exact afterCasing_within (mixedCase_finds hR hU hw true []) hd .pascal

theorem dashes_none (hw : '-' ∉ w) (out : List Str) : Adds (dashes S fuel rec' w out) out 0 0 := by
  unfold dashes
  rw [if_neg (by simp [hw])]
  exact Within.ok (by omega)

end

theorem converts_chars {g : Nat} (hg : 1 ≤ g) {lines : List (Str × Str)} (hb : ∀ r ∈ lines, r.2.length ≤ g) {w out : Str}
    (h : Converts lines w out) : out.length ≤ g * w.length := by
  induction h with
  | done => simp
  | copy _ _ ih => rw [List.length_cons, List.length_cons, Nat.mul_add]; omega
  | @replace line pat w out hm ha _ _ ih =>
    have h1 := hb _ hm
    have h2 : 1 ≤ pat.length := List.length_pos_iff.2 ha.1
    have h3 := Nat.mul_le_mul_left g h2
    rw [List.length_append, List.length_append, Nat.mul_add]
    omega

section
variable {k g : Nat} {rules lines : List (Str × Str)}
  (hR : ReplacementTable.from' rules = some S.C.aff.replacements) (hU : CaseGrowth S.C.U k)
  (hi : SameConversions S.C.aff.inputConversions lines) (hg : 1 ≤ g) (hb : ∀ r ∈ lines, r.2.length ≤ g ∧ '-' ∉ r.2)

include hi hg hb in
theorem convert_chars (w : Str) : (S.C.aff.inputConversions.convert w).length ≤ g * w.length ∧
    ('-' ∉ w → '-' ∉ S.C.aff.inputConversions.convert w) := by
  obtain ⟨o, ho, hc⟩ := ConversionTable.convert?_spec (t := S.C.aff.inputConversions) hi w
  rw [ConversionTable.convert?_eq, Option.some.injEq] at ho
  rw [ho]
  exact ⟨converts_chars hg (fun r hr => (hb r hr).1) hc, Converts.noDash (fun r hr => (hb r hr).2) hc⟩

include hR hU hi hg hb

theorem suggestImpl_part (depth : Nat) {w : Str} {N : Nat} (hw : k * (k * (g * w.length)) ≤ N) (hd : '-' ∉ w) :
    Within (suggestImpl S fuel depth w []) (lookupsPerPart S.C.dict N) fun r => r.length ≤ suggestionsPerPart S.C.dict N := by
  cases depth with
  | zero => exact Within.free (by rintro a ⟨⟩)
  | succ depth =>
    obtain ⟨h1, h2⟩ := convert_chars hi hg hb w
    refine Within.ite (fun _ => Within.ok (by simp)) fun _ => ?_
    exact Within.mono (suggestConverted_within (N := N) hR hU
      ((Nat.mul_le_mul_left k (Nat.mul_le_mul_left k h1)).trans hw) (dashes_none hR hU (h2 hd))) (Nat.le_refl _) fun _ h => h

theorem suggestImpl_within (depth : Nat) {w : Str} {N : Nat} (hw : k * (k * (g * (g * w.length))) ≤ N) :
    Within (suggestImpl S fuel depth w []) (lookupsFor S.C.dict N) fun r => r.length ≤ suggestionsFor S.C.dict N := by
  cases depth with
  | zero => exact Within.free (by rintro a ⟨⟩)
  | succ depth =>
    obtain ⟨h1, -⟩ := convert_chars hi hg hb w
    refine Within.ite (fun _ => Within.ok (by simp)) fun _ => ?_
    have hk : k * (k * (g * w.length)) ≤ N := (Nat.mul_le_mul_left k (Nat.mul_le_mul_left k
      (Nat.mul_le_mul_left g (Nat.le_mul_of_pos_left _ hg)))).trans hw
    have hn : (S.C.aff.inputConversions.convert w).length + 1 ≤ N + 1 := Nat.add_le_add_right (h1.trans
      ((Nat.le_mul_of_pos_left _ hU.pos).trans ((Nat.le_mul_of_pos_left _ hU.pos).trans hk))) 1
    refine Within.mono (suggestConverted_within (N := N) (n := (N + 1) * (1 + lookupsPerPart S.C.dict N + suggestionsPerPart S.C.dict N))
      (m := (N + 1) * suggestionsPerPart S.C.dict N) hR hU
      ((Nat.mul_le_mul_left k (Nat.mul_le_mul_left k h1)).trans hk) fun out => ?_) (Nat.le_refl _) fun _ h => h
    refine Adds.mono (dashes_adds (n := lookupsPerPart S.C.dict N) (m := suggestionsPerPart S.C.dict N) (fun p hp => ?_) out)
      (Nat.mul_le_mul_right _ hn) (Nat.mul_le_mul_right _ hn)
    have h3 := dashPieces_part _ _ _ p hp
    rw [List.length_nil, Nat.zero_add] at h3
    exact suggestImpl_part hR hU hi hg hb depth ((Nat.mul_le_mul_left k (Nat.mul_le_mul_left k
      (Nat.mul_le_mul_left g (h3.trans h1)))).trans hw) (Suggester.dashPieces_noDash _ _ _ (by simp) p hp)

theorem suggest_within (depth : Nat) (w : Str) (out : List Str) :
    Within (suggest S fuel depth w out) (lookupsFor S.C.dict (k * (k * (g * (g * w.length)))))
      fun r => r.length ≤ suggestionsFor S.C.dict (k * (k * (g * (g * w.length)))) :=
  Within.ite (fun _ => Within.ok (by simp)) fun _ => suggestImpl_within hR hU hi hg hb depth (Nat.le_refl _)

end

theorem suggestionsPerPart_mono (D : Dict) {m n : Nat} (h : m ≤ n) : suggestionsPerPart D m ≤ suggestionsPerPart D n := by
  unfold suggestionsPerPart
  have := lookupsPerSpelling_mono D h
  omega

theorem suggestionsFor_mono (D : Dict) {m n : Nat} (h : m ≤ n) : suggestionsFor D m ≤ suggestionsFor D n := by
  unfold suggestionsFor
  have h1 := suggestionsPerPart_mono D h
  have h2 := Nat.mul_le_mul (Nat.add_le_add_right h 1) h1
  omega

theorem lookupsFor_mono (D : Dict) {m n : Nat} (h : m ≤ n) : lookupsFor D m ≤ lookupsFor D n := by
  unfold lookupsFor lookupsPerPart
  have h0 := lookupsPerSpelling_mono D h
  have h1 := suggestionsPerPart_mono D h
  have h2 := suggestionsFor_mono D h
  have h3 := Nat.mul_le_mul (Nat.add_le_add_right h 1) (show 1 + (4 * lookupsPerSpelling D m + 3 + 3 * suggestionsPerPart D m) +
    suggestionsPerPart D m ≤ 1 + (4 * lookupsPerSpelling D n + 3 + 3 * suggestionsPerPart D n) + suggestionsPerPart D n by omega)
  omega

/-! ### Every text is looked up -/

/-- A computation which comes to its end needs at least `n` lookups. -/
def AtLeast {α : Type} (c : Counted α) (n : Nat) : Prop := ∀ a, c.result = .ok a → n ≤ c.calls

namespace AtLeast
variable {α β : Type} {n m : Nat}

theorem zero {c : Counted α} : AtLeast c 0 := fun _ _ => Nat.zero_le _

theorem lookup {r : Run α} : AtLeast (Lookups.lookup r) 1 := fun _ _ => Nat.le_refl 1

theorem bind {c : Counted α} {f : α → Counted β} (h : AtLeast c n) (hf : ∀ a, c.result = .ok a → AtLeast (f a) m) :
    AtLeast (c >>= f) (n + m) := by
  intro b hb
  rw [bind_result, Run.bind_eq_ok] at hb
  obtain ⟨a, ha, hb⟩ := hb
  show _ ≤ (Counted.bind c f).calls
  unfold Counted.bind
  rw [ha]
  exact Nat.add_le_add (h a ha) (hf a ha b hb)

theorem loop {f : β → α → Counted β} : ∀ {l : List α} {b : β}, (∀ b, ∀ a ∈ l, AtLeast (f b a) n) →
    AtLeast (Lookups.loop f l b) (l.length * n)
  | [], _, _ => by rw [List.length_nil, Nat.zero_mul]; exact zero
  | a :: l, b, h => by
    have := bind (h b a (by simp)) fun b' _ => loop (l := l) (b := b') fun b c hc => h b c (List.mem_cons_of_mem a hc)
    rwa [List.length_cons, Nat.add_mul, Nat.one_mul, Nat.add_comm]

theorem after {r : Run α} {f : α → Counted β} (h : ∀ a, r = .ok a → AtLeast (f a) n) : AtLeast (Counted.free r >>= f) n := by
  have := bind (zero (c := Counted.free r)) h
  rwa [Nat.zero_add] at this

end AtLeast

theorem addIfCorrect_atLeast (w : Str) (out : List Str) : AtLeast (addIfCorrect S fuel w out) 1 :=
  AtLeast.bind (m := 0) .lookup fun _ _ => .zero

theorem addAll_atLeast (texts out : List Str) : AtLeast (addAll S fuel texts out) texts.length := by
  have := AtLeast.loop (l := texts) (b := out) (n := 1) (f := fun out t => do
    pure (← addIfCorrect S fuel t out).2) fun b t _ => AtLeast.bind (m := 0) (addIfCorrect_atLeast t b) fun _ _ => .zero
  rwa [Nat.mul_one] at this

theorem unlimited_atLeast {e : Edit} {w : Str} {L : List Str} (he : e.run w 0 = some L) (out : List Str) :
    AtLeast (unlimited S fuel e w out) L.length := by
  refine AtLeast.after fun texts ht => ?_
  have := ofOption_ok ht
  rw [he, Option.some.injEq] at this
  subst this
  exact addAll_atLeast L out

theorem limited_atLeast {e : Edit} {w : Str} {L : List Str} (he : ∀ n, e.run w n = some (L.take n)) (out : List Str) :
    AtLeast (limited S fuel e w out) (min (editBudget S.C w) L.length) := by
  refine AtLeast.after fun n hn => AtLeast.after fun texts ht => ?_
  have := ofOption_ok ht
  rw [he, Option.some.injEq] at this
  subst this
  rw [← Suggester.maxAttempts_eq hn, ← List.length_take]
  exact addAll_atLeast _ out

theorem mapSuggest_atLeast (w : Str) (out : List Str) : AtLeast (mapSuggest S fuel w out)
    (min (editBudget S.C w) (similarTexts S.C.aff.similarities (editBudget S.C w + 1) w).length) := by
  refine AtLeast.after fun n hn => AtLeast.after fun texts ht => ?_
  have := ofOption_ok ht
  rw [mapTexts_eq, Option.some.injEq] at this
  subst this
  rw [← Suggester.maxAttempts_eq hn, ← List.length_take]
  exact addAll_atLeast _ out

theorem repSuggest_atLeast {rules : List (Str × Str)} (hR : ReplacementTable.from' rules = some S.C.aff.replacements)
    (w : Str) (out : List Str) : AtLeast (repSuggest S fuel w out)
      (reworded S.C.aff.replacements.whole S.C.aff.replacements.start S.C.aff.replacements.stop
        S.C.aff.replacements.anywhere w).length := by
  refine AtLeast.after fun texts ht => ?_
  have := ofOption_ok ht
  rw [(Props.C41_rep S.C.aff.replacements w 0 hR).1, Option.some.injEq] at this
  subst this
  have := AtLeast.loop (n := 1) (b := out) (f := fun out t => tryRep S fuel t out) fun b t (_ : t ∈ reworded
    S.C.aff.replacements.whole S.C.aff.replacements.start S.C.aff.replacements.stop S.C.aff.replacements.anywhere w) =>
    AtLeast.bind (m := 0) (addIfCorrect_atLeast (S := S) (fuel := fuel) t b) fun _ _ => .zero
  rwa [Nat.mul_one] at this

theorem twoWordsSuggest_atLeast (w : Str) (out : List Str) :
    AtLeast (twoWordsSuggest S w out) (if S.C.opts.noSplitSuggestions then 0 else w.length) := by
  unfold twoWordsSuggest
  split
  · exact .zero
  · have := AtLeast.loop (n := 1) (l := wordCuts w) (b := out) (f := twoWordsAt S) (by
      rintro b ⟨x, y⟩ _
      exact AtLeast.bind (m := 0) .lookup fun _ _ => .zero)
    simpa [wordCuts] using this

/-- The texts which the edits of a spelling make, each of which is looked up. -/
theorem suggestLow_atLeast {rules : List (Str × Str)} (hR : ReplacementTable.from' rules = some S.C.aff.replacements)
    (w : Str) (out : List Str) : AtLeast (suggestLow S fuel w out) (textsTried S.C w) := by
  unfold textsTried
  refine AtLeast.bind (AtLeast.bind (m := 0) (addIfCorrect_atLeast _ out) fun _ _ => .zero) fun o1 _ => ?_
  refine AtLeast.bind (repSuggest_atLeast hR w o1) fun o2 _ => ?_
  refine AtLeast.bind (mapSuggest_atLeast w o2) fun o3 _ => ?_
  rw [← Nat.zero_add ((neighboursSwapped w ++ pairsSwapped w).length + _)]
  refine AtLeast.bind .zero fun hq _ => ?_
  rw [← Nat.add_zero ((neighboursSwapped w ++ pairsSwapped w).length + _)]
  refine AtLeast.bind ?_ fun _ _ => .zero
  refine AtLeast.bind (unlimited_atLeast ((adjacentSwap_free w).run 0) o3) fun out _ => ?_
  refine AtLeast.bind (limited_atLeast (distantSwap_budgeted w).run out) fun out _ => ?_
  refine AtLeast.bind (unlimited_atLeast ((keyboard_free _ _ w).run 0) out) fun out _ => ?_
  refine AtLeast.bind (unlimited_atLeast (extraChar_run w 0) out) fun out _ => ?_
  refine AtLeast.bind (limited_atLeast (forgottenChar_budgeted _ w).run out) fun out _ => ?_
  refine AtLeast.bind (limited_atLeast (moveChar_budgeted w).run out) fun out _ => ?_
  refine AtLeast.bind (limited_atLeast (wrongChar_budgeted _ w).run out) fun out _ => ?_
  exact AtLeast.bind (unlimited_atLeast (doubled_run w 0) out) fun out _ => twoWordsSuggest_atLeast w out

theorem AtLeast.mono {α : Type} {c : Counted α} {n m : Nat} (h : AtLeast c n) (hm : m ≤ n) : AtLeast c m :=
  fun a ha => hm.trans (h a ha)

theorem suggest_atLeast {rules : List (Str × Str)} (hR : ReplacementTable.from' rules = some S.C.aff.replacements)
    {w : Str} (h1 : byteLen w ≤ maxWordLen) (h2 : w ≠ [])
    (h3 : classifyCasing S.C.U (S.C.aff.inputConversions.convert w) ≠ .all)
    (h4 : S.C.opts.compoundForceUppercaseFlag = none) (depth : Nat) (out : List Str) :
    AtLeast (suggest S fuel depth w out) (textsTried S.C (S.C.aff.inputConversions.convert w)) := by
  unfold suggest
  dsimp only
  rw [if_neg (by omega)]
  cases depth with
  | zero => rintro a ⟨⟩
  | succ depth =>
    unfold suggestImpl
    rw [if_neg h2]
    generalize S.C.aff.inputConversions.convert w = v at h3
    have hl := suggestLow_atLeast (fuel := fuel) hR v (out.take 0)
    unfold suggestConverted
    cases hc : classifyCasing S.C.U v
    · refine AtLeast.mono (n := 0 + _) (AtLeast.bind .zero fun b hb => ?_) (Nat.le_of_eq (Nat.zero_add _).symm)
      have : b = false := by
        unfold forceTitle at hb
        rw [h4] at hb
        cases hb
        rfl
      subst this
      exact AtLeast.bind (m := 0) hl fun _ _ => .zero
    · exact AtLeast.bind (m := 0) (AtLeast.bind (m := 0) hl fun _ _ => .zero) fun _ _ => .zero
    · exact absurd hc h3
    · exact AtLeast.bind (m := 0) (AtLeast.bind (m := 0) hl fun _ _ => .zero) fun _ _ => .zero
    · exact AtLeast.bind (m := 0) (AtLeast.bind (m := 0) hl fun _ _ => .zero) fun _ _ => .zero

end Spellbook.Lookups
