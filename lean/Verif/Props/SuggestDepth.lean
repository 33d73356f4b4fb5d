import Verif.Spec.SuggestDepth
import Verif.Props.Suggest
import Verif.Props.Depth
import Mathlib.Data.Set.Finite.List
import Mathlib.Data.Set.Finite.Lattice
/-!
# C85 How deep `suggest` calls itself
-/

namespace Spellbook.Props
open Spec Run

/-! ## MAP -/

/-- Deeper calls than there are characters change nothing, if the texts of the groups are not empty. -/
theorem similarTexts_deep {sims : List SimilarityGroup} (hs : ∀ g ∈ sims, ∀ s ∈ g.strings, s ≠ []) :
    ∀ (n m : Nat) (w : Str), w.length ≤ n → w.length ≤ m → similarTexts sims n w = similarTexts sims m w := by
  intro n
  induction n with
  | zero =>
    intro m w hn hm
    have : w = [] := List.eq_nil_of_length_eq_zero (by omega)
    subst this
    cases m <;> simp [similarTexts, splits, splitsFrom]
  | succ n ih =>
    intro m w hn hm
    cases m with
    | zero =>
      have : w = [] := List.eq_nil_of_length_eq_zero (by omega)
      subst this
      simp [similarTexts, splits, splitsFrom]
    | succ m =>
      simp only [similarTexts]
      refine List.flatMap_congr ?_
      rintro ⟨a, c, b⟩ hw
      have hw := congrArg List.length (mem_splits.1 hw)
      simp only [List.length_append, List.length_cons] at hw
      dsimp only
      refine List.flatMap_congr ?_
      intro g hg
      split
      · rw [ih m b (by omega) (by omega)]
      · refine List.flatMap_congr ?_
        rintro ⟨str, k⟩ hk
        dsimp only
        have hne := hs g hg str (by rw [(List.mem_zipIdx' hk).2]; exact List.getElem_mem _)
        split
        · rfl
        · rename_i m' r hf
          have hr : r.length ≤ b.length := by
            unfold firstOccurrence at hf
            rw [Option.map_eq_some_iff] at hf
            obtain ⟨⟨x, y⟩, h1, h2⟩ := hf
            simp only [Prod.mk.injEq] at h2
            have hc := congrArg List.length (mem_cuts.1 (List.mem_of_find?_eq_some h1))
            have h3 : 0 < str.length := List.length_pos_iff.2 hne
            rw [← h2.2]
            simp only [List.length_append, List.length_cons, List.length_drop] at hc ⊢
            omega
          rw [ih m r (by omega) (by omega)]

/-- **C85** (MAP): `map_suggest_impl` is nested at most as deep as the word has characters; a deeper call finds nothing
to replace. -/
theorem C85_map {U : Unicode} {D : Dict} (hD : Reachable U D) (word : Str) :
    MapDepthAtMost D.aff.similarities word word.length := by
  intro deeper budget hd
  have h := (wellMade_reachable hD).sims
  have e : ∀ n, mapImpl D.aff.similarities n word 0 budget = _ := fun n => mapImpl_eq D.aff.similarities n [] word budget
  rw [e, e, similarTexts_deep (fun g hg s hs => by
    rintro rfl
    exact absurd (h g hg _ hs) (by simp)) deeper word.length word hd (Nat.le_refl _)]

/-! ## `suggest_impl` and the lookups -/

/-- There are finitely many words of at most 360 bytes. -/
theorem finite_words : {w : Str | w.length ≤ 360}.Finite := by
  have : Finite Char := Finite.of_injective (β := Fin 1114112)
    (fun c => ⟨c.toNat, by have := c.valid; unfold UInt32.isValidChar Nat.isValidChar at this; unfold Char.toNat; omega⟩)
    fun a b h => by
      simp only [Fin.mk.injEq] at h
      exact Char.ext (UInt32.toNat_inj.1 h)
  exact List.finite_length_le Char 360

section
variable {S : Suggester} (hS : S.C.dict.Shrinking) {lines : List (Str × Str)}
  (hi : SameConversions S.C.aff.inputConversions lines) (hd : ∀ r ∈ lines, '-' ∉ r.2)

include hi hd in
theorem no_new_dash (w : Str) (hw : '-' ∉ w) : '-' ∉ S.C.aff.inputConversions.convert w := by
  obtain ⟨o, ho, hc⟩ := ConversionTable.convert?_spec (t := S.C.aff.inputConversions) hi w
  rw [ConversionTable.convert?_eq, Option.some.injEq] at ho
  rw [ho]
  exact hc.noDash hd hw

/-- One number for all words, from a number for each. -/
theorem depth_for_all {p : Str → Prop} {calls : Nat} (h : ∀ word, p word → Still fun f => S.suggest f calls word []) :
    ∃ depth, ∀ word, p word → SuggestDepthAtMost S word calls depth := by
  have h : ∀ word, ∃ N, p word → ∀ f, N ≤ f → S.suggest f calls word [] ≠ .error .fuel := by
    intro word
    by_cases hp : p word
    · obtain ⟨r, N, hr, hN⟩ := h word hp
      exact ⟨N, fun _ f hf hx => hr ((hN f hf).symm.trans hx)⟩
    · exact ⟨0, fun h => absurd h hp⟩
  choose N hN using h
  obtain ⟨M, hM⟩ := (finite_words.image N).bddAbove
  refine ⟨M, fun word hp out hx => ?_⟩
  by_cases hl : byteLen word > maxWordLen
  · unfold Suggester.suggest at hx
    rw [if_pos hl] at hx
    cases hx
  · have h1 := length_le_byteLen word
    unfold maxWordLen at hl
    exact hN word hp M (hM (Set.mem_image_of_mem _ (show word.length ≤ 360 by omega))) hx

include hS hi hd

/-- **C85** (a constant): with a well-behaved dictionary, and if no ICONV line inserts a dash, `suggest_impl` is called
inside of itself at most once, and there is one number which bounds the depth of all lookups for all words: no input
makes the recursion deeper. -/
theorem C85_constant : ∃ depth, ∀ word, SuggestDepthAtMost S word 2 depth := by
  obtain ⟨M, h⟩ := depth_for_all (p := fun _ => True) fun word _ =>
    Suggester.suggest_still (S := S) hS (no_new_dash hi hd) 0 word []
  exact ⟨M, fun word => h word trivial⟩

/-- **C85** (without dashes): `suggest_impl` is not called inside of itself for a word without a dash. -/
theorem C85_no_dash : ∃ depth, ∀ word, '-' ∉ word → SuggestDepthAtMost S word 1 depth := by
  refine depth_for_all fun word hw => ?_
  unfold Suggester.suggest
  dsimp only
  split
  · exact .ok _
  · unfold Suggester.suggestImpl
    split
    · exact .ok _
    · exact Suggester.suggestConverted_still hS (fun h => absurd h (no_new_dash hi hd _ hw)) _

end

/-- **C85** (exception): if ICONV inserts a dash, no depth is enough. -/
theorem C85_iconv_negation : ∃ S : Suggester, Reachable .sample S.C.dict ∧ S.C.dict.Shrinking ∧
    ∀ calls depth, ¬ SuggestDepthAtMost S "a".toList calls depth := by
  obtain ⟨S, h1, -, -, h2, h3⟩ := C45_iconv_negation
  exact ⟨S, h1, h2, fun calls depth h => h [] (h3 depth calls)⟩

/-- The bounds are reached: two calls for a word with a dash, and the depth of the word's characters for MAP. The
theorems apply to this dictionary. -/
example : ∃ C, loadChecker "MAP 1\nMAP ab\nTRY o\n" "2\nfoo\nbbb\n" = some C ∧
    (∃ depth, ∀ word, SuggestDepthAtMost (editsOnly C) word 2 depth) ∧
    (∃ depth, ∀ word, '-' ∉ word → SuggestDepthAtMost (editsOnly C) word 1 depth) ∧
    ¬ SuggestDepthAtMost (editsOnly C) "fo-fo".toList 1 99 ∧
    Suggests (editsOnly C) "fo-fo".toList [] ["foo-fo".toList, "fo-foo".toList] ∧
    ¬ MapDepthAtMost C.dict.aff.similarities "aaa".toList 2 ∧ MapDepthAtMost C.dict.aff.similarities "aaa".toList 3 := by
  obtain ⟨C, h1, h2⟩ := of_load (aff := "MAP 1\nMAP ab\nTRY o\n") (dic := "2\nfoo\nbbb\n") (L := .default)
    (p := fun C => decide (C.dict.aff.inputConversions.inner = []) && decide (0 < C.opts.minChars) &&
      decide (C.opts.compoundSimplifiedTriple = false) && C.aff.compoundPatterns.isEmpty &&
      decide ((editsOnly C).suggest 99 1 "fo-fo".toList [] = .error .fuel) &&
      decide ((editsOnly C).suggest 99 2 "fo-fo".toList [] = .ok ["foo-fo".toList, "fo-foo".toList]) &&
      decide (mapImpl C.dict.aff.similarities 3 "aaa".toList 0 99 ≠ mapImpl C.dict.aff.similarities 2 "aaa".toList 0 99))
    (by decide +kernel)
  simp only [Bool.and_eq_true, decide_eq_true_eq, List.isEmpty_iff] at h2
  obtain ⟨⟨⟨⟨⟨⟨hi, hmin⟩, ht⟩, hp⟩, s1⟩, s2⟩, hm⟩ := h2
  have hD := (loadChecker_reachable h1).1
  have hS : (editsOnly C).C.dict.Shrinking := ⟨hmin, fun h => Bool.noConfusion (ht.symm.trans h), fun c hc => absurd hc (by
    change c ∉ C.dict.aff.compoundPatterns
    rw [show C.dict.aff.compoundPatterns = [] from hp]; simp)⟩
  have hc : SameConversions (editsOnly C).C.aff.inputConversions [] := by
    have : C.dict.aff.inputConversions = .empty := by
      cases hx : C.dict.aff.inputConversions
      rw [hx] at hi
      cases hi
      rfl
    change SameConversions C.dict.aff.inputConversions []
    rw [this]
    exact .nil
  exact ⟨C, h1, C85_constant hS hc (by simp), C85_no_dash hS hc (by simp), fun h => h [] s1, ⟨99, 2, s2⟩,
    fun h => hm (h 3 99 (by omega)), C85_map hD _⟩

end Spellbook.Props
