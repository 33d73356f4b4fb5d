import Verif.Proof.Select
import Verif.Proof.Letters
import Verif.Props.Simple
/-!
# Similarity (C42, C43, C44, and the part of C40, C45, C46 which concerns similarity)
-/

namespace Spellbook.Props
open Spec

/-! ## C42 Similarity metrics -/

/-- C42: the row by row computation yields the length of a longest common subsequence. -/
theorem C42_lcs (left right : Str) : LongestCommon left right (lcsLength left right) :=
  lcsLength_ok left right

/-- There is exactly one such number. -/
theorem C42_lcs_unique {left right : Str} {n : Nat} (h : LongestCommon left right n) :
    n = lcsLength left right := h.unique (C42_lcs left right)

example : lcsLength "adventure".toList "avenue".toList = 6 := by decide

/-- C42: if the first characters are equal, or the first character of the word is the lower case of
the other one, the score is one plus the length of the common prefix of the rest. (Only the first
character is compared without regard to case.) -/
theorem C42_common_prefix (U : Unicode) (h : CaseHandling) {l r : Char} (ls rs : Str)
    (hlr : l = r ∨ Small U h r [l] ∨ U.lower r = [l]) :
    ∃ n, leftCommon U h (l :: ls) (r :: rs) = n + 1 ∧ CommonPrefix ls rs n := by
  refine ⟨_, ?_, indexOfMismatch_ok ls rs⟩
  have : ¬ (l ≠ r ∧ h.isCharEqLowercase U l r = false) := by
    rintro ⟨h1, h2⟩; rcases hlr with h3 | h3
    · exact h1 h3
    · rw [same_iff.2 h3] at h2; cases h2
  simp only [leftCommon, if_neg this]
  cases indexOfMismatch ls rs <;> simp

/-- C42: otherwise, and for an empty text, it is zero. -/
theorem C42_common_prefix_zero (U : Unicode) (h : CaseHandling) (left right : Str) :
    leftCommon U h left right = 0 ↔ ¬ ∃ l ls r rs, left = l :: ls ∧ right = r :: rs ∧
      (l = r ∨ Small U h r [l] ∨ U.lower r = [l]) := by
  rcases left with _ | ⟨l, ls⟩
  · simp [leftCommon]
  rcases right with _ | ⟨r, rs⟩
  · simp [leftCommon]
  by_cases hlr : l = r ∨ Small U h r [l] ∨ U.lower r = [l]
  · obtain ⟨n, hn, -⟩ := C42_common_prefix U h ls rs hlr
    simp only [hn, Nat.add_eq_zero_iff, one_ne_zero, and_false, false_iff, not_not]
    exact ⟨l, ls, r, rs, rfl, rfl, hlr⟩
  · have h' : l ≠ r ∧ h.isCharEqLowercase U l r = false := by
      rw [← same_iff, not_or] at hlr; simpa using hlr
    simp only [leftCommon, if_pos h', true_iff]
    rintro ⟨_, _, _, _, h1, h2, h3⟩
    rw [List.cons.injEq] at h1 h2
    obtain ⟨rfl, rfl⟩ := h1
    obtain ⟨rfl, rfl⟩ := h2
    exact hlr h3

example : leftCommon .sample .standard "about".toList "Above".toList = 3 := by decide

/-- C42: the number of positions at which both texts have the same character. -/
theorem C42_same_position (left right : Str) :
    (countEqAtSamePos left right).1 = agreements left right := zip_count left right

/-- C42: the transposition test: the texts differ by an exchange of two characters, which need not
be neighbours. -/
theorem C42_transposition (left right : Str) :
    (countEqAtSamePos left right).2 = true ↔ Exchanged left right := swapped_iff left right

example : Exchanged "abcd".toList "adcb".toList := ⟨['a'], 'b', ['c'], 'd', [], by decide, rfl, rfl⟩
example : countEqAtSamePos "abcd".toList "adcb".toList = (2, true) := by decide
example : countEqAtSamePos "abcd".toList "axcy".toList = (2, false) := by decide

/-- C42: the n-gram similarity adds the numbers of common k-grams for `k = 1, 2, …`, up to `n` and the
length of the left text; it ends after the first `k` with less than two common k-grams. -/
theorem C42_ngram (n : Nat) (left right : Str) : ∃ last ≤ min n left.length,
    ngramSimilarity n left right = (((List.range' 1 last).map (hits left right)).sum : Nat) ∧
    (∀ k, 1 ≤ k → k < last → 2 ≤ hits left right k) ∧
    (last < min n left.length → 1 ≤ last ∧ hits left right last < 2) := by
  obtain ⟨j, hj, h1, h2, h3⟩ := ngramLoop_ok left right (min n left.length) 1 (by omega)
  refine ⟨j, hj, h1, fun k hk hk' => h2 k hk (by omega), fun hlt => ?_⟩
  rcases h3 with h3 | ⟨h3, h4⟩
  · omega
  · exact ⟨h3, by simpa using h4⟩

/-- C42: the score is not negative and at most the number of k-grams of the left text. -/
theorem C42_ngram_bounds (n : Nat) (left right : Str) : 0 ≤ ngramSimilarity n left right ∧
    ngramSimilarity n left right ≤ (((List.range' 1 (min n left.length)).map (grams left)).sum : Nat) := by
  obtain ⟨last, hl, h, -, -⟩ := C42_ngram n left right
  rw [h]
  refine ⟨by omega, Int.ofNat_le.mpr ?_⟩
  have hsplit : List.range' 1 (min n left.length) =
      List.range' 1 last ++ List.range' (1 + last) (min n left.length - last) := by
    rw [List.range'_append_1]; congr 1; omega
  rw [hsplit, List.map_append, List.sum_append]
  have : ∀ l : List Nat, (l.map (hits left right)).sum ≤ (l.map (grams left)).sum := by
    intro l
    induction l with
    | nil => simp
    | cons k l ih => simp only [List.map_cons, List.sum_cons]; have := hits_le left right k; omega
  have := this (List.range' 1 last)
  omega

/-- C42: the weighted similarity: for each `k` the number of common k-grams, minus the number of
others, minus once more those of the others which begin or end the left text. -/
theorem C42_ngram_weighted (n : Nat) (left right : Str) : ngramWeighted n left right =
    ((List.range' 1 (min n left.length)).map fun k => (hits left right k : Int)
      - (((List.range (grams left k)).filter fun i => ¬ gram left k i <:+: right).length : Nat)
      - (((List.range (grams left k)).filter fun i =>
          ¬ gram left k i <:+: right ∧ (i = 0 ∨ i + k = left.length)).length : Nat)).sum := by
  unfold ngramWeighted
  congr 1
  refine List.map_congr_left fun k hk => ?_
  rw [List.mem_range'_1] at hk
  exact weight_sum left right (by omega)

/-- C42: the penalties for texts of other lengths: one for each character more than two by which the
right text is longer, or, in the other variant, longer or shorter. -/
theorem C42_penalties (n : Nat) (left right : Str) (hr : right ≠ []) :
    ngramLongerWorse n left right
      = ngramSimilarity n left right - ((right.length - left.length - 2 : Nat) : Int) ∧
    ngramAnyMismatch n left right = ngramSimilarity n left right
      - ((max left.length right.length - min left.length right.length - 2 : Nat) : Int) ∧
    ngramAnyMismatchWeighted n left right = ngramWeighted n left right
      - ((max left.length right.length - min left.length right.length - 2 : Nat) : Int) := by
  have he : right.isEmpty = false := by cases right <;> simp_all
  unfold ngramLongerWorse ngramAnyMismatch ngramAnyMismatchWeighted
  simp only [he, Bool.false_eq_true, if_false]
  refine ⟨?_, ?_, ?_⟩ <;> split <;> omega

/-- "adventure" and "advance": 5 letters, "ad", "dv", and "adv" in common. -/
example : ngramSimilarity 3 "adventure".toList "advance".toList = 6 + 2 + 1 := by decide +kernel

/-! ## C43 Best candidates are kept -/

/-- C43: whatever the heap does with equal scores, it keeps the best candidates offered to it. -/
theorem C43_heap {α : Type} (H : Heaps) {cap : Nat} (hcap : 0 < cap) (offered : List (MinScored α)) :
    BestOf cap offered (offered.foldl (H.offer cap) []) := by
  simpa using bestOf_foldl (H := H) hcap offered [] [] (bestOf_nil cap)

/-- C43: a full heap keeps what it has when the next candidate is not better than one of its elements, and drops
one of the worst for it otherwise. -/
theorem C43_ties {α : Type} (H : Heaps) {cap : Nat} (heap : List (MinScored α)) (hf : heap.length = cap)
    (x : MinScored α) :
    ((∀ y ∈ heap, x.score ≤ y.score) → H.offer cap heap x = heap) ∧
    ((∃ y ∈ heap, y.score < x.score) → ∃ worst rest, heap.Perm (worst :: rest) ∧
      (∀ y ∈ heap, worst.score ≤ y.score) ∧ (H.offer cap heap x).Perm (x :: rest)) := by
  unfold Heaps.offer
  rw [if_neg (by simp [hf])]
  cases hp : H.pop heap with
  | none =>
    have := (H.pop_none heap).1 hp
    subst this
    simp
  | some tr =>
    obtain ⟨top, rest⟩ := tr
    obtain ⟨hk, hmin⟩ := H.pop_some heap rest top hp
    have hall : ∀ y ∈ heap, top.score ≤ y.score := fun y hy => by
      rcases List.mem_cons.1 (hk.mem_iff.1 hy) with rfl | hy
      · exact Int.le_refl _
      · exact hmin y hy
    refine ⟨fun h => ?_, ?_⟩
    · have := h top (hk.mem_iff.2 List.mem_cons_self)
      exact if_neg (by omega)
    · rintro ⟨y, hy, hlt⟩
      have := hall y hy
      refine ⟨top, rest, hk, hall, ?_⟩
      simp only
      rw [if_pos (by omega)]
      exact H.push_perm rest x

/-- C43: the roots are the best 100 of the entries of the word list which are not forbidden, not
marked NOSUGGEST or ONLYINCOMPOUND, and not hidden. -/
theorem C43_roots {C : Checker} {H : Heaps} {word : Str} {roots : List (MinScored (Str × FlagSet))}
    (h : C.ngramRoots H word = .ok roots) : ∃ scored : List (MinScored (Str × FlagSet)),
      (scored.map (·.inner)).Perm (C.dict.words.slots.filter fun e =>
        !(e.2.elems.contains C.opts.forbiddenWordFlag ||
          e.2.elems.any (fun f => C.opts.noSuggestFlag == some f || C.opts.onlyInCompoundFlag == some f)
          || e.2.elems.contains 65535)) ∧
      (∀ x ∈ scored, C.rootScore word x.inner.1 = .ok x.score) ∧ BestOf 100 scored roots := by
  obtain ⟨scored, h1, h2, h3⟩ := roots_foldlM (bestOf_nil 100) h
  refine ⟨scored, ?_, h2, by simpa using h3⟩
  rw [h1]
  refine ((Bag.iter_perm C.L C.dict.words).filter _).trans (.of_eq ?_)
  refine List.filter_congr fun e _ => ?_
  congr 1
  have hc : ∀ (F : FlagSet) f, F.contains f = F.elems.contains f := by
    intro F f; rw [Bool.eq_iff_iff, FlagSet.contains_iff]; simp
  have ho : ∀ (F : FlagSet) o, hasFlag F o = F.elems.any (fun f => o == some f) := by
    intro F o
    rw [Bool.eq_iff_iff, Checker.hasFlag_iff]
    simp [Has, and_comm]
  rw [Bool.eq_iff_iff]
  simp only [Checker.skipsForNgram, hc, ho, hiddenHomonymFlag, Bool.or_eq_true, List.any_eq_true, or_assoc]
  constructor
  · rintro (h | ⟨f, h⟩ | ⟨f, h⟩ | h)
    · exact Or.inl h
    · exact Or.inr (Or.inl ⟨f, h.1, Or.inl h.2⟩)
    · exact Or.inr (Or.inl ⟨f, h.1, Or.inr h.2⟩)
    · exact Or.inr (Or.inr h)
  · rintro (h | ⟨f, h, h' | h'⟩ | h)
    · exact Or.inl h
    · exact Or.inr (Or.inl ⟨f, h, h'⟩)
    · exact Or.inr (Or.inr (Or.inl ⟨f, h, h'⟩))
    · exact Or.inr (Or.inr (Or.inr h))

/-- C43: the guesses are the best 200 of the forms of all roots whose score reaches the threshold. -/
theorem C43_guesses {C : Checker} {H : Heaps} {word : Str} {roots : List (MinScored (Str × FlagSet))}
    {guesses : List (MinScored Str)} (h : C.ngramGuesses H word roots = .ok guesses) :
    ∃ (forms : List (List Str)) (scored : List (MinScored Str)),
      List.Forall₂ (fun root fs => C.expandStem root.inner.1 root.inner.2 word = .ok fs) roots forms ∧
      scored.map (·.inner) = forms.flatten ∧
      (∀ x ∈ scored, C.guessScore word x.inner = .ok x.score) ∧
      BestOf 200 (scored.filter fun x => Checker.ngramThreshold word ≤ x.score) guesses := by
  simpa using guesses_foldlM (bestOf_nil 200) h

/-- Five candidates for three places. -/
example : ([⟨2, 'a'⟩, ⟨7, 'b'⟩, ⟨1, 'c'⟩, ⟨7, 'd'⟩, ⟨5, 'e'⟩] : List (MinScored Char)).foldl
    (Heaps.sample.offer 3) [] = [⟨7, 'b'⟩, ⟨7, 'd'⟩, ⟨5, 'e'⟩] := by decide +kernel

/-! ## C44 Number of ngram suggestions is bounded -/

/-- C44 for at most 16 earlier suggestions: at most MAXNGRAMSUGS are added, and no more than 16 there
are altogether. (Missing: more than 16 earlier suggestions, where it is false.) -/
theorem C44_limit_partial {C : Checker} {H : Heaps} {word : Str} {out out' : List Str}
    (h : C.ngramSuggest H word out = .ok out') (hout : out.length ≤ 16) :
    out'.length ≤ out.length + C.opts.maxNgramSuggestions ∧ out'.length ≤ 16 := by
  unfold Checker.ngramSuggest at h
  rw [Run.bind_eq_ok] at h
  obtain ⟨w, -, h⟩ := h
  rw [Run.bind_eq_ok] at h
  obtain ⟨roots, -, h⟩ := h
  rw [Run.bind_eq_ok] at h
  obtain ⟨guesses, -, h⟩ := h
  rw [Run.bind_eq_ok] at h
  obtain ⟨resc, -, h⟩ := h
  rw [Run.pure_eq_ok] at h
  have := Checker.select_bound (C := C)
    (b := (H.sort resc).head?.any fun g => decide (g.score > 1000)) (old := out.length)
    (limit := min Checker.maxSuggestions (out.length + C.opts.maxNgramSuggestions)) (H.sort resc)
    (out := out) (by simp only [Checker.maxSuggestions]; omega)
  rw [h] at this
  simp only [Checker.maxSuggestions] at this
  omega

/-- Two listed words, MAXNGRAMSUGS 1. -/
def oneSuggestion : Checker :=
  mkChecker [("abcd", []), ("abce", [])] { options := { maxNgramSuggestions := 1, maxDiffFactor := 10 } }

/-- With no earlier suggestion the limit is kept. -/
example : oneSuggestion.ngramSuggest .sample "abcf".toList [] = .ok ["abcd".toList] := by decide +kernel

/-- C44 is false for 17 earlier suggestions: the test for the limit is an equation which is already
missed. -/
theorem C44_negation : ∃ (C : Checker) (H : Heaps) (word : Str) (out out' : List Str),
    C.opts.maxNgramSuggestions = 1 ∧ C.ngramSuggest H word out = .ok out' ∧
    out'.length = out.length + 2 :=
  ⟨oneSuggestion, .sample, "abcf".toList, "zyxwvutsrqponmlkj".toList.map ([·]),
    "zyxwvutsrqponmlkj".toList.map ([·]) ++ ["abcd".toList, "abce".toList], rfl, by decide +kernel, by decide⟩

/-! ## C46, C40, C45: where the suggestions come from -/

/-- C46 for the suggestions by similarity: each of them is a form of a listed entry which is not marked
NOSUGGEST, not forbidden, not ONLYINCOMPOUND and not a hidden twin. No earlier suggestion is changed.
(Missing: the suggestions by edits, where it is false, see `C46_negation`.) -/
theorem C46_ngram_partial {C : Checker} (hC : C.dict.CondsParsed) {H : Heaps} {word : Str}
    {out out' : List Str} (h : C.ngramSuggest H word out = .ok out') : ∃ new, out' = out ++ new ∧
      ∀ g ∈ new, ∃ stem F, (stem, F) ∈ C.dict.words.slots ∧ ¬ Has F C.opts.noSuggestFlag ∧
        C.opts.forbiddenWordFlag ∉ F.elems ∧ ¬ Has F C.opts.onlyInCompoundFlag ∧ 65535 ∉ F.elems ∧
        Expansion C.dict word stem F g := by
  obtain ⟨new, rfl, h1, -⟩ := Checker.ngramSuggest_new h
  refine ⟨new, rfl, fun g hg => ?_⟩
  obtain ⟨⟨stem, F⟩, he, hs, forms, hf, hm⟩ := h1 g hg
  simp only [Checker.skipsForNgram, Bool.or_eq_false_iff] at hs
  obtain ⟨⟨⟨h2, h3⟩, h4⟩, h5⟩ := hs
  have hc : ∀ f, F.contains f = false → f ∉ F.elems := by
    intro f hf hm
    rw [← FlagSet.contains_iff, hf] at hm
    cases hm
  exact ⟨stem, F, he, Checker.hasFlag_false.mp h3, hc _ h2, Checker.hasFlag_false.mp h4, hc _ h5,
    (Checker.mem_expandStem hC hf g).mp hm⟩

/-- No suggestion by similarity contains an earlier suggestion of any kind. -/
theorem C44_no_extensions {C : Checker} {H : Heaps} {word : Str} {out out' : List Str}
    (h : C.ngramSuggest H word out = .ok out') : ∃ new, out' = out ++ new ∧
      (∀ s ∈ out, ∀ g ∈ new, ¬ s <:+: g) ∧ new.Pairwise (fun s g => ¬ s <:+: g) := by
  obtain ⟨new, h1, -, h2, h3⟩ := Checker.ngramSuggest_new h
  exact ⟨new, h1, h2, h3⟩

/-- C40 for similarity: if no suffix of the affix file allows cross products, each suggestion is found
by the lookup of affixed words. (Missing: cross products, where it is false.) -/
theorem C40_ngram_no_cross {C : Checker} (hC : C.dict.CondsParsed) {H : Heaps} {word : Str}
    {out out' : List Str} (h : C.ngramSuggest H word out = .ok out')
    (hx : ∀ s ∈ tableOf C.dict .sfx, s.crossproduct = false) :
    ∃ new, out' = out ++ new ∧ ∀ g ∈ new, ∀ hh, (C.checkSimpleWord g hh).isSome = true := by
  obtain ⟨new, h1, h2⟩ := C46_ngram_partial hC h
  refine ⟨new, h1, fun g hg hh => ?_⟩
  obtain ⟨stem, F, hm, -, -, h5, h6, hex⟩ := h2 g hg
  cases hex with
  | bare plain => exact C06_completeness C hC _ hh (.listed ⟨hm, h5, fun _ => h6⟩ rfl plain) (.inl (by simp))
  | one cand cond applies =>
    exact C06_completeness C hC _ hh (.one ⟨hm, h5, fun _ => h6⟩ ⟨cand.mem, applies, cond⟩ cand.licence
      cand.full cand.alone cand.nocirc) (.inl (by simp))
  | cross hs _ _ hcr => rw [hx _ hs.mem] at hcr; cases hcr

/-- `ax` with a suffix which turns it into `bx`, and a prefix `u` for what begins with `b`. -/
def crossChecker : Checker := mkChecker [("ax", [1, 2])]
  { prefixes := .ofList .pfx [affix 2 "" "u" [] (some { pattern := ['b'], chars := 1, isLiteral := true })],
    suffixes := .ofList .sfx [affix 1 "ax" "bx"] }

theorem crossChecker_parsed : crossChecker.dict.CondsParsed := condsParsed_of (by decide +kernel)

/-- C40 is false for similarity: `uax` is suggested for `uabx`, but is not a word. A prefix which fits
a suffixed form is put in front of the bare stem. -/
theorem C40_ngram_negation : ∃ (C : Checker) (H : Heaps) (word new : Str),
    C.dict.CondsParsed ∧ C.ngramSuggest H word [] = .ok [new] ∧
    C.checkWord 100 new .allowBad .accept = .ok none :=
  ⟨crossChecker, .sample, "uabx".toList, "uax".toList, crossChecker_parsed, by decide +kernel,
    by decide +kernel⟩

/-- The same checker suggests `ax` for `axc`, by the rule for bare stems. -/
example : crossChecker.ngramSuggest .sample "axc".toList [] = .ok ["ax".toList] := by decide +kernel

/-- C45: the forms of a stem are made without a panic iff every prefix which fits a suffixed form has
its text to strip at the start of the bare stem, too. -/
theorem C45_expansion_partial {C : Checker} (hC : C.dict.CondsParsed) (stem word : Str) (F : FlagSet) :
    C.expandStem stem F word ≠ .error .panic ↔
      ∀ s p mid mid', Candidate C.dict .sfx word F s → CondHolds .sfx s stem → Applies .sfx s stem mid →
        s.crossproduct = true → Candidate C.dict .pfx word F p → CondHolds .pfx p mid →
        Applies .pfx p mid mid' → (p.strip.getD []) <+: stem := by
  have hap : ∀ p : Affix, (∃ form, Applies .pfx p stem form) ↔ (p.strip.getD []) <+: stem := by
    intro p
    constructor
    · rintro ⟨form, rest, h1, -⟩; exact ⟨rest, h1.symm⟩
    · rintro ⟨rest, h1⟩; exact ⟨p.add ++ rest, rest, h1.symm, rfl⟩
  simp only [← hap]
  rw [← Checker.expandStem_ok_iff hC stem word F]
  constructor
  · intro h
    cases hr : C.expandStem stem F word with
    | ok r => exact ⟨r, rfl⟩
    | error e =>
      cases e with
      | panic => exact absurd hr h
      | fuel => exact absurd hr (Checker.expandStem_no_fuel stem word F)
  · rintro ⟨r, hr⟩; rw [hr]; simp

/-- `b` with a suffix which turns it into `ab`, and a prefix which strips `a`. -/
def stripChecker : Checker := mkChecker [("b", [1, 2])]
  { prefixes := .ofList .pfx [affix 2 "a" ""], suffixes := .ofList .sfx [affix 1 "b" "ab"] }

/-- C45 is false: the search for similar words panics. -/
theorem C45_ngram_negation : ∃ (C : Checker) (H : Heaps) (word : Str),
    C.dict.CondsParsed ∧ C.ngramSuggest H word [] = .error .panic :=
  ⟨stripChecker, .sample, "xab".toList, condsParsed_of (by decide +kernel), by decide +kernel⟩

end Spellbook.Props
