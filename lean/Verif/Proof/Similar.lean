import Verif.Proof.Letters
import Verif.Spec.Similar
import Verif.Proof.Select
import Verif.Proof.Attempts
/-!
# Suggestions by similarity: scores and choice
-/

namespace Spellbook
open Spec

/-! ## Measures -/

theorem likeness_zero {a b : Str} : ∀ (m k : Nat), (∃ j < k, 1 ≤ j ∧ hits a b j < 2) →
    ((List.range' k m).map fun k => if ∀ j < k, 1 ≤ j → 2 ≤ hits a b j then hits a b k else 0).sum = 0
  | 0, _, _ => rfl
  | m + 1, k, ⟨j, hj, h1, h2⟩ => by
    rw [List.range'_succ, List.map_cons, List.sum_cons, likeness_zero m (k + 1) ⟨j, by omega, h1, h2⟩,
      if_neg fun h => by have := h j hj h1; omega]

theorem likeness_loop {a b : Str} : ∀ (m k : Nat), k + m ≤ a.length + 1 → 1 ≤ k →
    (∀ j < k, 1 ≤ j → 2 ≤ hits a b j) →
    ngramLoop a b (List.range' k m) =
      (((List.range' k m).map fun k => if ∀ j < k, 1 ≤ j → 2 ≤ hits a b j then hits a b k else 0).sum : Nat)
  | 0, _, _, _, _ => rfl
  | m + 1, k, hk, h1, h => by
    rw [List.range'_succ, List.map_cons, List.sum_cons, if_pos h]
    simp only [ngramLoop, kScore_eq a b (k := k) (by omega)]
    by_cases hs : hits a b k < 2
    · rw [if_pos hs, likeness_zero m (k + 1) ⟨k, by omega, h1, hs⟩]
      simp
    · rw [if_neg hs, likeness_loop m (k + 1) (by omega) (by omega) fun j hj hj1 => ?_]
      · simp
      · rcases Nat.lt_or_ge j k with hlt | hge
        · exact h j hlt hj1
        · obtain rfl : j = k := by omega
          omega

theorem likeness_eq (n : Nat) (a b : Str) : ngramSimilarity n a b = likeness n a b :=
  likeness_loop _ 1 (by omega) (by omega) (by omega)

theorem hits_nil {a : Str} {k : Nat} (hk : 1 ≤ k) (hka : k ≤ a.length) : hits a [] k = 0 := by
  unfold hits
  rw [List.length_eq_zero_iff, List.filter_eq_nil_iff]
  intro i hi
  rw [List.mem_range] at hi
  unfold grams at hi
  simp only [List.infix_nil, decide_eq_true_eq]
  intro h
  have := congrArg List.length h
  simp only [gram, List.length_take, List.length_drop, List.length_nil] at this
  omega

theorem likeness_nil (n : Nat) (a : Str) : likeness n a [] = 0 := by
  unfold likeness
  have : ∀ l : List Nat, (∀ k ∈ l, 1 ≤ k ∧ k ≤ a.length) →
      (l.map fun k => if ∀ j < k, 1 ≤ j → 2 ≤ hits a [] j then hits a [] k else 0).sum = 0 := by
    intro l
    induction l with
    | nil => exact fun _ => rfl
    | cons k l ih =>
      intro h
      rw [List.map_cons, List.sum_cons, ih fun j hj => h j (List.mem_cons_of_mem _ hj),
        hits_nil (h k List.mem_cons_self).1 (h k List.mem_cons_self).2]
      simp
  refine this _ fun k hk => ?_
  rw [List.mem_range'_1] at hk
  omega

theorem longerWorse_eq (n : Nat) (a b : Str) : ngramLongerWorse n a b = (likeness n a b : Int) - longer a b := by
  unfold ngramLongerWorse longer
  cases b with
  | nil => simp [likeness_nil]
  | cons c b =>
    simp only [List.isEmpty_cons, Bool.false_eq_true, if_false, likeness_eq]
    split <;> omega

theorem similarity_eq (n : Nat) (a b : Str) : ngramAnyMismatch n a b = similarity n a b := by
  unfold ngramAnyMismatch similarity apart
  cases b with
  | nil => rfl
  | cons c b =>
    simp only [List.isEmpty_cons, Bool.false_eq_true, if_false, likeness_eq, reduceCtorEq]
    split <;> omega

theorem weighted_eq (n : Nat) (a b : Str) : ngramAnyMismatchWeighted n a b = weighted n a b := by
  unfold ngramAnyMismatchWeighted weighted apart
  cases b with
  | nil => rfl
  | cons c b =>
    simp only [List.isEmpty_cons, Bool.false_eq_true, if_false, reduceCtorEq]
    have : ngramWeighted n a (c :: b) = ((List.range' 1 (min n a.length)).map fun k =>
        (hits a (c :: b) k : Int) - misses a (c :: b) k - endMisses a (c :: b) k).sum := by
      unfold ngramWeighted
      congr 1
      refine List.map_congr_left fun k hk => ?_
      rw [List.mem_range'_1] at hk
      exact weight_sum a (c :: b) (by omega)
    rw [this]
    split <;> omega

theorem commonStart (C : Checker) (a b : Str) : CommonStart C a b (leftCommon C.U C.opts.caseHandling a b) := by
  unfold leftCommon
  split
  · rename_i l ls r rs
    split
    · rename_i h
      refine .inr ⟨rfl, fun l' ls' r' rs' h1 h2 => ?_⟩
      rw [List.cons.injEq] at h1 h2
      obtain ⟨rfl, rfl⟩ := h1
      obtain ⟨rfl, rfl⟩ := h2
      rintro (h' | h')
      · exact h.1 h'
      · rw [same_iff.2 h'] at h; cases h.2
    · rename_i h
      refine .inl ⟨l, ls, r, rs, _, rfl, rfl, ?_, indexOfMismatch_ok ls rs, ?_⟩
      · by_cases hlr : l = r
        · exact .inl hlr
        · right
          by_contra hc
          rw [← same_iff] at hc
          exact h ⟨hlr, by simpa using hc⟩
      · cases indexOfMismatch ls rs <;> simp
  · rename_i h
    refine .inr ⟨rfl, fun l ls r rs h1 h2 => ?_⟩
    exact absurd h2 (h l ls r rs h1)

/-! ## The threshold -/

theorem star_eq : ∀ (cs : Str) (i : Nat), Checker.star i cs =
    (List.range' i cs.length).zipWith (fun i c => if i % 4 = 0 then '*' else c) cs
  | [], _ => rfl
  | c :: cs, i => by
    rw [Checker.star, star_eq cs (i + 1)]
    rfl

theorem starred_eq (w : Str) (k : Nat) : w.take k ++ Checker.star 0 (w.drop k) = starred w k := by
  unfold starred
  refine List.ext_getElem? fun i => ?_
  rw [star_eq]
  rw [List.getElem?_append, List.getElem?_zipWith, List.getElem?_zipWith]
  by_cases hi : i < w.length
  · by_cases hik : i < k
    · have h1 : i < (w.take k).length := by rw [List.length_take]; omega
      rw [if_pos h1, List.getElem?_take_of_lt hik, List.getElem?_range hi, List.getElem?_eq_getElem hi]
      simp only
      rw [if_neg (by omega)]
    · have h1 : ¬ i < (w.take k).length := by rw [List.length_take]; omega
      have h2 : (w.take k).length = k := by rw [List.length_take]; omega
      rw [if_neg h1, h2, List.getElem?_range hi, List.getElem?_range' (by rw [List.length_drop]; omega), List.getElem?_drop]
      have e : k + (i - k) = i := by omega
      rw [e, List.getElem?_eq_getElem hi]
      simp only [Nat.zero_add, Nat.one_mul]
      have : k ≤ i := by omega
      simp [this]
  · have h1 : ¬ i < (w.take k).length := by rw [List.length_take]; omega
    rw [if_neg h1]
    have h3 : w[i]? = none := by rw [List.getElem?_eq_none_iff]; omega
    have h4 : (w.drop k)[i - (w.take k).length]? = none := by
      rw [List.getElem?_eq_none_iff, List.length_drop, List.length_take]; omega
    rw [h3, h4]
    cases (List.range' 0 (w.drop k).length)[i - (w.take k).length]? <;> cases (List.range w.length)[i]? <;> rfl

theorem length_starred (w : Str) (k : Nat) : (starred w k).length = w.length := by
  unfold starred; simp

theorem similarity_starred (w : Str) (k : Nat) (n : Nat) :
    similarity n w (starred w k) = (likeness n w (starred w k) : Int) := by
  unfold similarity apart
  rw [length_starred]
  split
  · rename_i h
    rw [h, likeness_nil]; rfl
  · simp

theorem threshold_eq (w : Str) : Checker.ngramThreshold w = threshold w := by
  unfold Checker.ngramThreshold threshold
  have h1 : ∀ l : List Nat, (l.map fun k => ngramAnyMismatch w.length w (w.take k ++ Checker.star 0 (w.drop k))).sum =
      (((l.map fun k => likeness w.length w (starred w k)).sum : Nat) : Int) := by
    intro l
    induction l with
    | nil => rfl
    | cons k l ih =>
      rw [List.map_cons, List.sum_cons, ih, starred_eq, similarity_eq, similarity_starred]
      simp
  rw [h1]
  have h2 : ((List.range (w.length + 1)).drop 1).take 3 = ([1, 2, 3] : List Nat).filter (· ≤ w.length) := by
    rcases w with _ | ⟨a, _ | ⟨b, _ | ⟨c, w⟩⟩⟩
    · rfl
    · rfl
    · rfl
    · have : List.range ((a :: b :: c :: w).length + 1) = 0 :: 1 :: 2 :: 3 :: (List.range w.length).map (· + 4) := by
        simp only [List.length_cons, List.range_succ_eq_map, List.map_cons, List.map_map]
        rfl
      rw [this]
      simp
  rw [h2]
  rfl

namespace Checker
variable {C : Checker} {H : Heaps}

theorem charsStr_eq {s t : Str} (h : charsStr s = .ok t) : t = s := by
  unfold charsStr at h
  split at h
  · simpa using h.symm
  · simp at h

theorem rootScore_ok {w stem : Str} {n : Int} (h : C.rootScore w stem = .ok n) : RootScore C w stem n := by
  unfold rootScore at h
  rw [Run.bind_eq_ok] at h
  obtain ⟨s, hs, h⟩ := h
  obtain rfl := charsStr_eq hs
  dsimp only at h
  rw [Run.bind_eq_ok] at h
  obtain ⟨l, hl, h⟩ := h
  obtain rfl := charsStr_eq hl
  rw [Run.pure_eq_ok, longerWorse_eq] at h
  refine ⟨_, commonStart C w s, ?_⟩
  rw [← h]
  change _ = _ + (likeness 3 w (C.lowercase s) : Int) - longer w (C.lowercase s)
  omega

theorem guessScore_ok {w form : Str} {n : Int} (h : C.guessScore w form = .ok n) : FormScore C w form n := by
  unfold guessScore at h
  rw [Run.bind_eq_ok] at h
  obtain ⟨s, hs, h⟩ := h
  obtain rfl := charsStr_eq hs
  rw [Run.pure_eq_ok, similarity_eq] at h
  exact ⟨_, commonStart C w s, h.symm⟩

theorem newScore_ok {w low : Str} {n : Int} (h : C.newScore w low (lcsLength w low) = .ok n) :
    SecondScore C w low n := by
  unfold newScore at h
  simp only [weighted_eq, similarity_eq] at h
  have hc : countEqAtSamePos w low = (agreements w low, (countEqAtSamePos w low).2) := by
    rw [← zip_count]
    rfl
  rw [hc] at h
  dsimp only at h
  split at h
  · cases h
  rename_i hd
  simp only [Except.ok.injEq] at h
  have hm : (((w.length + low.length) * (10 - C.opts.maxDiffFactor) : Nat) : Int) =
      ((w.length : Int) + low.length) * (10 - C.opts.maxDiffFactor) := by
    push_cast [show C.opts.maxDiffFactor ≤ 10 by omega]
    rfl
  rw [hm] at h
  subst h
  refine ⟨_, _, if agreements w low ≠ 0 then 1 else 0, if (countEqAtSamePos w low).2 = true then 10 else 0,
    if 5 * (weighted 2 w low + weighted 2 low w) <
        ((w.length : Int) + low.length) * (10 - C.opts.maxDiffFactor) then 1000 else 0,
    lcsLength_ok w low, commonStart C w low, ?_, ?_, ?_, ?_⟩
  · split
    · exact .inl ⟨rfl, by assumption⟩
    · exact .inr ⟨rfl, by simp_all⟩
  · rw [← swapped_iff]
    split
    · exact .inl ⟨rfl, by assumption⟩
    · exact .inr ⟨rfl, by assumption⟩
  · split
    · exact .inl ⟨rfl, by assumption⟩
    · exact .inr ⟨rfl, by omega⟩
  · split <;> split <;> split <;> simp <;> omega

theorem rescore_ok {w : Str} : ∀ {gs gs' : List (MinScored Str)}, C.rescore w gs = .ok gs' → Rescored C w gs gs'
  | [], gs', h => by
    simp only [rescore, Except.ok.injEq] at h
    subst h
    exact .nil
  | g :: gs, gs', h => by
    unfold rescore at h
    rw [Run.bind_eq_ok] at h
    obtain ⟨low, hl, h⟩ := h
    obtain rfl := charsStr_eq hl
    dsimp only at h
    have hiff : (w.length = (C.lowercase g.inner).length ∧ w.length = lcsLength w (C.lowercase g.inner)) ↔
        lowerOf C g.inner = w := by
      change _ ↔ C.lowercase g.inner = w
      obtain ⟨⟨s, h1, h2, h3⟩, h4⟩ := lcsLength_ok w (C.lowercase g.inner)
      constructor
      · rintro ⟨h5, h6⟩
        rw [← h1.eq_of_length (by omega), ← h2.eq_of_length (by omega)]
      · intro h5
        rw [h5] at h2 h3 h4 ⊢
        have := h4 w (List.Sublist.refl _) (List.Sublist.refl _)
        have := h1.length_le
        omega
    split at h
    · rename_i hx
      rw [Run.pure_eq_ok] at h
      subst h
      exact .exact (hiff.1 hx)
    · rename_i hx
      rw [Run.bind_eq_ok] at h
      obtain ⟨n, hn, h⟩ := h
      rw [Run.bind_eq_ok] at h
      obtain ⟨rest, hr, h⟩ := h
      rw [Run.pure_eq_ok] at h
      subst h
      exact .other (fun h => hx (hiff.2 h)) (newScore_ok hn) (rescore_ok hr)

/-! ## Choice -/

/-- As many of the texts as there is room for. -/
def lim (limit : Nat) (out l : List Str) : List Str :=
  if out.length ≤ limit then l.take (limit - out.length) else l

theorem lim_full {limit : Nat} {out l : List Str} (h : out.length = limit) : lim limit out l = [] := by
  unfold lim
  rw [if_pos (by omega), h, Nat.sub_self, List.take_zero]

theorem lim_cons {limit : Nat} {out : List Str} {t : Str} {l : List Str} (h : out.length ≠ limit) :
    lim limit out (t :: l) = t :: lim limit (out ++ [t]) l := by
  unfold lim
  rw [List.length_append, List.length_singleton]
  by_cases hle : out.length ≤ limit
  · rw [if_pos hle, if_pos (by omega)]
    obtain ⟨k, hk⟩ : ∃ k, limit - out.length = k + 1 := ⟨limit - out.length - 1, by omega⟩
    rw [hk, List.take_succ_cons]
    congr 2
    omega
  · rw [if_neg hle, if_neg (by omega)]

theorem lim_nil (limit : Nat) (out : List Str) : lim limit out [] = [] := by
  unfold lim; split <;> simp

theorem select_full {sel : Bool} {old limit : Nat} {gs : List (MinScored Str)} {out : List Str}
    (h : out.length = limit) : C.selectGuesses sel old limit gs out = out := by
  cases gs with
  | nil => rfl
  | cons g gs => unfold selectGuesses; rw [if_pos h]

theorem any_contains {out : List Str} {t : Str} :
    (out.any fun sug => containsStr t sug) = true ↔ ∃ s ∈ out, s <:+: t := by
  simp only [List.any_eq_true, containsStr_gram]

/-- Good forms. -/
theorem select_good {sel : Bool} {old limit : Nat} {ts : List (MinScored Str)} : ∀ (gs : List (MinScored Str))
    (out : List Str), (∀ g ∈ gs, -100 ≤ g.score ∧ (sel = true → 1000 < g.score)) →
    C.selectGuesses sel old limit (gs ++ ts) out =
      C.selectGuesses sel old limit ts (out ++ lim limit out (unrelated out (gs.map (·.inner))))
  | [], out, _ => by simp [unrelated, lim_nil]
  | g :: gs, out, h => by
    by_cases hf : out.length = limit
    · rw [select_full hf, lim_full hf, List.append_nil, select_full hf]
    · have hg := h g List.mem_cons_self
      rw [List.cons_append, selectGuesses, if_neg hf, if_neg (fun hc => by have := hg.2 hc.1; omega),
        if_neg (fun hc => by omega), List.map_cons, unrelated]
      by_cases hc : ∃ s ∈ out, s <:+: g.inner
      · rw [if_pos (any_contains.2 hc), if_neg (by omega), if_pos hc]
        exact select_good gs out fun g' hg' => h g' (List.mem_cons_of_mem _ hg')
      · rw [if_neg (fun h => hc (any_contains.1 h)), if_neg hc, lim_cons hf,
          select_good gs (out ++ [g.inner]) fun g' hg' => h g' (List.mem_cons_of_mem _ hg')]
        simp

theorem select_selective {old limit : Nat} {ts : List (MinScored Str)} {out : List Str}
    (h : ∀ g ∈ ts, g.score ≤ 1000) : C.selectGuesses true old limit ts out = out := by
  cases ts with
  | nil => rfl
  | cons g ts =>
    unfold selectGuesses
    split
    · rfl
    · rw [if_pos ⟨rfl, h g List.mem_cons_self⟩]

theorem select_stop {sel : Bool} {old limit : Nat} {ts : List (MinScored Str)} {out : List Str}
    (h : ∀ g ∈ ts, g.score < -100) (ho : old ≠ out.length ∨ C.opts.onlyMaxDiff = true) :
    C.selectGuesses sel old limit ts out = out := by
  cases ts with
  | nil => rfl
  | cons g ts =>
    unfold selectGuesses
    split
    · rfl
    · split
      · rfl
      · rw [if_pos ⟨h g List.mem_cons_self, ho⟩]

theorem select_bad {limit : Nat} {ts : List (MinScored Str)} {out : List Str}
    (h : ∀ g ∈ ts, g.score < -100) (ho : C.opts.onlyMaxDiff = false) :
    C.selectGuesses false out.length limit ts out =
      out ++ lim limit out (unrelated out ((ts.map (·.inner)).take 1)) := by
  by_cases hf : out.length = limit
  · rw [select_full hf, lim_full hf, List.append_nil]
  cases ts with
  | nil => simp [selectGuesses, unrelated, lim_nil]
  | cons g ts =>
    have hg := h g List.mem_cons_self
    rw [selectGuesses, if_neg hf, if_neg (by simp), if_neg (by simp [ho]), List.map_cons, List.take_succ_cons,
      List.take_zero, unrelated]
    by_cases hc : ∃ s ∈ out, s <:+: g.inner
    · rw [if_pos (any_contains.2 hc), if_pos hg, if_pos hc, unrelated, lim_nil, List.append_nil]
    · rw [if_neg (fun h => hc (any_contains.1 h)), if_neg hc, lim_cons hf, unrelated, lim_nil]
      exact select_stop (fun g' hg' => h g' (List.mem_cons_of_mem _ hg')) (.inl (by simp))

theorem descending_split {l : List (MinScored Str)} (h : Descending l) (b : Int) :
    l = l.filter (fun g => b ≤ g.score) ++ l.filter (fun g => g.score < b) := by
  induction l with
  | nil => rfl
  | cons g l ih =>
    obtain ⟨h1, h2⟩ := List.pairwise_cons.1 h
    by_cases hg : b ≤ g.score
    · rw [List.filter_cons_of_pos (by simpa using hg), List.filter_cons_of_neg (by simpa using hg), List.cons_append,
        ← ih h2]
    · have e : l.filter (fun g => b ≤ g.score) = [] := by
        rw [List.filter_eq_nil_iff]
        intro x hx
        have := h1 x hx
        simp only [decide_eq_true_eq]
        omega
      have e' : l.filter (fun g => g.score < b) = l := by
        rw [List.filter_eq_self]
        intro x hx
        have := h1 x hx
        simp only [decide_eq_true_eq]
        omega
      rw [List.filter_cons_of_neg (by simpa using hg), List.filter_cons_of_pos (by simpa using hg), e, e']
      rfl

theorem head_excellent {l : List (MinScored Str)} (h : Descending l) :
    (l.head?.any fun g => decide (g.score > 1000)) = true ↔ excellent l := by
  cases l with
  | nil => simp [excellent]
  | cons g l =>
    obtain ⟨h1, -⟩ := List.pairwise_cons.1 h
    simp only [List.head?_cons, Option.any_some, decide_eq_true_eq, excellent, List.mem_cons, exists_eq_or_imp]
    refine ⟨.inl, fun h => h.elim id ?_⟩
    rintro ⟨x, hx, hs⟩
    have := h1 x hx
    omega

theorem select_eq {l : List (MinScored Str)} (h : Descending l) (out : List Str) :
    C.selectGuesses (l.head?.any fun g => decide (g.score > 1000)) out.length
      (min maxSuggestions (out.length + C.opts.maxNgramSuggestions)) l out = out ++ chosen C out l := by
  have hlim : ∀ X, lim (min maxSuggestions (out.length + C.opts.maxNgramSuggestions)) out X =
      if 16 < out.length then X else X.take (min C.opts.maxNgramSuggestions (16 - out.length)) := by
    intro X
    unfold lim maxSuggestions
    by_cases hc : 16 < out.length
    · rw [if_pos hc, if_neg (by omega)]
    · rw [if_neg hc, if_pos (by omega)]
      congr 1
      omega
  have hch : chosen C out l =
      lim (min maxSuggestions (out.length + C.opts.maxNgramSuggestions)) out (allChosen C out l) := by
    rw [hlim]; rfl
  rw [hch]
  generalize min maxSuggestions (out.length + C.opts.maxNgramSuggestions) = limit
  clear hlim hch
  unfold allChosen goodForms badForms
  by_cases hx : excellent l
  · rw [(head_excellent h).2 hx]
    simp only [hx, not_true_eq_false, false_and, and_false, if_false, if_true]
    have e := descending_split h 1001
    have e1 : l.filter (fun g => decide (1000 < g.score)) = l.filter (fun g => decide (1001 ≤ g.score)) :=
      List.filter_congr fun g _ => by rw [decide_eq_decide]; omega
    rw [e1]
    conv_lhs => rw [e]
    rw [select_good _ _ (fun g hg => ?_), select_selective (fun g hg => ?_)]
    · have := (List.mem_filter.1 hg).2
      simp only [decide_eq_true_eq] at this
      omega
    · have := (List.mem_filter.1 hg).2
      simp only [decide_eq_true_eq] at this
      omega
  · have hsel : (l.head?.any fun g => decide (g.score > 1000)) = false := by
      rw [← Bool.not_eq_true, head_excellent h]; exact hx
    rw [hsel]
    simp only [hx, not_false_eq_true, true_and, if_false]
    have e := descending_split h (-100)
    conv_lhs => rw [e]
    rw [select_good _ _ (fun g hg => ?_)]
    · have hb : ∀ g ∈ l.filter (fun g => decide (g.score < -100)), g.score < -100 := fun g hg => by
        simpa using (List.mem_filter.1 hg).2
      generalize unrelated out ((l.filter fun g => decide (-100 ≤ g.score)).map (·.inner)) = U
      by_cases hf : out.length = limit
      · rw [lim_full hf, List.append_nil, select_full hf, lim_full hf, List.append_nil]
      cases U with
      | nil =>
        rw [lim_nil, List.append_nil]
        by_cases ho : C.opts.onlyMaxDiff = true
        · rw [select_stop hb (.inr ho), if_neg (by simp [ho]), lim_nil, List.append_nil]
        · rw [select_bad hb (by simpa using ho), if_pos ⟨rfl, by simpa using ho⟩]
      | cons t U =>
        rw [if_neg (by simp), select_stop hb (.inl ?_)]
        rw [lim_cons hf]
        simp
    · have := (List.mem_filter.1 hg).2
      simp only [decide_eq_true_eq] at this
      exact ⟨this, by simp⟩

/-! ## Forms -/

open scoped Classical in
theorem affixesFor_eq (hC : C.dict.CondsParsed) (k : Kind) (F : FlagSet) (text word : Str) :
    C.affixesFor k F text word = fitting C.dict k word F text := by
  unfold fitting
  have ht : (C.index k).table = tableOf C.dict k := by cases k <;> rfl
  have h := fun a => affixesFor_iff hC (k := k) (F := F) (text := text) (word := word) (a := a)
  unfold affixesFor at h ⊢
  rw [ht] at h ⊢
  refine List.filter_congr fun a ha => ?_
  have := h a
  rw [List.mem_filter] at this
  rw [Bool.eq_iff_iff, decide_eq_true_eq]
  exact ⟨fun h => this.1 ⟨ha, h⟩, fun h => (this.2 h).2⟩

theorem _root_.Spellbook.Run.mapM_forall₂ {α β : Type} {f : α → Run β} : ∀ {l : List α} {r : List β},
    l.mapM f = .ok r → List.Forall₂ (fun a b => f a = .ok b) l r
  | [], r, h => by
    simp only [List.mapM_nil, Run.pure_eq_ok] at h
    subst h
    exact .nil
  | a :: l, r, h => by
    rw [List.mapM_cons, Run.bind_eq_ok] at h
    obtain ⟨b, h1, h2⟩ := h
    rw [Run.bind_eq_ok] at h2
    obtain ⟨bs, h3, h4⟩ := h2
    rw [Run.pure_eq_ok] at h4
    subst h4
    exact .cons h1 (Run.mapM_forall₂ h3)

theorem derived_all {k : Kind} {stem : Str} {l : List Affix} {r : List Str}
    (h : l.mapM (fun a => derive' k a stem) = .ok r) : List.Forall₂ (fun a t => Applies k a stem t) l r :=
  (Run.mapM_forall₂ h).imp fun _ _ h => derive'_iff.1 h

theorem suffixed_all {stem : Str} : ∀ {l : List Affix} {r : List (Str × Bool)},
    l.mapM (fun a => do pure (← derive' .sfx a stem, a.crossproduct)) = (.ok r : Run _) →
    ∃ suf : List (Affix × Str), suf.map (·.1) = l ∧ (∀ p ∈ suf, Applies .sfx p.1 stem p.2) ∧
      r = suf.map fun p => (p.2, p.1.crossproduct)
  | [], r, h => by
    simp only [List.mapM_nil, Run.pure_eq_ok] at h
    subst h
    exact ⟨[], rfl, by simp, rfl⟩
  | a :: l, r, h => by
    rw [List.mapM_cons, Run.bind_eq_ok] at h
    obtain ⟨b, h1, h2⟩ := h
    rw [Run.bind_eq_ok] at h1
    obtain ⟨t, h1, h1'⟩ := h1
    rw [Run.pure_eq_ok] at h1'
    rw [Run.bind_eq_ok] at h2
    obtain ⟨bs, h3, h4⟩ := h2
    rw [Run.pure_eq_ok] at h4
    subst h4 h1'
    obtain ⟨suf, h5, h6, rfl⟩ := suffixed_all h3
    refine ⟨(a, t) :: suf, by simp [h5], ?_, rfl⟩
    simp only [List.mem_cons, forall_eq_or_imp]
    exact ⟨derive'_iff.1 h1, h6⟩

open scoped Classical in
theorem fitting_nil {k : Kind} {w text : Str} {F : FlagSet} (hF : F.elems = []) : fitting C.dict k w F text = [] := by
  unfold fitting
  rw [List.filter_eq_nil_iff]
  intro a _
  rw [decide_eq_true_eq]
  rintro ⟨h, -⟩
  have := h.licence
  rw [hF] at this
  simp at this

open scoped Classical in
theorem expandStem_forms (hC : C.dict.CondsParsed) {stem w : Str} {F : FlagSet} {r : List Str}
    (h : C.expandStem stem F w = .ok r) : Forms C.dict w stem F r := by
  unfold expandStem at h
  dsimp only at h
  have hb : ((if hasFlag F C.opts.needAffixFlag then [] else [(stem, false)]) : List (Str × Bool)) =
      if Has F C.opts.needAffixFlag then [] else [(stem, false)] := by
    by_cases hf : Has F C.opts.needAffixFlag
    · rw [if_pos hf, if_pos (hasFlag_iff.2 hf)]
    · rw [if_neg hf, if_neg (fun h => hf (hasFlag_iff.1 h))]
  rw [hb] at h
  split at h
  · rename_i he
    have hF : F.elems = [] := by simpa [FlagSet.isEmpty] using he
    rw [Run.pure_eq_ok] at h
    refine ⟨[], [], [], by rw [fitting_nil hF]; rfl, by simp, .nil, by rw [fitting_nil hF]; exact .nil, ?_⟩
    rw [← h]
    by_cases hf : Has F C.opts.needAffixFlag
    · have : Has F C.dict.aff.options.needAffixFlag := hf
      simp [hf, this]
    · have : ¬ Has F C.dict.aff.options.needAffixFlag := hf
      simp [hf, this]
  · rw [Run.bind_eq_ok] at h
    obtain ⟨suf, h1, h⟩ := h
    rw [Run.bind_eq_ok] at h
    obtain ⟨cross, h2, h⟩ := h
    rw [Run.bind_eq_ok] at h
    obtain ⟨pre, h3, h⟩ := h
    rw [Run.pure_eq_ok] at h
    unfold suffixForms at h1
    rw [affixesFor_eq hC] at h1
    obtain ⟨sufs, h4, h5, rfl⟩ := suffixed_all h1
    unfold prefixForms at h3
    rw [affixesFor_eq hC] at h3
    refine ⟨sufs, cross, pre, h4, h5, ?_, derived_all h3, ?_⟩
    · have e : ((if Has F C.opts.needAffixFlag then [] else [(stem, false)]) ++
          sufs.map fun p => (p.2, p.1.crossproduct)).filter (·.2) =
          (sufs.filter (·.1.crossproduct)).map fun p => (p.2, p.1.crossproduct) := by
        rw [List.filter_append, List.filter_map]
        have : ((if Has F C.opts.needAffixFlag then [] else [(stem, false)]) : List (Str × Bool)).filter (·.2) = [] := by
          split <;> simp
        rw [this]
        rfl
      rw [e] at h2
      have := Run.mapM_forall₂ h2
      rw [List.forall₂_map_left_iff] at this
      refine this.imp fun p fs hp => ?_
      unfold crossForms at hp
      rw [affixesFor_eq hC] at hp
      exact derived_all hp
    · rw [← h, List.map_append, List.map_map]
      congr 3
      by_cases hf : Has F C.opts.needAffixFlag
      · have : Has F C.dict.aff.options.needAffixFlag := hf
        simp [hf, this]
      · have : ¬ Has F C.dict.aff.options.needAffixFlag := hf
        simp [hf, this]

/-! ## All -/

open scoped Classical in
theorem listed_filter (l : List (Str × FlagSet)) (hl : ∀ e ∈ l, e ∈ C.dict.words.slots) :
    l.filter (fun e => !C.skipsForNgram e.2) = l.filter (fun e => decide (Listed C e)) := by
  refine List.filter_congr fun e he => ?_
  rw [Bool.eq_iff_iff, decide_eq_true_eq]
  have hn : ∀ f, e.2.contains f = false ↔ f ∉ e.2.elems := fun f => by
    rw [← FlagSet.contains_iff]; simp
  simp only [skipsForNgram, Bool.not_eq_true', Bool.or_eq_false_iff, hasFlag_false, hn, Listed, hl e he, true_and,
    and_assoc]
  rfl

theorem ngramSuggest_similar (hC : C.dict.CondsParsed) {w : Str} {out out' : List Str}
    (h : C.ngramSuggest H w out = .ok out') : ∃ new, out' = out ++ new ∧ BySimilarity C w out new := by
  unfold ngramSuggest at h
  rw [Run.bind_eq_ok] at h
  obtain ⟨w', hw, h⟩ := h
  obtain rfl := charsStr_eq hw
  rw [Run.bind_eq_ok] at h
  obtain ⟨roots, hr, h⟩ := h
  rw [Run.bind_eq_ok] at h
  obtain ⟨guesses, hg, h⟩ := h
  rw [Run.bind_eq_ok] at h
  obtain ⟨resc, hres, h⟩ := h
  dsimp only at h
  rw [Run.pure_eq_ok, select_eq (H.sort_sorted resc)] at h
  obtain ⟨forms, scored, g1, g2, g3, g4⟩ := guesses_foldlM (bestOf_nil 200) hg
  obtain ⟨entries, r1, r2, r3⟩ := roots_foldlM (bestOf_nil 100) hr
  refine ⟨_, h.symm, entries, roots, forms, scored, guesses, H.sort guesses, resc, H.sort resc, ?_,
    fun x hx => rootScore_ok (r2 x hx), by simpa using r3, ?_, g2, fun x hx => guessScore_ok (g3 x hx), ?_,
    H.sort_perm _, H.sort_sorted _, rescore_ok hres, H.sort_perm _, H.sort_sorted _, rfl⟩
  · rw [r1]
    refine ((Bag.iter_perm C.L C.dict.words).filter _).trans (.of_eq ?_)
    exact listed_filter _ fun _ h => h
  · exact g1.imp fun _ _ h => expandStem_forms hC h
  · rw [threshold_eq] at g4
    simpa using g4

end Checker
end Spellbook
