import Verif.Proof.Lookups
import Verif.Props.Depth
import Verif.Props.Suggest
/-!
# C83 The work of `suggest`
-/

namespace Spellbook.Props
open Spec Run

/-! ## C83 A bound on the lookups and on the suggestions -/

/-- What is counted are the lookups of `suggest`: the counting program gives the same suggestions. -/
theorem C83_same (S : Suggester) (fuel depth : Nat) (word : Str) (out : List Str) :
    (Lookups.suggest S fuel depth word out).result = S.suggest fuel depth word out :=
  Lookups.suggest_result S fuel depth word out

/-- **C83** (lookups): on every dictionary which a program can hold, whose ICONV lines put in at most `g` characters
and no dash, `suggest` asks the checker at most `lookupsFor` times: a polynomial of the length of the word and
of the tables of the dictionary, not a power. The length is that of the letter-case variants, behind ICONV. -/
theorem C83_bound {U : Unicode} {S : Suggester} {k g : Nat} (hD : Reachable U S.C.dict) (hU : CaseGrowth S.C.U k)
    {lines : List (Str × Str)} (hi : SameConversions S.C.dict.aff.inputConversions lines) (hg : 1 ≤ g)
    (hb : ∀ r ∈ lines, r.2.length ≤ g ∧ '-' ∉ r.2) (word : Str) :
    LookupsAtMost S word (lookupsFor S.C.dict (k * (k * (g * (g * word.length))))) := by
  obtain ⟨rules, hr, -⟩ := (wellMade_reachable hD).reps
  exact fun fuel depth out => (Lookups.suggest_within hr hU hi hg hb depth word out).1

/-- **C83** (suggestions): there are at most `suggestionsFor` suggestions. -/
theorem C83_few {U : Unicode} {S : Suggester} {k g : Nat} (hD : Reachable U S.C.dict) (hU : CaseGrowth S.C.U k)
    {lines : List (Str × Str)} (hi : SameConversions S.C.dict.aff.inputConversions lines) (hg : 1 ≤ g)
    (hb : ∀ r ∈ lines, r.2.length ≤ g ∧ '-' ∉ r.2) {fuel depth : Nat} {word : Str} {out r : List Str}
    (h : S.suggest fuel depth word out = .ok r) :
    r.length ≤ suggestionsFor S.C.dict (k * (k * (g * (g * word.length)))) := by
  obtain ⟨rules, hr, -⟩ := (wellMade_reachable hD).reps
  exact (Lookups.suggest_within hr hU hi hg hb depth word out).2 r (by rw [Lookups.suggest_result]; exact h)

/-- **C83** (a constant): without ICONV no word makes a suggester ask more than `lookupsFor` times for 3240 characters:
three times three times the 360 which are allowed. -/
theorem C83_constant {U : Unicode} {S : Suggester} (hD : Reachable U S.C.dict) (hU : CaseGrowth S.C.U 3)
    (hi : S.C.dict.aff.inputConversions = .empty) (word : Str) : LookupsAtMost S word (lookupsFor S.C.dict 3240) := by
  intro fuel depth out
  by_cases h : byteLen word > maxWordLen
  · unfold Lookups.suggest
    rw [if_pos h]
    exact Nat.zero_le _
  · have h1 : word.length ≤ 360 := by
      have := length_le_byteLen word
      unfold maxWordLen at h
      omega
    exact (C83_bound (g := 1) hD hU (lines := []) (by rw [hi]; exact .nil) (Nat.le_refl _) (by simp) word fuel depth
      out).trans (Lookups.lookupsFor_mono _ (by omega))

/-- **C83** (from below): every text which the edits make is looked up; the methods with a limit stop at their
budget. -/
theorem C83_every_text {U : Unicode} {S : Suggester} (hD : Reachable U S.C.dict) {word : Str}
    (h1 : (utf8 word).length ≤ 360) (h2 : word ≠ [])
    (h3 : classifyCasing S.C.U (S.C.dict.aff.inputConversions.convert word) ≠ .all)
    (h4 : S.C.dict.aff.options.compoundForceUppercaseFlag = none) {fuel depth : Nat} {out r : List Str}
    (h : S.suggest fuel depth word out = .ok r) :
    textsTried S.C (S.C.dict.aff.inputConversions.convert word) ≤ (Lookups.suggest S fuel depth word out).calls := by
  obtain ⟨rules, hr, -⟩ := (wellMade_reachable hD).reps
  exact Lookups.suggest_atLeast hr h1 h2 h3 h4 depth out r (by rw [Lookups.suggest_result]; exact h)

/-- The similar texts which change the character `c` first. -/
def similarHere (fuel : Nat) (a : Str) (c : Char) (b : Str) : List Str :=
  let put (a q r : Str) : List Str :=
    (a ++ (q ++ r)) :: (similarTexts [⟨['a', 'b'], []⟩] fuel r).map fun t => a ++ (q ++ t)
  [(⟨['a', 'b'], []⟩ : SimilarityGroup)].flatMap fun g =>
    if c ∈ g.chars then
      (g.chars.flatMap fun d => if d = c then [] else put a [d] b) ++
      (g.strings.flatMap fun s => put a s b)
    else
      g.strings.zipIdx.flatMap fun (str, k) =>
        match firstOccurrence str (c :: b) with
        | none => []
        | some (m, r) =>
          (g.chars.flatMap fun d => put (a ++ m) [d] r) ++
          (g.strings.zipIdx.flatMap fun (s, k') => if k' = k then [] else put (a ++ m) s r)

theorem similar_pow : ∀ fuel n, n ≤ fuel →
    2 ^ n ≤ (similarTexts [⟨['a', 'b'], []⟩] fuel (List.replicate n 'a')).length + 1
  | 0, n, h => by
    cases Nat.le_zero.1 h
    decide
  | fuel + 1, n, h => by
    unfold similarTexts splits
    suffices key : ∀ p : Str, 2 ^ n ≤ ((splitsFrom p (List.replicate n 'a')).flatMap fun (a, c, b) =>
        similarHere fuel a c b).length + 1 from key []
    induction n with
    | zero => intro p; simp [splitsFrom]
    | succ n ih =>
      intro p
      have h1 := ih (by omega) (p ++ ['a'])
      have h2 := similar_pow fuel n (by omega)
      have h3 : (similarHere fuel p 'a' (List.replicate n 'a')).length =
          (similarTexts [⟨['a', 'b'], []⟩] fuel (List.replicate n 'a')).length + 1 := by
        simp [similarHere]
      rw [List.replicate_succ, splitsFrom, List.flatMap_cons, List.length_append, h3, Nat.pow_succ]
      omega

theorem bytes_as (n : Nat) : (utf8 (List.replicate n 'a')).length = n := by
  unfold utf8
  induction n with
  | zero => rfl
  | succ m ih =>
    rw [List.replicate_succ, List.flatMap_cons, List.length_append, ih]
    show 1 + m = m + 1
    omega

/-- **C83** (the budget is needed): with `MAP ab` the letters `a` make a text for every choice of some of them. Only the
budget ends this, and from 17 letters on it is used up: 100000 lookups. -/
theorem C83_map_budget : ∃ C, loadChecker "MAP 1\nMAP ab\n" "1\nfoo\n" = some C ∧ Reachable .sample C.dict ∧
    ∀ n, 17 ≤ n → n ≤ 360 → ∃ fuel depth,
      100000 ≤ (Lookups.suggest (editsOnly C) fuel depth (List.replicate n 'a') []).calls := by
  obtain ⟨C, h1, h2⟩ := of_load (aff := "MAP 1\nMAP ab\n") (dic := "1\nfoo\n") (L := .default)
    (p := fun C => decide (C.dict.aff.similarities = [⟨['a', 'b'], []⟩]) &&
      decide (C.dict.aff.options.compoundForceUppercaseFlag = none) &&
      decide (C.dict.aff.inputConversions.inner = []) && decide (editBudget C [] = 100000) &&
      decide (C.opts.compoundFlag = none ∧ C.opts.compoundBeginFlag = none ∧ C.opts.compoundMiddleFlag = none ∧
        C.opts.compoundEndFlag = none) && decide (C.checkSimpleWord [] .skip = none) &&
      decide (0 < C.opts.minChars) && decide (C.opts.compoundSimplifiedTriple = false) &&
      C.aff.compoundPatterns.isEmpty) (by decide +kernel)
  simp only [Bool.and_eq_true, decide_eq_true_eq, List.isEmpty_iff] at h2
  obtain ⟨⟨⟨⟨⟨⟨⟨⟨hs, hf⟩, hi⟩, hb⟩, hc1, hc2, hc3, hc4⟩, he⟩, hm⟩, ht⟩, hp⟩ := h2
  obtain ⟨hD, hT, hA, hU⟩ := loadChecker_reachable h1
  refine ⟨C, h1, hD, fun n hn hn' => ?_⟩
  have hempty : C.dict.aff.inputConversions = .empty := by
    cases hx : C.dict.aff.inputConversions
    rw [hx] at hi
    cases hi
    rfl
  obtain ⟨r, fuel, depth, hr⟩ := C45_returns_partial (S := editsOnly C) hD hT hA
    (by change ∀ c, C.U.lower c ≠ []; rw [hU]; exact sample_lower)
    (by change ∀ c, C.U.upper c ≠ []; rw [hU]; exact sample_upper) rfl he
    ⟨hm, fun h => Bool.noConfusion (ht.symm.trans h), fun c hc => absurd (show c ∈ C.aff.compoundPatterns from hc)
      (by rw [hp]; simp)⟩ (lines := [])
    (by change SameConversions C.dict.aff.inputConversions []; rw [hempty]; exact .nil) (by simp) (List.replicate n 'a') []
  refine ⟨fuel, depth, ?_⟩
  have hconv : C.dict.aff.inputConversions.convert (List.replicate n 'a') = List.replicate n 'a' := by
    rw [hempty, ConversionTable.empty_convert]
  have hbud : editBudget C (List.replicate n 'a') = 100000 := by
    rw [← hb]; unfold editBudget; simp [hc1, hc2, hc3, hc4]
  have hcas : classifyCasing C.U (List.replicate n 'a') ≠ .all := by
    rw [hU]
    intro hall
    rw [classifyCasing_iff] at hall
    obtain ⟨c, hc, hc'⟩ := hall.1
    rw [List.eq_of_mem_replicate hc] at hc'
    exact absurd hc' (by decide)
  have := C83_every_text (S := editsOnly C) (loadChecker_reachable h1).1 (word := List.replicate n 'a')
    (by rw [bytes_as]; exact hn') (by simp; omega) (by show classifyCasing C.U (C.dict.aff.inputConversions.convert _) ≠ _; rw [hconv]; exact hcas) hf hr
  refine Nat.le_trans ?_ this
  show 100000 ≤ textsTried C (C.dict.aff.inputConversions.convert _)
  rw [hconv]
  unfold textsTried
  rw [hbud]
  have h3 := similar_pow (100000 + 1) n (by omega)
  have h4 : 2 ^ 17 ≤ 2 ^ n := Nat.pow_le_pow_right (by omega) hn
  change C.aff.similarities = _ at hs
  rw [hs]
  omega

/-- The bounds hold of this dictionary, with REP, MAP, KEY, TRY and KEEPCASE. These are the numbers of lookups. -/
example : ∃ C, loadChecker "TRY ab\nKEY ab|bc\nREP 1\nREP f ph\nMAP 1\nMAP ac\nKEEPCASE K\n" "3\nphone\nfoo\nbar/K\n" = some C ∧
    Reachable .sample C.dict ∧ CaseGrowth C.U 3 ∧ C.dict.aff.inputConversions = .empty ∧
    C.dict.aff.options.compoundForceUppercaseFlag = none ∧
    (["fone", "Fone", "fOne", "FONE", "AbA", "ba-fo", "bar-fo", "BARR"].map fun w =>
      (Lookups.suggest (editsOnly C) 99 9 w.toList []).calls) = [48, 96, 97, 97, 136, 114, 112, 104] ∧
    textsTried C "fone".toList = 48 ∧ lookupsFor C.dict 4 = 17637519 ∧
    (Lookups.suggest (editsOnly C) 99 9 "BARR".toList []).result = .ok ["bar".toList] := by
  obtain ⟨C, h1, h2⟩ := of_load (aff := "TRY ab\nKEY ab|bc\nREP 1\nREP f ph\nMAP 1\nMAP ac\nKEEPCASE K\n")
    (dic := "3\nphone\nfoo\nbar/K\n") (L := .default)
    (p := fun C => decide (C.dict.aff.inputConversions.inner = []) &&
      decide (C.dict.aff.options.compoundForceUppercaseFlag = none) &&
      decide ((["fone", "Fone", "fOne", "FONE", "AbA", "ba-fo", "bar-fo", "BARR"].map fun w =>
        (Lookups.suggest (editsOnly C) 99 9 w.toList []).calls) = [48, 96, 97, 97, 136, 114, 112, 104]) &&
      decide (textsTried C "fone".toList = 48) && decide (lookupsFor C.dict 4 = 17637519) &&
      decide ((Lookups.suggest (editsOnly C) 99 9 "BARR".toList []).result = .ok ["bar".toList]))
    (by decide +kernel)
  simp only [Bool.and_eq_true, decide_eq_true_eq] at h2
  obtain ⟨⟨⟨⟨⟨hi, hf⟩, hc⟩, ht⟩, hl⟩, hr⟩ := h2
  obtain ⟨hD, -, -, hU⟩ := loadChecker_reachable h1
  refine ⟨C, h1, hD, by rw [hU]; exact ⟨by decide, fun c => (C79_sample_growth.lower c).trans (by decide),
    fun c => (C79_sample_growth.upper c).trans (by decide)⟩, ?_, hf, hc, ht, hl, hr⟩
  cases hx : C.dict.aff.inputConversions
  rw [hx] at hi
  cases hi
  rfl

/-- Where FORCEUCASE asks for a capital, the one lookup is that of the word with the capital. -/
example : ∃ C, loadChecker "COMPOUNDFLAG C\nCOMPOUNDMIN 1\nFORCEUCASE U\n" "2\n1st/C\nfoo/CU\n" = some C ∧
    Lookups.suggest (editsOnly C) 99 9 "foofoo".toList [] = ⟨1, .ok ["Foofoo".toList]⟩ := by
  obtain ⟨C, h1, h2⟩ := of_load (aff := "COMPOUNDFLAG C\nCOMPOUNDMIN 1\nFORCEUCASE U\n")
    (dic := "2\n1st/C\nfoo/CU\n") (L := .default)
    (p := fun C => decide ((Lookups.suggest (editsOnly C) 99 9 "foofoo".toList []).calls = 1) &&
      decide ((Lookups.suggest (editsOnly C) 99 9 "foofoo".toList []).result = .ok ["Foofoo".toList])) (by decide +kernel)
  simp only [Bool.and_eq_true, decide_eq_true_eq] at h2
  refine ⟨C, h1, ?_⟩
  generalize Lookups.suggest (editsOnly C) 99 9 "foofoo".toList [] = x at *
  cases x
  simp only at h2
  rw [h2.1, h2.2]

end Spellbook.Props
