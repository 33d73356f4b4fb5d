import Verif.Spec.Search
import Verif.Proof.Compound
/-! # The search for compounds gives the answers of the specification -/

namespace Spellbook
namespace Checker
open Spec

/-! ### Counts -/

theorem sum_count_swap (a b : Str) :
    (a.map fun c => b.count c).sum = (b.map fun c => a.count c).sum := by
  induction a with
  | nil => induction b <;> simp_all
  | cons x a ih =>
    rw [List.map_cons, List.sum_cons, ih]
    clear ih
    induction b with
    | nil => rfl
    | cons y b ih =>
      simp only [List.map_cons, List.sum_cons, List.count_cons] at ih ⊢
      by_cases h : x = y
      · subst h; simp at ih ⊢; omega
      · have : ¬ y = x := fun e => h e.symm
        simp [h, this] at ih ⊢; omega

theorem countSyllables_eq {C : Checker} {text : Str} : C.countSyllables text = syllables C.dict text := by
  unfold countSyllables syllables Checker.aff
  exact sum_count_swap _ _

theorem wrap16_sub {a b : Int} : wrap16 (wrap16 a - b) = wrap16 (a - b) := by
  unfold wrap16; simp

theorem wrap16_add {a b : Int} : wrap16 (wrap16 a + b) = wrap16 (a + b) := by
  unfold wrap16; simp

theorem wrap16_neg {a : Int} : wrap16 (0 - wrap16 a) = wrap16 (- a) := by
  unfold wrap16
  have : (0 - a.bmod 65536).bmod 65536 = (0 - a).bmod 65536 := by simp [-zero_sub, -Int.zero_sub]
  rw [this, Int.zero_sub]

theorem ends_i {s : Str} : (endsWith s ['i'] && (match s.reverse with
       | _ :: c :: _ => c != 'y' && c != 't'
       | _ => false)) = true ↔ ∃ x c, s = x ++ [c, 'i'] ∧ c ≠ 'y' ∧ c ≠ 't' := by
  rw [Bool.and_eq_true, endsWith_iff]
  constructor
  · rintro ⟨⟨t, rfl⟩, h⟩
    rw [List.reverse_append] at h
    simp only [List.reverse_cons, List.reverse_nil, List.nil_append, List.cons_append] at h
    cases ht : t.reverse with
    | nil => rw [ht] at h; simp at h
    | cons c l =>
      rw [ht] at h
      have := eq_append_singleton_of_reverse ht
      subst this
      exact ⟨l.reverse, c, by simp, by simpa using h⟩
  · rintro ⟨x, c, rfl, h⟩
    exact ⟨⟨x ++ [c], by simp⟩, by simpa using h⟩

open scoped Classical in
theorem suffixSyllables_eq {C : Checker} {F : FlagSet} {s : Affix}
    (hv : C.dict.aff.compoundSyllableVowels ≠ []) :
    C.syllableModifierWithSuffix .atEnd F s = (suffixSyllables C.dict F s).bmod 65536 := by
  unfold syllableModifierWithSuffix suffixSyllables
  have hv' : C.aff.compoundSyllableVowels.isEmpty = false := by
    unfold Checker.aff; cases h : C.dict.aff.compoundSyllableVowels <;> simp_all
  rw [if_neg (by rw [hv']; decide)]
  have hx : ∀ b : Bool, (b = true ↔ ∃ x c, s.add = x ++ [c, 'i'] ∧ c ≠ 'y' ∧ c ≠ 't') →
      (if b = true then (1 : Int) else 0) =
        if ∃ x c, s.add = x ++ [c, 'i'] ∧ c ≠ 'y' ∧ c ≠ 't' then 1 else 0 := by
    intro b hb
    by_cases h : ∃ x c, s.add = x ++ [c, 'i'] ∧ c ≠ 'y' ∧ c ≠ 't'
    · rw [if_pos (hb.2 h), if_pos h]
    · rw [if_neg (fun e => h (hb.1 e)), if_neg h]
  rw [← hx _ ends_i]
  simp only [wrap16_neg, wrap16_sub, wrap16_add, countSyllables_eq]
  generalize (if (endsWith s.add ['i'] && _) = true then (1 : Int) else 0) = e
  have hJ : (F.contains 74 = true) ↔ 'J'.toNat ∈ F.elems := FlagSet.contains_iff
  have e1 : 'c'.toNat = 99 := rfl
  have e2 : 'J'.toNat = 74 := rfl
  have e3 : 'I'.toNat = 73 := rfl
  simp only [hJ, e1, e2, e3, Checker.opts]
  cases C.dict.aff.options.compoundSyllableNum with
  | false => simp [wrap16]
  | true =>
    by_cases h1 : s.flag = 99
    · simp [h1, wrap16]
    · by_cases h2 : s.flag = 74
      · simp [h2, wrap16]
      · by_cases h3 : s.flag = 73
        · by_cases h4 : 74 ∈ F.elems <;> simp [h3, h4, wrap16]
        · simp [h1, h2, h3, wrap16]

theorem lastSyllables_eq {C : Checker} {m : Mode} {q : Piece}
    (hq : Part C.dict m q.text q.stem q.flags q.affixes) :
    (C.resultOf .atEnd q).numSyllableModifier = lastSyllables C.dict q := by
  by_cases hv : C.dict.aff.compoundSyllableVowels = []
  · rw [resultOf_syllables hv]; simp [lastSyllables, hv]
  · unfold resultOf lastSyllables
    rw [if_neg hv]
    have hv' : C.aff.compoundSyllableVowels.isEmpty = false := by
      unfold Checker.aff; cases h : C.dict.aff.compoundSyllableVowels <;> simp_all
    generalize q.affixes = l at hq
    cases hq with
    | listed =>
      simp only
      unfold syllableModifier
      have hI : (q.flags.contains 73 = true) ↔ 'I'.toNat ∈ q.flags.elems := FlagSet.contains_iff
      have hJ : (q.flags.contains 74 = true) ↔ 'J'.toNat ∈ q.flags.elems := FlagSet.contains_iff
      simp only [hv', ← hI, ← hJ]
      cases q.flags.contains 73 <;> cases q.flags.contains 74 <;> simp
    | @one k a =>
      cases k
      · rfl
      · exact suffixSyllables_eq hv
    | pair => exact suffixSyllables_eq hv

theorem firstSyllables_eq {C : Checker} {m : Mode} {p : Piece} (hm : m ≠ .atEnd) :
    (C.resultOf m p).numSyllableModifier = 0 := by
  unfold resultOf
  have h1 : ∀ F, C.syllableModifier m F = 0 := by
    intro F; unfold syllableModifier; cases m <;> simp_all
  have h2 : ∀ F s, C.syllableModifierWithSuffix m F s = 0 := by
    intro F s; unfold syllableModifierWithSuffix; cases m <;> simp_all
  split <;> simp [h1, h2]

theorem prefixWords_eq {C : Checker} {m m' : Mode} {p : Piece}
    (hp : Part C.dict m' p.text p.stem p.flags p.affixes) :
    (C.resultOf m p).numWordsModifier = prefixWords C.dict p := by
  by_cases hv : C.dict.aff.compoundSyllableVowels = []
  · rw [resultOf_words hv]; simp [prefixWords, hv]
  · unfold resultOf prefixWords numWordsModifier
    have hv' : C.aff.compoundSyllableVowels.isEmpty = false := by
      unfold Checker.aff; cases h : C.dict.aff.compoundSyllableVowels <;> simp_all
    rw [if_neg hv]
    generalize p.affixes = l at hp
    cases hp with
    | listed => simp
    | @one k a => cases k <;> simp [hv', countSyllables_eq]
    | pair => simp [hv', countSyllables_eq]

theorem extraWords_eq {C : Checker} {m m' : Mode} {p : Piece}
    (hp : Part C.dict m' p.text p.stem p.flags p.affixes) :
    C.wordCount (C.resultOf m p) = extraWords C.dict p := by
  unfold wordCount extraWords rootBonus
  rw [prefixWords_eq hp, resultOf_flags]
  by_cases h : Has p.flags C.dict.aff.options.compoundRootFlag
  · simp [Checker.opts, hasFlag_iff.2 h, h]
  · simp [Checker.opts, hasFlag_false.2 h, h]

theorem sameParts_iff {C : Checker} {m m1 m2 : Mode} {p q : Piece} (hm : m ≠ .atEnd)
    (hp : Part C.dict m1 p.text p.stem p.flags p.affixes)
    (hq : Part C.dict m2 q.text q.stem q.flags q.affixes) :
    C.resultOf m p = C.resultOf .atEnd q ↔ SameParts C.dict p q := by
  have a1 := resultOf_stem (C := C) (m := m) (p := p)
  have a2 := resultOf_flags (C := C) (m := m) (p := p)
  have a3 := prefixWords_eq (C := C) (m := m) hp
  have a4 := firstSyllables_eq (C := C) (m := m) (p := p) hm
  have a5 := resultOf_modified (m := m) hp
  have b1 := resultOf_stem (C := C) (m := .atEnd) (p := q)
  have b2 := resultOf_flags (C := C) (m := .atEnd) (p := q)
  have b3 := prefixWords_eq (C := C) (m := .atEnd) hq
  have b4 := lastSyllables_eq (C := C) hq
  have b5 := resultOf_modified (m := .atEnd) hq
  constructor
  · intro h
    rw [h] at a1 a2 a3 a4 a5
    exact ⟨⟨a1.symm.trans b1, a2.symm.trans b2, a5.symm.trans b5⟩, a3.symm.trans b3,
      b4.symm.trans a4⟩
  · rintro ⟨⟨h1, h2, h3⟩, h4, h5⟩
    generalize C.resultOf m p = x at *
    generalize C.resultOf .atEnd q = y at *
    cases x; cases y
    simp only at *
    subst a1 a2 a3 a4 b1 b2 b3 b4
    simp only [h1, h2, h4, h5, CompoundingResult.mk.injEq, true_and]
    rw [Bool.eq_iff_iff, a5, b5]; exact h3

/-! ### Readings -/

open scoped Classical in
/-- The reading of a text which the lookup of parts finds. -/
noncomputable def reading (C : Checker) (m : Mode) (t : Str) : Option Piece :=
  if h : ∃ p : Piece, p.text = t ∧ Part C.dict m p.text p.stem p.flags p.affixes ∧
      C.checkWordInCompound m t = some (C.resultOf m p) then some h.choose else none

theorem reading_eq {C : Checker} (hC : C.dict.CondsParsed) {m : Mode} (hm : m ≠ .full) (t : Str) :
    C.checkWordInCompound m t = (C.reading m t).map (C.resultOf m) := by
  unfold reading
  split
  · rename_i h
    exact h.choose_spec.2.2
  · rename_i h
    cases hr : C.checkWordInCompound m t with
    | none => rfl
    | some r =>
      obtain ⟨p, h1, h2, h3⟩ := checkWordInCompound_some hC hm hr
      exact absurd ⟨p, h1, h2, by rw [hr, h3]⟩ h

theorem reading_reads {C : Checker} (hC : C.dict.CondsParsed) : Readings C.dict C.reading where
  part := by
    intro m t p _ h
    unfold reading at h
    split at h
    · rename_i hh
      simp only [Option.some.injEq] at h
      subst h
      exact ⟨hh.choose_spec.1, hh.choose_spec.2.1⟩
    · simp at h
  some := by
    intro m p hm hp
    have h := (checkWordInCompound_yields hC hm p.text).2 ⟨_, p, rfl, hp, rfl⟩
    rw [reading_eq hC hm] at h
    cases hr : C.reading m p.text with
    | none => rw [hr] at h; simp at h
    | some q => exact ⟨q, rfl⟩

/-! ### The last part -/

open scoped Classical in
/-- What is decided about the text behind the part `p`, read as `q`. -/
noncomputable def verdictOf (D : Dict) (fc : Forceucase) (n : Nat) (before rest remains : Str)
    (p : Piece) (pat : Option CompoundPattern) (tripled : Bool) : Option Piece → Verdict
  | none => .next
  | some q =>
    if LastFits D fc before rest p q pat then
      if WordsReached D n p q pat tripled then
        if pat = none ∧ tripled = false ∧ D.aff.compoundSyllableVowels ≠ [] then
          if TooManySyllables D (before ++ remains) q then .next else .accept
        else .reject
      else .accept
    else .next

theorem dup_iff {C : Checker} {m m1 m2 : Mode} {p q : Piece} (hm : m ≠ .atEnd)
    (hp : Part C.dict m1 p.text p.stem p.flags p.affixes)
    (hq : Part C.dict m2 q.text q.stem q.flags q.affixes) :
    (C.opts.compoundCheckDuplicate && C.resultOf m p == C.resultOf .atEnd q) = true ↔
      C.dict.aff.options.compoundCheckDuplicate = true ∧ SameParts C.dict p q := by
  rw [Bool.and_eq_true, beq_iff_eq, sameParts_iff hm hp hq]

theorem rep_iff {C : Checker} (hC : C.dict.CondsParsed) {text : Str} :
    (C.opts.compoundCheckRep && C.isRepSimilar text) = true ↔
      C.dict.aff.options.compoundCheckRep = true ∧ RepSimilar C.dict text := by
  rw [Bool.and_eq_true, isRepSimilar_iff hC]

theorem force_iff {C : Checker} {fc : Forceucase} {F : FlagSet} :
    (fc.forbid && hasFlag F C.opts.compoundForceUppercaseFlag) = true ↔
      fc = .forbidBad ∧ Has F C.dict.aff.options.compoundForceUppercaseFlag := by
  rw [Bool.and_eq_true, hasFlag_iff]
  cases fc <;> simp [Forceucase.forbid, Checker.opts]

theorem flags_any_iff {o : Option Nat} {F : FlagSet} :
    (o.any fun f => !F.contains f) = true ↔ ¬ ∀ f, o = some f → f ∈ F.elems := by
  cases o with
  | none => simp
  | some f => simp [← FlagSet.contains_iff]

theorem classicSecond_eq {C : Checker} (hC : C.dict.CondsParsed)
    {word : Str} {start i n : Nat} {fc : Forceucase} {m m1 : Mode} (hm : m ≠ .atEnd) {p : Piece}
    (hi : i ≤ word.length) (hp : Part C.dict m1 p.text p.stem p.flags p.affixes) :
    C.classicSecond word start i (n + C.wordCount (C.resultOf m p)) fc (C.resultOf m p) =
      verdictOf C.dict fc n (word.take i) (word.drop start) (word.drop i) p none false
        (C.reading .atEnd (word.drop i)) := by
  unfold classicSecond
  rw [reading_eq hC (by simp)]
  cases hq : C.reading .atEnd (word.drop i) with
  | none => rfl
  | some q =>
    obtain ⟨qt, hq⟩ := (reading_reads hC).part _ _ _ (by simp) hq
    simp only [Option.map_some, verdictOf, resultOf_flags]
    have hpat := not_forbiddenByPatterns (m := m) (m' := .atEnd) (q := q) hi hp
    have hmeet : Meet C.dict (word.take i) q.text p q none ↔
        C.forbiddenByPatterns word i (C.resultOf m p) (C.resultOf .atEnd q) = false := by
      rw [hpat, qt]
      exact ⟨fun h => h.pattern rfl, fun h => ⟨fun _ => h, by simp⟩⟩
    split
    · rename_i h
      rw [if_neg]
      intro hf; exact hf.allowed (FlagSet.contains_iff.1 h)
    rename_i h1
    split
    · rename_i h
      rw [if_neg]
      intro hf; rw [hmeet.1 hf.meet] at h; simp at h
    rename_i h2
    split
    · rename_i h
      rw [if_neg]
      intro hf; exact hf.nodup ((dup_iff hm hp hq).1 h).1 ((dup_iff hm hp hq).1 h).2
    rename_i h3
    split
    · rename_i h
      rw [if_neg]
      intro hf; exact hf.rep ((rep_iff hC).1 h).1 ((rep_iff hC).1 h).2
    rename_i h4
    split
    · rename_i h
      rw [if_neg]
      intro hf; exact hf.force (force_iff.1 h).1 (force_iff.1 h).2
    rename_i h5
    have hf : LastFits C.dict fc (word.take i) (word.drop start) p q none :=
      ⟨fun h => h1 (FlagSet.contains_iff.2 h), hmeet.2 (by simpa using h2), fun a b => h3 ((dup_iff hm hp hq).2 ⟨a, b⟩),
        fun a b => h4 ((rep_iff hC).2 ⟨a, b⟩), fun a b => h5 (force_iff.2 ⟨a, b⟩)⟩
    rw [if_pos hf]
    have hw : (C.opts.compoundMaxWordCount.any fun max =>
        decide (n + C.wordCount (C.resultOf m p) + C.wordCount (C.resultOf .atEnd q) + 1 ≥ max)) = true ↔
        WordsReached C.dict n p q none false := by
      rw [extraWords_eq hp, extraWords_eq hq, any_iff]
      unfold WordsReached
      simp only [Checker.opts, decide_eq_true_eq]
      constructor <;> rintro ⟨mx, h, h'⟩ <;> exact ⟨mx, h, by omega⟩
    have hsy : (((C.countSyllables word : Int) + (C.resultOf .atEnd q).numSyllableModifier) % 2 ^ 64 >
        C.opts.compoundSyllableMax.getD 0) ↔ TooManySyllables C.dict (word.take i ++ word.drop i) q := by
      rw [countSyllables_eq, lastSyllables_eq hq, List.take_append_drop]; rfl
    by_cases h6 : WordsReached C.dict n p q none false
    · rw [if_pos (hw.2 h6), if_pos h6]
      by_cases h7 : C.dict.aff.compoundSyllableVowels = []
      · simp [Checker.aff, h7]
      · have h8 : C.aff.compoundSyllableVowels.isEmpty = false := by simpa [Checker.aff] using h7
        have h10 : True ∧ True ∧ C.dict.aff.compoundSyllableVowels ≠ [] := ⟨trivial, trivial, h7⟩
        rw [if_neg (c := C.aff.compoundSyllableVowels.isEmpty = true) (by simp [h8]), if_pos h10]
        by_cases h9 : TooManySyllables C.dict (word.take i ++ word.drop i) q
        · rw [if_pos h9, if_pos (hsy.2 h9)]
        · rw [if_neg h9, if_neg (mt hsy.1 h9)]
    · rw [if_neg (mt hw.1 h6), if_neg h6]

theorem tripleSecond_eq {C : Checker} (hC : C.dict.CondsParsed)
    {triple word before remains : Str} {start i n : Nat} {fc : Forceucase} {m m1 : Mode}
    (hm : m ≠ .atEnd) {p : Piece}
    (hi : i ≤ triple.length) (hp : Part C.dict m1 p.text p.stem p.flags p.affixes)
    (hb : triple.take i = before) :
    C.tripleSecond triple word start i (n + C.wordCount (C.resultOf m p)) fc (C.resultOf m p) =
      verdictOf C.dict fc n before (word.drop start) remains p none true
        (C.reading .atEnd (triple.drop i)) := by
  unfold tripleSecond
  rw [reading_eq hC (by simp)]
  cases hq : C.reading .atEnd (triple.drop i) with
  | none => rfl
  | some q =>
    obtain ⟨qt, hq⟩ := (reading_reads hC).part _ _ _ (by simp) hq
    simp only [Option.map_some, verdictOf, resultOf_flags]
    have hpat := not_forbiddenByPatterns (m := m) (m' := .atEnd) (q := q) hi hp
    have hmeet : Meet C.dict before q.text p q none ↔
        C.forbiddenByPatterns triple i (C.resultOf m p) (C.resultOf .atEnd q) = false := by
      rw [hpat, qt, hb]
      exact ⟨fun h => h.pattern rfl, fun h => ⟨fun _ => h, by simp⟩⟩
    split
    · rename_i h
      rw [if_neg]
      intro hf; exact hf.allowed (FlagSet.contains_iff.1 h)
    rename_i h1
    split
    · rename_i h
      rw [if_neg]
      intro hf; rw [hmeet.1 hf.meet] at h; simp at h
    rename_i h2
    split
    · rename_i h
      rw [if_neg]
      intro hf; exact hf.nodup ((dup_iff hm hp hq).1 h).1 ((dup_iff hm hp hq).1 h).2
    rename_i h3
    split
    · rename_i h
      rw [if_neg]
      intro hf; exact hf.rep ((rep_iff hC).1 h).1 ((rep_iff hC).1 h).2
    rename_i h4
    split
    · rename_i h
      rw [if_neg]
      intro hf; exact hf.force (force_iff.1 h).1 (force_iff.1 h).2
    rename_i h5
    have hf : LastFits C.dict fc before (word.drop start) p q none :=
      ⟨fun h => h1 (FlagSet.contains_iff.2 h), hmeet.2 (by simpa using h2), fun a b => h3 ((dup_iff hm hp hq).2 ⟨a, b⟩),
        fun a b => h4 ((rep_iff hC).2 ⟨a, b⟩), fun a b => h5 (force_iff.2 ⟨a, b⟩)⟩
    rw [if_pos hf]
    have hw : (C.opts.compoundMaxWordCount.any fun max =>
        decide (n + C.wordCount (C.resultOf m p) > max)) = true ↔
        WordsReached C.dict n p q none true := by
      rw [extraWords_eq hp, any_iff]
      unfold WordsReached
      simp only [Checker.opts, decide_eq_true_eq, gt_iff_lt]
    by_cases h6 : WordsReached C.dict n p q none true
    · rw [if_pos (hw.2 h6), if_pos h6]; simp
    · rw [if_neg (mt hw.1 h6), if_neg h6]

theorem patternSecond_eq {C : Checker} (hC : C.dict.CondsParsed) {c : CompoundPattern}
    {text word before remains : Str} {start n : Nat} {fc : Forceucase} {m m1 : Mode}
    (hm : m ≠ .atEnd) {p : Piece} {tripled : Bool}
    (hp : Part C.dict m1 p.text p.stem p.flags p.affixes) :
    C.patternSecond c text word start n fc (C.resultOf m p) =
      verdictOf C.dict fc n before (word.drop start) remains p (some c) tripled
        (C.reading .atEnd text) := by
  unfold patternSecond
  rw [reading_eq hC (by simp)]
  cases hq : C.reading .atEnd text with
  | none => rfl
  | some q =>
    obtain ⟨qt, hq⟩ := (reading_reads hC).part _ _ _ (by simp) hq
    simp only [Option.map_some, verdictOf, resultOf_flags]
    have hmeet : Meet C.dict before q.text p q (some c) ↔
        ∀ f, c.secondWordFlag = some f → f ∈ q.flags.elems :=
      ⟨fun h => h.flag _ rfl, fun h => ⟨by simp, by rintro c' ⟨⟩; exact h⟩⟩
    split
    · rename_i h
      rw [if_neg]
      intro hf; exact hf.allowed (FlagSet.contains_iff.1 h)
    rename_i h1
    split
    · rename_i h
      rw [if_neg]
      intro hf; exact flags_any_iff.1 h (hmeet.1 hf.meet)
    rename_i h2
    split
    · rename_i h
      rw [if_neg]
      intro hf; exact hf.nodup ((dup_iff hm hp hq).1 h).1 ((dup_iff hm hp hq).1 h).2
    rename_i h3
    split
    · rename_i h
      rw [if_neg]
      intro hf; exact hf.rep ((rep_iff hC).1 h).1 ((rep_iff hC).1 h).2
    rename_i h4
    split
    · rename_i h
      rw [if_neg]
      intro hf; exact hf.force (force_iff.1 h).1 (force_iff.1 h).2
    rename_i h5
    have hf : LastFits C.dict fc before (word.drop start) p q (some c) :=
      ⟨fun h => h1 (FlagSet.contains_iff.2 h), hmeet.2 (Classical.not_not.1 (mt flags_any_iff.2 h2)), fun a b => h3 ((dup_iff hm hp hq).2 ⟨a, b⟩),
        fun a b => h4 ((rep_iff hC).2 ⟨a, b⟩), fun a b => h5 (force_iff.2 ⟨a, b⟩)⟩
    rw [if_pos hf]
    have hw : (C.opts.compoundMaxWordCount.any fun max => decide (n + 1 ≥ max)) = true ↔
        WordsReached C.dict n p q (some c) tripled := by
      rw [any_iff]
      unfold WordsReached
      simp only [Checker.opts, decide_eq_true_eq]
      constructor <;> rintro ⟨mx, h, h'⟩ <;> exact ⟨mx, h, by cases tripled <;> simp at * <;> omega⟩
    by_cases h6 : WordsReached C.dict n p q (some c) tripled
    · rw [if_pos (hw.2 h6), if_pos h6]; simp
    · rw [if_neg (mt hw.1 h6), if_neg h6]

/-! ### Behind a part -/

/-- What is tried behind a part, as a computation. -/
def runBehind (v : Verdict) (s : Run (Option CompoundingResult)) (ok : CompoundingResult → Bool)
    (p : Piece) : Run Answer :=
  match v with
  | .accept => .ok (.found p)
  | .reject => .ok .stop
  | .next =>
    match s with
    | .error e => .error e
    | .ok none => .ok .nothing
    | .ok (some r) => if ok r then .ok (.found p) else .ok .nothing

theorem verdictOf_accept {D : Dict} {fc : Forceucase} {n : Nat} {before rest remains : Str}
    {p : Piece} {pat : Option CompoundPattern} {tripled : Bool} {o : Option Piece} :
    verdictOf D fc n before rest remains p pat tripled o = .accept ↔
      ∃ q, o = some q ∧ LastFits D fc before rest p q pat ∧
        (WordsReached D n p q pat tripled →
          pat = none ∧ tripled = false ∧ D.aff.compoundSyllableVowels ≠ [] ∧
          ¬ TooManySyllables D (before ++ remains) q) := by
  cases o with
  | none => simp [verdictOf]
  | some q =>
    unfold verdictOf
    simp only [Option.some.injEq, exists_eq_left']
    split
    · split
      · split
        · split <;> simp_all
        · simp_all
      · simp_all
    · simp_all

theorem verdictOf_reject {D : Dict} {fc : Forceucase} {n : Nat} {before rest remains : Str}
    {p : Piece} {pat : Option CompoundPattern} {tripled : Bool} {o : Option Piece} :
    verdictOf D fc n before rest remains p pat tripled o = .reject ↔
      ∃ q, o = some q ∧ LastFits D fc before rest p q pat ∧ WordsReached D n p q pat tripled ∧
        ¬ (pat = none ∧ tripled = false ∧ D.aff.compoundSyllableVowels ≠ []) := by
  cases o with
  | none => simp [verdictOf]
  | some q =>
    unfold verdictOf
    simp only [Option.some.injEq, exists_eq_left']
    split
    · split
      · split
        · split <;> simp_all
        · simp_all
      · simp_all
    · simp_all

theorem verdictOf_next {D : Dict} {fc : Forceucase} {n : Nat} {before rest remains : Str}
    {p : Piece} {pat : Option CompoundPattern} {tripled : Bool} {o : Option Piece} :
    verdictOf D fc n before rest remains p pat tripled o = .next ↔
      ∀ q, o = some q → LastFits D fc before rest p q pat →
        WordsReached D n p q pat tripled ∧ pat = none ∧ tripled = false ∧
          D.aff.compoundSyllableVowels ≠ [] ∧ TooManySyllables D (before ++ remains) q := by
  cases o with
  | none => simp [verdictOf]
  | some q =>
    unfold verdictOf
    simp only [Option.some.injEq, forall_eq']
    split
    · split
      · split
        · split <;> simp_all
        · simp_all
      · simp_all
    · simp_all

theorem runBehind_iff {C : Checker} {fc : Forceucase} {R : Found} {n : Nat}
    {before rest remains text : Str} {p : Piece} {pat : Option CompoundPattern} {tripled : Bool}
    {v : Verdict} {s : Run (Option CompoundingResult)} {ok : CompoundingResult → Bool}
    (hv : v = verdictOf C.dict fc n before rest remains p pat tripled (C.reading .atEnd text))
    (hs : ∀ o', s = .ok o' ↔ ∃ o, R (n + 1 + (if pat = none then extraWords C.dict p else 0))
      before text o ∧ o' = o.map (C.resultOf .atMiddle))
    (hok : ∀ q, ok (C.resultOf .atMiddle q) = true ↔
      RestFits C.dict before rest remains text p q pat tripled) (a : Answer) :
    runBehind v s ok p = .ok a ↔
      Behind C.dict fc C.reading R n before rest remains text p pat tripled a := by
  constructor
  · intro h
    unfold runBehind at h
    cases v with
    | accept =>
      obtain ⟨q, h1, h2, h3⟩ := verdictOf_accept.1 hv.symm
      cases h
      exact .last h1 h2 h3
    | reject =>
      obtain ⟨q, h1, h2, h3, h4⟩ := verdictOf_reject.1 hv.symm
      cases h
      exact .limit h1 h2 h3 h4
    | next =>
      have hn := verdictOf_next.1 hv.symm
      match s, hs, h with
      | .ok none, hs, h =>
        cases h
        obtain ⟨o, h1, h2⟩ := (hs none).1 rfl
        cases o with
        | none => exact .nothing hn h1 (by simp)
        | some q => simp at h2
      | .ok (some r), hs, h =>
        obtain ⟨o, h1, h2⟩ := (hs (some r)).1 rfl
        cases o with
        | none => simp at h2
        | some q =>
          have h2 : r = C.resultOf .atMiddle q := by simpa using h2
          subst h2
          simp only at h
          by_cases hk : ok (C.resultOf .atMiddle q) = true
          · rw [if_pos hk] at h; cases h
            exact .compound hn h1 ((hok q).1 hk)
          · rw [if_neg hk] at h; cases h
            exact .nothing hn h1 (by rintro q' ⟨⟩; exact mt (hok q).2 hk)
  · intro h
    unfold runBehind
    cases h with
    | last h1 h2 h3 =>
      rw [hv, verdictOf_accept.2 ⟨_, h1, h2, h3⟩]
    | limit h1 h2 h3 h4 =>
      rw [hv, verdictOf_reject.2 ⟨_, h1, h2, h3, h4⟩]
    | compound h1 h2 h3 =>
      rw [hv, verdictOf_next.2 h1, (hs _).2 ⟨_, h2, rfl⟩]
      simp only [Option.map_some]
      rw [if_pos ((hok _).2 h3)]
    | @nothing o h1 h2 h3 =>
      rw [hv, verdictOf_next.2 h1, (hs _).2 ⟨_, h2, rfl⟩]
      cases o with
      | none => rfl
      | some q =>
        simp only [Option.map_some]
        rw [if_neg (mt (hok q).1 (h3 q rfl))]

/-! ### One way -/

/-- One way to read the rest of the word, as a computation. -/
def runWay (first : Option Piece) (b1 : Piece → Run Answer) (b2 : Piece → Option (Run Answer)) :
    Run Answer :=
  match first with
  | none => .ok .nothing
  | some p =>
    match b1 p with
    | .error e => .error e
    | .ok .nothing => (b2 p).getD (.ok .nothing)
    | .ok a => .ok a

theorem putBack_unique {D : Dict} {before : Str} {c c' : Char} (h : CanPutBack D before c)
    (h' : CanPutBack D before c') : c = c' := by
  obtain ⟨_, a, rfl⟩ := h
  obtain ⟨_, b, hb⟩ := h'
  have := List.append_inj_right' hb rfl
  simpa using this

open scoped Classical in
theorem runWay_iff {C : Checker} {fc : Forceucase} {R : Found} {m : Mode} {n : Nat}
    {before rest text remains : Str} {pat : Option CompoundPattern}
    {b1 : Piece → Run Answer} {b2 : Piece → Option (Run Answer)}
    (h1 : ∀ p, C.reading m text = some p → ∀ a, b1 p = .ok a ↔
      Behind C.dict fc C.reading R n (before ++ text) rest remains remains p pat false a)
    (h2 : ∀ p, C.reading m text = some p →
      (b2 p = none ∧ ∀ c, ¬ CanPutBack C.dict (before ++ text) c) ∨
      ∃ c r, b2 p = some r ∧ CanPutBack C.dict (before ++ text) c ∧ ∀ a, r = .ok a ↔
        Behind C.dict fc C.reading R n (before ++ text) rest remains (c :: remains) p pat true a)
    (a : Answer) :
    runWay ((C.reading m text).filter fun p => decide (FirstFits C.U C.dict (before ++ text) remains p pat))
      b1 b2 = .ok a ↔ Way C.U C.dict fc C.reading R m n before rest text remains pat a := by
  cases hr : C.reading m text with
  | none =>
    constructor
    · intro h
      cases h
      exact .noPart (by simp [hr])
    · intro h
      cases h with
      | noPart => rfl
      | direct h => rw [hr] at h; cases h
      | noTriple h => rw [hr] at h; cases h
      | triple h => rw [hr] at h; cases h
  | some p =>
    have h1 := h1 p hr
    have h2 := h2 p hr
    by_cases hf : FirstFits C.U C.dict (before ++ text) remains p pat
    · rw [Option.filter_some_pos (by simpa using hf)]
      unfold runWay
      constructor
      · intro h
        simp only at h
        match hb : b1 p with
        | .error e => rw [hb] at h; cases h
        | .ok .nothing =>
          rw [hb] at h
          simp only at h
          have hb := (h1 _).1 hb
          rcases h2 with ⟨h2, h3⟩ | ⟨c, r, h2, h3, h4⟩
          · rw [h2] at h; cases h
            exact .noTriple hr hf hb h3
          · rw [h2] at h
            exact .triple hr hf hb h3 ((h4 _).1 h)
        | .ok .stop => rw [hb] at h; cases h; exact .direct hr hf ((h1 _).1 hb) (by simp)
        | .ok (.found q) => rw [hb] at h; cases h; exact .direct hr hf ((h1 _).1 hb) (by simp)
      · intro h
        dsimp only
        cases h with
        | noPart h => exact absurd hf (h p hr)
        | direct h' _ h h3 =>
          rw [hr] at h'; cases h'
          rw [(h1 _).2 h]
          cases a with
          | nothing => exact absurd rfl h3
          | stop => rfl
          | found => rfl
        | noTriple h' _ h h3 =>
          rw [hr] at h'; cases h'
          rw [(h1 _).2 h]
          rcases h2 with ⟨h2, h3⟩ | ⟨c, r, h2, h4, h5⟩
          · rw [h2]; rfl
          · exact absurd h4 (h3 c)
        | triple h' _ h h3 h4 =>
          rw [hr] at h'; cases h'
          rw [(h1 _).2 h]
          rcases h2 with ⟨h2, h5⟩ | ⟨c, r, h2, h5, h6⟩
          · exact absurd h3 (h5 _)
          · rw [putBack_unique h3 h5] at h4
            rw [h2]
            exact (h6 _).2 h4
    · rw [Option.filter_some_neg (by simpa using hf)]
      constructor
      · intro h
        cases h
        exact .noPart (by intro q hq; rw [hr] at hq; cases hq; exact hf)
      · intro h
        cases h with
        | noPart => rfl
        | direct h h' => rw [hr] at h; cases h; exact absurd h' hf
        | noTriple h h' => rw [hr] at h; cases h; exact absurd h' hf
        | triple h h' => rw [hr] at h; cases h; exact absurd h' hf

/-! ### The tests after the recursive search -/

theorem slice_add {word : Str} {start i k : Nat} (h : start ≤ i) :
    slice word start (i + k) = slice word start i ++ (word.drop i).take k := by
  unfold slice
  rw [List.take_add]
  by_cases hi : i ≤ word.length
  · rw [List.drop_append_of_le_length (by simp; omega)]
  · have h1 : word.drop i = [] := by simp; omega
    simp [h1]

theorem repStem_iff {C : Checker} (hC : C.dict.CondsParsed) {word x y stem : Str} {start i : Nat}
    (hx : slice word start i = x) (hy : word.drop i = y) (hsi : start ≤ i) :
    (startsWith (word.drop i) stem && C.isRepSimilar (slice word start (i + stem.length))) = true ↔
      ∃ t, y = stem ++ t ∧ RepSimilar C.dict (x ++ stem) := by
  rw [Bool.and_eq_true, isRepSimilar_iff hC, startsWith_iff, hy]
  constructor
  · rintro ⟨⟨t, ht⟩, h⟩
    refine ⟨t, ht, ?_⟩
    rwa [slice_add hsi, hx, hy, ht, List.take_left] at h
  · rintro ⟨t, ht, h⟩
    refine ⟨⟨t, ht⟩, ?_⟩
    rwa [slice_add hsi, hx, hy, ht, List.take_left]

theorem classicOk_iff {C : Checker} (hC : C.dict.CondsParsed) {word : Str} {start i : Nat}
    {m m1 : Mode} {p q : Piece} (hi : i ≤ word.length) (hsi : start ≤ i)
    (hp : Part C.dict m1 p.text p.stem p.flags p.affixes) (hx : slice word start i = p.text) :
    (!C.forbiddenByPatterns word i (C.resultOf m p) (C.resultOf .atMiddle q) &&
      !C.repAfterRecursion word start i (C.resultOf .atMiddle q)) = true ↔
      RestFits C.dict (word.take i) (word.drop start) (word.drop i) (word.drop i) p q none false := by
  rw [Bool.and_eq_true, Bool.not_eq_true', Bool.not_eq_true', not_forbiddenByPatterns hi hp]
  unfold repAfterRecursion
  rw [Bool.eq_false_iff, ne_eq, Bool.and_eq_true, Bool.or_eq_true, resultOf_stem,
    repStem_iff hC hx rfl hsi, isRepSimilar_iff hC]
  constructor
  · rintro ⟨h1, h2⟩
    refine ⟨⟨fun _ => h1, by simp⟩, fun a b => h2 ⟨a, .inl b⟩, fun a => ?_⟩
    simp only [ne_eq, not_true_eq_false, Bool.false_eq_true, and_self, if_false]
    exact fun t ht b => h2 ⟨a, .inr ⟨t, ht, b⟩⟩
  · rintro ⟨h1, h2, h3⟩
    refine ⟨h1.pattern rfl, ?_⟩
    rintro ⟨a, b | ⟨t, ht, b⟩⟩
    · exact h2 a b
    · have := h3 a
      simp only [ne_eq, not_true_eq_false, Bool.false_eq_true, and_self, if_false] at this
      exact this t ht b

theorem tripleOk_iff {C : Checker} (hC : C.dict.CondsParsed) {triple word : Str} {start i : Nat}
    {m m1 : Mode} {p q : Piece} (hi : i ≤ triple.length) (hsi : start ≤ i)
    (hp : Part C.dict m1 p.text p.stem p.flags p.affixes) (hx : slice word start i = p.text)
    (ht : triple.take i = word.take i) :
    (!C.forbiddenByPatterns triple i (C.resultOf m p) (C.resultOf .atMiddle q) &&
      !C.repAfterRecursion word start i (C.resultOf .atMiddle q)) = true ↔
      RestFits C.dict (word.take i) (word.drop start) (word.drop i) (triple.drop i) p q none true := by
  rw [Bool.and_eq_true, Bool.not_eq_true', Bool.not_eq_true', not_forbiddenByPatterns hi hp, ht]
  unfold repAfterRecursion
  rw [Bool.eq_false_iff, ne_eq, Bool.and_eq_true, Bool.or_eq_true, resultOf_stem,
    repStem_iff hC hx rfl hsi, isRepSimilar_iff hC]
  constructor
  · rintro ⟨h1, h2⟩
    refine ⟨⟨fun _ => h1, by simp⟩, fun a b => h2 ⟨a, .inl b⟩, fun a => ?_⟩
    simp only [ne_eq, not_true_eq_false, false_and, if_false]
    exact fun t ht b => h2 ⟨a, .inr ⟨t, ht, b⟩⟩
  · rintro ⟨h1, h2, h3⟩
    refine ⟨h1.pattern rfl, ?_⟩
    rintro ⟨a, b | ⟨t, ht, b⟩⟩
    · exact h2 a b
    · have := h3 a
      simp only [ne_eq, not_true_eq_false, false_and, if_false] at this
      exact this t ht b

theorem patternOk_iff {C : Checker} (hC : C.dict.CondsParsed) {c : CompoundPattern}
    {scratch word : Str} {start j : Nat} {p q : Piece} (hsi : start ≤ j)
    (hx : slice scratch start j = p.text) :
    C.patternRecursionOk c scratch word start j (C.resultOf .atMiddle q) = true ↔
      RestFits C.dict (scratch.take j) (word.drop start) (scratch.drop j) (scratch.drop j) p q
        (some c) false := by
  unfold patternRecursionOk
  rw [resultOf_flags, resultOf_stem]
  have key : (C.opts.compoundCheckRep && (C.isRepSimilar (word.drop start) ||
      (startsWith (scratch.drop j) q.stem &&
        C.isRepSimilar (slice scratch start (j + q.stem.length))))) = true ↔
      C.dict.aff.options.compoundCheckRep = true ∧ (RepSimilar C.dict (word.drop start) ∨
        ∃ t, scratch.drop j = q.stem ++ t ∧ RepSimilar C.dict (p.text ++ q.stem)) := by
    rw [Bool.and_eq_true, Bool.or_eq_true, repStem_iff hC hx rfl hsi, isRepSimilar_iff hC]
  constructor
  · intro h
    split at h
    · cases h
    rename_i h1
    split at h
    · cases h
    rename_i h2
    rw [flags_any_iff, Classical.not_not] at h1
    rw [key] at h2
    refine ⟨⟨by simp, by rintro c' ⟨⟩; exact h1⟩, fun a b => h2 ⟨a, .inl b⟩, fun a => ?_⟩
    simp only [Bool.false_eq_true, and_false, if_false]
    exact fun t ht b => h2 ⟨a, .inr ⟨t, ht, b⟩⟩
  · rintro ⟨h1, h2, h3⟩
    rw [if_neg, if_neg]
    · rw [key]
      rintro ⟨a, b | ⟨t, ht, b⟩⟩
      · exact h2 a b
      · have := h3 a
        simp only [Bool.false_eq_true, and_false, if_false] at this
        exact this t ht b
    · rw [flags_any_iff, Classical.not_not]
      exact h1.flag c rfl

theorem patternTripleOk_iff {C : Checker} (hC : C.dict.CondsParsed) {c : CompoundPattern}
    {triple scratch word : Str} {start j : Nat} {p q : Piece} (hsi : start ≤ j)
    (hj : j ≤ scratch.length) (hj0 : 0 < j)
    (hx : slice scratch start j = p.text) :
    C.patternTripleRecursionOk c triple scratch word start j (C.resultOf .atMiddle q) = true ↔
      RestFits C.dict (scratch.take j) (word.drop start) (scratch.drop j) (triple.drop j) p q
        (some c) true := by
  unfold patternTripleRecursionOk
  rw [resultOf_flags, resultOf_stem]
  have hl : p.text.length = j - start := by rw [← hx, length_slice hj]
  have hs : start ≤ j + q.stem.length - 1 → slice scratch start (j + q.stem.length - 1) =
      (p.text ++ scratch.drop j).take ((p.text ++ q.stem).length - 1) := by
    intro h
    rw [← hx, ← drop_eq_slice_add hsi, List.length_append, length_slice hj]
    unfold slice
    rw [List.drop_take]
    congr 1
    omega
  have he : start ≤ j + q.stem.length - 1 ↔ p.text ++ q.stem ≠ [] := by
    rw [← List.length_pos_iff, List.length_append, hl]
    omega
  have key : (C.opts.compoundCheckRep && (C.isRepSimilar (word.drop start) ||
      (startsWith (triple.drop j) q.stem && start ≤ j + q.stem.length - 1 &&
        C.isRepSimilar (slice scratch start (j + q.stem.length - 1))))) = true ↔
      C.dict.aff.options.compoundCheckRep = true ∧ (RepSimilar C.dict (word.drop start) ∨
        ∃ t, triple.drop j = q.stem ++ t ∧ p.text ++ q.stem ≠ [] ∧
          RepSimilar C.dict ((p.text ++ scratch.drop j).take ((p.text ++ q.stem).length - 1))) := by
    rw [Bool.and_eq_true, Bool.or_eq_true, Bool.and_eq_true, Bool.and_eq_true, isRepSimilar_iff hC,
      isRepSimilar_iff hC, startsWith_iff, decide_eq_true_eq, he]
    constructor
    · rintro ⟨a, b | ⟨⟨⟨t, ht⟩, b⟩, d⟩⟩
      · exact ⟨a, .inl b⟩
      · exact ⟨a, .inr ⟨t, ht, b, by rwa [hs (he.2 b)] at d⟩⟩
    · rintro ⟨a, b | ⟨t, ht, b, d⟩⟩
      · exact ⟨a, .inl b⟩
      · exact ⟨a, .inr ⟨⟨⟨t, ht⟩, b⟩, by rwa [hs (he.2 b)]⟩⟩
  constructor
  · intro h
    split at h
    · cases h
    rename_i h1
    split at h
    · cases h
    rename_i h2
    rw [flags_any_iff, Classical.not_not] at h1
    rw [key] at h2
    refine ⟨⟨by simp, by rintro c' ⟨⟩; exact h1⟩, fun a b => h2 ⟨a, .inl b⟩, fun a => ?_⟩
    rw [if_pos (by simp)]
    exact fun t ht b d => h2 ⟨a, .inr ⟨t, ht, b, d⟩⟩
  · rintro ⟨h1, h2, h3⟩
    rw [if_neg, if_neg]
    · rw [key]
      rintro ⟨a, b | ⟨t, ht, b, d⟩⟩
      · exact h2 a b
      · have := h3 a
        rw [if_pos (by simp)] at this
        exact this t ht b d
    · rw [flags_any_iff, Classical.not_not]
      exact h1.flag c rfl

/-! ### The first part -/

open scoped Classical in
theorem classicFirst_eq {C : Checker} (hC : C.dict.CondsParsed) {m : Mode} (hm : m ≠ .full)
    {word : Str} {start i : Nat} :
    C.classicFirst m word start i = ((C.reading m (slice word start i)).filter fun p =>
      decide (FirstFits C.U C.dict (word.take i) (word.drop i) p none)).map (C.resultOf m) := by
  unfold classicFirst
  rw [reading_eq hC hm]
  cases C.reading m (slice word start i) with
  | none => rfl
  | some p =>
    simp only [Option.map_some, resultOf_flags]
    have key : FirstFits C.U C.dict (word.take i) (word.drop i) p none ↔
        (¬ p.flags.contains C.opts.forbiddenWordFlag = true ∧
         ¬ (C.opts.compoundCheckTriple && areThreeCharsEqual word i) = true ∧
         ¬ (C.opts.compoundCheckCase && hasUppercaseAtBoundary C.U word i) = true) := by
      rw [FlagSet.contains_iff, Bool.and_eq_true, Bool.and_eq_true, areThreeCharsEqual_iff,
        hasUppercaseAtBoundary_iff]
      constructor
      · rintro ⟨h1, h2, h3, h4⟩
        exact ⟨h1, fun h => h2 h.1 h.2, fun h => h3 rfl h.1 h.2⟩
      · rintro ⟨h1, h2, h3⟩
        exact ⟨h1, fun a b => h2 ⟨a, b⟩, fun _ a b => h3 ⟨a, b⟩, by simp⟩
    by_cases h : FirstFits C.U C.dict (word.take i) (word.drop i) p none
    · obtain ⟨h1, h2, h3⟩ := key.1 h
      rw [if_neg h1, if_neg h2, if_neg h3, Option.filter_some_pos (by simpa using h)]; rfl
    · rw [Option.filter_some_neg (by simpa using h)]
      rw [key] at h
      split
      · rfl
      split
      · rfl
      split
      · rfl
      · simp_all

open scoped Classical in
theorem patternFirst_eq {C : Checker} (hC : C.dict.CondsParsed) {m : Mode} (hm : m ≠ .full)
    {c : CompoundPattern} {word : Str} {start i : Nat} :
    C.patternFirst c m word start i = ((C.reading m (slice word start i)).filter fun p =>
      decide (FirstFits C.U C.dict (word.take i) (word.drop i) p (some c))).map (C.resultOf m) := by
  unfold patternFirst
  rw [reading_eq hC hm]
  cases C.reading m (slice word start i) with
  | none => rfl
  | some p =>
    simp only [Option.map_some, resultOf_flags]
    have key : FirstFits C.U C.dict (word.take i) (word.drop i) p (some c) ↔
        (¬ p.flags.contains C.opts.forbiddenWordFlag = true ∧
         ¬ (c.firstWordFlag.any fun f => !p.flags.contains f) = true ∧
         ¬ (C.opts.compoundCheckTriple && areThreeCharsEqual word i) = true) := by
      rw [FlagSet.contains_iff, Bool.and_eq_true, areThreeCharsEqual_iff, flags_any_iff,
        Classical.not_not]
      constructor
      · rintro ⟨h1, h2, h3, h4⟩
        exact ⟨h1, h4 c rfl, fun h => h2 h.1 h.2⟩
      · rintro ⟨h1, h2, h3⟩
        exact ⟨h1, fun a b => h3 ⟨a, b⟩, by simp, by rintro c' ⟨⟩; exact h2⟩
    by_cases h : FirstFits C.U C.dict (word.take i) (word.drop i) p (some c)
    · obtain ⟨h1, h2, h3⟩ := key.1 h
      rw [if_neg h1, if_neg h2, if_neg h3, Option.filter_some_pos (by simpa using h)]; rfl
    · rw [Option.filter_some_neg (by simpa using h)]
      rw [key] at h
      split
      · rfl
      split
      · rfl
      split
      · rfl
      · simp_all

/-! ### The ways of the code -/

/-- The recursive search gives the answers of `R`. -/
def Agree (C : Checker) (search : Search) (R : Found) : Prop :=
  ∀ word start n, start ≤ word.length → ∀ o',
    search word start n = .ok o' ↔
      ∃ o, R n (word.take start) (word.drop start) o ∧ o' = o.map (C.resultOf .atMiddle)

/-- The result of a plain way: `stop` and `nothing` are the same. -/
def plainResult (C : Checker) (m : Mode) : Answer → Option CompoundingResult
  | .found p => some (C.resultOf m p)
  | _ => none

/-- The result for a CHECKCOMPOUNDPATTERN line. -/
def patternResult (C : Checker) (m : Mode) : Answer → Option (Option CompoundingResult)
  | .found p => some (some (C.resultOf m p))
  | .stop => some none
  | .nothing => none

theorem tripled_none {word : Str} {i : Nat} (h : tripled word i = none) :
    ∀ a c, word.take i ≠ a ++ [c, c] := by
  intro a c he
  unfold tripled at h
  rw [he] at h
  simp at h

theorem exceptMap_ok {α β : Type} {f : α → β} {x : Run α} {b : β} :
    Except.map f x = .ok b ↔ ∃ a, x = .ok a ∧ b = f a := by
  cases x with
  | error e => simp [Except.map]
  | ok a => simp [Except.map, eq_comm]

open scoped Classical in
/-- `classic` as one way. -/
theorem classic_eq {C : Checker} (hC : C.dict.CondsParsed) {search : Search} {m : Mode}
    (hm : m ≠ .full) {word : Str} {start i n : Nat} {fc : Forceucase} :
    C.classic search m word start i n fc = Except.map (C.plainResult m)
      (runWay ((C.reading m (slice word start i)).filter fun p =>
          decide (FirstFits C.U C.dict (word.take i) (word.drop i) p none))
        (fun p => runBehind
          (C.classicSecond word start i (n + C.wordCount (C.resultOf m p)) fc (C.resultOf m p))
          (search word i (n + C.wordCount (C.resultOf m p) + 1))
          (fun r => !C.forbiddenByPatterns word i (C.resultOf m p) r &&
            !C.repAfterRecursion word start i r) p)
        (fun p => if C.opts.compoundSimplifiedTriple then
            (tripled word i).map fun triple => runBehind
              (C.tripleSecond triple word start i (n + C.wordCount (C.resultOf m p)) fc
                (C.resultOf m p))
              (search triple i (n + C.wordCount (C.resultOf m p) + 1))
              (fun r => !C.forbiddenByPatterns triple i (C.resultOf m p) r &&
                !C.repAfterRecursion word start i r) p
          else none)) := by
  unfold classic
  rw [classicFirst_eq hC hm]
  cases (C.reading m (slice word start i)).filter fun p =>
    decide (FirstFits C.U C.dict (word.take i) (word.drop i) p none) with
  | none => rfl
  | some p =>
    simp only [Option.map_some, runWay]
    have hT : C.simplifiedTriple search word start i (n + C.wordCount (C.resultOf m p)) fc
        (C.resultOf m p) = Except.map (C.plainResult m) (Option.getD
          (if C.opts.compoundSimplifiedTriple then
            (tripled word i).map fun triple => runBehind
              (C.tripleSecond triple word start i (n + C.wordCount (C.resultOf m p)) fc
                (C.resultOf m p))
              (search triple i (n + C.wordCount (C.resultOf m p) + 1))
              (fun r => !C.forbiddenByPatterns triple i (C.resultOf m p) r &&
                !C.repAfterRecursion word start i r) p
          else none) (.ok .nothing)) := by
      unfold simplifiedTriple
      cases hs : C.opts.compoundSimplifiedTriple with
      | false => rfl
      | true =>
        cases ht : tripled word i with
        | none => rfl
        | some triple =>
          simp only [Bool.not_true, Bool.false_eq_true, if_false, if_true, Option.map_some,
            Option.getD_some]
          cases C.tripleSecond triple word start i (n + C.wordCount (C.resultOf m p)) fc
            (C.resultOf m p) with
          | accept => rfl
          | reject => rfl
          | next =>
            simp only [tripleRecursive, runBehind]
            cases search triple i (n + C.wordCount (C.resultOf m p) + 1) with
            | error e => rfl
            | ok o =>
              cases o with
              | none => rfl
              | some r =>
                cases h1 : C.forbiddenByPatterns triple i (C.resultOf m p) r <;>
                cases h2 : C.repAfterRecursion word start i r <;>
                simp [h1, h2, bind, Except.bind, pure, Except.pure, Except.map, plainResult]
    generalize (if C.opts.compoundSimplifiedTriple then
            (tripled word i).map fun triple => runBehind
              (C.tripleSecond triple word start i (n + C.wordCount (C.resultOf m p)) fc
                (C.resultOf m p))
              (search triple i (n + C.wordCount (C.resultOf m p) + 1))
              (fun r => !C.forbiddenByPatterns triple i (C.resultOf m p) r &&
                !C.repAfterRecursion word start i r) p
          else none) = T at hT ⊢
    cases C.classicSecond word start i (n + C.wordCount (C.resultOf m p)) fc (C.resultOf m p) with
    | accept => rfl
    | reject => rfl
    | next =>
      simp only [tryRecursive, runBehind]
      cases search word i (n + C.wordCount (C.resultOf m p) + 1) with
      | error e => rfl
      | ok o =>
        cases o with
        | none => exact hT
        | some r =>
          cases h1 : C.forbiddenByPatterns word i (C.resultOf m p) r <;>
          cases h2 : C.repAfterRecursion word start i r <;>
          simp [h1, h2, hT, bind, Except.bind, pure, Except.pure, Except.map, plainResult]

theorem classic_iff {C : Checker} (hC : C.dict.CondsParsed) {search : Search} {R : Found}
    (hR : Agree C search R) {m : Mode} (hm : m = .atBegin ∨ m = .atMiddle) {word : Str}
    {start i n : Nat} {fc : Forceucase} (hsi : start ≤ i) (hi : i ≤ word.length)
    (o' : Option CompoundingResult) :
    C.classic search m word start i n fc = .ok o' ↔
      ∃ a, Way C.U C.dict fc C.reading R m n (word.take start)
        (slice word start i ++ word.drop i) (slice word start i) (word.drop i) none a ∧
        o' = C.plainResult m a := by
  have hm1 : m ≠ .full := by rcases hm with rfl | rfl <;> simp
  have hm2 : m ≠ .atEnd := by rcases hm with rfl | rfl <;> simp
  have htake := take_add_slice (word := word) hsi
  have hdrop := drop_eq_slice_add (word := word) hsi
  rw [classic_eq hC hm1, exceptMap_ok]
  have := fun b1 b2 h1 h2 => runWay_iff (C := C) (fc := fc) (R := R) (m := m) (n := n)
    (before := word.take start) (rest := slice word start i ++ word.drop i)
    (text := slice word start i) (remains := word.drop i) (pat := none) (b1 := b1) (b2 := b2) h1 h2
  rw [htake, ← hdrop] at this
  rw [← hdrop]
  refine exists_congr fun a => and_congr_left fun _ => this _ _ ?_ ?_ a
  · intro p hr
    obtain ⟨pt, hp⟩ := (reading_reads hC).part _ _ _ hm1 hr
    refine runBehind_iff (classicSecond_eq hC hm2 hi hp) ?_
      (fun q => classicOk_iff hC hi hsi hp pt.symm)
    intro o'
    rw [hR _ _ _ hi, if_pos rfl, extraWords_eq hp]
    have : n + extraWords C.dict p + 1 = n + 1 + extraWords C.dict p := by omega
    rw [this]
  · intro p hr
    obtain ⟨pt, hp⟩ := (reading_reads hC).part _ _ _ hm1 hr
    cases hs : C.opts.compoundSimplifiedTriple with
    | false =>
      left
      exact ⟨rfl, fun c h => by have := h.1; rw [show C.dict.aff.options.compoundSimplifiedTriple = false from hs] at this; cases this⟩
    | true =>
      cases ht : tripled word i with
      | none =>
        left
        exact ⟨rfl, fun c h => by obtain ⟨a, ha⟩ := h.2; exact tripled_none ht a c ha⟩
      | some triple =>
        right
        obtain ⟨a, c, h1, h2⟩ := tripled_some ht
        have hl : (word.take i).length = i := by simp; omega
        have h3 : triple.take i = word.take i := by
          rw [h2, List.append_assoc]; exact List.take_left' hl
        have h4 : triple.drop i = c :: word.drop i := by
          rw [h2, List.append_assoc, List.drop_left' hl]; rfl
        have h5 : i ≤ triple.length := by
          rw [h2, List.append_assoc, List.length_append, hl]; omega
        refine ⟨c, _, rfl, ⟨hs, a, h1⟩, ?_⟩
        rw [← h4]
        refine runBehind_iff (tripleSecond_eq hC hm2 h5 hp h3) ?_
          (fun q => tripleOk_iff hC h5 hsi hp pt.symm h3)
        intro o'
        rw [hR _ _ _ h5, if_pos rfl, extraWords_eq hp, h3]
        have : n + extraWords C.dict p + 1 = n + 1 + extraWords C.dict p := by omega
        rw [this]

open scoped Classical in
/-- The body for one CHECKCOMPOUNDPATTERN line as one way. -/
theorem patternBody_eq {C : Checker} (hC : C.dict.CondsParsed) {search : Search} {m : Mode}
    (hm : m ≠ .full) {word scratch rep : Str} {start i j n : Nat} {fc : Forceucase}
    {c : CompoundPattern} (hrep : c.replacement = some rep)
    (hw : startsWith (word.drop i) rep = true)
    (hs : scratch = word.take i ++ (c.first ++ c.second) ++ word.drop (i + rep.length))
    (hj : j = i + c.first.length) :
    C.patternBody search m word start i n fc c = Except.map (C.patternResult m)
      (runWay ((C.reading m (slice scratch start j)).filter fun p =>
          decide (FirstFits C.U C.dict (scratch.take j) (scratch.drop j) p (some c)))
        (fun p => runBehind
          (C.patternSecond c (scratch.drop j) word start n fc (C.resultOf m p))
          (search scratch j (n + 1))
          (fun r => C.patternRecursionOk c scratch word start j r) p)
        (fun p => if C.opts.compoundSimplifiedTriple then
            (tripled scratch j).map fun triple => runBehind
              (C.patternSecond c (triple.drop j) word start n fc (C.resultOf m p))
              (search triple j (n + 1))
              (fun r => C.patternTripleRecursionOk c triple scratch word start j r) p
          else none)) := by
  unfold patternBody
  rw [hrep]
  simp only [hw, Bool.not_true, Bool.false_eq_true, if_false]
  rw [← hs, ← hj, patternFirst_eq hC hm]
  cases (C.reading m (slice scratch start j)).filter fun p =>
    decide (FirstFits C.U C.dict (scratch.take j) (scratch.drop j) p (some c)) with
  | none => rfl
  | some p =>
    simp only [Option.map_some, runWay]
    have hT : C.patternTriple search c scratch word start j n fc (C.resultOf m p) =
        Except.map (C.patternResult m) (Option.getD
          (if C.opts.compoundSimplifiedTriple then
            (tripled scratch j).map fun triple => runBehind
              (C.patternSecond c (triple.drop j) word start n fc (C.resultOf m p))
              (search triple j (n + 1))
              (fun r => C.patternTripleRecursionOk c triple scratch word start j r) p
          else none) (.ok .nothing)) := by
      unfold patternTriple
      cases hs : C.opts.compoundSimplifiedTriple with
      | false => rfl
      | true =>
        cases ht : tripled scratch j with
        | none => rfl
        | some triple =>
          simp only [Bool.not_true, Bool.false_eq_true, if_false, if_true, Option.map_some,
            Option.getD_some]
          cases C.patternSecond c (triple.drop j) word start n fc (C.resultOf m p) with
          | accept => rfl
          | reject => rfl
          | next =>
            simp only [runBehind]
            cases search triple j (n + 1) with
            | error e => rfl
            | ok o =>
              cases o with
              | none => rfl
              | some r =>
                cases h1 : C.patternTripleRecursionOk c triple scratch word start j r <;>
                simp [h1, bind, Except.bind, pure, Except.pure, Except.map, patternResult]
    generalize (if C.opts.compoundSimplifiedTriple then
            (tripled scratch j).map fun triple => runBehind
              (C.patternSecond c (triple.drop j) word start n fc (C.resultOf m p))
              (search triple j (n + 1))
              (fun r => C.patternTripleRecursionOk c triple scratch word start j r) p
          else none) = T at hT ⊢
    cases C.patternSecond c (scratch.drop j) word start n fc (C.resultOf m p) with
    | accept => rfl
    | reject => rfl
    | next =>
      simp only [runBehind]
      cases search scratch j (n + 1) with
      | error e => rfl
      | ok o =>
        cases o with
        | none => exact hT
        | some r =>
          cases h1 : C.patternRecursionOk c scratch word start j r <;>
          simp [h1, hT, bind, Except.bind, pure, Except.pure, Except.map, patternResult]

theorem patternBody_iff {C : Checker} (hC : C.dict.CondsParsed) {search : Search} {R : Found}
    (hR : Agree C search R) {m : Mode} (hm : m = .atBegin ∨ m = .atMiddle) {word : Str}
    {start i n : Nat} {fc : Forceucase} {c : CompoundPattern} (hsi : start ≤ i)
    (hi : i ≤ word.length) (o' : Option (Option CompoundingResult)) :
    C.patternBody search m word start i n fc c = .ok o' ↔
      ∃ a, PatternWay C.U C.dict fc C.reading R m n (word.take start) (slice word start i)
        (word.drop i) c a ∧ o' = C.patternResult m a := by
  have hm1 : m ≠ .full := by rcases hm with rfl | rfl <;> simp
  have hm2 : m ≠ .atEnd := by rcases hm with rfl | rfl <;> simp
  by_cases hw : ∃ rep t, c.replacement = some rep ∧ word.drop i = rep ++ t
  · obtain ⟨rep, t, hrep, hy⟩ := hw
    generalize hs : word.take i ++ (c.first ++ c.second) ++ word.drop (i + rep.length) = scratch
    generalize hj : i + c.first.length = j
    have ht : word.drop (i + rep.length) = t := by
      rw [← List.drop_drop, hy, List.drop_left]
    have hl : (word.take i).length = i := by simp; omega
    have hl' : (word.take i ++ c.first).length = j := by rw [List.length_append, hl, hj]
    have hs' : scratch = (word.take i ++ c.first) ++ (c.second ++ t) := by
      rw [← hs, ht]; simp
    have hst : scratch.take j = word.take i ++ c.first := by rw [hs']; exact List.take_left' hl'
    have hsd : scratch.drop j = c.second ++ t := by rw [hs']; exact List.drop_left' hl'
    have hsl : slice scratch start j = slice word start i ++ c.first := by
      unfold slice
      rw [hst, List.drop_append_of_le_length (by rw [hl]; exact hsi)]
    have hjl : j ≤ scratch.length := by rw [hs', List.length_append, hl']; omega
    have hsj : start ≤ j := by omega
    have hbt : word.take start ++ (slice word start i ++ c.first) = scratch.take j := by
      rw [hst, ← List.append_assoc, take_add_slice hsi]
    have hdrop := drop_eq_slice_add (word := word) hsi
    rw [patternBody_eq hC hm1 hrep (startsWith_iff.2 ⟨t, hy⟩) hs.symm hj.symm, exceptMap_ok]
    have := fun b1 b2 h1 h2 => runWay_iff (C := C) (fc := fc) (R := R) (m := m) (n := n)
      (before := word.take start) (rest := slice word start i ++ word.drop i)
      (text := slice word start i ++ c.first) (remains := c.second ++ t) (pat := some c)
      (b1 := b1) (b2 := b2) h1 h2
    rw [hbt, ← hdrop, ← hsl, ← hsd] at this
    refine exists_congr fun a => and_congr_left fun _ => ?_
    have key : PatternWay C.U C.dict fc C.reading R m n (word.take start) (slice word start i)
        (word.drop i) c a ↔ Way C.U C.dict fc C.reading R m n (word.take start) (word.drop start)
          (slice scratch start j) (scratch.drop j) (some c) a := by
      rw [hsl, hsd, hdrop]
      constructor
      · intro h
        cases h with
        | notWritten h => exact absurd hy (h _ _ hrep)
        | written h1 h2 h3 =>
          rw [hrep] at h1; cases h1
          rw [hy] at h2
          have := List.append_cancel_left h2
          subst this
          exact h3
      · intro h
        exact .written hrep hy h
    rw [key]
    refine this _ _ ?_ ?_ a
    · intro p hr
      obtain ⟨pt, hp⟩ := (reading_reads hC).part _ _ _ hm1 hr
      refine runBehind_iff (patternSecond_eq hC hm2 hp) ?_
        (fun q => patternOk_iff hC hsj pt.symm)
      intro o'
      rw [hR _ _ _ hjl, if_neg (by simp)]
    · intro p hr
      obtain ⟨pt, hp⟩ := (reading_reads hC).part _ _ _ hm1 hr
      cases hso : C.opts.compoundSimplifiedTriple with
      | false =>
        left
        exact ⟨rfl, fun c h => by have := h.1; rw [show C.dict.aff.options.compoundSimplifiedTriple = false from hso] at this; cases this⟩
      | true =>
        cases ht : tripled scratch j with
        | none =>
          left
          exact ⟨rfl, fun c h => by obtain ⟨a, ha⟩ := h.2; exact tripled_none ht a c ha⟩
        | some triple =>
          right
          obtain ⟨a, ch, h1, h2⟩ := tripled_some ht
          have hl : (scratch.take j).length = j := by simp; omega
          have h3 : triple.take j = scratch.take j := by
            rw [h2, List.append_assoc]; exact List.take_left' hl
          have h4 : triple.drop j = ch :: scratch.drop j := by
            rw [h2, List.append_assoc, List.drop_left' hl]; rfl
          have h5 : j ≤ triple.length := by
            rw [h2, List.append_assoc, List.length_append, hl]; omega
          have h6 : 0 < j := by
            rw [← hl, h1]; simp
          refine ⟨ch, _, rfl, ⟨hso, a, h1⟩, ?_⟩
          rw [← h4]
          refine runBehind_iff (patternSecond_eq hC hm2 hp) ?_
            (fun q => patternTripleOk_iff hC hsj hjl h6 pt.symm)
          intro o'
          rw [hR _ _ _ h5, if_neg (by simp), h3]
  · have hno : ∀ rep t, c.replacement = some rep → word.drop i ≠ rep ++ t :=
      fun rep t h h' => hw ⟨rep, t, h, h'⟩
    have hb : C.patternBody search m word start i n fc c = .ok none := by
      unfold patternBody
      cases hrep : c.replacement with
      | none => rfl
      | some rep =>
        have : startsWith (word.drop i) rep = false := by
          rw [Bool.eq_false_iff]
          intro h
          obtain ⟨t, ht⟩ := startsWith_iff.1 h
          exact hno rep t hrep ht
        simp [this]
    rw [hb]
    constructor
    · intro h
      cases h
      exact ⟨.nothing, .notWritten hno, rfl⟩
    · rintro ⟨a, h, rfl⟩
      cases h with
      | notWritten => rfl
      | written h1 h2 => exact absurd h2 (hno _ _ h1)

/-! ### One boundary, one level, all levels -/

theorem first_ok_iff {α β : Type} {f : α → Run (Option β)} {l : List α} {o : Option β} :
    Run.first f l = .ok o ↔
      (o = none ∧ ∀ a ∈ l, f a = .ok none) ∨
      ∃ b l1 a l2, o = some b ∧ l = l1 ++ a :: l2 ∧ (∀ x ∈ l1, f x = .ok none) ∧
        f a = .ok (some b) := by
  induction l with
  | nil => simp [Run.first, eq_comm]
  | cons x l ih =>
    unfold Run.first
    constructor
    · intro h
      match hx : f x with
      | .error e => rw [hx] at h; cases h
      | .ok (some b) =>
        rw [hx] at h
        cases h
        exact .inr ⟨b, [], x, l, rfl, rfl, by simp, hx⟩
      | .ok none =>
        rw [hx] at h
        have h : Run.first f l = .ok o := h
        rcases ih.1 h with ⟨h1, h2⟩ | ⟨b, l1, a, l2, h1, h2, h3, h4⟩
        · exact .inl ⟨h1, by simpa [hx] using h2⟩
        · exact .inr ⟨b, x :: l1, a, l2, h1, by rw [h2]; rfl, by simpa [hx] using h3, h4⟩
    · rintro (⟨h1, h2⟩ | ⟨b, l1, a, l2, h1, h2, h3, h4⟩)
      · rw [h2 x (by simp)]
        exact ih.2 (.inl ⟨h1, fun a ha => h2 a (by simp [ha])⟩)
      · cases l1 with
        | nil =>
          cases h2
          rw [h4, h1]; rfl
        | cons y l1 =>
          cases h2
          rw [h3 x (by simp)]
          exact ih.2 (.inr ⟨b, l1, a, l2, h1, rfl, fun z hz => h3 z (by simp [hz]), h4⟩)

theorem or_ok_iff {β : Type} {a b : Run (Option β)} {o : Option β} :
    a.or b = .ok o ↔ (∃ x, a = .ok (some x) ∧ o = some x) ∨ (a = .ok none ∧ b = .ok o) := by
  match a with
  | .error e => simp [Run.or]
  | .ok none => simp [Run.or]
  | .ok (some x) => simp [Run.or, eq_comm]

theorem plainResult_none {C : Checker} {m : Mode} {a : Answer} :
    none = C.plainResult m a ↔ ∀ p, a ≠ .found p := by
  cases a <;> simp [plainResult]

theorem plainResult_some {C : Checker} {m : Mode} {a : Answer} {r : CompoundingResult} :
    some r = C.plainResult m a ↔ ∃ p, a = .found p ∧ r = C.resultOf m p := by
  cases a <;> simp [plainResult]

theorem patternResult_none {C : Checker} {m : Mode} {a : Answer} :
    none = C.patternResult m a ↔ a = .nothing := by
  cases a <;> simp [patternResult]

theorem compoundAt_iff {C : Checker} (hC : C.dict.CondsParsed) {search : Search} {R : Found}
    (hR : Agree C search R) {m : Mode} (hm : m = .atBegin ∨ m = .atMiddle) {word : Str}
    {start i n : Nat} {fc : Forceucase} (hsi : start ≤ i) (hi : i ≤ word.length)
    (o' : Option CompoundingResult) :
    C.compoundAt search m word start n fc i = .ok o' ↔
      ∃ o, AtBoundary C.U C.dict fc C.reading R m n (word.take start) (slice word start i)
        (word.drop i) o ∧ o' = o.map (C.resultOf m) := by
  unfold compoundAt
  have hc := fun o' => classic_iff hC hR hm (n := n) (fc := fc) hsi hi o'
  have hp := fun c o' => patternBody_iff hC hR hm (n := n) (fc := fc) (c := c) hsi hi o'
  rw [or_ok_iff]
  constructor
  · rintro (⟨x, h1, rfl⟩ | ⟨h1, h2⟩)
    · obtain ⟨a, h3, h4⟩ := (hc _).1 h1
      obtain ⟨p, rfl, rfl⟩ := plainResult_some.1 h4
      exact ⟨some p, .plain h3, rfl⟩
    · obtain ⟨a, h3, h4⟩ := (hc _).1 h1
      have h4 := plainResult_none.1 h4
      unfold withPatternReplacements at h2
      rw [Run.map_eq_ok] at h2
      obtain ⟨o, h2, rfl⟩ := h2
      rcases first_ok_iff.1 h2 with ⟨rfl, h5⟩ | ⟨b, l1, c, l2, rfl, h6, h7, h8⟩
      · refine ⟨none, .none h3 h4 fun c hc' => ?_, rfl⟩
        obtain ⟨a', h6, h7⟩ := (hp _ _).1 (h5 c hc')
        rw [patternResult_none.1 h7] at h6
        exact h6
      · have h7 : ∀ c' ∈ l1, PatternWay C.U C.dict fc C.reading R m n (word.take start)
            (slice word start i) (word.drop i) c' .nothing := by
          intro c' hc'
          obtain ⟨a', h9, h10⟩ := (hp _ _).1 (h7 c' hc')
          rw [patternResult_none.1 h10] at h9
          exact h9
        obtain ⟨a', h9, h10⟩ := (hp _ _).1 h8
        cases a' with
        | nothing => simp [patternResult] at h10
        | stop =>
          have h10 : b = none := by simpa [patternResult] using h10
          subst h10
          exact ⟨none, .stopped h3 h4 h6 h7 h9, rfl⟩
        | found p =>
          have h10 : b = some (C.resultOf m p) := by simpa [patternResult] using h10
          subst h10
          exact ⟨some p, .pattern h3 h4 h6 h7 h9, rfl⟩
  · rintro ⟨o, h, rfl⟩
    cases h with
    | plain h => exact .inl ⟨_, (hc _).2 ⟨_, h, rfl⟩, rfl⟩
    | pattern h1 h2 h3 h4 h5 =>
      refine .inr ⟨(hc _).2 ⟨_, h1, plainResult_none.2 h2⟩, ?_⟩
      unfold withPatternReplacements
      rw [Run.map_eq_ok]
      refine ⟨some (some (C.resultOf m _)), first_ok_iff.2 (.inr ⟨_, _, _, _, rfl, h3, ?_, ?_⟩), rfl⟩
      · exact fun c' hc' => (hp _ _).2 ⟨_, h4 c' hc', rfl⟩
      · exact (hp _ _).2 ⟨_, h5, rfl⟩
    | stopped h1 h2 h3 h4 h5 =>
      refine .inr ⟨(hc _).2 ⟨_, h1, plainResult_none.2 h2⟩, ?_⟩
      unfold withPatternReplacements
      rw [Run.map_eq_ok]
      refine ⟨some none, first_ok_iff.2 (.inr ⟨_, _, _, _, rfl, h3, ?_, ?_⟩), rfl⟩
      · exact fun c' hc' => (hp _ _).2 ⟨_, h4 c' hc', rfl⟩
      · exact (hp _ _).2 ⟨_, h5, rfl⟩
    | none h1 h2 h3 =>
      refine .inr ⟨(hc _).2 ⟨_, h1, plainResult_none.2 h2⟩, ?_⟩
      unfold withPatternReplacements
      rw [Run.map_eq_ok]
      refine ⟨none, first_ok_iff.2 (.inl ⟨rfl, ?_⟩), rfl⟩
      exact fun c' hc' => (hp _ _).2 ⟨_, h3 c' hc', rfl⟩

theorem splitPoints_sorted {word : Str} {start margin : Nat} {l1 l2 : List Nat} {i : Nat}
    (h : splitPoints word start margin = l1 ++ i :: l2) :
    ∀ k, k ∈ l1 ↔ k ∈ splitPoints word start margin ∧ k < i := by
  have hs : (splitPoints word start margin).Pairwise (· < ·) := by
    unfold splitPoints
    exact List.Pairwise.filter _ List.pairwise_lt_range
  rw [h] at hs ⊢
  rw [List.pairwise_append] at hs
  obtain ⟨_, h2, h3⟩ := hs
  rw [List.pairwise_cons] at h2
  intro k
  constructor
  · intro hk
    exact ⟨by simp [hk], h3 k hk i (by simp)⟩
  · rintro ⟨hk, hlt⟩
    rw [List.mem_append, List.mem_cons] at hk
    rcases hk with hk | hk | hk
    · exact hk
    · omega
    · have := h2.1 k hk; omega

theorem isBoundary_iff {D : Dict} {word x y : Str} {start : Nat} (hs : start ≤ word.length) :
    IsBoundary D (word.drop start) x y ↔
      (start + x.length) ∈ splitPoints word start D.aff.options.minChars ∧
        slice word start (start + x.length) = x ∧ word.drop (start + x.length) = y := by
  rw [mem_splitPoints]
  constructor
  · rintro ⟨h1, h2, h3⟩
    have h4 := congrArg List.length h1
    rw [List.length_drop, List.length_append] at h4
    refine ⟨by omega, ?_, ?_⟩
    · unfold slice
      rw [List.drop_take, h1]
      have : start + x.length - start = x.length := by omega
      rw [this, List.take_left]
    · rw [← List.drop_drop, h1, List.drop_left]
  · rintro ⟨⟨h1, h2⟩, h3, h4⟩
    refine ⟨?_, by omega, ?_⟩
    · rw [drop_eq_slice_add (by omega : start ≤ start + x.length), h3, h4]
    · rw [← h4, List.length_drop]; omega

theorem level_iff {C : Checker} (hC : C.dict.CondsParsed) {search : Search} {R : Found}
    (hR : Agree C search R) {m : Mode} (hm : m = .atBegin ∨ m = .atMiddle) {word : Str}
    {start n : Nat} {fc : Forceucase} (hs : start ≤ word.length) (o' : Option CompoundingResult) :
    Run.first (C.compoundAt search m word start n fc) (splitPoints word start C.opts.minChars)
      = .ok o' ↔
      ∃ o, Level C.U C.dict fc C.reading R m n (word.take start) (word.drop start) o ∧
        o' = o.map (C.resultOf m) := by
  have hb : ∀ i ∈ splitPoints word start C.opts.minChars, start ≤ i ∧ i ≤ word.length := by
    intro i hi
    rw [mem_splitPoints] at hi
    omega
  have hat := fun i (h : i ∈ splitPoints word start C.opts.minChars) o' =>
    compoundAt_iff hC hR hm (n := n) (fc := fc) (hb i h).1 (hb i h).2 o'
  have hisb : ∀ i ∈ splitPoints word start C.opts.minChars,
      IsBoundary C.dict (word.drop start) (slice word start i) (word.drop i) := by
    intro i hi
    have hl : start + (slice word start i).length = i := by
      rw [length_slice (hb i hi).2]; have := (hb i hi).1; omega
    rw [isBoundary_iff hs, hl]
    exact ⟨hi, rfl, rfl⟩
  have hnone : ∀ i (h : i ∈ splitPoints word start C.opts.minChars),
      C.compoundAt search m word start n fc i = .ok none ↔
        AtBoundary C.U C.dict fc C.reading R m n (word.take start) (slice word start i)
          (word.drop i) none := by
    intro i hi
    rw [hat i hi]
    constructor
    · rintro ⟨o, h1, h2⟩
      cases o with
      | none => exact h1
      | some p => simp at h2
    · intro h
      exact ⟨none, h, rfl⟩
  rw [first_ok_iff]
  constructor
  · rintro (⟨rfl, h⟩ | ⟨r, l1, i, l2, rfl, h1, h2, h3⟩)
    · refine ⟨none, .none fun x y hxy => ?_, rfl⟩
      obtain ⟨hi, rfl', h2⟩ := (isBoundary_iff hs).1 hxy
      have := (hnone _ hi).1 (h _ hi)
      rwa [rfl', h2] at this
    · have hi : i ∈ splitPoints word start C.opts.minChars := by rw [h1]; simp
      obtain ⟨o, h4, h5⟩ := (hat i hi _).1 h3
      cases o with
      | none => simp at h5
      | some p =>
        refine ⟨some p, .some (hisb i hi) h4 fun x y hxy hlt => ?_, h5⟩
        obtain ⟨hk, hx, hy⟩ := (isBoundary_iff hs).1 hxy
        rw [length_slice (hb i hi).2] at hlt
        have hk' := (splitPoints_sorted h1 _).2 ⟨hk, by omega⟩
        have := (hnone _ hk).1 (h2 _ hk')
        rwa [hx, hy] at this
  · rintro ⟨o, h, rfl⟩
    cases h with
    | none h => exact .inl ⟨rfl, fun i hi => (hnone i hi).2 (h _ _ (hisb i hi))⟩
    | @some x y p h1 h2 h3 =>
      right
      obtain ⟨hi, hx, hy⟩ := (isBoundary_iff hs).1 h1
      obtain ⟨l1, l2, hl⟩ := List.append_of_mem hi
      refine ⟨_, l1, _, l2, rfl, hl, fun k hk => ?_, ?_⟩
      · obtain ⟨hk, hlt⟩ := (splitPoints_sorted hl k).1 hk
        refine (hnone k hk).2 (h3 _ _ (hisb k hk) ?_)
        rw [length_slice (hb k hk).2]
        have := (hb k hk).1
        omega
      · rw [hat _ hi, hx, hy]
        exact ⟨_, h2, rfl⟩

/-- The search of the code gives exactly the answers of the specification. -/
theorem checkCompoundImpl_iff {C : Checker} (hC : C.dict.CondsParsed) {fc : Forceucase} :
    ∀ (fuel : Nat) (m : Mode), (m = .atBegin ∨ m = .atMiddle) →
      ∀ word start n, start ≤ word.length → ∀ o',
        C.checkCompoundImpl fc fuel m word start n = .ok o' ↔
          ∃ o, Answers C.U C.dict fc C.reading fuel m n (word.take start) (word.drop start) o ∧
            o' = o.map (C.resultOf m) := by
  intro fuel
  induction fuel with
  | zero => intro m _ word start n _ o'; simp [checkCompoundImpl, Answers]
  | succ fuel ih =>
    intro m hm word start n hs o'
    exact level_iff hC (ih .atMiddle (.inr rfl)) hm hs o'

end Checker
end Spellbook
