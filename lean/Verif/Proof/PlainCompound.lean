import Verif.Proof.Total
import Verif.Proof.CompoundRule
/-! # Plain compounds: soundness and completeness of the search -/

namespace Spellbook
namespace Spec

theorem texts_cons {p : Piece} {ps : List Piece} : texts (p :: ps) = p.text ++ texts ps := rfl
theorem texts_nil : texts [] = [] := rfl
theorem texts_append {l r : List Piece} : texts (l ++ r) = texts l ++ texts r := by simp [texts]

theorem Cut.of_plain {D : Dict} (hD : OnlyPlain D) {rest text remains : Str}
    {pat : Option CompoundPattern} (h : Cut D rest text remains pat) :
    pat = none ∧ rest = text ++ remains ∧ D.aff.options.minChars ≤ text.length ∧
      D.aff.options.minChars ≤ remains.length := by
  cases h with
  | plain same long => exact ⟨rfl, same, long⟩
  | pattern mem rep' => rw [hD.2 _ mem] at rep'; simp at rep'

theorem Restored.of_plain {D : Dict} (hD : OnlyPlain D) {before remains rest' : Str} {t : Bool}
    (h : Restored D before remains rest' t) : rest' = remains ∧ t = false := by
  cases h with
  | same => exact ⟨rfl, rfl⟩
  | triple on => rw [hD.1] at on; simp at on

/-- Adding a piece in front. -/
theorem PlainFrom.cons {U : Unicode} {D : Dict} {fc : Forceucase} {m : Mode} {n n' : Nat}
    {before : Str} {p q : Piece} {ps : List Piece} (first : PieceAt D m p)
    (long : D.aff.options.minChars ≤ p.text.length)
    (boundary : Boundary U D (before ++ p.text) (texts (q :: ps)) p none)
    (tail : PlainFrom U D fc .atMiddle n' (before ++ p.text) (q :: ps))
    (meet : Meet D (before ++ p.text) (texts (q :: ps)) p q none)
    (rep : D.aff.options.compoundCheckRep = true → ¬ RepSimilar D (texts (p :: q :: ps)))
    (count : D.aff.compoundSyllableVowels = [] → n' = n + 1 + rootBonus D p.flags) :
    PlainFrom U D fc m n before (p :: q :: ps) where
  atLeastTwo := by simp
  positions := by
    intro l x r h
    cases l with
    | nil => simp at h; rw [← h.1]; exact first
    | cons y l =>
      simp only [List.cons_append, List.cons.injEq] at h
      have := tail.positions l x r h.2
      cases l with
      | nil =>
        cases r with
        | nil =>
          have := tail.atLeastTwo
          rw [h.2] at this; simp at this
        | cons z r => exact this
      | cons z l => cases r <;> exact this
  long := by
    intro x hx
    rcases List.mem_cons.1 hx with rfl | hx
    · exact long
    · exact tail.long x hx
  triple := by
    intro ho l r h hl hr
    cases l with
    | nil => simp at hl
    | cons y l =>
      simp only [List.cons_append, List.cons.injEq] at h
      obtain ⟨rfl, h⟩ := h
      cases l with
      | nil =>
        simp at h; subst h
        simpa [texts_cons, texts_nil] using boundary.triple ho
      | cons z l =>
        have := tail.triple ho (z :: l) r h (by simp) hr
        simpa [texts_cons] using this
  capital := by
    intro ho l r h hl hr
    cases l with
    | nil => simp at hl
    | cons y l =>
      simp only [List.cons_append, List.cons.injEq] at h
      obtain ⟨rfl, h⟩ := h
      cases l with
      | nil =>
        simp at h; subst h
        simpa [texts_cons, texts_nil] using boundary.capital rfl ho
      | cons z l =>
        have := tail.capital ho (z :: l) r h (by simp) hr
        simpa [texts_cons] using this
  patterns := by
    intro c hc l x y r h
    cases l with
    | nil =>
      simp only [List.nil_append, List.cons.injEq] at h
      obtain ⟨rfl, rfl, rfl⟩ := h
      simpa [texts_cons, texts_nil] using meet.pattern rfl c hc
    | cons z l =>
      simp only [List.cons_append, List.cons.injEq] at h
      obtain ⟨rfl, h⟩ := h
      have := tail.patterns c hc l x y r h
      simpa [texts_cons] using this
  dup := by
    intro ho hv l x y h
    cases l with
    | nil =>
      have := tail.atLeastTwo
      simp at h
      rw [h.2.2] at this; simp at this
    | cons z l =>
      simp only [List.cons_append, List.cons.injEq] at h
      exact tail.dup ho hv l x y h.2
  rep := by
    intro ho l x y r h
    cases l with
    | nil =>
      simp only [List.nil_append, List.cons.injEq] at h
      obtain ⟨rfl, rfl, rfl⟩ := h
      exact rep ho
    | cons z l =>
      simp only [List.cons_append, List.cons.injEq] at h
      exact tail.rep ho l x y r h.2
  force := by
    intro ho l x h
    cases l with
    | nil => simp at h
    | cons z l =>
      simp only [List.cons_append, List.cons.injEq] at h
      exact tail.force ho l x h.2
  count := by
    intro hv mx hm
    have := tail.count hv mx hm
    have := count hv
    simp only [List.length_cons, List.map_cons, List.sum_cons] at *
    omega

theorem PlainFrom.pair {U : Unicode} {D : Dict} {fc : Forceucase} {m : Mode} {n : Nat}
    {before : Str} {p q : Piece} (first : PieceAt D m p) (second : PieceAt D .atEnd q)
    (long : D.aff.options.minChars ≤ p.text.length ∧ D.aff.options.minChars ≤ q.text.length)
    (boundary : Boundary U D (before ++ p.text) q.text p none)
    (meet : Meet D (before ++ p.text) q.text p q none)
    (nodup : D.aff.options.compoundCheckDuplicate = true →
        D.aff.compoundSyllableVowels = [] → ¬ Duplicate p q)
    (rep : D.aff.options.compoundCheckRep = true → ¬ RepSimilar D (p.text ++ q.text))
    (force : fc = .forbidBad → ¬ Has q.flags D.aff.options.compoundForceUppercaseFlag)
    (count : WordMax D n p q none false) :
    PlainFrom U D fc m n before [p, q] where
  atLeastTwo := by simp
  positions := by
    intro l x r h
    match l, h with
    | [], h => simp at h; rw [← h.1]; exact first
    | [y], h => simp at h; obtain ⟨rfl, rfl, rfl⟩ := h; exact second
    | y :: z :: l, h => simp at h
  long := by
    intro x hx
    simp at hx
    rcases hx with rfl | rfl
    · exact long.1
    · exact long.2
  triple := by
    intro ho l r h hl hr
    match l, h with
    | [], h => simp at hl
    | [y], h => simp at h; obtain ⟨rfl, rfl⟩ := h; simpa [texts_cons, texts_nil] using boundary.triple ho
    | [y, z], h => simp at h; exact absurd h.2.2 hr
    | y :: z :: w :: l, h => simp at h
  capital := by
    intro ho l r h hl hr
    match l, h with
    | [], h => simp at hl
    | [y], h =>
      simp at h; obtain ⟨rfl, rfl⟩ := h; simpa [texts_cons, texts_nil] using boundary.capital rfl ho
    | [y, z], h => simp at h; exact absurd h.2.2 hr
    | y :: z :: w :: l, h => simp at h
  patterns := by
    intro c hc l x y r h
    match l, h with
    | [], h =>
      simp at h; obtain ⟨rfl, rfl, rfl⟩ := h
      simpa [texts_cons, texts_nil] using meet.pattern rfl c hc
    | [z], h => simp at h
    | z :: w :: l, h => simp at h
  dup := by
    intro ho hv l x y h
    match l, h with
    | [], h => simp at h; obtain ⟨rfl, rfl⟩ := h; exact nodup ho hv
    | [z], h => simp at h
    | z :: w :: l, h => simp at h
  rep := by
    intro ho l x y r h
    match l, h with
    | [], h =>
      simp at h; obtain ⟨rfl, rfl, rfl⟩ := h
      simpa [texts_cons, texts_nil] using rep ho
    | [z], h => simp at h
    | z :: w :: l, h => simp at h
  force := by
    intro ho l x h
    match l, h with
    | [], h => simp at h
    | [z], h => simp at h; obtain ⟨rfl, rfl⟩ := h; exact force ho
    | z :: w :: l, h => simp at h
  count := by
    intro hv mx hm
    have := count hv mx hm
    simp only at this
    simp
    omega

/-- Without SIMPLIFIEDTRIPLE and replacement patterns all compounds are plain. -/
theorem Compound.plain {U : Unicode} {D : Dict} {fc : Forceucase} (hD : OnlyPlain D) {m : Mode}
    {n : Nat} {before rest : Str} {pieces : List Piece} (h : Compound U D fc m n before rest pieces) :
    rest = texts pieces ∧ PlainFrom U D fc m n before pieces := by
  induction h with
  | @two m n before rest p q remains pat tripled cut first boundary restored second meet nodup rep
      force count =>
    obtain ⟨rfl, rfl, h1, h2⟩ := cut.of_plain hD
    obtain ⟨h3, rfl⟩ := restored.of_plain hD
    subst h3
    refine ⟨by simp [texts], .pair first second ⟨h1, h2⟩ boundary meet nodup rep force count⟩
  | @more m n n' before rest p q pieces remains rest' pat tripled cut first boundary restored tail
      meet rep count ih =>
    obtain ⟨rfl, rfl, h1, h2⟩ := cut.of_plain hD
    obtain ⟨rfl, rfl⟩ := restored.of_plain hD
    obtain ⟨rfl, ih⟩ := ih
    exact ⟨rfl, .cons first h1 boundary ih meet rep (by simpa using count)⟩

/-- What follows the first piece. -/
theorem PlainFrom.tail {U : Unicode} {D : Dict} {fc : Forceucase} {m : Mode} {n : Nat}
    {before : Str} {p q r : Piece} {ps : List Piece} (h : PlainFrom U D fc m n before (p :: q :: r :: ps)) :
    PlainFrom U D fc .atMiddle (n + rootBonus D p.flags + 1) (before ++ p.text) (q :: r :: ps) where
  atLeastTwo := by simp
  positions := by
    intro l x s hl
    have := h.positions (p :: l) x s (by rw [hl]; rfl)
    cases l with
    | nil =>
      cases s with
      | nil => simp at hl
      | cons z s => exact this
    | cons z l => cases s <;> exact this
  long := fun x hx => h.long x (by simp [hx])
  triple := by
    intro ho l s hl h1 h2
    have := h.triple ho (p :: l) s (by rw [hl]; rfl) (by simp) h2
    simpa [texts_cons] using this
  capital := by
    intro ho l s hl h1 h2
    have := h.capital ho (p :: l) s (by rw [hl]; rfl) (by simp) h2
    simpa [texts_cons] using this
  patterns := by
    intro c hc l x y s hl
    have := h.patterns c hc (p :: l) x y s (by rw [hl]; rfl)
    simpa [texts_cons] using this
  dup := fun ho hv l x y hl => h.dup ho hv (p :: l) x y (by rw [hl]; rfl)
  rep := fun ho l x y s hl => h.rep ho (p :: l) x y s (by rw [hl]; rfl)
  force := fun ho l x hl => h.force ho (p :: l) x (by rw [hl]; rfl)
  count := by
    intro hv mx hm
    have := h.count hv mx hm
    simp only [List.length_cons, List.map_cons, List.sum_cons] at *
    omega

end Spec

namespace Checker
open Spec

theorem dup_of {C : Checker} {m m' m1 m2 : Mode} {p q : Piece}
    (hv : C.dict.aff.compoundSyllableVowels = [])
    (hp : Part C.dict m1 p.text p.stem p.flags p.affixes)
    (hq : Part C.dict m2 q.text q.stem q.flags q.affixes)
    (h : C.resultOf m p = C.resultOf m' q) : Duplicate p q := by
  refine ⟨?_, ?_, ?_⟩
  · rw [← resultOf_stem (C := C) (m := m), h, resultOf_stem]
  · rw [← resultOf_flags (C := C) (m := m), h, resultOf_flags]
  · rw [← resultOf_modified (m := m) hp, h, resultOf_modified hq]

/-- With unique parts, the part found has the flags of any given one. -/
theorem checkWordInCompound_unique {C : Checker} (hC : C.dict.CondsParsed) (hU : PartsUnique C.dict)
    {m : Mode} (hm : m ≠ .full) {p : Piece} (hp : Part C.dict m p.text p.stem p.flags p.affixes) :
    ∃ p' : Piece, C.checkWordInCompound m p.text = some (C.resultOf m p') ∧ p'.text = p.text ∧
      Part C.dict m p'.text p'.stem p'.flags p'.affixes ∧ Duplicate p' p := by
  have hy := checkWordInCompound_yields hC hm p.text
  obtain ⟨r, hr⟩ := Option.isSome_iff_exists.1 (hy.2 ⟨_, p, rfl, hp, rfl⟩)
  obtain ⟨p', h1, h2, rfl⟩ := hy.1 r hr
  exact ⟨p', hr, h1, h2, hU m p' p h2 hp h1⟩

theorem contains_false {F : FlagSet} {f : Nat} (h : f ∉ F.elems) : F.contains f = false := by
  rw [← Bool.not_eq_true, FlagSet.contains_iff]; exact h

/-- The search finds a compound whenever the word is one. -/
theorem checkCompoundImpl_complete {C : Checker} (hC : C.dict.CondsParsed)
    (hU : PartsUnique C.dict) (hN : NoPairChecks C.dict) (hS : C.dict.Shrinking) (fc : Forceucase) :
    ∀ (pieces : List Piece) (fuel : Nat) (m : Mode) (word : Str) (start n : Nat), m ≠ .full →
      start ≤ word.length →
      word.length - start < fuel → word.drop start = texts pieces →
      PlainFrom C.U C.dict fc m n (word.take start) pieces →
      ∃ r, C.checkCompoundImpl fc fuel m word start n = .ok (some r) := by
  intro pieces
  induction pieces with
  | nil => intro fuel m word start n _ _ _ _ h; have := h.atLeastTwo; simp at this
  | cons p rest ih =>
    intro fuel m word start n hm hst hfuel htext h
    cases rest with
    | nil => have := h.atLeastTwo; simp at this
    | cons q rest =>
    have hlen : word.length - start = p.text.length + (texts (q :: rest)).length := by
      have := congrArg List.length htext
      simpa [texts_cons] using this
    have hpmin : C.opts.minChars ≤ p.text.length := h.long p (by simp)
    have hqmin : C.opts.minChars ≤ q.text.length := h.long q (by simp)
    have hminpos : 0 < C.opts.minChars := hS.min_pos
    have htl : (texts (q :: rest)).length = q.text.length + (texts rest).length := by simp [texts_cons]
    obtain ⟨i, hi⟩ : ∃ i, i = start + p.text.length := ⟨_, rfl⟩
    cases fuel with
    | zero => omega
    | succ fuel =>
    have hiw : i ≤ word.length := by omega
    have hsl : slice word start i = p.text := by
      unfold slice
      rw [List.drop_take, htext, hi]
      simp [texts_cons]
    have hdrop : word.drop i = texts (q :: rest) := by
      rw [hi, ← List.drop_drop, htext, texts_cons]; simp
    have htake : word.take i = word.take start ++ p.text := by
      rw [← take_add_slice (show start ≤ i by omega), hsl]
    rw [checkCompoundImpl]
    have hs : SearchOk (C.checkCompoundImpl fc fuel .atMiddle) (word.length - start) :=
      fun w s n hl => checkCompoundImpl_ok hS fc _ _ _ _ _ (by omega)
    -- the attempt at the end of the first piece succeeds
    have hp := h.positions [] p (q :: rest) rfl
    obtain ⟨p', hp1, hp2, hp3, hp4⟩ := checkWordInCompound_unique hC hU hm hp.part
    have hfirst : C.classicFirst m word start i = some (C.resultOf m p') := by
      unfold classicFirst
      rw [hsl, hp1]
      dsimp only
      rw [resultOf_flags, hp4.2.1, contains_false hp.allowed]
      have h3 : (C.opts.compoundCheckTriple && areThreeCharsEqual word i) = false := by
        rw [Bool.and_eq_false_iff]
        by_cases ho : C.opts.compoundCheckTriple = true
        · right
          rw [← Bool.not_eq_true, areThreeCharsEqual_iff, hdrop, htake]
          have := h.triple ho [p] (q :: rest) rfl (by simp) (by simp)
          simpa [texts_cons, texts_nil] using this
        · left; simpa using ho
      have h4 : (C.opts.compoundCheckCase && hasUppercaseAtBoundary C.U word i) = false := by
        rw [Bool.and_eq_false_iff]
        by_cases ho : C.opts.compoundCheckCase = true
        · right
          rw [← Bool.not_eq_true, hasUppercaseAtBoundary_iff, hdrop, htake]
          have := h.capital ho [p] (q :: rest) rfl (by simp) (by simp)
          simpa [texts_cons, texts_nil] using this
        · left; simpa using ho
      rw [h3, h4]; rfl
    have hnopat : ∀ w j a b, C.forbiddenByPatterns w j a b = false := by
      intro w j a b
      unfold forbiddenByPatterns Checker.aff
      rw [hN.patterns]; rfl
    have hnorep : C.opts.compoundCheckRep = false := hN.rep
    have hcl : ∃ r, C.classic (C.checkCompoundImpl fc fuel .atMiddle) m word start i n fc
        = .ok (some r) := by
      unfold classic
      rw [hfirst]
      dsimp only
      rw [wordCount_eq hN.vowels, hp4.2.1]
      -- never rejected
      have hcount := h.count hN.vowels
      cases rest with
      | nil =>
        have hq : PieceAt C.dict .atEnd q := h.positions [p] q [] rfl
        obtain ⟨q', hq1, hq2, hq3, hq4⟩ := checkWordInCompound_unique hC hU (by decide) hq.part
        have hacc : C.classicSecond word start i (n + rootBonus C.dict p.flags) fc
            (C.resultOf m p') = .accept := by
          unfold classicSecond
          rw [hdrop, texts_cons, texts_nil, List.append_nil, hq1]
          dsimp only
          rw [resultOf_flags, hq4.2.1, contains_false hq.allowed, hnopat, hnorep]
          have h3 : (C.opts.compoundCheckDuplicate &&
              C.resultOf m p' == C.resultOf .atEnd q') = false := by
            rw [Bool.and_eq_false_iff]
            by_cases ho : C.opts.compoundCheckDuplicate = true
            · right
              rw [beq_eq_false_iff_ne]
              intro he
              have hd := dup_of hN.vowels hp3 hq3 he
              refine h.dup ho hN.vowels [] p q rfl ⟨?_, ?_, ?_⟩
              · rw [← hp4.1, hd.1, hq4.1]
              · rw [← hp4.2.1, hd.2.1, hq4.2.1]
              · rw [← hp4.2.2, hd.2.2, hq4.2.2]
            · left; simpa using ho
          have h4 : (fc.forbid && hasFlag q.flags C.opts.compoundForceUppercaseFlag) = false := by
            rw [Bool.and_eq_false_iff]
            cases fc with
            | allowBad => left; rfl
            | forbidBad =>
              right
              exact hasFlag_false.2 (h.force rfl [p] q rfl)
          rw [h3, h4, wordCount_eq hN.vowels, hq4.2.1]
          have h5 : (C.opts.compoundMaxWordCount.any fun max => decide
              (n + rootBonus C.dict p.flags + rootBonus C.dict q.flags + 1 ≥ max)) = false := by
            cases hmx : C.opts.compoundMaxWordCount with
            | none => rfl
            | some mx =>
              have := hcount mx hmx
              simp at this ⊢
              omega
          rw [h5]; rfl
        rw [hacc]; exact ⟨_, rfl⟩
      | cons r rest =>
        have htail := h.tail
        have hcase : C.classicSecond word start i (n + rootBonus C.dict p.flags) fc
            (C.resultOf m p') ≠ .reject := by
          unfold classicSecond
          split
          · simp
          · rename_i r2 hr2
            obtain ⟨q', _, hq', rfl⟩ := checkWordInCompound_some hC (by decide) hr2
            iterate 5
              split
              · simp
            dsimp only
            rw [wordCount_eq hN.vowels]
            have h5 : (C.opts.compoundMaxWordCount.any fun max => decide
                (n + rootBonus C.dict p.flags + rootBonus C.dict q'.flags + 1 ≥ max)) = false := by
              cases hmx : C.opts.compoundMaxWordCount with
              | none => rfl
              | some mx =>
                have := hcount mx hmx
                have hb : rootBonus C.dict q'.flags ≤ 1 := by unfold rootBonus; split <;> omega
                simp at this ⊢
                omega
            rw [h5]; simp
        have hrec : ∃ r', C.checkCompoundImpl fc fuel .atMiddle word i
            (n + rootBonus C.dict p.flags + 1) = .ok (some r') := by
          refine ih fuel .atMiddle word i _ (by decide) hiw (by omega) hdrop ?_
          rw [htake]; exact htail
        obtain ⟨r', hr'⟩ := hrec
        generalize hv : C.classicSecond word start i (n + rootBonus C.dict p.flags) fc
            (C.resultOf m p') = v at hcase
        cases v with
        | accept => exact ⟨_, rfl⟩
        | reject => simp at hcase
        | next =>
          refine ⟨C.resultOf m p', ?_⟩
          show C.tryRecursive _ _ _ _ _ _ _ = _
          unfold tryRecursive
          rw [hr']
          show (if _ then _ else _) = _
          rw [hnopat]
          have : C.repAfterRecursion word start i r' = false := by
            unfold repAfterRecursion; rw [hnorep]; rfl
          rw [this]; rfl
    obtain ⟨r, hr⟩ := hcl
    refine Run.first_isSome (fun j hj => ?_) (a := i) ?_ (r := r) ?_
    · rw [mem_splitPoints] at hj
      refine or_ok (classic_ok hS hs hj.1 hj.2) (map_ok (Run.first_ok fun c hc => ?_))
      exact patternBody_ok hS hs hj.1 hj.2 hc
    · rw [mem_splitPoints]
      omega
    · rw [compoundAt, hr]; rfl

/-! ### COMPOUNDRULE -/

/-- A part of a COMPOUNDRULE compound which the search may use. -/
structure RuleEntry (C : Checker) (e : Str × FlagSet) : Prop where
  listed : e ∈ C.dict.words.slots
  plain : ¬ Has e.2 C.dict.aff.options.needAffixFlag
  flagged : C.aff.compoundRules.hasAnyFlags e.2 = true

/-- The entry for a text which the search looks at. -/
def rulePick (C : Checker) (text : Str) : Option (Str × FlagSet) :=
  (C.entries text).find? C.rulePart

theorem find_rulePart {C : Checker} {text : Str} {e : Str × FlagSet}
    (h : (C.entries text).find? C.rulePart = some e) : e.1 = text ∧ C.RuleEntry e := by
  have h1 := List.find?_some h
  have h2 := List.mem_of_find?_eq_some h
  rw [mem_entries] at h2
  unfold rulePart at h1
  simp only [Bool.and_eq_true, Bool.not_eq_true'] at h1
  exact ⟨h2.2, h2.1, hasFlag_false.1 h1.1, h1.2⟩

theorem find_rulePart_of {C : Checker} {e : Str × FlagSet} (he : C.RuleEntry e)
    (hU : ∀ e', C.RuleEntry e' → e'.1 = e.1 → e'.2 = e.2) :
    (C.entries e.1).find? C.rulePart = some e := by
  have hs : ((C.entries e.1).find? C.rulePart).isSome := by
    rw [List.find?_isSome]
    refine ⟨e, mem_entries.2 ⟨he.listed, rfl⟩, ?_⟩
    unfold rulePart
    simp only [Bool.and_eq_true, Bool.not_eq_true']
    exact ⟨hasFlag_false.2 he.plain, he.flagged⟩
  obtain ⟨e', h'⟩ := Option.isSome_iff_exists.1 hs
  obtain ⟨h1, h2⟩ := find_rulePart h'
  rw [h', Prod.ext h1 (hU e' h2 h1)]

theorem anyRuleMatches_iff {t : CompoundRuleTable} {data : List FlagSet} :
    t.anyRuleMatches data = true ↔
      ∃ rule ∈ t.rules, RuleAccepts (CompoundRule.spec rule) (data.map (·.elems)) := by
  unfold CompoundRuleTable.anyRuleMatches
  rw [List.any_eq_true]
  simp only [compoundRuleMatches_iff]

/-- What the rest of a COMPOUNDRULE compound must be, when parts with the flags `data` precede. -/
structure RuleTail (C : Checker) (fc : Forceucase) (data : List FlagSet) (rest : Str)
    (parts : List (Str × FlagSet)) : Prop where
  spelled : rest = (parts.map Prod.fst).flatten
  atLeastTwo : 2 ≤ parts.length
  entries : ∀ p ∈ parts, C.RuleEntry p
  long : ∀ p ∈ parts, C.dict.aff.options.minChars ≤ p.1.length
  rule : ∃ rule ∈ C.dict.aff.compoundRules.rules,
    RuleAccepts (CompoundRule.spec rule) ((data ++ parts.map Prod.snd).map (·.elems))
  force : fc = .forbidBad → ∀ l q, parts = l ++ [q] →
    ¬ Has q.2 C.dict.aff.options.compoundForceUppercaseFlag

theorem ruleDirect_sound {C : Checker} {word : Str} {data : List FlagSet} {i : Nat} {fc : Forceucase}
    (h : C.ruleDirect word data i fc = true) : ∃ q, q.1 = word.drop i ∧ C.RuleEntry q ∧
      C.rulePick q.1 = some q ∧
      (∃ rule ∈ C.dict.aff.compoundRules.rules,
        RuleAccepts (CompoundRule.spec rule) ((data ++ [q.2]).map (·.elems))) ∧
      (fc = .forbidBad → ¬ Has q.2 C.dict.aff.options.compoundForceUppercaseFlag) := by
  unfold ruleDirect at h
  split at h
  · rename_i q hq
    obtain ⟨h1, h2⟩ := find_rulePart hq
    rw [Bool.and_eq_true, anyRuleMatches_iff] at h
    exact ⟨q, h1, h2, by rw [h1]; exact hq, h.1, not_force (by have := h.2; rw [Bool.not_eq_true'] at this; simp only [this]; simp)⟩
  · simp at h

theorem checkRulesImpl_sound {C : Checker} {fc : Forceucase} : ∀ (fuel : Nat) (word : Str)
    (data : List FlagSet) (start : Nat) (r : CompoundingResult), start ≤ word.length →
    C.checkRulesImpl fc fuel word data start = .ok (some r) →
    ∃ parts, C.RuleTail fc data (word.drop start) parts ∧
      (∀ p ∈ parts, C.rulePick p.1 = some p) ∧ ∃ p ∈ parts, r = { stem := p.1, flags := p.2 } := by
  intro fuel
  induction fuel with
  | zero => intro word data start r _ h; simp [checkRulesImpl] at h
  | succ fuel ih =>
    intro word data start r hst h
    rw [checkRulesImpl] at h
    obtain ⟨i, hi, h⟩ := Run.first_eq_some h
    rw [mem_splitPoints] at hi
    have hiw : i ≤ word.length := by omega
    unfold ruleAt at h
    split at h
    · simp at h
    rename_i p hp
    obtain ⟨hp1, hp2⟩ := find_rulePart hp
    have hlen : p.1.length = i - start := by rw [hp1, length_slice hiw]
    have hspell := drop_eq_slice_add (word := word) (show start ≤ i by omega)
    rw [← hp1] at hspell
    simp only [Checker.opts] at hi
    dsimp only at h
    split at h
    · rename_i hd
      obtain ⟨q, q1, q2, q5, q3, q4⟩ := ruleDirect_sound hd
      refine ⟨[p, q], ⟨?_, by simp, ?_, ?_, ?_, ?_⟩, ?_, p, by simp, by simpa using h.symm⟩
      · rw [hspell, ← q1]; simp
      · intro x hx; simp at hx; rcases hx with rfl | rfl
        · exact hp2
        · exact q2
      · intro x hx; simp at hx; rcases hx with rfl | rfl
        · omega
        · rw [q1]; simp; omega
      · simpa using q3
      · intro hf l x hl
        match l, hl with
        | [], hl => simp at hl
        | [y], hl => simp at hl; obtain ⟨_, rfl⟩ := hl; exact q4 hf
        | y :: z :: l, hl => simp at hl
      · intro x hx; simp at hx; rcases hx with rfl | rfl
        · rw [hp1]; exact hp
        · exact q5
    · obtain ⟨parts, ht, hpick, x, hx, hr⟩ := ih word _ i r hiw h
      refine ⟨p :: parts, ⟨?_, ?_, ?_, ?_, ?_, ?_⟩, ?_, x, by simp [hx], hr⟩
      · rw [hspell, ht.spelled]; simp
      · have := ht.atLeastTwo; simp; omega
      · intro x hx; rcases List.mem_cons.1 hx with rfl | hx
        · exact hp2
        · exact ht.entries x hx
      · intro x hx; rcases List.mem_cons.1 hx with rfl | hx
        · omega
        · exact ht.long x hx
      · simpa using ht.rule
      · intro hf l x hl
        match l, hl with
        | [], hl => simp at hl; have := ht.atLeastTwo; rw [hl.2] at this; simp at this
        | y :: l, hl => simp at hl; exact ht.force hf l x hl.2
      · intro x hx; rcases List.mem_cons.1 hx with rfl | hx
        · rw [hp1]; exact hp
        · exact hpick x hx

theorem checkRulesImpl_complete {C : Checker} (hm : 0 < C.opts.minChars) {fc : Forceucase} :
    ∀ (parts : List (Str × FlagSet)) (fuel : Nat) (word : Str) (data : List FlagSet) (start : Nat),
    (∀ p ∈ parts, C.rulePick p.1 = some p) → start ≤ word.length → word.length - start < fuel →
    C.RuleTail fc data (word.drop start) parts →
    ∃ r, C.checkRulesImpl fc fuel word data start = .ok (some r) := by
  intro parts
  induction parts with
  | nil => intro fuel word data start _ _ _ h; have := h.atLeastTwo; simp at this
  | cons p rest ih =>
    intro fuel word data start hpick hst hfuel h
    cases rest with
    | nil => have := h.atLeastTwo; simp at this
    | cons q rest =>
    have hpm := h.long p (by simp)
    have hqm := h.long q (by simp)
    have hsp := h.spelled
    have hlen : word.length - start = p.1.length + (q.1.length +
        ((rest.map Prod.fst).flatten).length) := by
      have := congrArg List.length hsp
      simpa using this
    simp only [Checker.opts] at hm
    obtain ⟨i, hi⟩ : ∃ i, i = start + p.1.length := ⟨_, rfl⟩
    have hsl : slice word start i = p.1 := by
      unfold slice; rw [List.drop_take, hsp, hi]; simp
    have hdrop : word.drop i = ((q :: rest).map Prod.fst).flatten := by
      rw [hi, ← List.drop_drop, hsp]; simp
    cases fuel with
    | zero => omega
    | succ fuel =>
    rw [checkRulesImpl]
    have hat : ∃ r, C.ruleAt (C.checkRulesImpl fc fuel) word data start fc i = .ok (some r) := by
      unfold ruleAt
      have hp := h.entries p (by simp)
      rw [hsl, show (C.entries p.1).find? C.rulePart = some p from hpick p (by simp)]
      dsimp only
      split
      · exact ⟨_, rfl⟩
      rename_i hd
      cases rest with
      | nil =>
        exfalso
        apply hd
        unfold ruleDirect
        have hq := h.entries q (by simp)
        rw [hdrop]
        simp only [List.map_cons, List.map_nil, List.flatten_cons, List.flatten_nil, List.append_nil]
        rw [show (C.entries q.1).find? C.rulePart = some q from hpick q (by simp)]
        simp only [Bool.and_eq_true, Bool.not_eq_true', Bool.and_eq_false_iff]
        refine ⟨anyRuleMatches_iff.2 ?_, ?_⟩
        · have := h.rule
          simpa using this
        · cases fc with
          | allowBad => left; rfl
          | forbidBad => right; exact hasFlag_false.2 (h.force rfl [p] q rfl)
      | cons r rest =>
        refine ih fuel word _ i (fun x hx => hpick x (by simp [hx])) (by omega) (by omega)
          ⟨hdrop, by simp, ?_, ?_, ?_, ?_⟩
        · exact fun x hx => h.entries x (by simp [hx])
        · exact fun x hx => h.long x (by simp [hx])
        · have := h.rule
          simpa using this
        · intro hf l x hl
          exact h.force hf (p :: l) x (by rw [hl]; rfl)
    obtain ⟨r, hr⟩ := hat
    refine Run.first_isSome (fun j hj => ?_) (a := i) ?_ hr
    · rw [mem_splitPoints] at hj
      simp only [Checker.opts] at hj
      unfold ruleAt
      split
      · exact ⟨_, rfl⟩
      · dsimp only
        split
        · exact ⟨_, rfl⟩
        · exact checkRulesImpl_ok hm fc _ _ _ _ (by omega)
    · rw [mem_splitPoints]; simp only [Checker.opts]; omega

/-- Only flags of the rule are picked. -/
theorem ruleRegex_flags : ∀ (rule : List (Nat × Times)) (w : List Nat),
    w ∈ (ruleRegex rule).matches' → ∀ f ∈ w, f ∈ rule.map Prod.fst := by
  intro rule
  induction rule with
  | nil => intro w hw f hf; rw [show w = [] from hw] at hf; simp at hf
  | cons e rest ih =>
    obtain ⟨g, times⟩ := e
    intro w hw f hf
    obtain ⟨a, ha, b, hb, rfl⟩ := hw
    rcases List.mem_append.1 hf with hf | hf
    · have : f = g := by
        cases times with
        | one => rw [show a = [g] from ha] at hf; simpa using hf
        | zeroOrOne =>
          rcases ha with ha | ha
          · rw [show a = [] from ha] at hf; simp at hf
          · rw [show a = [g] from ha] at hf; simpa using hf
        | zeroOrMore =>
          obtain ⟨L, rfl, hL⟩ := Language.mem_kstar.1 ha
          obtain ⟨y, hy, hf⟩ := List.mem_flatten.1 hf
          rw [show y = [g] from hL y hy] at hf; simpa using hf
      simp [this]
    · have := ih b hb f hf
      simp only [List.map_cons, List.mem_cons]; right; exact this

/-- Parts accepted by a rule have a flag of a rule. -/
theorem hasAnyFlags_of_accepts {t : CompoundRuleTable} {rule : CompoundRule} (hr : rule ∈ t.rules)
    {data : List (List Nat)} (h : RuleAccepts (CompoundRule.spec rule) data) {F : FlagSet}
    (hF : F.elems ∈ data) : t.hasAnyFlags F = true := by
  obtain ⟨picked, hp, h2⟩ := h
  have : ∀ (a : List Nat) (b : List (List Nat)), List.Forall₂ (fun f fs => f ∈ fs) a b →
      F.elems ∈ b → ∃ f ∈ a, f ∈ F.elems := by
    intro a b hab
    induction hab with
    | nil => simp
    | @cons x y l l' hxy _ ih =>
      intro hm
      rcases List.mem_cons.1 hm with hm | hm
      · exact ⟨x, by simp, by rw [hm]; exact hxy⟩
      · obtain ⟨f, hf, h⟩ := ih hm
        exact ⟨f, by simp [hf], h⟩
  obtain ⟨f, hf, hfF⟩ := this _ _ h2 hF
  have hfr := ruleRegex_flags _ _ hp f hf
  unfold CompoundRuleTable.hasAnyFlags
  rw [FlagSet.hasIntersection_iff]
  refine ⟨f, ?_, hfF⟩
  unfold CompoundRuleTable.allFlags
  rw [FlagSet.mem_ofList, List.mem_flatMap]
  refine ⟨rule, hr, ?_⟩
  simpa [CompoundRule.spec] using hfr

end Checker
end Spellbook
