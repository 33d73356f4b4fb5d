import Verif.Proof.PlainCompound
import Verif.Props.Simple
/-!
# Properties of compounds: C27, C29, C30, C31, C47, C49, C50

`checkCompound fuel .atBegin word fc = .ok (some r)` means that the search for compounds accepts the
word; `fuel` is the depth of recursion it was given (see `Model/Compound.lean`).
-/

namespace Spellbook.Props
open Spec Checker

theorem checkCompound_some {C : Checker} {fuel : Nat} {m : Mode} {word : Str} {fc : Forceucase}
    {r : CompoundingResult} (h : C.checkCompound fuel m word fc = .ok (some r)) :
    C.checkCompoundImpl fc fuel m word 0 0 = .ok (some r) ∨ C.checkRules word fc = .ok (some r) := by
  unfold checkCompound at h
  rcases Run.or_eq_some.1 h with h | ⟨_, h⟩
  · left
    split at h
    · exact h
    · simp at h
  · right
    split at h
    · exact h
    · simp at h

theorem rule_of_tail {C : Checker} {fc : Forceucase} {word : Str} {parts : List (Str × FlagSet)}
    (h : C.RuleTail fc [] word parts) : RuleCompound C.dict fc word parts where
  spelled := h.spelled
  atLeastTwo := h.atLeastTwo
  listed := fun p hp => (h.entries p hp).listed
  plain := fun p hp => (h.entries p hp).plain
  long := h.long
  rule := by simpa [Function.comp_def] using h.rule
  force := h.force

theorem tail_of_rule {C : Checker} {fc : Forceucase} {word : Str} {parts : List (Str × FlagSet)}
    (h : RuleCompound C.dict fc word parts) : C.RuleTail fc [] word parts where
  spelled := h.spelled
  atLeastTwo := h.atLeastTwo
  entries := by
    intro p hp
    refine ⟨h.listed p hp, h.plain p hp, ?_⟩
    obtain ⟨rule, hr, ha⟩ := h.rule
    exact hasAnyFlags_of_accepts hr ha (List.mem_map.2 ⟨p, hp, rfl⟩)
  long := h.long
  rule := by simpa [Function.comp_def] using h.rule
  force := h.force

theorem checkRules_sound {C : Checker} {fc : Forceucase} {word : Str} {r : CompoundingResult}
    (h : C.checkRules word fc = .ok (some r)) : ∃ parts, RuleCompound C.dict fc word parts ∧
      ∃ p ∈ parts, r = { stem := p.1, flags := p.2 } := by
  obtain ⟨parts, ht, _, hp⟩ := checkRulesImpl_sound _ _ _ _ _ (by omega) h
  exact ⟨parts, rule_of_tail ht, hp⟩

theorem mem_allFlags {C : Checker} {F : FlagSet} : C.aff.compoundRules.hasAnyFlags F = true ↔
    ∃ rule ∈ C.dict.aff.compoundRules.rules, ∃ x ∈ rule, x.flag ∈ F.elems := by
  unfold CompoundRuleTable.hasAnyFlags CompoundRuleTable.allFlags
  rw [FlagSet.hasIntersection_iff]
  simp only [FlagSet.mem_ofList, List.mem_flatMap, List.mem_map]
  constructor
  · rintro ⟨f, ⟨rule, h1, x, h2, rfl⟩, h3⟩
    exact ⟨rule, h1, x, h2, h3⟩
  · rintro ⟨rule, h1, x, h2, h3⟩
    exact ⟨_, ⟨rule, h1, x, h2, rfl⟩, h3⟩

theorem rulePick_picks {C : Checker} : RulePicks C.dict C.rulePick where
  entry := fun t e h => by
    obtain ⟨h1, h2⟩ := find_rulePart h
    exact ⟨h1, h2.listed, h2.plain, mem_allFlags.1 h2.flagged⟩
  some := fun e h1 h2 h3 => by
    have hs : ((C.entries e.1).find? C.rulePart).isSome := by
      rw [List.find?_isSome]
      refine ⟨e, mem_entries.2 ⟨h1, rfl⟩, ?_⟩
      unfold rulePart
      simp only [Bool.and_eq_true, Bool.not_eq_true']
      exact ⟨hasFlag_false.2 h2, mem_allFlags.2 h3⟩
    exact Option.isSome_iff_exists.1 hs

/-! ## C27 Compound parts -/

/-- For every dictionary (with SIMPLIFIEDTRIPLE and CHECKCOMPOUNDPATTERN replacements or without),
a word accepted by the search is a compound in the sense of the specification: of pieces, or of
stems by a COMPOUNDRULE. The flags reported are those of the first piece or of one of the stems. -/
theorem C27_compound_sound {C : Checker} (hC : C.dict.CondsParsed) {fuel : Nat} {word : Str}
    {fc : Forceucase} {r : CompoundingResult}
    (h : C.checkCompound fuel .atBegin word fc = .ok (some r)) :
    (∃ p ps, Compound C.U C.dict fc .atBegin 0 [] word (p :: ps) ∧ r.flags = p.flags) ∨
    (∃ parts, RuleCompound C.dict fc word parts ∧ ∃ p ∈ parts, r.flags = p.2) := by
  rcases checkCompound_some h with h | h
  · obtain ⟨p, ps, rfl, h'⟩ := checkCompoundImpl_sound hC fc fuel (by decide) (by omega) h
    exact Or.inl ⟨p, ps, by simpa using h', resultOf_flags⟩
  · obtain ⟨parts, h', p, hp, rfl⟩ := checkRules_sound h
    exact Or.inr ⟨parts, h', p, hp, rfl⟩

/-- Without SIMPLIFIEDTRIPLE and CHECKCOMPOUNDPATTERN replacements, a word accepted by the search is
a plain compound, or one by a COMPOUNDRULE. -/
theorem C27_plain_sound {C : Checker} (hC : C.dict.CondsParsed) (hP : OnlyPlain C.dict) {fuel : Nat}
    {word : Str} {fc : Forceucase} {r : CompoundingResult}
    (h : C.checkCompound fuel .atBegin word fc = .ok (some r)) :
    (∃ pieces, PlainCompound C.U C.dict fc word pieces ∧ (pieces.head?.map (·.flags)) = some r.flags) ∨
    (∃ parts, RuleCompound C.dict fc word parts ∧ ∃ p ∈ parts, r.flags = p.2) := by
  rcases C27_compound_sound hC h with ⟨p, ps, h, hr⟩ | h
  · left
    obtain ⟨h1, h2⟩ := h.plain hP
    exact ⟨p :: ps, ⟨h1, h2⟩, by rw [hr]; rfl⟩
  · exact Or.inr h

/-- A part is a listed word or made from one by an affix or two, each in the affix file. -/
theorem C27_part_is_word {D : Dict} {m : Mode} {p : Piece} (h : PieceAt D m p) :
    (p.stem, p.flags) ∈ D.words.slots ∧ MadeBy D p.stem p.affixes p.text ∧ p.affixes.length ≤ 2 := by
  have h := h.part
  generalize p.affixes = l at h
  cases h with
  | listed h1 h2 h3 => rw [h3]; exact ⟨h1, .nil, by simp⟩
  | one h1 h2 h3 => exact ⟨h1, .cons h3.mem h3.applies .nil, by simp⟩
  | pair h1 h2 h3 h4 =>
    exact ⟨h1, .cons h3.mem h3.applies (.cons h4.mem h4.applies .nil), by simp⟩

/-- Every word accepted as a compound without rules splits into at least two parts of at least
COMPOUNDMIN characters, each allowed at its position and not forbidden. -/
theorem C27_parts {C : Checker} (hC : C.dict.CondsParsed) (hP : OnlyPlain C.dict)
    (hR : C.dict.aff.compoundRules.rules = []) {fuel : Nat}
    {word : Str} {fc : Forceucase} {r : CompoundingResult}
    (h : C.checkCompound fuel .atBegin word fc = .ok (some r)) :
    ∃ pieces : List Piece, word = (pieces.map (·.text)).flatten ∧ 2 ≤ pieces.length ∧
      (∀ p ∈ pieces, C.dict.aff.options.minChars ≤ p.text.length ∧
        C.dict.aff.options.forbiddenWordFlag ∉ p.flags.elems ∧
        (p.stem, p.flags) ∈ C.dict.words.slots ∧ MadeBy C.dict p.stem p.affixes p.text) ∧
      (∀ p r, pieces = p :: r → PieceAt C.dict .atBegin p) ∧
      (∀ l p r, l ≠ [] → r ≠ [] → pieces = l ++ p :: r → PieceAt C.dict .atMiddle p) ∧
      (∀ l p, pieces = l ++ [p] → PieceAt C.dict .atEnd p) := by
  rcases C27_plain_sound hC hP h with ⟨pieces, ⟨h1, h2⟩, _⟩ | ⟨parts, h, _⟩
  · refine ⟨pieces, h1, h2.atLeastTwo, fun p hp => ?_, ?_, ?_, ?_⟩
    · obtain ⟨l, r, hl⟩ := List.append_of_mem hp
      have := h2.positions l p r hl
      have h3 := C27_part_is_word this
      exact ⟨h2.long p hp, this.allowed, h3.1, h3.2.1⟩
    · exact fun p r hl => h2.positions [] p r hl
    · intro l p r hl hr he
      have := h2.positions l p r he
      cases l with
      | nil => simp at hl
      | cons x l =>
        cases r with
        | nil => simp at hr
        | cons y r => exact this
    · intro l p he
      have := h2.positions l p [] he
      cases l with
      | nil => have h3 := h2.atLeastTwo; rw [he] at h3; simp at h3
      | cons x l => exact this
  · obtain ⟨rule, hr, _⟩ := h.rule
    rw [hR] at hr; simp at hr

/-- A dictionary with COMPOUNDFLAG 1: `foo`, `bar`, `bazes` (from `baz` with a suffix). -/
def sampleCompound : Checker :=
  mkChecker [("foo", [1]), ("bar", [1]), ("baz", [1, 5])]
    { options := { compoundFlag := some 1, compoundCheckDuplicate := true, compoundCheckCase := true,
                   compoundCheckTriple := true, compoundMaxWordCount := some 3 }
      suffixes := AffixIndex.ofList .sfx [affix 5 "" "es"] }

theorem sampleCompound_plain : OnlyPlain sampleCompound.dict := ⟨rfl, by intro c hc; cases hc⟩
theorem sampleCompound_conds : sampleCompound.dict.CondsParsed := condsParsed_of (by decide +kernel)

/-- Three parts are accepted, four are too many, and duplicates are noticed. -/
example : (∃ r, sampleCompound.checkCompound 30 .atBegin "foobarbazes".toList .allowBad = .ok (some r)) ∧
    sampleCompound.checkCompound 30 .atBegin "foobarbazbaz".toList .allowBad = .ok none ∧
    sampleCompound.checkCompound 30 .atBegin "foofoo".toList .allowBad = .ok none ∧
    sampleCompound.dict.aff.compoundRules.rules = [] := by
  exact ⟨⟨⟨"foo".toList, FlagSet.ofList [1], 0, 0, false⟩, by decide +kernel⟩, by decide +kernel,
    by decide +kernel, rfl⟩

/-- With a CHECKCOMPOUNDPATTERN replacement a part may be shorter than COMPOUNDMIN: the claim needs
`OnlyPlain`. (`fooxyz` is written for `fooo` + `b`, `xyz` standing for `o` + `b` at the boundary.) -/
theorem C27_pattern_short_part : ∃ C : Checker, C.dict.CondsParsed ∧ ∃ fuel word r,
    C.checkCompound fuel .atBegin word .allowBad = .ok (some r) ∧ C.dict.aff.options.minChars = 3 ∧
    ∀ e ∈ C.dict.words.slots, e.1 = "fooo".toList ∨ e.1 = "b".toList :=
  ⟨mkChecker [("fooo", [1]), ("b", [1])]
    { options := { compoundFlag := some 1 }
      compoundPatterns := [⟨"o".toList, "b".toList, some "xyz".toList, none, none, false⟩] },
    condsParsed_of (by decide +kernel), 10, "fooxyz".toList, ⟨"fooo".toList, FlagSet.ofList [1], 0, 0, false⟩,
    by decide +kernel, rfl, by decide +kernel⟩

/-! ## C29 Compound boundaries -/

/-- With CHECKCOMPOUNDCASE a plain compound has no boundary with a capital on one side and a letter
on the other. -/
theorem C29_case {C : Checker} (hC : C.dict.CondsParsed) (hP : OnlyPlain C.dict)
    (hR : C.dict.aff.compoundRules.rules = []) {fuel : Nat} {word : Str} {fc : Forceucase}
    {r : CompoundingResult} (h : C.checkCompound fuel .atBegin word fc = .ok (some r))
    (ho : C.dict.aff.options.compoundCheckCase = true) :
    ∃ pieces, PlainCompound C.U C.dict fc word pieces ∧ ∀ l r, pieces = l ++ r → l ≠ [] → r ≠ [] →
      ¬ CapitalAt C.U (texts l) (texts r) := by
  rcases C27_plain_sound hC hP h with ⟨pieces, hp, _⟩ | ⟨parts, h, _⟩
  · exact ⟨pieces, hp, fun l r h1 h2 h3 => by simpa using hp.2.capital ho l r h1 h2 h3⟩
  · obtain ⟨rule, hr, _⟩ := h.rule
    rw [hR] at hr; simp at hr

/-- With CHECKCOMPOUNDTRIPLE a plain compound has no boundary inside three equal letters. -/
theorem C29_triple {C : Checker} (hC : C.dict.CondsParsed) (hP : OnlyPlain C.dict)
    (hR : C.dict.aff.compoundRules.rules = []) {fuel : Nat} {word : Str} {fc : Forceucase}
    {r : CompoundingResult} (h : C.checkCompound fuel .atBegin word fc = .ok (some r))
    (ho : C.dict.aff.options.compoundCheckTriple = true) :
    ∃ pieces, PlainCompound C.U C.dict fc word pieces ∧ ∀ l r, pieces = l ++ r → l ≠ [] → r ≠ [] →
      ¬ ThreeEqual (texts l) (texts r) := by
  rcases C27_plain_sound hC hP h with ⟨pieces, hp, _⟩ | ⟨parts, h, _⟩
  · exact ⟨pieces, hp, fun l r h1 h2 h3 => by simpa using hp.2.triple ho l r h1 h2 h3⟩
  · obtain ⟨rule, hr, _⟩ := h.rule
    rw [hR] at hr; simp at hr

theorem Compound.joined {U : Unicode} {D : Dict} {fc : Forceucase} {m : Mode} {n : Nat}
    {before rest : Str} {pieces : List Piece} (h : Compound U D fc m n before rest pieces) :
    ∃ joints, Joined D before rest pieces joints ∧ ∀ j ∈ joints,
      (D.aff.options.compoundCheckTriple = true → ¬ ThreeEqual j.before j.after) ∧
      (j.pat = none → D.aff.options.compoundCheckCase = true → ¬ CapitalAt U j.before j.after) := by
  induction h with
  | two cut _ boundary restored =>
    refine ⟨_, .two cut restored, fun j hj => ?_⟩
    rw [List.mem_singleton] at hj
    subst hj
    exact ⟨boundary.triple, boundary.capital⟩
  | more cut _ boundary restored _ _ _ _ ih =>
    obtain ⟨joints, h1, h2⟩ := ih
    refine ⟨_, .more cut restored h1, fun j hj => ?_⟩
    rcases List.mem_cons.1 hj with rfl | hj
    · exact ⟨boundary.triple, boundary.capital⟩
    · exact h2 j hj

/-- For every dictionary, with SIMPLIFIEDTRIPLE and replaced boundaries: a compound accepted without rules can
be read such that with CHECKCOMPOUNDTRIPLE no joint lies inside three equal letters as they are written there,
and with CHECKCOMPOUNDCASE no joint which was not replaced has a capital next to it. Missing: capitals at
replaced boundaries, see `C29_case_replaced`. -/
theorem C29_joints_partial {C : Checker} (hC : C.dict.CondsParsed)
    (hR : C.dict.aff.compoundRules.rules = []) {fuel : Nat} {word : Str} {fc : Forceucase}
    {r : CompoundingResult} (h : C.checkCompound fuel .atBegin word fc = .ok (some r)) :
    ∃ pieces joints, Compound C.U C.dict fc .atBegin 0 [] word pieces ∧ Joined C.dict [] word pieces joints ∧
      ∀ j ∈ joints,
        (C.dict.aff.options.compoundCheckTriple = true → ¬ ThreeEqual j.before j.after) ∧
        (j.pat = none → C.dict.aff.options.compoundCheckCase = true → ¬ CapitalAt C.U j.before j.after) := by
  rcases C27_compound_sound hC h with ⟨p, ps, h, _⟩ | ⟨parts, h, _⟩
  · obtain ⟨joints, h1, h2⟩ := Compound.joined h
    exact ⟨_, joints, h, h1, h2⟩
  · obtain ⟨rule, hr, _⟩ := h.rule
    rw [hR] at hr; simp at hr

/-- With CHECKCOMPOUNDCASE, a capital at a replaced boundary is not noticed: `fooxyzar` is accepted for
`fooo` + `Bar`, and `BarBar` is not. -/
theorem C29_case_replaced : ∃ C : Checker, C.dict.CondsParsed ∧
    C.dict.aff.options.compoundCheckCase = true ∧ C.dict.aff.compoundRules.rules = [] ∧
    C.dict.words.slots = [("fooo".toList, FlagSet.ofList [1]), ("Bar".toList, FlagSet.ofList [1])] ∧
    (∃ r, C.checkCompound 10 .atBegin "fooxyzar".toList .allowBad = .ok (some r)) ∧
    C.checkCompound 10 .atBegin "BarBar".toList .allowBad = .ok none ∧
    CapitalAt C.U "fooo".toList "Bar".toList :=
  ⟨mkChecker [("fooo", [1]), ("Bar", [1])]
    { options := { compoundFlag := some 1, compoundCheckCase := true }
      compoundPatterns := [⟨"o".toList, "B".toList, some "xyz".toList, none, none, false⟩] },
    condsParsed_of (by decide +kernel), rfl, rfl, rfl,
    ⟨⟨"fooo".toList, FlagSet.ofList [1], 0, 0, false⟩, by decide +kernel⟩, by decide +kernel,
    ⟨'o', 'B', "foo".toList, "ar".toList, rfl, rfl, .inl (by decide +kernel)⟩⟩

/-- A compound with a dropped letter and one with a replaced boundary meet the hypotheses. -/
example : ∃ C : Checker, C.dict.CondsParsed ∧ C.dict.aff.compoundRules.rules = [] ∧
    C.dict.aff.options.compoundCheckTriple = true ∧ C.dict.aff.options.compoundCheckCase = true ∧
    (∃ r, C.checkCompound 10 .atBegin "abbcd".toList .allowBad = .ok (some r)) ∧
    (∃ r, C.checkCompound 10 .atBegin "bcoobb".toList .allowBad = .ok (some r)) :=
  ⟨mkChecker [("abb", [1]), ("bcd", [1])]
    { options := { compoundFlag := some 1, compoundMinLength := some 2, compoundSimplifiedTriple := true
                   compoundCheckTriple := true, compoundCheckCase := true }
      compoundPatterns := [⟨"d".toList, "a".toList, some "oo".toList, none, none, false⟩] },
    condsParsed_of (by decide +kernel), rfl, rfl, rfl,
    ⟨⟨"abb".toList, FlagSet.ofList [1], 0, 0, false⟩, by decide +kernel⟩,
    ⟨⟨"bcd".toList, FlagSet.ofList [1], 0, 0, false⟩, by decide +kernel⟩⟩

theorem Compound.nodup {U : Unicode} {D : Dict} {fc : Forceucase} {m : Mode} {n : Nat}
    {before rest : Str} {pieces : List Piece} (h : Compound U D fc m n before rest pieces)
    (hV : D.aff.compoundSyllableVowels = []) (ho : D.aff.options.compoundCheckDuplicate = true) :
    ∀ l p q, pieces = l ++ [p, q] → ¬ Duplicate p q := by
  induction h with
  | two _ _ _ _ _ _ nodup =>
    intro l p q hl
    have h1 := congrArg List.length hl
    simp only [List.length_append, List.length_cons, List.length_nil] at h1
    obtain rfl := List.eq_nil_of_length_eq_zero (l := l) (by omega)
    simp only [List.nil_append, List.cons.injEq, and_true] at hl
    obtain ⟨rfl, rfl⟩ := hl
    exact nodup ho hV
  | @more m n n' before rest p q pieces remains rest' pat tripled cut first boundary restored tail meet rep count ih =>
    intro l p' q' hl
    cases l with
    | nil =>
      have h1 := congrArg List.length hl
      simp only [List.length_cons, List.length_nil, List.nil_append] at h1
      cases tail <;> simp at h1
    | cons x l =>
      rw [List.cons_append, List.cons.injEq] at hl
      exact ih l p' q' hl.2

/-- With CHECKCOMPOUNDDUP the last two parts of a compound accepted without rules (hence the parts of one with
two parts) are not the same entry, in any dictionary without COMPOUNDSYLLABLE. Missing: dictionaries with
COMPOUNDSYLLABLE, see `C29_duplicate_with_syllables`. -/
theorem C29_duplicate_partial {C : Checker} (hC : C.dict.CondsParsed)
    (hR : C.dict.aff.compoundRules.rules = []) (hV : C.dict.aff.compoundSyllableVowels = [])
    {fuel : Nat} {word : Str} {fc : Forceucase} {r : CompoundingResult}
    (h : C.checkCompound fuel .atBegin word fc = .ok (some r))
    (ho : C.dict.aff.options.compoundCheckDuplicate = true) :
    ∃ pieces, Compound C.U C.dict fc .atBegin 0 [] word pieces ∧ ∀ l p q, pieces = l ++ [p, q] →
      ¬ (p.stem = q.stem ∧ p.flags = q.flags ∧ (p.Modified ↔ q.Modified)) := by
  rcases C27_compound_sound hC h with ⟨p, ps, h, _⟩ | ⟨parts, h, _⟩
  · exact ⟨_, h, Compound.nodup h hV ho⟩
  · obtain ⟨rule, hr, _⟩ := h.rule
    rw [hR] at hr; simp at hr

/-- With COMPOUNDSYLLABLE, CHECKCOMPOUNDDUP misses duplicates: the entry `foo` flagged `I` has
another syllable count at the end of a compound than at its begin. -/
theorem C29_duplicate_with_syllables : ∃ C : Checker,
    C.dict.aff.options.compoundCheckDuplicate = true ∧
    C.dict.words.slots = [("foo".toList, FlagSet.ofList [1, 73])] ∧
    (∃ r, C.checkCompound 10 .atBegin "foofoo".toList .allowBad = .ok (some r)) :=
  ⟨mkChecker [("foo", [1, 73])]
    { options := { compoundFlag := some 1, compoundCheckDuplicate := true }
      compoundSyllableVowels := "aeiou".toList },
    rfl, rfl, ⟨"foo".toList, FlagSet.ofList [1, 73], 0, 0, false⟩, by decide +kernel⟩

/-! ## C47 COMPOUNDWORDMAX -/

/-- With COMPOUNDWORDMAX and without COMPOUNDSYLLABLE, the number of parts of a plain compound, where
those marked COMPOUNDROOT count twice, is at most the limit. -/
theorem C47_word_max_partial {C : Checker} (hC : C.dict.CondsParsed) (hP : OnlyPlain C.dict)
    (hR : C.dict.aff.compoundRules.rules = []) (hV : C.dict.aff.compoundSyllableVowels = [])
    {max : Nat} (hm : C.dict.aff.options.compoundMaxWordCount = some max)
    {fuel : Nat} {word : Str} {fc : Forceucase} {r : CompoundingResult}
    (h : C.checkCompound fuel .atBegin word fc = .ok (some r)) :
    ∃ pieces, PlainCompound C.U C.dict fc word pieces ∧
      pieces.length + (pieces.map fun p => rootBonus C.dict p.flags).sum ≤ max := by
  rcases C27_plain_sound hC hP h with ⟨pieces, hp, _⟩ | ⟨parts, h, _⟩
  · exact ⟨pieces, hp, by simpa using hp.2.count hV max hm⟩
  · obtain ⟨rule, hr, _⟩ := h.rule
    rw [hR] at hr; simp at hr

theorem Compound.count {U : Unicode} {D : Dict} {fc : Forceucase} {m : Mode} {n : Nat}
    {before rest : Str} {pieces : List Piece} (h : Compound U D fc m n before rest pieces)
    (hT : D.aff.options.compoundSimplifiedTriple = false) (hV : D.aff.compoundSyllableVowels = [])
    {max : Nat} (hm : D.aff.options.compoundMaxWordCount = some max) : n + pieces.length ≤ max := by
  induction h with
  | @two m n before rest p q remains pat tripled cut first boundary restored second meet nodup rep force count =>
    have := count hV max hm
    have ht : tripled = false := by
      generalize q.text = t at restored
      cases restored with
      | same => rfl
      | triple on => rw [hT] at on; cases on
    subst ht
    cases pat <;> simp at this ⊢ <;> omega
  | more _ _ _ _ _ _ _ count ih =>
    have := count hV
    simp only [List.length_cons] at ih ⊢
    omega

/-- The same for replaced boundaries: without SIMPLIFIEDTRIPLE there are never more parts than the limit says.
Missing: SIMPLIFIEDTRIPLE, and that parts marked COMPOUNDROOT count twice, which is not so at replaced
boundaries (`C47_root_replaced`). -/
theorem C47_parts_partial {C : Checker} (hC : C.dict.CondsParsed)
    (hT : C.dict.aff.options.compoundSimplifiedTriple = false)
    (hR : C.dict.aff.compoundRules.rules = []) (hV : C.dict.aff.compoundSyllableVowels = [])
    {max : Nat} (hm : C.dict.aff.options.compoundMaxWordCount = some max)
    {fuel : Nat} {word : Str} {fc : Forceucase} {r : CompoundingResult}
    (h : C.checkCompound fuel .atBegin word fc = .ok (some r)) :
    ∃ pieces, Compound C.U C.dict fc .atBegin 0 [] word pieces ∧ pieces.length ≤ max := by
  rcases C27_compound_sound hC h with ⟨p, ps, h, _⟩ | ⟨parts, h, _⟩
  · exact ⟨_, h, by simpa using Compound.count h hT hV hm⟩
  · obtain ⟨rule, hr, _⟩ := h.rule
    rw [hR] at hr; simp at hr

/-- At a replaced boundary COMPOUNDROOT is not counted: the limit is 2, both parts count twice, and the
compound `fooo` + `bar`, written `fooxyzar`, is accepted; `barbar` is not. -/
theorem C47_root_replaced : ∃ C : Checker, C.dict.CondsParsed ∧
    C.dict.aff.options.compoundMaxWordCount = some 2 ∧ C.dict.aff.options.compoundSimplifiedTriple = false ∧
    C.dict.aff.compoundRules.rules = [] ∧ C.dict.aff.compoundSyllableVowels = [] ∧
    C.dict.aff.options.compoundRootFlag = some 2 ∧
    C.dict.words.slots = [("fooo".toList, FlagSet.ofList [1, 2]), ("bar".toList, FlagSet.ofList [1, 2])] ∧
    (∃ r, C.checkCompound 10 .atBegin "fooxyzar".toList .allowBad = .ok (some r)) ∧
    C.checkCompound 10 .atBegin "barbar".toList .allowBad = .ok none :=
  ⟨mkChecker [("fooo", [1, 2]), ("bar", [1, 2])]
    { options := { compoundFlag := some 1, compoundMaxWordCount := some 2, compoundRootFlag := some 2 }
      compoundPatterns := [⟨"o".toList, "b".toList, some "xyz".toList, none, none, false⟩] },
    condsParsed_of (by decide +kernel), rfl, rfl, rfl, rfl, rfl, rfl,
    ⟨⟨"fooo".toList, FlagSet.ofList [1, 2], 0, 0, false⟩, by decide +kernel⟩, by decide +kernel⟩

/-- With SIMPLIFIEDTRIPLE the limit is not kept: it is 1 here, and a compound of two parts is
accepted (`abb` + `bcd` written `abbcd`). -/
theorem C47_word_max_triple : ∃ C : Checker,
    C.dict.aff.options.compoundMaxWordCount = some 1 ∧
    C.dict.words.slots = [("abb".toList, FlagSet.ofList [1]), ("bcd".toList, FlagSet.ofList [1])] ∧
    (∃ r, C.checkCompound 10 .atBegin "abbcd".toList .allowBad = .ok (some r)) :=
  ⟨mkChecker [("abb", [1]), ("bcd", [1])]
    { options := { compoundFlag := some 1, compoundMaxWordCount := some 1, compoundMinLength := some 2,
                   compoundSimplifiedTriple := true } },
    rfl, rfl, ⟨"abb".toList, FlagSet.ofList [1], 0, 0, false⟩, by decide +kernel⟩

/-! ## C30 COMPOUNDRULE -/

/-- Every compound accepted by COMPOUNDRULE is a concatenation of at least two listed stems of at
least COMPOUNDMIN characters, none marked NEEDAFFIX, whose flags satisfy a rule. -/
theorem C30_rule_sound {C : Checker} {fc : Forceucase} {word : Str} {r : CompoundingResult}
    (h : C.checkRules word fc = .ok (some r)) :
    ∃ parts : List (Str × FlagSet), word = (parts.map Prod.fst).flatten ∧ 2 ≤ parts.length ∧
      (∀ p ∈ parts, p ∈ C.dict.words.slots ∧ ¬ Has p.2 C.dict.aff.options.needAffixFlag ∧
        C.dict.aff.options.minChars ≤ p.1.length) ∧
      (∃ rule ∈ C.dict.aff.compoundRules.rules,
        RuleAccepts (CompoundRule.spec rule) (parts.map (·.2.elems))) ∧
      (fc = .forbidBad → ∀ l q, parts = l ++ [q] →
        ¬ Has q.2 C.dict.aff.options.compoundForceUppercaseFlag) := by
  obtain ⟨parts, h, _⟩ := checkRules_sound h
  exact ⟨parts, h.spelled, h.atLeastTwo, fun p hp => ⟨h.listed p hp, h.plain p hp, h.long p hp⟩,
    h.rule, h.force⟩

/-- For every dictionary: of the entries for each text the search looks at one only, and it accepts
exactly the concatenations of these entries which satisfy a rule. -/
theorem C30_rule_exact {C : Checker} (hm : 0 < C.dict.aff.options.minChars) :
    ∃ pick, RulePicks C.dict pick ∧ ∀ (fc : Forceucase) (word : Str),
      (∃ r, C.checkRules word fc = .ok (some r)) ↔
        ∃ parts, RuleCompound C.dict fc word parts ∧ ∀ p ∈ parts, pick p.1 = some p := by
  refine ⟨C.rulePick, rulePick_picks, fun fc word => ⟨fun ⟨r, h⟩ => ?_, fun ⟨parts, h, hp⟩ => ?_⟩⟩
  · obtain ⟨parts, ht, hp, _⟩ := checkRulesImpl_sound _ _ _ _ _ (by omega) h
    exact ⟨parts, rule_of_tail ht, hp⟩
  · exact checkRulesImpl_complete hm parts _ _ _ _ hp (by omega) (by omega)
      (by simpa using tail_of_rule h)

/-- Every such concatenation is accepted, if no stem has two entries with different flags which could
be parts. Missing: dictionaries with such homonyms, see `C30_homonym_missed`. -/
theorem C30_rule_complete_partial {C : Checker} (hm : 0 < C.dict.aff.options.minChars)
    (hU : ∀ e ∈ C.dict.words.slots, ∀ e' ∈ C.dict.words.slots, e.1 = e'.1 → e.2 = e'.2)
    {fc : Forceucase} {word : Str} {parts : List (Str × FlagSet)}
    (h : RuleCompound C.dict fc word parts) :
    ∃ r, C.checkRules word fc = .ok (some r) := by
  have ht := tail_of_rule h
  refine checkRulesImpl_complete hm parts _ _ _ _ (fun p hp => ?_) (by omega) (by omega)
    (by simpa using ht)
  exact find_rulePart_of (ht.entries p hp) fun e' he' h1 =>
    hU _ he'.listed _ (ht.entries p hp).listed h1

/-- Hence the search accepts exactly the COMPOUNDRULE compounds. -/
theorem C30_rule_exact_partial {C : Checker} (hm : 0 < C.dict.aff.options.minChars)
    (hU : ∀ e ∈ C.dict.words.slots, ∀ e' ∈ C.dict.words.slots, e.1 = e'.1 → e.2 = e'.2)
    {fc : Forceucase} {word : Str} :
    (∃ r, C.checkRules word fc = .ok (some r)) ↔ ∃ parts, RuleCompound C.dict fc word parts :=
  ⟨fun ⟨_, h⟩ => let ⟨parts, h, _⟩ := checkRules_sound h; ⟨parts, h⟩,
   fun ⟨_, h⟩ => C30_rule_complete_partial hm hU h⟩

/-- A dictionary with COMPOUNDRULE `n*m`. -/
def sampleRule : Checker :=
  mkChecker [("one", [110]), ("two", [110, 109])]
    { compoundRules := ⟨[[⟨110, some .zeroOrMore⟩, ⟨109, none⟩]]⟩ }

example : 0 < sampleRule.dict.aff.options.minChars ∧
    (∀ e ∈ sampleRule.dict.words.slots, ∀ e' ∈ sampleRule.dict.words.slots, e.1 = e'.1 → e.2 = e'.2) ∧
    (∃ r, sampleRule.checkRules "onetwoonetwo".toList .allowBad = .ok (some r)) ∧
    sampleRule.checkRules "twoone".toList .allowBad = .ok none :=
  ⟨by decide, by decide +kernel, ⟨⟨"one".toList, FlagSet.ofList [110], 0, 0, false⟩, by decide +kernel⟩,
    by decide +kernel⟩

/-- If a stem has two entries, only the one found first is tried: `aaa` (flag 2) and `bbb` (flag 3)
satisfy the rule `2 3`, but `aaa` is also listed with flag 1. -/
theorem C30_homonym_missed : ∃ C : Checker,
    (∃ parts, RuleCompound C.dict .allowBad "aaabbb".toList parts) ∧
    C.checkRules "aaabbb".toList .allowBad = .ok none := by
  refine ⟨mkChecker [("aaa", [1]), ("aaa", [2]), ("bbb", [3])]
    { compoundRules := ⟨[[⟨2, none⟩, ⟨3, none⟩], [⟨1, none⟩]]⟩ },
    ⟨[("aaa".toList, FlagSet.ofList [2]), ("bbb".toList, FlagSet.ofList [3])],
      rfl, by simp, by decide +kernel, ?_, by decide +kernel, ?_, by simp⟩, by decide +kernel⟩
  · rintro p _ ⟨f, hf, _⟩; simp [mkChecker] at hf
  · refine ⟨[⟨2, none⟩, ⟨3, none⟩], by simp [mkChecker], ?_⟩
    exact (compoundRuleMatches_iff [⟨2, none⟩, ⟨3, none⟩] [FlagSet.ofList [2], FlagSet.ofList [3]]).1
      (by decide +kernel)

/-! ## C31 Forbidden parts -/

theorem Compound.allowed {U : Unicode} {D : Dict} {fc : Forceucase} {m : Mode} {n : Nat}
    {before rest : Str} {pieces : List Piece} (h : Compound U D fc m n before rest pieces) :
    ∀ p ∈ pieces, D.aff.options.forbiddenWordFlag ∉ p.flags.elems := by
  induction h with
  | two _ first _ _ second =>
    intro x hx; simp at hx; rcases hx with rfl | rfl
    · exact first.allowed
    · exact second.allowed
  | more _ first _ _ _ _ _ _ ih =>
    intro x hx; rcases List.mem_cons.1 hx with rfl | hx
    · exact first.allowed
    · exact ih x hx

/-- The claim for compounds without COMPOUNDRULE: no part of an accepted one is forbidden. Missing: compounds by
COMPOUNDRULE, see `C31_forbidden_part_accepted`. -/
theorem C31_no_forbidden_part_partial {C : Checker} (hC : C.dict.CondsParsed)
    (hR : C.dict.aff.compoundRules.rules = []) {fuel : Nat} {word : Str} {fc : Forceucase}
    {r : CompoundingResult} (h : C.checkCompound fuel .atBegin word fc = .ok (some r)) :
    ∃ pieces, Compound C.U C.dict fc .atBegin 0 [] word pieces ∧
      ∀ p ∈ pieces, C.dict.aff.options.forbiddenWordFlag ∉ p.flags.elems := by
  rcases C27_compound_sound hC h with ⟨p, ps, h, _⟩ | ⟨parts, h, _⟩
  · exact ⟨p :: ps, h, Compound.allowed h⟩
  · obtain ⟨rule, hr, _⟩ := h.rule
    rw [hR] at hr; simp at hr

/-- A dictionary with COMPOUNDRULE `12`, whose stem `bbb` is forbidden. -/
def sampleForbidden : Checker :=
  mkChecker [("aaa", [1]), ("bbb", [2, 65510])] { compoundRules := ⟨[[⟨1, none⟩, ⟨2, none⟩]]⟩ }

/-- The claim is false for COMPOUNDRULE: `aaabbb` is accepted by `check` although its only entry for
`bbb` is forbidden; every way to write the word as a COMPOUNDRULE compound uses it. -/
theorem C31_forbidden_part_accepted : ∃ C : Checker,
    (∀ fuel, C.check fuel "aaabbb".toList = .ok true) ∧
    C.dict.words.slots = [("aaa".toList, FlagSet.ofList [1]),
      ("bbb".toList, FlagSet.ofList [2, C.dict.aff.options.forbiddenWordFlag])] ∧
    (∀ fuel, C.check fuel "bbb".toList = .ok false) := by
  refine ⟨sampleForbidden, ?_, rfl, ?_⟩
  · intro fuel
    exact (check_le _ (Nat.zero_le fuel) _).ok (by decide +kernel)
  · intro fuel
    exact (check_le _ (Nat.zero_le fuel) _).ok (by decide +kernel)

/-! ## C49 Exactness of the search for plain compounds -/

/-- For dictionaries whose conditions on compounds do not depend on which of several readings was
found (no CHECKCOMPOUNDPATTERN, CHECKCOMPOUNDREP, COMPOUNDSYLLABLE; parts with the same text come
from the same entry), the search finds every plain compound. -/
theorem C49_search_complete {C : Checker} (hC : C.dict.CondsParsed) (hU : PartsUnique C.dict)
    (hN : NoPairChecks C.dict) (hS : C.dict.Shrinking)
    (ha : C.dict.aff.options.allowsCompounding = true) {fc : Forceucase} {word : Str}
    {pieces : List Piece} (h : PlainCompound C.U C.dict fc word pieces) {fuel : Nat}
    (hf : word.length < fuel) : ∃ r, C.checkCompound fuel .atBegin word fc = .ok (some r) := by
  obtain ⟨r, hr⟩ := checkCompoundImpl_complete hC hU hN hS fc pieces fuel .atBegin word 0 0 (by decide)
    (by omega) (by omega) (by simpa using h.1) (by simpa using h.2)
  refine ⟨r, ?_⟩
  unfold checkCompound
  have : C.opts.allowsCompounding = true := ha
  rw [this, if_pos rfl, hr]; rfl

/-- Hence, without rules and SIMPLIFIEDTRIPLE, it accepts exactly the plain compounds. -/
theorem C49_search_exact {C : Checker} (hC : C.dict.CondsParsed) (hU : PartsUnique C.dict)
    (hN : NoPairChecks C.dict) (hm : 0 < C.dict.aff.options.minChars)
    (ht : C.dict.aff.options.compoundSimplifiedTriple = false)
    (hR : C.dict.aff.compoundRules.rules = [])
    (ha : C.dict.aff.options.allowsCompounding = true) {fc : Forceucase} {word : Str} {fuel : Nat}
    (hf : word.length < fuel) :
    (∃ r, C.checkCompound fuel .atBegin word fc = .ok (some r)) ↔
      ∃ pieces, PlainCompound C.U C.dict fc word pieces := by
  constructor
  · rintro ⟨r, h⟩
    rcases C27_plain_sound hC ⟨ht, by rw [hN.patterns]; simp⟩ h with ⟨pieces, hp, _⟩ | ⟨parts, h, _⟩
    · exact ⟨pieces, hp⟩
    · obtain ⟨rule, hr, _⟩ := h.rule
      rw [hR] at hr; simp at hr
  · rintro ⟨pieces, h⟩
    exact C49_search_complete hC hU hN ⟨hm, by rw [ht]; simp, by rw [hN.patterns]; simp⟩ ha h hf

/-- The hypotheses hold for a dictionary of listed words without affixes. -/
theorem partsUnique_of_noAffixes {D : Dict} (h1 : D.aff.prefixes.table = [])
    (h2 : D.aff.suffixes.table = [])
    (hU : ∀ e ∈ D.words.slots, ∀ e' ∈ D.words.slots, e.1 = e'.1 → e.2 = e'.2) : PartsUnique D := by
  have noStep : ∀ k a s t, ¬ Step D k a s t := by
    intro k a s t h
    have := h.mem
    cases k <;> simp [tableOf, h1, h2] at this
  have key : ∀ m t s F l, Part D m t s F l → l = [] ∧ t = s ∧ (s, F) ∈ D.words.slots := by
    intro m t s F l h
    cases h with
    | listed e _ same => exact ⟨rfl, same, e⟩
    | one _ _ st => exact absurd st (noStep _ _ _ _)
    | pair _ _ st => exact absurd st (noStep _ _ _ _)
  intro m p q hp hq ht
  obtain ⟨a1, a2, a3⟩ := key _ _ _ _ _ hp
  obtain ⟨b1, b2, b3⟩ := key _ _ _ _ _ hq
  have hs : p.stem = q.stem := by rw [← a2, ← b2, ht]
  exact ⟨hs, hU _ a3 _ b3 hs, by unfold Piece.Modified; rw [a1, b1]⟩

/-- A dictionary with the positions flagged separately and COMPOUNDWORDMAX. -/
def samplePositions : Checker :=
  mkChecker [("foo", [1]), ("bar", [2]), ("baz", [3])]
    { options := { compoundBeginFlag := some 1, compoundMiddleFlag := some 2, compoundEndFlag := some 3,
                   compoundMaxWordCount := some 4 } }

example : samplePositions.dict.CondsParsed ∧ PartsUnique samplePositions.dict ∧
    NoPairChecks samplePositions.dict ∧ 0 < samplePositions.dict.aff.options.minChars ∧
    samplePositions.dict.aff.options.allowsCompounding = true ∧
    (∃ r, samplePositions.checkCompound 30 .atBegin "foobarbarbaz".toList .allowBad = .ok (some r)) ∧
    samplePositions.checkCompound 30 .atBegin "barbaz".toList .allowBad = .ok none ∧
    samplePositions.checkCompound 30 .atBegin "foobarbarbarbaz".toList .allowBad = .ok none :=
  ⟨condsParsed_of (by decide +kernel), partsUnique_of_noAffixes rfl rfl (by decide +kernel),
    ⟨rfl, rfl, rfl⟩, by decide, rfl,
    ⟨⟨"foo".toList, FlagSet.ofList [1], 0, 0, false⟩, by decide +kernel⟩, by decide +kernel,
    by decide +kernel⟩

/-! ## C50 CHECKCOMPOUNDPATTERN, CHECKCOMPOUNDREP, FORCEUCASE -/

/-- No boundary of a plain compound is forbidden by a CHECKCOMPOUNDPATTERN line; with
CHECKCOMPOUNDREP neither the word nor what remains behind some parts (if it is two parts or more)
is turned into a simple word by a REP line; and where it is asked for, the last part is not marked
FORCEUCASE. -/
theorem C50_pattern_rep_force {C : Checker} (hC : C.dict.CondsParsed) (hP : OnlyPlain C.dict)
    (hR : C.dict.aff.compoundRules.rules = []) {fuel : Nat} {word : Str} {fc : Forceucase}
    {r : CompoundingResult} (h : C.checkCompound fuel .atBegin word fc = .ok (some r)) :
    ∃ pieces, PlainCompound C.U C.dict fc word pieces ∧
      (∀ c ∈ C.dict.aff.compoundPatterns, ∀ l p q r, pieces = l ++ p :: q :: r →
        ¬ PatternForbids c (texts (l ++ [p])) (texts (q :: r)) p q) ∧
      (C.dict.aff.options.compoundCheckRep = true → ∀ l r, pieces = l ++ r → 2 ≤ r.length →
        ¬ RepSimilar C.dict (texts r)) ∧
      (fc = .forbidBad → ∀ l q, pieces = l ++ [q] →
        ¬ Has q.flags C.dict.aff.options.compoundForceUppercaseFlag) := by
  rcases C27_plain_sound hC hP h with ⟨pieces, hp, _⟩ | ⟨parts, h, _⟩
  · refine ⟨pieces, hp, fun c hc l p q r hl => by simpa using hp.2.patterns c hc l p q r hl,
      fun ho l r hl hr => ?_, hp.2.force⟩
    match r, hr with
    | p :: q :: r, _ => exact hp.2.rep ho l p q r hl
  · obtain ⟨rule, hr, _⟩ := h.rule
    rw [hR] at hr; simp at hr

/-- With the pattern `o b` the word `foobar` is rejected, `barfoo` is not. -/
example : ∃ C : Checker, C.dict.CondsParsed ∧ OnlyPlain C.dict ∧
    C.checkCompound 20 .atBegin "foobar".toList .allowBad = .ok none ∧
    (∃ r, C.checkCompound 20 .atBegin "barfoo".toList .allowBad = .ok (some r)) :=
  ⟨mkChecker [("foo", [1]), ("bar", [1])]
    { options := { compoundFlag := some 1 }
      compoundPatterns := [⟨"o".toList, "b".toList, none, none, none, false⟩] },
    condsParsed_of (by decide +kernel), ⟨rfl, by intro c hc; simp [mkChecker] at hc; subst hc; rfl⟩,
    by decide +kernel, ⟨⟨"bar".toList, FlagSet.ofList [1], 0, 0, false⟩, by decide +kernel⟩⟩

end Spellbook.Props
