import Verif.Proof.Search
import Verif.Proof.SearchLaws
import Verif.Props.Compound
/-!
# Properties of the search for compounds: C61

`Answers U D fc read depth .atBegin 0 [] word o` (see `Spec/Search.lean`) says that the specified search,
which looks at the readings `read` and is nested at most `depth` deep, answers `o` for the word: nothing,
or that it is a compound with this first part.
-/

namespace Spellbook.Props
open Spec Checker

/-! ## C61 The search for compounds -/

/-- For every dictionary there is a choice of one reading for each text and position, such that for
every word the search of the code gives exactly the answer of the specified search (and neither gives an
answer, if it is nested deeper than `depth`). -/
theorem C61_exact {C : Checker} (hC : C.dict.CondsParsed) :
    ∃ read, Readings C.dict read ∧ ∀ (fc : Forceucase) (depth : Nat) (word : Str),
      (C.checkCompoundImpl fc depth .atBegin word 0 0 = .ok none ↔
        Answers C.U C.dict fc read depth .atBegin 0 [] word none) ∧
      (∀ p, Answers C.U C.dict fc read depth .atBegin 0 [] word (some p) →
        ∃ r, C.checkCompoundImpl fc depth .atBegin word 0 0 = .ok (some r) ∧
          r.stem = p.stem ∧ r.flags = p.flags) ∧
      (∀ r, C.checkCompoundImpl fc depth .atBegin word 0 0 = .ok (some r) →
        ∃ p, Answers C.U C.dict fc read depth .atBegin 0 [] word (some p) ∧
          r.stem = p.stem ∧ r.flags = p.flags) := by
  refine ⟨C.reading, reading_reads hC, fun fc depth word => ?_⟩
  have key := checkCompoundImpl_iff hC (fc := fc) depth .atBegin (.inl rfl) word 0 0 (by omega)
  simp only [List.take_zero, List.drop_zero] at key
  refine ⟨⟨fun h => ?_, fun h => (key _).2 ⟨none, h, rfl⟩⟩, fun p h => ?_, fun r h => ?_⟩
  · obtain ⟨o, h1, h2⟩ := (key _).1 h
    cases o with
    | none => exact h1
    | some p => simp at h2
  · exact ⟨_, (key _).2 ⟨some p, h, rfl⟩, resultOf_stem, resultOf_flags⟩
  · obtain ⟨o, h1, h2⟩ := (key _).1 h
    cases o with
    | none => simp at h2
    | some p =>
      have h2 : r = C.resultOf .atBegin p := by simpa using h2
      subst h2
      exact ⟨p, h1, resultOf_stem, resultOf_flags⟩

/-- The specified search has at most one answer, whatever the depth allowed. -/
theorem C61_one_answer {U : Unicode} {D : Dict} {fc : Forceucase} {read : Mode → Str → Option Piece}
    {depth depth' : Nat} {m : Mode} {n : Nat} {before rest : Str} {o o' : Option Piece}
    (h : Answers U D fc read depth m n before rest o)
    (h' : Answers U D fc read depth' m n before rest o') : o = o' := by
  rcases Nat.le_total depth depth' with hd | hd
  · exact (h.mono hd).unique h'
  · exact h.unique (h'.mono hd)

/-- What is accepted as a compound, exactly: what the specified search finds if one of the flags for
parts is set; and else the compounds by COMPOUNDRULE of the entries looked at. -/
theorem C61_accepts {C : Checker} (hC : C.dict.CondsParsed) (hm : 0 < C.dict.aff.options.minChars) :
    ∃ read pick, Readings C.dict read ∧ RulePicks C.dict pick ∧
      ∀ (fc : Forceucase) (depth : Nat) (word : Str),
      (∃ r, C.checkCompound depth .atBegin word fc = .ok (some r)) ↔
        (C.dict.aff.options.allowsCompounding = true ∧
          ∃ p, Answers C.U C.dict fc read depth .atBegin 0 [] word (some p)) ∨
        ((C.dict.aff.options.allowsCompounding = true →
          Answers C.U C.dict fc read depth .atBegin 0 [] word none) ∧
          ∃ parts, RuleCompound C.dict fc word parts ∧ ∀ p ∈ parts, pick p.1 = some p) := by
  obtain ⟨read, h1, h2⟩ := C61_exact hC
  obtain ⟨pick, h3, h4⟩ := C30_rule_exact hm
  refine ⟨read, pick, h1, h3, fun fc depth word => ?_⟩
  obtain ⟨h5, h6, h7⟩ := h2 fc depth word
  rw [← h4]
  have hr : (if !C.aff.compoundRules.isEmpty then C.checkRules word fc else .ok none) =
      C.checkRules word fc := by
    cases he : C.aff.compoundRules.isEmpty with
    | false => rfl
    | true =>
      have : C.dict.aff.compoundRules.rules = [] := by
        simpa [CompoundRuleTable.isEmpty] using he
      obtain ⟨o, ho⟩ := checkRulesImpl_ok (C := C) hm fc (word.length + 1) word [] 0 (by omega)
      cases o with
      | none => exact ho.symm
      | some r =>
        obtain ⟨parts, hp, _⟩ := checkRules_sound ho
        obtain ⟨rule, hr, _⟩ := hp.rule
        rw [this] at hr; simp at hr
  unfold checkCompound
  rw [hr]
  constructor
  · rintro ⟨r, h⟩
    rcases Run.or_eq_some.1 h with h | ⟨h, h'⟩
    · left
      split at h
      · rename_i ha
        obtain ⟨p, hp, _⟩ := h7 r h
        exact ⟨ha, p, hp⟩
      · simp at h
    · right
      refine ⟨fun ha => ?_, r, h'⟩
      rw [if_pos ha] at h
      exact h5.1 h
  · rintro (⟨ha, p, hp⟩ | ⟨ha, r, hr⟩)
    · obtain ⟨r, hr, _⟩ := h6 p hp
      exact ⟨r, Run.or_eq_some.2 (.inl (by rw [if_pos ha]; exact hr))⟩
    · refine ⟨r, Run.or_eq_some.2 (.inr ⟨?_, hr⟩)⟩
      split
      · rename_i h; exact h5.2 (ha h)
      · rfl

/-- The limits, also with COMPOUNDSYLLABLE: without dropped letters and replaced boundaries a compound
found is a sequence of parts which are at most COMPOUNDWORDMAX words (a prefix counts as many as it has
syllables, COMPOUNDROOT one more), or its syllables do not exceed the limit of COMPOUNDSYLLABLE. -/
theorem C61_limits {C : Checker} (hC : C.dict.CondsParsed) (hP : OnlyPlain C.dict)
    (hR : C.dict.aff.compoundRules.rules = []) {max : Nat}
    (hm : C.dict.aff.options.compoundMaxWordCount = some max)
    {fuel : Nat} {word : Str} {fc : Forceucase} {r : CompoundingResult}
    (h : C.checkCompound fuel .atBegin word fc = .ok (some r)) :
    ∃ pieces, word = texts pieces ∧ 2 ≤ pieces.length ∧
      (∀ l x r, pieces = l ++ x :: r → PieceAt C.dict (positionIn .atBegin l r) x) ∧
      ((pieces.map fun x => 1 + extraWords C.dict x).sum ≤ max ∨
       C.dict.aff.compoundSyllableVowels ≠ [] ∧
        ∀ l q, pieces = l ++ [q] → ¬ TooManySyllables C.dict word q) := by
  obtain ⟨read, h1, h2⟩ := C61_exact hC
  rcases checkCompound_some h with h | h
  · obtain ⟨p, hp, _⟩ := (h2 _ _ _).2.2 r h
    obtain ⟨pieces, h3, h4, h5, h6⟩ := hp.limit hP h1 (by simp)
    refine ⟨p :: pieces, h3, ?_, h5, by simpa using h6 max hm⟩
    cases pieces with
    | nil => exact absurd rfl h4
    | cons _ _ => simp
  · obtain ⟨parts, hp, _⟩ := checkRules_sound h
    obtain ⟨rule, hr, _⟩ := hp.rule
    rw [hR] at hr; simp at hr

/-- A dictionary with at most two words in a compound, or more if it has at most four syllables. -/
def sampleSyllables : Checker :=
  mkChecker [("foo", [1]), ("bar", [1]), ("rioa", [1])]
    { options := { compoundFlag := some 1, compoundMaxWordCount := some 2, compoundSyllableMax := some 4 }
      compoundSyllableVowels := "aio".toList }

/-- `rioafoo` has five syllables but only two words; `barfoobar` has three words but only four syllables;
`foobarfoo` has three words and five syllables and is not found. -/
example : sampleSyllables.dict.CondsParsed ∧ OnlyPlain sampleSyllables.dict ∧
    (∃ r, sampleSyllables.checkCompound 20 .atBegin "rioafoo".toList .allowBad = .ok (some r)) ∧
    (∃ r, sampleSyllables.checkCompound 20 .atBegin "barfoobar".toList .allowBad = .ok (some r)) ∧
    sampleSyllables.checkCompound 20 .atBegin "foobarfoo".toList .allowBad = .ok none ∧
    syllables sampleSyllables.dict "foobarfoo".toList = 5 ∧
    syllables sampleSyllables.dict "barfoobar".toList = 4 :=
  ⟨condsParsed_of (by decide +kernel), ⟨rfl, by intro c hc; simp [sampleSyllables, mkChecker] at hc⟩,
    ⟨⟨"rioa".toList, FlagSet.ofList [1], 0, 0, false⟩, by decide +kernel⟩,
    ⟨⟨"bar".toList, FlagSet.ofList [1], 0, 0, false⟩, by decide +kernel⟩, by decide +kernel,
    by decide +kernel, by decide +kernel⟩

/-! ### What the search misses -/

/-- The entries of the next witness: `aaa`, `bbb` (flagged 2), `cccddd`, `bbbccc`, `ddd`. Behind an `a` no
part flagged 2 may begin with `b`. -/
def sampleCommit : Checker :=
  mkChecker [("aaa", [1]), ("bbb", [1, 2]), ("cccddd", [1]), ("bbbccc", [1]), ("ddd", [1])]
    { options := { compoundFlag := some 1 }
      compoundPatterns := [⟨"a".toList, "b".toList, none, none, some 2, false⟩] }

/-- The first reading found for what remains is final: `aaa` + `bbbccc` + `ddd` is a compound, but behind
`aaa` the search finds `bbb` + `cccddd` first, which may not follow `aaa`, and looks no further. No
text has two entries, and there are no affixes. -/
theorem C61_commits : ∃ (C : Checker) (word : Str) (pieces : List Piece),
    PlainCompound C.U C.dict .allowBad word pieces ∧ OnlyPlain C.dict ∧ PartsUnique C.dict ∧
    C.dict.aff.options.allowsCompounding = true ∧
    ∀ fuel, 20 ≤ fuel → C.checkCompound fuel .atBegin word .allowBad = .ok none := by
  refine ⟨sampleCommit, "aaabbbcccddd".toList,
    [⟨"aaa".toList, "aaa".toList, FlagSet.ofList [1], []⟩,
     ⟨"bbbccc".toList, "bbbccc".toList, FlagSet.ofList [1], []⟩,
     ⟨"ddd".toList, "ddd".toList, FlagSet.ofList [1], []⟩], ⟨by decide, ?_⟩,
    ⟨rfl, by intro c hc; simp [sampleCommit, mkChecker] at hc; subst hc; rfl⟩,
    partsUnique_of_noAffixes rfl rfl (by decide +kernel), rfl, ?_⟩
  · have hat : ∀ p ∈ [(⟨"aaa".toList, "aaa".toList, FlagSet.ofList [1], []⟩ : Piece),
        ⟨"bbbccc".toList, "bbbccc".toList, FlagSet.ofList [1], []⟩,
        ⟨"ddd".toList, "ddd".toList, FlagSet.ofList [1], []⟩], ∀ m, PieceAt sampleCommit.dict m p := by
      have hf : ∀ m, MayStandAt sampleCommit.dict m (FlagSet.ofList [1]) :=
        fun m => .inl ⟨1, rfl, by decide +kernel⟩
      have hn : ¬ Has (FlagSet.ofList [1]) sampleCommit.dict.aff.options.needAffixFlag := by
        rintro ⟨f, hf, _⟩; cases hf
      intro p hp m
      simp only [List.mem_cons, List.not_mem_nil, or_false] at hp
      rcases hp with rfl | rfl | rfl <;>
      exact ⟨.listed (by decide +kernel) (by decide +kernel) rfl hn (hf m), by decide +kernel⟩
    refine ⟨by simp, fun l p r h => hat p (by rw [h]; simp) _, by decide, by simp [sampleCommit, mkChecker],
      by simp [sampleCommit, mkChecker], ?_, by simp [sampleCommit, mkChecker],
      by simp [sampleCommit, mkChecker], by simp, by simp [sampleCommit, mkChecker]⟩
    rintro c hc l p q r h ⟨_, _, _, h4, _⟩
    have hc : c = ⟨"a".toList, "b".toList, none, none, some 2, false⟩ := by
      simpa [sampleCommit, mkChecker] using hc
    subst hc
    have h4 := h4 2 rfl
    have hq := (show q ∈ l ++ p :: q :: r by simp)
    rw [← h] at hq
    simp only [List.mem_cons, List.not_mem_nil, or_false] at hq
    rcases hq with rfl | rfl | rfl <;> exact absurd h4 (by decide +kernel)
  · intro fuel hf
    exact (checkCompound_le _ hf _ _ _).ok (by decide +kernel)

end Spellbook.Props
