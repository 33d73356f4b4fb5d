import Verif.Proof.Blocks
import Verif.Proof.Hints
/-!
# Reading an affix file without some of its advice
-/

namespace Spellbook
open Spec

namespace Hint

/-- The options without those that nothing reads, and without the advice if `all` is true. -/
def blankOptions (all : Bool) (o : AffOptions) : AffOptions :=
  { o with
    fullstrip := false, compoundMoreSuffixes := false, maxCompoundSuggestions := 0, substandardFlag := none
    suggestWithDots := false
    noSuggestFlag := if all then none else o.noSuggestFlag
    maxNgramSuggestions := if all then 0 else o.maxNgramSuggestions
    maxDiffFactor := if all then 0 else o.maxDiffFactor
    onlyMaxDiff := if all then false else o.onlyMaxDiff
    noSplitSuggestions := if all then false else o.noSplitSuggestions }

/-- The settings without those that nothing reads, without the advice if `all` is true, and without replacements if
`rep` is true. -/
def blank (all rep : Bool) (cx : Cx) : Cx :=
  { cx with
    options := blankOptions all cx.options
    tryChars := if all then [] else cx.tryChars
    keyboardCloseness := if all then [] else cx.keyboardCloseness
    similarities := if all then [] else cx.similarities
    outputConversions := if all then [] else cx.outputConversions
    replacements := if rep then [] else cx.replacements }

variable {U : Unicode} {all rep : Bool}

theorem set_flag : ∀ p ∈ flagKeys, ∀ o f, blankOptions all (p.2 o f) = blankOptions all (p.2 (blankOptions all o) f) := by
  simp only [flagKeys, List.forall_mem_cons]
  refine ⟨?_, ?_, ?_, ?_, ?_, ?_, ?_, ?_, ?_, ?_, ?_, ?_, ?_, ?_, ?_, ?_, by simp⟩ <;> intro o f <;> cases all <;> rfl

theorem set_switch : ∀ p ∈ switchKeys, ∀ o, blankOptions all (p.2 o) = blankOptions all (p.2 (blankOptions all o)) := by
  simp only [switchKeys, List.forall_mem_cons]
  refine ⟨?_, ?_, ?_, ?_, ?_, ?_, ?_, ?_, ?_, ?_, ?_, ?_, ?_, ?_, by simp⟩ <;> intro o <;> cases all <;> rfl

theorem set_number : ∀ p ∈ numberKeys, ∀ o n,
    blankOptions all (p.2 o n) = blankOptions all (p.2 (blankOptions all o) n) := by
  simp only [numberKeys, List.forall_mem_cons]
  refine ⟨?_, ?_, ?_, ?_, ?_, by simp⟩ <;> intro o f <;> cases all <;> rfl

section
variable {cx cx' : Cx} (h : blank all rep cx = blank all rep cx')
include h

theorem flagType : cx.flagType = cx'.flagType := by
  have := congrArg Cx.flagType h
  exact this

theorem flagAliases : cx.flagAliases = cx'.flagAliases := by
  have := congrArg Cx.flagAliases h
  exact this

theorem affixRow {f : Nat} {cross : Bool} {strip add : Str} {more : List Str} {a : Affix}
    (hr : AffixRow cx f cross strip add more a) : AffixRow cx' f cross strip add more a := by
  obtain ⟨h1, h2, h3, ⟨t, fl, h4, h5, h6⟩, h7⟩ := hr
  rw [flagType h, flagAliases h] at h6
  exact ⟨h1, h2, h3, ⟨t, fl, h4, h5, h6⟩, h7⟩

theorem patternRow {a b : Str} {more : List Str} {p : CompoundPattern} (hr : PatternRow cx a b more p) :
    PatternRow cx' a b more p := by
  obtain ⟨⟨t, fl, h1, h2, h3, h4⟩, ⟨g, h5, h6⟩, h7⟩ := hr
  rw [flagType h] at h2 h6
  exact ⟨⟨t, fl, h1, h2, h3, h4⟩, ⟨g, h5, h6⟩, h7⟩

theorem row {key : String} {head args : List Str} {c : Cx} (hr : Row key head cx args c) :
    ∃ c', Row key head cx' args c' ∧ blank all rep c = blank all rep c' := by
  cases hr with
  | @rep _ _ a b =>
    refine ⟨_, .rep, ?_⟩
    cases hrep : rep
    · subst hrep; exact congrArg (fun x : Cx => { x with replacements := x.replacements ++ [(a, b.map fun c => if c = '_' then ' ' else c)] }) h
    · subst hrep; exact h
  | @iconv _ _ a b =>
    exact ⟨_, .iconv, congrArg (fun x : Cx => { x with inputConversions := x.inputConversions ++ [(a, b)] }) h⟩
  | @oconv _ _ a b =>
    refine ⟨_, .oconv, ?_⟩
    cases hall : all
    · subst hall; exact congrArg (fun x : Cx => { x with outputConversions := x.outputConversions ++ [(a, b)] }) h
    · subst hall; exact h
  | @brk _ _ a => exact ⟨_, .brk, congrArg (fun x : Cx => { x with breakPatterns := x.breakPatterns ++ [a] }) h⟩
  | @af _ _ _ _ l F h1 h2 h3 =>
    rw [flagType h] at h1
    exact ⟨_, .af h1 h2 h3, congrArg (fun x : Cx => { x with flagAliases := x.flagAliases ++ [F] }) h⟩
  | @map _ _ _ _ g h1 =>
    refine ⟨_, .map h1, ?_⟩
    cases hall : all
    · subst hall; exact congrArg (fun x : Cx => { x with similarities := x.similarities ++ [g] }) h
    · subst hall; exact h
  | @rule _ _ _ _ r h1 h2 =>
    rw [flagType h] at h1
    exact ⟨_, .rule h1 h2, congrArg (fun x : Cx => { x with compoundRules := x.compoundRules ++ [r] }) h⟩
  | @pattern _ _ _ _ _ p h1 =>
    exact ⟨_, .pattern (patternRow h h1),
      congrArg (fun x : Cx => { x with compoundPatterns := x.compoundPatterns ++ [p] }) h⟩
  | @pfx _ _ _ _ _ _ _ _ a h1 h2 h3 =>
    rw [flagType h] at h1
    exact ⟨_, .pfx h1 h2 (affixRow h h3), congrArg (fun x : Cx => { x with prefixes := x.prefixes ++ [a] }) h⟩
  | @sfx _ _ _ _ _ _ _ _ a h1 h2 h3 =>
    rw [flagType h] at h1
    exact ⟨_, .sfx h1 h2 (affixRow h h3), congrArg (fun x : Cx => { x with suffixes := x.suffixes ++ [a] }) h⟩

end

theorem rows {key : String} {head lines : List Str} {cx c : Cx} (hr : Rows U key head cx lines c) :
    ∀ {cx' : Cx}, blank all rep cx = blank all rep cx' →
      ∃ c', Rows U key head cx' lines c' ∧ blank all rep c = blank all rep c' := by
  induction hr with
  | nil => intro cx' h; exact ⟨cx', .nil, h⟩
  | cons h1 h2 _ ih =>
    intro cx' h
    obtain ⟨c₁, h3, h4⟩ := row h h2
    obtain ⟨c₂, h5, h6⟩ := ih h4
    exact ⟨c₂, .cons h1 h3 h5, h6⟩

theorem options {cx cx' : Cx} (h : blank all rep cx = blank all rep cx') {set : AffOptions → AffOptions}
    (hs : ∀ o, blankOptions all (set o) = blankOptions all (set (blankOptions all o))) :
    blank all rep { cx with options := set cx.options } = blank all rep { cx' with options := set cx'.options } := by
  have e : ∀ c : Cx, blank all rep { c with options := set c.options }
      = { blank all rep c with options := blankOptions all (set (blank all rep c).options) } := fun c =>
    congrArg (fun o => ({ blank all rep c with options := o } : Cx)) (hs c.options)
  rw [e, e, h]

/-- A block does the same to the settings without the advice. -/
theorem effect {key : String} {args lines : List Str} {cx cx' c : Cx} (h : blank all rep cx = blank all rep cx')
    (he : Effect U key args cx lines c) :
    ∃ c', Effect U key args cx' lines c' ∧ blank all rep c = blank all rep c' := by
  cases he with
  | @flagType _ _ _ ty h1 => exact ⟨_, .flagType h1, congrArg (fun x : Cx => { x with flagType := ty }) h⟩
  | @flag _ set _ _ _ f h1 h2 h3 =>
    rw [flagType h] at h2
    exact ⟨_, .flag h1 h2 h3, options (set := fun o => set o f) h fun o => set_flag _ h1 o f⟩
  | switch h1 => exact ⟨_, .switch h1, options h fun o => set_switch _ h1 o⟩
  | @number _ set _ _ _ n h1 h2 h3 =>
    exact ⟨_, .number h1 h2 h3, options (set := fun o => set o n) h fun o => set_number _ h1 o n⟩
  | @ignore _ w => exact ⟨_, .ignore, congrArg (fun x : Cx => { x with ignoreChars := w }) h⟩
  | @keyboard _ w =>
    exact ⟨_, .keyboard, congrArg (fun x : Cx => { x with keyboardCloseness := if all then [] else w }) h⟩
  | @tryChars _ w => exact ⟨_, .tryChars, congrArg (fun x : Cx => { x with tryChars := if all then [] else w }) h⟩
  | turkic h1 =>
    exact ⟨_, .turkic h1, options (set := fun o => { o with caseHandling := .turkic }) h fun o => by cases all <;> rfl⟩
  | notTurkic h1 =>
    exact ⟨_, .notTurkic h1,
      options (set := fun o => { o with caseHandling := .standard }) h fun o => by cases all <;> rfl⟩
  | @syllable _ w vowels _ n h1 h2 =>
    refine ⟨_, .syllable h1 h2, ?_⟩
    have := options (set := fun o => { o with compoundSyllableMax := if n = 0 then none else some n }) h
      fun o => by cases all <;> rfl
    exact congrArg (fun x : Cx => { x with compoundSyllableVowels := vowels }) this
  | table h1 h2 h3 h4 =>
    have hb : blank all rep (if key = "BREAK" then { cx with breakPatterns := [] } else cx)
        = blank all rep (if key = "BREAK" then { cx' with breakPatterns := [] } else cx') := by
      split
      · exact congrArg (fun x : Cx => { x with breakPatterns := [] }) h
      · exact h
    obtain ⟨c', h5, h6⟩ := rows h4 hb
    exact ⟨c', .table h1 h2 h3 h5, h6⟩
  | affixes h1 h2 h3 h4 h5 h6 h7 =>
    rw [flagType h] at h2
    obtain ⟨c', h8, h9⟩ := rows h7 h
    exact ⟨c', .affixes h1 h2 h3 h4 h5 h6 h8, h9⟩

theorem reads {lines : List Str} {cx c : Cx} (hr : Reads U cx lines c) :
    ∀ {cx' : Cx}, blank all rep cx = blank all rep cx' →
      ∃ c', Reads U cx' lines c' ∧ blank all rep c = blank all rep c' := by
  induction hr with
  | done => intro cx' h; exact ⟨cx', .done, h⟩
  | ignored h1 _ ih =>
    intro cx' h
    obtain ⟨c', h2, h3⟩ := ih h
    exact ⟨c', .ignored h1 h2, h3⟩
  | directive h1 h2 _ ih =>
    intro cx' h
    obtain ⟨c₁, h3, h4⟩ := effect h h2
    obtain ⟨c', h5, h6⟩ := ih h4
    exact ⟨c', .directive h1 h3 h5, h6⟩

/-- The directives that change nothing else. -/
def allowed (all rep : Bool) (key : String) : Bool :=
  idleKeys.contains key || (all && adviceKeys.contains key) || (rep && key == "REP")

theorem own_flag : ∀ p ∈ flagKeys, allowed all rep p.1 = true → ∀ o f, blankOptions all (p.2 o f) = blankOptions all o := by
  simp only [flagKeys, List.forall_mem_cons]
  refine ⟨?_, ?_, ?_, ?_, ?_, ?_, ?_, ?_, ?_, ?_, ?_, ?_, ?_, ?_, ?_, ?_, by simp⟩ <;> intro hk o f <;>
    revert hk <;> cases all <;> cases rep <;>
    first
    | exact fun hk => absurd hk (by decide +kernel)
    | exact fun _ => rfl

theorem own_switch : ∀ p ∈ switchKeys, allowed all rep p.1 = true → ∀ o, blankOptions all (p.2 o) = blankOptions all o := by
  simp only [switchKeys, List.forall_mem_cons]
  refine ⟨?_, ?_, ?_, ?_, ?_, ?_, ?_, ?_, ?_, ?_, ?_, ?_, ?_, ?_, by simp⟩ <;> intro hk o <;>
    revert hk <;> cases all <;> cases rep <;>
    first
    | exact fun hk => absurd hk (by decide +kernel)
    | exact fun _ => rfl

theorem own_number : ∀ p ∈ numberKeys, allowed all rep p.1 = true → ∀ o n, blankOptions all (p.2 o n) = blankOptions all o := by
  simp only [numberKeys, List.forall_mem_cons]
  refine ⟨?_, ?_, ?_, ?_, ?_, by simp⟩ <;> intro hk o f <;>
    revert hk <;> cases all <;> cases rep <;>
    first
    | exact fun hk => absurd hk (by decide +kernel)
    | exact fun _ => rfl

theorem own_row {key : String} (hk : allowed all rep key = true) {head args : List Str} {cx c : Cx}
    (hr : Row key head cx args c) : blank all rep c = blank all rep cx := by
  revert hk
  cases hr <;> cases all <;> cases rep <;>
    first
    | exact fun hk => absurd hk (by decide +kernel)
    | exact fun _ => rfl

theorem own_rows {key : String} (hk : allowed all rep key = true) {head lines : List Str} {cx c : Cx}
    (hr : Rows U key head cx lines c) : blank all rep c = blank all rep cx := by
  induction hr with
  | nil => rfl
  | cons _ h _ ih => exact ih.trans (own_row hk h)

/-- A block of advice changes the advice. -/
theorem own {key : String} (hk : allowed all rep key = true) {args lines : List Str} {cx c : Cx}
    (he : Effect U key args cx lines c) : blank all rep c = blank all rep cx := by
  have put : ∀ {o : AffOptions}, blankOptions all o = blankOptions all cx.options →
      blank all rep { cx with options := o } = blank all rep cx := fun h =>
    congrArg (fun o => ({ blank all rep cx with options := o } : Cx)) h
  cases he with
  | flag h1 => exact put (own_flag _ h1 hk _ _)
  | switch h1 => exact put (own_switch _ h1 hk _)
  | number h1 => exact put (own_number _ h1 hk _ _)
  | table h1 h2 h3 h4 =>
    have : key ≠ "BREAK" := by
      rintro rfl
      revert hk
      cases all <;> cases rep <;> decide +kernel
    rw [if_neg this] at h4
    exact own_rows hk h4
  | affixes h1 h2 h3 h4 h5 h6 h7 => exact own_rows hk h7
  | _ =>
    revert hk
    cases all <;> cases rep <;>
      first
      | exact fun hk => absurd hk (by decide +kernel)
      | exact fun _ => rfl

/-! ## The dictionary -/

section
variable {cx cx' : Cx} (h : blank all rep cx = blank all rep cx')
include h

theorem ignoreChars : cx.ignoreChars = cx'.ignoreChars := by
  have := congrArg Cx.ignoreChars h
  exact this

theorem opt {β : Type} (f : AffOptions → β) (hf : ∀ o, f (blankOptions all o) = f o) : f cx.options = f cx'.options := by
  have := congrArg (fun c : Cx => f c.options) h
  simp only [blank, hf] at this
  exact this

theorem insertEntry : Spellbook.insertEntry U cx.options = Spellbook.insertEntry U cx'.options := by
  have h1 := opt h (·.forbiddenWordFlag) fun _ => rfl
  have h2 := opt h (·.caseHandling) fun _ => rfl
  funext
  simp only [Spellbook.insertEntry, needsTwin, h1, h2]
  rfl

theorem dicStep : Spellbook.dicStep U cx = Spellbook.dicStep U cx' := by
  funext
  simp only [Spellbook.dicStep, insertEntry h, flagType h, flagAliases h, ignoreChars h]

theorem parseDic : Spellbook.parseDic U cx = Spellbook.parseDic U cx' := by
  have : dicLoop U cx = dicLoop U cx' := by
    funext fuel
    induction fuel with
    | zero => rfl
    | succ n ih =>
      funext words
      simp only [dicLoop, ih, dicStep h]
  funext
  simp only [Spellbook.parseDic, this]

/-- The tables made from the settings, as far as `check` reads them. -/
theorem assembled_rules {S : Sorts} {w : Bag FlagSet} {A A' : AffData} (h1 : assemble S cx w = some ⟨w, A⟩)
    (h2 : assemble S cx' w = some ⟨w, A'⟩) (hc : rep = true → A'.options.compoundCheckRep = false) (U : Unicode)
    (L : Layout) : Checker.SameRules { U, L, dict := ⟨w, A⟩ } { U, L, dict := ⟨w, A'⟩ } := by
  unfold assemble at h1 h2
  simp only [Option.bind_eq_bind, Option.bind_eq_some_iff, Option.pure_def, Option.some.injEq, Dict.mk.injEq,
    true_and] at h1 h2
  obtain ⟨p, hp, s, hs, b, hb, r, hr, rfl⟩ := h1
  obtain ⟨p', hp', s', hs', b', hb', r', hr', rfl⟩ := h2
  have f1 : cx.prefixes = cx'.prefixes := by have := congrArg Cx.prefixes h; exact this
  have f2 : cx.suffixes = cx'.suffixes := by have := congrArg Cx.suffixes h; exact this
  have f3 : cx.breakPatterns = cx'.breakPatterns := by have := congrArg Cx.breakPatterns h; exact this
  have f4 : cx.inputConversions = cx'.inputConversions := by have := congrArg Cx.inputConversions h; exact this
  have f5 : cx.compoundRules = cx'.compoundRules := by have := congrArg Cx.compoundRules h; exact this
  have f6 : cx.compoundPatterns = cx'.compoundPatterns := by have := congrArg Cx.compoundPatterns h; exact this
  have f7 : cx.compoundSyllableVowels = cx'.compoundSyllableVowels := by
    have := congrArg Cx.compoundSyllableVowels h; exact this
  have f8 : rep = false → cx.replacements = cx'.replacements := by
    rintro rfl; have := congrArg Cx.replacements h; exact this
  rw [f1, ignoreChars h, hp', Option.some.injEq] at hp
  rw [f2, ignoreChars h, hs', Option.some.injEq] at hs
  rw [f3, hb', Option.some.injEq] at hb
  subst hp hs hb
  have f9 : rep = false → r = r' := by
    intro hrep
    rw [f8 hrep, hr'] at hr
    exact (Option.some.inj hr).symm
  exact {
      U := rfl, entries := rfl, index := by funext k; cases k <;> rfl
      lowerAsTitle := rfl, lowerAsUpper := rfl, breakTable := rfl
      compoundRules := fun r => by rw [show cx.compoundRules = _ from f5], compoundSyllableVowels := .of_eq f7
      compoundPatterns := fun p => by rw [show cx.compoundPatterns = _ from f6]
      replacing := congrArg (List.filter _) f6
      inputConversions := fun w => congrArg (fun l => (S.table l).convert w) f4
      ignoreChars := fun ch => by rw [show cx.ignoreChars = _ from ignoreChars h]
      replacements := fun hcr => by
        cases hrep : rep with
        | false => exact .of_eq (f9 hrep)
        | true => exact absurd hcr (by show ¬ cx'.options.compoundCheckRep = true; rw [hc hrep]; decide)
      complexPrefixes := opt h (·.complexPrefixes) fun _ => rfl
      checksharps := opt h (·.checksharps) fun _ => rfl
      forbidWarn := opt h (·.forbidWarn) fun _ => rfl
      onlyInCompoundFlag := opt h (·.onlyInCompoundFlag) fun _ => rfl
      circumfixFlag := opt h (·.circumfixFlag) fun _ => rfl
      forbiddenWordFlag := opt h (·.forbiddenWordFlag) fun _ => rfl
      keepCaseFlag := opt h (·.keepCaseFlag) fun _ => rfl
      needAffixFlag := opt h (·.needAffixFlag) fun _ => rfl
      warnFlag := opt h (·.warnFlag) fun _ => rfl
      compoundFlag := opt h (·.compoundFlag) fun _ => rfl
      compoundBeginFlag := opt h (·.compoundBeginFlag) fun _ => rfl
      compoundMiddleFlag := opt h (·.compoundMiddleFlag) fun _ => rfl
      compoundEndFlag := opt h (·.compoundEndFlag) fun _ => rfl
      compoundMinLength := opt h (·.compoundMinLength) fun _ => rfl
      compoundMaxWordCount := opt h (·.compoundMaxWordCount) fun _ => rfl
      compoundPermitFlag := opt h (·.compoundPermitFlag) fun _ => rfl
      compoundForbidFlag := opt h (·.compoundForbidFlag) fun _ => rfl
      compoundRootFlag := opt h (·.compoundRootFlag) fun _ => rfl
      compoundForceUppercaseFlag := opt h (·.compoundForceUppercaseFlag) fun _ => rfl
      compoundCheckDuplicate := opt h (·.compoundCheckDuplicate) fun _ => rfl
      compoundCheckRep := opt h (·.compoundCheckRep) fun _ => rfl
      compoundCheckCase := opt h (·.compoundCheckCase) fun _ => rfl
      compoundCheckTriple := opt h (·.compoundCheckTriple) fun _ => rfl
      compoundSimplifiedTriple := opt h (·.compoundSimplifiedTriple) fun _ => rfl
      compoundSyllableNum := opt h (·.compoundSyllableNum) fun _ => rfl
      compoundSyllableMax := opt h (·.compoundSyllableMax) fun _ => rfl
      caseHandling := opt h (·.caseHandling) fun _ => rfl }

/-- The tables made from the settings, as far as `suggest` reads them. -/
theorem assembled_reads {S : Sorts} {w : Bag FlagSet} {A A' : AffData} (h1 : assemble S cx w = some ⟨w, A⟩)
    (h2 : assemble S cx' w = some ⟨w, A'⟩) (ha : all = false) (hrep : rep = false) (U : Unicode) (L : Layout)
    (H : Heaps) (ngram : Bool) : Suggester.SameReads { C := { U, L, dict := ⟨w, A⟩ }, H, ngram }
      { C := { U, L, dict := ⟨w, A'⟩ }, H, ngram } := by
  have rules := assembled_rules h h1 h2 (by simp [hrep]) U L
  unfold assemble at h1 h2
  simp only [Option.bind_eq_bind, Option.bind_eq_some_iff, Option.pure_def, Option.some.injEq, Dict.mk.injEq,
    true_and] at h1 h2
  obtain ⟨p, hp, s, hs, b, hb, r, hr, rfl⟩ := h1
  obtain ⟨p', hp', s', hs', b', hb', r', hr', rfl⟩ := h2
  have f1 : cx.prefixes = cx'.prefixes := by have := congrArg Cx.prefixes h; exact this
  have f2 : cx.suffixes = cx'.suffixes := by have := congrArg Cx.suffixes h; exact this
  have f3 : cx.breakPatterns = cx'.breakPatterns := by have := congrArg Cx.breakPatterns h; exact this
  have f4 : cx.inputConversions = cx'.inputConversions := by have := congrArg Cx.inputConversions h; exact this
  have f5 : cx.compoundRules = cx'.compoundRules := by have := congrArg Cx.compoundRules h; exact this
  have f6 : cx.compoundPatterns = cx'.compoundPatterns := by have := congrArg Cx.compoundPatterns h; exact this
  have f7 : cx.compoundSyllableVowels = cx'.compoundSyllableVowels := by
    have := congrArg Cx.compoundSyllableVowels h; exact this
  have f8 : rep = false → cx.replacements = cx'.replacements := by
    rintro rfl; have := congrArg Cx.replacements h; exact this
  rw [f1, ignoreChars h, hp', Option.some.injEq] at hp
  rw [f2, ignoreChars h, hs', Option.some.injEq] at hs
  rw [f3, hb', Option.some.injEq] at hb
  subst hp hs hb
  have f9 : rep = false → r = r' := by
    intro hrep
    rw [f8 hrep, hr'] at hr
    exact (Option.some.inj hr).symm
  subst ha hrep
  exact {
    toSameRules := rules
    iter := rfl, H := rfl, ngram := rfl, allReplacements := f9 rfl
    outputConversions := congrArg S.table (by have := congrArg Cx.outputConversions h; exact this)
    similarities := by have := congrArg Cx.similarities h; exact this
    keyboardCloseness := by have := congrArg Cx.keyboardCloseness h; exact this
    tryChars := by have := congrArg Cx.tryChars h; exact this
    noSuggestFlag := opt h (·.noSuggestFlag) fun _ => rfl
    maxNgramSuggestions := opt h (·.maxNgramSuggestions) fun _ => rfl
    maxDiffFactor := opt h (·.maxDiffFactor) fun _ => rfl
    onlyMaxDiff := opt h (·.onlyMaxDiff) fun _ => rfl
    noSplitSuggestions := opt h (·.noSplitSuggestions) fun _ => rfl }

end

/-- A dictionary can be loaded without a block of advice, and agrees with it on everything else. -/
theorem without {S : Sorts} {aff aff' dic : Str} {D : Dict} {before rows after args : List Str} {line : Str}
    {key : String} {cx₁ cx₂ : Cx} (h : parse U S aff dic = .ok D)
    (h1 : (contentLines U aff).map (·.2) = before ++ line :: (rows ++ after))
    (h2 : (contentLines U aff').map (·.2) = before ++ after) (hb : Reads U {} before cx₁)
    (hl : splitWhitespace U line = key.toList :: args) (he : Effect U key args cx₁ rows cx₂)
    (hk : allowed all rep key = true) :
    ∃ cx cx' A', blank all rep cx = blank all rep cx' ∧ parse U S aff' dic = .ok ⟨D.words, A'⟩ ∧
      assemble S cx D.words = some D ∧ assemble S cx' D.words = some ⟨D.words, A'⟩ := by
  obtain ⟨cx, hc, -, hd, -, hA⟩ := parse_ok_inv h
  rw [parseAff_iff, h1] at hc
  have r1 := hb.split hc
  have r2 := r1.block hl he
  obtain ⟨cx', r3, r4⟩ := reads r2 (own hk he)
  have hc' : parseAff U aff' = .ok cx' := by
    rw [parseAff_iff, h2]
    exact hb.append r3
  have hok := parseAff_ok U aff'
  rw [hc'] at hok
  obtain ⟨A', -, hA'⟩ := assemble_ok S hok
  rw [parseDic r4] at hd
  exact ⟨cx, cx', A', r4, parse_ok hc' hd (hA' _), hA _, hA' _⟩

end Hint
end Spellbook
