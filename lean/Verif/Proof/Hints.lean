import Verif.Proof.SuggestSame
import Verif.Spec.Hints
/-!
# Checkers which agree on what the code reads

`check` reads some settings of the affix file and `suggest` reads some more; each of these lemmas lists those which
one function reads.
-/

namespace Spellbook
open Spec

namespace Checker

theorem any_same {α : Type} {l l' : List α} (h : ∀ a, a ∈ l ↔ a ∈ l') (p : α → Bool) : l.any p = l'.any p := by
  rw [Bool.eq_iff_iff, List.any_eq_true, List.any_eq_true]
  exact exists_congr fun a => and_congr_left fun _ => h a

theorem contains_same {α : Type} [BEq α] [LawfulBEq α] {l l' : List α} (h : ∀ a, a ∈ l ↔ a ∈ l') (a : α) :
    l.contains a = l'.contains a := by
  rw [Bool.eq_iff_iff, List.contains_iff_mem, List.contains_iff_mem, h]

theorem isEmpty_same {α : Type} {l l' : List α} (h : ∀ a, a ∈ l ↔ a ∈ l') : l.isEmpty = l'.isEmpty := by
  rw [Bool.eq_iff_iff, List.isEmpty_iff, List.isEmpty_iff, List.eq_nil_iff_forall_not_mem,
    List.eq_nil_iff_forall_not_mem]
  exact forall_congr' fun a => not_congr (h a)

/-- A search passes the elements which give nothing. -/
theorem _root_.Spellbook.Run.first_filter {α β : Type} {f : α → Run (Option β)} {p : α → Bool}
    (h : ∀ a, p a = false → f a = .ok none) (l : List α) : Run.first f l = Run.first f (l.filter p) := by
  induction l with
  | nil => rfl
  | cons a as ih =>
    cases hp : p a with
    | true => rw [List.filter_cons_of_pos hp, Run.first, Run.first, ih]
    | false =>
      rw [List.filter_cons_of_neg (by simp [hp]), Run.first, h a hp, ← ih]
      rfl

/-- The same replacements, in each of the four parts of the table. -/
structure SameReplacements (R R' : ReplacementTable) : Prop where
  whole : ∀ r, r ∈ R.whole ↔ r ∈ R'.whole
  start : ∀ r, r ∈ R.start ↔ r ∈ R'.start
  stop : ∀ r, r ∈ R.stop ↔ r ∈ R'.stop
  anywhere : ∀ r, r ∈ R.anywhere ↔ r ∈ R'.anywhere
  only : R.hasOnlyWhole = R'.hasOnlyWhole

theorem SameReplacements.of_eq {R R' : ReplacementTable} (h : R = R') : SameReplacements R R' := by
  subst h
  exact ⟨fun _ => .rfl, fun _ => .rfl, fun _ => .rfl, fun _ => .rfl, rfl⟩

/-- Two checkers which agree on everything the check of a single word reads, up to the order of the rows where it does
not matter. The replacements matter if compounds are compared with them. -/
structure SameWords (C C' : Checker) : Prop where
  U : C.U = C'.U
  entries : C.entries = C'.entries
  index : C.index = C'.index
  lowerAsTitle : C.checkLowerAsTitle = C'.checkLowerAsTitle
  lowerAsUpper : C.checkLowerAsUpper = C'.checkLowerAsUpper
  compoundRules : ∀ r, r ∈ C.aff.compoundRules.rules ↔ r ∈ C'.aff.compoundRules.rules
  compoundSyllableVowels : C.aff.compoundSyllableVowels.Perm C'.aff.compoundSyllableVowels
  compoundPatterns : ∀ p, p ∈ C.aff.compoundPatterns ↔ p ∈ C'.aff.compoundPatterns
  replacing : C.aff.compoundPatterns.filter (·.replacement.isSome) =
    C'.aff.compoundPatterns.filter (·.replacement.isSome)
  inputConversions : ∀ w, C.aff.inputConversions.convert w = C'.aff.inputConversions.convert w
  ignoreChars : ∀ c, c ∈ C.aff.ignoreChars ↔ c ∈ C'.aff.ignoreChars
  replacements : C'.opts.compoundCheckRep = true → SameReplacements C.aff.replacements C'.aff.replacements
  complexPrefixes : C.opts.complexPrefixes = C'.opts.complexPrefixes
  checksharps : C.opts.checksharps = C'.opts.checksharps
  forbidWarn : C.opts.forbidWarn = C'.opts.forbidWarn
  onlyInCompoundFlag : C.opts.onlyInCompoundFlag = C'.opts.onlyInCompoundFlag
  circumfixFlag : C.opts.circumfixFlag = C'.opts.circumfixFlag
  forbiddenWordFlag : C.opts.forbiddenWordFlag = C'.opts.forbiddenWordFlag
  keepCaseFlag : C.opts.keepCaseFlag = C'.opts.keepCaseFlag
  needAffixFlag : C.opts.needAffixFlag = C'.opts.needAffixFlag
  warnFlag : C.opts.warnFlag = C'.opts.warnFlag
  compoundFlag : C.opts.compoundFlag = C'.opts.compoundFlag
  compoundBeginFlag : C.opts.compoundBeginFlag = C'.opts.compoundBeginFlag
  compoundMiddleFlag : C.opts.compoundMiddleFlag = C'.opts.compoundMiddleFlag
  compoundEndFlag : C.opts.compoundEndFlag = C'.opts.compoundEndFlag
  compoundMinLength : C.opts.compoundMinLength = C'.opts.compoundMinLength
  compoundMaxWordCount : C.opts.compoundMaxWordCount = C'.opts.compoundMaxWordCount
  compoundPermitFlag : C.opts.compoundPermitFlag = C'.opts.compoundPermitFlag
  compoundForbidFlag : C.opts.compoundForbidFlag = C'.opts.compoundForbidFlag
  compoundRootFlag : C.opts.compoundRootFlag = C'.opts.compoundRootFlag
  compoundForceUppercaseFlag : C.opts.compoundForceUppercaseFlag = C'.opts.compoundForceUppercaseFlag
  compoundCheckDuplicate : C.opts.compoundCheckDuplicate = C'.opts.compoundCheckDuplicate
  compoundCheckRep : C.opts.compoundCheckRep = C'.opts.compoundCheckRep
  compoundCheckCase : C.opts.compoundCheckCase = C'.opts.compoundCheckCase
  compoundCheckTriple : C.opts.compoundCheckTriple = C'.opts.compoundCheckTriple
  compoundSimplifiedTriple : C.opts.compoundSimplifiedTriple = C'.opts.compoundSimplifiedTriple
  compoundSyllableNum : C.opts.compoundSyllableNum = C'.opts.compoundSyllableNum
  compoundSyllableMax : C.opts.compoundSyllableMax = C'.opts.compoundSyllableMax
  caseHandling : C.opts.caseHandling = C'.opts.caseHandling

/-- Two checkers which agree on everything `check` reads. -/
structure SameRules (C C' : Checker) : Prop extends SameWords C C' where
  breakTable : C.aff.breakTable = C'.aff.breakTable

namespace SameWords
variable {C C' : Checker} (h : SameWords C C')
include h

theorem pfx : C.aff.prefixes = C'.aff.prefixes := congrFun h.index .pfx

theorem sfx : C.aff.suffixes = C'.aff.suffixes := congrFun h.index .sfx

theorem affixesOf : C.affixesOf = C'.affixesOf := by
  funext
  simp only [Checker.affixesOf, h.index]

theorem valid (k : Kind) (m : Mode) (a : Affix) : isValid k m a C.opts = isValid k m a C'.opts := by
  simp only [isValid, h.onlyInCompoundFlag, h.compoundPermitFlag, h.compoundForbidFlag]

theorem minChars : C.opts.minChars = C'.opts.minChars := by
  simp only [AffOptions.minChars, h.compoundMinLength]

theorem allowsCompounding : C.opts.allowsCompounding = C'.opts.allowsCompounding := by
  simp only [AffOptions.allowsCompounding, h.compoundFlag, h.compoundBeginFlag, h.compoundMiddleFlag,
    h.compoundEndFlag]

theorem isOuterAffixValid : C.isOuterAffixValid = C'.isOuterAffixValid := by
  funext
  simp only [Checker.isOuterAffixValid, h.needAffixFlag, h.valid]

theorem isCircumfix : C.isCircumfix = C'.isCircumfix := by
  funext
  simp only [Checker.isCircumfix, h.circumfixFlag]

theorem isValidInsideCompound : C.isValidInsideCompound = C'.isValidInsideCompound := by
  funext
  simp only [Checker.isValidInsideCompound, h.compoundFlag, h.compoundBeginFlag,
    h.compoundMiddleFlag, h.compoundEndFlag]

theorem onlyEntry : C.onlyEntry = C'.onlyEntry := by
  funext
  simp only [Checker.onlyEntry, h.isValidInsideCompound, h.onlyInCompoundFlag]

theorem onlyAffix : C.onlyAffix = C'.onlyAffix := by
  funext
  simp only [Checker.onlyAffix, h.isOuterAffixValid, h.isCircumfix, h.entries, h.onlyEntry,
    h.onlyInCompoundFlag]

theorem stripOnly : C.stripOnly = C'.stripOnly := by
  funext
  simp only [Checker.stripOnly, h.affixesOf, h.onlyAffix]

theorem commEntry : C.commEntry = C'.commEntry := by
  funext
  simp only [Checker.commEntry, h.isValidInsideCompound, h.needAffixFlag, h.onlyInCompoundFlag]

theorem commSuffix : C.commSuffix = C'.commSuffix := by
  funext
  simp only [Checker.commSuffix, h.isCircumfix, h.entries, h.commEntry, h.needAffixFlag, h.valid]

theorem commPrefix : C.commPrefix = C'.commPrefix := by
  funext
  simp only [Checker.commPrefix, h.affixesOf, h.commSuffix, h.valid]

theorem stripComm : C.stripComm = C'.stripComm := by
  funext
  simp only [Checker.stripComm, h.affixesOf, h.commPrefix]

theorem fullEntryOk : C.fullEntryOk = C'.fullEntryOk := by
  funext
  simp only [Checker.fullEntryOk, h.onlyInCompoundFlag]

theorem twoEntry : C.twoEntry = C'.twoEntry := by
  funext
  simp only [Checker.twoEntry, h.fullEntryOk]

theorem twoInner : C.twoInner = C'.twoInner := by
  funext
  simp only [Checker.twoInner, h.isCircumfix, h.entries, h.twoEntry, h.valid]

theorem twoOuter : C.twoOuter = C'.twoOuter := by
  funext
  simp only [Checker.twoOuter, h.index, h.isOuterAffixValid, h.isCircumfix, h.affixesOf, h.twoInner]

theorem stripTwo : C.stripTwo = C'.stripTwo := by
  funext
  simp only [Checker.stripTwo, h.index, h.affixesOf, h.twoOuter]

theorem oneTwoEntry : C.oneTwoEntry = C'.oneTwoEntry := by
  funext
  simp only [Checker.oneTwoEntry, h.fullEntryOk]

theorem oneTwoInner : C.oneTwoInner = C'.oneTwoInner := by
  funext
  simp only [Checker.oneTwoInner, h.isCircumfix, h.entries, h.oneTwoEntry, h.valid]

theorem oneTwoOuter : C.oneTwoOuter = C'.oneTwoOuter := by
  funext
  simp only [Checker.oneTwoOuter, h.pfx, h.sfx, h.isCircumfix, h.affixesOf, h.oneTwoInner, h.valid]

theorem oneTwoFirst : C.oneTwoFirst = C'.oneTwoFirst := by
  funext
  simp only [Checker.oneTwoFirst, h.isOuterAffixValid, h.affixesOf, h.oneTwoOuter]

theorem stripOneTwo : C.stripOneTwo = C'.stripOneTwo := by
  funext
  simp only [Checker.stripOneTwo, h.pfx, h.sfx, h.affixesOf, h.oneTwoFirst]

theorem sandwichEntry : C.sandwichEntry = C'.sandwichEntry := by
  funext
  simp only [Checker.sandwichEntry, h.fullEntryOk]

theorem sandwichInner : C.sandwichInner = C'.sandwichInner := by
  funext
  simp only [Checker.sandwichInner, h.isCircumfix, h.entries, h.sandwichEntry, h.valid]

theorem sandwichMid : C.sandwichMid = C'.sandwichMid := by
  funext
  simp only [Checker.sandwichMid, h.affixesOf, h.sandwichInner, h.valid]

theorem sandwichOuter : C.sandwichOuter = C'.sandwichOuter := by
  funext
  simp only [Checker.sandwichOuter, h.pfx, h.sfx, h.isOuterAffixValid, h.affixesOf, h.sandwichMid]

theorem stripSandwich : C.stripSandwich = C'.stripSandwich := by
  funext
  simp only [Checker.stripSandwich, h.pfx, h.sfx, h.affixesOf, h.sandwichOuter]

theorem directEntry : C.directEntry = C'.directEntry := by
  funext
  simp only [Checker.directEntry, h.needAffixFlag, h.onlyInCompoundFlag]

theorem checkSimpleWord : C.checkSimpleWord = C'.checkSimpleWord := by
  funext
  simp only [Checker.checkSimpleWord, h.entries, h.directEntry, h.stripOnly, h.stripComm,
    h.stripTwo, h.stripOneTwo, h.stripSandwich, h.complexPrefixes]

theorem vowels : C.aff.compoundSyllableVowels.isEmpty = C'.aff.compoundSyllableVowels.isEmpty :=
  isEmpty_same fun _ => h.compoundSyllableVowels.mem_iff

theorem countSyllables : C.countSyllables = C'.countSyllables := by
  funext
  simp only [Checker.countSyllables, h.compoundSyllableVowels.count_eq]

theorem numWordsModifier : C.numWordsModifier = C'.numWordsModifier := by
  funext
  simp only [Checker.numWordsModifier, h.countSyllables, h.vowels]

theorem syllableModifier : C.syllableModifier = C'.syllableModifier := by
  funext
  simp only [Checker.syllableModifier, h.vowels]

theorem syllableModifierWithSuffix : C.syllableModifierWithSuffix = C'.syllableModifierWithSuffix := by
  funext
  simp only [Checker.syllableModifierWithSuffix, h.countSyllables, h.compoundSyllableNum,
    h.vowels]

theorem positionFlag : C.positionFlag = C'.positionFlag := by
  funext
  simp only [Checker.positionFlag, h.compoundBeginFlag, h.compoundMiddleFlag, h.compoundEndFlag]

theorem compoundEntry : C.compoundEntry = C'.compoundEntry := by
  funext
  simp only [Checker.compoundEntry, h.positionFlag, h.syllableModifier, h.needAffixFlag,
    h.compoundFlag]

theorem suffixResult : C.suffixResult = C'.suffixResult := by
  funext
  simp only [Checker.suffixResult, h.syllableModifierWithSuffix]

theorem prefixResult : C.prefixResult = C'.prefixResult := by
  funext
  simp only [Checker.prefixResult, h.numWordsModifier]

theorem commResult : C.commResult = C'.commResult := by
  funext
  simp only [Checker.commResult, h.numWordsModifier, h.syllableModifierWithSuffix]

theorem checkWordInCompound : C.checkWordInCompound = C'.checkWordInCompound := by
  funext
  simp only [Checker.checkWordInCompound, h.entries, h.compoundEntry, h.stripOnly, h.suffixResult,
    h.prefixResult, h.stripComm, h.commResult]

theorem forbiddenByPatterns : C.forbiddenByPatterns = C'.forbiddenByPatterns := by
  funext
  simp only [Checker.forbiddenByPatterns, any_same h.compoundPatterns]

theorem isSimpleWord : C.isSimpleWord = C'.isSimpleWord := by
  funext
  simp only [Checker.isSimpleWord, h.checkSimpleWord]

theorem isRepSimilar (hr : C'.opts.compoundCheckRep = true) : C.isRepSimilar = C'.isRepSimilar := by
  funext
  simp only [Checker.isRepSimilar, any_same (h.replacements hr).whole, any_same (h.replacements hr).start,
    any_same (h.replacements hr).stop, any_same (h.replacements hr).anywhere, (h.replacements hr).only, h.isSimpleWord]

theorem wordCount : C.wordCount = C'.wordCount := by
  funext
  simp only [Checker.wordCount, h.compoundRootFlag]

theorem classicSecond : C.classicSecond = C'.classicSecond := by
  funext
  cases hr : C'.opts.compoundCheckRep with
  | true =>
    simp only [Checker.classicSecond, h.checkWordInCompound, h.forbiddenByPatterns, h.wordCount,
    h.countSyllables, h.forbiddenWordFlag, h.compoundCheckDuplicate, h.compoundCheckRep,
    h.compoundForceUppercaseFlag, h.compoundMaxWordCount, h.compoundSyllableMax,
    h.vowels, hr, h.isRepSimilar hr]
  | false =>
    simp only [Checker.classicSecond, h.checkWordInCompound, h.forbiddenByPatterns, h.wordCount,
    h.countSyllables, h.forbiddenWordFlag, h.compoundCheckDuplicate, h.compoundCheckRep,
    h.compoundForceUppercaseFlag, h.compoundMaxWordCount, h.compoundSyllableMax,
    h.vowels, hr, Bool.false_and]

theorem repAfterRecursion : C.repAfterRecursion = C'.repAfterRecursion := by
  funext
  cases hr : C'.opts.compoundCheckRep with
  | true =>
    simp only [Checker.repAfterRecursion, h.compoundCheckRep, hr, h.isRepSimilar hr]
  | false =>
    simp only [Checker.repAfterRecursion, h.compoundCheckRep, hr, Bool.false_and]

theorem tripleRecursive : C.tripleRecursive = C'.tripleRecursive := by
  funext
  simp only [Checker.tripleRecursive, h.forbiddenByPatterns, h.repAfterRecursion]

theorem tripleSecond : C.tripleSecond = C'.tripleSecond := by
  funext
  cases hr : C'.opts.compoundCheckRep with
  | true =>
    simp only [Checker.tripleSecond, h.checkWordInCompound, h.forbiddenByPatterns,
    h.forbiddenWordFlag, h.compoundCheckDuplicate, h.compoundCheckRep,
    h.compoundForceUppercaseFlag, h.compoundMaxWordCount, hr, h.isRepSimilar hr]
  | false =>
    simp only [Checker.tripleSecond, h.checkWordInCompound, h.forbiddenByPatterns,
    h.forbiddenWordFlag, h.compoundCheckDuplicate, h.compoundCheckRep,
    h.compoundForceUppercaseFlag, h.compoundMaxWordCount, hr, Bool.false_and]

theorem simplifiedTriple : C.simplifiedTriple = C'.simplifiedTriple := by
  funext
  simp only [Checker.simplifiedTriple, h.tripleSecond, h.tripleRecursive,
    h.compoundSimplifiedTriple]

theorem tryRecursive : C.tryRecursive = C'.tryRecursive := by
  funext
  simp only [Checker.tryRecursive, h.simplifiedTriple, h.forbiddenByPatterns, h.repAfterRecursion]

theorem classicFirst : C.classicFirst = C'.classicFirst := by
  funext
  simp only [Checker.classicFirst, h.checkWordInCompound, h.U, h.forbiddenWordFlag,
    h.compoundCheckTriple, h.compoundCheckCase]

theorem classic : C.classic = C'.classic := by
  funext
  simp only [Checker.classic, h.classicFirst, h.wordCount, h.classicSecond, h.tryRecursive]

theorem patternFirst : C.patternFirst = C'.patternFirst := by
  funext
  simp only [Checker.patternFirst, h.checkWordInCompound, h.forbiddenWordFlag,
    h.compoundCheckTriple]

theorem patternSecond : C.patternSecond = C'.patternSecond := by
  funext
  cases hr : C'.opts.compoundCheckRep with
  | true =>
    simp only [Checker.patternSecond, h.checkWordInCompound, h.forbiddenWordFlag,
    h.compoundCheckDuplicate, h.compoundCheckRep, h.compoundForceUppercaseFlag,
    h.compoundMaxWordCount, hr, h.isRepSimilar hr]
  | false =>
    simp only [Checker.patternSecond, h.checkWordInCompound, h.forbiddenWordFlag,
    h.compoundCheckDuplicate, h.compoundCheckRep, h.compoundForceUppercaseFlag,
    h.compoundMaxWordCount, hr, Bool.false_and]

theorem patternRecursionOk : C.patternRecursionOk = C'.patternRecursionOk := by
  funext
  cases hr : C'.opts.compoundCheckRep with
  | true =>
    simp only [Checker.patternRecursionOk, h.compoundCheckRep, hr, h.isRepSimilar hr]
  | false =>
    simp only [Checker.patternRecursionOk, h.compoundCheckRep, hr, Bool.false_and]

theorem patternTripleRecursionOk : C.patternTripleRecursionOk = C'.patternTripleRecursionOk := by
  funext
  cases hr : C'.opts.compoundCheckRep with
  | true =>
    simp only [Checker.patternTripleRecursionOk, h.compoundCheckRep, hr, h.isRepSimilar hr]
  | false =>
    simp only [Checker.patternTripleRecursionOk, h.compoundCheckRep, hr, Bool.false_and]

theorem patternTriple : C.patternTriple = C'.patternTriple := by
  funext
  simp only [Checker.patternTriple, h.patternSecond, h.patternTripleRecursionOk,
    h.compoundSimplifiedTriple]

theorem patternBody : C.patternBody = C'.patternBody := by
  funext
  simp only [Checker.patternBody, h.patternFirst, h.patternSecond, h.patternTriple,
    h.patternRecursionOk]

theorem withPatternReplacements : C.withPatternReplacements = C'.withPatternReplacements := by
  funext
  have key : ∀ (C : Checker) (s : Search) m w a i n fc p, CompoundPattern.replacement p = none →
      C.patternBody s m w a i n fc p = .ok none := by
    intro C s m w a i n fc p hp
    unfold Checker.patternBody
    rw [hp]
  simp only [Checker.withPatternReplacements, h.patternBody]
  rw [Run.first_filter (p := fun p => p.replacement.isSome) (fun p hp => key _ _ _ _ _ _ _ _ p (by simpa using hp)),
    h.replacing,
    ← Run.first_filter (p := fun p => p.replacement.isSome) (fun p hp => key _ _ _ _ _ _ _ _ p (by simpa using hp))]

theorem compoundAt : C.compoundAt = C'.compoundAt := by
  funext
  simp only [Checker.compoundAt, h.classic, h.withPatternReplacements]

theorem checkCompoundImpl : C.checkCompoundImpl = C'.checkCompoundImpl := by
  funext fc fuel
  induction fuel with
  | zero => rfl
  | succ n ih =>
    funext m word start k
    simp only [Checker.checkCompoundImpl, ih, h.compoundAt, h.minChars]

theorem ruleFlags (s : FlagSet) : C.aff.compoundRules.hasAnyFlags s = C'.aff.compoundRules.hasAnyFlags s := by
  rw [Bool.eq_iff_iff, CompoundRuleTable.hasAnyFlags, CompoundRuleTable.hasAnyFlags, FlagSet.hasIntersection_iff,
    FlagSet.hasIntersection_iff]
  refine exists_congr fun f => and_congr_left fun _ => ?_
  rw [CompoundRuleTable.allFlags, CompoundRuleTable.allFlags, FlagSet.mem_ofList, FlagSet.mem_ofList, List.mem_flatMap,
    List.mem_flatMap]
  exact exists_congr fun r => and_congr_left fun _ => h.compoundRules r

theorem ruleMatches (l : List FlagSet) :
    C.aff.compoundRules.anyRuleMatches l = C'.aff.compoundRules.anyRuleMatches l := any_same h.compoundRules _

theorem noRules : C.aff.compoundRules.isEmpty = C'.aff.compoundRules.isEmpty := isEmpty_same h.compoundRules

theorem rulePart : C.rulePart = C'.rulePart := by
  funext
  simp only [Checker.rulePart, h.needAffixFlag, h.ruleFlags]

theorem ruleDirect : C.ruleDirect = C'.ruleDirect := by
  funext
  simp only [Checker.ruleDirect, h.entries, h.rulePart, h.compoundForceUppercaseFlag,
    h.ruleMatches]

theorem ruleAt : C.ruleAt = C'.ruleAt := by
  funext
  simp only [Checker.ruleAt, h.entries, h.rulePart, h.ruleDirect]

theorem checkRulesImpl : C.checkRulesImpl = C'.checkRulesImpl := by
  funext fc fuel
  induction fuel with
  | zero => rfl
  | succ n ih =>
    funext word data start
    simp only [Checker.checkRulesImpl, ih, h.ruleAt, h.minChars]

theorem checkRules : C.checkRules = C'.checkRules := by
  funext
  simp only [Checker.checkRules, h.checkRulesImpl]

theorem checkCompound : C.checkCompound = C'.checkCompound := by
  funext
  simp only [Checker.checkCompound, h.checkCompoundImpl, h.checkRules, h.allowsCompounding,
    h.noRules]

theorem checkWord : C.checkWord = C'.checkWord := by
  funext
  simp only [Checker.checkWord, h.checkSimpleWord, h.checkCompound]

theorem titlecase : C.titlecase = C'.titlecase := by
  funext
  simp only [Checker.titlecase, h.U, h.caseHandling]

theorem lowercase : C.lowercase = C'.lowercase := by
  funext
  simp only [Checker.lowercase, h.U, h.caseHandling]

theorem dropKeepCase : C.dropKeepCase = C'.dropKeepCase := by
  funext
  simp only [Checker.dropKeepCase, h.keepCaseFlag]

theorem doSpellSharps : C.doSpellSharps = C'.doSpellSharps := by
  have key : ∀ fuel n before rest depth r, 5 - depth = n →
      C.doSpellSharps fuel before rest depth r = C'.doSpellSharps fuel before rest depth r := by
    intro fuel n
    induction n using Nat.strongRecOn with
    | _ n ih =>
      intro before rest depth r hd
      rw [Checker.doSpellSharps, Checker.doSpellSharps, h.checkWord]
      split
      · split
        · rw [ih (5 - (depth + 1)) (by omega) _ _ _ _ rfl, ih (5 - (depth + 1)) (by omega) _ _ _ _
          rfl]
        · rfl
      · rfl
  funext fuel before rest depth r
  exact key fuel _ before rest depth r rfl

theorem spellSharps : C.spellSharps = C'.spellSharps := by
  funext
  simp only [Checker.spellSharps, h.doSpellSharps]

theorem spellApostrophe : C.spellApostrophe = C'.spellApostrophe := by
  funext
  simp only [Checker.spellApostrophe, h.titlecase, h.checkWord, h.lowercase]

theorem spellUpperSharps : C.spellUpperSharps = C'.spellUpperSharps := by
  funext
  simp only [Checker.spellUpperSharps, h.spellSharps, h.lowercase, h.titlecase, h.checksharps]

theorem spellCasingUpper : C.spellCasingUpper = C'.spellCasingUpper := by
  funext
  simp only [Checker.spellCasingUpper, h.checkWord, h.spellApostrophe, h.spellUpperSharps,
    h.titlecase, h.dropKeepCase, h.lowercase]

theorem titleKeepCase : C.titleKeepCase = C'.titleKeepCase := by
  funext
  simp only [Checker.titleKeepCase, h.keepCaseFlag, h.checksharps]

theorem spellCasingTitle : C.spellCasingTitle = C'.spellCasingTitle := by
  funext
  simp only [Checker.spellCasingTitle, h.checkWord, h.lowercase, h.titleKeepCase]

theorem erase (w : Str) : eraseChars w C.aff.ignoreChars = eraseChars w C'.aff.ignoreChars := by
  simp only [eraseChars, isEmpty_same h.ignoreChars, contains_same h.ignoreChars]

theorem goodFlags : C.goodFlags = C'.goodFlags := by
  funext
  simp only [Checker.goodFlags, h.forbiddenWordFlag, h.forbidWarn, h.warnFlag]

theorem spellCasingAsIs : C.spellCasingAsIs = C'.spellCasingAsIs := by
  funext
  simp only [Checker.spellCasingAsIs, h.checkWord, h.lowerAsTitle, h.titlecase, h.spellCasingTitle,
    h.lowerAsUpper, h.spellCasingUpper, h.U, h.caseHandling]

theorem spellCasing : C.spellCasing = C'.spellCasing := by
  funext
  simp only [Checker.spellCasing, h.U, h.spellCasingAsIs, h.spellCasingUpper, h.spellCasingTitle]

end SameWords

namespace SameRules
variable {C C' : Checker} (h : SameRules C C')
include h

theorem breakLoops : C.breakLoops = C'.breakLoops := by
  funext
  simp only [Checker.breakLoops, h.breakTable]

theorem doSpellBreak : C.doSpellBreak = C'.doSpellBreak := by
  funext fuel d
  induction d with
  | zero =>
    funext word
    simp only [Checker.doSpellBreak, h.spellCasing, h.goodFlags, h.breakLoops]
  | succ n ih =>
    funext word
    simp only [Checker.doSpellBreak, ih, h.spellCasing, h.goodFlags, h.breakLoops]

theorem spellBreak : C.spellBreak = C'.spellBreak := by
  funext
  simp only [Checker.spellBreak, h.doSpellBreak]

theorem checkConverted : C.checkConverted = C'.checkConverted := by
  funext
  simp only [Checker.checkConverted, h.spellBreak, h.erase]

theorem check : C.check = C'.check := by
  funext
  simp only [Checker.check, h.checkConverted, h.inputConversions]

end SameRules
end Checker

namespace Suggester

/-- Two suggesters which agree on everything `suggest` reads. -/
structure SameReads (S S' : Suggester) : Prop extends Checker.SameRules S.C S'.C where
  iter : S.C.dict.words.iter S.C.L = S'.C.dict.words.iter S'.C.L
  H : S.H = S'.H
  ngram : S.ngram = S'.ngram
  allReplacements : S.C.aff.replacements = S'.C.aff.replacements
  outputConversions : S.C.aff.outputConversions = S'.C.aff.outputConversions
  similarities : S.C.aff.similarities = S'.C.aff.similarities
  keyboardCloseness : S.C.aff.keyboardCloseness = S'.C.aff.keyboardCloseness
  tryChars : S.C.aff.tryChars = S'.C.aff.tryChars
  noSuggestFlag : S.C.opts.noSuggestFlag = S'.C.opts.noSuggestFlag
  maxNgramSuggestions : S.C.opts.maxNgramSuggestions = S'.C.opts.maxNgramSuggestions
  maxDiffFactor : S.C.opts.maxDiffFactor = S'.C.opts.maxDiffFactor
  onlyMaxDiff : S.C.opts.onlyMaxDiff = S'.C.opts.onlyMaxDiff
  noSplitSuggestions : S.C.opts.noSplitSuggestions = S'.C.opts.noSplitSuggestions

namespace SameReads
variable {S S' : Suggester} (h : S.SameReads S')
include h

theorem attempts : S.maxAttempts = S'.maxAttempts := by
  funext
  simp only [Suggester.maxAttempts, h.pfx, h.sfx, h.complexPrefixes, h.allowsCompounding]

theorem addIfCorrect : S.addIfCorrect = S'.addIfCorrect := by
  funext
  simp only [Suggester.addIfCorrect, h.checkWord, h.forbiddenWordFlag, h.forbidWarn, h.warnFlag]

theorem addAll : S.addAll = S'.addAll := by
  funext
  simp only [Suggester.addAll, h.addIfCorrect]

theorem uppercaseSuggest : S.uppercaseSuggest = S'.uppercaseSuggest := by
  funext
  simp only [Suggester.uppercaseSuggest, h.U, h.addIfCorrect, h.caseHandling]

theorem allParts : S.allParts = S'.allParts := by
  funext fuel l
  induction l with
  | nil => rfl
  | cons a l ih => simp only [Suggester.allParts, h.checkWord, ih]

theorem tryRep : S.tryRep = S'.tryRep := by
  funext
  simp only [Suggester.tryRep, h.addIfCorrect, h.allParts]

theorem repSuggest : S.repSuggest = S'.repSuggest := by
  funext
  simp only [Suggester.repSuggest, h.tryRep, h.allReplacements]

theorem mapSuggest : S.mapSuggest = S'.mapSuggest := by
  funext
  simp only [Suggester.mapSuggest, h.attempts, h.addAll, h.similarities]

theorem free : S.free = S'.free := by
  funext
  simp only [Suggester.free, h.addAll]

theorem limited : S.limited = S'.limited := by
  funext
  simp only [Suggester.limited, h.attempts, h.addAll]

theorem twoWordsAt : S.twoWordsAt = S'.twoWordsAt := by
  funext
  simp only [Suggester.twoWordsAt, h.checkSimpleWord, h.tryChars]

theorem twoWordsSuggest : S.twoWordsSuggest = S'.twoWordsSuggest := by
  funext
  simp only [Suggester.twoWordsSuggest, h.twoWordsAt, h.noSplitSuggestions]

theorem highQuality : S.highQuality = S'.highQuality := by
  funext
  simp only [Suggester.highQuality, h.checkWord, h.similarities]

theorem suggestEdits : S.suggestEdits = S'.suggestEdits := by
  funext
  simp only [Suggester.suggestEdits, h.U, h.free, h.limited, h.twoWordsSuggest,
    h.keyboardCloseness, h.tryChars]

theorem suggestLow : S.suggestLow = S'.suggestLow := by
  funext
  simp only [Suggester.suggestLow, h.uppercaseSuggest, h.repSuggest, h.mapSuggest,
    h.highQuality, h.suggestEdits]

theorem lowThenFront : S.lowThenFront = S'.lowThenFront := by
  funext
  simp only [Suggester.lowThenFront, h.check, h.suggestLow]

theorem dotSpace : S.dotSpace = S'.dotSpace := by
  funext
  simp only [Suggester.dotSpace, h.U]

theorem upperAt : S.upperAt = S'.upperAt := by
  funext
  simp only [Suggester.upperAt, h.U, h.caseHandling]

theorem titleSecond : S.titleSecond = S'.titleSecond := by
  funext w done l
  induction l generalizing done with
  | nil => rfl
  | cons a l ih => simp only [Suggester.titleSecond, h.upperAt, ih]

theorem pascalLower : S.pascalLower = S'.pascalLower := by
  funext
  simp only [Suggester.pascalLower, h.U, h.lowThenFront, h.caseHandling]

theorem pascalTitle : S.pascalTitle = S'.pascalTitle := by
  funext
  simp only [Suggester.pascalTitle, h.titlecase, h.lowThenFront]

theorem mixedCase : S.mixedCase = S'.mixedCase := by
  funext
  simp only [Suggester.mixedCase, h.lowercase, h.suggestLow, h.lowThenFront, h.dotSpace,
    h.titleSecond, h.pascalLower, h.pascalTitle]

theorem keepLower : S.keepLower = S'.keepLower := by
  funext
  simp only [Suggester.keepLower, h.check, h.keepCaseFlag]

theorem allCaps : S.allCaps = S'.allCaps := by
  funext
  simp only [Suggester.allCaps, h.lowercase, h.titlecase, h.U, h.suggestLow, h.keepLower,
    h.caseHandling]

theorem initCase : S.initCase = S'.initCase := by
  funext
  simp only [Suggester.initCase, h.lowercase, h.suggestLow]

theorem dashCandidate : S.dashCandidate = S'.dashCandidate := by
  funext
  simp only [Suggester.dashCandidate, h.checkWord, h.forbiddenWordFlag]

theorem dashPart : S.dashPart = S'.dashPart := by
  funext
  simp only [Suggester.dashPart, h.check, h.dashCandidate]

theorem dashes : S.dashes = S'.dashes := by
  funext
  simp only [Suggester.dashes, h.dashPart]

theorem recheck : S.recheck = S'.recheck := by
  funext
  simp only [Suggester.recheck, h.check, h.lowercase, h.titlecase]

theorem recheckAll : S.recheckAll = S'.recheckAll := by
  funext fuel l
  induction l with
  | nil => rfl
  | cons a l ih => simp only [Suggester.recheckAll, h.recheck, ih]

theorem capitalise : S.capitalise = S'.capitalise := by
  funext
  simp only [Suggester.capitalise, h.upperAt]

theorem retained : S.retained = S'.retained := by
  funext
  simp only [Suggester.retained, h.recheckAll]

theorem finish : S.finish = S'.finish := by
  funext
  simp only [Suggester.finish, h.capitalise, h.retained, h.outputConversions]

theorem forceTitle : S.forceTitle = S'.forceTitle := by
  funext
  simp only [Suggester.forceTitle, h.checkCompound, h.compoundForceUppercaseFlag]

theorem skipsForNgram : S.C.skipsForNgram = S'.C.skipsForNgram := by
  funext
  simp only [Checker.skipsForNgram, h.forbiddenWordFlag, h.noSuggestFlag, h.onlyInCompoundFlag]

theorem rootScore : S.C.rootScore = S'.C.rootScore := by
  funext
  simp only [Checker.rootScore, h.U, h.lowercase, h.caseHandling]

theorem offerRoot : S.C.offerRoot = S'.C.offerRoot := by
  funext
  simp only [Checker.offerRoot, h.skipsForNgram, h.rootScore]

theorem ngramRoots : S.C.ngramRoots = S'.C.ngramRoots := by
  funext
  simp only [Checker.ngramRoots, h.offerRoot, h.iter]

theorem affixFits : S.C.affixFits = S'.C.affixFits := by
  funext
  simp only [Checker.affixFits, h.isOuterAffixValid, h.isCircumfix]

theorem affixesFor : S.C.affixesFor = S'.C.affixesFor := by
  funext
  simp only [Checker.affixesFor, h.index, h.affixFits]

theorem suffixForms : S.C.suffixForms = S'.C.suffixForms := by
  funext
  simp only [Checker.suffixForms, h.affixesFor]

theorem crossForms : S.C.crossForms = S'.C.crossForms := by
  funext
  simp only [Checker.crossForms, h.affixesFor]

theorem prefixForms : S.C.prefixForms = S'.C.prefixForms := by
  funext
  simp only [Checker.prefixForms, h.affixesFor]

theorem expandStem : S.C.expandStem = S'.C.expandStem := by
  funext
  simp only [Checker.expandStem, h.suffixForms, h.crossForms, h.prefixForms, h.needAffixFlag]

theorem guessScore : S.C.guessScore = S'.C.guessScore := by
  funext
  simp only [Checker.guessScore, h.U, h.lowercase, h.caseHandling]

theorem offerGuess : S.C.offerGuess = S'.C.offerGuess := by
  funext
  simp only [Checker.offerGuess, h.guessScore]

theorem ngramGuesses : S.C.ngramGuesses = S'.C.ngramGuesses := by
  funext
  simp only [Checker.ngramGuesses, h.expandStem, h.offerGuess]

theorem newScore : S.C.newScore = S'.C.newScore := by
  funext
  simp only [Checker.newScore, h.U, h.caseHandling, h.maxDiffFactor]

theorem rescore : S.C.rescore = S'.C.rescore := by
  funext word l
  induction l with
  | nil => rfl
  | cons g l ih => simp only [Checker.rescore, h.lowercase, h.newScore, ih]

theorem selectGuesses : S.C.selectGuesses = S'.C.selectGuesses := by
  funext a b c l
  induction l with
  | nil => rfl
  | cons g l ih =>
    funext out
    simp only [Checker.selectGuesses, h.onlyMaxDiff, ih]

theorem ngramSuggest : S.C.ngramSuggest = S'.C.ngramSuggest := by
  funext
  simp only [Checker.ngramSuggest, h.ngramRoots, h.ngramGuesses, h.rescore, h.selectGuesses,
    h.maxNgramSuggestions]

theorem ngramPart : S.ngramPart = S'.ngramPart := by
  funext
  simp only [Suggester.ngramPart, h.ngram, h.H, h.maxNgramSuggestions, h.lowercase, h.ngramSuggest, h.caseHandling, h.U]

theorem afterCasing : S.afterCasing = S'.afterCasing := by
  funext
  simp only [Suggester.afterCasing, h.ngramPart, h.dashes, h.finish]

theorem suggestConverted : S.suggestConverted = S'.suggestConverted := by
  funext
  simp only [Suggester.suggestConverted, h.afterCasing, h.U, h.forceTitle, h.titlecase, h.suggestLow, h.initCase,
    h.mixedCase, h.allCaps]

theorem suggest : S.suggest = S'.suggest := by
  have : S.suggestImpl = S'.suggestImpl := by
    funext fuel depth
    induction depth with
    | zero => rfl
    | succ d ih =>
      funext w out
      simp only [Suggester.suggestImpl, ih, h.suggestConverted, h.inputConversions]
  funext
  simp only [Suggester.suggest, this]

end SameReads
end Suggester
end Spellbook
