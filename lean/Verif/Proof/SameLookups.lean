import Verif.Model.Check
/-!
# Checkers with the same lookups

`check` depends on the word list through the lookups only: two checkers which find the same entries
in the same order behave alike, whatever the layout of their hash tables.
-/

namespace Spellbook
namespace Checker

/-- Two checkers that differ at most in their settings, the order of their word lists, and the layout of the
tables. -/
structure SameTables (C C' : Checker) : Prop where
  U : C.U = C'.U
  aff : C.dict.aff = C'.dict.aff
  entries : C.entries = C'.entries

/-- Two checkers which agree on everything in the affix file except the affixes themselves. -/
structure SameSettings (C C' : Checker) : Prop where
  U : C.U = C'.U
  opts : C.opts = C'.opts
  breakTable : C.aff.breakTable = C'.aff.breakTable
  compoundRules : C.aff.compoundRules = C'.aff.compoundRules
  compoundSyllableVowels : C.aff.compoundSyllableVowels = C'.aff.compoundSyllableVowels
  compoundPatterns : C.aff.compoundPatterns = C'.aff.compoundPatterns
  inputConversions : C.aff.inputConversions = C'.aff.inputConversions
  outputConversions : C.aff.outputConversions = C'.aff.outputConversions
  replacements : C.aff.replacements = C'.aff.replacements
  similarities : C.aff.similarities = C'.aff.similarities
  ignoreChars : C.aff.ignoreChars = C'.aff.ignoreChars
  keyboardCloseness : C.aff.keyboardCloseness = C'.aff.keyboardCloseness
  tryChars : C.aff.tryChars = C'.aff.tryChars
  found : ∀ {β : Type} (w : Str) (f : Str × FlagSet → Option β),
    (C.entries w).findSome? f = (C'.entries w).findSome? f

/-- Two checkers which agree on that, and in which every search among the entries of a stem, and among the affixes of
a word, ends alike. -/
structure SameTries (C C' : Checker) : Prop extends SameSettings C C' where
  tried : ∀ {β : Type} (k : Kind) (w : Str) (f : Affix → Option β),
    (C.affixesOf k w).findSome? f = (C'.affixesOf k w).findSome? f
  allFlags : ∀ k, (C.index k).allFlags = (C'.index k).allFlags

/-- Two checkers which find the same words in the word list and by removing affixes, and which agree on everything
in the affix file except the affixes themselves. -/
structure SameForms (C C' : Checker) : Prop extends SameSettings C C' where
  stripOnly : C.stripOnly = C'.stripOnly
  stripComm : C.stripComm = C'.stripComm
  checkSimpleWord : C.checkSimpleWord = C'.checkSimpleWord

/-- The same, with the same letter cases tried. -/
structure Alike (C C' : Checker) : Prop extends SameForms C C' where
  lowerAsTitle : C.checkLowerAsTitle = C'.checkLowerAsTitle
  lowerAsUpper : C.checkLowerAsUpper = C'.checkLowerAsUpper

/-- Two checkers that differ at most in the order of their word lists and the layout of the tables. -/
structure Same (C C' : Checker) : Prop extends SameTables C C' where
  lowerAsTitle : C.checkLowerAsTitle = C'.checkLowerAsTitle
  lowerAsUpper : C.checkLowerAsUpper = C'.checkLowerAsUpper

namespace SameTries
variable {C C' : Checker} (h : SameTries C C')
include h

theorem prefixFlags : C.aff.prefixes.allFlags = C'.aff.prefixes.allFlags := h.allFlags .pfx

theorem suffixFlags : C.aff.suffixes.allFlags = C'.aff.suffixes.allFlags := h.allFlags .sfx

theorem isOuterAffixValid : C.isOuterAffixValid = C'.isOuterAffixValid := by
  funext
  simp only [Checker.isOuterAffixValid, h.opts]

theorem isCircumfix : C.isCircumfix = C'.isCircumfix := by
  funext
  simp only [Checker.isCircumfix, h.opts]

theorem isValidInsideCompound : C.isValidInsideCompound = C'.isValidInsideCompound := by
  funext
  simp only [Checker.isValidInsideCompound, h.opts]

theorem onlyEntry : C.onlyEntry = C'.onlyEntry := by
  funext
  simp only [Checker.onlyEntry, h.opts, h.isValidInsideCompound]

theorem onlyAffix : C.onlyAffix = C'.onlyAffix := by
  funext
  simp only [Checker.onlyAffix, h.isOuterAffixValid, h.opts, h.isCircumfix, h.found, h.onlyEntry]

theorem stripOnly : C.stripOnly = C'.stripOnly := by
  funext
  simp only [Checker.stripOnly, h.tried, h.onlyAffix]

theorem commEntry : C.commEntry = C'.commEntry := by
  funext
  simp only [Checker.commEntry, h.opts, h.isValidInsideCompound]

theorem commSuffix : C.commSuffix = C'.commSuffix := by
  funext
  simp only [Checker.commSuffix, h.opts, h.isCircumfix, h.found, h.commEntry]

theorem commPrefix : C.commPrefix = C'.commPrefix := by
  funext
  simp only [Checker.commPrefix, h.opts, h.tried, h.commSuffix]

theorem stripComm : C.stripComm = C'.stripComm := by
  funext
  simp only [Checker.stripComm, h.tried, h.commPrefix]

theorem fullEntryOk : C.fullEntryOk = C'.fullEntryOk := by
  funext
  simp only [Checker.fullEntryOk, h.opts]

theorem twoEntry : C.twoEntry = C'.twoEntry := by
  funext
  simp only [Checker.twoEntry, h.fullEntryOk]

theorem twoInner : C.twoInner = C'.twoInner := by
  funext
  simp only [Checker.twoInner, h.opts, h.isCircumfix, h.found, h.twoEntry]

theorem twoOuter : C.twoOuter = C'.twoOuter := by
  funext
  simp only [Checker.twoOuter, h.allFlags, h.isOuterAffixValid, h.isCircumfix, h.tried, h.twoInner]

theorem stripTwo : C.stripTwo = C'.stripTwo := by
  funext
  simp only [Checker.stripTwo, h.allFlags, h.tried, h.twoOuter]

theorem oneTwoEntry : C.oneTwoEntry = C'.oneTwoEntry := by
  funext
  simp only [Checker.oneTwoEntry, h.fullEntryOk]

theorem oneTwoInner : C.oneTwoInner = C'.oneTwoInner := by
  funext
  simp only [Checker.oneTwoInner, h.opts, h.isCircumfix, h.found, h.oneTwoEntry]

theorem oneTwoOuter : C.oneTwoOuter = C'.oneTwoOuter := by
  funext
  simp only [Checker.oneTwoOuter, h.prefixFlags, h.suffixFlags, h.opts, h.isCircumfix, h.tried, h.oneTwoInner]

theorem oneTwoFirst : C.oneTwoFirst = C'.oneTwoFirst := by
  funext
  simp only [Checker.oneTwoFirst, h.isOuterAffixValid, h.tried, h.oneTwoOuter]

theorem stripOneTwo : C.stripOneTwo = C'.stripOneTwo := by
  funext
  simp only [Checker.stripOneTwo, h.prefixFlags, h.suffixFlags, h.tried, h.oneTwoFirst]

theorem sandwichEntry : C.sandwichEntry = C'.sandwichEntry := by
  funext
  simp only [Checker.sandwichEntry, h.fullEntryOk]

theorem sandwichInner : C.sandwichInner = C'.sandwichInner := by
  funext
  simp only [Checker.sandwichInner, h.opts, h.isCircumfix, h.found, h.sandwichEntry]

theorem sandwichMid : C.sandwichMid = C'.sandwichMid := by
  funext
  simp only [Checker.sandwichMid, h.opts, h.tried, h.sandwichInner]

theorem sandwichOuter : C.sandwichOuter = C'.sandwichOuter := by
  funext
  simp only [Checker.sandwichOuter, h.prefixFlags, h.suffixFlags, h.isOuterAffixValid, h.tried, h.sandwichMid]

theorem stripSandwich : C.stripSandwich = C'.stripSandwich := by
  funext
  simp only [Checker.stripSandwich, h.prefixFlags, h.suffixFlags, h.tried, h.sandwichOuter]

theorem directEntry : C.directEntry = C'.directEntry := by
  funext
  simp only [Checker.directEntry, h.opts]

theorem checkSimpleWord : C.checkSimpleWord = C'.checkSimpleWord := by
  funext
  simp only [Checker.checkSimpleWord, h.found, h.directEntry, h.stripOnly, h.stripComm, h.opts,
    h.stripTwo, h.stripOneTwo, h.stripSandwich]

theorem forms : SameForms C C' where
  toSameSettings := h.toSameSettings
  stripOnly := h.stripOnly
  stripComm := h.stripComm
  checkSimpleWord := h.checkSimpleWord

end SameTries

namespace SameTables
variable {C C' : Checker} (h : SameTables C C')
include h

theorem aff' : C.aff = C'.aff := h.aff

theorem opts : C.opts = C'.opts := by
  funext
  simp only [Checker.opts, h.aff]

theorem index : C.index = C'.index := by
  funext k
  cases k <;> simp only [Checker.index, h.aff]

theorem affixesOf : C.affixesOf = C'.affixesOf := by
  funext
  simp only [Checker.affixesOf, h.index]

theorem tries : SameTries C C' where
  U := h.U
  opts := h.opts
  breakTable := by rw [h.aff']
  compoundRules := by rw [h.aff']
  compoundSyllableVowels := by rw [h.aff']
  compoundPatterns := by rw [h.aff']
  inputConversions := by rw [h.aff']
  outputConversions := by rw [h.aff']
  replacements := by rw [h.aff']
  similarities := by rw [h.aff']
  ignoreChars := by rw [h.aff']
  keyboardCloseness := by rw [h.aff']
  tryChars := by rw [h.aff']
  found := fun w f => by rw [h.entries]
  tried := fun k w f => by rw [h.affixesOf]
  allFlags := fun k => by rw [h.index]

theorem forms : SameForms C C' := h.tries.forms

end SameTables

namespace SameForms
variable {C C' : Checker} (h : SameForms C C')
include h

theorem foundFirst (w : Str) (p : Str × FlagSet → Bool) : (C.entries w).find? p = (C'.entries w).find? p := by
  rw [List.find?_eq_findSome?_guard, List.find?_eq_findSome?_guard, h.found]

theorem countSyllables : C.countSyllables = C'.countSyllables := by
  funext
  simp only [Checker.countSyllables, h.breakTable, h.compoundRules, h.compoundSyllableVowels, h.compoundPatterns, h.inputConversions, h.replacements, h.ignoreChars]

theorem numWordsModifier : C.numWordsModifier = C'.numWordsModifier := by
  funext
  simp only [Checker.numWordsModifier, h.breakTable, h.compoundRules, h.compoundSyllableVowels, h.compoundPatterns, h.inputConversions, h.replacements, h.ignoreChars, h.countSyllables]

theorem syllableModifier : C.syllableModifier = C'.syllableModifier := by
  funext
  simp only [Checker.syllableModifier, h.breakTable, h.compoundRules, h.compoundSyllableVowels, h.compoundPatterns, h.inputConversions, h.replacements, h.ignoreChars]

theorem syllableModifierWithSuffix : C.syllableModifierWithSuffix = C'.syllableModifierWithSuffix
  := by
  funext
  simp only [Checker.syllableModifierWithSuffix, h.breakTable, h.compoundRules, h.compoundSyllableVowels, h.compoundPatterns, h.inputConversions, h.replacements, h.ignoreChars, h.countSyllables, h.opts]

theorem positionFlag : C.positionFlag = C'.positionFlag := by
  funext
  simp only [Checker.positionFlag, h.opts]

theorem compoundEntry : C.compoundEntry = C'.compoundEntry := by
  funext
  simp only [Checker.compoundEntry, h.opts, h.positionFlag, h.syllableModifier]

theorem suffixResult : C.suffixResult = C'.suffixResult := by
  funext
  simp only [Checker.suffixResult, h.syllableModifierWithSuffix]

theorem prefixResult : C.prefixResult = C'.prefixResult := by
  funext
  simp only [Checker.prefixResult, h.numWordsModifier]

theorem commResult : C.commResult = C'.commResult := by
  funext
  simp only [Checker.commResult, h.numWordsModifier, h.syllableModifierWithSuffix]

theorem checkWordInCompound : C.checkWordInCompound = C'.checkWordInCompound := by
  funext
  simp only [Checker.checkWordInCompound, h.found, h.compoundEntry, h.stripOnly, h.suffixResult,
    h.prefixResult, h.stripComm, h.commResult]

theorem forbiddenByPatterns : C.forbiddenByPatterns = C'.forbiddenByPatterns := by
  funext
  simp only [Checker.forbiddenByPatterns, h.breakTable, h.compoundRules, h.compoundSyllableVowels, h.compoundPatterns, h.inputConversions, h.replacements, h.ignoreChars]

theorem isSimpleWord : C.isSimpleWord = C'.isSimpleWord := by
  funext
  simp only [Checker.isSimpleWord, h.checkSimpleWord]

theorem isRepSimilar : C.isRepSimilar = C'.isRepSimilar := by
  funext
  simp only [Checker.isRepSimilar, h.breakTable, h.compoundRules, h.compoundSyllableVowels, h.compoundPatterns, h.inputConversions, h.replacements, h.ignoreChars, h.isSimpleWord]

theorem wordCount : C.wordCount = C'.wordCount := by
  funext
  simp only [Checker.wordCount, h.opts]

theorem classicSecond : C.classicSecond = C'.classicSecond := by
  funext
  simp only [Checker.classicSecond, h.checkWordInCompound, h.opts, h.forbiddenByPatterns,
    h.isRepSimilar, h.wordCount, h.breakTable, h.compoundRules, h.compoundSyllableVowels, h.compoundPatterns, h.inputConversions, h.replacements, h.ignoreChars, h.countSyllables]

theorem repAfterRecursion : C.repAfterRecursion = C'.repAfterRecursion := by
  funext
  simp only [Checker.repAfterRecursion, h.opts, h.isRepSimilar]

theorem tripleRecursive : C.tripleRecursive = C'.tripleRecursive := by
  funext
  simp only [Checker.tripleRecursive, h.forbiddenByPatterns, h.repAfterRecursion]

theorem tripleSecond : C.tripleSecond = C'.tripleSecond := by
  funext
  simp only [Checker.tripleSecond, h.checkWordInCompound, h.opts, h.forbiddenByPatterns,
    h.isRepSimilar]

theorem simplifiedTriple : C.simplifiedTriple = C'.simplifiedTriple := by
  funext
  simp only [Checker.simplifiedTriple, h.opts, h.tripleSecond, h.tripleRecursive]

theorem tryRecursive : C.tryRecursive = C'.tryRecursive := by
  funext
  simp only [Checker.tryRecursive, h.simplifiedTriple, h.forbiddenByPatterns, h.repAfterRecursion]

theorem classicFirst : C.classicFirst = C'.classicFirst := by
  funext
  simp only [Checker.classicFirst, h.checkWordInCompound, h.opts, h.U]

theorem classic : C.classic = C'.classic := by
  funext
  simp only [Checker.classic, h.classicFirst, h.wordCount, h.classicSecond, h.tryRecursive]

theorem patternFirst : C.patternFirst = C'.patternFirst := by
  funext
  simp only [Checker.patternFirst, h.checkWordInCompound, h.opts]

theorem patternSecond : C.patternSecond = C'.patternSecond := by
  funext
  simp only [Checker.patternSecond, h.checkWordInCompound, h.opts, h.isRepSimilar]

theorem patternRecursionOk : C.patternRecursionOk = C'.patternRecursionOk := by
  funext
  simp only [Checker.patternRecursionOk, h.opts, h.isRepSimilar]

theorem patternTripleRecursionOk : C.patternTripleRecursionOk = C'.patternTripleRecursionOk := by
  funext
  simp only [Checker.patternTripleRecursionOk, h.opts, h.isRepSimilar]

theorem patternTriple : C.patternTriple = C'.patternTriple := by
  funext
  simp only [Checker.patternTriple, h.opts, h.patternSecond, h.patternTripleRecursionOk]

theorem patternBody : C.patternBody = C'.patternBody := by
  funext
  simp only [Checker.patternBody, h.patternFirst, h.patternSecond, h.patternTriple,
    h.patternRecursionOk]

theorem withPatternReplacements : C.withPatternReplacements = C'.withPatternReplacements := by
  funext
  simp only [Checker.withPatternReplacements, h.patternBody, h.breakTable, h.compoundRules, h.compoundSyllableVowels, h.compoundPatterns, h.inputConversions, h.replacements, h.ignoreChars]

theorem compoundAt : C.compoundAt = C'.compoundAt := by
  funext
  simp only [Checker.compoundAt, h.classic, h.withPatternReplacements]

theorem checkCompoundImpl : C.checkCompoundImpl = C'.checkCompoundImpl := by
  funext fc fuel
  induction fuel with
  | zero => rfl
  | succ n ih =>
    funext m word start k
    simp only [Checker.checkCompoundImpl, ih, h.compoundAt, h.opts]

theorem rulePart : C.rulePart = C'.rulePart := by
  funext
  simp only [Checker.rulePart, h.opts, h.breakTable, h.compoundRules, h.compoundSyllableVowels, h.compoundPatterns, h.inputConversions, h.replacements, h.ignoreChars]

theorem ruleDirect : C.ruleDirect = C'.ruleDirect := by
  funext
  simp only [Checker.ruleDirect, h.foundFirst, h.rulePart, h.breakTable, h.compoundRules, h.compoundSyllableVowels, h.compoundPatterns, h.inputConversions, h.replacements, h.ignoreChars, h.opts]

theorem ruleAt : C.ruleAt = C'.ruleAt := by
  funext
  simp only [Checker.ruleAt, h.foundFirst, h.rulePart, h.ruleDirect]

theorem checkRulesImpl : C.checkRulesImpl = C'.checkRulesImpl := by
  funext fc fuel
  induction fuel with
  | zero => rfl
  | succ n ih =>
    funext word data start
    simp only [Checker.checkRulesImpl, ih, h.ruleAt, h.opts]

theorem checkRules : C.checkRules = C'.checkRules := by
  funext
  simp only [Checker.checkRules, h.checkRulesImpl]

theorem checkCompound : C.checkCompound = C'.checkCompound := by
  funext
  simp only [Checker.checkCompound, h.opts, h.checkCompoundImpl, h.breakTable, h.compoundRules, h.compoundSyllableVowels, h.compoundPatterns, h.inputConversions, h.replacements, h.ignoreChars, h.checkRules]

theorem checkWord : C.checkWord = C'.checkWord := by
  funext
  simp only [Checker.checkWord, h.checkSimpleWord, h.checkCompound]

theorem titlecase : C.titlecase = C'.titlecase := by
  funext
  simp only [Checker.titlecase, h.opts, h.U]

theorem lowercase : C.lowercase = C'.lowercase := by
  funext
  simp only [Checker.lowercase, h.opts, h.U]

theorem dropKeepCase : C.dropKeepCase = C'.dropKeepCase := by
  funext
  simp only [Checker.dropKeepCase, h.opts]

theorem doSpellSharps : C.doSpellSharps = C'.doSpellSharps := by
  have key : ∀ fuel n before rest depth r, 5 - depth = n →
      C.doSpellSharps fuel before rest depth r = C'.doSpellSharps fuel before rest depth r := by
    intro fuel n
    induction n using Nat.strongRecOn with
    | _ n ih =>
      intro before rest depth r hd
      rw [Checker.doSpellSharps, Checker.doSpellSharps, h.checkWord]
      split
      · split
        · rw [ih (5 - (depth + 1)) (by omega) _ _ _ _ rfl, ih (5 - (depth + 1)) (by omega) _ _ _ _
          rfl]
        · rfl
      · rfl
  funext fuel before rest depth r
  exact key fuel _ before rest depth r rfl

theorem spellSharps : C.spellSharps = C'.spellSharps := by
  funext
  simp only [Checker.spellSharps, h.doSpellSharps]

theorem spellApostrophe : C.spellApostrophe = C'.spellApostrophe := by
  funext
  simp only [Checker.spellApostrophe, h.titlecase, h.checkWord, h.lowercase]

theorem spellUpperSharps : C.spellUpperSharps = C'.spellUpperSharps := by
  funext
  simp only [Checker.spellUpperSharps, h.opts, h.spellSharps, h.lowercase, h.titlecase]

theorem spellCasingUpper : C.spellCasingUpper = C'.spellCasingUpper := by
  funext
  simp only [Checker.spellCasingUpper, h.checkWord, h.spellApostrophe, h.spellUpperSharps,
    h.titlecase, h.dropKeepCase, h.lowercase]

theorem titleKeepCase : C.titleKeepCase = C'.titleKeepCase := by
  funext
  simp only [Checker.titleKeepCase, h.opts]

theorem spellCasingTitle : C.spellCasingTitle = C'.spellCasingTitle := by
  funext
  simp only [Checker.spellCasingTitle, h.checkWord, h.lowercase, h.titleKeepCase]

theorem goodFlags : C.goodFlags = C'.goodFlags := by
  funext
  simp only [Checker.goodFlags, h.opts]

theorem breakLoops : C.breakLoops = C'.breakLoops := by
  funext
  simp only [Checker.breakLoops, h.breakTable, h.compoundRules, h.compoundSyllableVowels, h.compoundPatterns, h.inputConversions, h.replacements, h.ignoreChars]

end SameForms

namespace Alike
variable {C C' : Checker} (h : Alike C C')
include h

theorem spellCasingAsIs : C.spellCasingAsIs = C'.spellCasingAsIs := by
  funext
  simp only [Checker.spellCasingAsIs, h.checkWord, h.lowerAsTitle, h.titlecase, h.spellCasingTitle,
    h.lowerAsUpper, h.spellCasingUpper, h.opts, h.U]

theorem spellCasing : C.spellCasing = C'.spellCasing := by
  funext
  simp only [Checker.spellCasing, h.U, h.spellCasingAsIs, h.spellCasingUpper, h.spellCasingTitle]

theorem doSpellBreak : C.doSpellBreak = C'.doSpellBreak := by
  funext fuel d
  induction d with
  | zero =>
    funext word
    simp only [Checker.doSpellBreak, h.spellCasing, h.goodFlags, h.breakLoops]
  | succ n ih =>
    funext word
    simp only [Checker.doSpellBreak, ih, h.spellCasing, h.goodFlags, h.breakLoops]

theorem spellBreak : C.spellBreak = C'.spellBreak := by
  funext
  simp only [Checker.spellBreak, h.doSpellBreak]

theorem checkConverted : C.checkConverted = C'.checkConverted := by
  funext
  simp only [Checker.checkConverted, h.spellBreak, h.breakTable, h.compoundRules, h.compoundSyllableVowels, h.compoundPatterns, h.inputConversions, h.replacements, h.ignoreChars]

theorem check : C.check = C'.check := by
  funext
  simp only [Checker.check, h.checkConverted, h.breakTable, h.compoundRules, h.compoundSyllableVowels, h.compoundPatterns, h.inputConversions, h.replacements, h.ignoreChars]

end Alike

namespace Same
variable {C C' : Checker} (h : Same C C')
include h

theorem alike : Alike C C' := ⟨h.toSameTables.forms, h.lowerAsTitle, h.lowerAsUpper⟩

theorem check : C.check = C'.check := h.alike.check

end Same
end Checker
end Spellbook
