import Verif.Model.Simple
/-!
# Looking up compounds

Models `src/checker.rs` 1387–2433 (compounds) and 2600–2619 (`CompoundingResult`).

Positions are character positions here, byte positions in the code; `&word[a..b]` is `slice word a b`.
`CheckBytes.lean` models the same functions with byte positions; C63 shows that they agree.

The search is recursive without a bound which is visible in the code, and for some dictionaries it
does not end. The model takes `fuel`; running out of it is a result of its own (`Stop.fuel`).
-/

namespace Spellbook

/-- Why a computation has no result: it panicked, or the fuel of the model ran out.
Part of the model only, for `src/checker.rs` 1387–2433. -/
inductive Stop
  | panic | fuel
deriving DecidableEq, Repr

/-- A computation which may have no result. Part of the model only, for `src/checker.rs` 1387–2433. -/
abbrev Run (α : Type) := Except Stop α

namespace Run
variable {α β : Type}

/-- `if let Some(r) = a { return Some(r) }`, then `b`. As at `src/checker.rs` 1424–1440. -/
@[macro_inline] def or (a b : Run (Option β)) : Run (Option β) :=
  match a with
  | .ok none => b
  | r => r

/-- `for a in list { if let Some(r) = f(a) { return Some(r) } }`, then `None`. As at `src/checker.rs` 1422–1441. -/
def first (f : α → Run (Option β)) : List α → Run (Option β)
  | [] => .ok none
  | a :: as => (f a).or (first f as)

end Run

/-- `&word[a..b]` at character positions. Standard library, used at `src/checker.rs` 1465, 1947, 2395. -/
def slice (word : Str) (a b : Nat) : Str := (word.take b).drop a

/-- `struct CompoundingResult` (`src/checker.rs` 2600–2608). `u16` and `i16` are numbers. -/
structure CompoundingResult where
  stem : Str
  flags : FlagSet
  numWordsModifier : Nat := 0
  numSyllableModifier : Int := 0
  affixedAndModified : Bool := false
deriving DecidableEq

/-- The positions of `match_indices` of the standard library: matches from left to right which do not
overlap. `skip` characters still belong to the last match. Standard library, used at `src/checker.rs` 1883. -/
def matchIndicesFrom (pat : Str) : (skip pos : Nat) → Str → List Nat
  | _, pos, [] => if pat.isEmpty then [pos] else []
  | 0, pos, c :: cs =>
    if startsWith (c :: cs) pat then pos :: matchIndicesFrom pat (pat.length - 1) (pos + 1) cs
    else matchIndicesFrom pat 0 (pos + 1) cs
  | skip + 1, pos, _ :: cs => matchIndicesFrom pat skip (pos + 1) cs

/-- `word.match_indices(pat)`. Standard library, used at `src/checker.rs` 1883. -/
def matchIndices (word pat : Str) : List Nat := matchIndicesFrom pat 0 0 word

namespace Checker

/-- `count_syllables` (`src/checker.rs` 2286–2298). -/
def countSyllables (C : Checker) (word : Str) : Nat :=
  (word.map fun ch => C.aff.compoundSyllableVowels.count ch).sum

/-- `calculate_num_words_modifier` (`src/checker.rs` 2235–2243). -/
def numWordsModifier (C : Checker) (pre : Affix) : Nat :=
  if C.aff.compoundSyllableVowels.isEmpty then 0
  else (max (C.countSyllables pre.add) 1) % 65536

/-- `calculate_syllable_modifier` (`src/checker.rs` 2245–2253). The flags are `'I'` and `'J'`. -/
def syllableModifier (C : Checker) (m : Mode) (flags : FlagSet) : Int :=
  if m == .atEnd && !C.aff.compoundSyllableVowels.isEmpty && flags.contains 73
      && !flags.contains 74 then -1 else 0

/-- Two's complement arithmetic of `i16`. Used for `src/checker.rs` 2266–2278. -/
def wrap16 (n : Int) : Int := n.bmod 65536

/-- `calculate_syllable_modifier_with_suffix` (`src/checker.rs` 2255–2285). The flags are `'c'`,
`'J'` and `'I'`. -/
def syllableModifierWithSuffix (C : Checker) (m : Mode) (flags : FlagSet) (suffix : Affix) : Int :=
  if m != .atEnd || C.aff.compoundSyllableVowels.isEmpty then 0
  else
    let n := wrap16 (0 - wrap16 (C.countSyllables suffix.add))
    let extra := endsWith suffix.add ['i'] &&
      (match suffix.add.reverse with
       | _ :: c :: _ => c != 'y' && c != 't'
       | _ => false)
    let n := wrap16 (n - (if extra then 1 else 0))
    if C.opts.compoundSyllableNum then
      if suffix.flag = 99 then wrap16 (n + 2)
      else if suffix.flag = 74 then wrap16 (n + 1)
      else if suffix.flag = 73 then wrap16 (n + (if flags.contains 74 then 1 else 0))
      else n
    else n

/-- The flag for the position (`src/checker.rs` 2151–2156). -/
def positionFlag (C : Checker) (m : Mode) : Option Nat :=
  match m with
  | .atBegin => C.opts.compoundBeginFlag
  | .atMiddle => C.opts.compoundMiddleFlag
  | .atEnd => C.opts.compoundEndFlag
  | .full => none

/-- The loop body of `check_word_in_compound` (`src/checker.rs` 2158–2181). -/
def compoundEntry (C : Checker) (m : Mode) (e : Str × FlagSet) : Option CompoundingResult :=
  if hasFlag e.2 C.opts.needAffixFlag then none
  else if !hasFlag e.2 C.opts.compoundFlag && !hasFlag e.2 (C.positionFlag m) then none
  else if e.2.contains hiddenHomonymFlag then none
  else some { stem := e.1, flags := e.2, numSyllableModifier := C.syllableModifier m e.2 }

/-- The result for a part with one suffix (`src/checker.rs` 2186–2197). Simplification: `unwrap` of
the suffix, which `strip_suffix_only` always sets, is the default of the pair. -/
def suffixResult (C : Checker) (m : Mode) (f : AffixForm) : Option CompoundingResult :=
  f.suffixes.1.map fun suffix =>
    { stem := f.stem, flags := f.flags,
      numSyllableModifier := C.syllableModifierWithSuffix m f.flags suffix,
      affixedAndModified := suffix.isModifying }

/-- The result for a part with one prefix (`src/checker.rs` 2202–2212). -/
def prefixResult (C : Checker) (f : AffixForm) : Option CompoundingResult :=
  f.prefixes.1.map fun pre =>
    { stem := f.stem, flags := f.flags, numWordsModifier := C.numWordsModifier pre,
      affixedAndModified := pre.isModifying }

/-- The result for a part with a prefix and a suffix (`src/checker.rs` 2217–2230). -/
def commResult (C : Checker) (m : Mode) (f : AffixForm) : Option CompoundingResult :=
  match f.prefixes.1, f.suffixes.1 with
  | some pre, some suffix =>
    some { stem := f.stem, flags := f.flags, numWordsModifier := C.numWordsModifier pre,
           numSyllableModifier := C.syllableModifierWithSuffix m f.flags suffix,
           affixedAndModified := pre.isModifying || suffix.isModifying }
  | _, _ => none

/-- `check_word_in_compound` (`src/checker.rs` 2147–2233). -/
def checkWordInCompound (C : Checker) (m : Mode) (word : Str) : Option CompoundingResult :=
  ((C.entries word).findSome? (C.compoundEntry m)).or <|
  ((C.stripOnly .sfx m word .skip).bind (C.suffixResult m)).or <|
  ((C.stripOnly .pfx m word .skip).bind C.prefixResult).or <|
  ((C.stripComm m word .skip).bind (C.commResult m))

/-- `match_compound_pattern` (`src/checker.rs` 2307–2345). -/
def matchCompoundPattern (p : CompoundPattern) (word : Str) (i : Nat)
    (fst snd : CompoundingResult) : Bool :=
  if i < p.first.length then false
  else if !startsWith (word.drop (i - p.first.length)) (p.first ++ p.second) then false
  else if p.firstWordFlag.any fun f => !fst.flags.contains f then false
  else if p.secondWordFlag.any fun f => !snd.flags.contains f then false
  else if p.matchFirstOnlyUnaffixed && fst.affixedAndModified then false
  else true

/-- `is_compound_forbidden_by_patterns` (`src/checker.rs` 2300–2351). Simplification: the code
compares byte positions, where `i - partition` may fall inside a character, in which case `get`
yields `None`; a text of `partition` bytes that ends at `i` and starts with `first` has as many
characters as `first`. -/
def forbiddenByPatterns (C : Checker) (word : Str) (i : Nat) (fst snd : CompoundingResult) : Bool :=
  C.aff.compoundPatterns.any fun p => matchCompoundPattern p word i fst snd

/-- `check_simple_word(text, SkipHiddenHomonym).is_some()`, the test of `is_rep_similar`.
`src/checker.rs` 1855, 1871, 1886. -/
def isSimpleWord (C : Checker) (text : Str) : Bool := (C.checkSimpleWord text .skip).isSome

/-- `is_rep_similar` (`src/checker.rs` 1829–1899). The scratch text is restored after every failed
attempt, so each attempt is the word with one replacement. -/
def isRepSimilar (C : Checker) (word : Str) : Bool :=
  let R := C.aff.replacements
  if R.whole.any (fun r => word == r.1 && C.isSimpleWord r.2) then true
  else if R.hasOnlyWhole then false
  else if R.start.any (fun r => startsWith word r.1 &&
      C.isSimpleWord (r.2 ++ word.drop r.1.length)) then true
  else if R.stop.any (fun r => endsWith word r.1 &&
      C.isSimpleWord (word.take (word.length - r.1.length) ++ r.2)) then true
  else R.anywhere.any fun r => (matchIndices word r.1).any fun idx =>
      C.isSimpleWord (word.take idx ++ r.2 ++ word.drop (idx + r.1.length))

/-- What is decided about the second part of a compound: accept, give up (`return None`), or try the
next way. Part of the model only, for `src/checker.rs` 1481–1593. -/
inductive Verdict
  | accept | reject | next
deriving DecidableEq, Repr

/-- `num_words_modifier` plus one for COMPOUNDROOT (`src/checker.rs` 1480–1483, 1550–1553). -/
def wordCount (C : Checker) (r : CompoundingResult) : Nat :=
  r.numWordsModifier + (if hasFlag r.flags C.opts.compoundRootFlag then 1 else 0)

/-- The tests on the second part of a plain compound (`src/checker.rs` 1485–1589). The syllable count
is computed in wrapping `usize` arithmetic (release build). -/
def classicSecond (C : Checker) (word : Str) (start i numPart : Nat) (fc : Forceucase)
    (part1 : CompoundingResult) : Verdict :=
  match C.checkWordInCompound .atEnd (word.drop i) with
  | none => .next
  | some part2 =>
    if part2.flags.contains C.opts.forbiddenWordFlag then .next
    else if C.forbiddenByPatterns word i part1 part2 then .next
    else if C.opts.compoundCheckDuplicate && part1 == part2 then .next
    else if C.opts.compoundCheckRep && C.isRepSimilar (word.drop start) then .next
    else if fc.forbid && hasFlag part2.flags C.opts.compoundForceUppercaseFlag then .next
    else
      let numPart := numPart + C.wordCount part2
      if C.opts.compoundMaxWordCount.any fun max => numPart + 1 ≥ max then
        if C.aff.compoundSyllableVowels.isEmpty then .reject
        else if ((C.countSyllables word : Int) + part2.numSyllableModifier) % 2 ^ 64
            > C.opts.compoundSyllableMax.getD 0 then .next
        else .accept
      else .accept

/-- The tests of REP similarity after a recursive search (`src/checker.rs` 1637–1662, 1810–1823). -/
def repAfterRecursion (C : Checker) (word : Str) (start i : Nat) (part2 : CompoundingResult) : Bool :=
  C.opts.compoundCheckRep && (C.isRepSimilar (word.drop start) ||
    (startsWith (word.drop i) part2.stem &&
      C.isRepSimilar (slice word start (i + part2.stem.length))))

/-- The word in which a letter dropped from a triple is put back before position `i`
(`src/checker.rs` 1679–1692, 2049–2065). `none` if the two letters before `i` do not exist or
differ. The code inserts before the previous letter, which is the same text. -/
def tripled (word : Str) (i : Nat) : Option Str :=
  match (word.take i).reverse with
  | c :: c' :: _ => if c == c' then some (word.take i ++ [c] ++ word.drop i) else none
  | _ => none

/-- The recursive search: `check_compound_impl::<AT_COMPOUND_MIDDLE>(word, start, num_parts, …)`.
`src/checker.rs` 1408–1445. -/
abbrev Search := Str → Nat → Nat → Run (Option CompoundingResult)

/-- `check_compound_classic_try_simplified_triple_recursive` (`src/checker.rs` 1786–1826). -/
def tripleRecursive (C : Checker) (search : Search) (triple word : Str) (start i numPart : Nat)
    (part1 : CompoundingResult) : Run (Option CompoundingResult) := do
  match ← search triple i (numPart + 1) with
  | none => pure none
  | some part2 =>
    if C.forbiddenByPatterns triple i part1 part2 then pure none
    else if C.repAfterRecursion word start i part2 then pure none
    else pure (some part1)

/-- The tests on the second part in `check_compound_classic_try_simplified_triple`
(`src/checker.rs` 1693–1782). -/
def tripleSecond (C : Checker) (triple word : Str) (start i numPart : Nat) (fc : Forceucase)
    (part1 : CompoundingResult) : Verdict :=
  match C.checkWordInCompound .atEnd (triple.drop i) with
  | none => .next
  | some part2 =>
    if part2.flags.contains C.opts.forbiddenWordFlag then .next
    else if C.forbiddenByPatterns triple i part1 part2 then .next
    else if C.opts.compoundCheckDuplicate && part1 == part2 then .next
    else if C.opts.compoundCheckRep && C.isRepSimilar (word.drop start) then .next
    else if fc.forbid && hasFlag part2.flags C.opts.compoundForceUppercaseFlag then .next
    else if C.opts.compoundMaxWordCount.any fun max => numPart > max then .reject
    else .accept

/-- `check_compound_classic_try_simplified_triple` (`src/checker.rs` 1668–1783). -/
def simplifiedTriple (C : Checker) (search : Search) (word : Str) (start i numPart : Nat)
    (fc : Forceucase) (part1 : CompoundingResult) : Run (Option CompoundingResult) :=
  if !C.opts.compoundSimplifiedTriple then .ok none
  else
    match tripled word i with
    | none => .ok none
    | some triple =>
      match C.tripleSecond triple word start i numPart fc part1 with
      | .accept => .ok (some part1)
      | .reject => .ok none
      | .next => C.tripleRecursive search triple word start i numPart part1

/-- `check_compound_classic_try_recursive` (`src/checker.rs` 1595–1666). -/
def tryRecursive (C : Checker) (search : Search) (word : Str) (start i numPart : Nat)
    (fc : Forceucase) (part1 : CompoundingResult) : Run (Option CompoundingResult) := do
  match ← search word i (numPart + 1) with
  | none => C.simplifiedTriple search word start i numPart fc part1
  | some part2 =>
    if C.forbiddenByPatterns word i part1 part2 then
      C.simplifiedTriple search word start i numPart fc part1
    else if C.repAfterRecursion word start i part2 then
      C.simplifiedTriple search word start i numPart fc part1
    else pure (some part1)

/-- The tests on the first part of a plain compound (`src/checker.rs` 1465–1479). -/
def classicFirst (C : Checker) (m : Mode) (word : Str) (start i : Nat) : Option CompoundingResult :=
  match C.checkWordInCompound m (slice word start i) with
  | none => none
  | some part1 =>
    if part1.flags.contains C.opts.forbiddenWordFlag then none
    else if C.opts.compoundCheckTriple && areThreeCharsEqual word i then none
    else if C.opts.compoundCheckCase && hasUppercaseAtBoundary C.U word i then none
    else some part1

/-- `check_compound_classic` (`src/checker.rs` 1447–1593). -/
def classic (C : Checker) (search : Search) (m : Mode) (word : Str) (start i numPart : Nat)
    (fc : Forceucase) : Run (Option CompoundingResult) :=
  match C.classicFirst m word start i with
  | none => .ok none
  | some part1 =>
    let numPart := numPart + C.wordCount part1
    match C.classicSecond word start i numPart fc part1 with
    | .accept => .ok (some part1)
    | .reject => .ok none
    | .next => C.tryRecursive search word start i numPart fc part1

/-- The tests on the first part in `check_compound_with_pattern_replacements`
(`src/checker.rs` 1947–1965). -/
def patternFirst (C : Checker) (p : CompoundPattern) (m : Mode) (scratch : Str) (start j : Nat) :
    Option CompoundingResult :=
  match C.checkWordInCompound m (slice scratch start j) with
  | none => none
  | some part1 =>
    if part1.flags.contains C.opts.forbiddenWordFlag then none
    else if p.firstWordFlag.any fun f => !part1.flags.contains f then none
    else if C.opts.compoundCheckTriple && areThreeCharsEqual scratch j then none
    else some part1

/-- The tests on the second part in `check_compound_with_pattern_replacements`
(`src/checker.rs` 1969–2010, and with the triple 2067–2108): `text` is the second part. -/
def patternSecond (C : Checker) (p : CompoundPattern) (text word : Str) (start numParts : Nat)
    (fc : Forceucase) (part1 : CompoundingResult) : Verdict :=
  match C.checkWordInCompound .atEnd text with
  | none => .next
  | some part2 =>
    if part2.flags.contains C.opts.forbiddenWordFlag then .next
    else if p.secondWordFlag.any fun f => !part2.flags.contains f then .next
    else if C.opts.compoundCheckDuplicate && part1 == part2 then .next
    else if C.opts.compoundCheckRep && C.isRepSimilar (word.drop start) then .next
    else if fc.forbid && hasFlag part2.flags C.opts.compoundForceUppercaseFlag then .next
    else if C.opts.compoundMaxWordCount.any fun max => numParts + 1 ≥ max then .reject
    else .accept

/-- The tests after the recursive search in `check_compound_with_pattern_replacements`
(`src/checker.rs` 2022–2041). -/
def patternRecursionOk (C : Checker) (p : CompoundPattern) (scratch word : Str) (start j : Nat)
    (part2 : CompoundingResult) : Bool :=
  if p.secondWordFlag.any fun f => !part2.flags.contains f then false
  else if C.opts.compoundCheckRep && (C.isRepSimilar (word.drop start) ||
    (startsWith (scratch.drop j) part2.stem &&
      C.isRepSimilar (slice scratch start (j + part2.stem.length)))) then false
  else true

/-- The tests after the last recursive search in `check_compound_with_pattern_replacements`
(`src/checker.rs` 2119–2141). `scratch.get(start..end)` is `None` if the end is before the start. -/
def patternTripleRecursionOk (C : Checker) (p : CompoundPattern) (triple scratch word : Str)
    (start j : Nat) (part2 : CompoundingResult) : Bool :=
  if p.secondWordFlag.any fun f => !part2.flags.contains f then false
  else if C.opts.compoundCheckRep && (C.isRepSimilar (word.drop start) ||
    (startsWith (triple.drop j) part2.stem && start ≤ j + part2.stem.length - 1 &&
      C.isRepSimilar (slice scratch start (j + part2.stem.length - 1)))) then false
  else true

/-- The last two attempts for one pattern (`src/checker.rs` 2044–2141): put back a letter dropped
from a triple. `some none` is `continue`, `some (some r)` is `return r`. -/
def patternTriple (C : Checker) (search : Search) (p : CompoundPattern) (scratch word : Str)
    (start j numParts : Nat) (fc : Forceucase) (part1 : CompoundingResult) :
    Run (Option (Option CompoundingResult)) :=
  if !C.opts.compoundSimplifiedTriple then .ok none
  else
    match tripled scratch j with
    | none => .ok none
    | some triple =>
      match C.patternSecond p (triple.drop j) word start numParts fc part1 with
      | .accept => .ok (some (some part1))
      | .reject => .ok (some none)
      | .next => do
        match ← search triple j (numParts + 1) with
        | none => pure none
        | some part2 =>
          if C.patternTripleRecursionOk p triple scratch word start j part2 then
            pure (some (some part1))
          else pure none

/-- The loop body of `check_compound_with_pattern_replacements` (`src/checker.rs` 1930–2141).
`some none` is `continue`, `some (some r)` is `return r`. -/
def patternBody (C : Checker) (search : Search) (m : Mode) (word : Str) (start i numParts : Nat)
    (fc : Forceucase) (p : CompoundPattern) : Run (Option (Option CompoundingResult)) :=
  match p.replacement with
  | none => .ok none
  | some replacement =>
    if !startsWith (word.drop i) replacement then .ok none
    else
      let scratch := word.take i ++ (p.first ++ p.second) ++ word.drop (i + replacement.length)
      let j := i + p.first.length
      match C.patternFirst p m scratch start j with
      | none => .ok none
      | some part1 =>
        match C.patternSecond p (scratch.drop j) word start numParts fc part1 with
        | .accept => .ok (some (some part1))
        | .reject => .ok (some none)
        | .next => do
          match ← search scratch j (numParts + 1) with
          | none => C.patternTriple search p scratch word start j numParts fc part1
          | some part2 =>
            if C.patternRecursionOk p scratch word start j part2 then pure (some (some part1))
            else C.patternTriple search p scratch word start j numParts fc part1

/-- `check_compound_with_pattern_replacements` (`src/checker.rs` 1921–2145). -/
def withPatternReplacements (C : Checker) (search : Search) (m : Mode) (word : Str)
    (start i numParts : Nat) (fc : Forceucase) : Run (Option CompoundingResult) :=
  (Run.first (C.patternBody search m word start i numParts fc) C.aff.compoundPatterns).map
    Option.join

/-- The loop body of `check_compound_impl` (`src/checker.rs` 1422–1441). -/
def compoundAt (C : Checker) (search : Search) (m : Mode) (word : Str) (start numParts : Nat)
    (fc : Forceucase) (i : Nat) : Run (Option CompoundingResult) :=
  (C.classic search m word start i numParts fc).or
    (C.withPatternReplacements search m word start i numParts fc)

/-- `check_compound_impl` (`src/checker.rs` 1408–1445). -/
def checkCompoundImpl (C : Checker) (fc : Forceucase) : Nat → Mode → Search
  | 0, _, _, _, _ => .error .fuel
  | fuel + 1, m, word, start, numParts =>
    Run.first (C.compoundAt (C.checkCompoundImpl fc fuel .atMiddle) m word start numParts fc)
      (splitPoints word start C.opts.minChars)

/-- The predicate of `find` in `check_compound_with_rules_impl` (`src/checker.rs` 2395–2398,
2406–2409). -/
def rulePart (C : Checker) (e : Str × FlagSet) : Bool :=
  !hasFlag e.2 C.opts.needAffixFlag && C.aff.compoundRules.hasAnyFlags e.2

/-- `direct_match` (`src/checker.rs` 2404–2419). -/
def ruleDirect (C : Checker) (word : Str) (data : List FlagSet) (i : Nat) (fc : Forceucase) : Bool :=
  match (C.entries (word.drop i)).find? C.rulePart with
  | some part2 =>
    C.aff.compoundRules.anyRuleMatches (data ++ [part2.2])
      && !(fc.forbid && hasFlag part2.2 C.opts.compoundForceUppercaseFlag)
  | none => false

/-- The loop body of `check_compound_with_rules_impl` (`src/checker.rs` 2393–2430). -/
def ruleAt (C : Checker) (search : Str → List FlagSet → Nat → Run (Option CompoundingResult))
    (word : Str) (data : List FlagSet) (start : Nat) (fc : Forceucase) (i : Nat) :
    Run (Option CompoundingResult) :=
  match (C.entries (slice word start i)).find? C.rulePart with
  | none => .ok none
  | some part1 =>
    let data := data ++ [part1.2]
    if C.ruleDirect word data i fc then .ok (some { stem := part1.1, flags := part1.2 })
    else search word data i

/-- `check_compound_with_rules_impl` (`src/checker.rs` 2364–2433). -/
def checkRulesImpl (C : Checker) (fc : Forceucase) :
    Nat → Str → List FlagSet → Nat → Run (Option CompoundingResult)
  | 0, _, _, _ => .error .fuel
  | fuel + 1, word, data, start =>
    Run.first (C.ruleAt (C.checkRulesImpl fc fuel) word data start fc)
      (splitPoints word start C.opts.minChars)

/-- `check_compound_with_rules` (`src/checker.rs` 2356–2363). The number of characters is always
enough fuel (`checkRules_ne_fuel`). -/
def checkRules (C : Checker) (word : Str) (fc : Forceucase) : Run (Option CompoundingResult) :=
  C.checkRulesImpl fc (word.length + 1) word [] 0

/-- `check_compound` (`src/checker.rs` 1387–1406). -/
def checkCompound (C : Checker) (fuel : Nat) (m : Mode) (word : Str) (fc : Forceucase) :
    Run (Option CompoundingResult) :=
  (if C.opts.allowsCompounding then C.checkCompoundImpl fc fuel m word 0 0 else .ok none).or
    (if !C.aff.compoundRules.isEmpty then C.checkRules word fc else .ok none)

end Checker
end Spellbook
