import Verif.Model.Check
import Verif.Model.Edits
/-!
# The checker with byte positions

`Compound.lean` and `Check.lean` use character positions and pass changed texts around. The code of
`src/checker.rs` uses byte positions, slices `str`s at them, changes buffers in place and changes them
back. This file models that: the same functions once more, with the byte arithmetic of the code. A
slice outside the text or inside a character is the panic it is in Rust (`need`), a write by `unsafe`
code which leaves bytes that are no UTF-8 is a panic too.

`Proof/CheckBytes.lean` shows that every function here equals its counterpart.
-/

namespace Spellbook.Bytes

/-- A value, or a panic. Part of the model only, for `src/checker.rs` 99–2555. -/
def need {α : Type} : Option α → Run α
  | some a => .ok a
  | none => .error .panic

/-! ## Affixes -/

/-- `StemBuf::concat` (`src/aff.rs` 43–62) on texts: `from_utf8_unchecked` of the bytes written. -/
def concat (inline : List UInt8) (a b : Str) : Run Str := do
  need (fromUtf8? (← need (Affix.stemConcat inline (utf8 a) (utf8 b))))

/-- `Prefix::to_stem_into` (`src/aff.rs` 348–362) and `Suffix::to_stem_into` (420–434). A subtraction
below zero is a slice out of bounds too, or a panic in debug builds. -/
def toStem (inline : List UInt8) (k : Kind) (a : Affix) (word : Str) : Run Str := do
  match k with
  | .pfx =>
    let stripped ← need (sliceFrom? word (byteLen a.add))
    match a.strip with
    | some strip => concat inline strip stripped
    | none => pure stripped
  | .sfx =>
    let len ← need (if byteLen a.add ≤ byteLen word then some (byteLen word - byteLen a.add) else none)
    let stripped ← need (sliceTo? word len)
    match a.strip with
    | some strip => concat inline stripped strip
    | none => pure stripped

/-- `Suffix::condition_matches` (`src/aff.rs` 459–488), with the fold over the last characters. -/
def suffixConditionMatches (a : Affix) (word : Str) : Run Bool := do
  match a.condition with
  | none => pure true
  | some c =>
    if byteLen word < c.chars then pure false
    else if c.isLiteral then pure (endsWith word c.pattern)
    else
      let (chars, bytes) := ((charIndices 0 word).reverse.take c.chars).foldl
        (fun (chars, _) (byteIndex, _) => (chars + 1, byteLen word - byteIndex)) (0, 0)
      if chars < c.chars then pure false
      else pure (c.matches' (← need (sliceFrom? word (byteLen word - bytes))))

/-- `are_three_chars_equal` (`src/checker.rs` 2465–2492). -/
def areThreeCharsEqual (word : Str) (idx : Nat) : Run Bool := do
  let ahead ← need (sliceFrom? word idx)
  let behind ← need (sliceTo? word idx)
  match ahead[0]?, behind.reverse[0]? with
  | some ch, some prevCh =>
    pure (prevCh == ch && (ahead[1]? == some ch || behind.reverse[1]? == some ch))
  | _, _ => pure false

/-- `has_uppercase_at_compound_word_boundary` (`src/checker.rs` 2499–2510). -/
def hasUppercaseAtBoundary (u : Unicode) (word : Str) (idx : Nat) : Run Bool := do
  match (← need (sliceFrom? word idx)).head? with
  | none => pure false
  | some ch =>
    match (← need (sliceTo? word idx)).getLast? with
    | none => pure false
    | some prev => pure ((u.isUpper ch && u.isAlpha prev) || (u.isUpper prev && u.isAlpha ch))

/-- `prev_codepoint` (`src/checker.rs` 2512–2514). -/
def prevCodepoint (word : Str) (byte : Nat) : Run (Option (Nat × Char)) := do
  pure (charIndices 0 (← need (sliceTo? word byte))).getLast?

/-- `match_compound_pattern` (`src/checker.rs` 2307–2345). `begin_end_chars.partition()` is the length
of the first text, `full_str()` both texts. -/
def matchCompoundPattern (p : CompoundPattern) (word : Str) (i : Nat)
    (fst snd : CompoundingResult) : Bool :=
  if i < byteLen p.first then false
  else if !((sliceFrom? word (i - byteLen p.first)).any fun comp =>
      startsWith comp (p.first ++ p.second)) then false
  else if p.firstWordFlag.any fun f => !fst.flags.contains f then false
  else if p.secondWordFlag.any fun f => !snd.flags.contains f then false
  else if p.matchFirstOnlyUnaffixed && fst.affixedAndModified then false
  else true

/-- `is_compound_forbidden_by_patterns` (`src/checker.rs` 2300–2351). -/
def forbiddenByPatterns (C : Checker) (word : Str) (i : Nat) (fst snd : CompoundingResult) : Bool :=
  C.aff.compoundPatterns.any fun p => matchCompoundPattern p word i fst snd

/-- A loop which changes the scratch text: `none` is `return true`, `some` the scratch text at the end
of the loop. `src/checker.rs` 1851–1894. -/
def scratchLoop {α : Type} (f : α → Str → Run (Option Str)) : List α → Str → Run (Option Str)
  | [], scratch => .ok (some scratch)
  | a :: as, scratch => do
    match ← f a scratch with
    | none => pure none
    | some scratch => scratchLoop f as scratch

/-- One attempt of `is_rep_similar`: `replace_range(lo..hi, to)`, look it up, and
`replace_range(lo..back, from)`; `hi` and `back` may depend on the scratch text (`idx..`).
`src/checker.rs` 1853–1860, 1869–1876, 1884–1891. -/
def repAttempt (C : Checker) (lo : Nat) (hi back : Str → Nat) (from' to : Str) (scratch : Str) :
    Run (Option Str) := do
  let scratch ← need (replaceRange? scratch lo (hi scratch) to)
  if C.isSimpleWord scratch then pure none
  else some <$> need (replaceRange? scratch lo (back scratch) from')

/-- `is_rep_similar` (`src/checker.rs` 1829–1899). -/
def isRepSimilar (C : Checker) (word : Str) : Run Bool := do
  let R := C.aff.replacements
  if R.whole.any (fun r => word == r.1 && C.isSimpleWord r.2) then pure true
  else if R.hasOnlyWhole then pure false
  else
    match ← scratchLoop (fun (from', to) scratch =>
        if startsWith word from' then
          repAttempt C 0 (fun _ => byteLen from') (fun _ => byteLen to) from' to scratch
        else pure (some scratch)) R.start word with
    | none => pure true
    | some scratch =>
    match ← scratchLoop (fun (from', to) scratch =>
        if endsWith word from' then
          repAttempt C (byteLen word - byteLen from') byteLen byteLen from' to scratch
        else pure (some scratch)) R.stop scratch with
    | none => pure true
    | some scratch =>
    match ← scratchLoop (fun (from', to) scratch =>
        scratchLoop (fun idx scratch =>
          repAttempt C idx (fun _ => idx + byteLen from') (fun _ => idx + byteLen to) from' to scratch)
          (matchBytes word from') scratch) R.anywhere scratch with
    | none => pure true
    | some _ => pure false

/-- The tests on the second part of a plain compound (`src/checker.rs` 1485–1589). -/
def classicSecond (C : Checker) (word : Str) (start i numPart : Nat) (fc : Forceucase)
    (part1 : CompoundingResult) : Run Checker.Verdict := do
  match C.checkWordInCompound .atEnd (← need (sliceFrom? word i)) with
  | none => pure .next
  | some part2 =>
    if part2.flags.contains C.opts.forbiddenWordFlag then pure .next
    else if forbiddenByPatterns C word i part1 part2 then pure .next
    else if C.opts.compoundCheckDuplicate && part1 == part2 then pure .next
    else if ← (if C.opts.compoundCheckRep then do isRepSimilar C (← need (sliceFrom? word start))
        else pure false) then pure .next
    else if fc.forbid && hasFlag part2.flags C.opts.compoundForceUppercaseFlag then pure .next
    else
      let numPart := numPart + C.wordCount part2
      if C.opts.compoundMaxWordCount.any fun max => numPart + 1 ≥ max then
        if C.aff.compoundSyllableVowels.isEmpty then pure .reject
        else if ((C.countSyllables word : Int) + part2.numSyllableModifier) % 2 ^ 64
            > C.opts.compoundSyllableMax.getD 0 then pure .next
        else pure .accept
      else pure .accept

/-- The tests of REP similarity after a recursive search (`src/checker.rs` 1637–1662, 1810–1823). -/
def repAfterRecursion (C : Checker) (word : Str) (start i : Nat) (part2 : CompoundingResult) :
    Run Bool :=
  if C.opts.compoundCheckRep then do
    if ← isRepSimilar C (← need (sliceFrom? word start)) then pure true
    else if (sliceFrom? word i).any fun tail => startsWith tail part2.stem then do
      isRepSimilar C (← need (slice? word start (i + byteLen part2.stem)))
    else pure false
  else .ok false

/-- The previous character, if the one before it is the same (`src/checker.rs` 1679–1689,
2049–2061), with its position. -/
def doubled (word : Str) (i : Nat) : Run (Option (Nat × Char)) := do
  match ← prevCodepoint word i with
  | none => pure none
  | some (idx, cp) =>
    if idx = 0 then pure none
    else
      match ← prevCodepoint word idx with
      | none => pure none
      | some (_, cp2) => if cp ≠ cp2 then pure none else pure (some (idx, cp))

/-- `check_compound_classic_try_simplified_triple_recursive` (`src/checker.rs` 1786–1826). -/
def tripleRecursive (C : Checker) (search : Checker.Search) (triple word : Str)
    (start i numPart : Nat) (part1 : CompoundingResult) : Run (Option CompoundingResult) := do
  match ← search triple i (numPart + 1) with
  | none => pure none
  | some part2 =>
    if forbiddenByPatterns C triple i part1 part2 then pure none
    else if ← repAfterRecursion C word start i part2 then pure none
    else pure (some part1)

/-- The tests on the second part in `check_compound_classic_try_simplified_triple`
(`src/checker.rs` 1693–1782). -/
def tripleSecond (C : Checker) (triple word : Str) (start i numPart : Nat) (fc : Forceucase)
    (part1 : CompoundingResult) : Run Checker.Verdict := do
  match C.checkWordInCompound .atEnd (← need (sliceFrom? triple i)) with
  | none => pure .next
  | some part2 =>
    if part2.flags.contains C.opts.forbiddenWordFlag then pure .next
    else if forbiddenByPatterns C triple i part1 part2 then pure .next
    else if C.opts.compoundCheckDuplicate && part1 == part2 then pure .next
    else if ← (if C.opts.compoundCheckRep then do isRepSimilar C (← need (sliceFrom? word start))
        else pure false) then pure .next
    else if fc.forbid && hasFlag part2.flags C.opts.compoundForceUppercaseFlag then pure .next
    else if C.opts.compoundMaxWordCount.any fun max => numPart > max then pure .reject
    else pure .accept

/-- `check_compound_classic_try_simplified_triple` (`src/checker.rs` 1668–1783). -/
def simplifiedTriple (C : Checker) (search : Checker.Search) (word : Str) (start i numPart : Nat)
    (fc : Forceucase) (part1 : CompoundingResult) : Run (Option CompoundingResult) :=
  if !C.opts.compoundSimplifiedTriple then .ok none
  else do
    match ← doubled word i with
    | none => pure none
    | some (idx, cp) =>
      let triple ← need (insertAt? word idx cp)
      match ← tripleSecond C triple word start i numPart fc part1 with
      | .accept => pure (some part1)
      | .reject => pure none
      | .next => tripleRecursive C search triple word start i numPart part1

/-- `check_compound_classic_try_recursive` (`src/checker.rs` 1595–1666). -/
def tryRecursive (C : Checker) (search : Checker.Search) (word : Str) (start i numPart : Nat)
    (fc : Forceucase) (part1 : CompoundingResult) : Run (Option CompoundingResult) := do
  match ← search word i (numPart + 1) with
  | none => simplifiedTriple C search word start i numPart fc part1
  | some part2 =>
    if forbiddenByPatterns C word i part1 part2 then
      simplifiedTriple C search word start i numPart fc part1
    else if ← repAfterRecursion C word start i part2 then
      simplifiedTriple C search word start i numPart fc part1
    else pure (some part1)

/-- The tests on the first part of a plain compound (`src/checker.rs` 1465–1479). -/
def classicFirst (C : Checker) (m : Mode) (word : Str) (start i : Nat) :
    Run (Option CompoundingResult) := do
  match C.checkWordInCompound m (← need (slice? word start i)) with
  | none => pure none
  | some part1 =>
    if part1.flags.contains C.opts.forbiddenWordFlag then pure none
    else if ← (if C.opts.compoundCheckTriple then areThreeCharsEqual word i else pure false) then
      pure none
    else if ← (if C.opts.compoundCheckCase then hasUppercaseAtBoundary C.U word i else pure false)
      then pure none
    else pure (some part1)

/-- `check_compound_classic` (`src/checker.rs` 1447–1593). -/
def classic (C : Checker) (search : Checker.Search) (m : Mode) (word : Str) (start i numPart : Nat)
    (fc : Forceucase) : Run (Option CompoundingResult) := do
  match ← classicFirst C m word start i with
  | none => pure none
  | some part1 =>
    let numPart := numPart + C.wordCount part1
    match ← classicSecond C word start i numPart fc part1 with
    | .accept => pure (some part1)
    | .reject => pure none
    | .next => tryRecursive C search word start i numPart fc part1

/-- The tests on the first part in `check_compound_with_pattern_replacements`
(`src/checker.rs` 1947–1965). -/
def patternFirst (C : Checker) (p : CompoundPattern) (m : Mode) (scratch : Str) (start j : Nat) :
    Run (Option CompoundingResult) := do
  match C.checkWordInCompound m (← need (slice? scratch start j)) with
  | none => pure none
  | some part1 =>
    if part1.flags.contains C.opts.forbiddenWordFlag then pure none
    else if p.firstWordFlag.any fun f => !part1.flags.contains f then pure none
    else if ← (if C.opts.compoundCheckTriple then areThreeCharsEqual scratch j else pure false) then
      pure none
    else pure (some part1)

/-- The tests on the second part in `check_compound_with_pattern_replacements`
(`src/checker.rs` 1969–2010, and with the triple 2067–2108): `text` is the second part. -/
def patternSecond (C : Checker) (p : CompoundPattern) (text word : Str) (start numParts : Nat)
    (fc : Forceucase) (part1 : CompoundingResult) : Run Checker.Verdict :=
  match C.checkWordInCompound .atEnd text with
  | none => pure .next
  | some part2 => do
    if part2.flags.contains C.opts.forbiddenWordFlag then pure .next
    else if p.secondWordFlag.any fun f => !part2.flags.contains f then pure .next
    else if C.opts.compoundCheckDuplicate && part1 == part2 then pure .next
    else if ← (if C.opts.compoundCheckRep then do isRepSimilar C (← need (sliceFrom? word start))
        else pure false) then pure .next
    else if fc.forbid && hasFlag part2.flags C.opts.compoundForceUppercaseFlag then pure .next
    else if C.opts.compoundMaxWordCount.any fun max => numParts + 1 ≥ max then pure .reject
    else pure .accept

/-- The tests after the recursive search in `check_compound_with_pattern_replacements`
(`src/checker.rs` 2022–2041). -/
def patternRecursionOk (C : Checker) (p : CompoundPattern) (scratch word : Str) (start j : Nat)
    (part2 : CompoundingResult) : Run Bool := do
  if p.secondWordFlag.any fun f => !part2.flags.contains f then pure false
  else if C.opts.compoundCheckRep then
    if ← isRepSimilar C (← need (sliceFrom? word start)) then pure false
    else if startsWith (← need (sliceFrom? scratch j)) part2.stem then do
      pure !(← isRepSimilar C (← need (slice? scratch start (j + byteLen part2.stem))))
    else pure true
  else pure true

/-- The tests after the last recursive search in `check_compound_with_pattern_replacements`
(`src/checker.rs` 2119–2141). The subtraction of `enc_cp_len` would wrap or panic below zero; here it
is a panic. -/
def patternTripleRecursionOk (C : Checker) (p : CompoundPattern) (triple scratch word : Str)
    (start j cpLen : Nat) (part2 : CompoundingResult) : Run Bool := do
  if p.secondWordFlag.any fun f => !part2.flags.contains f then pure false
  else if C.opts.compoundCheckRep then
    if ← isRepSimilar C (← need (sliceFrom? word start)) then pure false
    else if startsWith (← need (sliceFrom? triple j)) part2.stem then do
      if j + byteLen part2.stem < cpLen then .error .panic
      else
        match slice? scratch start (j + byteLen part2.stem - cpLen) with
        | some surface => pure !(← isRepSimilar C surface)
        | none => pure true
    else pure true
  else pure true

/-- The last two attempts for one pattern (`src/checker.rs` 2044–2141). -/
def patternTriple (C : Checker) (search : Checker.Search) (p : CompoundPattern) (scratch word : Str)
    (start j numParts : Nat) (fc : Forceucase) (part1 : CompoundingResult) :
    Run (Option (Option CompoundingResult)) :=
  if !C.opts.compoundSimplifiedTriple then .ok none
  else do
    match ← doubled scratch j with
    | none => pure none
    | some (_, cp) =>
      let triple := (← need (sliceTo? scratch j)) ++ [cp] ++ (← need (sliceFrom? scratch j))
      match ← patternSecond C p (← need (sliceFrom? triple j)) word start numParts fc part1 with
      | .accept => pure (some (some part1))
      | .reject => pure (some none)
      | .next =>
        match ← search triple j (numParts + 1) with
        | none => pure none
        | some part2 =>
          if ← patternTripleRecursionOk C p triple scratch word start j cp.utf8Size part2 then
            pure (some (some part1))
          else pure none

/-- The loop body of `check_compound_with_pattern_replacements` (`src/checker.rs` 1930–2141). -/
def patternBody (C : Checker) (search : Checker.Search) (m : Mode) (word : Str)
    (start i numParts : Nat) (fc : Forceucase) (p : CompoundPattern) :
    Run (Option (Option CompoundingResult)) :=
  match p.replacement with
  | none => .ok none
  | some replacement => do
    if !startsWith (← need (sliceFrom? word i)) replacement then pure none
    else
      let scratch := (← need (sliceTo? word i)) ++ (p.first ++ p.second)
        ++ (← need (sliceFrom? word (i + byteLen replacement)))
      let j := i + byteLen p.first
      match ← patternFirst C p m scratch start j with
      | none => pure none
      | some part1 =>
        match ← patternSecond C p (← need (sliceFrom? scratch j)) word start numParts fc part1 with
        | .accept => pure (some (some part1))
        | .reject => pure (some none)
        | .next =>
          match ← search scratch j (numParts + 1) with
          | none => patternTriple C search p scratch word start j numParts fc part1
          | some part2 =>
            if ← patternRecursionOk C p scratch word start j part2 then pure (some (some part1))
            else patternTriple C search p scratch word start j numParts fc part1

/-- `check_compound_with_pattern_replacements` (`src/checker.rs` 1921–2145). -/
def withPatternReplacements (C : Checker) (search : Checker.Search) (m : Mode) (word : Str)
    (start i numParts : Nat) (fc : Forceucase) : Run (Option CompoundingResult) :=
  (Run.first (patternBody C search m word start i numParts fc) C.aff.compoundPatterns).map
    Option.join

/-- The loop body of `check_compound_impl` (`src/checker.rs` 1422–1441). -/
def compoundAt (C : Checker) (search : Checker.Search) (m : Mode) (word : Str) (start numParts : Nat)
    (fc : Forceucase) (i : Nat) : Run (Option CompoundingResult) :=
  (classic C search m word start i numParts fc).or
    (withPatternReplacements C search m word start i numParts fc)

/-- `check_compound_impl` (`src/checker.rs` 1408–1445). -/
def checkCompoundImpl (C : Checker) (fc : Forceucase) : Nat → Mode → Checker.Search
  | 0, _, _, _, _ => .error .fuel
  | fuel + 1, m, word, start, numParts => do
    Run.first (compoundAt C (checkCompoundImpl C fc fuel .atMiddle) m word start numParts fc)
      (← need (bytesWithin word start C.opts.minChars))

/-- `direct_match` (`src/checker.rs` 2404–2419). The vector `words_data` is a list; `push` and `pop`
around the call are the list with one more entry. -/
def ruleDirect (C : Checker) (word : Str) (data : List FlagSet) (i : Nat) (fc : Forceucase) :
    Run Bool := do
  match (C.entries (← need (sliceFrom? word i))).find? C.rulePart with
  | some part2 =>
    pure (C.aff.compoundRules.anyRuleMatches (data ++ [part2.2])
      && !(fc.forbid && hasFlag part2.2 C.opts.compoundForceUppercaseFlag))
  | none => pure false

/-- The loop body of `check_compound_with_rules_impl` (`src/checker.rs` 2393–2430). -/
def ruleAt (C : Checker) (search : Str → List FlagSet → Nat → Run (Option CompoundingResult))
    (word : Str) (data : List FlagSet) (start : Nat) (fc : Forceucase) (i : Nat) :
    Run (Option CompoundingResult) := do
  match (C.entries (← need (slice? word start i))).find? C.rulePart with
  | none => pure none
  | some part1 =>
    let data := data ++ [part1.2]
    if ← ruleDirect C word data i fc then pure (some { stem := part1.1, flags := part1.2 })
    else search word data i

/-- `check_compound_with_rules_impl` (`src/checker.rs` 2364–2433). -/
def checkRulesImpl (C : Checker) (fc : Forceucase) :
    Nat → Str → List FlagSet → Nat → Run (Option CompoundingResult)
  | 0, _, _, _ => .error .fuel
  | fuel + 1, word, data, start => do
    Run.first (ruleAt C (checkRulesImpl C fc fuel) word data start fc)
      (← need (bytesWithin word start C.opts.minChars))

/-- `check_compound` (`src/checker.rs` 1387–1406). -/
def checkCompound (C : Checker) (fuel : Nat) (m : Mode) (word : Str) (fc : Forceucase) :
    Run (Option CompoundingResult) :=
  (if C.opts.allowsCompounding then checkCompoundImpl C fc fuel m word 0 0 else .ok none).or
    (if !C.aff.compoundRules.isEmpty then checkRulesImpl C fc (word.length + 1) word [] 0
     else .ok none)

/-- `check_word` (`src/checker.rs` 227–239). -/
def checkWord (C : Checker) (fuel : Nat) (word : Str) (fc : Forceucase) (hh : HiddenHomonym) :
    Run (Option FlagSet) :=
  match C.checkSimpleWord word hh with
  | some flags => .ok (some flags)
  | none => (checkCompound C fuel .atBegin word fc).map fun r => r.map (·.flags)

/-- `bytes[idx] = x; bytes[idx + 1] = y` by `unsafe` code (`src/checker.rs` 343–348, 355–361). -/
def writeTwo (word : Str) (idx : Nat) (x y : UInt8) : Run Str := do
  let bytes ← need (onRange? idx (idx + 1) (fun _ => some [x]) (utf8 word))
  let bytes ← need (onRange? (idx + 1) (idx + 2) (fun _ => some [y]) bytes)
  need (fromUtf8? bytes)

/-- `do_spell_sharps` (`src/checker.rs` 325–374): the answer, and the buffer afterwards. -/
def doSpellSharps (C : Checker) (fuel : Nat) (word : Str) (position depth replacements : Nat) :
    Run (Option FlagSet × Str) := do
  let idx ← need (findFrom? word position ['s', 's'])
  match idx with
  | some idx =>
    if h : depth < 5 then
      let word ← writeTwo word idx 0xC3 0x9F
      match ← doSpellSharps C fuel word (idx + 2) (depth + 1) (replacements + 1) with
      | (some flags, word) => pure (some flags, word)
      | (none, word) =>
        let word ← writeTwo word idx 0x73 0x73
        doSpellSharps C fuel word (idx + 2) (depth + 1) (replacements + 1)
    else if replacements > 0 then
      (checkWord C fuel word .allowBad .accept).map fun r => (r, word)
    else pure (none, word)
  | none =>
    if replacements > 0 then (checkWord C fuel word .allowBad .accept).map fun r => (r, word)
    else pure (none, word)
termination_by 5 - depth

/-- `spell_sharps` (`src/checker.rs` 321–323). -/
def spellSharps (C : Checker) (fuel : Nat) (word : Str) : Run (Option FlagSet) :=
  (doSpellSharps C fuel word 0 0 0).map (·.1)

/-- The apostrophe cases of `spell_casing_upper` (`src/checker.rs` 254–286). -/
def spellApostrophe (C : Checker) (fuel : Nat) (word : Str) : Run (Option FlagSet) := do
  match (← need (findFrom? word 0 ['\''])).filter fun idx => idx != byteLen word - 1 with
  | none => pure none
  | some idx =>
    let idx := idx + '\''.utf8Size
    let part1 ← need (sliceTo? word idx)
    let part2 ← C.titlecase (← need (sliceFrom? word idx))
    (checkWord C fuel (C.lowercase part1 ++ part2) .allowBad .accept).or do
      let title ← C.titlecase part1
      checkWord C fuel (title ++ part2) .allowBad .accept

/-- The sharp s case of `spell_casing_upper` (`src/checker.rs` 289–299). -/
def spellUpperSharps (C : Checker) (fuel : Nat) (word : Str) : Run (Option FlagSet) :=
  if C.opts.checksharps && containsStr word ['S', 'S'] then
    (spellSharps C fuel (C.lowercase word)).or do
      let title ← C.titlecase word
      spellSharps C fuel title
  else .ok none

/-- `spell_casing_upper` (`src/checker.rs` 241–319). -/
def spellCasingUpper (C : Checker) (fuel : Nat) (word : Str) : Run (Option FlagSet) :=
  (checkWord C fuel word .allowBad .accept).or <|
  (spellApostrophe C fuel word).or <|
  (spellUpperSharps C fuel word).or <|
  (do
    let title ← C.titlecase word
    (checkWord C fuel title .allowBad .accept).map C.dropKeepCase : Run (Option FlagSet)).or <|
  (checkWord C fuel (C.lowercase word) .allowBad .accept).map C.dropKeepCase

/-- `spell_casing_title` (`src/checker.rs` 376–402). -/
def spellCasingTitle (C : Checker) (fuel : Nat) (word : Str) : Run (Option FlagSet) :=
  (checkWord C fuel word .allowBad .skip).or <|
  (checkWord C fuel (C.lowercase word) .allowBad .accept).map (C.titleKeepCase (C.lowercase word))

/-- The first arm of `spell_casing` (`src/checker.rs` 200–221). -/
def spellCasingAsIs (C : Checker) (fuel : Nat) (word : Str) (pascal : Bool) : Run (Option FlagSet) :=
  (checkWord C fuel word .forbidBad .accept).or <|
  (if C.checkLowerAsTitle && !pascal then do
      let title ← C.titlecase word
      spellCasingTitle C fuel title
    else .ok none : Run (Option FlagSet)).or <|
  if C.checkLowerAsUpper then spellCasingUpper C fuel (C.opts.caseHandling.uppercase C.U word)
  else .ok none

/-- `spell_casing` (`src/checker.rs` 196–225). -/
def spellCasing (C : Checker) (fuel : Nat) (word : Str) : Run (Option FlagSet) :=
  match classifyCasing C.U word with
  | .none => spellCasingAsIs C fuel word false
  | .camel => spellCasingAsIs C fuel word false
  | .pascal => spellCasingAsIs C fuel word true
  | .all => spellCasingUpper C fuel word
  | .init => spellCasingTitle C fuel word

/-- `do_spell_break` (`src/checker.rs` 139–194). Its loops only use functions of the standard library
which return parts of the text, so they are those of `Check.lean`. -/
def doSpellBreak (C : Checker) (fuel : Nat) : Nat → Str → Run Bool
  | 0, word => do
    match ← spellCasing C fuel word with
    | some flags => pure (C.goodFlags flags)
    | none => pure false
  | d + 1, word => do
    match ← spellCasing C fuel word with
    | some flags => pure (C.goodFlags flags)
    | none => C.breakLoops (doSpellBreak C fuel d) word

/-! ## Conversions -/

/-- The `while i < word.len()` loop of `ConversionTable::convert` (`src/aff.rs` 1231–1246). -/
def convertLoop (t : ConversionTable) : Nat → Str → Nat → Run Str
  | 0, _, _ => .error .fuel
  | rounds + 1, word, i =>
    if i < byteLen word then do
      let tail ← need (sliceFrom? word i)
      match t.matchAt tail with
      | none => convertLoop t rounds word (i + (tail.head?.map Char.utf8Size).getD 1)
      | some c =>
        convertLoop t rounds (← need (replaceRange? word i (i + byteLen c.src) c.dst)) (i + byteLen c.dst)
    else .ok word

/-- `ConversionTable::convert` (`src/aff.rs` 1202–1249). -/
def convert (t : ConversionTable) (word : Str) : Run Str :=
  if t.inner.isEmpty then .ok word
  else if t.allNonAscii && isAscii word then .ok word
  else if !((utf8 word).any fun byte => t.startBytes.contains byte) then .ok word
  else convertLoop t (word.length + 1) word 0

/-! ## The checker as a whole -/

/-- `check` (`src/checker.rs` 98–131). -/
def check (C : Checker) (fuel : Nat) (word : Str) : Run Bool :=
  if byteLen word > maxWordLen then .ok false
  else do
    let word ← convert C.aff.inputConversions word
    if word.isEmpty then .ok true
    else
      let trimmed := trimEndMatches '.' word
      if isNumber trimmed then .ok true
      else do
        if ← doSpellBreak C fuel 9 (eraseChars trimmed C.aff.ignoreChars) then pure true
        else if byteLen trimmed != byteLen word then doSpellBreak C fuel 9 word
        else pure false

end Spellbook.Bytes
