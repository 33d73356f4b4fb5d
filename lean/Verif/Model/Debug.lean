import Verif.Model.CheckBytes
/-!
# The checker in a debug build

The other files model a release build. In a debug build `debug_assert!` and arithmetic overflow panic.
This file models `check` and all it calls once more (`CheckBytes.lean`, `Simple.lean`), with those
panics, each named by an `Assertion`. The panics both builds have remain `Stop.panic`.

Overflow is modelled for subtractions, for `i16` and for the sum of syllables. Other additions are of
lengths and counts and are taken as unbounded. The assertion `SHARP_S_BYTES.len() == 2`
(`src/checker.rs` 334) is about a constant. Functions with neither an assertion nor a lookup are used
from `CheckBytes.lean`.
-/

namespace Spellbook.Debug

/-- The places at which only a debug build panics. -/
inductive Assertion
  /-- `len <= MAX_WORD_LEN` in `StemBuf::concat` (`src/aff.rs` 46). -/
  | stemLength
  /-- `word.starts_with(&*self.add)`, `word.ends_with(&*self.add)` in `to_stem_into`
  (`src/aff.rs` 349, 421). -/
  | affixOfWord
  /-- `&scratch == word` in `is_rep_similar` (`src/checker.rs` 1864, 1880, 1895). -/
  | scratchRestored
  /-- `min_chars != 0` in `check_compound_with_rules_impl` (`src/checker.rs` 2389) and `margin != 0` in
  `bytes_within` (2549). -/
  | marginPositive
  /-- A subtraction of `usize` below zero. -/
  | subtraction
  /-- `num_syllable += part2_entry.num_syllable_modifier as usize` (`src/checker.rs` 1571). -/
  | syllableSum
  /-- The `i16` arithmetic of `calculate_syllable_modifier_with_suffix` (`src/checker.rs` 2266–2278). -/
  | syllableModifier
  /-- `!word.is_empty()` in methods of the suggester (`src/suggester.rs` 616, 668, 773, 915). -/
  | wordPresent
  /-- `bytes[idx] == b' '` in `two_words_suggest` (`src/suggester.rs` 966). -/
  | spaceBetween
deriving DecidableEq, Repr

/-- Why a computation has no result in a debug build: as in a release build, or an assertion.
Part of the model only, for `src/checker.rs` 96–2555. -/
inductive Fault
  | stop (s : Stop)
  | assertion (a : Assertion)
deriving DecidableEq, Repr

/-- A computation in a debug build. Part of the model only, for `src/checker.rs` 96–2555. -/
abbrev Dbg (α : Type) := Except Fault α

/-- A computation which is the same in a release build. Part of the model only, for `src/checker.rs` 96–2555. -/
def lift {α : Type} : Run α → Dbg α
  | .ok a => .ok a
  | .error s => .error (.stop s)

/-- `debug_assert!(b)`. `src/aff.rs` 46, 349, 421 and `src/checker.rs` 1864–2549. -/
def assert (a : Assertion) (b : Bool) : Dbg Unit :=
  if b then .ok () else .error (.assertion a)

/-- `a - b` on `usize`. Standard library, used at `src/checker.rs` 254–2142. -/
def sub (a b : Nat) : Dbg Nat := if b ≤ a then .ok (a - b) else .error (.assertion .subtraction)

/-- `if let Some(r) = a { return Some(r) }`, then `b`. As at `src/checker.rs` 1424–1440. -/
@[macro_inline] def or {β : Type} (a b : Dbg (Option β)) : Dbg (Option β) :=
  match a with
  | .ok none => b
  | r => r

/-- `for a in list { if let Some(r) = f(a) { return Some(r) } }`, then `None`. As at `src/checker.rs` 1422–1441. -/
def first {α β : Type} (f : α → Dbg (Option β)) : List α → Dbg (Option β)
  | [] => .ok none
  | a :: as => or (f a) (first f as)

/-- `for a in list { if f(a) { return true } }`, then `false`. As at `src/checker.rs` 157–190. -/
def any {α : Type} (f : α → Dbg Bool) : List α → Dbg Bool
  | [] => .ok false
  | a :: as => do if ← f a then pure true else any f as

/-! ## Affixes -/

/-- `StemBuf::concat` (`src/aff.rs` 43–62). The text is written as in a release build (C63). -/
def concat (a b : Str) : Dbg Str := do
  assert .stemLength (byteLen a + byteLen b ≤ maxWordLen)
  pure (a ++ b)

/-- `Prefix::to_stem_into` (`src/aff.rs` 348–362) and `Suffix::to_stem_into` (420–434). -/
def toStem (k : Kind) (a : Affix) (word : Str) : Dbg Str := do
  match k with
  | .pfx =>
    assert .affixOfWord (startsWith word a.add)
    let stripped ← lift (Bytes.need (sliceFrom? word (byteLen a.add)))
    match a.strip with
    | some strip => concat strip stripped
    | none => pure stripped
  | .sfx =>
    assert .affixOfWord (endsWith word a.add)
    let stripped ← lift (Bytes.need (sliceTo? word (← sub (byteLen word) (byteLen a.add))))
    match a.strip with
    | some strip => concat stripped strip
    | none => pure stripped

/-- The fold of `Suffix::condition_matches` (`src/aff.rs` 477–483). -/
def lastChars (len : Nat) : List (Nat × Char) → Nat × Nat → Dbg (Nat × Nat)
  | [], acc => .ok acc
  | (byteIndex, _) :: rest, (chars, _) => do lastChars len rest (chars + 1, ← sub len byteIndex)

/-- `Suffix::condition_matches` (`src/aff.rs` 459–488). -/
def suffixConditionMatches (a : Affix) (word : Str) : Dbg Bool := do
  match a.condition with
  | none => pure true
  | some c =>
    if byteLen word < c.chars then pure false
    else if c.isLiteral then pure (endsWith word c.pattern)
    else
      let (chars, bytes) ← lastChars (byteLen word) ((charIndices 0 word).reverse.take c.chars) (0, 0)
      if chars < c.chars then pure false
      else pure (c.matches' (← lift (Bytes.need (sliceFrom? word (← sub (byteLen word) bytes)))))

/-- `condition_matches` of either kind (`src/aff.rs` 387–404, 459–488). -/
def conditionMatches (k : Kind) (a : Affix) (word : Str) : Dbg Bool :=
  match k with
  | .pfx => pure (a.prefixConditionMatches word)
  | .sfx => suffixConditionMatches a word

/-! ## Simple words

As in `Simple.lean`; what is done with an entry has neither assertions nor arithmetic. -/

/-- The loop body of `strip_suffix_only` and `strip_prefix_only` (`src/checker.rs` 475–525, 537–587). -/
def onlyAffix (C : Checker) (k : Kind) (m : Mode) (word : Str) (hh : HiddenHomonym) (a : Affix) :
    Dbg (Option AffixForm) := do
  if !C.isOuterAffixValid k m a then pure none
  else if !a.add.isEmpty && m == .atEnd && hasFlag a.flags C.opts.onlyInCompoundFlag then pure none
  else if C.isCircumfix a then pure none
  else
    let stem ← toStem k a word
    if !(← conditionMatches k a stem) then pure none
    else pure ((C.entries stem).findSome? (C.onlyEntry k m hh a))

/-- `strip_suffix_only` (`src/checker.rs` 469–529) and `strip_prefix_only` (531–591). -/
def stripOnly (C : Checker) (k : Kind) (m : Mode) (word : Str) (hh : HiddenHomonym) :
    Dbg (Option AffixForm) :=
  first (onlyAffix C k m word hh) (C.affixesOf k word)

/-- The inner loop body of `strip_prefix_then_suffix_commutative` (`src/checker.rs` 661–723). -/
def commSuffix (C : Checker) (m : Mode) (stem : Str) (hh : HiddenHomonym) (pre suf : Affix) :
    Dbg (Option AffixForm) := do
  if !suf.crossproduct then pure none
  else if !isValid .sfx m suf C.opts then pure none
  else if hasFlag pre.flags C.opts.needAffixFlag && hasFlag suf.flags C.opts.needAffixFlag then pure none
  else if C.isCircumfix pre != C.isCircumfix suf then pure none
  else
    let stem2 ← toStem .sfx suf stem
    if !(← conditionMatches .sfx suf stem2) then pure none
    else pure ((C.entries stem2).findSome? (C.commEntry m hh pre suf))

/-- The outer loop body of `strip_prefix_then_suffix_commutative` (`src/checker.rs` 643–724). -/
def commPrefix (C : Checker) (m : Mode) (word : Str) (hh : HiddenHomonym) (pre : Affix) :
    Dbg (Option AffixForm) := do
  if !pre.crossproduct then pure none
  else if !isValid .pfx m pre C.opts then pure none
  else
    let stem ← toStem .pfx pre word
    if !(← conditionMatches .pfx pre stem) then pure none
    else first (commSuffix C m stem hh pre) (C.affixesOf .sfx stem)

/-- `strip_prefix_then_suffix_commutative` (`src/checker.rs` 636–728). -/
def stripComm (C : Checker) (m : Mode) (word : Str) (hh : HiddenHomonym) : Dbg (Option AffixForm) :=
  first (commPrefix C m word hh) (C.affixesOf .pfx word)

/-- The inner loop body of `strip_suffix_then_suffix` and `strip_prefix_then_prefix`
(`src/checker.rs` 758–800, 838–877). -/
def twoInner (C : Checker) (k : Kind) (stem : Str) (hh : HiddenHomonym) (outer inner : Affix) :
    Dbg (Option AffixForm) := do
  if !inner.flags.contains outer.flag then pure none
  else if !isValid k .full inner C.opts then pure none
  else if C.isCircumfix inner then pure none
  else
    let stem2 ← toStem k inner stem
    if !(← conditionMatches k inner stem2) then pure none
    else pure ((C.entries stem2).findSome? (C.twoEntry k hh outer inner))

/-- The outer loop body of `strip_suffix_then_suffix` and `strip_prefix_then_prefix`
(`src/checker.rs` 742–801, 822–878). -/
def twoOuter (C : Checker) (k : Kind) (word : Str) (hh : HiddenHomonym) (outer : Affix) :
    Dbg (Option AffixForm) := do
  if !(C.index k).allFlags.contains outer.flag then pure none
  else if !C.isOuterAffixValid k .full outer then pure none
  else if C.isCircumfix outer then pure none
  else
    let stem ← toStem k outer word
    if !(← conditionMatches k outer stem) then pure none
    else first (twoInner C k stem hh outer) (C.affixesOf k stem)

/-- `strip_suffix_then_suffix` (`src/checker.rs` 730–808) and `strip_prefix_then_prefix` (810–885). -/
def stripTwo (C : Checker) (k : Kind) (word : Str) (hh : HiddenHomonym) : Dbg (Option AffixForm) :=
  if (C.index k).allFlags.isEmpty then pure none
  else first (twoOuter C k word hh) (C.affixesOf k word)

/-- The third loop body of `strip_prefix_then_2_suffixes` and `strip_suffix_then_2_prefixes`
(`src/checker.rs` 937–987, 1186–1237). -/
def oneTwoInner (C : Checker) (k : Kind) (stem2 : Str) (hh : HiddenHomonym)
    (one outer inner : Affix) : Dbg (Option AffixForm) := do
  if !inner.flags.contains outer.flag then pure none
  else if !isValid k.other .full inner C.opts then pure none
  else if C.isCircumfix inner then pure none
  else
    let stem3 ← toStem k.other inner stem2
    if !(← conditionMatches k.other inner stem3) then pure none
    else pure ((C.entries stem3).findSome? (C.oneTwoEntry k hh one outer inner))

/-- The second loop body of `strip_prefix_then_2_suffixes` and `strip_suffix_then_2_prefixes`
(`src/checker.rs` 912–988, 1161–1238). -/
def oneTwoOuter (C : Checker) (k : Kind) (stem : Str) (hh : HiddenHomonym) (one outer : Affix) :
    Dbg (Option AffixForm) := do
  if !C.aff.suffixes.allFlags.contains outer.flag then pure none
  else if !outer.crossproduct then pure none
  else if !isValid k.other .full outer C.opts then pure none
  else if C.isCircumfix one != C.isCircumfix outer then pure none
  else
    let stem2 ← toStem k.other outer stem
    if !(← conditionMatches k.other outer stem2) then pure none
    else first (oneTwoInner C k stem2 hh one outer) (C.affixesOf k.other stem2)

/-- The outer loop body of `strip_prefix_then_2_suffixes` and `strip_suffix_then_2_prefixes`
(`src/checker.rs` 896–989, 1145–1239). -/
def oneTwoFirst (C : Checker) (k : Kind) (word : Str) (hh : HiddenHomonym) (one : Affix) :
    Dbg (Option AffixForm) := do
  if !one.crossproduct then pure none
  else if !C.isOuterAffixValid k .full one then pure none
  else
    let stem ← toStem k one word
    if !(← conditionMatches k one stem) then pure none
    else first (oneTwoOuter C k stem hh one) (C.affixesOf k.other stem)

/-- `strip_prefix_then_2_suffixes` (`k = pfx`, `src/checker.rs` 887–990) and
`strip_suffix_then_2_prefixes` (`k = sfx`, 1136–1240). -/
def stripOneTwo (C : Checker) (k : Kind) (word : Str) (hh : HiddenHomonym) : Dbg (Option AffixForm) :=
  if C.aff.suffixes.allFlags.isEmpty then pure none
  else first (oneTwoFirst C k word hh) (C.affixesOf k word)

/-- The third loop body of `strip_suffix_then_prefix_then_suffix` and
`strip_prefix_then_suffix_then_prefix` (`src/checker.rs` 1070–1129, 1320–1378). -/
def sandwichInner (C : Checker) (k : Kind) (stem2 : Str) (hh : HiddenHomonym)
    (outer mid inner : Affix) : Dbg (Option AffixForm) := do
  if !inner.crossproduct then pure none
  else if !inner.flags.contains outer.flag && !mid.flags.contains outer.flag then pure none
  else if !isValid k .full inner C.opts then pure none
  else if !((C.isCircumfix mid == C.isCircumfix outer) && !C.isCircumfix inner)
      && !((C.isCircumfix mid == C.isCircumfix inner) && !C.isCircumfix outer) then pure none
  else
    let stem3 ← toStem k inner stem2
    if !(← conditionMatches k inner stem3) then pure none
    else pure ((C.entries stem3).findSome? (C.sandwichEntry k hh outer mid inner))

/-- The second loop body of `strip_suffix_then_prefix_then_suffix` and
`strip_prefix_then_suffix_then_prefix` (`src/checker.rs` 1050–1130, 1299–1379). -/
def sandwichMid (C : Checker) (k : Kind) (stem : Str) (hh : HiddenHomonym) (outer mid : Affix) :
    Dbg (Option AffixForm) := do
  if !mid.crossproduct then pure none
  else if !isValid k.other .full mid C.opts then pure none
  else
    let stem2 ← toStem k.other mid stem
    if !(← conditionMatches k.other mid stem) then pure none
    else first (sandwichInner C k stem2 hh outer mid) (C.affixesOf k stem2)

/-- The outer loop body of `strip_suffix_then_prefix_then_suffix` and
`strip_prefix_then_suffix_then_prefix` (`src/checker.rs` 1029–1131, 1278–1380). -/
def sandwichOuter (C : Checker) (k : Kind) (word : Str) (hh : HiddenHomonym) (outer : Affix) :
    Dbg (Option AffixForm) := do
  if !C.aff.prefixes.allFlags.contains outer.flag && !C.aff.suffixes.allFlags.contains outer.flag
    then pure none
  else if !outer.crossproduct then pure none
  else if !C.isOuterAffixValid k .full outer then pure none
  else
    let stem ← toStem k outer word
    if !(← conditionMatches k outer stem) then pure none
    else first (sandwichMid C k stem hh outer) (C.affixesOf k.other stem)

/-- `strip_suffix_then_prefix_then_suffix` (`k = sfx`, `src/checker.rs` 1016–1134) and
`strip_prefix_then_suffix_then_prefix` (`k = pfx`, 1265–1383). -/
def stripSandwich (C : Checker) (k : Kind) (word : Str) (hh : HiddenHomonym) : Dbg (Option AffixForm) :=
  if C.aff.prefixes.allFlags.isEmpty && C.aff.suffixes.allFlags.isEmpty then pure none
  else first (sandwichOuter C k word hh) (C.affixesOf k word)

/-- The flags of a form. `src/checker.rs` 422–460. -/
def flagsOf (r : Dbg (Option AffixForm)) : Dbg (Option FlagSet) := r.map fun f => f.map (·.flags)

/-- `check_simple_word` (`src/checker.rs` 404–467). -/
def checkSimpleWord (C : Checker) (word : Str) (hh : HiddenHomonym) : Dbg (Option FlagSet) :=
  or (pure ((C.entries word).findSome? (C.directEntry hh))) <|
  or (flagsOf (stripOnly C .sfx .full word hh)) <|
  or (flagsOf (stripOnly C .pfx .full word hh)) <|
  or (flagsOf (stripComm C .full word hh)) <|
  if C.opts.complexPrefixes then
    or (flagsOf (stripTwo C .pfx word hh)) <|
    or (flagsOf (stripOneTwo C .sfx word hh)) <|
    flagsOf (stripSandwich C .pfx word hh)
  else
    or (flagsOf (stripTwo C .sfx word hh)) <|
    or (flagsOf (stripOneTwo C .pfx word hh)) <|
    flagsOf (stripSandwich C .sfx word hh)

/-! ## Parts of compounds -/

/-- A result of `i16` arithmetic. Used for `src/checker.rs` 2266–2278. -/
def i16 (n : Int) : Dbg Int :=
  if -32768 ≤ n ∧ n ≤ 32767 then .ok n else .error (.assertion .syllableModifier)

/-- `calculate_syllable_modifier_with_suffix` (`src/checker.rs` 2255–2285). The cast of the count to `i16`
wraps in both builds. -/
def syllableModifierWithSuffix (C : Checker) (m : Mode) (flags : FlagSet) (suffix : Affix) : Dbg Int := do
  if m != .atEnd || C.aff.compoundSyllableVowels.isEmpty then pure 0
  else
    let n ← i16 (0 - Checker.wrap16 (C.countSyllables suffix.add))
    let extra := endsWith suffix.add ['i'] &&
      (match suffix.add.reverse with
       | _ :: c :: _ => c != 'y' && c != 't'
       | _ => false)
    let n ← i16 (n - (if extra then 1 else 0))
    if C.opts.compoundSyllableNum then
      if suffix.flag = 99 then i16 (n + 2)
      else if suffix.flag = 74 then i16 (n + 1)
      else if suffix.flag = 73 then i16 (n + (if flags.contains 74 then 1 else 0))
      else pure n
    else pure n

/-- The result for a part with one suffix (`src/checker.rs` 2186–2197). -/
def suffixResult (C : Checker) (m : Mode) (f : AffixForm) : Dbg (Option CompoundingResult) := do
  match f.suffixes.1 with
  | none => pure none
  | some suffix =>
    pure (some { stem := f.stem, flags := f.flags,
                 numSyllableModifier := ← syllableModifierWithSuffix C m f.flags suffix,
                 affixedAndModified := suffix.isModifying })

/-- The result for a part with a prefix and a suffix (`src/checker.rs` 2217–2230). -/
def commResult (C : Checker) (m : Mode) (f : AffixForm) : Dbg (Option CompoundingResult) := do
  match f.prefixes.1, f.suffixes.1 with
  | some pre, some suffix =>
    pure (some { stem := f.stem, flags := f.flags, numWordsModifier := C.numWordsModifier pre,
                 numSyllableModifier := ← syllableModifierWithSuffix C m f.flags suffix,
                 affixedAndModified := pre.isModifying || suffix.isModifying })
  | _, _ => pure none

/-- `if let Some(form) = r { return f(form) }`. `src/checker.rs` 2150–2240. -/
def thenForm (r : Dbg (Option AffixForm)) (f : AffixForm → Dbg (Option CompoundingResult)) :
    Dbg (Option CompoundingResult) := do
  match ← r with
  | none => pure none
  | some form => f form

/-- `check_word_in_compound` (`src/checker.rs` 2147–2233). -/
def checkWordInCompound (C : Checker) (m : Mode) (word : Str) : Dbg (Option CompoundingResult) :=
  or (pure ((C.entries word).findSome? (C.compoundEntry m))) <|
  or (thenForm (stripOnly C .sfx m word .skip) (suffixResult C m)) <|
  or (thenForm (stripOnly C .pfx m word .skip) fun f => pure (C.prefixResult f)) <|
  thenForm (stripComm C m word .skip) (commResult C m)

/-! ## Replacements -/

/-- `check_simple_word(text, SkipHiddenHomonym).is_some()`. `src/checker.rs` 1855, 1871, 1886. -/
def isSimpleWord (C : Checker) (text : Str) : Dbg Bool :=
  (checkSimpleWord C text .skip).map (·.isSome)

/-- A loop which changes the scratch text: `none` is `return true`, `some` the scratch text at the end
of the loop. `src/checker.rs` 1851–1894. -/
def scratchLoop {α : Type} (f : α → Str → Dbg (Option Str)) : List α → Str → Dbg (Option Str)
  | [], scratch => .ok (some scratch)
  | a :: as, scratch => do
    match ← f a scratch with
    | none => pure none
    | some scratch => scratchLoop f as scratch

/-- One attempt of `is_rep_similar` (`src/checker.rs` 1853–1860, 1868–1876, 1884–1891). -/
def repAttempt (C : Checker) (lo : Nat) (hi back : Str → Nat) (from' to : Str) (scratch : Str) :
    Dbg (Option Str) := do
  let scratch ← lift (Bytes.need (replaceRange? scratch lo (hi scratch) to))
  if ← isSimpleWord C scratch then pure none
  else some <$> lift (Bytes.need (replaceRange? scratch lo (back scratch) from'))

/-- `is_rep_similar` (`src/checker.rs` 1829–1899). -/
def isRepSimilar (C : Checker) (word : Str) : Dbg Bool := do
  let R := C.aff.replacements
  if ← any (fun r => if word == r.1 then isSimpleWord C r.2 else pure false) R.whole then pure true
  else if R.hasOnlyWhole then pure false
  else
    match ← scratchLoop (fun (from', to) scratch =>
        if startsWith word from' then
          repAttempt C 0 (fun _ => byteLen from') (fun _ => byteLen to) from' to scratch
        else pure (some scratch)) R.start word with
    | none => pure true
    | some scratch =>
    assert .scratchRestored (scratch == word)
    match ← scratchLoop (fun (from', to) scratch =>
        if endsWith word from' then do
          repAttempt C (← sub (byteLen word) (byteLen from')) byteLen byteLen from' to scratch
        else pure (some scratch)) R.stop scratch with
    | none => pure true
    | some scratch =>
    assert .scratchRestored (scratch == word)
    match ← scratchLoop (fun (from', to) scratch =>
        scratchLoop (fun idx scratch =>
          repAttempt C idx (fun _ => idx + byteLen from') (fun _ => idx + byteLen to) from' to scratch)
          (matchBytes word from') scratch) R.anywhere scratch with
    | none => pure true
    | some scratch =>
    assert .scratchRestored (scratch == word)
    pure false

/-! ## Compounds -/

/-- The recursive search. `src/checker.rs` 1408–1445. -/
abbrev Search := Str → Nat → Nat → Dbg (Option CompoundingResult)

/-- `self.aff.options.compound_check_rep && self.is_rep_similar(&word[start..])`.
`src/checker.rs` 1528, 1998 and others. -/
def repSimilarFrom (C : Checker) (word : Str) (start : Nat) : Dbg Bool :=
  if C.opts.compoundCheckRep then do
    isRepSimilar C (← lift (Bytes.need (sliceFrom? word start)))
  else pure false

/-- `num_syllable += modifier as usize` (`src/checker.rs` 1571) on 64 bits. -/
def syllableSum (count : Nat) (modifier : Int) : Dbg Int :=
  if (count : Int) + modifier % 2 ^ 64 < 2 ^ 64 then .ok (count + modifier % 2 ^ 64)
  else .error (.assertion .syllableSum)

/-- The tests on the second part of a plain compound (`src/checker.rs` 1485–1589). -/
def classicSecond (C : Checker) (word : Str) (start i numPart : Nat) (fc : Forceucase)
    (part1 : CompoundingResult) : Dbg Checker.Verdict := do
  match ← checkWordInCompound C .atEnd (← lift (Bytes.need (sliceFrom? word i))) with
  | none => pure .next
  | some part2 =>
    if part2.flags.contains C.opts.forbiddenWordFlag then pure .next
    else if Bytes.forbiddenByPatterns C word i part1 part2 then pure .next
    else if C.opts.compoundCheckDuplicate && part1 == part2 then pure .next
    else if ← repSimilarFrom C word start then pure .next
    else if fc.forbid && hasFlag part2.flags C.opts.compoundForceUppercaseFlag then pure .next
    else
      let numPart := numPart + C.wordCount part2
      if C.opts.compoundMaxWordCount.any fun max => numPart + 1 ≥ max then
        if C.aff.compoundSyllableVowels.isEmpty then pure .reject
        else if (← syllableSum (C.countSyllables word) part2.numSyllableModifier)
            > C.opts.compoundSyllableMax.getD 0 then pure .next
        else pure .accept
      else pure .accept

/-- The tests of REP similarity after a recursive search (`src/checker.rs` 1637–1662, 1810–1823). -/
def repAfterRecursion (C : Checker) (word : Str) (start i : Nat) (part2 : CompoundingResult) :
    Dbg Bool :=
  if C.opts.compoundCheckRep then do
    if ← isRepSimilar C (← lift (Bytes.need (sliceFrom? word start))) then pure true
    else if (sliceFrom? word i).any fun tail => startsWith tail part2.stem then do
      isRepSimilar C (← lift (Bytes.need (slice? word start (i + byteLen part2.stem))))
    else pure false
  else .ok false

/-- `check_compound_classic_try_simplified_triple_recursive` (`src/checker.rs` 1786–1826). -/
def tripleRecursive (C : Checker) (search : Search) (triple word : Str)
    (start i numPart : Nat) (part1 : CompoundingResult) : Dbg (Option CompoundingResult) := do
  match ← search triple i (numPart + 1) with
  | none => pure none
  | some part2 =>
    if Bytes.forbiddenByPatterns C triple i part1 part2 then pure none
    else if ← repAfterRecursion C word start i part2 then pure none
    else pure (some part1)

/-- The tests on the second part in `check_compound_classic_try_simplified_triple`
(`src/checker.rs` 1693–1782). -/
def tripleSecond (C : Checker) (triple word : Str) (start i numPart : Nat) (fc : Forceucase)
    (part1 : CompoundingResult) : Dbg Checker.Verdict := do
  match ← checkWordInCompound C .atEnd (← lift (Bytes.need (sliceFrom? triple i))) with
  | none => pure .next
  | some part2 =>
    if part2.flags.contains C.opts.forbiddenWordFlag then pure .next
    else if Bytes.forbiddenByPatterns C triple i part1 part2 then pure .next
    else if C.opts.compoundCheckDuplicate && part1 == part2 then pure .next
    else if ← repSimilarFrom C word start then pure .next
    else if fc.forbid && hasFlag part2.flags C.opts.compoundForceUppercaseFlag then pure .next
    else if C.opts.compoundMaxWordCount.any fun max => numPart > max then pure .reject
    else pure .accept

/-- `check_compound_classic_try_simplified_triple` (`src/checker.rs` 1668–1783). -/
def simplifiedTriple (C : Checker) (search : Search) (word : Str) (start i numPart : Nat)
    (fc : Forceucase) (part1 : CompoundingResult) : Dbg (Option CompoundingResult) :=
  if !C.opts.compoundSimplifiedTriple then .ok none
  else do
    match ← lift (Bytes.doubled word i) with
    | none => pure none
    | some (idx, cp) =>
      let triple ← lift (Bytes.need (insertAt? word idx cp))
      match ← tripleSecond C triple word start i numPart fc part1 with
      | .accept => pure (some part1)
      | .reject => pure none
      | .next => tripleRecursive C search triple word start i numPart part1

/-- `check_compound_classic_try_recursive` (`src/checker.rs` 1595–1666). -/
def tryRecursive (C : Checker) (search : Search) (word : Str) (start i numPart : Nat)
    (fc : Forceucase) (part1 : CompoundingResult) : Dbg (Option CompoundingResult) := do
  match ← search word i (numPart + 1) with
  | none => simplifiedTriple C search word start i numPart fc part1
  | some part2 =>
    if Bytes.forbiddenByPatterns C word i part1 part2 then
      simplifiedTriple C search word start i numPart fc part1
    else if ← repAfterRecursion C word start i part2 then
      simplifiedTriple C search word start i numPart fc part1
    else pure (some part1)

/-- The tests on the first part of a plain compound (`src/checker.rs` 1465–1479). -/
def classicFirst (C : Checker) (m : Mode) (word : Str) (start i : Nat) :
    Dbg (Option CompoundingResult) := do
  match ← checkWordInCompound C m (← lift (Bytes.need (slice? word start i))) with
  | none => pure none
  | some part1 =>
    if part1.flags.contains C.opts.forbiddenWordFlag then pure none
    else if ← (if C.opts.compoundCheckTriple then lift (Bytes.areThreeCharsEqual word i)
        else pure false) then pure none
    else if ← (if C.opts.compoundCheckCase then lift (Bytes.hasUppercaseAtBoundary C.U word i)
        else pure false) then pure none
    else pure (some part1)

/-- `check_compound_classic` (`src/checker.rs` 1447–1593). -/
def classic (C : Checker) (search : Search) (m : Mode) (word : Str) (start i numPart : Nat)
    (fc : Forceucase) : Dbg (Option CompoundingResult) := do
  match ← classicFirst C m word start i with
  | none => pure none
  | some part1 =>
    let numPart := numPart + C.wordCount part1
    match ← classicSecond C word start i numPart fc part1 with
    | .accept => pure (some part1)
    | .reject => pure none
    | .next => tryRecursive C search word start i numPart fc part1

/-- The tests on the first part in `check_compound_with_pattern_replacements`
(`src/checker.rs` 1947–1965). -/
def patternFirst (C : Checker) (p : CompoundPattern) (m : Mode) (scratch : Str) (start j : Nat) :
    Dbg (Option CompoundingResult) := do
  match ← checkWordInCompound C m (← lift (Bytes.need (slice? scratch start j))) with
  | none => pure none
  | some part1 =>
    if part1.flags.contains C.opts.forbiddenWordFlag then pure none
    else if p.firstWordFlag.any fun f => !part1.flags.contains f then pure none
    else if ← (if C.opts.compoundCheckTriple then lift (Bytes.areThreeCharsEqual scratch j)
        else pure false) then pure none
    else pure (some part1)

/-- The tests on the second part in `check_compound_with_pattern_replacements`
(`src/checker.rs` 1969–2010, and with the triple 2067–2108). -/
def patternSecond (C : Checker) (p : CompoundPattern) (text word : Str) (start numParts : Nat)
    (fc : Forceucase) (part1 : CompoundingResult) : Dbg Checker.Verdict := do
  match ← checkWordInCompound C .atEnd text with
  | none => pure .next
  | some part2 =>
    if part2.flags.contains C.opts.forbiddenWordFlag then pure .next
    else if p.secondWordFlag.any fun f => !part2.flags.contains f then pure .next
    else if C.opts.compoundCheckDuplicate && part1 == part2 then pure .next
    else if ← repSimilarFrom C word start then pure .next
    else if fc.forbid && hasFlag part2.flags C.opts.compoundForceUppercaseFlag then pure .next
    else if C.opts.compoundMaxWordCount.any fun max => numParts + 1 ≥ max then pure .reject
    else pure .accept

/-- The tests after the recursive search in `check_compound_with_pattern_replacements`
(`src/checker.rs` 2022–2041). -/
def patternRecursionOk (C : Checker) (p : CompoundPattern) (scratch word : Str) (start j : Nat)
    (part2 : CompoundingResult) : Dbg Bool := do
  if p.secondWordFlag.any fun f => !part2.flags.contains f then pure false
  else if C.opts.compoundCheckRep then
    if ← isRepSimilar C (← lift (Bytes.need (sliceFrom? word start))) then pure false
    else if startsWith (← lift (Bytes.need (sliceFrom? scratch j))) part2.stem then do
      pure !(← isRepSimilar C (← lift (Bytes.need (slice? scratch start (j + byteLen part2.stem)))))
    else pure true
  else pure true

/-- The tests after the last recursive search in `check_compound_with_pattern_replacements`
(`src/checker.rs` 2119–2141). -/
def patternTripleRecursionOk (C : Checker) (p : CompoundPattern) (triple scratch word : Str)
    (start j cpLen : Nat) (part2 : CompoundingResult) : Dbg Bool := do
  if p.secondWordFlag.any fun f => !part2.flags.contains f then pure false
  else if C.opts.compoundCheckRep then
    if ← isRepSimilar C (← lift (Bytes.need (sliceFrom? word start))) then pure false
    else if startsWith (← lift (Bytes.need (sliceFrom? triple j))) part2.stem then do
      match slice? scratch start (← sub (j + byteLen part2.stem) cpLen) with
      | some surface => pure !(← isRepSimilar C surface)
      | none => pure true
    else pure true
  else pure true

/-- The last two attempts for one pattern (`src/checker.rs` 2044–2141). -/
def patternTriple (C : Checker) (search : Search) (p : CompoundPattern) (scratch word : Str)
    (start j numParts : Nat) (fc : Forceucase) (part1 : CompoundingResult) :
    Dbg (Option (Option CompoundingResult)) :=
  if !C.opts.compoundSimplifiedTriple then .ok none
  else do
    match ← lift (Bytes.doubled scratch j) with
    | none => pure none
    | some (_, cp) =>
      let triple := (← lift (Bytes.need (sliceTo? scratch j))) ++ [cp]
        ++ (← lift (Bytes.need (sliceFrom? scratch j)))
      match ← patternSecond C p (← lift (Bytes.need (sliceFrom? triple j))) word start numParts fc part1
        with
      | .accept => pure (some (some part1))
      | .reject => pure (some none)
      | .next =>
        match ← search triple j (numParts + 1) with
        | none => pure none
        | some part2 =>
          if ← patternTripleRecursionOk C p triple scratch word start j cp.utf8Size part2 then
            pure (some (some part1))
          else pure none

/-- The loop body of `check_compound_with_pattern_replacements` (`src/checker.rs` 1930–2141). The
capacity of the scratch text is computed by a subtraction (1941). -/
def patternBody (C : Checker) (search : Search) (m : Mode) (word : Str)
    (start i numParts : Nat) (fc : Forceucase) (p : CompoundPattern) :
    Dbg (Option (Option CompoundingResult)) :=
  match p.replacement with
  | none => .ok none
  | some replacement => do
    if !startsWith (← lift (Bytes.need (sliceFrom? word i))) replacement then pure none
    else
      let _ ← sub (byteLen word) (byteLen replacement)
      let scratch := (← lift (Bytes.need (sliceTo? word i))) ++ (p.first ++ p.second)
        ++ (← lift (Bytes.need (sliceFrom? word (i + byteLen replacement))))
      let j := i + byteLen p.first
      match ← patternFirst C p m scratch start j with
      | none => pure none
      | some part1 =>
        match ← patternSecond C p (← lift (Bytes.need (sliceFrom? scratch j))) word start numParts fc part1
          with
        | .accept => pure (some (some part1))
        | .reject => pure (some none)
        | .next =>
          match ← search scratch j (numParts + 1) with
          | none => patternTriple C search p scratch word start j numParts fc part1
          | some part2 =>
            if ← patternRecursionOk C p scratch word start j part2 then pure (some (some part1))
            else patternTriple C search p scratch word start j numParts fc part1

/-- `check_compound_with_pattern_replacements` (`src/checker.rs` 1921–2145). -/
def withPatternReplacements (C : Checker) (search : Search) (m : Mode) (word : Str)
    (start i numParts : Nat) (fc : Forceucase) : Dbg (Option CompoundingResult) :=
  (first (patternBody C search m word start i numParts fc) C.aff.compoundPatterns).map Option.join

/-- The loop body of `check_compound_impl` (`src/checker.rs` 1422–1441). -/
def compoundAt (C : Checker) (search : Search) (m : Mode) (word : Str) (start numParts : Nat)
    (fc : Forceucase) (i : Nat) : Dbg (Option CompoundingResult) :=
  or (classic C search m word start i numParts fc)
    (withPatternReplacements C search m word start i numParts fc)

/-- `bytes_within` (`src/checker.rs` 2521–2558). -/
def bytesWithin (word : Str) (start margin : Nat) : Dbg (List Nat) := do
  assert .marginPositive (margin != 0)
  lift (Bytes.need (Spellbook.bytesWithin word start margin))

/-- `check_compound_impl` (`src/checker.rs` 1408–1445). -/
def checkCompoundImpl (C : Checker) (fc : Forceucase) : Nat → Mode → Search
  | 0, _, _, _, _ => .error (.stop .fuel)
  | fuel + 1, m, word, start, numParts => do
    first (compoundAt C (checkCompoundImpl C fc fuel .atMiddle) m word start numParts fc)
      (← bytesWithin word start C.opts.minChars)

/-- The loop body of `check_compound_with_rules_impl` (`src/checker.rs` 2393–2430). -/
def ruleAt (C : Checker) (search : Str → List FlagSet → Nat → Dbg (Option CompoundingResult))
    (word : Str) (data : List FlagSet) (start : Nat) (fc : Forceucase) (i : Nat) :
    Dbg (Option CompoundingResult) := do
  match (C.entries (← lift (Bytes.need (slice? word start i)))).find? C.rulePart with
  | none => pure none
  | some part1 =>
    let data := data ++ [part1.2]
    if ← lift (Bytes.ruleDirect C word data i fc) then pure (some { stem := part1.1, flags := part1.2 })
    else search word data i

/-- `check_compound_with_rules_impl` (`src/checker.rs` 2364–2433). -/
def checkRulesImpl (C : Checker) (fc : Forceucase) :
    Nat → Str → List FlagSet → Nat → Dbg (Option CompoundingResult)
  | 0, _, _, _ => .error (.stop .fuel)
  | fuel + 1, word, data, start => do
    assert .marginPositive (C.opts.minChars != 0)
    first (ruleAt C (checkRulesImpl C fc fuel) word data start fc)
      (← bytesWithin word start C.opts.minChars)

/-- `check_compound` (`src/checker.rs` 1387–1406). -/
def checkCompound (C : Checker) (fuel : Nat) (m : Mode) (word : Str) (fc : Forceucase) :
    Dbg (Option CompoundingResult) :=
  or (if C.opts.allowsCompounding then checkCompoundImpl C fc fuel m word 0 0 else .ok none)
    (if !C.aff.compoundRules.isEmpty then checkRulesImpl C fc (word.length + 1) word [] 0
     else .ok none)

/-! ## Letter case, sharp s, BREAK, `check` -/

/-- `check_word` (`src/checker.rs` 227–239). -/
def checkWord (C : Checker) (fuel : Nat) (word : Str) (fc : Forceucase) (hh : HiddenHomonym) :
    Dbg (Option FlagSet) := do
  match ← checkSimpleWord C word hh with
  | some flags => .ok (some flags)
  | none => (checkCompound C fuel .atBegin word fc).map fun r => r.map (·.flags)

/-- `do_spell_sharps` (`src/checker.rs` 325–374): the answer, and the buffer afterwards. -/
def doSpellSharps (C : Checker) (fuel : Nat) (word : Str) (position depth replacements : Nat) :
    Dbg (Option FlagSet × Str) := do
  let idx ← lift (Bytes.need (findFrom? word position ['s', 's']))
  match idx with
  | some idx =>
    if h : depth < 5 then
      let word ← lift (Bytes.writeTwo word idx 0xC3 0x9F)
      match ← doSpellSharps C fuel word (idx + 2) (depth + 1) (replacements + 1) with
      | (some flags, word) => pure (some flags, word)
      | (none, word) =>
        let word ← lift (Bytes.writeTwo word idx 0x73 0x73)
        doSpellSharps C fuel word (idx + 2) (depth + 1) (replacements + 1)
    else if replacements > 0 then
      (checkWord C fuel word .allowBad .accept).map fun r => (r, word)
    else pure (none, word)
  | none =>
    if replacements > 0 then (checkWord C fuel word .allowBad .accept).map fun r => (r, word)
    else pure (none, word)
termination_by 5 - depth

/-- `spell_sharps` (`src/checker.rs` 321–323). -/
def spellSharps (C : Checker) (fuel : Nat) (word : Str) : Dbg (Option FlagSet) :=
  (doSpellSharps C fuel word 0 0 0).map (·.1)

/-- `word.find('\'')`, kept if it is not the last byte (`src/checker.rs` 254–256). -/
def innerApostrophe (word : Str) : Option Nat → Dbg (Option Nat)
  | none => .ok none
  | some idx => do if idx != (← sub (byteLen word) 1) then pure (some idx) else pure none

/-- The apostrophe cases of `spell_casing_upper` (`src/checker.rs` 254–286). -/
def spellApostrophe (C : Checker) (fuel : Nat) (word : Str) : Dbg (Option FlagSet) := do
  match ← innerApostrophe word (← lift (Bytes.need (findFrom? word 0 ['\'']))) with
  | none => pure none
  | some idx =>
    let idx := idx + '\''.utf8Size
    let part1 ← lift (Bytes.need (sliceTo? word idx))
    let part2 ← lift (C.titlecase (← lift (Bytes.need (sliceFrom? word idx))))
    or (checkWord C fuel (C.lowercase part1 ++ part2) .allowBad .accept) do
      let title ← lift (C.titlecase part1)
      checkWord C fuel (title ++ part2) .allowBad .accept

/-- The sharp s case of `spell_casing_upper` (`src/checker.rs` 289–299). -/
def spellUpperSharps (C : Checker) (fuel : Nat) (word : Str) : Dbg (Option FlagSet) :=
  if C.opts.checksharps && containsStr word ['S', 'S'] then
    or (spellSharps C fuel (C.lowercase word)) do
      let title ← lift (C.titlecase word)
      spellSharps C fuel title
  else .ok none

/-- `spell_casing_upper` (`src/checker.rs` 241–319). -/
def spellCasingUpper (C : Checker) (fuel : Nat) (word : Str) : Dbg (Option FlagSet) :=
  or (checkWord C fuel word .allowBad .accept) <|
  or (spellApostrophe C fuel word) <|
  or (spellUpperSharps C fuel word) <|
  or (do
    let title ← lift (C.titlecase word)
    (checkWord C fuel title .allowBad .accept).map C.dropKeepCase) <|
  (checkWord C fuel (C.lowercase word) .allowBad .accept).map C.dropKeepCase

/-- `spell_casing_title` (`src/checker.rs` 376–402). -/
def spellCasingTitle (C : Checker) (fuel : Nat) (word : Str) : Dbg (Option FlagSet) :=
  or (checkWord C fuel word .allowBad .skip) <|
  (checkWord C fuel (C.lowercase word) .allowBad .accept).map (C.titleKeepCase (C.lowercase word))

/-- The first arm of `spell_casing` (`src/checker.rs` 200–221). -/
def spellCasingAsIs (C : Checker) (fuel : Nat) (word : Str) (pascal : Bool) : Dbg (Option FlagSet) :=
  or (checkWord C fuel word .forbidBad .accept) <|
  or (if C.checkLowerAsTitle && !pascal then do
      let title ← lift (C.titlecase word)
      spellCasingTitle C fuel title
    else .ok none) <|
  if C.checkLowerAsUpper then spellCasingUpper C fuel (C.opts.caseHandling.uppercase C.U word)
  else .ok none

/-- `spell_casing` (`src/checker.rs` 196–225). -/
def spellCasing (C : Checker) (fuel : Nat) (word : Str) : Dbg (Option FlagSet) :=
  match classifyCasing C.U word with
  | .none => spellCasingAsIs C fuel word false
  | .camel => spellCasingAsIs C fuel word false
  | .pascal => spellCasingAsIs C fuel word true
  | .all => spellCasingUpper C fuel word
  | .init => spellCasingTitle C fuel word

/-- The three loops of `do_spell_break` (`src/checker.rs` 159–191) around the recursive call. -/
def breakLoops (C : Checker) (rec' : Str → Dbg Bool) (word : Str) : Dbg Bool := do
  if ← any (fun pat => match stripPrefix? word pat with
      | some rest => rec' rest
      | none => .ok false) C.aff.breakTable.startBreaks then pure true
  else if ← any (fun pat => match stripSuffix? word pat with
      | some rest => rec' rest
      | none => .ok false) C.aff.breakTable.endBreaks then pure true
  else any (fun pat => match splitOnce? pat word with
      | some (part1, part2) =>
        if part2.isEmpty then .ok false
        else do if ← rec' part1 then rec' part2 else pure false
      | none => .ok false) C.aff.breakTable.middleBreaks

/-- `do_spell_break` (`src/checker.rs` 139–194); the argument is the remaining depth. -/
def doSpellBreak (C : Checker) (fuel : Nat) : Nat → Str → Dbg Bool
  | 0, word => do
    match ← spellCasing C fuel word with
    | some flags => pure (C.goodFlags flags)
    | none => pure false
  | d + 1, word => do
    match ← spellCasing C fuel word with
    | some flags => pure (C.goodFlags flags)
    | none => breakLoops C (doSpellBreak C fuel d) word

/-- `check` (`src/checker.rs` 98–131). -/
def check (C : Checker) (fuel : Nat) (word : Str) : Dbg Bool :=
  if byteLen word > maxWordLen then .ok false
  else do
    let word ← lift (Bytes.convert C.aff.inputConversions word)
    if word.isEmpty then .ok true
    else
      let trimmed := trimEndMatches '.' word
      if isNumber trimmed then .ok true
      else do
        if ← doSpellBreak C fuel 9 (eraseChars trimmed C.aff.ignoreChars) then pure true
        else if byteLen trimmed != byteLen word then doSpellBreak C fuel 9 word
        else pure false

end Spellbook.Debug
