import Verif.Model.Edits
import Verif.Model.Ngram
/-!
# The suggester

Models `src/suggester.rs` 24–500, 914–1031 on top of `Edits.lean` (the texts each edit method tries)
and `Ngram.lean`. `fuel` bounds the depth of the compound search of every lookup, `depth` the
recursion of `suggest_impl` on the parts of a word with dashes. `debug_assert!`s are panics.
-/

namespace Spellbook

/-! ## Removing duplicates -/

/-- `slice::swap`; `none` is a panic. Standard library, used at `src/suggester.rs` 1019–1025. -/
def swapItems? {α : Type} (items : List α) (i j : Nat) : Option (List α) :=
  match items[i]?, items[j]? with
  | some a, some b => some ((items.set i b).set j a)
  | _, _ => none

/-- The inner loop of `deduplicate` (`src/suggester.rs` 1019–1025): the items and `result` afterwards. -/
def dedupInner {α : Type} [DecidableEq α] (idx last first result : Nat) (items : List α) :
    Option (List α × Nat) :=
  if first < last then
    match items[first]?, items[idx]? with
    | some a, some b =>
      if a ≠ b then
        (swapItems? items result first).bind fun items => dedupInner idx last (first + 1) (result + 1) items
      else dedupInner idx last (first + 1) result items
    | _, _ => none
  else some (items, result)
termination_by last - first

/-- The outer loop of `deduplicate` (`src/suggester.rs` 1011–1028); `idx` grows in every round, so as many rounds as
there are items suffice. -/
def dedupOuter {α : Type} [DecidableEq α] : Nat → Nat → Nat → List α → Option (List α × Nat)
  | 0, _, last, items => some (items, last)
  | rounds + 1, idx, last, items =>
    if idx < last then
      match items[idx]? with
      | none => none
      | some x =>
        match ((items.take last).drop (idx + 1)).findIdx? (· == x) with
        | none => dedupOuter rounds (idx + 1) last items
        | some first =>
          (dedupInner idx last (first + idx + 1 + 1) (first + idx + 1) items).bind fun (items, result) =>
            dedupOuter rounds (idx + 1) result items
    else some (items, last)

/-- `deduplicate` (`src/suggester.rs` 1004–1031). -/
def deduplicate? {α : Type} [DecidableEq α] (items : List α) : Option (List α) :=
  if items.isEmpty then some items
  else (dedupOuter items.length 0 items.length items).map fun (items, last) => items.take last

/-! ## Splitting at dashes and spaces -/

/-- The parts of a word between dashes, each with the text before it, `&word[..i]`, and the text after
it, `&word[j..]` (`src/suggester.rs` 233–239, 262–265). The arguments are the text before the current part, the current
part so far, and the rest. -/
def dashPieces : Str → Str → Str → List (Str × Str × Str)
  | pre, cur, [] => [(pre, cur, [])]
  | pre, cur, c :: rest =>
    if c = '-' then (pre, cur, c :: rest) :: dashPieces (pre ++ cur ++ [c]) [] rest
    else dashPieces pre (cur ++ [c]) rest

/-- The parts of a text which `try_rep_suggestion` looks up: those followed by a space
(`src/suggester.rs` 477–496). -/
def spacedParts : Str → Str → List Str
  | _, [] => []
  | cur, c :: rest => if c = ' ' then cur :: spacedParts [] rest else spacedParts (cur ++ [c]) rest

/-- All ways to split a word in front of one of its characters: `for (n, (idx, _)) in
word.char_indices().enumerate()` with `&word[..idx]` and `&word[idx..]` (`src/suggester.rs` 922–933). -/
def wordCuts (word : Str) : List (Str × Str) :=
  (List.range word.length).map fun n => (word.take n, word.drop n)

/-- `struct Suggester` (`src/suggester.rs` 25–28), together with the heaps of the standard library. -/
structure Suggester where
  C : Checker
  H : Heaps
  ngram : Bool := true

/-- `into_suggester`, `new` (`src/suggester.rs` 38–51): suggestions by similarity are on by default. -/
def Checker.intoSuggester (C : Checker) (H : Heaps) : Suggester := { C, H, ngram := true }

/-- `Option::unwrap` and friends. Part of the model only, for `src/suggester.rs` 83–328. -/
def Run.ofOption {α : Type} : Option α → Run α
  | some a => .ok a
  | none => .error .panic

namespace Suggester

/-- `max_attempts_for_long_alogs` (`src/suggester.rs` 980–997). `u64` and `usize` are unbounded; the division by the
length of an empty word is a panic. -/
def maxAttempts (S : Suggester) (word : Str) : Run Nat :=
  let p := S.C.aff.prefixes.table.length / 20
  let s := S.C.aff.suffixes.table.length / 20
  let cost := 1 + p + s + p * s
  let cost := if S.C.opts.complexPrefixes then cost + (p * p + 2 * s * p * p)
    else cost + (s * s + 2 * p * s * s)
  let cost := min (max cost 250000) 25000000000
  let attempts := 25000000000 / cost
  if S.C.opts.allowsCompounding then
    if byteLen word = 0 then .error .panic else .ok (attempts / byteLen word)
  else .ok attempts

/-- `add_suggestion_if_correct` (`src/suggester.rs` 374–400): whether it added the word, and the vector afterwards. -/
def addIfCorrect (S : Suggester) (fuel : Nat) (word : Str) (out : List Str) : Run (Bool × List Str) := do
  match ← S.C.checkWord fuel word .forbidBad .skip with
  | none => pure (false, out)
  | some flags =>
    if flags.contains S.C.opts.forbiddenWordFlag then pure (false, out)
    else if S.C.opts.forbidWarn && hasFlag flags S.C.opts.warnFlag then pure (false, out)
    else pure (true, out ++ [word])

/-- A vector after an edit method which tried the given texts.
Part of the model only, for `src/suggester.rs` 353–361. -/
def addAll (S : Suggester) (fuel : Nat) (texts : List Str) (out : List Str) : Run (List Str) :=
  texts.foldlM (fun out t => do pure (← S.addIfCorrect fuel t out).2) out

/-- `uppercase_suggest` (`src/suggester.rs` 405–408). -/
def uppercaseSuggest (S : Suggester) (fuel : Nat) (word : Str) (out : List Str) : Run (List Str) := do
  pure (← S.addIfCorrect fuel (S.C.opts.caseHandling.uppercase S.C.U word) out).2

/-- The lookups of the parts of a text (`src/suggester.rs` 478–496). -/
def allParts (S : Suggester) (fuel : Nat) : List Str → Run Bool
  | [] => .ok true
  | p :: ps => do
    match ← S.C.checkWord fuel p .forbidBad .skip with
    | none => pure false
    | some _ => S.allParts fuel ps

/-- `try_rep_suggestion` (`src/suggester.rs` 468–499). -/
def tryRep (S : Suggester) (fuel : Nat) (word : Str) (out : List Str) : Run (List Str) := do
  let (added, out) ← S.addIfCorrect fuel word out
  if added then pure out
  else if containsStr word [' '] then
    if ← S.allParts fuel (spacedParts [] word) then pure (out ++ [word]) else pure out
  else pure out

/-- `rep_suggest` (`src/suggester.rs` 416–466). -/
def repSuggest (S : Suggester) (fuel : Nat) (word : Str) (out : List Str) : Run (List Str) := do
  let texts ← Run.ofOption ((repEdits S.C.aff.replacements word).run word 0)
  texts.foldlM (fun out t => S.tryRep fuel t out) out

/-- `map_suggest` (`src/suggester.rs` 505–508). -/
def mapSuggest (S : Suggester) (fuel : Nat) (word : Str) (out : List Str) : Run (List Str) := do
  let attempts ← S.maxAttempts word
  let texts ← Run.ofOption (mapTexts S.C.aff.similarities word attempts)
  S.addAll fuel texts out

/-- An edit method without a limit on the attempts. Part of the model only, for `src/suggester.rs` 353–361. -/
def free (S : Suggester) (fuel : Nat) (e : Edit) (word : Str) (out : List Str) : Run (List Str) := do
  let texts ← Run.ofOption (e.run word 0)
  S.addAll fuel texts out

/-- An edit method with a limit on the attempts. Part of the model only, for `src/suggester.rs` 353–361. -/
def limited (S : Suggester) (fuel : Nat) (e : Edit) (word : Str) (out : List Str) : Run (List Str) := do
  let attempts ← S.maxAttempts word
  let texts ← Run.ofOption (e.run word attempts)
  S.addAll fuel texts out

/-- One pair of halves of `two_words_suggest` (`src/suggester.rs` 925–971). -/
def twoWordsAt (S : Suggester) (out : List Str) : Str × Str → List Str
  | (word1, word2) =>
    if (S.C.checkSimpleWord word1 .skip).isNone then out
    else if (S.C.checkSimpleWord word2 .skip).isNone then out
    else
      let out := out ++ [word1 ++ ' ' :: word2]
      if word1.length > 1 ∧ word2.length > 1 ∧ (S.C.aff.tryChars.contains 'a' ∨ S.C.aff.tryChars.contains '-')
      then out ++ [word1 ++ '-' :: word2] else out

/-- `two_words_suggest` (`src/suggester.rs` 914–973). -/
def twoWordsSuggest (S : Suggester) (word : Str) (out : List Str) : List Str :=
  if S.C.opts.noSplitSuggestions then out else (wordCuts word).foldl S.twoWordsAt out

/-- Whether the suggestions of the first three methods are of high quality (`src/suggester.rs` 337–351). -/
def highQuality (S : Suggester) (fuel : Nat) (word : Str) (oldLen newLen : Nat) : Run Bool :=
  if newLen ≠ oldLen then .ok true
  else if S.C.aff.similarities.isEmpty then .ok false
  else (S.C.checkWord fuel word .allowBad .skip).map (·.isSome)

/-- The other methods (`src/suggester.rs` 353–361). -/
def suggestEdits (S : Suggester) (fuel : Nat) (word : Str) (out : List Str) : Run (List Str) := do
  let out ← S.free fuel (adjacentSwapEdits word) word out
  let out ← S.limited fuel (distantSwapEdits word) word out
  let out ← S.free fuel (keyboardEdits S.C.U S.C.aff.keyboardCloseness word) word out
  let out ← S.free fuel (extraCharEdits word) word out
  let out ← S.limited fuel (forgottenCharEdits S.C.aff.tryChars word) word out
  let out ← S.limited fuel (moveCharEdits word) word out
  let out ← S.limited fuel (wrongCharEdits S.C.aff.tryChars word) word out
  let out ← S.free fuel (doubledCharsEdits word) word out
  pure (S.twoWordsSuggest word out)

/-- `suggest_low` (`src/suggester.rs` 330–363). -/
def suggestLow (S : Suggester) (fuel : Nat) (word : Str) (out : List Str) : Run (Bool × List Str) := do
  let oldLen := out.length
  let out ← S.uppercaseSuggest fuel word out
  let out ← S.repSuggest fuel word out
  let out ← S.mapSuggest fuel word out
  let hq ← S.highQuality fuel word oldLen out.length
  let out ← S.suggestEdits fuel word out
  pure (hq, out)

/-! ## The parts of `suggest_impl` -/

/-- `suggest_low` on another spelling, which then goes to the front if it is a word (`src/suggester.rs` 143–146,
150–153, 157–160). -/
def lowThenFront (S : Suggester) (fuel : Nat) (word : Str) (hq : Bool) (out : List Str) :
    Run (Bool × List Str) := do
  let (q, out) ← S.suggestLow fuel word out
  pure (hq || q, if ← S.C.check fuel word then word :: out else out)

/-- The suggestion of a space after the first dot (`src/suggester.rs` 120–130). -/
def dotSpace (S : Suggester) (word : Str) (out : List Str) : List Str :=
  match splitOnce? ['.'] word with
  | some (before, after) =>
    if classifyCasing S.C.U after = .init then (before ++ ['.', ' '] ++ after) :: out else out
  | none => out

/-- The word ends with the given text: `word.len().checked_sub(len).and_then(|s| word.get(s..))
.is_some_and(|tail| text == *tail)` (`src/suggester.rs` 169–173). -/
def hasTail (word text : Str) : Bool :=
  if byteLen word < byteLen text then false
  else match sliceFrom? word (byteLen word - byteLen text) with
    | some tail => text == tail
    | none => false

/-- `upper_char_at`, at a character position; panics if there is no character.
`src/aff.rs` 1315–1345, as at `src/suggester.rs` 182, 276. -/
def upperAt (S : Suggester) (s : Str) (idx : Nat) : Run Str :=
  Run.ofOption (S.C.opts.caseHandling.upperCharAt S.C.U s idx)

/-- The loop which capitalises the second word of suggestions (`src/suggester.rs` 163–188); `done` is
`out[..i]`. -/
def titleSecond (S : Suggester) (word : Str) (done : List Str) : List Str → Run (List Str)
  | [] => .ok done
  | s :: rest =>
    match splitOnce? [' '] s with
    | none => S.titleSecond word (done ++ [s]) rest
    | some (before, after) =>
      if hasTail word after then S.titleSecond word (done ++ [s]) rest
      else do
        let titled ← S.upperAt s (before.length + 1)
        S.titleSecond word (titled :: done) rest

/-- The first letter in lower case, for Pascal case (`src/suggester.rs` 135–147). -/
def pascalLower (S : Suggester) (fuel : Nat) (pascal : Bool) (word : Str) (r : Bool × List Str) :
    Run (Bool × List Str) :=
  if pascal then do
    let lowered ← Run.ofOption (S.C.opts.caseHandling.lowerFirstChar S.C.U word)
    S.lowThenFront fuel lowered r.1 r.2
  else .ok r

/-- Title case, for Pascal case (`src/suggester.rs` 155–161). -/
def pascalTitle (S : Suggester) (fuel : Nat) (pascal : Bool) (word : Str) (r : Bool × List Str) :
    Run (Bool × List Str) :=
  if pascal then do
    let title ← S.C.titlecase word
    S.lowThenFront fuel title r.1 r.2
  else .ok r

/-- The part for camel and Pascal case (`src/suggester.rs` 117–189). -/
def mixedCase (S : Suggester) (fuel : Nat) (pascal : Bool) (word : Str) (out : List Str) :
    Run (Bool × List Str) := do
  let (hq, out) ← S.suggestLow fuel word out
  let out := S.dotSpace word out
  let r ← S.pascalLower fuel pascal word (hq, out)
  let r ← S.lowThenFront fuel (S.C.lowercase word) r.1 r.2
  let r ← S.pascalTitle fuel pascal word r
  pure (r.1, ← S.titleSecond word [] r.2)

/-- The word in lower case, if that is right under KEEPCASE (`src/suggester.rs` 192–194). -/
def keepLower (S : Suggester) (fuel : Nat) (lower : Str) (out : List Str) : Run (List Str) :=
  if S.C.opts.keepCaseFlag.isSome then do
    pure (if ← S.C.check fuel lower then lower :: out else out)
  else .ok out

/-- The part for all upper case (`src/suggester.rs` 190–202). -/
def allCaps (S : Suggester) (fuel : Nat) (word : Str) (out : List Str) : Run (Bool × List Str) := do
  let lower := S.C.lowercase word
  let out ← S.keepLower fuel lower out
  let (hq1, out) ← S.suggestLow fuel lower out
  let title ← S.C.titlecase lower
  let (hq2, out) ← S.suggestLow fuel title out
  pure (hq1 || hq2, out.map (S.C.opts.caseHandling.uppercase S.C.U))

/-- The part for an initial capital (`src/suggester.rs` 112–116). -/
def initCase (S : Suggester) (fuel : Nat) (word : Str) (out : List Str) : Run (Bool × List Str) := do
  let (hq1, out) ← S.suggestLow fuel word out
  let (hq2, out) ← S.suggestLow fuel (S.C.lowercase word) out
  pure (hq1 || hq2, out)

/-- The suggestions by similarity (`src/suggester.rs` 205–224). -/
def ngramPart (S : Suggester) (casing : Casing) (word : Str) (hq : Bool) (out : List Str) :
    Run (List Str) :=
  if S.ngram && !hq && S.C.opts.maxNgramSuggestions != 0 then do
    let buffer := if casing = .none then word else S.C.lowercase word
    let oldLen := out.length
    let out ← S.C.ngramSuggest S.H buffer out
    pure (if casing = .all then
        out.take oldLen ++ (out.drop oldLen).map (S.C.opts.caseHandling.uppercase S.C.U)
      else out)
  else .ok out

/-- One corrected part of a word with dashes (`src/suggester.rs` 244–258). -/
def dashCandidate (S : Suggester) (fuel : Nat) (pre post : Str) (out : List Str) (s : Str) :
    Run (List Str) := do
  let buffer := pre ++ s ++ post
  match ← S.C.checkWord fuel buffer .forbidBad .accept with
  | some flags =>
    pure (if flags.contains S.C.opts.forbiddenWordFlag then out else out ++ [buffer])
  | none => pure (out ++ [buffer])

/-- One part of a word with dashes (`src/suggester.rs` 235–260). -/
def dashPart (S : Suggester) (fuel : Nat) (rec' : Str → List Str → Run (List Str)) (out : List Str) :
    Str × Str × Str → Run (List Str)
  | (pre, part, post) => do
    if ← S.C.check fuel part then pure out
    else do
      let found ← rec' part []
      found.foldlM (S.dashCandidate fuel pre post) out

/-- The part for words with dashes (`src/suggester.rs` 228–267). -/
def dashes (S : Suggester) (fuel : Nat) (rec' : Str → List Str → Run (List Str)) (word : Str)
    (out : List Str) : Run (List Str) :=
  if word.contains '-' && !(out.any fun s => s.contains '-') then
    (dashPieces [] [] word).foldlM (S.dashPart fuel rec') out
  else .ok out

/-- The closure of `retain_mut` (`src/suggester.rs` 295–313): the suggestion kept, if any. -/
def recheck (S : Suggester) (fuel : Nat) (s : Str) : Run (Option Str) := do
  if s.contains ' ' then pure (some s)
  else if ← S.C.check fuel s then pure (some s)
  else
    let lower := S.C.lowercase s
    if ← S.C.check fuel lower then pure (some lower)
    else do
      let title ← S.C.titlecase s
      if ← S.C.check fuel title then pure (some title) else pure none

/-- `retain_mut` (`src/suggester.rs` 295–313). -/
def recheckAll (S : Suggester) (fuel : Nat) : List Str → Run (List Str)
  | [] => .ok []
  | s :: rest => do
    let r ← S.recheck fuel s
    let rest ← S.recheckAll fuel rest
    pure (r.toList ++ rest)

/-- The first letters in upper case (`src/suggester.rs` 269–280). -/
def capitalise (S : Suggester) (casing : Casing) (out : List Str) : Run (List Str) :=
  if casing = .init ∨ casing = .pascal then out.mapM fun s => S.upperAt s 0 else .ok out

/-- The lookup of the results (`src/suggester.rs` 292–314). -/
def retained (S : Suggester) (fuel : Nat) (casing : Casing) (out : List Str) : Run (List Str) :=
  if casing = .init ∨ casing = .all then S.recheckAll fuel out else .ok out

/-- The end of `suggest_impl` (`src/suggester.rs` 269–327): capitals, lookup of the results, duplicates, OCONV. -/
def finish (S : Suggester) (fuel : Nat) (casing : Casing) (out : List Str) : Run (List Str) := do
  let out ← S.capitalise casing out
  let out ← S.retained fuel casing out
  let out ← Run.ofOption (deduplicate? out)
  pure (out.map S.C.aff.outputConversions.convert)

/-- The parts after the `match` on the casing (`src/suggester.rs` 205–327). -/
def afterCasing (S : Suggester) (fuel : Nat) (rec' : Str → List Str → Run (List Str)) (casing : Casing)
    (word : Str) (r : Bool × List Str) : Run (List Str) := do
  let out ← S.ngramPart casing word r.1 r.2
  let out ← S.dashes fuel rec' word out
  S.finish fuel casing out

/-- A bad compound under FORCEUCASE (`src/suggester.rs` 96–106). -/
def forceTitle (S : Suggester) (fuel : Nat) (word : Str) : Run Bool :=
  if S.C.opts.compoundForceUppercaseFlag.isSome then
    (S.C.checkCompound fuel .atBegin word .allowBad).map (·.isSome)
  else .ok false

/-- `suggest_impl` (`src/suggester.rs` 83–328) on a word after ICONV. -/
def suggestConverted (S : Suggester) (fuel : Nat) (rec' : Str → List Str → Run (List Str)) (word : Str)
    (out : List Str) : Run (List Str) :=
  match classifyCasing S.C.U word with
  | .none => do
    if ← S.forceTitle fuel word then pure (out ++ [← S.C.titlecase word])
    else S.afterCasing fuel rec' .none word (← S.suggestLow fuel word out)
  | .init => do S.afterCasing fuel rec' .init word (← S.initCase fuel word out)
  | .camel => do S.afterCasing fuel rec' .camel word (← S.mixedCase fuel false word out)
  | .pascal => do S.afterCasing fuel rec' .pascal word (← S.mixedCase fuel true word out)
  | .all => do S.afterCasing fuel rec' .all word (← S.allCaps fuel word out)

/-- `suggest_impl` (`src/suggester.rs` 83–328). -/
def suggestImpl (S : Suggester) (fuel : Nat) : Nat → Str → List Str → Run (List Str)
  | 0, _, _ => .error .fuel
  | depth + 1, word, out =>
    if word = [] then .ok out
    else S.suggestConverted fuel (S.suggestImpl fuel depth) (S.C.aff.inputConversions.convert word) out

/-- `suggest` (`src/suggester.rs` 74–81): the vector `out` afterwards. The vector before is an argument, as in the
code. -/
def suggest (S : Suggester) (fuel depth : Nat) (word : Str) (out : List Str) : Run (List Str) :=
  let out := out.take 0
  if byteLen word > maxWordLen then .ok out else S.suggestImpl fuel depth word out

end Suggester
end Spellbook
