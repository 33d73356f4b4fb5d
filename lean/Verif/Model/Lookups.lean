import Verif.Model.Work
import Verif.Model.Suggest
/-!
# How often `suggest` asks the checker

This file models `suggest` once more (`Suggest.lean`) and counts its lookups while it runs: the calls of
`check_word`, `check_simple_word`, `check_compound` and `check` in `src/suggester.rs`. The results are those of the
other file. Functions which look nothing up are used from there, among them the search for similar words
(`src/suggester/ngram.rs`), which goes through the word list on its own.
-/

namespace Spellbook.Lookups
open Work Counted

/-- A call of the checker. `src/suggester.rs` 104, 144, 151, 158, 192, 240, 252, 299, 303, 308, 345,
380, 482, 928, 936. -/
def lookup {α : Type} (r : Run α) : Counted α := call (free r)

/-- A loop which changes a variable. Part of the model only, for `src/suggester.rs` 353–361. -/
def loop {α β : Type} (f : β → α → Counted β) : List α → β → Counted β
  | [], b => free (.ok b)
  | a :: as, b => do loop f as (← f b a)

variable (S : Suggester) (fuel : Nat)

/-- `add_suggestion_if_correct` (`src/suggester.rs` 374–400). -/
def addIfCorrect (word : Str) (out : List Str) : Counted (Bool × List Str) := do
  match ← lookup (S.C.checkWord fuel word .forbidBad .skip) with
  | none => pure (false, out)
  | some flags =>
    if flags.contains S.C.opts.forbiddenWordFlag then pure (false, out)
    else if S.C.opts.forbidWarn && hasFlag flags S.C.opts.warnFlag then pure (false, out)
    else pure (true, out ++ [word])

/-- A vector after an edit method which tried the given texts.
Part of the model only, for `src/suggester.rs` 353–361. -/
def addAll (texts : List Str) (out : List Str) : Counted (List Str) :=
  loop (fun out t => do pure (← addIfCorrect S fuel t out).2) texts out

/-- `uppercase_suggest` (`src/suggester.rs` 405–408). -/
def uppercaseSuggest (word : Str) (out : List Str) : Counted (List Str) := do
  pure (← addIfCorrect S fuel (S.C.opts.caseHandling.uppercase S.C.U word) out).2

/-- The lookups of the parts of a text (`src/suggester.rs` 478–496). -/
def allParts : List Str → Counted Bool
  | [] => free (.ok true)
  | p :: ps => do
    match ← lookup (S.C.checkWord fuel p .forbidBad .skip) with
    | none => pure false
    | some _ => allParts ps

/-- `try_rep_suggestion` (`src/suggester.rs` 468–499). -/
def tryRep (word : Str) (out : List Str) : Counted (List Str) := do
  let (added, out) ← addIfCorrect S fuel word out
  if added then pure out
  else if containsStr word [' '] then
    if ← allParts S fuel (spacedParts [] word) then pure (out ++ [word]) else pure out
  else pure out

/-- `rep_suggest` (`src/suggester.rs` 416–466). -/
def repSuggest (word : Str) (out : List Str) : Counted (List Str) := do
  let texts ← free (Run.ofOption ((repEdits S.C.aff.replacements word).run word 0))
  loop (fun out t => tryRep S fuel t out) texts out

/-- `map_suggest` (`src/suggester.rs` 505–508). -/
def mapSuggest (word : Str) (out : List Str) : Counted (List Str) := do
  let attempts ← free (S.maxAttempts word)
  let texts ← free (Run.ofOption (mapTexts S.C.aff.similarities word attempts))
  addAll S fuel texts out

/-- An edit method without a limit on the attempts. Part of the model only, for `src/suggester.rs` 353–361. -/
def unlimited (e : Edit) (word : Str) (out : List Str) : Counted (List Str) := do
  let texts ← free (Run.ofOption (e.run word 0))
  addAll S fuel texts out

/-- An edit method with a limit on the attempts. Part of the model only, for `src/suggester.rs` 353–361. -/
def limited (e : Edit) (word : Str) (out : List Str) : Counted (List Str) := do
  let attempts ← free (S.maxAttempts word)
  let texts ← free (Run.ofOption (e.run word attempts))
  addAll S fuel texts out

/-- One pair of halves of `two_words_suggest` (`src/suggester.rs` 925–971). -/
def twoWordsAt (out : List Str) : Str × Str → Counted (List Str)
  | (word1, word2) => do
    if (← lookup (.ok (S.C.checkSimpleWord word1 .skip))).isNone then pure out
    else if (← lookup (.ok (S.C.checkSimpleWord word2 .skip))).isNone then pure out
    else
      let out := out ++ [word1 ++ ' ' :: word2]
      if word1.length > 1 ∧ word2.length > 1 ∧ (S.C.aff.tryChars.contains 'a' ∨ S.C.aff.tryChars.contains '-')
      then pure (out ++ [word1 ++ '-' :: word2]) else pure out

/-- `two_words_suggest` (`src/suggester.rs` 914–973). -/
def twoWordsSuggest (word : Str) (out : List Str) : Counted (List Str) :=
  if S.C.opts.noSplitSuggestions then free (.ok out) else loop (twoWordsAt S) (wordCuts word) out

/-- Whether the suggestions of the first three methods are of high quality (`src/suggester.rs` 337–351). -/
def highQuality (word : Str) (oldLen newLen : Nat) : Counted Bool :=
  if newLen ≠ oldLen then free (.ok true)
  else if S.C.aff.similarities.isEmpty then free (.ok false)
  else lookup ((S.C.checkWord fuel word .allowBad .skip).map (·.isSome))

/-- The other methods (`src/suggester.rs` 353–361). -/
def suggestEdits (word : Str) (out : List Str) : Counted (List Str) := do
  let out ← unlimited S fuel (adjacentSwapEdits word) word out
  let out ← limited S fuel (distantSwapEdits word) word out
  let out ← unlimited S fuel (keyboardEdits S.C.U S.C.aff.keyboardCloseness word) word out
  let out ← unlimited S fuel (extraCharEdits word) word out
  let out ← limited S fuel (forgottenCharEdits S.C.aff.tryChars word) word out
  let out ← limited S fuel (moveCharEdits word) word out
  let out ← limited S fuel (wrongCharEdits S.C.aff.tryChars word) word out
  let out ← unlimited S fuel (doubledCharsEdits word) word out
  twoWordsSuggest S word out

/-- `suggest_low` (`src/suggester.rs` 330–363). -/
def suggestLow (word : Str) (out : List Str) : Counted (Bool × List Str) := do
  let oldLen := out.length
  let out ← uppercaseSuggest S fuel word out
  let out ← repSuggest S fuel word out
  let out ← mapSuggest S fuel word out
  let hq ← highQuality S fuel word oldLen out.length
  let out ← suggestEdits S fuel word out
  pure (hq, out)

/-- `suggest_low` on another spelling, which then goes to the front if it is a word (`src/suggester.rs` 143–146,
150–153, 157–160). -/
def lowThenFront (word : Str) (hq : Bool) (out : List Str) : Counted (Bool × List Str) := do
  let (q, out) ← suggestLow S fuel word out
  pure (hq || q, if ← lookup (S.C.check fuel word) then word :: out else out)

/-- The first letter in lower case, for Pascal case (`src/suggester.rs` 135–147). -/
def pascalLower (pascal : Bool) (word : Str) (r : Bool × List Str) : Counted (Bool × List Str) :=
  if pascal then do
    let lowered ← free (Run.ofOption (S.C.opts.caseHandling.lowerFirstChar S.C.U word))
    lowThenFront S fuel lowered r.1 r.2
  else free (.ok r)

/-- Title case, for Pascal case (`src/suggester.rs` 155–161). -/
def pascalTitle (pascal : Bool) (word : Str) (r : Bool × List Str) : Counted (Bool × List Str) :=
  if pascal then do
    let title ← free (S.C.titlecase word)
    lowThenFront S fuel title r.1 r.2
  else free (.ok r)

/-- The part for camel and Pascal case (`src/suggester.rs` 117–189). -/
def mixedCase (pascal : Bool) (word : Str) (out : List Str) : Counted (Bool × List Str) := do
  let (hq, out) ← suggestLow S fuel word out
  let out := S.dotSpace word out
  let r ← pascalLower S fuel pascal word (hq, out)
  let r ← lowThenFront S fuel (S.C.lowercase word) r.1 r.2
  let r ← pascalTitle S fuel pascal word r
  pure (r.1, ← free (S.titleSecond word [] r.2))

/-- The word in lower case, if that is right under KEEPCASE (`src/suggester.rs` 192–194). -/
def keepLower (lower : Str) (out : List Str) : Counted (List Str) :=
  if S.C.opts.keepCaseFlag.isSome then do
    pure (if ← lookup (S.C.check fuel lower) then lower :: out else out)
  else free (.ok out)

/-- The part for all upper case (`src/suggester.rs` 190–202). -/
def allCaps (word : Str) (out : List Str) : Counted (Bool × List Str) := do
  let lower := S.C.lowercase word
  let out ← keepLower S fuel lower out
  let (hq1, out) ← suggestLow S fuel lower out
  let title ← free (S.C.titlecase lower)
  let (hq2, out) ← suggestLow S fuel title out
  pure (hq1 || hq2, out.map (S.C.opts.caseHandling.uppercase S.C.U))

/-- The part for an initial capital (`src/suggester.rs` 112–116). -/
def initCase (word : Str) (out : List Str) : Counted (Bool × List Str) := do
  let (hq1, out) ← suggestLow S fuel word out
  let (hq2, out) ← suggestLow S fuel (S.C.lowercase word) out
  pure (hq1 || hq2, out)

/-- One corrected part of a word with dashes (`src/suggester.rs` 244–258). -/
def dashCandidate (pre post : Str) (out : List Str) (s : Str) : Counted (List Str) := do
  let buffer := pre ++ s ++ post
  match ← lookup (S.C.checkWord fuel buffer .forbidBad .accept) with
  | some flags =>
    pure (if flags.contains S.C.opts.forbiddenWordFlag then out else out ++ [buffer])
  | none => pure (out ++ [buffer])

/-- One part of a word with dashes (`src/suggester.rs` 235–260). -/
def dashPart (rec' : Str → List Str → Counted (List Str)) (out : List Str) : Str × Str × Str → Counted (List Str)
  | (pre, part, post) => do
    if ← lookup (S.C.check fuel part) then pure out
    else do
      let found ← rec' part []
      loop (dashCandidate S fuel pre post) found out

/-- The part for words with dashes (`src/suggester.rs` 228–267). -/
def dashes (rec' : Str → List Str → Counted (List Str)) (word : Str) (out : List Str) : Counted (List Str) :=
  if word.contains '-' && !(out.any fun s => s.contains '-') then
    loop (dashPart S fuel rec') (dashPieces [] [] word) out
  else free (.ok out)

/-- The closure of `retain_mut` (`src/suggester.rs` 295–313): the suggestion kept, if any. -/
def recheck (s : Str) : Counted (Option Str) := do
  if s.contains ' ' then pure (some s)
  else if ← lookup (S.C.check fuel s) then pure (some s)
  else
    let lower := S.C.lowercase s
    if ← lookup (S.C.check fuel lower) then pure (some lower)
    else do
      let title ← free (S.C.titlecase s)
      if ← lookup (S.C.check fuel title) then pure (some title) else pure none

/-- `retain_mut` (`src/suggester.rs` 295–313). -/
def recheckAll : List Str → Counted (List Str)
  | [] => free (.ok [])
  | s :: rest => do
    let r ← recheck S fuel s
    let rest ← recheckAll rest
    pure (r.toList ++ rest)

/-- The lookup of the results (`src/suggester.rs` 292–314). -/
def retained (casing : Casing) (out : List Str) : Counted (List Str) :=
  if casing = .init ∨ casing = .all then recheckAll S fuel out else free (.ok out)

/-- The end of `suggest_impl` (`src/suggester.rs` 269–327): capitals, lookup of the results, duplicates, OCONV. -/
def finish (casing : Casing) (out : List Str) : Counted (List Str) := do
  let out ← free (S.capitalise casing out)
  let out ← retained S fuel casing out
  let out ← free (Run.ofOption (deduplicate? out))
  pure (out.map S.C.aff.outputConversions.convert)

/-- The parts after the `match` on the casing (`src/suggester.rs` 205–327). -/
def afterCasing (rec' : Str → List Str → Counted (List Str)) (casing : Casing) (word : Str) (r : Bool × List Str) :
    Counted (List Str) := do
  let out ← free (S.ngramPart casing word r.1 r.2)
  let out ← dashes S fuel rec' word out
  finish S fuel casing out

/-- A bad compound under FORCEUCASE (`src/suggester.rs` 96–106). -/
def forceTitle (word : Str) : Counted Bool :=
  if S.C.opts.compoundForceUppercaseFlag.isSome then
    lookup ((S.C.checkCompound fuel .atBegin word .allowBad).map (·.isSome))
  else free (.ok false)

/-- `suggest_impl` (`src/suggester.rs` 83–328) on a word after ICONV. -/
def suggestConverted (rec' : Str → List Str → Counted (List Str)) (word : Str) (out : List Str) :
    Counted (List Str) :=
  match classifyCasing S.C.U word with
  | .none => do
    if ← forceTitle S fuel word then pure (out ++ [← free (S.C.titlecase word)])
    else afterCasing S fuel rec' .none word (← suggestLow S fuel word out)
  | .init => do afterCasing S fuel rec' .init word (← initCase S fuel word out)
  | .camel => do afterCasing S fuel rec' .camel word (← mixedCase S fuel false word out)
  | .pascal => do afterCasing S fuel rec' .pascal word (← mixedCase S fuel true word out)
  | .all => do afterCasing S fuel rec' .all word (← allCaps S fuel word out)

/-- `suggest_impl` (`src/suggester.rs` 83–328). -/
def suggestImpl : Nat → Str → List Str → Counted (List Str)
  | 0, _, _ => free (.error .fuel)
  | depth + 1, word, out =>
    if word = [] then free (.ok out)
    else suggestConverted S fuel (suggestImpl depth) (S.C.aff.inputConversions.convert word) out

/-- `suggest` (`src/suggester.rs` 74–81). -/
def suggest (depth : Nat) (word : Str) (out : List Str) : Counted (List Str) :=
  let out := out.take 0
  if byteLen word > maxWordLen then free (.ok out) else suggestImpl S fuel depth word out

end Spellbook.Lookups
