import Verif.Model.Debug
import Verif.Model.SuggestBytes
/-!
# The suggester in a debug build

`suggest` and all it calls once more, as in `SuggestBytes.lean`, with the lookups of `Debug.lean` and the
assertions of `src/suggester.rs`. The assertions about buffers are part of `Edits.lean` already: there a
failure is a panic of both builds, and C41 shows that none fails. Functions without lookups and assertions
are used from `SuggestBytes.lean`. `src/suggester/ngram.rs` has no assertions; its subtractions are of `k`
from the length of a text with at least `k` characters (615, 689, 695), of the number of equal characters
from the number of those compared (716), and of MAXDIFF from 10, which is a panic in both builds (247).
-/

namespace Spellbook.Debug

/-- `add_suggestion_if_correct` (`src/suggester.rs` 374–400). -/
def addIfCorrect (S : Suggester) (fuel : Nat) (word : Str) (out : List Str) : Dbg (Bool × List Str) := do
  match ← checkWord S.C fuel word .forbidBad .skip with
  | none => pure (false, out)
  | some flags =>
    if flags.contains S.C.opts.forbiddenWordFlag then pure (false, out)
    else if S.C.opts.forbidWarn && hasFlag flags S.C.opts.warnFlag then pure (false, out)
    else pure (true, out ++ [word])

/-- A vector after an edit method which tried the given texts.
Part of the model only, for `src/suggester.rs` 353–361. -/
def addAll (S : Suggester) (fuel : Nat) (texts : List Str) (out : List Str) : Dbg (List Str) :=
  texts.foldlM (fun out t => do pure (← addIfCorrect S fuel t out).2) out

/-- `uppercase_suggest` (`src/suggester.rs` 405–408). -/
def uppercaseSuggest (S : Suggester) (fuel : Nat) (word : Str) (out : List Str) : Dbg (List Str) := do
  pure (← addIfCorrect S fuel (S.C.opts.caseHandling.uppercase S.C.U word) out).2

/-- The lookups of the parts of a text (`src/suggester.rs` 478–496). -/
def allParts (S : Suggester) (fuel : Nat) : List Str → Dbg Bool
  | [] => .ok true
  | p :: ps => do
    match ← checkWord S.C fuel p .forbidBad .skip with
    | none => pure false
    | some _ => allParts S fuel ps

/-- `try_rep_suggestion` (`src/suggester.rs` 468–499). Simplification: all parts are cut out before the first
lookup; the cuts do not panic (`repParts_eq`). -/
def tryRep (S : Suggester) (fuel : Nat) (word : Str) (out : List Str) : Dbg (List Str) := do
  let (added, out) ← addIfCorrect S fuel word out
  if added then pure out
  else
    match ← lift (Bytes.repParts word) with
    | none => pure out
    | some parts => if ← allParts S fuel parts then pure (out ++ [word]) else pure out

/-- `rep_suggest` (`src/suggester.rs` 416–466). -/
def repSuggest (S : Suggester) (fuel : Nat) (word : Str) (out : List Str) : Dbg (List Str) := do
  let texts ← lift (Bytes.need ((repEdits S.C.aff.replacements word).run word 0))
  texts.foldlM (fun out t => tryRep S fuel t out) out

/-- `map_suggest` (`src/suggester.rs` 505–508). -/
def mapSuggest (S : Suggester) (fuel : Nat) (word : Str) (out : List Str) : Dbg (List Str) := do
  let attempts ← lift (S.maxAttempts word)
  let texts ← lift (Bytes.need (mapTexts S.C.aff.similarities word attempts))
  addAll S fuel texts out

/-- An edit method without a limit on the attempts. Part of the model only, for `src/suggester.rs` 353–361. -/
def free (S : Suggester) (fuel : Nat) (e : Edit) (word : Str) (out : List Str) : Dbg (List Str) := do
  let texts ← lift (Bytes.need (e.run word 0))
  addAll S fuel texts out

/-- An edit method with a limit on the attempts. Part of the model only, for `src/suggester.rs` 353–361. -/
def limited (S : Suggester) (fuel : Nat) (e : Edit) (word : Str) (out : List Str) : Dbg (List Str) := do
  let attempts ← lift (S.maxAttempts word)
  let texts ← lift (Bytes.need (e.run word attempts))
  addAll S fuel texts out

/-- One round of `two_words_suggest` (`src/suggester.rs` 922–971). -/
def twoWordsAt (S : Suggester) (word : Str) (out : List Str) (n idx : Nat) : Dbg (List Str) := do
  let word1 ← lift (Bytes.need (sliceTo? word idx))
  if (← checkSimpleWord S.C word1 .skip).isNone then pure out
  else
    let word2 ← lift (Bytes.need (sliceFrom? word idx))
    if (← checkSimpleWord S.C word2 .skip).isNone then pure out
    else
      let out := out ++ [word1 ++ [' '] ++ word2]
      if n > 1 ∧ word2[1]?.isSome ∧ (S.C.aff.tryChars.contains 'a' ∨ S.C.aff.tryChars.contains '-') then
        let hyphen ← lift (Bytes.need out.getLast?)
        assert .spaceBetween ((utf8 hyphen)[idx]? == some 0x20)
        pure (out ++ [← lift (Bytes.writeOne hyphen idx 0x2D)])
      else pure out

/-- `two_words_suggest` (`src/suggester.rs` 914–973). -/
def twoWordsSuggest (S : Suggester) (word : Str) (out : List Str) : Dbg (List Str) := do
  assert .wordPresent (word ≠ [])
  if S.C.opts.noSplitSuggestions then .ok out
  else ((charIndices 0 word).zipIdx).foldlM (fun out ((idx, _), n) => twoWordsAt S word out n idx) out

/-- Whether the suggestions of the first three methods are of high quality (`src/suggester.rs`
337–351). -/
def highQuality (S : Suggester) (fuel : Nat) (word : Str) (oldLen newLen : Nat) : Dbg Bool :=
  if newLen ≠ oldLen then .ok true
  else if S.C.aff.similarities.isEmpty then .ok false
  else (checkWord S.C fuel word .allowBad .skip).map (·.isSome)

/-- The other methods (`src/suggester.rs` 353–361), with the assertions at the start of
`adjacent_swap_suggest` (616), `distant_swap_suggest` (668) and `move_char_suggest` (773). -/
def suggestEdits (S : Suggester) (fuel : Nat) (word : Str) (out : List Str) : Dbg (List Str) := do
  assert .wordPresent (word ≠ [])
  let out ← free S fuel (adjacentSwapEdits word) word out
  assert .wordPresent (word ≠ [])
  let out ← limited S fuel (distantSwapEdits word) word out
  let out ← free S fuel (keyboardEdits S.C.U S.C.aff.keyboardCloseness word) word out
  let out ← free S fuel (extraCharEdits word) word out
  let out ← limited S fuel (forgottenCharEdits S.C.aff.tryChars word) word out
  assert .wordPresent (word ≠ [])
  let out ← limited S fuel (moveCharEdits word) word out
  let out ← limited S fuel (wrongCharEdits S.C.aff.tryChars word) word out
  let out ← free S fuel (doubledCharsEdits word) word out
  twoWordsSuggest S word out

/-- `suggest_low` (`src/suggester.rs` 330–363). -/
def suggestLow (S : Suggester) (fuel : Nat) (word : Str) (out : List Str) : Dbg (Bool × List Str) := do
  let oldLen := out.length
  let out ← uppercaseSuggest S fuel word out
  let out ← repSuggest S fuel word out
  let out ← mapSuggest S fuel word out
  let hq ← highQuality S fuel word oldLen out.length
  let out ← suggestEdits S fuel word out
  pure (hq, out)

/-- `suggest_low` on another spelling, which then goes to the front if it is a word
(`src/suggester.rs` 143–146, 150–153, 157–160). -/
def lowThenFront (S : Suggester) (fuel : Nat) (word : Str) (hq : Bool) (out : List Str) :
    Dbg (Bool × List Str) := do
  let (q, out) ← suggestLow S fuel word out
  pure (hq || q, if ← check S.C fuel word then word :: out else out)

/-- The first letter in lower case, for Pascal case (`src/suggester.rs` 135–147). -/
def pascalLower (S : Suggester) (fuel : Nat) (pascal : Bool) (word : Str) (r : Bool × List Str) :
    Dbg (Bool × List Str) :=
  if pascal then do
    let lowered ← lift (Bytes.lowerFirstChar S.C.U S.C.opts.caseHandling word)
    lowThenFront S fuel lowered r.1 r.2
  else .ok r

/-- Title case, for Pascal case (`src/suggester.rs` 155–161). -/
def pascalTitle (S : Suggester) (fuel : Nat) (pascal : Bool) (word : Str) (r : Bool × List Str) :
    Dbg (Bool × List Str) :=
  if pascal then do
    let title ← lift (S.C.titlecase word)
    lowThenFront S fuel title r.1 r.2
  else .ok r

/-- The subtraction in the loop which capitalises the second word of suggestions (`src/suggester.rs` 168) is a
panic of both builds in `titleAt`. The part for camel and Pascal case (117–189). -/
def mixedCase (S : Suggester) (fuel : Nat) (pascal : Bool) (word : Str) (out : List Str) :
    Dbg (Bool × List Str) := do
  let (hq, out) ← suggestLow S fuel word out
  let out ← lift (Bytes.dotSpace S word out)
  let r ← pascalLower S fuel pascal word (hq, out)
  let r ← lowThenFront S fuel (S.C.lowercase word) r.1 r.2
  let r ← pascalTitle S fuel pascal word r
  pure (r.1, ← lift (Bytes.titleSecond S word r.2))

/-- The word in lower case, if that is right under KEEPCASE (`src/suggester.rs` 192–194). -/
def keepLower (S : Suggester) (fuel : Nat) (lower : Str) (out : List Str) : Dbg (List Str) :=
  if S.C.opts.keepCaseFlag.isSome then do
    pure (if ← check S.C fuel lower then lower :: out else out)
  else .ok out

/-- The part for all upper case (`src/suggester.rs` 190–202). -/
def allCaps (S : Suggester) (fuel : Nat) (word : Str) (out : List Str) : Dbg (Bool × List Str) := do
  let lower := S.C.lowercase word
  let out ← keepLower S fuel lower out
  let (hq1, out) ← suggestLow S fuel lower out
  let title ← lift (S.C.titlecase lower)
  let (hq2, out) ← suggestLow S fuel title out
  pure (hq1 || hq2, out.map (S.C.opts.caseHandling.uppercase S.C.U))

/-- The part for an initial capital (`src/suggester.rs` 112–116). -/
def initCase (S : Suggester) (fuel : Nat) (word : Str) (out : List Str) : Dbg (Bool × List Str) := do
  let (hq1, out) ← suggestLow S fuel word out
  let (hq2, out) ← suggestLow S fuel (S.C.lowercase word) out
  pure (hq1 || hq2, out)

/-- One corrected part of a word with dashes (`src/suggester.rs` 244–258). -/
def dashCandidate (S : Suggester) (fuel : Nat) (pre post : Str) (out : List Str) (s : Str) :
    Dbg (List Str) := do
  let buffer := pre ++ s ++ post
  match ← checkWord S.C fuel buffer .forbidBad .accept with
  | some flags =>
    pure (if flags.contains S.C.opts.forbiddenWordFlag then out else out ++ [buffer])
  | none => pure (out ++ [buffer])

/-- One part of a word with dashes (`src/suggester.rs` 235–260). -/
def dashPart (S : Suggester) (fuel : Nat) (rec' : Str → List Str → Dbg (List Str)) (out : List Str) :
    Str × Str × Str → Dbg (List Str)
  | (pre, part, post) => do
    if ← check S.C fuel part then pure out
    else do
      let found ← rec' part []
      found.foldlM (dashCandidate S fuel pre post) out

/-- The part for words with dashes (`src/suggester.rs` 228–267). Simplification: all parts are cut out before
the first lookup; the cuts do not panic (`dashLoop_eq`). -/
def dashes (S : Suggester) (fuel : Nat) (rec' : Str → List Str → Dbg (List Str)) (word : Str)
    (out : List Str) : Dbg (List Str) :=
  if word.contains '-' && !(out.any fun s => s.contains '-') then do
    (← lift (Bytes.dashLoop word (word.length + 1) 0)).foldlM (dashPart S fuel rec') out
  else .ok out

/-- The closure of `retain_mut` (`src/suggester.rs` 295–313): the suggestion kept, if any. -/
def recheck (S : Suggester) (fuel : Nat) (s : Str) : Dbg (Option Str) := do
  if s.contains ' ' then pure (some s)
  else if ← check S.C fuel s then pure (some s)
  else
    let lower := S.C.lowercase s
    if ← check S.C fuel lower then pure (some lower)
    else do
      let title ← lift (S.C.titlecase s)
      if ← check S.C fuel title then pure (some title) else pure none

/-- `retain_mut` (`src/suggester.rs` 295–313). -/
def recheckAll (S : Suggester) (fuel : Nat) : List Str → Dbg (List Str)
  | [] => .ok []
  | s :: rest => do
    let r ← recheck S fuel s
    let rest ← recheckAll S fuel rest
    pure (r.toList ++ rest)

/-- The lookup of the results (`src/suggester.rs` 292–314). -/
def retained (S : Suggester) (fuel : Nat) (casing : Casing) (out : List Str) : Dbg (List Str) :=
  if casing = .init ∨ casing = .all then recheckAll S fuel out else .ok out

/-- The end of `suggest_impl` (`src/suggester.rs` 269–327): capitals, lookup of the results, duplicates,
OCONV. -/
def finish (S : Suggester) (fuel : Nat) (casing : Casing) (out : List Str) : Dbg (List Str) := do
  let out ← lift (Bytes.capitalise S casing out)
  let out ← retained S fuel casing out
  let out ← lift (Bytes.need (deduplicate? out))
  lift (out.mapM (Bytes.convert S.C.aff.outputConversions))

/-- The parts after the `match` on the casing (`src/suggester.rs` 205–327). -/
def afterCasing (S : Suggester) (fuel : Nat) (rec' : Str → List Str → Dbg (List Str)) (casing : Casing)
    (word : Str) (r : Bool × List Str) : Dbg (List Str) := do
  let out ← lift (Bytes.ngramPart S casing word r.1 r.2)
  let out ← dashes S fuel rec' word out
  finish S fuel casing out

/-- A bad compound under FORCEUCASE (`src/suggester.rs` 96–106). -/
def forceTitle (S : Suggester) (fuel : Nat) (word : Str) : Dbg Bool :=
  if S.C.opts.compoundForceUppercaseFlag.isSome then
    (checkCompound S.C fuel .atBegin word .allowBad).map (·.isSome)
  else .ok false

/-- `suggest_impl` (`src/suggester.rs` 83–328) on a word after ICONV. -/
def suggestConverted (S : Suggester) (fuel : Nat) (rec' : Str → List Str → Dbg (List Str)) (word : Str)
    (out : List Str) : Dbg (List Str) :=
  match classifyCasing S.C.U word with
  | .none => do
    if ← forceTitle S fuel word then pure (out ++ [← lift (S.C.titlecase word)])
    else afterCasing S fuel rec' .none word (← suggestLow S fuel word out)
  | .init => do afterCasing S fuel rec' .init word (← initCase S fuel word out)
  | .camel => do afterCasing S fuel rec' .camel word (← mixedCase S fuel false word out)
  | .pascal => do afterCasing S fuel rec' .pascal word (← mixedCase S fuel true word out)
  | .all => do afterCasing S fuel rec' .all word (← allCaps S fuel word out)

/-- `suggest_impl` (`src/suggester.rs` 83–328). -/
def suggestImpl (S : Suggester) (fuel : Nat) : Nat → Str → List Str → Dbg (List Str)
  | 0, _, _ => .error (.stop .fuel)
  | depth + 1, word, out =>
    if word = [] then .ok out
    else do
      suggestConverted S fuel (suggestImpl S fuel depth) (← lift (Bytes.convert S.C.aff.inputConversions word)) out

/-- `suggest` (`src/suggester.rs` 74–81). -/
def suggest (S : Suggester) (fuel depth : Nat) (word : Str) (out : List Str) : Dbg (List Str) :=
  let out := out.take 0
  if byteLen word > maxWordLen then .ok out else suggestImpl S fuel depth word out

end Spellbook.Debug
