import Verif.Model.Suggest
import Verif.Model.CheckBytes
import Verif.Model.NgramBytes
import Verif.Model.DicLine
import Verif.Model.RuleText
/-!
# The suggester and the readers with byte positions

The functions of `Suggest.lean`, `Casing.lean`, `DicLine.lean`, `FlagText.lean`, `RuleText.lean` and
`Condition.lean` which cut texts into pieces, once more with the byte positions of the code. A slice out of
bounds or inside a character is a panic, and so is an `unsafe` write which leaves bytes that are no UTF-8.
Loops over positions get a number of rounds; `Proof/SuggestBytes.lean` shows that they end before, and that
every function equals its counterpart.
-/

namespace Spellbook.Bytes

/-- `s.find(..)` for a set of characters, the byte position.
Standard library, used at `src/suggester.rs` 120, 165. -/
def findChar (p : Char → Bool) (s : Str) : Option Nat :=
  if s.any p then some (byteLen (s.takeWhile fun c => !p c)) else none

/-- `s[i..].find(c).map(|idx| idx + i)`. As at `src/suggester.rs` 235, 492. -/
def findFrom (p : Char → Bool) (s : Str) (i : Nat) : Run (Option Nat) := do
  pure ((findChar p (← need (sliceFrom? s i))).map (· + i))

/-! ## Letter case -/

/-- `CaseHandling::lower_first_char` (`src/aff.rs` 1301–1314). -/
def lowerFirstChar (U : Unicode) (h : CaseHandling) (word : Str) : Run Str := do
  let chars := charIndices 0 word
  let (_, first) ← need chars[0]?
  let output := h.lowerChar U first
  match chars[1]? with
  | some (idx, _) => pure (output ++ (← need (sliceFrom? word idx)))
  | none => pure output

/-- `CaseHandling::upper_char_at` (`src/aff.rs` 1316–1330). -/
def upperCharAt (U : Unicode) (h : CaseHandling) (word : Str) (idx : Nat) : Run Str := do
  let output ← need (sliceTo? word idx)
  let chars := charIndices 0 (← need (sliceFrom? word idx))
  let (_, ch) ← need chars[0]?
  let output := output ++ h.upperChar U ch
  match chars[1]? with
  | some (nextIdx, _) => pure (output ++ (← need (sliceFrom? word (idx + nextIdx))))
  | none => pure output

/-! ## The suggester -/

/-- The loop over the parts of a word with dashes (`src/suggester.rs` 233–266): the text before, the part
and the text after it. -/
def dashLoop (word : Str) : Nat → Nat → Run (List (Str × Str × Str))
  | 0, _ => .error .fuel
  | rounds + 1, i => do
    let j ← findFrom (· == '-') word i
    let part ← match j with
      | some j => need (slice? word i j)
      | none => need (sliceFrom? word i)
    let pre ← need (sliceTo? word i)
    match j with
    | some j =>
      let post ← need (sliceFrom? word j)
      pure ((pre, part, post) :: (← dashLoop word rounds (j + 1)))
    | none => pure [(pre, part, [])]

/-- The loop of `try_rep_suggestion` (`src/suggester.rs` 478–496): the parts looked up. -/
def repLoop (word : Str) : Nat → Nat → Nat → Run (List Str)
  | 0, _, _ => .error .fuel
  | rounds + 1, i, j => do
    let part ← need (slice? word i j)
    let i := j + 1
    match findChar (· == ' ') (← need (sliceFrom? word i)) with
    | some idx => pure (part :: (← repLoop word rounds i (i + idx)))
    | none => pure [part]

/-- The parts which `try_rep_suggestion` (`src/suggester.rs` 474–496) looks up, if the text has a space. -/
def repParts (word : Str) : Run (Option (List Str)) := do
  match findChar (· == ' ') word with
  | none => pure none
  | some j => some <$> repLoop word (word.length + 1) 0 j

/-- `bytes[idx] = x` by `unsafe` code (`src/suggester.rs` 964–968, `src/aff/parser.rs` 1284–1286). -/
def writeOne (word : Str) (idx : Nat) (x : UInt8) : Run Str := do
  need (fromUtf8? (← need (onRange? idx (idx + 1) (fun _ => some [x]) (utf8 word))))

/-- One round of `two_words_suggest` (`src/suggester.rs` 922–971). -/
def twoWordsAt (S : Suggester) (word : Str) (out : List Str) (n idx : Nat) : Run (List Str) := do
  let word1 ← need (sliceTo? word idx)
  if (S.C.checkSimpleWord word1 .skip).isNone then pure out
  else
    let word2 ← need (sliceFrom? word idx)
    if (S.C.checkSimpleWord word2 .skip).isNone then pure out
    else
      let out := out ++ [word1 ++ [' '] ++ word2]
      if n > 1 ∧ word2[1]?.isSome ∧ (S.C.aff.tryChars.contains 'a' ∨ S.C.aff.tryChars.contains '-') then
        let hyphen ← need out.getLast?
        pure (out ++ [← writeOne hyphen idx 0x2D])
      else pure out

/-- `two_words_suggest` (`src/suggester.rs` 914–973). -/
def twoWordsSuggest (S : Suggester) (word : Str) (out : List Str) : Run (List Str) :=
  if S.C.opts.noSplitSuggestions then .ok out
  else ((charIndices 0 word).zipIdx).foldlM (fun out ((idx, _), n) => twoWordsAt S word out n idx) out

/-- The suggestion of a space after the first dot (`src/suggester.rs` 120–130). -/
def dotSpace (S : Suggester) (word : Str) (out : List Str) : Run (List Str) := do
  match findChar (· == '.') word with
  | some dotIdx =>
    let after ← need (sliceFrom? word (dotIdx + 1))
    if classifyCasing S.C.U after = .init then
      pure ((← need (insertAt? word (dotIdx + 1) ' ')) :: out)
    else pure out
  | none => pure out

/-- `word.len().checked_sub(len).and_then(|s| word.get(s..)).is_some_and(|tail| suggestion[after_space_idx..]
== *tail)` (`src/suggester.rs` 169–173). -/
def tailIs (word suggestion : Str) (afterSpace len : Nat) : Run Bool :=
  match if len ≤ byteLen word then sliceFrom? word (byteLen word - len) else none with
  | some tail => do pure ((← need (sliceFrom? suggestion afterSpace)) == tail)
  | none => pure false

/-- One round of the loop which capitalises the second word of suggestions (`src/suggester.rs`
163–188). -/
def titleAt (S : Suggester) (word : Str) (out : List Str) (i : Nat) : Run (List Str) := do
  let suggestion ← need out[i]?
  match (findChar (· == ' ') suggestion).map (· + 1) with
  | none => pure out
  | some afterSpace =>
    let len ← need (if afterSpace ≤ byteLen suggestion then some (byteLen suggestion - afterSpace) else none)
    if ← tailIs word suggestion afterSpace len then pure out
    else
      let titled ← upperCharAt S.C.U S.C.opts.caseHandling suggestion afterSpace
      let out := out.set i titled
      if i > 0 then pure ((out.take (i + 1)).rotateRight 1 ++ out.drop (i + 1)) else pure out

/-- The loop which capitalises the second word of suggestions (`src/suggester.rs` 163–188). -/
def titleSecond (S : Suggester) (word : Str) (out : List Str) : Run (List Str) :=
  (List.range out.length).foldlM (titleAt S word) out

/-! ## The suggester as a whole

The functions of `Suggest.lean` once more, with the functions above, the checker of `CheckBytes.lean` and the
search for similar words of `NgramBytes.lean`. The edits of `Edits.lean` have byte positions already. -/

/-- `add_suggestion_if_correct` (`src/suggester.rs` 374–400). -/
def addIfCorrect (S : Suggester) (fuel : Nat) (word : Str) (out : List Str) : Run (Bool × List Str) := do
  match ← checkWord S.C fuel word .forbidBad .skip with
  | none => pure (false, out)
  | some flags =>
    if flags.contains S.C.opts.forbiddenWordFlag then pure (false, out)
    else if S.C.opts.forbidWarn && hasFlag flags S.C.opts.warnFlag then pure (false, out)
    else pure (true, out ++ [word])

/-- A vector after an edit method which tried the given texts.
Part of the model only, for `src/suggester.rs` 353–361. -/
def addAll (S : Suggester) (fuel : Nat) (texts : List Str) (out : List Str) : Run (List Str) :=
  texts.foldlM (fun out t => do pure (← addIfCorrect S fuel t out).2) out

/-- `uppercase_suggest` (`src/suggester.rs` 405–408). -/
def uppercaseSuggest (S : Suggester) (fuel : Nat) (word : Str) (out : List Str) : Run (List Str) := do
  pure (← addIfCorrect S fuel (S.C.opts.caseHandling.uppercase S.C.U word) out).2

/-- The lookups of the parts of a text (`src/suggester.rs` 478–496). -/
def allParts (S : Suggester) (fuel : Nat) : List Str → Run Bool
  | [] => .ok true
  | p :: ps => do
    match ← checkWord S.C fuel p .forbidBad .skip with
    | none => pure false
    | some _ => allParts S fuel ps

/-- `try_rep_suggestion` (`src/suggester.rs` 468–499). Simplification: all parts are cut out before the first
lookup; the cuts do not panic (`repParts_eq`). -/
def tryRep (S : Suggester) (fuel : Nat) (word : Str) (out : List Str) : Run (List Str) := do
  let (added, out) ← addIfCorrect S fuel word out
  if added then pure out
  else
    match ← repParts word with
    | none => pure out
    | some parts => if ← allParts S fuel parts then pure (out ++ [word]) else pure out

/-- `rep_suggest` (`src/suggester.rs` 416–466). -/
def repSuggest (S : Suggester) (fuel : Nat) (word : Str) (out : List Str) : Run (List Str) := do
  let texts ← need ((repEdits S.C.aff.replacements word).run word 0)
  texts.foldlM (fun out t => tryRep S fuel t out) out

/-- `map_suggest` (`src/suggester.rs` 505–508). -/
def mapSuggest (S : Suggester) (fuel : Nat) (word : Str) (out : List Str) : Run (List Str) := do
  let attempts ← S.maxAttempts word
  let texts ← need (mapTexts S.C.aff.similarities word attempts)
  addAll S fuel texts out

/-- An edit method without a limit on the attempts. Part of the model only, for `src/suggester.rs` 353–361. -/
def free (S : Suggester) (fuel : Nat) (e : Edit) (word : Str) (out : List Str) : Run (List Str) := do
  let texts ← need (e.run word 0)
  addAll S fuel texts out

/-- An edit method with a limit on the attempts. Part of the model only, for `src/suggester.rs` 353–361. -/
def limited (S : Suggester) (fuel : Nat) (e : Edit) (word : Str) (out : List Str) : Run (List Str) := do
  let attempts ← S.maxAttempts word
  let texts ← need (e.run word attempts)
  addAll S fuel texts out

/-- Whether the suggestions of the first three methods are of high quality (`src/suggester.rs`
337–351). -/
def highQuality (S : Suggester) (fuel : Nat) (word : Str) (oldLen newLen : Nat) : Run Bool :=
  if newLen ≠ oldLen then .ok true
  else if S.C.aff.similarities.isEmpty then .ok false
  else (checkWord S.C fuel word .allowBad .skip).map (·.isSome)

/-- The other methods (`src/suggester.rs` 353–361). -/
def suggestEdits (S : Suggester) (fuel : Nat) (word : Str) (out : List Str) : Run (List Str) := do
  let out ← free S fuel (adjacentSwapEdits word) word out
  let out ← limited S fuel (distantSwapEdits word) word out
  let out ← free S fuel (keyboardEdits S.C.U S.C.aff.keyboardCloseness word) word out
  let out ← free S fuel (extraCharEdits word) word out
  let out ← limited S fuel (forgottenCharEdits S.C.aff.tryChars word) word out
  let out ← limited S fuel (moveCharEdits word) word out
  let out ← limited S fuel (wrongCharEdits S.C.aff.tryChars word) word out
  let out ← free S fuel (doubledCharsEdits word) word out
  twoWordsSuggest S word out

/-- `suggest_low` (`src/suggester.rs` 330–363). -/
def suggestLow (S : Suggester) (fuel : Nat) (word : Str) (out : List Str) : Run (Bool × List Str) := do
  let oldLen := out.length
  let out ← uppercaseSuggest S fuel word out
  let out ← repSuggest S fuel word out
  let out ← mapSuggest S fuel word out
  let hq ← highQuality S fuel word oldLen out.length
  let out ← suggestEdits S fuel word out
  pure (hq, out)

/-- `suggest_low` on another spelling, which then goes to the front if it is a word
(`src/suggester.rs` 143–146, 150–153, 157–160). -/
def lowThenFront (S : Suggester) (fuel : Nat) (word : Str) (hq : Bool) (out : List Str) :
    Run (Bool × List Str) := do
  let (q, out) ← suggestLow S fuel word out
  pure (hq || q, if ← check S.C fuel word then word :: out else out)

/-- The first letter in lower case, for Pascal case (`src/suggester.rs` 135–147). -/
def pascalLower (S : Suggester) (fuel : Nat) (pascal : Bool) (word : Str) (r : Bool × List Str) :
    Run (Bool × List Str) :=
  if pascal then do
    let lowered ← lowerFirstChar S.C.U S.C.opts.caseHandling word
    lowThenFront S fuel lowered r.1 r.2
  else .ok r

/-- Title case, for Pascal case (`src/suggester.rs` 155–161). -/
def pascalTitle (S : Suggester) (fuel : Nat) (pascal : Bool) (word : Str) (r : Bool × List Str) :
    Run (Bool × List Str) :=
  if pascal then do
    let title ← S.C.titlecase word
    lowThenFront S fuel title r.1 r.2
  else .ok r

/-- The part for camel and Pascal case (`src/suggester.rs` 117–189). -/
def mixedCase (S : Suggester) (fuel : Nat) (pascal : Bool) (word : Str) (out : List Str) :
    Run (Bool × List Str) := do
  let (hq, out) ← suggestLow S fuel word out
  let out ← dotSpace S word out
  let r ← pascalLower S fuel pascal word (hq, out)
  let r ← lowThenFront S fuel (S.C.lowercase word) r.1 r.2
  let r ← pascalTitle S fuel pascal word r
  pure (r.1, ← titleSecond S word r.2)

/-- The word in lower case, if that is right under KEEPCASE (`src/suggester.rs` 192–194). -/
def keepLower (S : Suggester) (fuel : Nat) (lower : Str) (out : List Str) : Run (List Str) :=
  if S.C.opts.keepCaseFlag.isSome then do
    pure (if ← check S.C fuel lower then lower :: out else out)
  else .ok out

/-- The part for all upper case (`src/suggester.rs` 190–202). -/
def allCaps (S : Suggester) (fuel : Nat) (word : Str) (out : List Str) : Run (Bool × List Str) := do
  let lower := S.C.lowercase word
  let out ← keepLower S fuel lower out
  let (hq1, out) ← suggestLow S fuel lower out
  let title ← S.C.titlecase lower
  let (hq2, out) ← suggestLow S fuel title out
  pure (hq1 || hq2, out.map (S.C.opts.caseHandling.uppercase S.C.U))

/-- The part for an initial capital (`src/suggester.rs` 112–116). -/
def initCase (S : Suggester) (fuel : Nat) (word : Str) (out : List Str) : Run (Bool × List Str) := do
  let (hq1, out) ← suggestLow S fuel word out
  let (hq2, out) ← suggestLow S fuel (S.C.lowercase word) out
  pure (hq1 || hq2, out)

/-- The suggestions by similarity (`src/suggester.rs` 205–224), with the slice `&mut out[old_len..]`. -/
def ngramPart (S : Suggester) (casing : Casing) (word : Str) (hq : Bool) (out : List Str) :
    Run (List Str) :=
  if S.ngram && !hq && S.C.opts.maxNgramSuggestions != 0 then do
    let buffer := if casing = .none then word else S.C.lowercase word
    let oldLen := out.length
    let out ← ngramSuggest S.C S.H buffer out
    if casing = .all then
      let new ← need (if oldLen ≤ out.length then some (out.drop oldLen) else none)
      pure (out.take oldLen ++ new.map (S.C.opts.caseHandling.uppercase S.C.U))
    else pure out
  else .ok out

/-- One corrected part of a word with dashes (`src/suggester.rs` 244–258). -/
def dashCandidate (S : Suggester) (fuel : Nat) (pre post : Str) (out : List Str) (s : Str) :
    Run (List Str) := do
  let buffer := pre ++ s ++ post
  match ← checkWord S.C fuel buffer .forbidBad .accept with
  | some flags =>
    pure (if flags.contains S.C.opts.forbiddenWordFlag then out else out ++ [buffer])
  | none => pure (out ++ [buffer])

/-- One part of a word with dashes (`src/suggester.rs` 235–260). -/
def dashPart (S : Suggester) (fuel : Nat) (rec' : Str → List Str → Run (List Str)) (out : List Str) :
    Str × Str × Str → Run (List Str)
  | (pre, part, post) => do
    if ← check S.C fuel part then pure out
    else do
      let found ← rec' part []
      found.foldlM (dashCandidate S fuel pre post) out

/-- The part for words with dashes (`src/suggester.rs` 228–267). Simplification: all parts are cut out before
the first lookup; the cuts do not panic (`dashLoop_eq`). -/
def dashes (S : Suggester) (fuel : Nat) (rec' : Str → List Str → Run (List Str)) (word : Str)
    (out : List Str) : Run (List Str) :=
  if word.contains '-' && !(out.any fun s => s.contains '-') then do
    (← dashLoop word (word.length + 1) 0).foldlM (dashPart S fuel rec') out
  else .ok out

/-- The closure of `retain_mut` (`src/suggester.rs` 295–313): the suggestion kept, if any. -/
def recheck (S : Suggester) (fuel : Nat) (s : Str) : Run (Option Str) := do
  if s.contains ' ' then pure (some s)
  else if ← check S.C fuel s then pure (some s)
  else
    let lower := S.C.lowercase s
    if ← check S.C fuel lower then pure (some lower)
    else do
      let title ← S.C.titlecase s
      if ← check S.C fuel title then pure (some title) else pure none

/-- `retain_mut` (`src/suggester.rs` 295–313). -/
def recheckAll (S : Suggester) (fuel : Nat) : List Str → Run (List Str)
  | [] => .ok []
  | s :: rest => do
    let r ← recheck S fuel s
    let rest ← recheckAll S fuel rest
    pure (r.toList ++ rest)

/-- The first letters in upper case (`src/suggester.rs` 269–280). -/
def capitalise (S : Suggester) (casing : Casing) (out : List Str) : Run (List Str) :=
  if casing = .init ∨ casing = .pascal then
    out.mapM fun s => upperCharAt S.C.U S.C.opts.caseHandling s 0
  else .ok out

/-- The lookup of the results (`src/suggester.rs` 292–314). -/
def retained (S : Suggester) (fuel : Nat) (casing : Casing) (out : List Str) : Run (List Str) :=
  if casing = .init ∨ casing = .all then recheckAll S fuel out else .ok out

/-- The end of `suggest_impl` (`src/suggester.rs` 269–327): capitals, lookup of the results, duplicates,
OCONV. -/
def finish (S : Suggester) (fuel : Nat) (casing : Casing) (out : List Str) : Run (List Str) := do
  let out ← capitalise S casing out
  let out ← retained S fuel casing out
  let out ← need (deduplicate? out)
  out.mapM (convert S.C.aff.outputConversions)

/-- The parts after the `match` on the casing (`src/suggester.rs` 205–327). -/
def afterCasing (S : Suggester) (fuel : Nat) (rec' : Str → List Str → Run (List Str)) (casing : Casing)
    (word : Str) (r : Bool × List Str) : Run (List Str) := do
  let out ← ngramPart S casing word r.1 r.2
  let out ← dashes S fuel rec' word out
  finish S fuel casing out

/-- A bad compound under FORCEUCASE (`src/suggester.rs` 96–106). -/
def forceTitle (S : Suggester) (fuel : Nat) (word : Str) : Run Bool :=
  if S.C.opts.compoundForceUppercaseFlag.isSome then
    (checkCompound S.C fuel .atBegin word .allowBad).map (·.isSome)
  else .ok false

/-- `suggest_impl` (`src/suggester.rs` 83–328) on a word after ICONV. -/
def suggestConverted (S : Suggester) (fuel : Nat) (rec' : Str → List Str → Run (List Str)) (word : Str)
    (out : List Str) : Run (List Str) :=
  match classifyCasing S.C.U word with
  | .none => do
    if ← forceTitle S fuel word then pure (out ++ [← S.C.titlecase word])
    else afterCasing S fuel rec' .none word (← suggestLow S fuel word out)
  | .init => do afterCasing S fuel rec' .init word (← initCase S fuel word out)
  | .camel => do afterCasing S fuel rec' .camel word (← mixedCase S fuel false word out)
  | .pascal => do afterCasing S fuel rec' .pascal word (← mixedCase S fuel true word out)
  | .all => do afterCasing S fuel rec' .all word (← allCaps S fuel word out)

/-- `suggest_impl` (`src/suggester.rs` 83–328). -/
def suggestImpl (S : Suggester) (fuel : Nat) : Nat → Str → List Str → Run (List Str)
  | 0, _, _ => .error .fuel
  | depth + 1, word, out =>
    if word = [] then .ok out
    else do suggestConverted S fuel (suggestImpl S fuel depth) (← convert S.C.aff.inputConversions word) out

/-- `suggest` (`src/suggester.rs` 74–81). -/
def suggest (S : Suggester) (fuel depth : Nat) (word : Str) (out : List Str) : Run (List Str) :=
  let out := out.take 0
  if byteLen word > maxWordLen then .ok out else suggestImpl S fuel depth word out

/-! ## Readers -/

/-- The loop of `impl From<&str> for SimilarityGroup` (`src/aff/parser.rs` 689–714). -/
def similarityLoop (s : Str) : Nat → Nat → Str → List Str → Run (Str × List Str)
  | 0, _, _, _ => .error .fuel
  | rounds + 1, i, chars, strings => do
    let j ← findFrom (· == '(') s i
    let chars := chars ++ (← need (slice? s i (j.getD (byteLen s))))
    match j with
    | none => pure (chars, strings)
    | some j =>
      let i := j + 1
      match ← findFrom (· == ')') s i with
      | none => pure (chars, strings)
      | some j =>
        let substr ← need (slice? s i j)
        let hasNoChars := substr[0]?.isNone
        let hasExactlyOneChar := (substr.drop 1)[0]?.isNone
        if hasExactlyOneChar then similarityLoop s rounds (j + 1) (chars ++ substr) strings
        else if !hasNoChars then similarityLoop s rounds (j + 1) chars (strings ++ [substr])
        else similarityLoop s rounds (j + 1) chars strings

/-- `impl From<&str> for SimilarityGroup` (`src/aff/parser.rs` 684–721). -/
def similarityGroup (s : Str) : Run SimilarityGroup := do
  let (chars, strings) ← similarityLoop s (s.length + 1) 0 [] []
  pure { chars, strings }

/-- The `Numeric` case of `parse_flags_from_str` (`src/aff/parser.rs` 1140–1160), from `start` on. -/
def numFlags (input : Str) : Nat → Nat → Run (Except FlagError (List Nat))
  | 0, _ => .error .fuel
  | rounds + 1, start => do
    match ← findFrom (· == ',') input start with
    | some idx =>
      if (utf8 input)[idx + 1]? = some 0x2C then pure (.error .duplicateComma)
      else
        match parseNumFlag (← need (slice? input start idx)) with
        | .error e => pure (.error e)
        | .ok f => pure ((← numFlags input rounds (idx + 1)).map (f :: ·))
    | none =>
      match parseNumFlag (← need (sliceFrom? input start)) with
      | .error e => pure (.error e)
      | .ok f => pure (.ok [f])

/-- What follows an opening bracket (`src/aff/parser.rs` 1740–1745): nothing if there is no character, and
otherwise the text without a leading `^`. -/
def afterBracket (scan : Str) : Run (Option Str) :=
  match scan.head? with
  | none => .ok none
  | some c => if c = '^' then some <$> need (sliceFrom? scan 1) else .ok (some scan)

/-- The loop of `Condition::from_str` (`src/aff/parser.rs` 1716–1762). -/
def scanChars : Nat → Str → Nat → Run (Except ConditionError Nat)
  | 0, _, _ => .error .fuel
  | rounds + 1, scan, chars => do
    match findChar (fun c => c == '[' || c == ']') scan with
    | none => pure (.ok (chars + scan.length))
    | some bracket =>
      let chars := chars + (← need (sliceTo? scan bracket)).length
      let scan ← need (sliceFrom? scan bracket)
      match ← need scan.head? with
      | ']' => pure (.error .unopenedCharacterClass)
      | '[' =>
        match ← afterBracket (← need (sliceFrom? scan 1)) with
        | none => pure (.error .unclosedCharacterClass)
        | some scan =>
          match findChar (· == ']') scan with
          | none => pure (.error .unclosedCharacterClass)
          | some 0 => pure (.error .emptyCharacterClass)
          | some bracket => scanChars rounds (← need (sliceFrom? scan (bracket + 1))) (chars + 1)
      | _ => .error .panic

/-- `separates_morphological_field` (`src/aff/parser.rs` 1299–1312), for the space at `idx`. -/
def isMorphField (U : Unicode) (input : Str) (idx : Nat) : Run Bool := do
  match findChar (fun c => !U.isWs c) (← need (sliceFrom? input (idx + 1))) with
  | none => pure false
  | some m =>
    let next ← need (sliceFrom? input (m + idx + 1))
    pure (next[0]?.any U.isLower && next[1]?.any U.isLower && next[2]? == some ':')

/-- The character loop of `parse_dic_line` (`src/aff/parser.rs` 1273–1324), over `char_indices`. The assertions
of debug builds (1277, 1281) are panics too. -/
def scanDic (U : Unicode) (input : Str) : Str → Bool → List (Nat × Char) → Run DicScan
  | word, _, [] => .ok (.flags word [])
  | word, escaped, (idx, ch) :: rest => do
    if ch = '/' ∧ escaped then
      let last ← need (if 1 ≤ byteLen word then some (byteLen word - 1) else none)
      let _ ← need (if (utf8 word)[last]? = some 0x5C then some () else none)
      scanDic U input (← writeOne word last 0x2F) false rest
    else if ch = '/' ∧ idx ≠ 0 then pure (.flags word (rest.map (·.2)))
    else if ch = '\t' then pure (.word word)
    else if ch = ' ' then
      if ← isMorphField U input idx then pure (.word word)
      else scanDic U input (word ++ [ch]) false rest
    else scanDic U input (word ++ [ch]) (ch = '\\') rest

/-- `parse_dic_line` (`src/aff/parser.rs` 1206–1333). -/
def parseDicLine (U : Unicode) (input : Str) (ty : FlagType) (aliases : List FlagSet)
    (ignore : List Char) : Run (Except FlagError (Str × FlagSet)) := do
  if byteLen input > u16Max then pure (.error .wordTooLong)
  else
    match findChar isDicSpecial input with
    | none => pure (.ok (ignoreChars input ignore, FlagSet.empty))
    | some idx =>
      let byte ← need (utf8 input)[idx]?
      if byte = 0x2F ∧ idx ≠ 0 then
        let word := ignoreChars (← need (sliceTo? input idx)) ignore
        let rest ← need (sliceFrom? input (idx + 1))
        let flagsetStr := (splitWhitespace U rest).head?.getD rest
        pure ((decodeFlagset flagsetStr ty aliases).map fun flagset => (word, flagset))
      else if byte = 0x09 then
        pure (.ok (ignoreChars (← need (sliceTo? input idx)) ignore, FlagSet.empty))
      else
        let word ← need (sliceTo? input idx)
        let input ← need (sliceFrom? input idx)
        match ← scanDic U input word false (charIndices 0 input) with
        | .word word => pure (.ok (ignoreChars word ignore, FlagSet.empty))
        | .flags word rest =>
          pure ((decodeFlagset (takeWord U rest).1 ty aliases).map fun flagset => (ignoreChars word ignore, flagset))

end Spellbook.Bytes
