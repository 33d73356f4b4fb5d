import Verif.Model.Check
/-!
# How often `check` starts a search for compounds

This file models `check` and the functions between it and the search for compounds once more
(`Check.lean`, `Compound.lean`) and counts the calls of `check_compound_impl`
(`src/checker.rs` 1408–1445) and `check_compound_with_rules_impl` (2364–2433) while they run. The
results are those of the other files. Functions which start no search are used from there.
-/

namespace Spellbook.Work

/-- The result of a computation, and how many searches it started.
Part of the model only, for `src/checker.rs` 98–2433. -/
structure Counted (α : Type) where
  calls : Nat
  result : Run α

namespace Counted
variable {α β : Type}

/-- A computation which starts no search. Part of the model only, for `src/checker.rs` 98–2433. -/
def free (r : Run α) : Counted α := ⟨0, r⟩

/-- The call of a search. Part of the model only, for `src/checker.rs` 1408, 2364. -/
def call (c : Counted α) : Counted α := ⟨c.calls + 1, c.result⟩

/-- One computation after the other; the second is not started if the first has no result.
Part of the model only, for `src/checker.rs` 98–2433. -/
def bind (c : Counted α) (f : α → Counted β) : Counted β :=
  match c.result with
  | .ok a => ⟨c.calls + (f a).calls, (f a).result⟩
  | .error e => ⟨c.calls, .error e⟩

instance : Monad Counted where
  pure a := free (.ok a)
  bind := bind

/-- As `Except.map`. Part of the model only, for `src/checker.rs` 98–2433. -/
def map (f : α → β) (c : Counted α) : Counted β := ⟨c.calls, c.result.map f⟩

/-- `if let Some(r) = a { return Some(r) }`, then `b`. As at `src/checker.rs` 1424–1440. -/
def or (a b : Counted (Option β)) : Counted (Option β) :=
  match a.result with
  | .ok none => ⟨a.calls + b.calls, b.result⟩
  | _ => a

/-- `for a in list { if let Some(r) = f(a) { return Some(r) } }`, then `None`. As at `src/checker.rs` 1422–1441. -/
def first (f : α → Counted (Option β)) : List α → Counted (Option β)
  | [] => free (.ok none)
  | a :: as => (f a).or (first f as)

/-- `for … { if f(a) { return true } }`, then `false`. `src/checker.rs` 157–190. -/
def any (f : α → Counted Bool) : List α → Counted Bool
  | [] => free (.ok false)
  | a :: as => do if ← f a then pure true else any f as

end Counted

open Counted

variable (C : Checker)

/-- The recursive search. `src/checker.rs` 1408–1445. -/
abbrev Search := Str → Nat → Nat → Counted (Option CompoundingResult)

/-- `check_compound_classic_try_simplified_triple_recursive` (`src/checker.rs` 1786–1826). -/
def tripleRecursive (search : Search) (triple word : Str) (start i numPart : Nat)
    (part1 : CompoundingResult) : Counted (Option CompoundingResult) := do
  match ← search triple i (numPart + 1) with
  | none => pure none
  | some part2 =>
    if C.forbiddenByPatterns triple i part1 part2 then pure none
    else if C.repAfterRecursion word start i part2 then pure none
    else pure (some part1)

/-- `check_compound_classic_try_simplified_triple` (`src/checker.rs` 1668–1783). -/
def simplifiedTriple (search : Search) (word : Str) (start i numPart : Nat)
    (fc : Forceucase) (part1 : CompoundingResult) : Counted (Option CompoundingResult) :=
  if !C.opts.compoundSimplifiedTriple then free (.ok none)
  else
    match Checker.tripled word i with
    | none => free (.ok none)
    | some triple =>
      match C.tripleSecond triple word start i numPart fc part1 with
      | .accept => free (.ok (some part1))
      | .reject => free (.ok none)
      | .next => tripleRecursive C search triple word start i numPart part1

/-- `check_compound_classic_try_recursive` (`src/checker.rs` 1595–1666). -/
def tryRecursive (search : Search) (word : Str) (start i numPart : Nat)
    (fc : Forceucase) (part1 : CompoundingResult) : Counted (Option CompoundingResult) := do
  match ← search word i (numPart + 1) with
  | none => simplifiedTriple C search word start i numPart fc part1
  | some part2 =>
    if C.forbiddenByPatterns word i part1 part2 then
      simplifiedTriple C search word start i numPart fc part1
    else if C.repAfterRecursion word start i part2 then
      simplifiedTriple C search word start i numPart fc part1
    else pure (some part1)

/-- `check_compound_classic` (`src/checker.rs` 1447–1593). -/
def classic (search : Search) (m : Mode) (word : Str) (start i numPart : Nat)
    (fc : Forceucase) : Counted (Option CompoundingResult) :=
  match C.classicFirst m word start i with
  | none => free (.ok none)
  | some part1 =>
    let numPart := numPart + C.wordCount part1
    match C.classicSecond word start i numPart fc part1 with
    | .accept => free (.ok (some part1))
    | .reject => free (.ok none)
    | .next => tryRecursive C search word start i numPart fc part1

/-- The last two attempts for one pattern (`src/checker.rs` 2044–2141). -/
def patternTriple (search : Search) (p : CompoundPattern) (scratch word : Str)
    (start j numParts : Nat) (fc : Forceucase) (part1 : CompoundingResult) :
    Counted (Option (Option CompoundingResult)) :=
  if !C.opts.compoundSimplifiedTriple then free (.ok none)
  else
    match Checker.tripled scratch j with
    | none => free (.ok none)
    | some triple =>
      match C.patternSecond p (triple.drop j) word start numParts fc part1 with
      | .accept => free (.ok (some (some part1)))
      | .reject => free (.ok (some none))
      | .next => do
        match ← search triple j (numParts + 1) with
        | none => pure none
        | some part2 =>
          if C.patternTripleRecursionOk p triple scratch word start j part2 then
            pure (some (some part1))
          else pure none

/-- The loop body of `check_compound_with_pattern_replacements` (`src/checker.rs` 1930–2141). -/
def patternBody (search : Search) (m : Mode) (word : Str) (start i numParts : Nat)
    (fc : Forceucase) (p : CompoundPattern) : Counted (Option (Option CompoundingResult)) :=
  match p.replacement with
  | none => free (.ok none)
  | some replacement =>
    if !startsWith (word.drop i) replacement then free (.ok none)
    else
      let scratch := word.take i ++ (p.first ++ p.second) ++ word.drop (i + replacement.length)
      let j := i + p.first.length
      match C.patternFirst p m scratch start j with
      | none => free (.ok none)
      | some part1 =>
        match C.patternSecond p (scratch.drop j) word start numParts fc part1 with
        | .accept => free (.ok (some (some part1)))
        | .reject => free (.ok (some none))
        | .next => do
          match ← search scratch j (numParts + 1) with
          | none => patternTriple C search p scratch word start j numParts fc part1
          | some part2 =>
            if C.patternRecursionOk p scratch word start j part2 then pure (some (some part1))
            else patternTriple C search p scratch word start j numParts fc part1

/-- `check_compound_with_pattern_replacements` (`src/checker.rs` 1921–2145). -/
def withPatternReplacements (search : Search) (m : Mode) (word : Str)
    (start i numParts : Nat) (fc : Forceucase) : Counted (Option CompoundingResult) :=
  (first (patternBody C search m word start i numParts fc) C.aff.compoundPatterns).map Option.join

/-- The loop body of `check_compound_impl` (`src/checker.rs` 1422–1441). -/
def compoundAt (search : Search) (m : Mode) (word : Str) (start numParts : Nat)
    (fc : Forceucase) (i : Nat) : Counted (Option CompoundingResult) :=
  (classic C search m word start i numParts fc).or
    (withPatternReplacements C search m word start i numParts fc)

/-- `check_compound_impl` (`src/checker.rs` 1408–1445), which is counted. -/
def checkCompoundImpl (fc : Forceucase) : Nat → Mode → Search
  | 0, _, _, _, _ => free (.error .fuel)
  | fuel + 1, m, word, start, numParts => call <|
    first (compoundAt C (checkCompoundImpl fc fuel .atMiddle) m word start numParts fc)
      (splitPoints word start C.opts.minChars)

/-- The loop body of `check_compound_with_rules_impl` (`src/checker.rs` 2393–2430). -/
def ruleAt (search : Str → List FlagSet → Nat → Counted (Option CompoundingResult))
    (word : Str) (data : List FlagSet) (start : Nat) (fc : Forceucase) (i : Nat) :
    Counted (Option CompoundingResult) :=
  match (C.entries (slice word start i)).find? C.rulePart with
  | none => free (.ok none)
  | some part1 =>
    let data := data ++ [part1.2]
    if C.ruleDirect word data i fc then free (.ok (some { stem := part1.1, flags := part1.2 }))
    else search word data i

/-- `check_compound_with_rules_impl` (`src/checker.rs` 2364–2433), which is counted. -/
def checkRulesImpl (fc : Forceucase) :
    Nat → Str → List FlagSet → Nat → Counted (Option CompoundingResult)
  | 0, _, _, _ => free (.error .fuel)
  | fuel + 1, word, data, start => call <|
    first (ruleAt C (checkRulesImpl fc fuel) word data start fc) (splitPoints word start C.opts.minChars)

/-- `check_compound_with_rules` (`src/checker.rs` 2356–2363). -/
def checkRules (word : Str) (fc : Forceucase) : Counted (Option CompoundingResult) :=
  checkRulesImpl C fc (word.length + 1) word [] 0

/-- `check_compound` (`src/checker.rs` 1387–1406). -/
def checkCompound (fuel : Nat) (m : Mode) (word : Str) (fc : Forceucase) :
    Counted (Option CompoundingResult) :=
  (if C.opts.allowsCompounding then checkCompoundImpl C fc fuel m word 0 0 else free (.ok none)).or
    (if !C.aff.compoundRules.isEmpty then checkRules C word fc else free (.ok none))

/-- `check_word` (`src/checker.rs` 227–239). -/
def checkWord (fuel : Nat) (word : Str) (fc : Forceucase) (hh : HiddenHomonym) :
    Counted (Option FlagSet) :=
  match C.checkSimpleWord word hh with
  | some flags => free (.ok (some flags))
  | none => (checkCompound C fuel .atBegin word fc).map fun r => r.map (·.flags)

/-- `.titlecase(word)`; panics on an empty word. `src/checker.rs` 207, 264, 276, 294, 303. -/
def titlecase (word : Str) : Counted Str := free (C.titlecase word)

/-- `do_spell_sharps` (`src/checker.rs` 325–374). -/
def doSpellSharps (fuel : Nat) (before rest : Str) (depth replacements : Nat) :
    Counted (Option FlagSet) :=
  if h : depth < 5 then
    match splitOnce? ['s', 's'] rest with
    | some (x, y) =>
      (doSpellSharps fuel (before ++ x ++ ['ß']) y (depth + 1) (replacements + 1)).or
        (doSpellSharps fuel (before ++ x ++ ['s', 's']) y (depth + 1) (replacements + 1))
    | none =>
      if replacements > 0 then checkWord C fuel (before ++ rest) .allowBad .accept else free (.ok none)
  else if replacements > 0 then checkWord C fuel (before ++ rest) .allowBad .accept
  else free (.ok none)
termination_by 5 - depth

/-- `spell_sharps` (`src/checker.rs` 321–323). -/
def spellSharps (fuel : Nat) (word : Str) : Counted (Option FlagSet) :=
  doSpellSharps C fuel [] word 0 0

/-- The apostrophe cases of `spell_casing_upper` (`src/checker.rs` 254–286). -/
def spellApostrophe (fuel : Nat) (word : Str) : Counted (Option FlagSet) :=
  match splitOnce? ['\''] word with
  | none => free (.ok none)
  | some (a, b) =>
    if b.isEmpty then free (.ok none)
    else do
      let part1 := a ++ ['\'']
      let part2 ← titlecase C b
      (checkWord C fuel (C.lowercase part1 ++ part2) .allowBad .accept).or do
        let title ← titlecase C part1
        checkWord C fuel (title ++ part2) .allowBad .accept

/-- The sharp s case of `spell_casing_upper` (`src/checker.rs` 289–299). -/
def spellUpperSharps (fuel : Nat) (word : Str) : Counted (Option FlagSet) :=
  if C.opts.checksharps && containsStr word ['S', 'S'] then
    (spellSharps C fuel (C.lowercase word)).or do
      let title ← titlecase C word
      spellSharps C fuel title
  else free (.ok none)

/-- `spell_casing_upper` (`src/checker.rs` 241–319). -/
def spellCasingUpper (fuel : Nat) (word : Str) : Counted (Option FlagSet) :=
  (checkWord C fuel word .allowBad .accept).or <|
  (spellApostrophe C fuel word).or <|
  (spellUpperSharps C fuel word).or <|
  (do
    let title ← titlecase C word
    (checkWord C fuel title .allowBad .accept).map C.dropKeepCase : Counted (Option FlagSet)).or <|
  (checkWord C fuel (C.lowercase word) .allowBad .accept).map C.dropKeepCase

/-- `spell_casing_title` (`src/checker.rs` 376–402). -/
def spellCasingTitle (fuel : Nat) (word : Str) : Counted (Option FlagSet) :=
  (checkWord C fuel word .allowBad .skip).or <|
  (checkWord C fuel (C.lowercase word) .allowBad .accept).map (C.titleKeepCase (C.lowercase word))

/-- The first arm of `spell_casing` (`src/checker.rs` 200–221). -/
def spellCasingAsIs (fuel : Nat) (word : Str) (pascal : Bool) : Counted (Option FlagSet) :=
  (checkWord C fuel word .forbidBad .accept).or <|
  (if C.checkLowerAsTitle && !pascal then do
      let title ← titlecase C word
      spellCasingTitle C fuel title
    else free (.ok none) : Counted (Option FlagSet)).or <|
  if C.checkLowerAsUpper then spellCasingUpper C fuel (C.opts.caseHandling.uppercase C.U word)
  else free (.ok none)

/-- `spell_casing` (`src/checker.rs` 196–225). -/
def spellCasing (fuel : Nat) (word : Str) : Counted (Option FlagSet) :=
  match classifyCasing C.U word with
  | .none => spellCasingAsIs C fuel word false
  | .camel => spellCasingAsIs C fuel word false
  | .pascal => spellCasingAsIs C fuel word true
  | .all => spellCasingUpper C fuel word
  | .init => spellCasingTitle C fuel word

/-- The three loops of `do_spell_break` (`src/checker.rs` 159–191) around the recursive call. -/
def breakLoops (rec' : Str → Counted Bool) (word : Str) : Counted Bool := do
  if ← any (fun pat => match stripPrefix? word pat with
      | some rest => rec' rest
      | none => free (.ok false)) C.aff.breakTable.startBreaks then pure true
  else if ← any (fun pat => match stripSuffix? word pat with
      | some rest => rec' rest
      | none => free (.ok false)) C.aff.breakTable.endBreaks then pure true
  else any (fun pat => match splitOnce? pat word with
      | some (part1, part2) =>
        if part2.isEmpty then free (.ok false)
        else do if ← rec' part1 then rec' part2 else pure false
      | none => free (.ok false)) C.aff.breakTable.middleBreaks

/-- `do_spell_break` (`src/checker.rs` 139–194); the argument is the remaining depth, 9 minus the
`depth` of the code. -/
def doSpellBreak (fuel : Nat) : Nat → Str → Counted Bool
  | 0, word => do
    match ← spellCasing C fuel word with
    | some flags => pure (C.goodFlags flags)
    | none => pure false
  | d + 1, word => do
    match ← spellCasing C fuel word with
    | some flags => pure (C.goodFlags flags)
    | none => breakLoops C (doSpellBreak fuel d) word

/-- `spell_break` (`src/checker.rs` 135–137). -/
def spellBreak (fuel : Nat) (word : Str) : Counted Bool := doSpellBreak C fuel 9 word

/-- `check` behind ICONV (`src/checker.rs` 105–130). -/
def checkConverted (fuel : Nat) (word : Str) : Counted Bool :=
  if word.isEmpty then free (.ok true)
  else
    let trimmed := trimEndMatches '.' word
    let abbreviated := byteLen trimmed != byteLen word
    if isNumber trimmed then free (.ok true)
    else do
      if ← spellBreak C fuel (eraseChars trimmed C.aff.ignoreChars) then pure true
      else if abbreviated then spellBreak C fuel word
      else pure false

/-- `check` (`src/checker.rs` 98–131). -/
def check (fuel : Nat) (word : Str) : Counted Bool :=
  if byteLen word > maxWordLen then free (.ok false)
  else checkConverted C fuel (C.aff.inputConversions.convert word)

end Spellbook.Work
