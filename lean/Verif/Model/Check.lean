import Verif.Model.Compound
/-!
# `Checker::check`

Models `src/checker.rs` 98–402: `check`, BREAK, letter case and sharp s, on top of the lookups of
simple words and compounds. `Run` (see `Compound.lean`) makes panics and unbounded recursion
explicit.
-/

namespace Spellbook

/-- `MAX_WORD_LEN` (`src/lib.rs` 438). -/
def maxWordLen : Nat := 360

namespace Checker

/-- `check_word` (`src/checker.rs` 227–239). -/
def checkWord (C : Checker) (fuel : Nat) (word : Str) (fc : Forceucase) (hh : HiddenHomonym) :
    Run (Option FlagSet) :=
  match C.checkSimpleWord word hh with
  | some flags => .ok (some flags)
  | none => (C.checkCompound fuel .atBegin word fc).map fun r => r.map (·.flags)

/-- `.titlecase(word)`; panics on an empty word. `src/checker.rs` 207, 264, 276, 294, 303. -/
def titlecase (C : Checker) (word : Str) : Run Str :=
  match C.opts.caseHandling.titlecase C.U word with
  | some t => .ok t
  | none => .error .panic

/-- `.lowercase(word)`. `src/checker.rs` 266, 289, 314, 387. -/
def lowercase (C : Checker) (word : Str) : Str := C.opts.caseHandling.lowercase C.U word

/-- `.filter(|flags| !has_flag!(flags, keep_case_flag))` (`src/checker.rs` 307, 318). -/
def dropKeepCase (C : Checker) (r : Option FlagSet) : Option FlagSet :=
  r.filter fun flags => !hasFlag flags C.opts.keepCaseFlag

/-- `do_spell_sharps` (`src/checker.rs` 325–374). The text is kept as the part before `position`,
where nothing is searched any more, and the part from there on. Both branches pass
`replacements + 1`. -/
def doSpellSharps (C : Checker) (fuel : Nat) (before rest : Str) (depth replacements : Nat) :
    Run (Option FlagSet) :=
  if h : depth < 5 then
    match splitOnce? ['s', 's'] rest with
    | some (x, y) =>
      (C.doSpellSharps fuel (before ++ x ++ ['ß']) y (depth + 1) (replacements + 1)).or
        (C.doSpellSharps fuel (before ++ x ++ ['s', 's']) y (depth + 1) (replacements + 1))
    | none =>
      if replacements > 0 then C.checkWord fuel (before ++ rest) .allowBad .accept else .ok none
  else if replacements > 0 then C.checkWord fuel (before ++ rest) .allowBad .accept
  else .ok none
termination_by 5 - depth

/-- `spell_sharps` (`src/checker.rs` 321–323). -/
def spellSharps (C : Checker) (fuel : Nat) (word : Str) : Run (Option FlagSet) :=
  C.doSpellSharps fuel [] word 0 0

/-- The apostrophe cases of `spell_casing_upper` (`src/checker.rs` 254–286). -/
def spellApostrophe (C : Checker) (fuel : Nat) (word : Str) : Run (Option FlagSet) :=
  match splitOnce? ['\''] word with
  | none => .ok none
  | some (a, b) =>
    if b.isEmpty then .ok none
    else do
      let part1 := a ++ ['\'']
      let part2 ← C.titlecase b
      (C.checkWord fuel (C.lowercase part1 ++ part2) .allowBad .accept).or do
        let title ← C.titlecase part1
        C.checkWord fuel (title ++ part2) .allowBad .accept

/-- The sharp s case of `spell_casing_upper` (`src/checker.rs` 289–299). -/
def spellUpperSharps (C : Checker) (fuel : Nat) (word : Str) : Run (Option FlagSet) :=
  if C.opts.checksharps && containsStr word ['S', 'S'] then
    (C.spellSharps fuel (C.lowercase word)).or do
      let title ← C.titlecase word
      C.spellSharps fuel title
  else .ok none

/-- `spell_casing_upper` (`src/checker.rs` 241–319). -/
def spellCasingUpper (C : Checker) (fuel : Nat) (word : Str) : Run (Option FlagSet) :=
  (C.checkWord fuel word .allowBad .accept).or <|
  (C.spellApostrophe fuel word).or <|
  (C.spellUpperSharps fuel word).or <|
  (do
    let title ← C.titlecase word
    (C.checkWord fuel title .allowBad .accept).map C.dropKeepCase : Run (Option FlagSet)).or <|
  (C.checkWord fuel (C.lowercase word) .allowBad .accept).map C.dropKeepCase

/-- The filter at the end of `spell_casing_title` (`src/checker.rs` 394–401). -/
def titleKeepCase (C : Checker) (lower : Str) (r : Option FlagSet) : Option FlagSet :=
  r.filter fun flags => !(hasFlag flags C.opts.keepCaseFlag
    && !(C.opts.checksharps && lower.contains 'ß'))

/-- `spell_casing_title` (`src/checker.rs` 376–402). -/
def spellCasingTitle (C : Checker) (fuel : Nat) (word : Str) : Run (Option FlagSet) :=
  (C.checkWord fuel word .allowBad .skip).or <|
  (C.checkWord fuel (C.lowercase word) .allowBad .accept).map (C.titleKeepCase (C.lowercase word))

/-- The first arm of `spell_casing` (`src/checker.rs` 200–221). -/
def spellCasingAsIs (C : Checker) (fuel : Nat) (word : Str) (pascal : Bool) : Run (Option FlagSet) :=
  (C.checkWord fuel word .forbidBad .accept).or <|
  (if C.checkLowerAsTitle && !pascal then do
      let title ← C.titlecase word
      C.spellCasingTitle fuel title
    else .ok none : Run (Option FlagSet)).or <|
  if C.checkLowerAsUpper then C.spellCasingUpper fuel (C.opts.caseHandling.uppercase C.U word)
  else .ok none

/-- `spell_casing` (`src/checker.rs` 196–225). -/
def spellCasing (C : Checker) (fuel : Nat) (word : Str) : Run (Option FlagSet) :=
  match classifyCasing C.U word with
  | .none => C.spellCasingAsIs fuel word false
  | .camel => C.spellCasingAsIs fuel word false
  | .pascal => C.spellCasingAsIs fuel word true
  | .all => C.spellCasingUpper fuel word
  | .init => C.spellCasingTitle fuel word

/-- What an entry found means (`src/checker.rs` 143–152): rejected if forbidden, or marked WARN under
FORBIDWARN. -/
def goodFlags (C : Checker) (flags : FlagSet) : Bool :=
  if flags.contains C.opts.forbiddenWordFlag then false
  else if C.opts.forbidWarn && hasFlag flags C.opts.warnFlag then false
  else true

/-- `for … { if f(a) { return true } }`, then `false`. `src/checker.rs` 157–190. -/
def anyRun {α : Type} (f : α → Run Bool) : List α → Run Bool
  | [] => .ok false
  | a :: as => do if ← f a then pure true else anyRun f as

/-- The three loops of `do_spell_break` (`src/checker.rs` 159–191) around the recursive call. -/
def breakLoops (C : Checker) (rec' : Str → Run Bool) (word : Str) : Run Bool := do
  if ← anyRun (fun pat => match stripPrefix? word pat with
      | some rest => rec' rest
      | none => .ok false) C.aff.breakTable.startBreaks then pure true
  else if ← anyRun (fun pat => match stripSuffix? word pat with
      | some rest => rec' rest
      | none => .ok false) C.aff.breakTable.endBreaks then pure true
  else anyRun (fun pat => match splitOnce? pat word with
      | some (part1, part2) =>
        if part2.isEmpty then .ok false
        else do if ← rec' part1 then rec' part2 else pure false
      | none => .ok false) C.aff.breakTable.middleBreaks

/-- `do_spell_break` (`src/checker.rs` 139–194); the argument is the remaining depth, 9 minus the
`depth` of the code. -/
def doSpellBreak (C : Checker) (fuel : Nat) : Nat → Str → Run Bool
  | 0, word => do
    match ← C.spellCasing fuel word with
    | some flags => pure (C.goodFlags flags)
    | none => pure false
  | d + 1, word => do
    match ← C.spellCasing fuel word with
    | some flags => pure (C.goodFlags flags)
    | none => C.breakLoops (C.doSpellBreak fuel d) word

/-- `spell_break` (`src/checker.rs` 135–137). -/
def spellBreak (C : Checker) (fuel : Nat) (word : Str) : Run Bool := C.doSpellBreak fuel 9 word

/-- `check` behind ICONV (`src/checker.rs` 105–130). -/
def checkConverted (C : Checker) (fuel : Nat) (word : Str) : Run Bool :=
  if word.isEmpty then .ok true
  else
    let trimmed := trimEndMatches '.' word
    let abbreviated := byteLen trimmed != byteLen word
    if isNumber trimmed then .ok true
    else do
      if ← C.spellBreak fuel (eraseChars trimmed C.aff.ignoreChars) then pure true
      else if abbreviated then C.spellBreak fuel word
      else pure false

/-- `check` (`src/checker.rs` 98–131). -/
def check (C : Checker) (fuel : Nat) (word : Str) : Run Bool :=
  if byteLen word > maxWordLen then .ok false
  else C.checkConverted fuel (C.aff.inputConversions.convert word)

end Checker
end Spellbook
