import Verif.Model.AffData
import Verif.Model.HashBag
import Verif.Model.Words
/-!
# Looking up simple words

Models `src/checker.rs` 22–50 (`Checker`), 404–1385 (`check_simple_word` and the functions which
strip affixes) and 2560–2602 (`Forceucase`, `HiddenHomonym`, `AffixForm`).

The code has each stripping function twice, with the roles of prefixes and suffixes exchanged. Here
each pair is one function with a parameter `k : Kind`; the comments give the lines of both. A
`for` loop which `return`s from its body is `List.findSome?`, a `continue` is `none`. The stem
buffers are plain values (`stemConcat_eq`), `affixes_of` is `AffixIndex.affixesOf`, `WordList::get`
is `Bag.get` for the layout of the hash table.
-/

namespace Spellbook

/-- The other kind of affix. Part of the model only, for `src/checker.rs` 469–1380. -/
def Kind.other : Kind → Kind
  | .pfx => .sfx
  | .sfx => .pfx

/-- `enum Forceucase` (`src/checker.rs` 2560–2573). -/
inductive Forceucase
  | forbidBad | allowBad
deriving DecidableEq, Repr

/-- `Forceucase::forbid`. `src/checker.rs` 2570. -/
def Forceucase.forbid (f : Forceucase) : Bool := f == .forbidBad

/-- `enum HiddenHomonym` (`src/checker.rs` 2576–2589). -/
inductive HiddenHomonym
  | accept | skip
deriving DecidableEq, Repr

/-- `HiddenHomonym::skip`. `src/checker.rs` 2584. -/
def HiddenHomonym.skips (h : HiddenHomonym) : Bool := h == .skip

/-- `struct AffixForm` (`src/checker.rs` 2592–2599). -/
structure AffixForm where
  stem : Str
  flags : FlagSet
  prefixes : Option Affix × Option Affix := (none, none)
  suffixes : Option Affix × Option Affix := (none, none)

/-- `struct Dictionary` (`src/lib.rs`): the word list and the affix data. -/
structure Dict where
  words : Bag FlagSet
  aff : AffData

/-- `struct Checker` (`src/checker.rs` 22–29), together with the things the standard library and
`hashbrown` provide: the Unicode tables and the layout of the hash table. -/
structure Checker where
  U : Unicode
  L : Layout
  dict : Dict
  checkLowerAsTitle : Bool := false
  checkLowerAsUpper : Bool := false

namespace Checker

/-- `self.aff`. `src/checker.rs` 29–31. -/
abbrev aff (C : Checker) : AffData := C.dict.aff
/-- `self.aff.options`. `src/checker.rs` 29–31. -/
abbrev opts (C : Checker) : AffOptions := C.dict.aff.options

/-- `self.aff.prefixes` and `self.aff.suffixes`. `src/checker.rs` 475, 537. -/
def index (C : Checker) (k : Kind) : AffixIndex k :=
  match k with
  | .pfx => C.dict.aff.prefixes
  | .sfx => C.dict.aff.suffixes

/-- `self.aff.prefixes.affixes_of(word)` and `self.aff.suffixes.affixes_of(word)`. `src/checker.rs` 475, 537. -/
def affixesOf (C : Checker) (k : Kind) (word : Str) : List Affix := (C.index k).affixesOf word

/-- `self.words.get(word)`. `src/checker.rs` 409, 497. -/
def entries (C : Checker) (word : Str) : List (Str × FlagSet) := C.dict.words.get C.L word

/-- `is_outer_affix_valid` (`src/checker.rs` 594–607). -/
def isOuterAffixValid (C : Checker) (k : Kind) (m : Mode) (a : Affix) : Bool :=
  if !isValid k m a C.opts then false
  else if hasFlag a.flags C.opts.needAffixFlag then false
  else true

/-- `is_circumfix` (`src/checker.rs` 609–611). -/
def isCircumfix (C : Checker) (a : Affix) : Bool := hasFlag a.flags C.opts.circumfixFlag

/-- `is_valid_inside_compound` (`src/checker.rs` 613–634). -/
def isValidInsideCompound (C : Checker) (m : Mode) (flags : FlagSet) : Bool :=
  let isCompound := hasFlag flags C.opts.compoundFlag
  match m with
  | .atBegin => !(!isCompound && !hasFlag flags C.opts.compoundBeginFlag)
  | .atMiddle => !(!isCompound && !hasFlag flags C.opts.compoundMiddleFlag)
  | .atEnd => !(!isCompound && !hasFlag flags C.opts.compoundEndFlag)
  | .full => true

/-- The body of the inner loop of `strip_suffix_only` and `strip_prefix_only`
(`src/checker.rs` 498–524, 560–586). -/
def onlyEntry (C : Checker) (k : Kind) (m : Mode) (hh : HiddenHomonym) (a : Affix)
    (e : Str × FlagSet) : Option AffixForm :=
  if !e.2.contains a.flag then none
  else if m == .full && hasFlag e.2 C.opts.onlyInCompoundFlag then none
  else if hh.skips && e.2.contains hiddenHomonymFlag then none
  else if !C.isValidInsideCompound m e.2 && !C.isValidInsideCompound m a.flags then none
  else
    match k with
    | .sfx => some { stem := e.1, flags := e.2, suffixes := (some a, none) }
    | .pfx => some { stem := e.1, flags := e.2, prefixes := (some a, none) }

/-- The body of the outer loop of `strip_suffix_only` and `strip_prefix_only`
(`src/checker.rs` 475–525, 537–587). -/
def onlyAffix (C : Checker) (k : Kind) (m : Mode) (word : Str) (hh : HiddenHomonym) (a : Affix) :
    Option AffixForm :=
  if !C.isOuterAffixValid k m a then none
  else if !a.add.isEmpty && m == .atEnd && hasFlag a.flags C.opts.onlyInCompoundFlag then none
  else if C.isCircumfix a then none
  else
    let stem := a.toStem k word
    if !a.conditionMatches k stem then none
    else (C.entries stem).findSome? (C.onlyEntry k m hh a)

/-- `strip_suffix_only` (`src/checker.rs` 469–529) and `strip_prefix_only` (531–591). -/
def stripOnly (C : Checker) (k : Kind) (m : Mode) (word : Str) (hh : HiddenHomonym) :
    Option AffixForm :=
  (C.affixesOf k word).findSome? (C.onlyAffix k m word hh)

/-- The body of the innermost loop of `strip_prefix_then_suffix_commutative`
(`src/checker.rs` 684–722). -/
def commEntry (C : Checker) (m : Mode) (hh : HiddenHomonym) (pre suf : Affix)
    (e : Str × FlagSet) : Option AffixForm :=
  let needaffixPre := hasFlag pre.flags C.opts.needAffixFlag
  let needaffixSuf := hasFlag suf.flags C.opts.needAffixFlag
  let validPreOuter := !needaffixPre && e.2.contains suf.flag
    && (suf.flags.contains pre.flag || e.2.contains pre.flag)
  let validSufOuter := !needaffixSuf && e.2.contains pre.flag
    && (pre.flags.contains suf.flag || e.2.contains suf.flag)
  if !validPreOuter && !validSufOuter then none
  else if m == .full && hasFlag e.2 C.opts.onlyInCompoundFlag then none
  else if hh.skips && e.2.contains hiddenHomonymFlag then none
  else if !C.isValidInsideCompound m e.2 && !C.isValidInsideCompound m suf.flags
      && !C.isValidInsideCompound m pre.flags then none
  else some { stem := e.1, flags := e.2, prefixes := (some pre, none), suffixes := (some suf, none) }

/-- The body of the middle loop of `strip_prefix_then_suffix_commutative`
(`src/checker.rs` 661–723). -/
def commSuffix (C : Checker) (m : Mode) (stem : Str) (hh : HiddenHomonym) (pre suf : Affix) :
    Option AffixForm :=
  if !suf.crossproduct then none
  else if !isValid .sfx m suf C.opts then none
  else if hasFlag pre.flags C.opts.needAffixFlag && hasFlag suf.flags C.opts.needAffixFlag then none
  else if C.isCircumfix pre != C.isCircumfix suf then none
  else
    let stem2 := suf.toStem .sfx stem
    if !suf.conditionMatches .sfx stem2 then none
    else (C.entries stem2).findSome? (C.commEntry m hh pre suf)

/-- The body of the outer loop of `strip_prefix_then_suffix_commutative`
(`src/checker.rs` 643–724). -/
def commPrefix (C : Checker) (m : Mode) (word : Str) (hh : HiddenHomonym) (pre : Affix) :
    Option AffixForm :=
  if !pre.crossproduct then none
  else if !isValid .pfx m pre C.opts then none
  else
    let stem := pre.toStem .pfx word
    if !pre.conditionMatches .pfx stem then none
    else (C.affixesOf .sfx stem).findSome? (C.commSuffix m stem hh pre)

/-- `strip_prefix_then_suffix_commutative` (`src/checker.rs` 636–728). -/
def stripComm (C : Checker) (m : Mode) (word : Str) (hh : HiddenHomonym) : Option AffixForm :=
  (C.affixesOf .pfx word).findSome? (C.commPrefix m word hh)

/-- The tests on an entry which the functions for full words share (`src/checker.rs` 784–791,
861–868, 963–970 and so on): neither ONLYINCOMPOUND nor, if asked for, a hidden homonym. -/
def fullEntryOk (C : Checker) (hh : HiddenHomonym) (flags : FlagSet) : Bool :=
  if hasFlag flags C.opts.onlyInCompoundFlag then false
  else if hh.skips && flags.contains hiddenHomonymFlag then false
  else true

/-- The innermost loop body of `strip_suffix_then_suffix` and `strip_prefix_then_prefix`
(`src/checker.rs` 779–799, 856–876). -/
def twoEntry (C : Checker) (k : Kind) (hh : HiddenHomonym) (outer inner : Affix)
    (e : Str × FlagSet) : Option AffixForm :=
  if !e.2.contains inner.flag then none
  else if !C.fullEntryOk hh e.2 then none
  else
    match k with
    | .sfx => some { stem := e.1, flags := e.2, suffixes := (some outer, some inner) }
    | .pfx => some { stem := e.1, flags := e.2, prefixes := (some outer, some inner) }

/-- The middle loop body of `strip_suffix_then_suffix` and `strip_prefix_then_prefix`
(`src/checker.rs` 758–800, 838–877). -/
def twoInner (C : Checker) (k : Kind) (stem : Str) (hh : HiddenHomonym) (outer inner : Affix) :
    Option AffixForm :=
  if !inner.flags.contains outer.flag then none
  else if !isValid k .full inner C.opts then none
  else if C.isCircumfix inner then none
  else
    let stem2 := inner.toStem k stem
    if !inner.conditionMatches k stem2 then none
    else (C.entries stem2).findSome? (C.twoEntry k hh outer inner)

/-- The outer loop body of `strip_suffix_then_suffix` and `strip_prefix_then_prefix`
(`src/checker.rs` 742–801, 822–878). -/
def twoOuter (C : Checker) (k : Kind) (word : Str) (hh : HiddenHomonym) (outer : Affix) :
    Option AffixForm :=
  if !(C.index k).allFlags.contains outer.flag then none
  else if !C.isOuterAffixValid k .full outer then none
  else if C.isCircumfix outer then none
  else
    let stem := outer.toStem k word
    if !outer.conditionMatches k stem then none
    else (C.affixesOf k stem).findSome? (C.twoInner k stem hh outer)

/-- `strip_suffix_then_suffix` (`src/checker.rs` 730–808) and `strip_prefix_then_prefix`
(810–885). -/
def stripTwo (C : Checker) (k : Kind) (word : Str) (hh : HiddenHomonym) : Option AffixForm :=
  if (C.index k).allFlags.isEmpty then none
  else (C.affixesOf k word).findSome? (C.twoOuter k word hh)

/-- The result of the three-affix functions: one affix `one` of kind `k` and two of the other
kind. `src/checker.rs` 983–988. -/
def threeForm (k : Kind) (e : Str × FlagSet) (one outer inner : Affix) : AffixForm :=
  match k with
  | .pfx => { stem := e.1, flags := e.2, prefixes := (some one, none),
              suffixes := (some outer, some inner) }
  | .sfx => { stem := e.1, flags := e.2, prefixes := (some outer, some inner),
              suffixes := (some one, none) }

/-- The innermost loop body of `strip_prefix_then_2_suffixes` and `strip_suffix_then_2_prefixes`
(`src/checker.rs` 957–986, 1206–1236). -/
def oneTwoEntry (C : Checker) (k : Kind) (hh : HiddenHomonym) (one outer inner : Affix)
    (e : Str × FlagSet) : Option AffixForm :=
  if !outer.flags.contains one.flag && !e.2.contains one.flag then none
  else if !e.2.contains inner.flag then none
  else if !C.fullEntryOk hh e.2 then none
  else some (threeForm k e one outer inner)

/-- The third loop body of `strip_prefix_then_2_suffixes` and `strip_suffix_then_2_prefixes`
(`src/checker.rs` 937–987, 1186–1237). -/
def oneTwoInner (C : Checker) (k : Kind) (stem2 : Str) (hh : HiddenHomonym)
    (one outer inner : Affix) : Option AffixForm :=
  if !inner.flags.contains outer.flag then none
  else if !isValid k.other .full inner C.opts then none
  else if C.isCircumfix inner then none
  else
    let stem3 := inner.toStem k.other stem2
    if !inner.conditionMatches k.other stem3 then none
    else (C.entries stem3).findSome? (C.oneTwoEntry k hh one outer inner)

/-- The second loop body of `strip_prefix_then_2_suffixes` and `strip_suffix_then_2_prefixes`
(`src/checker.rs` 912–988, 1161–1238). The fast lane consults the flags of the *suffix* table in
both functions (915 and 1168). -/
def oneTwoOuter (C : Checker) (k : Kind) (stem : Str) (hh : HiddenHomonym) (one outer : Affix) :
    Option AffixForm :=
  if !C.aff.suffixes.allFlags.contains outer.flag then none
  else if !outer.crossproduct then none
  else if !isValid k.other .full outer C.opts then none
  else if C.isCircumfix one != C.isCircumfix outer then none
  else
    let stem2 := outer.toStem k.other stem
    if !outer.conditionMatches k.other stem2 then none
    else (C.affixesOf k.other stem2).findSome? (C.oneTwoInner k stem2 hh one outer)

/-- The outer loop body of `strip_prefix_then_2_suffixes` and `strip_suffix_then_2_prefixes`
(`src/checker.rs` 896–989, 1145–1239). -/
def oneTwoFirst (C : Checker) (k : Kind) (word : Str) (hh : HiddenHomonym) (one : Affix) :
    Option AffixForm :=
  if !one.crossproduct then none
  else if !C.isOuterAffixValid k .full one then none
  else
    let stem := one.toStem k word
    if !one.conditionMatches k stem then none
    else (C.affixesOf k.other stem).findSome? (C.oneTwoOuter k stem hh one)

/-- `strip_prefix_then_2_suffixes` (`k = pfx`, `src/checker.rs` 887–990) and
`strip_suffix_then_2_prefixes` (`k = sfx`, 1136–1240). -/
def stripOneTwo (C : Checker) (k : Kind) (word : Str) (hh : HiddenHomonym) : Option AffixForm :=
  if C.aff.suffixes.allFlags.isEmpty then none
  else (C.affixesOf k word).findSome? (C.oneTwoFirst k word hh)

/-- The innermost loop body of `strip_suffix_then_prefix_then_suffix` and
`strip_prefix_then_suffix_then_prefix` (`src/checker.rs` 1099–1128, 1348–1377). Here `outer` and
`inner` are of kind `k` and `mid` of the other kind. -/
def sandwichEntry (C : Checker) (k : Kind) (hh : HiddenHomonym) (outer mid inner : Affix)
    (e : Str × FlagSet) : Option AffixForm :=
  if !inner.flags.contains mid.flag && !e.2.contains mid.flag then none
  else if !e.2.contains inner.flag then none
  else if !C.fullEntryOk hh e.2 then none
  else some (threeForm k.other e mid outer inner)

/-- The third loop body of `strip_suffix_then_prefix_then_suffix` and
`strip_prefix_then_suffix_then_prefix` (`src/checker.rs` 1070–1129, 1320–1378). -/
def sandwichInner (C : Checker) (k : Kind) (stem2 : Str) (hh : HiddenHomonym)
    (outer mid inner : Affix) : Option AffixForm :=
  if !inner.crossproduct then none
  else if !inner.flags.contains outer.flag && !mid.flags.contains outer.flag then none
  else if !isValid k .full inner C.opts then none
  else if !((C.isCircumfix mid == C.isCircumfix outer) && !C.isCircumfix inner)
      && !((C.isCircumfix mid == C.isCircumfix inner) && !C.isCircumfix outer) then none
  else
    let stem3 := inner.toStem k stem2
    if !inner.conditionMatches k stem3 then none
    else (C.entries stem3).findSome? (C.sandwichEntry k hh outer mid inner)

/-- The second loop body of `strip_suffix_then_prefix_then_suffix` and
`strip_prefix_then_suffix_then_prefix` (`src/checker.rs` 1050–1130, 1299–1379). The condition of the
middle affix is tested on `stem`, the text *with* that affix (1062 and 1311). -/
def sandwichMid (C : Checker) (k : Kind) (stem : Str) (hh : HiddenHomonym) (outer mid : Affix) :
    Option AffixForm :=
  if !mid.crossproduct then none
  else if !isValid k.other .full mid C.opts then none
  else
    let stem2 := mid.toStem k.other stem
    if !mid.conditionMatches k.other stem then none
    else (C.affixesOf k stem2).findSome? (C.sandwichInner k stem2 hh outer mid)

/-- The outer loop body of `strip_suffix_then_prefix_then_suffix` and
`strip_prefix_then_suffix_then_prefix` (`src/checker.rs` 1029–1131, 1278–1380). -/
def sandwichOuter (C : Checker) (k : Kind) (word : Str) (hh : HiddenHomonym) (outer : Affix) :
    Option AffixForm :=
  if !C.aff.prefixes.allFlags.contains outer.flag && !C.aff.suffixes.allFlags.contains outer.flag
    then none
  else if !outer.crossproduct then none
  else if !C.isOuterAffixValid k .full outer then none
  else
    let stem := outer.toStem k word
    if !outer.conditionMatches k stem then none
    else (C.affixesOf k.other stem).findSome? (C.sandwichMid k stem hh outer)

/-- `strip_suffix_then_prefix_then_suffix` (`k = sfx`, `src/checker.rs` 1016–1134) and
`strip_prefix_then_suffix_then_prefix` (`k = pfx`, 1265–1383). -/
def stripSandwich (C : Checker) (k : Kind) (word : Str) (hh : HiddenHomonym) : Option AffixForm :=
  if C.aff.prefixes.allFlags.isEmpty && C.aff.suffixes.allFlags.isEmpty then none
  else (C.affixesOf k word).findSome? (C.sandwichOuter k word hh)

/-- The loop body of `check_simple_word` (`src/checker.rs` 409–420). -/
def directEntry (C : Checker) (hh : HiddenHomonym) (e : Str × FlagSet) : Option FlagSet :=
  if hasFlag e.2 C.opts.needAffixFlag then none
  else if hasFlag e.2 C.opts.onlyInCompoundFlag then none
  else if hh.skips && e.2.contains hiddenHomonymFlag then none
  else some e.2

/-- `check_simple_word` (`src/checker.rs` 404–467). `orElse` is the chain of early returns. -/
def checkSimpleWord (C : Checker) (word : Str) (hh : HiddenHomonym) : Option FlagSet :=
  ((C.entries word).findSome? (C.directEntry hh)).or <|
  ((C.stripOnly .sfx .full word hh).map (·.flags)).or <|
  ((C.stripOnly .pfx .full word hh).map (·.flags)).or <|
  ((C.stripComm .full word hh).map (·.flags)).or <|
  if C.opts.complexPrefixes then
    ((C.stripTwo .pfx word hh).map (·.flags)).or <|
    ((C.stripOneTwo .sfx word hh).map (·.flags)).or <|
    ((C.stripSandwich .pfx word hh).map (·.flags))
  else
    ((C.stripTwo .sfx word hh).map (·.flags)).or <|
    ((C.stripOneTwo .pfx word hh).map (·.flags)).or <|
    ((C.stripSandwich .sfx word hh).map (·.flags))

end Checker
end Spellbook
