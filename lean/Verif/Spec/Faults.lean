import Verif.Spec.AffText
import Verif.Spec.Condition
/-!
# Specification of the errors of an `.aff` text

For every text that has no meaning: what is wrong with it. The relations of this file go with those
of `Spec/FlagText`, `Spec/RuleText`, `Spec/Condition` and `Spec/AffText`, which say what the fine texts
mean; together they tell, for the text as a whole, which line is the first wrong one and what is
reported about it.
-/

namespace Spellbook.Spec

/-! ## Compound rules -/

/-- The character that is not ASCII where a compound rule has to spell a flag in ASCII. -/
inductive NonAscii : FlagType → Str → Char → Prop
  | short {c rest} : 128 ≤ c.toNat → NonAscii .short (c :: rest) c
  | first {order c rest} : 128 ≤ c.toNat → NonAscii (.long order) ('(' :: c :: rest) c
  | second {order a c rest} : a.toNat < 128 → a ≠ ')' → 128 ≤ c.toNat →
      NonAscii (.long order) ('(' :: a :: c :: rest) c

/-- What is wrong with the flag at the beginning of the text. -/
inductive RuleFlagFault (ty : FlagType) : Str → RuleError → Prop
  | nonAscii {s c} : NonAscii ty s c → RuleFlagFault ty s (.parseFlag (.nonAscii c))
  /-- No flag is spelled there. -/
  | unspelled {s} : (∀ name f rest, s = name ++ rest → ¬ RuleFlagText ty name f) →
      (∀ c, ¬ NonAscii ty s c) → RuleFlagFault ty s .invalidFormat
  | zero {name rest} : RuleFlagText ty name 0 → RuleFlagFault ty (name ++ rest) (.parseFlag .zeroFlag)
  /-- A character above U+FFFF. -/
  | large {name f rest} : ty = .utf8 → RuleFlagText ty name f → 65535 < f →
      RuleFlagFault ty (name ++ rest) (.parseFlag .flagAbove65535)
  /-- A number above 65535. -/
  | number {name f rest} : ty = .numeric → RuleFlagText ty name f → 65535 < f →
      RuleFlagFault ty (name ++ rest) (.parseFlag (.parseInt .posOverflow))

/-- What is wrong with the text of a compound rule: the first wrong flag. -/
inductive RuleFault (ty : FlagType) : Str → RuleError → Prop
  | here {s e} : s ≠ [] → RuleFlagFault ty s e → RuleFault ty s e
  /-- A sign behind a flag belongs to this flag. -/
  | later {name flag modifier rest e} : RuleFlagText ty name flag → Flag.Valid flag →
      (modifier = none → rest.head? ≠ some '?' ∧ rest.head? ≠ some '*') → RuleFault ty rest e →
      RuleFault ty (name ++ modifierText modifier ++ rest) e

/-! ## Conditions -/

/-- What is wrong with the text of a condition, behind the elements that are fine. -/
inductive ConditionFault : Str → ConditionError → Prop
  | unopened {es rest} : (∀ e ∈ es, CondElem.WellFormed e) →
      ConditionFault (renderCond es ++ ']' :: rest) .unopenedCharacterClass
  | unclosed {es rest} : (∀ e ∈ es, CondElem.WellFormed e) → ']' ∉ rest →
      ConditionFault (renderCond es ++ '[' :: rest) .unclosedCharacterClass
  | empty {es rest} : (∀ e ∈ es, CondElem.WellFormed e) →
      ConditionFault (renderCond es ++ '[' :: ']' :: rest) .emptyCharacterClass
  | emptyNone {es rest} : (∀ e ∈ es, CondElem.WellFormed e) →
      ConditionFault (renderCond es ++ '[' :: '^' :: ']' :: rest) .emptyCharacterClass

/-! ## Rows and lines -/

/-- The tables whose rows have one column, and two. -/
def oneColumn : List String := ["BREAK", "AF", "MAP", "COMPOUNDRULE"]
def twoColumns : List String := ["REP", "ICONV", "OCONV", "CHECKCOMPOUNDPATTERN"]

/-- What is wrong with a row of a table; `head` are the arguments of the directive. -/
inductive RowFault (key : String) (head : List Str) (cx : Cx) : List Str → ErrorKind → Prop
  | noColumn : key ∈ oneColumn → RowFault key head cx [] (.mismatchedArity 1 0)
  | noColumns : key ∈ twoColumns → RowFault key head cx [] (.mismatchedArity 2 0)
  | columns {w} : key ∈ twoColumns → RowFault key head cx [w] (.mismatchedArity 2 1)
  | flags {a more e} : key = "AF" → FlagsFault cx.flagType a e →
      RowFault key head cx (a :: more) (.malformedFlag e)
  | rule {a more e} : key = "COMPOUNDRULE" → RuleFault cx.flagType a e →
      RowFault key head cx (a :: more) (.malformedCompoundRule e)
  | firstFlag {a b more text flag e} : key = "CHECKCOMPOUNDPATTERN" → SlashPair a text flag → flag ≠ [] →
      FlagFault cx.flagType flag e → RowFault key head cx (a :: b :: more) (.malformedFlag e)
  | secondFlag {a b more text flag o text' flag' e} : key = "CHECKCOMPOUNDPATTERN" →
      SlashPair a text flag → OptFlag cx.flagType flag o → SlashPair b text' flag' → flag' ≠ [] →
      FlagFault cx.flagType flag' e → RowFault key head cx (a :: b :: more) (.malformedFlag e)
  /-- The rows of an affix table repeat the name of the affix. -/
  | name {name hd args} : key ∈ ["PFX", "SFX"] → head = name :: hd → args.head? ≠ some name →
      RowFault key head cx args .malformedAffix
  | noStrip {name hd} : key ∈ ["PFX", "SFX"] → head = name :: hd →
      RowFault key head cx [name] (.mismatchedArity 3 1)
  | noAdd {name hd strip} : key ∈ ["PFX", "SFX"] → head = name :: hd →
      RowFault key head cx [name, strip] (.mismatchedArity 3 2)
  | affixFlags {name hd strip add more text flags e} : key ∈ ["PFX", "SFX"] → head = name :: hd →
      SlashPair add text flags → AliasFault cx.flagType cx.flagAliases flags e →
      RowFault key head cx (name :: strip :: add :: more) (.malformedFlag e)
  | condition {name hd strip add cond more text flags F e} : key ∈ ["PFX", "SFX"] → head = name :: hd →
      SlashPair add text flags → AliasFlags cx.flagType cx.flagAliases flags F → cond ≠ ['.'] →
      ConditionFault cond e →
      RowFault key head cx (name :: strip :: add :: cond :: more) (.malformedCondition e)

/-- What is wrong with the rows of a table for which `n` rows are announced, from row `i` on: the
number of the wrong line, if there is one, and what is wrong. -/
inductive RowsFault (U : Unicode) (key : String) (head : List Str) (n : Nat) :
    Nat → Cx → List (Nat × Str) → Option Nat → ErrorKind → Prop
  /-- The text ends. -/
  | missing {i cx} : i ≤ n → RowsFault U key head n i cx [] none (.mismatchedRowCount n i)
  /-- The next line is no row of this table. -/
  | foreign {i cx l rest} : i ≤ n → (∀ args, splitWhitespace U l.2 ≠ key.toList :: args) →
      RowsFault U key head n i cx (l :: rest) (some l.1) (.mismatchedRowCount n i)
  | row {i cx l args rest kind} : i ≤ n → splitWhitespace U l.2 = key.toList :: args →
      RowFault key head cx args kind → RowsFault U key head n i cx (l :: rest) (some l.1) kind
  | next {i cx l args cx₁ rest number kind} : i ≤ n → splitWhitespace U l.2 = key.toList :: args →
      Row key head cx args cx₁ → RowsFault U key head n (i + 1) cx₁ rest number kind →
      RowsFault U key head n i cx (l :: rest) number kind

/-- The directives that need an argument. -/
def oneWord : List String :=
  flagKeys.map (·.1) ++ numberKeys.map (·.1) ++ tableKeys ++ ["FLAG", "IGNORE", "KEY", "TRY", "LANG"]

/-- What is wrong with the line of a directive itself. -/
inductive LineFault (key : String) (cx : Cx) : List Str → ErrorKind → Prop
  | noWord : key ∈ oneWord → LineFault key cx [] (.mismatchedArity 1 0)
  | flagType {w ws} : key = "FLAG" → (∀ U ty, ¬ FlagTypeName U w ty) →
      LineFault key cx (w :: ws) (.unknownFlagType w)
  | flag {w ws e} : key ∈ flagKeys.map (·.1) → FlagFault cx.flagType w e →
      LineFault key cx (w :: ws) (.malformedFlag e)
  | number {w ws e} : key ∈ numberKeys.map (·.1) → NumberFault 65535 w e →
      LineFault key cx (w :: ws) (.malformedNumber e)
  | noSyllables : key = "COMPOUNDSYLLABLE" → LineFault key cx [] (.mismatchedArity 2 0)
  | noVowels {w} : key = "COMPOUNDSYLLABLE" → LineFault key cx [w] (.mismatchedArity 2 1)
  | syllables {w v ws e} : key = "COMPOUNDSYLLABLE" → NumberFault 65535 w e →
      LineFault key cx (w :: v :: ws) (.malformedNumber e)
  | count {w ws e} : key ∈ tableKeys → NumberFault (2 ^ 64 - 1) w e →
      LineFault key cx (w :: ws) (.malformedNumber e)
  | noName : key ∈ ["PFX", "SFX"] → LineFault key cx [] (.mismatchedArity 3 0)
  | affixFlag {name ws e} : key ∈ ["PFX", "SFX"] → FlagFault cx.flagType name e →
      LineFault key cx (name :: ws) (.malformedFlag e)
  | noCross {name f} : key ∈ ["PFX", "SFX"] → FlagOf cx.flagType name f → Flag.Valid f →
      LineFault key cx [name] (.mismatchedArity 3 1)
  | cross {name f cross ws} : key ∈ ["PFX", "SFX"] → FlagOf cx.flagType name f → Flag.Valid f →
      cross ∉ [['Y'], ['N']] → LineFault key cx (name :: cross :: ws) .malformedAffix
  | noCount {name f cross} : key ∈ ["PFX", "SFX"] → FlagOf cx.flagType name f → Flag.Valid f →
      cross ∈ [['Y'], ['N']] → LineFault key cx [name, cross] (.mismatchedArity 3 2)
  | affixCount {name f cross w ws e} : key ∈ ["PFX", "SFX"] → FlagOf cx.flagType name f → Flag.Valid f →
      cross ∈ [['Y'], ['N']] → NumberFault (2 ^ 64 - 1) w e →
      LineFault key cx (name :: cross :: w :: ws) (.malformedNumber e)

/-- The line of a table directive is fine and announces `n` rows, which are added to the settings
`cx'`. -/
inductive TableHead (key : String) (cx : Cx) : List Str → Nat → Cx → Prop
  | table {w ws n} : key ∈ tableKeys → IsNumeral w n → n < 2 ^ 64 →
      TableHead key cx (w :: ws) n (if key = "BREAK" then { cx with breakPatterns := [] } else cx)
  | affixes {name f cross w ws n} : key ∈ ["PFX", "SFX"] → FlagOf cx.flagType name f → Flag.Valid f →
      cross ∈ [['Y'], ['N']] → IsNumeral w n → n < 2 ^ 64 →
      TableHead key cx (name :: cross :: w :: ws) n cx

/-! ## The text -/

/-- What is wrong with the lines of an `.aff` text (without the comments), given the settings made
above: the number of the first wrong line, if it is not the end of the text, and what is wrong. -/
inductive ReadsFault (U : Unicode) : Cx → List (Nat × Str) → Option Nat → ErrorKind → Prop
  | line {cx l key args rest kind} : splitWhitespace U l.2 = key.toList :: args →
      LineFault key cx args kind → ReadsFault U cx (l :: rest) (some l.1) kind
  | rows {cx l key args n cx₁ rest number kind} : splitWhitespace U l.2 = key.toList :: args →
      TableHead key cx args n cx₁ → RowsFault U key args n 1 cx₁ rest number kind →
      ReadsFault U cx (l :: rest) number kind
  /-- Blank lines and unknown directives are never wrong. -/
  | ignored {cx l rest number kind} :
      (∀ key args, splitWhitespace U l.2 = key :: args → ∀ k ∈ knownKeys, key ≠ k.toList) →
      ReadsFault U cx rest number kind → ReadsFault U cx (l :: rest) number kind
  /-- A directive that is fine. -/
  | directive {cx l key args rows cx₁ rest number kind} : splitWhitespace U l.2 = key.toList :: args →
      Effect U key args cx (rows.map (·.2)) cx₁ → ReadsFault U cx₁ rest number kind →
      ReadsFault U cx (l :: (rows ++ rest)) number kind

/-- What is wrong with an `.aff` text. -/
def AffFault (U : Unicode) (aff : Str) (number : Option Nat) (kind : ErrorKind) : Prop :=
  ∃ lines, Content U aff lines ∧ ReadsFault U {} lines number kind

end Spellbook.Spec
