import Verif.Spec.AffText
import Verif.Model.Dictionary
/-!
# Specification of `Dictionary::new`

What a parsed dictionary has to do with the settings of the `.aff` text and the lines of the `.dic`
text, and how many lines a table directive takes.
-/

namespace Spellbook.Spec

/-- The affix tables hold the affixes of the `.aff` text, without the ignored characters, in some
order. -/
def SameAffixes (ignore : List Char) (table read : List Affix) : Prop :=
  table.Perm (read.map fun a => { a with add := a.add.filter fun c => !ignore.contains c })

/-- The conversion tables hold the pairs of the `.aff` text in some order. -/
def SameConversions (table : ConversionTable) (read : List (Str × Str)) : Prop :=
  table.inner.Perm (read.map Conversion.ofPair)

/-- The affix data hold what was read from the `.aff` text. -/
structure MadeFrom (cx : Cx) (A : AffData) : Prop where
  prefixes : SameAffixes cx.ignoreChars A.prefixes.table cx.prefixes
  suffixes : SameAffixes cx.ignoreChars A.suffixes.table cx.suffixes
  breaks : BreakTable.new cx.breakPatterns = some A.breakTable
  replacements : ReplacementTable.from' cx.replacements = some A.replacements
  similarities : A.similarities = cx.similarities
  input : SameConversions A.inputConversions cx.inputConversions
  output : SameConversions A.outputConversions cx.outputConversions
  rules : A.compoundRules.rules = cx.compoundRules
  vowels : A.compoundSyllableVowels = cx.compoundSyllableVowels
  patterns : A.compoundPatterns = cx.compoundPatterns
  ignore : A.ignoreChars = cx.ignoreChars
  keyboard : A.keyboardCloseness = cx.keyboardCloseness
  tryChars : A.tryChars = cx.tryChars
  options : A.options = cx.options
  flagType : A.flagType = cx.flagType
  aliases : A.flagAliases = cx.flagAliases

/-- The first word of a line announces a number. -/
def Announces (U : Unicode) (line : Str) : Prop :=
  ∃ w ws n, splitWhitespace U line = w :: ws ∧ IsNumeral w n ∧ n < 2 ^ 64

/-- The title-case twin of the entry on the line is too long for a stem. -/
def TwinTooLong (U : Unicode) (cx : Cx) (line : Str) : Prop :=
  ∃ t stem F title, Trimmed U line t ∧ ¬ SkippedLine t ∧
    LineMeans U cx.flagType cx.flagAliases cx.ignoreChars t stem F ∧
    HasTwin U cx.options.forbiddenWordFlag stem F ∧
    cx.options.caseHandling.titlecase U stem = some title ∧ 65535 < byteLen title

/-- A line is wrong: too long, or its flags are malformed. -/
def BadLine (U : Unicode) (cx : Cx) (line : Str) (kind : ErrorKind) : Prop :=
  ∃ t, Trimmed U line t ∧ ¬ SkippedLine t ∧
    ((65535 < byteLen t ∧ kind = .wordTooLong) ∨
     (byteLen t ≤ 65535 ∧ ∃ e, EntryFault U cx.flagType cx.flagAliases t e ∧
        kind = .malformedFlag e))

/-- The lines which are no comments make these settings. -/
def Settings (U : Unicode) (aff : Str) (cx : Cx) : Prop :=
  ∃ lines, Content U aff lines ∧ Reads U {} (lines.map (·.2)) cx

/-- The pair of texts denotes the dictionary: the `.aff` text makes settings, which the affix data
hold; the `.dic` text starts with a number, and the word list has the entries of the lines below it,
one after the other. -/
def Denotes (U : Unicode) (aff dic : Str) (D : Dict) : Prop :=
  ∃ cx first rest entries, Settings U aff cx ∧ MadeFrom cx D.aff ∧ Content U dic (first :: rest) ∧
    Announces U first.2 ∧ List.Forall₂ (fun l es => EntriesOf U cx l.2 es) rest entries ∧
    D.words.slots = entries.flatten

/-- The `.dic` text is wrong at its beginning: there is no line, or no number. -/
def BadStart (U : Unicode) (dic : Str) (kind : ErrorKind) (number : Option Nat) : Prop :=
  (Content U dic [] ∧ number = none ∧ kind = .mismatchedArity 1 0) ∨
  ∃ first rest, Content U dic (first :: rest) ∧ number = some first.1 ∧
    ((splitWhitespace U first.2 = [] ∧ kind = .mismatchedArity 1 0) ∨
     ∃ w ws e, splitWhitespace U first.2 = w :: ws ∧ NumberFault (2 ^ 64 - 1) w e ∧
       kind = .malformedNumber e)

/-- The lines of the `.dic` text in front of the line `l` are fine. -/
def FineUpTo (U : Unicode) (cx : Cx) (dic : Str) (l : Nat × Str) : Prop :=
  ∃ first before after entries, Content U dic (first :: (before ++ l :: after)) ∧ Announces U first.2 ∧
    List.Forall₂ (fun l es => EntriesOf U cx l.2 es) before entries ∧
    ∀ l ∈ before, ¬ TwinTooLong U cx l.2

end Spellbook.Spec
