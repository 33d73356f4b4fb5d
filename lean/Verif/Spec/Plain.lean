import Verif.Spec.Check
import Verif.Spec.Parser
/-!
# Specification of plain word lists

A dictionary without an `.aff` text: which words are correct, told from the list of words. The words are
texts; there are no flags, entries, tables or lookups here.
-/

namespace Spellbook.Spec

/-- A word which stands for itself on a line of a `.dic` text: at most 65535 bytes, without white space,
slash, backslash and number sign. -/
def PlainEntry (U : Unicode) (w : Str) : Prop :=
  w ≠ [] ∧ (utf8 w).length ≤ 65535 ∧
  ∀ c ∈ w, U.isWs c = false ∧ c ∉ ['\n', '\r', '\t', ' ', '/', '\\', '#']

/-- The first line of the `.dic` text: its first word is a number. -/
def PlainHeader (U : Unicode) (number : Str) : Prop :=
  Announces U number ∧ ∀ c ∈ number, c ∉ ['\n', '\r', '#', Char.ofNat 0xFEFF]

/-- The `.dic` text: a number, and each word on a line of its own. -/
def listText (number : Str) (words : List Str) : Str :=
  number ++ '\n' :: words.flatMap (· ++ ['\n'])

/-- The word with its first letter in upper case and the others in lower case. -/
def titleForm (U : Unicode) : Str → Str
  | [] => []
  | c :: s => U.upper c ++ s.flatMap U.lower

/-- The word has capitals and small letters, and a capital which is not its first letter. -/
def MixedCase (U : Unicode) (w : Str) : Prop := HasCasing U w .pascal ∨ HasCasing U w .camel

/-- The text is in the list, or is the title form of a mixed-case word in the list. -/
def InList (U : Unicode) (words : List Str) (s : Str) : Prop :=
  s ∈ words ∨ ∃ v ∈ words, MixedCase U v ∧ s = titleForm U v

/-- The word is known. A word without capitals and a mixed-case word must be in the list as it is, a word
in title case as it is or in lower case, a word in capitals as it is, in title case, in lower case, or
as an article and a name (`SANT'ELIA` for `sant'Elia` or `Sant'Elia`). -/
inductive KnownWord (U : Unicode) (words : List Str) (w : Str) : Prop
  | small : HasCasing U w .none → InList U words w → KnownWord U words w
  | mixed : MixedCase U w → InList U words w → KnownWord U words w
  | title : HasCasing U w .init → w ∈ words ∨ InList U words (U.lowerStr w) → KnownWord U words w
  | caps : HasCasing U w .all →
      InList U words w ∨ InList U words (titleForm U w) ∨ InList U words (U.lowerStr w) → KnownWord U words w
  | article {a b} : HasCasing U w .all → w = a ++ '\'' :: b → '\'' ∉ a → b ≠ [] →
      InList U words (U.lowerStr (a ++ ['\'']) ++ titleForm U b) ∨
        InList U words (titleForm U (a ++ ['\'']) ++ titleForm U b) → KnownWord U words w

/-- The word is known, or made of such words with dashes: a dash at its start or end is left out, and it
is cut at its first dash, nested at most `depth` deep. -/
inductive Dashed (U : Unicode) (words : List Str) : Nat → Str → Prop
  | known {depth w} : KnownWord U words w → Dashed U words depth w
  | start {depth w} : Dashed U words depth w → Dashed U words (depth + 1) ('-' :: w)
  | stop {depth w} : Dashed U words depth w → Dashed U words (depth + 1) (w ++ ['-'])
  | middle {depth a b} : '-' ∉ a → b ≠ [] → Dashed U words depth a → Dashed U words depth b →
      Dashed U words (depth + 1) (a ++ '-' :: b)

/-- The word is correct: it has at most 360 bytes and is empty, or without the dots at its end a number,
or made of known words, without the dots at its end or with them. -/
def CorrectByList (U : Unicode) (words : List Str) (w : Str) : Prop :=
  (utf8 w).length ≤ 360 ∧
  (w = [] ∨ ∃ t n, w = t ++ List.replicate n '.' ∧ (∀ s, t ≠ s ++ ['.']) ∧
    (IsNumber t ∨ Dashed U words 9 t ∨ Dashed U words 9 w))

end Spellbook.Spec
