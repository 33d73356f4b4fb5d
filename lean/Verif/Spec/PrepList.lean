import Verif.Spec.Sharp
import Verif.Spec.Tables
/-!
# Specification of lists with BREAK, ICONV, OCONV, IGNORE and CHECKSHARPS

A word list without flags whose only other settings say how the checked word is prepared or are advice for
suggestions: which words are correct, told from
the list, the break lines, the converted word and the ignored letters.
-/

namespace Spellbook.Spec

/-- What an `.aff` text says about the preparation of words, and its advice for suggestions. -/
structure PrepRules where
  /-- BREAK -/
  breaks : List Str := [['^', '-'], ['-'], ['-', '$']]
  /-- ICONV -/
  input : List (Str × Str) := []
  /-- OCONV -/
  output : List (Str × Str) := []
  /-- IGNORE -/
  ignored : List Char := []
  /-- TRY -/
  tries : Str := []
  /-- KEY -/
  keys : Str := []
  /-- REP -/
  replacements : List (Str × Str) := []
  /-- MAP -/
  similar : List SimilarityGroup := []
  /-- CHECKSHARPS -/
  sharps : Bool := false

/-- The settings of an `.aff` text which says this, and nothing else. -/
def prepSettings (r : PrepRules) : Cx :=
  { breakPatterns := r.breaks, inputConversions := r.input, outputConversions := r.output, ignoreChars := r.ignored,
    tryChars := r.tries, keyboardCloseness := r.keys, replacements := r.replacements, similarities := r.similar,
    options := { checksharps := r.sharps } }

/-- The text without the ignored letters. -/
def lettersKept (r : PrepRules) (w : Str) : Str := w.filter fun c => c ∉ r.ignored

/-- The list without the ignored letters. -/
def listKept (r : PrepRules) (words : List Str) : List Str := words.map (lettersKept r)

/-- The word is known, or made of such words by the break lines: the text of a line for the start or the end of words is left
out there, and the word is cut around the first place where the text of another line stands, if something follows, nested at
most `depth` deep. -/
inductive CutBy (lines : List Str) (known : Str → Prop) : Nat → Str → Prop
  | known {depth w} : known w → CutBy lines known depth w
  | start {depth text w} : '^' :: text ∈ lines → CutBy lines known depth w → CutBy lines known (depth + 1) (text ++ w)
  | stop {depth text w} : text ++ ['$'] ∈ lines → (text ++ ['$']).head? ≠ some '^' → CutBy lines known depth w →
      CutBy lines known (depth + 1) (w ++ text)
  | middle {depth text a b} : text ∈ lines → text.head? ≠ some '^' → text.getLast? ≠ some '$' →
      (∀ a' b', a ++ text ++ b = a' ++ text ++ b' → a.length ≤ a'.length) → b ≠ [] →
      CutBy lines known depth a → CutBy lines known depth b → CutBy lines known (depth + 1) (a ++ text ++ b)

/-- The word is known by the list, read without the ignored letters. -/
def KnownPrepared (U : Unicode) (r : PrepRules) (words : List Str) (w : Str) : Prop :=
  KnownBy U (· ∈ listKept r words) (InList U (listKept r words)) w ∨
    (r.sharps = true ∧ SharpBy U (InList U (listKept r words)) w)

/-- The word is made of known words of the list. -/
def MadeOfKnown (U : Unicode) (r : PrepRules) (words : List Str) (w : Str) : Prop :=
  CutBy r.breaks (KnownPrepared U r words) 9 w

/-- The word is correct: it has at most 360 bytes, and converted by ICONV it is empty, or without the dots at its end a number,
or without these dots and the ignored letters made of known words, or with its dots, if it has some, made of known words as it
is. -/
def CorrectPrepared (U : Unicode) (r : PrepRules) (words : List Str) (w converted : Str) : Prop :=
  (utf8 w).length ≤ 360 ∧
  (converted = [] ∨ ∃ t n, converted = t ++ List.replicate n '.' ∧ (∀ s, t ≠ s ++ ['.']) ∧
    (IsNumber t ∨ MadeOfKnown U r words (lettersKept r t) ∨ (0 < n ∧ MadeOfKnown U r words converted)))

end Spellbook.Spec
