import Verif.Model.DicLine
import Verif.Spec.FlagFaults
/-!
# Specification of word list lines

A line is read from the left. Its stem ends at the first position which holds a tab, a slash that is
neither the first character nor preceded by a backslash, or a space in front of a morphological
field (`po:`, `st:`, …).
-/

namespace Spellbook.Spec

/-- The text is, after white space, a morphological field: two lower-case letters and a colon. -/
def MorphField (U : Unicode) (rest : Str) : Prop :=
  ∃ ws a b more, rest = ws ++ a :: b :: ':' :: more ∧ (∀ c ∈ ws, U.isWs c = true) ∧
    U.isWs a = false ∧ U.isLower a = true ∧ U.isLower b = true

/-- The stem ends before position `i`. -/
def StopsAt (U : Unicode) (line : Str) (i : Nat) : Prop :=
  line[i]? = some '\t' ∨
  (line[i]? = some '/' ∧ 0 < i ∧ line[i - 1]? ≠ some '\\') ∨
  (line[i]? = some ' ' ∧ MorphField U (line.drop (i + 1)))

/-- `n` is the length of the raw stem. -/
def StemEnd (U : Unicode) (line : Str) (n : Nat) : Prop :=
  n ≤ line.length ∧ (∀ i < n, ¬ StopsAt U line i) ∧ (n < line.length → StopsAt U line n)

/-- `\/` stands for a slash. -/
def unescape : Str → Str
  | [] => []
  | [c] => [c]
  | c :: d :: rest =>
    if c = '\\' ∧ d = '/' then '/' :: unescape rest else c :: unescape (d :: rest)

/-- The stem of a line: what precedes the end, unescaped, without ignored characters. -/
def stemText (ignore : List Char) (line : Str) (n : Nat) : Str :=
  (unescape (line.take n)).filter fun c => c ∉ ignore

/-- The flags of a line: what follows the slash up to white space. -/
def flagText (U : Unicode) (line : Str) (n : Nat) : Str :=
  if line[n]? = some '/' then (line.drop (n + 1)).takeWhile fun c => !U.isWs c else []

open Classical in
/-- The text of the flags of a line, for every line. If the stem has a slash, a backslash, a space or a tab
in it, the flags are what follows the slash up to white space. In a plainer line white space behind the slash
is skipped first; if there is nothing else, the white space itself is the text. -/
noncomputable def flagsBehind (U : Unicode) (line : Str) (n : Nat) : Str :=
  if line[n]? = some '/' then
    if ∃ c ∈ line.take n, c ∈ ['/', '\\', ' ', '\t'] then (line.drop (n + 1)).takeWhile fun c => !U.isWs c
    else if ∀ c ∈ line.drop (n + 1), U.isWs c = true then line.drop (n + 1)
    else ((line.drop (n + 1)).dropWhile U.isWs).takeWhile fun c => !U.isWs c
  else []

/-- The line denotes the stem and the flags. -/
def LineMeans (U : Unicode) (ty : FlagType) (aliases : List FlagSet) (ignore : List Char) (line stem : Str)
    (F : FlagSet) : Prop :=
  byteLen line ≤ 65535 ∧
    ∃ n, StemEnd U line n ∧ stem = stemText ignore line n ∧ AliasFlags ty aliases (flagsBehind U line n) F

/-- What is wrong with a line that denotes nothing: it is too long, or its flags are malformed. -/
def EntryFault (U : Unicode) (ty : FlagType) (aliases : List FlagSet) (line : Str) (e : FlagError) : Prop :=
  (65535 < byteLen line ∧ e = .wordTooLong) ∨
    (byteLen line ≤ 65535 ∧ ∃ n, StemEnd U line n ∧ AliasFault ty aliases (flagsBehind U line n) e)

end Spellbook.Spec
