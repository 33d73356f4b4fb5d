import Verif.Spec.HintList
import Verif.Spec.SuggestCase
/-!
# Specification of suggestions from a list of words with REP lines, for words with capitals

What one correction of a text is, told from the list and the `.aff` text.
-/

namespace Spellbook.Spec

/-- One REP line replaces a part of the word: all of it, its start, its end, or a text anywhere in it which does not overlap
with an earlier place of the same text. -/
inductive FixBy (r : PrepRules) : Str → Str → Prop
  | whole {w t} : ('^' :: w ++ ['$'], t) ∈ r.replacements → FixBy r w t
  | start {f t b} : ('^' :: f, t) ∈ r.replacements → f.getLast? ≠ some '$' → FixBy r (f ++ b) (t ++ b)
  | stop {f t a} : (f ++ ['$'], t) ∈ r.replacements → (f ++ ['$']).head? ≠ some '^' → FixBy r (a ++ f) (a ++ t)
  | anywhere {f t a b} : (f, t) ∈ r.replacements → f.head? ≠ some '^' → f.getLast? ≠ some '$' →
      (∀ a' b', a ++ (f ++ b) = a' ++ (f ++ b') → a'.length < a.length → a'.length + f.length ≤ a.length) →
      FixBy r (a ++ (f ++ b)) (a ++ (t ++ b))

/-- The text is one word of the list, or several with spaces in between. -/
inductive InWords (words : List Str) : Str → Prop
  | one {v} : v ∈ words → InWords words v
  | more {v rest} : v ∈ words → InWords words rest → InWords words (v ++ ' ' :: rest)

/-- The second text corrects the first one. -/
inductive CorrectedTo (U : Unicode) (r : PrepRules) (words : List Str) : Str → Str → Prop
  /-- A slip. -/
  | slip {w v} : SlipOf U r w v → v ∈ words → CorrectedTo U r words w v
  /-- A slip of which there are many, unless the word and the TRY line are very long. -/
  | far {w v} : FarSlipOf r w v → (w.length + r.tries.length) * (w.length + 1) ≤ 100000 → v ∈ words →
      CorrectedTo U r words w v
  /-- Letters of MAP groups, which have letters only, replaced by similar ones, unless there are very many choices. -/
  | similar {w v} : SimilarLetters r.similar 100000 w v → v ∈ words → CorrectedTo U r words w v
  /-- A REP line. -/
  | fix {w v} : FixBy r w v → InWords words v → CorrectedTo U r words w v
  /-- A missing space. -/
  | space {a b} : a ∈ words → b ∈ words → CorrectedTo U r words (a ++ b) (a ++ ' ' :: b)
  /-- A missing dash, between words of two or more letters and if the TRY line has the letter `a` or a dash. -/
  | dash {a b} : a ∈ words → b ∈ words → 2 ≤ a.length → 2 ≤ b.length → 'a' ∈ r.tries ∨ '-' ∈ r.tries →
      CorrectedTo U r words (a ++ b) (a ++ '-' :: b)

end Spellbook.Spec
