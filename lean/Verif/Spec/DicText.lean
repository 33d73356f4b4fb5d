import Verif.Model.AffText
import Verif.Spec.DicLine
import Verif.Spec.Casing
/-!
# Specification of the word list text

The lines of a `.dic` text that are no comments, in order: the first one announces a number, every
other one which is not blank and does not start with a slash is an entry.
-/

namespace Spellbook.Spec

/-- The lines of a text with their 1-based numbers; a byte order mark is not part of the first. -/
def numbered (text : Str) : List (Nat × Str) :=
  let text := if text.head? = some (Char.ofNat 0xFEFF) then text.tail else text
  (textLines text).zipIdx.map fun p => (p.2 + 1, p.1)

/-- After white space, the line starts with `#`. -/
def Comment (U : Unicode) (line : Str) : Prop :=
  ∃ ws rest, line = ws ++ '#' :: rest ∧ U.isWs '#' = false ∧ ∀ c ∈ ws, U.isWs c = true

/-- `t` is the line without the white space around it. -/
def Trimmed (U : Unicode) (line t : Str) : Prop :=
  ∃ a b, line = a ++ t ++ b ∧ (∀ c ∈ a, U.isWs c = true) ∧ (∀ c ∈ b, U.isWs c = true) ∧
    (∀ c, t.head? = some c → U.isWs c = false) ∧ (∀ c, t.getLast? = some c → U.isWs c = false)

/-- A trimmed line that is skipped: blank, or a slash and more. -/
def SkippedLine (t : Str) : Prop := t = [] ∨ ∃ c rest, t = '/' :: c :: rest

/-- The entry of a stem gets a hidden title-case twin: it has inner capitals and is not forbidden,
or it is in capitals and has flags. -/
def HasTwin (U : Unicode) (forbidden : Nat) (stem : Str) (F : FlagSet) : Prop :=
  ((HasCasing U stem .pascal ∨ HasCasing U stem .camel) ∧ ¬ F.contains forbidden = true) ∨
  (HasCasing U stem .all ∧ ∃ f, F.contains f = true)

/-- The entries a line contributes. -/
inductive EntriesOf (U : Unicode) (cx : Cx) : Str → List (Str × FlagSet) → Prop
  | skipped {line t} : Trimmed U line t → SkippedLine t → EntriesOf U cx line []
  | plain {line t stem F} : Trimmed U line t → ¬ SkippedLine t →
      LineMeans U cx.flagType cx.flagAliases cx.ignoreChars t stem F →
      ¬ HasTwin U cx.options.forbiddenWordFlag stem F → EntriesOf U cx line [(stem, F)]
  | twin {line t stem F title G} : Trimmed U line t → ¬ SkippedLine t →
      LineMeans U cx.flagType cx.flagAliases cx.ignoreChars t stem F →
      HasTwin U cx.options.forbiddenWordFlag stem F →
      cx.options.caseHandling.titlecase U stem = some title →
      (∀ f, G.contains f = true ↔ F.contains f = true ∨ f = 65535) →
      EntriesOf U cx line [(title, G), (stem, F)]

end Spellbook.Spec
