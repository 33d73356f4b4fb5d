import Verif.Spec.AffText
/-!
# The blocks of an affix file

An affix file is a list of blocks: a line which names a directive, and the rows which this line announces.
-/

namespace Spellbook
namespace Spec

/-- A line with a directive and the lines below it which belong to it. -/
structure Block where
  key : String
  line : Str
  args : List Str
  rows : List Str

/-- All lines of a block. -/
def Block.lines (b : Block) : List Str := b.line :: b.rows

/-- The line names the directive, and the block has as many rows as the line announces: the number follows the name of
the directive, or the flag and the `Y` or `N` of PFX and SFX; the other directives have no rows. -/
structure Block.WellCut (U : Unicode) (b : Block) : Prop where
  known : b.key ∈ knownKeys
  words : splitWhitespace U b.line = b.key.toList :: b.args
  table : b.key ∈ tableKeys → ∀ w, b.args[0]? = some w → IsNumeral w b.rows.length
  affixes : b.key ∈ ["PFX", "SFX"] → ∀ w, b.args[2]? = some w → IsNumeral w b.rows.length
  single : b.key ∉ tableKeys → b.key ∉ ["PFX", "SFX"] → b.rows = []

/-- The lines of a text are these lines, leaving out comments. -/
def HasLines (U : Unicode) (text : Str) (lines : List Str) : Prop :=
  ∃ l, Content U text l ∧ l.map (·.2) = lines

end Spec
end Spellbook
