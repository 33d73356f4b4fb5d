import Verif.Spec.Blocks
import Verif.Spec.Tables
/-!
# Tables with their rows in another order
-/

namespace Spellbook
namespace Spec

/-- The tables of an affix file which are no lists of affixes and whose rows have no numbers. -/
def unnumbered : List String := ["BREAK", "COMPOUNDRULE", "CHECKCOMPOUNDPATTERN", "REP", "MAP", "ICONV", "OCONV"]

/-- The same block, with its rows in another order if it is one of the tables `keys`. -/
structure Block.Shuffled (keys : List String) (b b' : Block) : Prop where
  key : b.key = b'.key
  line : b.line = b'.line
  args : b.args = b'.args
  rows : b.rows.Perm b'.rows
  fixed : b.key ∉ keys → b.rows = b'.rows

/-- No two conversions of the same characters give different texts. -/
def NoTies (lines : List (Str × Str)) : Prop :=
  ∀ l ∈ lines, ∀ l' ∈ lines, ∀ tail pat, ConvApplies l tail pat → ConvApplies l' tail pat → l.2 = l'.2

end Spec
end Spellbook
