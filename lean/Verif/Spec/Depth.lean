import Verif.Spec.Compound
import Verif.Model.Check
/-!
# Specification: how deep `check` calls itself

The search for compounds is the only part of `check` whose recursion is not limited by a constant in the
code. The fuel of the model is the number of calls of it which may be open at the same time.
-/

namespace Spellbook.Spec

/-- `C` never has more than `depth` calls of the compound search open while it checks the word. -/
def DepthAtMost (C : Checker) (word : Str) (depth : Nat) : Prop := C.check depth word ≠ .error .fuel

/-- The case mappings of one character have at most `k` characters. For Unicode `k` is 3. -/
structure CaseGrowth (U : Unicode) (k : Nat) : Prop where
  pos : 1 ≤ k
  lower : ∀ c, (U.lower c).length ≤ k
  upper : ∀ c, (U.upper c).length ≤ k

end Spellbook.Spec
