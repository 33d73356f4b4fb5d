import Verif.Spec.Depth
import Verif.Spec.Suggest
/-!
# Specification: how deep `suggest` calls itself

Three parts of `suggest` call themselves: `suggest_impl` (for the parts of a word with dashes), `map_suggest_impl`, and
the search for compounds of every lookup. The models have a number for each of them, which limits the calls that may be
open at the same time.
-/

namespace Spellbook.Spec

/-- While `S` works on the word, at most `calls` calls of `suggest_impl` are open, and no lookup has more than `depth`
calls of the compound search open. -/
def SuggestDepthAtMost (S : Suggester) (word : Str) (calls depth : Nat) : Prop :=
  ∀ out, S.suggest depth calls word out ≠ .error .fuel

/-- Among the calls of `map_suggest_impl` on the word, those nested deeper than `depth` have nothing to do: whether they
are made or not, the same texts are tried and as many attempts are left, whatever the budget. -/
def MapDepthAtMost (groups : List SimilarityGroup) (word : Str) (depth : Nat) : Prop :=
  ∀ deeper budget, depth ≤ deeper → mapImpl groups deeper word 0 budget = mapImpl groups depth word 0 budget

end Spellbook.Spec
