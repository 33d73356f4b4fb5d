import Verif.Model.Str
import Mathlib.Data.Multiset.MapFold
/-!
# Specification of the word list: a multimap
-/

namespace Spellbook.Spec

/-- What can be done to the word list. -/
inductive BagOp (V : Type)
  | insert (k : Str) (v : V)
  | update (k : Str) (f : V → V)

/-- A multimap: each key has a multiset of values. -/
abbrev Multimap (V : Type) := Str → Multiset V

/-- The effect of an operation. -/
def BagOp.apply {V : Type} (m : Multimap V) : BagOp V → Multimap V
  | .insert k v => fun k' => if k' = k then v ::ₘ m k' else m k'
  | .update k f => fun k' => if k' = k then (m k').map f else m k'

end Spellbook.Spec
