import Verif.Spec.Parser
import Verif.Spec.Derivation
/-!
# Specification of the life of a dictionary

A program gets a dictionary from `Dictionary::new` and changes it by `add` and `remove_stem`.
-/

namespace Spellbook.Spec

/-- The dictionaries which a program can hold. The layout of the hash table may be another one at each
call. -/
inductive Reachable (U : Unicode) : Dict → Prop
  | loaded {S aff dic D} : parse U S aff dic = .ok D → Reachable U D
  | added {D line D'} : Reachable U D → D.add U line = .ok D' → Reachable U D'
  | removed {D} (L : Layout) (stem : Str) : Reachable U D → Reachable U (D.removeStem L stem).2

/-- Entries with the same stem have the same flags, so that their order does not matter. -/
def NoConflict (D : Dict) : Prop :=
  ∀ stem F G, (stem, F) ∈ D.words.slots → (stem, G) ∈ D.words.slots → F = G

end Spellbook.Spec
