import Verif.Spec.Rename
import Verif.Spec.History
import Verif.Spec.Parser
/-!
# The same files on machines of both byte orders

With `FLAG long` a flag is two bytes, read as a number in the byte order of the machine.
-/

namespace Spellbook
namespace Spec

/-- The same machine with another byte order. -/
def withOrder (U : Unicode) (order : ByteOrder) : Unicode := { U with byteOrder := order }

/-- The number with its two bytes exchanged. A number with a byte 0 or 255 stays as it is: such bytes do not
occur in a text without NUL. -/
def swapBytes (f : Nat) : Nat :=
  if 256 ≤ f ∧ f < 65280 ∧ f % 256 ≠ 0 ∧ f % 256 ≠ 255 then 256 * (f % 256) + f / 256 else f

/-- The way in which the flags are written, on the other machine. -/
def swapWriting (d : AffData) : Writing :=
  ⟨if d.flagType = .long .little then .long .big else d.flagType, d.flagAliases.map (renameFlags swapBytes)⟩

/-- The dictionary with the bytes of all flags exchanged. -/
def swapDict (D : Dict) : Dict := renameDict swapBytes (swapWriting D.aff) D

/-- The first word of the line is `key`. -/
def LineOf (U : Unicode) (line : Str) (key : String) : Prop := ∃ args, splitWhitespace U line = key.toList :: args

/-- The directives in whose lines flags are named. -/
def flagReaders : List String :=
  flagKeys.map (·.1) ++ ["AF", "PFX", "SFX", "COMPOUNDRULE", "CHECKCOMPOUNDPATTERN"]

/-- The text has the line `FLAG long`, in front of all lines which name flags, and no other FLAG line. -/
def LongFirst (U : Unicode) (aff : Str) : Prop :=
  ∃ before line after, Content U aff (before ++ line :: after) ∧
    (∀ l ∈ before, ¬ LineOf U l.2 "FLAG" ∧ ∀ k ∈ flagReaders, ¬ LineOf U l.2 k) ∧
    (∃ args, splitWhitespace U line.2 = "FLAG".toList :: "long".toList :: args) ∧
    ∀ l ∈ after, ¬ LineOf U l.2 "FLAG"

/-- The text has no line `FLAG long`. -/
def NoLong (U : Unicode) (aff : Str) : Prop :=
  ∃ lines, Content U aff lines ∧ ∀ l ∈ lines, ∀ args, splitWhitespace U l.2 ≠ "FLAG".toList :: "long".toList :: args

/-- The sort orders affixes by what they append: where they come from does not matter. -/
structure ByAppending (S : Sorts) : Prop where
  affixes : ∀ k (g : Affix → Affix) (l : List Affix), (∀ a, (g a).appending = a.appending) →
    S.affixes k (l.map g) = (S.affixes k l).map g

/-- The dictionaries which a program holds on a little-endian and on a big-endian machine after the same calls.
The texts have no NUL characters, and flags are named behind the line `FLAG long` only, if there is one. -/
inductive BothHold (U : Unicode) : Dict → Dict → Prop
  | loaded {S aff dic D D'} : ByAppending S →
      (LongFirst U aff ∧ Char.ofNat 0 ∉ aff ∧ Char.ofNat 0 ∉ dic ∨ NoLong U aff) →
      parse (withOrder U .little) S aff dic = .ok D → parse (withOrder U .big) S aff dic = .ok D' → BothHold U D D'
  | added {D D' line E E'} : BothHold U D D' → Char.ofNat 0 ∉ line →
      D.add (withOrder U .little) line = .ok E → D'.add (withOrder U .big) line = .ok E' → BothHold U E E'
  | removed {D D'} (L : Layout) (stem : Str) : BothHold U D D' →
      BothHold U (D.removeStem L stem).2 (D'.removeStem L stem).2

end Spec
end Spellbook
