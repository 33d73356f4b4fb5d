import Verif.Model.AffText
/-!
# Changing a dictionary

Models `Dictionary::add` and `Dictionary::remove_stem` (`src/lib.rs` 247–304).
-/

namespace Spellbook
namespace Dict

/-- `Dictionary::add` (`src/lib.rs` 247–263). The conversion into a `Stem` cannot panic
(`parseDicLine_short`). -/
def add (U : Unicode) (D : Dict) (input : Str) : Except FlagError Dict :=
  match parseDicLine U input D.aff.flagType D.aff.flagAliases D.aff.ignoreChars with
  | .error e => .error e
  | .ok (word, flagset) => .ok { D with words := D.words.insert word flagset }

/-- The loop body of `remove_stem` (`src/lib.rs` 297–302): the new flags of a visited entry. -/
def forbid (D : Dict) (flags : FlagSet) : FlagSet :=
  if !flags.contains D.aff.options.forbiddenWordFlag then
    flags.withFlag D.aff.options.forbiddenWordFlag
  else flags

/-- `Dictionary::remove_stem` (`src/lib.rs` 295–304): `did_remove` and the changed dictionary. -/
def removeStem (L : Layout) (D : Dict) (word : Str) : Bool × Dict :=
  ((D.words.get L word).any fun e => !e.2.contains D.aff.options.forbiddenWordFlag,
    { D with words := D.words.updateAll L word D.forbid })

end Dict
end Spellbook
