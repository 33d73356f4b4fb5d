import Verif.Spec.Growth
/-!
# Word lists without affixes
-/

namespace Spellbook.Spec

/-- The affix file without its lines for PFX, SFX and NEEDAFFIX. -/
def unaffixed (A : AffData) : AffData :=
  { A with
    prefixes := AffixIndex.empty .pfx
    suffixes := AffixIndex.empty .sfx
    options := { A.options with needAffixFlag := none } }

/-- The entries are the words which can be made from the entries of `D` with its affixes, each with the flags of its
stem. -/
def Unmunched (D : Dict) (entries : List (Str × FlagSet)) : Prop :=
  ∀ w F, (w, F) ∈ entries ↔ ∃ stem steps, Derives .code D false w stem F steps

/-- `C'` has no affixes, but lists every word which can be made with the affixes of `C`. -/
structure ListsAll (C C' : Checker) : Prop where
  unicode : C'.U = C.U
  settings : C'.dict.aff = unaffixed C.dict.aff
  title : C'.checkLowerAsTitle = C.checkLowerAsTitle
  upper : C'.checkLowerAsUpper = C.checkLowerAsUpper
  words : Unmunched C.dict C'.dict.words.slots

end Spellbook.Spec
