import Verif.Spec.History
/-!
# Specification: which operations concern which stem

A program changes a dictionary by a sequence of calls of `add` and `remove_stem`.
-/

namespace Spellbook.Spec

/-- A call which changes a dictionary. -/
inductive Op
  | add (line : Str)
  | remove (stem : Str)
deriving DecidableEq

/-- `Runs U D ops D'`: the calls `ops`, one after the other, change `D` into `D'`. A line which `add`
refuses changes nothing. The layout of the hash table may be another one at each call. -/
inductive Runs (U : Unicode) : Dict → List Op → Dict → Prop
  | done {D} : Runs U D [] D
  | added {D line D₁ ops D₂} : D.add U line = .ok D₁ → Runs U D₁ ops D₂ → Runs U D (.add line :: ops) D₂
  | refused {D line e ops D₂} : D.add U line = .error e → Runs U D ops D₂ → Runs U D (.add line :: ops) D₂
  | removed {D} (L : Layout) {stem ops D₂} : Runs U (D.removeStem L stem).2 ops D₂ →
      Runs U D (.remove stem :: ops) D₂

/-- The stem which a call concerns, none for a line that is refused. -/
def Op.stem (U : Unicode) (A : AffData) : Op → Option Str
  | .add line =>
    match parseDicLine U line A.flagType A.flagAliases A.ignoreChars with
    | .ok (stem, _) => some stem
    | .error _ => none
  | .remove stem => some stem

/-- Those of the calls which concern the stem. -/
def callsFor (U : Unicode) (A : AffData) (stem : Str) (ops : List Op) : List Op :=
  ops.filter fun o => o.stem U A = some stem

/-- The entries of a stem, in order of insertion. -/
def entriesFor (D : Dict) (stem : Str) : List (Str × FlagSet) :=
  D.words.slots.filter fun e => e.1 = stem

end Spellbook.Spec
