import Verif.Spec.Check
import Verif.Spec.Derivation
/-!
# Dictionaries for which suggestions are accepted

Of the model only the data types are used.
-/

namespace Spellbook.Spec

/-- No ICONV, no OCONV, no FORCEUCASE, and the twin in title case which the reader adds for an entry
with capitals is neither forbidden nor warned against (that takes a call of `remove_stem`, or WARN). -/
structure Straight (D : Dict) : Prop where
  iconv : D.aff.inputConversions = .empty
  oconv : D.aff.outputConversions = .empty
  force : D.aff.options.compoundForceUppercaseFlag = none
  twins : ∀ stem F, (stem, F) ∈ D.words.slots → 65535 ∈ F.elems → Good D F

/-- No entry is forbidden or warned against, and no suffix may be combined with a prefix. -/
structure NoneForbidden (D : Dict) : Prop where
  good : ∀ stem F, (stem, F) ∈ D.words.slots → Good D F
  single : ∀ s ∈ tableOf D .sfx, s.crossproduct = false

/-- The text is one word, which is looked at as it is: at most 360 bytes, no spaces and dashes, no ignored
characters. -/
structure OneWord (D : Dict) (t : Str) : Prop where
  space : ' ' ∉ t
  dash : '-' ∉ t
  short : (utf8 t).length ≤ 360
  ignore : ∀ c ∈ t, c ∉ D.aff.ignoreChars

end Spellbook.Spec
