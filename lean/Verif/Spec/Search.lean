import Verif.Spec.Compound
/-!
# Specification of the search for compounds

What the search answers for every dictionary: the first of the ways, in a fixed order, in which the
rest of the word can be read, where only one reading of each text is looked at and the reading found
first for what remains is final.

From the model only the data types are used (and `matchIndices` in `RepSimilar`).
-/

namespace Spellbook.Spec

/-! ### Counting -/

/-- The number of vowels of COMPOUNDSYLLABLE in the text. -/
def syllables (D : Dict) (text : Str) : Nat :=
  (D.aff.compoundSyllableVowels.map fun v => text.count v).sum

/-- With COMPOUNDSYLLABLE a prefix counts as so many words as it has syllables, at least one
(modulo 2^16). -/
def prefixWords (D : Dict) (p : Piece) : Nat :=
  if D.aff.compoundSyllableVowels = [] then 0
  else (p.affixes.map fun x => if x.1 = .pfx then max (syllables D x.2.add) 1 % 65536 else 0).sum

/-- The number of words a part adds to the first: for its prefix, and one for COMPOUNDROOT. -/
noncomputable def extraWords (D : Dict) (p : Piece) : Nat := prefixWords D p + rootBonus D p.flags

open scoped Classical in
/-- What a suffix of the last part adds to the syllables of the compound (a negative number: they are
not counted). The flags are `c`, `J` and `I`, written as characters. -/
noncomputable def suffixSyllables (D : Dict) (F : FlagSet) (s : Affix) : Int :=
  - syllables D s.add
  - (if ∃ x c, s.add = x ++ [c, 'i'] ∧ c ≠ 'y' ∧ c ≠ 't' then 1 else 0)
  + (if D.aff.options.compoundSyllableNum = false then 0
     else if s.flag = 'c'.toNat then 2
     else if s.flag = 'J'.toNat then 1
     else if s.flag = 'I'.toNat ∧ 'J'.toNat ∈ F.elems then 1
     else 0)

open scoped Classical in
/-- What the last part adds to the syllables of the compound, as a 16 bit number: for its suffix, or
-1 for a bare entry flagged `I` and not `J`. -/
noncomputable def lastSyllables (D : Dict) (q : Piece) : Int :=
  if D.aff.compoundSyllableVowels = [] then 0
  else
    match q.affixes with
    | [] => if 'I'.toNat ∈ q.flags.elems ∧ 'J'.toNat ∉ q.flags.elems then -1 else 0
    | (.sfx, s) :: _ => (suffixSyllables D q.flags s).bmod 65536
    | (.pfx, _) :: _ => 0

/-- The word with the last part `q` has more syllables than COMPOUNDSYLLABLE allows (modulo 2^64). -/
def TooManySyllables (D : Dict) (word : Str) (q : Piece) : Prop :=
  ((syllables D word : Int) + lastSyllables D q) % 2 ^ 64 > D.aff.options.compoundSyllableMax.getD 0

/-- COMPOUNDWORDMAX is reached with the last two parts `p` and `q`, `n` words standing before them. A
letter put back and a replaced boundary each have their own way of counting. -/
def WordsReached (D : Dict) (n : Nat) (p q : Piece) (pat : Option CompoundPattern) (tripled : Bool) :
    Prop :=
  ∃ max, D.aff.options.compoundMaxWordCount = some max ∧
    match pat, tripled with
    | none, false => max < n + extraWords D p + extraWords D q + 2
    | none, true => max < n + extraWords D p
    | some _, _ => max < n + 2

/-! ### Readings -/

/-- Which reading of a text the search looks at: a part with that text, whenever there is one. -/
structure Readings (D : Dict) (read : Mode → Str → Option Piece) : Prop where
  part : ∀ m t p, m ≠ .full → read m t = some p →
    p.text = t ∧ Part D m p.text p.stem p.flags p.affixes
  some : ∀ m (p : Piece), m ≠ .full → Part D m p.text p.stem p.flags p.affixes →
    ∃ q, read m p.text = some q

/-! ### One way to read the rest of the word -/

/-- What came of a way: a compound with this first part, nothing, or nothing and no further ways of
its kind are tried here. -/
inductive Answer
  | found (p : Piece) | nothing | stop

/-- The parts are the same to CHECKCOMPOUNDDUP: same entry, both changed by affixes or both not, and
the same counts (`p` is not the last part). -/
structure SameParts (D : Dict) (p q : Piece) : Prop where
  duplicate : Duplicate p q
  words : prefixWords D p = prefixWords D q
  syllables : lastSyllables D q = 0

/-- `q` may be the last part behind `p`, but for its count. `rest` is the text of the compound as
written, from the begin of `p`. -/
structure LastFits (D : Dict) (fc : Forceucase) (before rest : Str) (p q : Piece)
    (pat : Option CompoundPattern) : Prop where
  allowed : D.aff.options.forbiddenWordFlag ∉ q.flags.elems
  meet : Meet D before q.text p q pat
  nodup : D.aff.options.compoundCheckDuplicate = true → ¬ SameParts D p q
  rep : D.aff.options.compoundCheckRep = true → ¬ RepSimilar D rest
  force : fc = .forbidBad → ¬ Has q.flags D.aff.options.compoundForceUppercaseFlag

/-- The compound which the search finds behind `p` may follow `p`; `q` is its first part. -/
structure RestFits (D : Dict) (before rest remains text : Str) (p q : Piece)
    (pat : Option CompoundPattern) (tripled : Bool) : Prop where
  meet : Meet D before text p q pat
  rep : D.aff.options.compoundCheckRep = true → ¬ RepSimilar D rest
  /-- Nor is `p` with the stem behind it similar to a simple word. (Without the letter put back, if
  the boundary is replaced.) -/
  stem : D.aff.options.compoundCheckRep = true →
    if pat ≠ none ∧ tripled = true then
      ∀ t, text = q.stem ++ t → p.text ++ q.stem ≠ [] →
        ¬ RepSimilar D ((p.text ++ remains).take ((p.text ++ q.stem).length - 1))
    else ∀ t, remains = q.stem ++ t → ¬ RepSimilar D (p.text ++ q.stem)

/-- What came of the recursive search for what is left of the word. -/
abbrev Found := (n : Nat) → (before rest : Str) → Option Piece → Prop

/-- What is tried behind the part `p`, which ends `before`: `text` is what remains, perhaps with a
letter put back. -/
inductive Behind (D : Dict) (fc : Forceucase) (read : Mode → Str → Option Piece) (R : Found)
    (n : Nat) (before rest remains text : Str) (p : Piece) (pat : Option CompoundPattern)
    (tripled : Bool) : Answer → Prop
  /-- A last part within the limit. -/
  | last {q} (read' : read .atEnd text = some q) (fits : LastFits D fc before rest p q pat)
      (limit : WordsReached D n p q pat tripled →
        pat = none ∧ tripled = false ∧ D.aff.compoundSyllableVowels ≠ [] ∧
          ¬ TooManySyllables D (before ++ remains) q) :
      Behind D fc read R n before rest remains text p pat tripled (.found p)
  /-- A last part over the limit. -/
  | limit {q} (read' : read .atEnd text = some q) (fits : LastFits D fc before rest p q pat)
      (over : WordsReached D n p q pat tripled)
      (noSyllables : ¬ (pat = none ∧ tripled = false ∧ D.aff.compoundSyllableVowels ≠ [])) :
      Behind D fc read R n before rest remains text p pat tripled .stop
  /-- No last part; what is left is a compound itself. -/
  | compound {q}
      (noLast : ∀ q, read .atEnd text = some q → LastFits D fc before rest p q pat →
        WordsReached D n p q pat tripled ∧ pat = none ∧ tripled = false ∧
          D.aff.compoundSyllableVowels ≠ [] ∧ TooManySyllables D (before ++ remains) q)
      (found : R (n + 1 + (if pat = none then extraWords D p else 0)) before text (some q))
      (fits : RestFits D before rest remains text p q pat tripled) :
      Behind D fc read R n before rest remains text p pat tripled (.found p)
  /-- Neither. -/
  | nothing {o}
      (noLast : ∀ q, read .atEnd text = some q → LastFits D fc before rest p q pat →
        WordsReached D n p q pat tripled ∧ pat = none ∧ tripled = false ∧
          D.aff.compoundSyllableVowels ≠ [] ∧ TooManySyllables D (before ++ remains) q)
      (found : R (n + 1 + (if pat = none then extraWords D p else 0)) before text o)
      (unfit : ∀ q, o = some q → ¬ RestFits D before rest remains text p q pat tripled) :
      Behind D fc read R n before rest remains text p pat tripled .nothing

/-- A letter dropped from a triple can be put back behind `before` (SIMPLIFIEDTRIPLE). -/
def CanPutBack (D : Dict) (before : Str) (c : Char) : Prop :=
  D.aff.options.compoundSimplifiedTriple = true ∧ ∃ a, before = a ++ [c, c]

/-- The text may be the first part of what is left of the word. -/
structure FirstFits (U : Unicode) (D : Dict) (before remains : Str) (p : Piece)
    (pat : Option CompoundPattern) : Prop where
  allowed : D.aff.options.forbiddenWordFlag ∉ p.flags.elems
  boundary : Boundary U D before remains p pat

/-- The text `text` is tried as first part, `remains` being what remains. First without and then, if
that gave nothing, with a letter put back. -/
inductive Way (U : Unicode) (D : Dict) (fc : Forceucase) (read : Mode → Str → Option Piece)
    (R : Found) (m : Mode) (n : Nat) (before rest text remains : Str)
    (pat : Option CompoundPattern) : Answer → Prop
  | noPart (no : ∀ p, read m text = some p → ¬ FirstFits U D (before ++ text) remains p pat) :
      Way U D fc read R m n before rest text remains pat .nothing
  | direct {p a} (read' : read m text = some p) (fits : FirstFits U D (before ++ text) remains p pat)
      (behind : Behind D fc read R n (before ++ text) rest remains remains p pat false a)
      (conclusive : a ≠ .nothing) :
      Way U D fc read R m n before rest text remains pat a
  | noTriple {p} (read' : read m text = some p) (fits : FirstFits U D (before ++ text) remains p pat)
      (behind : Behind D fc read R n (before ++ text) rest remains remains p pat false .nothing)
      (no : ∀ c, ¬ CanPutBack D (before ++ text) c) :
      Way U D fc read R m n before rest text remains pat .nothing
  | triple {p c a} (read' : read m text = some p)
      (fits : FirstFits U D (before ++ text) remains p pat)
      (behind : Behind D fc read R n (before ++ text) rest remains remains p pat false .nothing)
      (back : CanPutBack D (before ++ text) c)
      (behind' : Behind D fc read R n (before ++ text) rest remains (c :: remains) p pat true a) :
      Way U D fc read R m n before rest text remains pat a

/-! ### All ways -/

/-- A CHECKCOMPOUNDPATTERN line is tried for the boundary behind `x`; `y` is the text behind it. -/
inductive PatternWay (U : Unicode) (D : Dict) (fc : Forceucase) (read : Mode → Str → Option Piece)
    (R : Found) (m : Mode) (n : Nat) (before x y : Str) (c : CompoundPattern) : Answer → Prop
  | notWritten (no : ∀ rep t, c.replacement = some rep → y ≠ rep ++ t) :
      PatternWay U D fc read R m n before x y c .nothing
  | written {rep t a} (rep' : c.replacement = some rep) (here : y = rep ++ t)
      (way : Way U D fc read R m n before (x ++ y) (x ++ c.first) (c.second ++ t) (some c) a) :
      PatternWay U D fc read R m n before x y c a

/-- What is found at the boundary between `x` and `y`: a plain compound, or the first line of
CHECKCOMPOUNDPATTERN which gives something or stops. -/
inductive AtBoundary (U : Unicode) (D : Dict) (fc : Forceucase) (read : Mode → Str → Option Piece)
    (R : Found) (m : Mode) (n : Nat) (before x y : Str) : Option Piece → Prop
  | plain {p} (way : Way U D fc read R m n before (x ++ y) x y none (.found p)) :
      AtBoundary U D fc read R m n before x y (some p)
  | pattern {a l c r p} (way : Way U D fc read R m n before (x ++ y) x y none a)
      (notPlain : ∀ p, a ≠ .found p) (split : D.aff.compoundPatterns = l ++ c :: r)
      (earlier : ∀ c' ∈ l, PatternWay U D fc read R m n before x y c' .nothing)
      (this : PatternWay U D fc read R m n before x y c (.found p)) :
      AtBoundary U D fc read R m n before x y (some p)
  | stopped {a l c r} (way : Way U D fc read R m n before (x ++ y) x y none a)
      (notPlain : ∀ p, a ≠ .found p) (split : D.aff.compoundPatterns = l ++ c :: r)
      (earlier : ∀ c' ∈ l, PatternWay U D fc read R m n before x y c' .nothing)
      (this : PatternWay U D fc read R m n before x y c .stop) :
      AtBoundary U D fc read R m n before x y none
  | none {a} (way : Way U D fc read R m n before (x ++ y) x y none a)
      (notPlain : ∀ p, a ≠ .found p)
      (all : ∀ c ∈ D.aff.compoundPatterns, PatternWay U D fc read R m n before x y c .nothing) :
      AtBoundary U D fc read R m n before x y none

/-- The boundary may be tried: at least COMPOUNDMIN characters on both sides. -/
def IsBoundary (D : Dict) (rest x y : Str) : Prop :=
  rest = x ++ y ∧ D.aff.options.minChars ≤ x.length ∧ D.aff.options.minChars ≤ y.length

/-- One level of the search: what is found at the first boundary, from the left, which gives
something. -/
inductive Level (U : Unicode) (D : Dict) (fc : Forceucase) (read : Mode → Str → Option Piece)
    (R : Found) (m : Mode) (n : Nat) (before rest : Str) : Option Piece → Prop
  | some {x y p} (here : IsBoundary D rest x y)
      (found : AtBoundary U D fc read R m n before x y (some p))
      (earlier : ∀ x' y', IsBoundary D rest x' y' → x'.length < x.length →
        AtBoundary U D fc read R m n before x' y' none) :
      Level U D fc read R m n before rest (some p)
  | none (all : ∀ x y, IsBoundary D rest x y → AtBoundary U D fc read R m n before x y none) :
      Level U D fc read R m n before rest none

/-- The answer of the search for the compounds which `rest` is, with `before` standing before it and
`n` words counted; the first part stands at `m`. The number is the depth of nested searches. -/
def Answers (U : Unicode) (D : Dict) (fc : Forceucase) (read : Mode → Str → Option Piece) :
    Nat → Mode → (n : Nat) → (before rest : Str) → Option Piece → Prop
  | 0, _, _, _, _, _ => False
  | depth + 1, m, n, before, rest, o =>
    Level U D fc read (Answers U D fc read depth .atMiddle) m n before rest o

end Spellbook.Spec
