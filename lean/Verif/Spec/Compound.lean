import Verif.Spec.Derivation
import Verif.Spec.Tables
import Verif.Model.Compound
/-!
# Specification of compounds

Which words are compounds of entries of the word list. Nothing here searches. From the model only
the data types are used, and `matchIndices`, which stands for a function of the standard library.
-/

namespace Spellbook.Spec

/-- The flag which allows a part to stand at the position. -/
def positionFlag (D : Dict) : Mode → Option Nat
  | .atBegin => D.aff.options.compoundBeginFlag
  | .atMiddle => D.aff.options.compoundMiddleFlag
  | .atEnd => D.aff.options.compoundEndFlag
  | .full => none

/-- Something with these flags may stand at the position: it is marked COMPOUNDFLAG or with the flag
of the position. -/
def MayStandAt (D : Dict) (m : Mode) (F : FlagSet) : Prop :=
  Has F D.aff.options.compoundFlag ∨ Has F (positionFlag D m)

/-- The affix may be used on a part at the position: a prefix on the last part and a suffix on the
first need COMPOUNDPERMITFLAG, and an affix marked COMPOUNDFORBIDFLAG is never allowed. -/
structure AffixAt (D : Dict) (k : Kind) (m : Mode) (a : Affix) : Prop where
  permit : (k = .pfx ∧ m = .atEnd) ∨ (k = .sfx ∧ m = .atBegin) →
    Has a.flags D.aff.options.compoundPermitFlag
  forbid : ¬ Has a.flags D.aff.options.compoundForbidFlag

/-- The text is made from the entry `(stem, F)` with the given affixes and may be a part of a compound
at the position. -/
inductive Part (D : Dict) (m : Mode) (text stem : Str) (F : FlagSet) : List (Kind × Affix) → Prop
  /-- A listed word. -/
  | listed (entry : (stem, F) ∈ D.words.slots) (visible : 65535 ∉ F.elems) (same : text = stem)
      (plain : ¬ Has F D.aff.options.needAffixFlag) (position : MayStandAt D m F) :
      Part D m text stem F []
  /-- One affix. -/
  | one {k a} (entry : (stem, F) ∈ D.words.slots) (visible : 65535 ∉ F.elems)
      (step : Step D k a stem text) (licence : a.flag ∈ F.elems)
      (at' : AffixAt D k m a) (alone : ¬ NeedsAffix D a) (nocirc : ¬ Circumfix D a)
      (final : m = .atEnd → a.add ≠ [] → InFullWord D a)
      (position : MayStandAt D m F ∨ MayStandAt D m a.flags) :
      Part D m text stem F [(k, a)]
  /-- A suffix and a prefix. -/
  | pair {s p mid} (entry : (stem, F) ∈ D.words.slots) (visible : 65535 ∉ F.elems)
      (step1 : Step D .sfx s stem mid) (step2 : Step D .pfx p mid text)
      (cross : s.crossproduct = true ∧ p.crossproduct = true)
      (at' : AffixAt D .sfx m s ∧ AffixAt D .pfx m p)
      (circ : Circumfix D s ↔ Circumfix D p)
      (licence :
        (¬ NeedsAffix D p ∧ s.flag ∈ F.elems ∧ (p.flag ∈ s.flags.elems ∨ p.flag ∈ F.elems)) ∨
        (¬ NeedsAffix D s ∧ p.flag ∈ F.elems ∧ (s.flag ∈ p.flags.elems ∨ s.flag ∈ F.elems)))
      (position : MayStandAt D m F ∨ MayStandAt D m s.flags ∨ MayStandAt D m p.flags) :
      Part D m text stem F [(.sfx, s), (.pfx, p)]

/-- A part of a compound: its text, its entry and its affixes. -/
structure Piece where
  text : Str
  stem : Str
  flags : FlagSet
  affixes : List (Kind × Affix)

/-- Some affix of the part changes the text. -/
def Piece.Modified (p : Piece) : Prop := ∃ x ∈ p.affixes, x.2.strip ≠ none ∨ x.2.add ≠ []

/-- The part is allowed at the position and its entry is not forbidden. -/
structure PieceAt (D : Dict) (m : Mode) (p : Piece) : Prop where
  part : Part D m p.text p.stem p.flags p.affixes
  allowed : D.aff.options.forbiddenWordFlag ∉ p.flags.elems

/-- Three equal letters around the boundary. -/
def ThreeEqual (before after : Str) : Prop :=
  ∃ c a b, (before = a ++ [c, c] ∧ after = c :: b) ∨ (before = a ++ [c] ∧ after = c :: c :: b)

/-- A capital letter next to the boundary, with a letter on the other side. -/
def CapitalAt (U : Unicode) (before after : Str) : Prop :=
  ∃ x y a b, before = a ++ [x] ∧ after = y :: b ∧
    ((U.isUpper y = true ∧ U.isAlpha x = true) ∨ (U.isUpper x = true ∧ U.isAlpha y = true))

/-- The pattern of a CHECKCOMPOUNDPATTERN line forbids the boundary between the parts `p` and `q`. -/
def PatternForbids (c : CompoundPattern) (before after : Str) (p q : Piece) : Prop :=
  (∃ a, before = a ++ c.first) ∧ (∃ b, after = c.second ++ b) ∧
  (∀ f, c.firstWordFlag = some f → f ∈ p.flags.elems) ∧
  (∀ f, c.secondWordFlag = some f → f ∈ q.flags.elems) ∧
  (c.matchFirstOnlyUnaffixed = true → ¬ p.Modified)

/-- A replacement of the REP table turns the text into a simple word: the whole text, its start, its
end, or one of the occurrences found from left to right. -/
def RepSimilar (D : Dict) (text : Str) : Prop :=
  ∃ new stem F steps, Derives .code D true new stem F steps ∧
    ((∃ r ∈ D.aff.replacements.whole, text = r.1 ∧ new = r.2) ∨
     (D.aff.replacements.hasOnlyWhole = false ∧
      ((∃ r ∈ D.aff.replacements.start, ∃ x, text = r.1 ++ x ∧ new = r.2 ++ x) ∨
       (∃ r ∈ D.aff.replacements.stop, ∃ x, text = x ++ r.1 ∧ new = x ++ r.2) ∨
       (∃ r ∈ D.aff.replacements.anywhere, ∃ i ∈ matchIndices text r.1,
          new = text.take i ++ r.2 ++ text.drop (i + r.1.length)))))

/-- How the written text `rest` is cut into the text of a part and what remains. -/
inductive Cut (D : Dict) (rest : Str) : (text remains : Str) → Option CompoundPattern → Prop
  /-- Simply cut, with enough characters on both sides. -/
  | plain {text remains} (same : rest = text ++ remains)
      (long : D.aff.options.minChars ≤ text.length ∧ D.aff.options.minChars ≤ remains.length) :
      Cut D rest text remains none
  /-- The replacement text of a CHECKCOMPOUNDPATTERN line stands for the end of the part and the start
  of what remains. -/
  | pattern {c rep x t} (mem : c ∈ D.aff.compoundPatterns) (rep' : c.replacement = some rep)
      (same : rest = x ++ rep ++ t)
      (long : D.aff.options.minChars ≤ x.length ∧ D.aff.options.minChars ≤ (rep ++ t).length) :
      Cut D rest (x ++ c.first) (c.second ++ t) (some c)

/-- What remains, possibly with a letter dropped from a triple put back (SIMPLIFIEDTRIPLE). -/
inductive Restored (D : Dict) (before remains : Str) : Str → Bool → Prop
  | same : Restored D before remains remains false
  | triple {a c} (on : D.aff.options.compoundSimplifiedTriple = true) (pair : before = a ++ [c, c]) :
      Restored D before remains (c :: remains) true

/-- The conditions on the boundary behind the first part `p`, whose text ends `before`. -/
structure Boundary (U : Unicode) (D : Dict) (before remains : Str) (p : Piece)
    (pat : Option CompoundPattern) : Prop where
  triple : D.aff.options.compoundCheckTriple = true → ¬ ThreeEqual before remains
  capital : pat = none → D.aff.options.compoundCheckCase = true → ¬ CapitalAt U before remains
  flag : ∀ c, pat = some c → ∀ f, c.firstWordFlag = some f → f ∈ p.flags.elems

/-- The conditions on two neighbouring parts. -/
structure Meet (D : Dict) (before remains : Str) (p q : Piece) (pat : Option CompoundPattern) : Prop
    where
  pattern : pat = none → ∀ c ∈ D.aff.compoundPatterns, ¬ PatternForbids c before remains p q
  flag : ∀ c, pat = some c → ∀ f, c.secondWordFlag = some f → f ∈ q.flags.elems

/-- One for a COMPOUNDROOT entry. -/
noncomputable def rootBonus (D : Dict) (F : FlagSet) : Nat :=
  open Classical in if Has F D.aff.options.compoundRootFlag then 1 else 0

/-- COMPOUNDWORDMAX for two last parts, `n` words standing before them, as the code has it: with a
letter put back the limit is weaker. Only for dictionaries without COMPOUNDSYLLABLE. -/
def WordMax (D : Dict) (n : Nat) (p q : Piece) (pat : Option CompoundPattern) (tripled : Bool) :
    Prop :=
  D.aff.compoundSyllableVowels = [] → ∀ max, D.aff.options.compoundMaxWordCount = some max →
    match pat, tripled with
    | none, false => n + rootBonus D p.flags + rootBonus D q.flags + 2 ≤ max
    | none, true => n + rootBonus D p.flags ≤ max
    | some _, _ => n + 2 ≤ max

/-- Two parts count as duplicates: same entry, both changed by affixes or both not. -/
def Duplicate (p q : Piece) : Prop :=
  p.stem = q.stem ∧ p.flags = q.flags ∧ (p.Modified ↔ q.Modified)

/-- The written text `rest`, with `before` standing before it, is a compound of the pieces (at least
two). The first piece stands at position `m`; `n` words were counted before. -/
inductive Compound (U : Unicode) (D : Dict) (fc : Forceucase) :
    Mode → (n : Nat) → (before rest : Str) → List Piece → Prop
  /-- Two parts. -/
  | two {m n before rest p q remains pat tripled}
      (cut : Cut D rest p.text remains pat) (first : PieceAt D m p)
      (boundary : Boundary U D (before ++ p.text) remains p pat)
      (restored : Restored D (before ++ p.text) remains q.text tripled)
      (second : PieceAt D .atEnd q) (meet : Meet D (before ++ p.text) q.text p q pat)
      (nodup : D.aff.options.compoundCheckDuplicate = true →
        D.aff.compoundSyllableVowels = [] → ¬ Duplicate p q)
      (rep : D.aff.options.compoundCheckRep = true → ¬ RepSimilar D rest)
      (force : fc = .forbidBad → ¬ Has q.flags D.aff.options.compoundForceUppercaseFlag)
      (count : WordMax D n p q pat tripled) :
      Compound U D fc m n before rest [p, q]
  /-- A part and a compound. -/
  | more {m n n' before rest p q pieces remains rest' pat tripled}
      (cut : Cut D rest p.text remains pat) (first : PieceAt D m p)
      (boundary : Boundary U D (before ++ p.text) remains p pat)
      (restored : Restored D (before ++ p.text) remains rest' tripled)
      (tail : Compound U D fc .atMiddle n' (before ++ p.text) rest' (q :: pieces))
      (meet : Meet D (before ++ p.text) rest' p q pat)
      (rep : D.aff.options.compoundCheckRep = true → ¬ RepSimilar D rest)
      (count : D.aff.compoundSyllableVowels = [] →
        n' = n + 1 + (if pat = none then rootBonus D p.flags else 0)) :
      Compound U D fc m n before rest (p :: q :: pieces)

/-- A place where two parts meet: the texts of the parts before it, what is written behind it (a replaced
boundary already put back, a dropped letter not yet), and the CHECKCOMPOUNDPATTERN line whose replacement was
written there, if any. -/
structure Joint where
  before : Str
  after : Str
  pat : Option CompoundPattern

/-- The text `rest`, written behind `before`, has the pieces with the joints between them. -/
inductive Joined (D : Dict) : (before rest : Str) → List Piece → List Joint → Prop
  | two {before rest p q remains pat tripled} (cut : Cut D rest p.text remains pat)
      (restored : Restored D (before ++ p.text) remains q.text tripled) :
      Joined D before rest [p, q] [⟨before ++ p.text, remains, pat⟩]
  | more {before rest p pieces remains pat rest' tripled joints} (cut : Cut D rest p.text remains pat)
      (restored : Restored D (before ++ p.text) remains rest' tripled)
      (tail : Joined D (before ++ p.text) rest' pieces joints) :
      Joined D before rest (p :: pieces) (⟨before ++ p.text, remains, pat⟩ :: joints)

/-! ### Compounds without dropped letters and replaced boundaries -/

/-- The texts of pieces written one after the other. -/
def texts (pieces : List Piece) : Str := (pieces.map Piece.text).flatten

/-- The position of a piece with `l` before and `r` behind it, when the first piece stands at `m`. -/
def positionIn {α : Type} (m : Mode) (l r : List α) : Mode :=
  match l, r with
  | [], _ => m
  | _ :: _, [] => .atEnd
  | _ :: _, _ :: _ => .atMiddle

/-- The pieces, written behind `before`, form a compound or the last parts of one. The first one
stands at `m`, `n` words were counted before. -/
structure PlainFrom (U : Unicode) (D : Dict) (fc : Forceucase) (m : Mode) (n : Nat) (before : Str)
    (pieces : List Piece) : Prop where
  atLeastTwo : 2 ≤ pieces.length
  /-- Every piece is allowed where it stands, and not forbidden. -/
  positions : ∀ l p r, pieces = l ++ p :: r → PieceAt D (positionIn m l r) p
  /-- COMPOUNDMIN. -/
  long : ∀ p ∈ pieces, D.aff.options.minChars ≤ p.text.length
  /-- CHECKCOMPOUNDTRIPLE. -/
  triple : D.aff.options.compoundCheckTriple = true → ∀ l r, pieces = l ++ r → l ≠ [] → r ≠ [] →
    ¬ ThreeEqual (before ++ texts l) (texts r)
  /-- CHECKCOMPOUNDCASE. -/
  capital : D.aff.options.compoundCheckCase = true → ∀ l r, pieces = l ++ r → l ≠ [] → r ≠ [] →
    ¬ CapitalAt U (before ++ texts l) (texts r)
  /-- CHECKCOMPOUNDPATTERN. -/
  patterns : ∀ c ∈ D.aff.compoundPatterns, ∀ l p q r, pieces = l ++ p :: q :: r →
    ¬ PatternForbids c (before ++ texts (l ++ [p])) (texts (q :: r)) p q
  /-- CHECKCOMPOUNDDUP: the last two pieces are not the same. -/
  dup : D.aff.options.compoundCheckDuplicate = true → D.aff.compoundSyllableVowels = [] →
    ∀ l p q, pieces = l ++ [p, q] → ¬ Duplicate p q
  /-- CHECKCOMPOUNDREP: no rest of the word of at least two pieces is similar to a simple word. -/
  rep : D.aff.options.compoundCheckRep = true → ∀ l p q r, pieces = l ++ p :: q :: r →
    ¬ RepSimilar D (texts (p :: q :: r))
  /-- FORCEUCASE: the last piece is not marked, if that is asked for. -/
  force : fc = .forbidBad → ∀ l q, pieces = l ++ [q] →
    ¬ Has q.flags D.aff.options.compoundForceUppercaseFlag
  /-- COMPOUNDWORDMAX: the number of pieces, where COMPOUNDROOT pieces count twice. -/
  count : D.aff.compoundSyllableVowels = [] → ∀ max, D.aff.options.compoundMaxWordCount = some max →
    n + pieces.length + (pieces.map fun p => rootBonus D p.flags).sum ≤ max

/-- The word is a compound of the pieces. -/
def PlainCompound (U : Unicode) (D : Dict) (fc : Forceucase) (word : Str) (pieces : List Piece) :
    Prop :=
  word = texts pieces ∧ PlainFrom U D fc .atBegin 0 [] pieces

/-- Compounds are plain: no SIMPLIFIEDTRIPLE and no CHECKCOMPOUNDPATTERN with a replacement. -/
def OnlyPlain (D : Dict) : Prop :=
  D.aff.options.compoundSimplifiedTriple = false ∧
  ∀ c ∈ D.aff.compoundPatterns, c.replacement = none

/-! ### Compounds by COMPOUNDRULE -/

/-- The word is the concatenation of the listed stems and their flags satisfy a COMPOUNDRULE. -/
structure RuleCompound (D : Dict) (fc : Forceucase) (word : Str) (parts : List (Str × FlagSet)) :
    Prop where
  spelled : word = (parts.map Prod.fst).flatten
  atLeastTwo : 2 ≤ parts.length
  listed : ∀ p ∈ parts, p ∈ D.words.slots
  plain : ∀ p ∈ parts, ¬ Has p.2 D.aff.options.needAffixFlag
  long : ∀ p ∈ parts, D.aff.options.minChars ≤ p.1.length
  rule : ∃ rule ∈ D.aff.compoundRules.rules,
    RuleAccepts (CompoundRule.spec rule) (parts.map (·.2.elems))
  force : fc = .forbidBad → ∀ l q, parts = l ++ [q] →
    ¬ Has q.2 D.aff.options.compoundForceUppercaseFlag

/-- Which entry for a text the search for such compounds looks at: one not marked NEEDAFFIX with a flag
that is in a rule, whenever there is one. -/
structure RulePicks (D : Dict) (pick : Str → Option (Str × FlagSet)) : Prop where
  entry : ∀ t e, pick t = some e → e.1 = t ∧ e ∈ D.words.slots ∧
    ¬ Has e.2 D.aff.options.needAffixFlag ∧
    ∃ rule ∈ D.aff.compoundRules.rules, ∃ x ∈ rule, x.flag ∈ e.2.elems
  some : ∀ e ∈ D.words.slots, ¬ Has e.2 D.aff.options.needAffixFlag →
    (∃ rule ∈ D.aff.compoundRules.rules, ∃ x ∈ rule, x.flag ∈ e.2.elems) →
    ∃ e', pick e.1 = some e'

/-! ### Well-behaved dictionaries -/

/-- The search never works on a longer rest than it was given: compounds of at least one character,
SIMPLIFIEDTRIPLE only with at least two, and no replacement pattern gives back more text than it and
the shortest first part take away. -/
structure _root_.Spellbook.Dict.Shrinking (D : Dict) : Prop where
  min_pos : 0 < D.aff.options.minChars
  triple : D.aff.options.compoundSimplifiedTriple = true → 2 ≤ D.aff.options.minChars
  pattern : ∀ c ∈ D.aff.compoundPatterns, ∀ rep, c.replacement = some rep →
    c.second.length + (if D.aff.options.compoundSimplifiedTriple then 1 else 0)
      < rep.length + D.aff.options.minChars

/-- The parts with the same text at the same position come from one entry. -/
def PartsUnique (D : Dict) : Prop :=
  ∀ (m : Mode) (p q : Piece), Part D m p.text p.stem p.flags p.affixes →
    Part D m q.text q.stem q.flags q.affixes → p.text = q.text → Duplicate p q

/-- No conditions on compounds which look at more than one part: no CHECKCOMPOUNDPATTERN, no
CHECKCOMPOUNDREP, no COMPOUNDSYLLABLE. -/
structure NoPairChecks (D : Dict) : Prop where
  patterns : D.aff.compoundPatterns = []
  rep : D.aff.options.compoundCheckRep = false
  vowels : D.aff.compoundSyllableVowels = []

end Spellbook.Spec
