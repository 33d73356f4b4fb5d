import Verif.Spec.Plain
/-!
# Specification of lists of words and parts of compounds

A word list whose only other setting is COMPOUNDFLAG (and COMPOUNDMIN): which words are correct, told from the list.
-/

namespace Spellbook.Spec

/-- The settings of an `.aff` text with COMPOUNDFLAG `x` and perhaps COMPOUNDMIN, and nothing else. -/
def partSettings (x : Char) (min : Option Nat) : Cx :=
  { options := { compoundFlag := some x.toNat, compoundMinLength := min } }

/-- The flag is one byte and can stand at the end of a line. -/
def LineFlag (U : Unicode) (x : Char) : Prop :=
  0 < x.toNat ∧ x.toNat < 128 ∧ U.isWs x = false ∧ x ∉ ['\n', '\r', '#']

/-- A line of the list: a word, followed by the flag if it may be a part of a compound. -/
def partLine (x : Char) (e : Str × Bool) : Str := if e.2 then e.1 ++ ['/', x] else e.1

/-- The text is made of two or more parts, each of at least `min` characters. -/
def OfParts (words : List (Str × Bool)) (min : Nat) (s : Str) : Prop :=
  ∃ parts : List Str, 2 ≤ parts.length ∧ s = parts.flatten ∧ ∀ p ∈ parts, (p, true) ∈ words ∧ min ≤ p.length

/-- The word counts in its title form as well: it has mixed case, or it is in capitals and has the flag. -/
def AlsoTitle (U : Unicode) (e : Str × Bool) : Prop := MixedCase U e.1 ∨ (HasCasing U e.1 .all ∧ e.2 = true)

/-- The text is in the list as it is, or is a compound. -/
def WrittenSo (words : List (Str × Bool)) (min : Nat) (s : Str) : Prop :=
  (∃ b, (s, b) ∈ words) ∨ OfParts words min s

/-- The text is in the list, perhaps by its title form, or is a compound. -/
def Written (U : Unicode) (words : List (Str × Bool)) (min : Nat) (s : Str) : Prop :=
  WrittenSo words min s ∨ ∃ e ∈ words, AlsoTitle U e ∧ s = titleForm U e.1

/-- The word is known by the texts which may be written, `exact` where title forms do not count. A word without capitals and
a mixed-case word must be one as it is, a word in title case as it is or in lower case, a word in capitals as it is, in
title case, in lower case, or as an article and a name. -/
inductive KnownBy (U : Unicode) (exact any : Str → Prop) (w : Str) : Prop
  | small : HasCasing U w .none → any w → KnownBy U exact any w
  | mixed : MixedCase U w → any w → KnownBy U exact any w
  | title : HasCasing U w .init → exact w ∨ any (U.lowerStr w) → KnownBy U exact any w
  | caps : HasCasing U w .all → any w ∨ any (titleForm U w) ∨ any (U.lowerStr w) → KnownBy U exact any w
  | article {a b} : HasCasing U w .all → w = a ++ '\'' :: b → '\'' ∉ a → b ≠ [] →
      any (U.lowerStr (a ++ ['\'']) ++ titleForm U b) ∨
        any (titleForm U (a ++ ['\'']) ++ titleForm U b) → KnownBy U exact any w

/-- The word is known, or made of such words with dashes, nested at most `depth` deep. -/
inductive DashedBy (known : Str → Prop) : Nat → Str → Prop
  | known {depth w} : known w → DashedBy known depth w
  | start {depth w} : DashedBy known depth w → DashedBy known (depth + 1) ('-' :: w)
  | stop {depth w} : DashedBy known depth w → DashedBy known (depth + 1) (w ++ ['-'])
  | middle {depth a b} : '-' ∉ a → b ≠ [] → DashedBy known depth a → DashedBy known depth b →
      DashedBy known (depth + 1) (a ++ '-' :: b)

/-- The word is correct by the list of words and parts: it has at most 360 bytes and is empty, or without the dots at its end
a number, or made of known words, without the dots at its end or with them. -/
def CorrectByParts (U : Unicode) (words : List (Str × Bool)) (min : Nat) (w : Str) : Prop :=
  (utf8 w).length ≤ 360 ∧
  (w = [] ∨ ∃ t n, w = t ++ List.replicate n '.' ∧ (∀ s, t ≠ s ++ ['.']) ∧
    (IsNumber t ∨ DashedBy (KnownBy U (WrittenSo words min) (Written U words min)) 9 t ∨
      DashedBy (KnownBy U (WrittenSo words min) (Written U words min)) 9 w))

end Spellbook.Spec
