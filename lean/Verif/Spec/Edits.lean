import Verif.Model.AffData
import Verif.Model.Compound
/-!
# The edits a suggestion may make

The edits of `src/suggester.rs`, said on characters: each is given by the ways to cut the word into
pieces. Texts are listed in the order in which they are tried.
-/

namespace Spellbook.Spec

/-- All ways to write `pre ++ w` as `a ++ c :: b` where `c` is a character of `w`. -/
def splitsFrom (pre : Str) : Str → List (Str × Char × Str)
  | [] => []
  | c :: w => (pre, c, w) :: splitsFrom (pre ++ [c]) w

/-- All ways to write `w` as `a ++ c :: b`, from left to right. -/
def splits (w : Str) : List (Str × Char × Str) := splitsFrom [] w

/-- All ways to write `w` as `a ++ b`, from left to right. -/
def cuts (w : Str) : List (Str × Str) := (splits w).map (fun s => (s.1, s.2.1 :: s.2.2)) ++ [(w, [])]

/-- One character dropped. -/
def dropped (w : Str) : List Str := (splits w).map fun s => s.1 ++ s.2.2

/-- One of the characters `alphabet` inserted anywhere. -/
def inserted (alphabet w : Str) : List Str :=
  alphabet.flatMap fun c => (cuts w).map fun s => s.1 ++ c :: s.2

/-- One character replaced by another one of `alphabet`. -/
def replaced (alphabet w : Str) : List Str :=
  alphabet.flatMap fun c =>
    ((splits w).filter fun s => c ≠ s.2.1).map fun s => s.1 ++ c :: s.2.2

/-- All ways to write `w` as `a ++ x :: y :: b`, from left to right. -/
def pairs (w : Str) : List (Str × Char × Char × Str) :=
  (splits w).flatMap fun s =>
    match s.2.2 with
    | y :: b => [(s.1, s.2.1, y, b)]
    | [] => []

/-- Two neighbouring characters swapped. -/
def neighboursSwapped (w : Str) : List Str := (pairs w).map fun (a, x, y, b) => a ++ y :: x :: b

/-- Two pairs of neighbours swapped, for words of four or five characters. -/
def pairsSwapped (w : Str) : List Str :=
  match w with
  | [a, b, c, d] => [[b, a, d, c]]
  | [a, b, c, d, e] => [[b, a, c, e, d], [a, c, b, e, d]]
  | _ => []

/-- Any two characters swapped. -/
def swapped (w : Str) : List Str :=
  (splits w).flatMap fun s => (splits s.2.2).map fun t => s.1 ++ t.2.1 :: (t.1 ++ s.2.1 :: t.2.2)

/-- One character moved to the right, over at least two others. -/
def movedRight (w : Str) : List Str :=
  (pairs w).flatMap fun (a, x, y, b) => (splits b).map fun (m, c, r) => a ++ (y :: m ++ c :: x :: r)

/-- One character moved to the left, over at least two others. -/
def movedLeft (w : Str) : List Str :=
  (pairs w).reverse.flatMap fun (a, x, y, b) =>
    (splits a).reverse.map fun (l, c, m) => l ++ y :: c :: (m ++ x :: b)

/-- The keys beside each occurrence of `c` on the keyboard, a text in which `|` separates rows. -/
def keysBeside (kb : Str) (c : Char) : List Char :=
  ((splits kb).filter fun s => s.2.1 = c).flatMap fun s =>
    (s.1.getLast?.filter (· ≠ '|')).toList ++ (s.2.2.head?.filter (· ≠ '|')).toList

/-- One character upper-cased (where that changes it), or replaced by a key beside it. -/
def mistyped (U : Unicode) (kb w : Str) : List Str :=
  (splits w).flatMap fun s =>
    (if U.upper s.2.1 ≠ [s.2.1] then [s.1 ++ (U.upper s.2.1 ++ s.2.2)] else []) ++
    (keysBeside kb s.2.1).map fun k => s.1 ++ k :: s.2.2

/-- A repeated pair of characters: after `xyxyx`, the last two characters dropped. Only occurrences
followed by another character count. -/
def undoubled (w : Str) : List Str :=
  (splits w).flatMap fun s =>
    match s.2.2 with
    | y :: x2 :: y2 :: x3 :: z :: b =>
      if s.2.1 = x2 ∧ y = y2 ∧ s.2.1 = x3 then [s.1 ++ (s.2.1 :: y :: x2 :: z :: b)] else []
    | _ => []

/-- The replacements of a table of (text, replacement) pairs: of the whole word, at its start, at its
end, and at each occurrence anywhere (`matchIndices` stands for a function of the standard
library). -/
def reworded (whole start stop anywhere : List (Str × Str)) (w : Str) : List Str :=
  ((whole.filter fun r => w = r.1).map fun r => r.2) ++
  (start.flatMap fun r => if r.1 <+: w then [r.2 ++ w.drop r.1.length] else []) ++
  (stop.flatMap fun r => if r.1 <:+ w then [w.take (w.length - r.1.length) ++ r.2] else []) ++
  (anywhere.flatMap fun r =>
    (matchIndices w r.1).map fun i => w.take i ++ (r.2 ++ w.drop (i + r.1.length)))

/-- The first occurrence of a text. -/
def firstOccurrence (pat w : Str) : Option (Str × Str) :=
  ((cuts w).find? fun s => pat.isPrefixOf s.2).map fun s => (s.1, s.2.drop pat.length)

/-- Texts with up to `n` pieces replaced by similar ones, from left to right: at each character, for
each group, either the character is in the group and is replaced by the other members, or the first
occurrence of each text of the group is replaced by the other members. -/
def similarTexts (sims : List SimilarityGroup) : Nat → Str → List Str
  | 0, _ => []
  | n + 1, w =>
    let put (a q r : Str) : List Str :=
      (a ++ (q ++ r)) :: (similarTexts sims n r).map fun t => a ++ (q ++ t)
    (splits w).flatMap fun (a, c, b) =>
      sims.flatMap fun g =>
        if c ∈ g.chars then
          (g.chars.flatMap fun d => if d = c then [] else put a [d] b) ++
          (g.strings.flatMap fun s => put a s b)
        else
          g.strings.zipIdx.flatMap fun (str, k) =>
            match firstOccurrence str (c :: b) with
            | none => []
            | some (m, r) =>
              (g.chars.flatMap fun d => put (a ++ m) [d] r) ++
              (g.strings.zipIdx.flatMap fun (s, k') => if k' = k then [] else put (a ++ m) s r)

/-- The members of a group. -/
def members (g : SimilarityGroup) : List Str := g.chars.map (fun c => [c]) ++ g.strings

/-- `t` is `w` with one or more pieces, from left to right, replaced by similar ones. -/
inductive Similar (sims : List SimilarityGroup) : Str → Str → Prop
  | last {g : SimilarityGroup} {p q a r : Str} : g ∈ sims → p ∈ members g → q ∈ members g →
      Similar sims (a ++ (p ++ r)) (a ++ (q ++ r))
  | more {g : SimilarityGroup} {p q a r t : Str} : g ∈ sims → p ∈ members g → q ∈ members g →
      Similar sims r t → Similar sims (a ++ (p ++ r)) (a ++ (q ++ t))

end Spellbook.Spec
