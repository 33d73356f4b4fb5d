import Verif.Spec.Whole
/-!
# Specification of every outcome of `check`

A call of `check` returns true, returns false, panics, or recurses without end. `Happens` says which,
for every dictionary and every checker, from the content of the dictionary alone: all steps are taken
in order, and one which panics or has no outcome ends the call.

Of the model only the data types are used (and `minChars` and `allowsCompounding`, which are options).
-/

namespace Spellbook.Spec

/-- How a call of `check` ends. -/
inductive Outcome
  | yes | no | panics
deriving DecidableEq

/-- The steps are tried in turn, until one says yes. -/
def AnyOf {α : Type} (f : α → Outcome → Prop) : List α → Outcome → Prop
  | [], o => o = .no
  | a :: as, o => (f a o ∧ o ≠ .no) ∨ (f a .no ∧ AnyOf f as o)

/-- The steps are tried in turn, as long as they say yes. -/
def AllOf {α : Type} (f : α → Outcome → Prop) : List α → Outcome → Prop
  | [], o => o = .yes
  | a :: as, o => (f a o ∧ o ≠ .yes) ∨ (f a .yes ∧ AllOf f as o)

/-- The spellings looked up for a word of the given letter case, and whether the call panics if none of
them is found: the title case of an empty text cannot be made. Only checkers which also try other
letter cases, as the suggester makes them, can panic. -/
def lookups (C : Checker) (w : Str) (casing : Casing) : List Attempt × Bool :=
  if casing = .init ∨ casing = .all then (attempts C w casing, false)
  else if C.checkLowerAsTitle = true ∧ casing ≠ .pascal ∧ w = [] then ([⟨w, .forbidBad, .accept, true⟩], true)
  else if C.checkLowerAsUpper = true ∧ upperOf C w = [] then
    ([⟨w, .forbidBad, .accept, true⟩] ++
      (if C.checkLowerAsTitle = true ∧ casing ≠ .pascal then titleAttempts C (titleOf C w) else []) ++
      [⟨[], .allowBad, .accept, true⟩], true)
  else (attempts C w casing, false)

/-- The word is decided as a whole. -/
def Decided (C : Checker) (c : Choice) (w : Str) (o : Outcome) : Prop :=
  ∃ casing, HasCasing C.U w casing ∧
    ((∃ before a after F, (lookups C w casing).1 = before ++ a :: after ∧ (∀ x ∈ before, x.Fails C c) ∧
        a.Succeeds C c F ∧ ((o = .yes ∧ Good C.dict F) ∨ (o = .no ∧ ¬ Good C.dict F))) ∨
     ((∀ a ∈ (lookups C w casing).1, a.Fails C c) ∧ (lookups C w casing).2 = true ∧ o = .panics))

/-- Nothing is known of the word as a whole. -/
def Unknown (C : Checker) (c : Choice) (w : Str) : Prop :=
  ∃ casing, HasCasing C.U w casing ∧ (∀ a ∈ (lookups C w casing).1, a.Fails C c) ∧
    (lookups C w casing).2 = false

/-- The BREAK line cuts the word into the pieces. -/
def CutInto (place : BreakAt) (line word : Str) (pieces : List Str) : Prop :=
  ∃ pat, BreakLine line place pat ∧
    match place with
    | .start => ∃ rest, word = pat ++ rest ∧ pieces = [rest]
    | .stop => ∃ rest, word = rest ++ pat ∧ pieces = [rest]
    | .middle => ∃ a b, FirstSplit pat word a b ∧ b ≠ [] ∧ pieces = [a, b]

/-- The BREAK lines in the order in which they are tried: all at the start of the word, all at its end,
all in the middle. -/
def breakTries (lines : List Str) : List (BreakAt × Str) :=
  lines.map (BreakAt.start, ·) ++ lines.map (BreakAt.stop, ·) ++ lines.map (BreakAt.middle, ·)

/-- What becomes of a word which is cut by BREAK lines at most `depth` deep. -/
def BreakHappens (C : Checker) (c : Choice) (lines : List Str) : Nat → Str → Outcome → Prop
  | 0, w, o => Decided C c w o ∨ (Unknown C c w ∧ o = .no)
  | depth + 1, w, o => Decided C c w o ∨ (Unknown C c w ∧
      AnyOf (fun (t : BreakAt × Str) o =>
        (∃ pieces, CutInto t.1 t.2 w pieces ∧ AllOf (BreakHappens C c lines depth) pieces o) ∨
        ((¬ ∃ pieces, CutInto t.1 t.2 w pieces) ∧ o = .no)) (breakTries lines) o)

/-- What `check` does with the word, which ICONV has made `converted`. -/
def Happens (C : Checker) (c : Choice) (lines : List Str) (word converted : Str) (o : Outcome) : Prop :=
  if (utf8 word).length > 360 then o = .no
  else if converted = [] then o = .yes
  else ∃ t n, converted = t ++ List.replicate n '.' ∧ (∀ s, t ≠ s ++ ['.']) ∧
    ((IsNumber t ∧ o = .yes) ∨
     (¬ IsNumber t ∧ AnyOf (BreakHappens C c lines 9)
        ((t.filter fun x => x ∉ C.dict.aff.ignoreChars) :: if 0 < n then [converted] else []) o))

end Spellbook.Spec
