import Verif.Spec.FormList
import Verif.Spec.Check
/-!
# Specification of lists with forbidden words and words which keep their letter case

A word list whose only settings are FORBIDDENWORD, KEEPCASE, WARN and FORBIDWARN: which words are correct, told from the
list.
-/

namespace Spellbook.Spec

/-- What an `.aff` text says about words. -/
structure GuardRules where
  /-- FORBIDDENWORD -/
  forbidden : Option Char := none
  /-- KEEPCASE -/
  keep : Option Char := none
  /-- WARN -/
  warn : Option Char := none
  /-- FORBIDWARN -/
  noWarn : Bool := false

/-- The settings of an `.aff` text which says this, and nothing else. -/
def guardSettings (g : GuardRules) : Cx :=
  { options := {
      forbiddenWordFlag := (g.forbidden.map Char.toNat).getD 65510
      keepCaseFlag := g.keep.map Char.toNat
      warnFlag := g.warn.map Char.toNat
      forbidWarn := g.noWarn } }

/-- A spelling in which a word is looked up. -/
structure TriedForm where
  /-- the spelling -/
  text : Str
  /-- whether the title forms of words count -/
  titles : Bool
  /-- whether words which keep their case count -/
  kept : Bool

/-- The spellings of a word in capitals with an article: `SANT'ELIA` may be `sant'Elia` or `Sant'Elia`. -/
def articleTried (U : Unicode) (w : Str) : List TriedForm :=
  match w.dropWhile (· ≠ '\'') with
  | _ :: b :: bs =>
    let article := w.takeWhile (· ≠ '\'') ++ ['\'']
    [⟨U.lowerStr article ++ titleForm U (b :: bs), true, true⟩, ⟨titleForm U article ++ titleForm U (b :: bs), true, true⟩]
  | _ => []

/-- The spellings in which a word is looked up, one after the other. -/
def triedForms (U : Unicode) (w : Str) : Casing → List TriedForm
  | .init => [⟨w, false, true⟩, ⟨U.lowerStr w, true, false⟩]
  | .all => ⟨w, true, true⟩ :: articleTried U w ++ [⟨titleForm U w, true, false⟩, ⟨U.lowerStr w, true, false⟩]
  | _ => [⟨w, true, true⟩]

/-- The word has a title form of its own: it is in mixed case and not forbidden, or in capitals and with flags. -/
def GuardTitle (U : Unicode) (g : GuardRules) (e : Str × Str) : Prop :=
  (MixedCase U e.1 ∧ ∀ c, g.forbidden = some c → c ∉ e.2) ∨ (HasCasing U e.1 .all ∧ e.2 ≠ [])

/-- The text, with these flags, is a word of the list or the title form of one which has a title form of its own. -/
def GuardPart (U : Unicode) (g : GuardRules) (words : List (Str × Str)) (p : Str × Str) : Prop :=
  ∃ e ∈ words, p.2 = e.2 ∧ (p.1 = e.1 ∨ (GuardTitle U g e ∧ p.1 = titleForm U e.1))

/-- The spelling is in the list, with these flags, and counts. -/
def Meets (U : Unicode) (g : GuardRules) (words : List (Str × Str)) (l : TriedForm) (fl : Str) : Prop :=
  (if l.titles = true then GuardPart U g words (l.text, fl) else (l.text, fl) ∈ words) ∧
    (l.kept = true ∨ ∀ c, g.keep = some c → c ∉ fl)

/-- A word with these flags is neither forbidden nor, if that is asked for, one to warn of. -/
def Allowed (g : GuardRules) (fl : Str) : Prop :=
  (∀ c, g.forbidden = some c → c ∉ fl) ∧ (g.noWarn = true → ∀ c, g.warn = some c → c ∉ fl)

/-- The verdict on a word: that of the first spelling in the list which counts, or none. -/
def ListVerdict (U : Unicode) (g : GuardRules) (words : List (Str × Str)) (w : Str) : Option Bool → Prop
  | none => ∃ k, HasCasing U w k ∧ ∀ l ∈ triedForms U w k, ∀ fl, ¬ Meets U g words l fl
  | some b => ∃ k before l after fl, HasCasing U w k ∧ triedForms U w k = before ++ l :: after ∧
      (∀ x ∈ before, ∀ fl, ¬ Meets U g words x fl) ∧ Meets U g words l fl ∧ (b = true ↔ Allowed g fl)

/-- The word is correct by the list: it has at most 360 bytes and is empty, or without the dots at its end a number, or it
has a positive verdict or none and is cut at dashes into words which are correct so, without the dots at its end or with
them. -/
def GuardedWord (U : Unicode) (g : GuardRules) (words : List (Str × Str)) (w : Str) : Prop :=
  (utf8 w).length ≤ 360 ∧
  (w = [] ∨ ∃ t n, w = t ++ List.replicate n '.' ∧ (∀ s, t ≠ s ++ ['.']) ∧
    (IsNumber t ∨ Breaks [['^', '-'], ['-'], ['-', '$']] (ListVerdict U g words) 9 t ∨
      Breaks [['^', '-'], ['-'], ['-', '$']] (ListVerdict U g words) 9 w))

end Spellbook.Spec
