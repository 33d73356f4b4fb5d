import Verif.Spec.Check
/-!
# Specification of the letter-case handling of `check`

A word is looked up in one or more spellings, one after the other; the first lookup with a result
decides. The spellings depend on the letter case of the word.
-/

namespace Spellbook.Spec

/-- One lookup. -/
structure Attempt where
  /-- the spelling -/
  text : Str
  /-- whether a compound may end in a part marked FORCEUCASE -/
  upper : Forceucase
  /-- whether hidden entries count -/
  hidden : HiddenHomonym
  /-- whether an entry marked KEEPCASE counts -/
  keepCase : Bool

/-- The lookup finds nothing, or an entry which does not count. -/
def Attempt.Misses (C : Checker) (a : Attempt) : Prop :=
  FindsNothing C a.upper a.hidden a.text ∨
  ∃ F, Finds C a.upper a.hidden a.text F ∧ a.keepCase = false ∧ KeepsCase C.dict F

/-- The lookup finds an entry which counts. -/
def Attempt.Hits (C : Checker) (a : Attempt) (F : FlagSet) : Prop :=
  Finds C a.upper a.hidden a.text F ∧ (a.keepCase = true ∨ ¬ KeepsCase C.dict F)

/-- The first lookup with a result decides. -/
def FirstHit (C : Checker) (attempts : List Attempt) (F : FlagSet) : Prop :=
  ∃ before a after, attempts = before ++ a :: after ∧ (∀ x ∈ before, x.Misses C) ∧ a.Hits C F

/-- The texts made by replacing some of the first `k` occurrences of `ss` by `ß`; replacements come
first. -/
def sharps : Nat → Str → List Str
  | 0, s => [s]
  | _ + 1, [] => [[]]
  | _ + 1, [c] => [[c]]
  | k + 1, c :: d :: s =>
    if c = 's' ∧ d = 's' then
      (sharps k s).map (fun t => 'ß' :: t) ++ (sharps k s).map (fun t => 's' :: 's' :: t)
    else (sharps (k + 1) (d :: s)).map (fun t => c :: t)

/-- The title-case form; nothing for the empty word. -/
def titleOf (C : Checker) (w : Str) : Str :=
  match w with
  | [] => []
  | c :: cs => C.opts.caseHandling.upperChar C.U c ++ cs.flatMap (C.opts.caseHandling.lowerChar C.U)

/-- The lower-case form. -/
def lowerOf (C : Checker) (w : Str) : Str := C.opts.caseHandling.lowercase C.U w

/-- The upper-case form. -/
def upperOf (C : Checker) (w : Str) : Str := C.opts.caseHandling.uppercase C.U w

/-- The texts with sharp s, if there is an `ss` at all. -/
def sharpForms (w : Str) : List Str := if ['s', 's'] <:+: w then sharps 5 w else []

/-- `SANT'ELIA` may be spelt `sant'Elia` or `Sant'Elia`: the word is cut behind its first apostrophe,
unless that is its end. -/
def articleForms (C : Checker) (w : Str) : List Str :=
  match w.dropWhile (· ≠ '\'') with
  | _ :: b :: bs =>
    let article := w.takeWhile (· ≠ '\'') ++ ['\'']
    [lowerOf C article ++ titleOf C (b :: bs), titleOf C article ++ titleOf C (b :: bs)]
  | _ => []

/-- The attempts for a word in all capitals. -/
def capsAttempts (C : Checker) (w : Str) : List Attempt :=
  (w :: (articleForms C w ++
    if C.dict.aff.options.checksharps = true ∧ ['S', 'S'] <:+: w then
      sharpForms (lowerOf C w) ++ sharpForms (titleOf C w)
    else [])).map (fun t => ⟨t, .allowBad, .accept, true⟩) ++
  [⟨titleOf C w, .allowBad, .accept, false⟩, ⟨lowerOf C w, .allowBad, .accept, false⟩]

/-- The attempts for a word in title case. KEEPCASE is ignored for words with `ß` under
CHECKSHARPS. -/
def titleAttempts (C : Checker) (w : Str) : List Attempt :=
  [⟨w, .allowBad, .skip, true⟩,
   ⟨lowerOf C w, .allowBad, .accept, C.dict.aff.options.checksharps && decide ('ß' ∈ lowerOf C w)⟩]

/-- The attempts for the other words. The suggester makes checkers which also try the title-case and
the upper-case form. -/
def plainAttempts (C : Checker) (w : Str) (pascal : Bool) : List Attempt :=
  [⟨w, .forbidBad, .accept, true⟩] ++
  (if C.checkLowerAsTitle = true ∧ pascal = false then titleAttempts C (titleOf C w) else []) ++
  (if C.checkLowerAsUpper = true then capsAttempts C (upperOf C w) else [])

/-- The attempts for a word of the given letter case. -/
def attempts (C : Checker) (w : Str) : Casing → List Attempt
  | .none => plainAttempts C w false
  | .camel => plainAttempts C w false
  | .pascal => plainAttempts C w true
  | .init => titleAttempts C w
  | .all => capsAttempts C w

end Spellbook.Spec
