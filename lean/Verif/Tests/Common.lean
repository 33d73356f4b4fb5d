import Verif.Proof.Parse
import Verif.Model.Suggest
import Verif.Model.Dictionary
/-!
# The crate's own unit tests, run on the model

The modules `Verif.Tests.*` repeat the unit tests of `/repo/src` on the model, with the same texts and
the same words. They prove nothing about other words: they are evidence that the model does what the
code does. The tests which need `en_US` are in `Verif.Tests.EnUs` and are not part of the build.
-/

namespace Spellbook.Tests

/-- `Unicode.sample` with the letters of Latin-1. -/
def latin : Unicode :=
  let up (c : Char) : Bool := ('À' ≤ c && c ≤ 'Þ' && c != '×')
  let low (c : Char) : Bool := ('à' ≤ c && c ≤ 'þ' && c != '÷')
  let S := Unicode.sample
  { isUpper := fun c => S.isUpper c || up c
    isLower := fun c => S.isLower c || low c
    isAlpha := fun c => S.isAlpha c || up c || low c
    isWs := fun c => S.isWs c || c == '\u0085' || c == ' '
    upper := fun c => if low c then [Char.ofNat (c.toNat - 32)] else S.upper c
    lower := fun c => if up c then [Char.ofNat (c.toNat + 32)] else S.lower c
    cased := fun c => S.cased c || up c || low c
    caseIgnorable := S.caseIgnorable }

/-- `Dictionary::new(aff, dic)`, then `checker()`. -/
def load (aff dic : String) : Option Checker :=
  match parse latin .default aff.toList dic.toList with
  | .ok D => some { U := latin, L := .default, dict := D }
  | .error _ => none

/-- The dictionary loads, all words of `good` are accepted and all words of `bad` rejected. -/
def checks (aff dic : String) (good bad : List String) : Bool :=
  match load aff dic with
  | none => false
  | some C =>
    good.all (fun w => C.check 50 w.toList matches .ok true) &&
      bad.all (fun w => C.check 50 w.toList matches .ok false)

/-- `check` returns. -/
def returns (aff dic word : String) : Bool :=
  match load aff dic with
  | none => false
  | some C => C.check 50 word.toList matches .ok _

/-- The helper `suggest` of the tests of `src/suggester.rs`: no suggestions by similarity. -/
def suggestions (C : Checker) (word : String) : List String :=
  match ({ C, H := .sample, ngram := false } : Suggester).suggest 50 50 word.toList [] with
  | .ok r => r.map String.ofList
  | .error _ => []

/-- The dictionary loads, and the second word of each pair is among the suggestions for the first one if
the pair is in `pos`, and is not if it is in `neg`. -/
def suggests (aff dic : String) (pos neg : List (String × String)) : Bool :=
  match load aff dic with
  | none => false
  | some C =>
    pos.all (fun p => (suggestions C p.1).contains p.2) && neg.all (fun p => !(suggestions C p.1).contains p.2)

/-- `suggest` returns, with suggestions by similarity. -/
def suggestReturns (aff dic word : String) : Bool :=
  match load aff dic with
  | none => false
  | some C => (C.intoSuggester .sample).suggest 50 50 word.toList [] matches .ok _

end Spellbook.Tests
