import Verif.Spec.Parser
import Mathlib.Data.List.Forall2
/-!
# Specification of the layout of texts

When two pairs of texts differ in layout only: comments, line ends, indentation, the white space
between words, blank lines of the word list.
-/

namespace Spellbook.Spec

/-- Two lines have the same words. -/
def SameWords (U : Unicode) (l l' : Nat × Str) : Prop := ∃ ws, WordsOf U l.2 ws ∧ WordsOf U l'.2 ws

/-- Two lines are the same but for the white space around them. -/
def SameEntry (U : Unicode) (l l' : Nat × Str) : Prop := ∃ t, Trimmed U l.2 t ∧ Trimmed U l'.2 t

/-- The `.aff` texts have, without the comments, lines with the same words. -/
structure SameAff (U : Unicode) (aff aff' : Str) (lines lines' : List (Nat × Str)) : Prop where
  content : Content U aff lines
  content' : Content U aff' lines'
  same : List.Forall₂ (SameWords U) lines lines'

/-- The lines among `rest` that are entries: neither blank nor a slash and more. -/
def EntryLines (U : Unicode) (rest lines : List (Nat × Str)) : Prop :=
  lines.Sublist rest ∧ ∀ l ∈ rest, l ∈ lines ↔ ∃ t, Trimmed U l.2 t ∧ ¬ SkippedLine t

/-- The `.dic` texts have, without the comments, the same words on the first line and the same
entries on the other lines. -/
inductive SameDic (U : Unicode) (dic dic' : Str) : List (Nat × Str) → List (Nat × Str) → Prop
  | empty : Content U dic [] → Content U dic' [] → SameDic U dic dic' [] []
  | lines {first rest lines first' rest' lines'} : Content U dic (first :: rest) →
      Content U dic' (first' :: rest') → SameWords U first first' → EntryLines U rest lines →
      EntryLines U rest' lines' → List.Forall₂ (SameEntry U) lines lines' →
      SameDic U dic dic' (first :: lines) (first' :: lines')

/-- Two outcomes of `Dictionary::new` are the same; if they are errors, they are at the same place in
the given lines (the number is that of a line, or there is none at the end of the text). -/
inductive SameOutcome (aff aff' dic dic' : List (Nat × Str)) : Except Halt Dict → Except Halt Dict → Prop
  | ok (D) : SameOutcome aff aff' dic dic' (.ok D) (.ok D)
  | panic : SameOutcome aff aff' dic dic' (.error .panic) (.error .panic)
  | aff (i : Nat) (kind) : SameOutcome aff aff' dic dic'
      (.error (.error ⟨kind, .aff, aff[i]?.map (·.1)⟩)) (.error (.error ⟨kind, .aff, aff'[i]?.map (·.1)⟩))
  | dic (i : Nat) (kind) : SameOutcome aff aff' dic dic'
      (.error (.error ⟨kind, .dic, dic[i]?.map (·.1)⟩)) (.error (.error ⟨kind, .dic, dic'[i]?.map (·.1)⟩))

/-- The number of a line when a line is inserted behind the first `k`. -/
def lineBelow (k n : Nat) : Nat := if n ≤ k then n else n + 1

/-- An outcome when a line which means nothing is inserted behind the first `k` lines of a text: an
error in this text has the line number moved, everything else stays. -/
def movedDown (source : Source) (k : Nat) : Except Halt Dict → Except Halt Dict
  | .error (.error e) =>
    if e.source = source then .error (.error { e with lineNumber := e.lineNumber.map (lineBelow k) })
    else .error (.error e)
  | r => r

/-- The text has these lines and does not start with a byte order mark. -/
def PlainLines (text : Str) (lines : List Str) : Prop :=
  LinesOf text lines ∧ text.head? ≠ some (Char.ofNat 0xFEFF)

end Spellbook.Spec
