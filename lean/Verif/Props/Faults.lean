import Verif.Proof.Faults
import Verif.Props.Parser
/-!
# Properties of `Dictionary::new`: C72 what is reported about wrong texts
-/

namespace Spellbook.Props
open Spec

variable {U : Unicode} {S : Sorts} {aff dic : Str}

/-- **C72** (`.aff` text): an error in the `.aff` text is reported exactly if the text has this fault: the first
line which is not fine is at fault (no line, if the text ends in a table), and the kind of the error says what
is wrong with it. The `.dic` text plays no part. -/
theorem C72_aff {number : Option Nat} {kind : ErrorKind} :
    parse U S aff dic = .error (.error ⟨kind, .aff, number⟩) ↔ AffFault U aff number kind := by
  constructor
  · intro h
    rcases parse_cases (U := U) S aff dic with ⟨_, D, h', -⟩ | ⟨e, h', -, ha, -⟩ | ⟨_, e, h', hs, -⟩ |
      ⟨_, _, h', -⟩ <;> rw [h] at h' <;> simp at h'
    · subst h'
      obtain ⟨number', kind', h1, h2⟩ := parseAff_err.1 ha
      cases h2
      exact h1
    · subst h'
      cases hs
  · intro h
    exact parse_aff_error (parseAff_err.2 ⟨number, kind, h, rfl⟩)

/-- **C72** (`.dic` text): an error in the `.dic` text is reported exactly if the `.aff` text makes settings and
the `.dic` text has this fault: there is no number at its beginning, or the line at fault is the first one that
is not fine. -/
theorem C72_dic {number : Option Nat} {kind : ErrorKind} :
    parse U S aff dic = .error (.error ⟨kind, .dic, number⟩) ↔ ∃ cx, Settings U aff cx ∧
      (BadStart U dic kind number ∨
        ∃ l, FineUpTo U cx dic l ∧ BadLine U cx l.2 kind ∧ number = some l.1) := by
  constructor
  · intro h
    rcases parse_cases (U := U) S aff dic with ⟨_, D, h', -⟩ | ⟨e', h', hs', -⟩ | ⟨cx, e', h', hs', h1, h2⟩ |
      ⟨_, _, h', -⟩ <;> rw [h] at h' <;> simp at h'
    · subst h'; cases hs'
    · subst h'; exact ⟨cx, h1, h2⟩
  · rintro ⟨cx, hset, h⟩
    exact ((C36_dic_error_iff hset ⟨kind, .dic, number⟩).2 ⟨rfl, h⟩).1

/-- Every `.aff` text makes settings or has a fault. -/
theorem C72_exhaustive (U : Unicode) (aff : Str) :
    (∃ cx, Settings U aff cx) ∨ ∃ number kind, AffFault U aff number kind := by
  cases h : parseAff U aff with
  | ok cx => exact .inl ⟨cx, settings_iff.1 h⟩
  | error e =>
    obtain ⟨number, kind, h1, -⟩ := parseAff_err.1 h
    exact .inr ⟨number, kind, h1⟩

/-- No text makes settings and has a fault. -/
theorem C72_exclusive {cx : Cx} {number : Option Nat} {kind : ErrorKind} (h : Settings U aff cx) :
    ¬ AffFault U aff number kind := by
  intro h'
  have := parseAff_err.2 ⟨number, kind, h', rfl⟩
  rw [settings_iff.2 h] at this
  cases this

/-- A text has at most one fault, so the specification says which one is reported if many lines are wrong. -/
theorem C72_unique {number number' : Option Nat} {kind kind' : ErrorKind} (h : AffFault U aff number kind)
    (h' : AffFault U aff number' kind') : number = number' ∧ kind = kind' := by
  have h1 := parseAff_err.2 ⟨number, kind, h, rfl⟩
  rw [parseAff_err.2 ⟨number', kind', h', rfl⟩] at h1
  cases h1
  exact ⟨rfl, rfl⟩

/-! ## Cases -/

theorem of_err {h : Halt} (he : (parse U S aff dic).map (fun _ => ()) = .error h) : parse U S aff dic = .error h := by
  revert he
  cases parse U S aff dic <;> simp [Except.map]

/-- The second row of the table has no `]`, and the line is the fourth one. Later faults are not reported. -/
def wrongAff : Str := "SFX A Y 2\nSFX A 0 s .\n# comment\nSFX A y ies [^a\nFLAG x\n".toList

example : AffFault .sample wrongAff (some 4) (.malformedCondition .unclosedCharacterClass) :=
  (C72_aff (S := .default) (dic := [])).1 (of_err (by decide +kernel))

/-- The same by hand, from the specification alone. -/
theorem wrongAff_fault : AffFault .sample wrongAff (some 4) (.malformedCondition .unclosedCharacterClass) := by
  refine ⟨[(1, "SFX A Y 2".toList), (2, "SFX A 0 s .".toList), (4, "SFX A y ies [^a".toList), (5, "FLAG x".toList)],
    content_iff.2 (by decide +kernel), ?_⟩
  have key : ∀ l ∈ ["A".toList], FlagOf .short l 65 := by
    intro l hl
    rw [List.mem_singleton.1 hl]
    exact .short (b := 65) (rest := []) (by decide +kernel)
  refine .rows (key := "SFX") (args := ["A".toList, "Y".toList, "2".toList]) (n := 2) (by decide +kernel)
    (.affixes (by simp) (key _ (by simp)) (by decide) (by simp) ⟨"2".toList, .inl rfl, by decide, by decide +kernel, by decide⟩
      (by decide)) ?_
  refine .next (args := ["A".toList, "0".toList, "s".toList, ".".toList]) (by decide) (by decide +kernel)
    (.sfx (f := 65) (a := ⟨65, true, none, "s".toList, none, FlagSet.empty⟩) (key _ (by simp)) (by decide) ⟨rfl, by decide, rfl, ⟨"s".toList, [], .plain (by decide), rfl,
      .text [] (.inr (by simp)) (.empty _) (by simp) (by simp)⟩, .inl ⟨rfl, .inr ⟨[], rfl⟩⟩⟩) ?_
  exact .row (args := ["A".toList, "y".toList, "ies".toList, "[^a".toList]) (by decide) (by decide +kernel)
    (.condition (by simp) rfl (.plain (by decide)) (F := FlagSet.empty) (.text [] (.inr (by simp)) (.empty _) (by simp) (by simp)) (by decide)
      (.unclosed (es := []) (by simp) (by decide)))

-- The end of the text within a table; a wrong number; an unknown kind of flags; a compound rule.
example : AffFault .sample "REP 2\nREP a b".toList none (.mismatchedRowCount 2 2) :=
  (C72_aff (S := .default) (dic := [])).1 (of_err (by decide +kernel))
example : AffFault .sample "REP 2\nREP a b\n\nREP c d".toList (some 3) (.mismatchedRowCount 2 2) :=
  (C72_aff (S := .default) (dic := [])).1 (of_err (by decide +kernel))
example : AffFault .sample "MAXDIFF 65536".toList (some 1) (.malformedNumber .posOverflow) :=
  (C72_aff (S := .default) (dic := [])).1 (of_err (by decide +kernel))
example : AffFault .sample "FLAG short".toList (some 1) (.unknownFlagType "short".toList) :=
  (C72_aff (S := .default) (dic := [])).1 (of_err (by decide +kernel))
example : AffFault .sample "FLAG num\nCOMPOUNDRULE 1\nCOMPOUNDRULE (1)(x)".toList (some 3)
    (.malformedCompoundRule .invalidFormat) :=
  (C72_aff (S := .default) (dic := [])).1 (of_err (by decide +kernel))
example : ∃ cx, Settings .sample "FLAG num".toList cx ∧ (BadStart .sample "1\nfoo/1,,2".toList (.malformedFlag .duplicateComma) (some 2) ∨
    ∃ l, FineUpTo .sample cx "1\nfoo/1,,2".toList l ∧ BadLine .sample cx l.2 (.malformedFlag .duplicateComma) ∧ some 2 = some l.1) :=
  (C72_dic (S := .default)).1 (of_err (by decide +kernel))

end Spellbook.Props
