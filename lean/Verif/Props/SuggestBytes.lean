import Verif.Proof.SuggestBytes
import Verif.Proof.ReadBytes
import Verif.Props.CheckBytes
import Verif.Props.Suggest
/-!
# C65 The byte positions of the suggester and of the readers

`Bytes.suggest` does the byte arithmetic of `src/suggester.rs`, `Bytes.parseDicLine` and others that of
`src/aff/parser.rs`. Slices out of bounds or inside a character and `unsafe` writes which leave invalid UTF-8 are
panics, and loops over positions stop with `Stop.fuel` after a number of rounds.
-/

namespace Spellbook.Props
open Spec

variable {U : Unicode}

/-- **C65** (`suggest`): for every dictionary which can be loaded and changed, `suggest` on bytes has the outcome
of `suggest` on characters, for every word, with and without similarity, and whatever the heap. -/
theorem C65_suggest {S : Suggester} (hD : Reachable U S.C.dict) (fuel depth : Nat) (word : Str) (out : List Str) :
    Bytes.suggest S fuel depth word out = S.suggest fuel depth word out :=
  Bytes.suggest_eq S (wellMade_reachable hD).minChars_pos fuel depth word out

/-- **C65** (`suggest`): so nothing panics in the suggestions of edits, provided the empty text is no word (see
C45). -/
theorem C65_no_panic {S : Suggester} (hD : Reachable U S.C.dict)
    (h1 : S.C.checkLowerAsTitle = false) (h2 : S.C.checkLowerAsUpper = false)
    (hl : ∀ c, S.C.U.lower c ≠ []) (hu : ∀ c, S.C.U.upper c ≠ []) (hn : S.ngram = false)
    (he : S.C.checkSimpleWord [] .skip = none) (fuel depth : Nat) (word : Str) (out : List Str) :
    Bytes.suggest S fuel depth word out ≠ .error .panic := by
  rw [C65_suggest hD]
  exact fun h => C45_edits_partial hD h1 h2 hl hu hn he word out ⟨fuel, depth, h⟩

/-- **C65** (dashes): the loop over a word with dashes cuts it into parts without a dash which together, with
dashes between, are the word. Each comes with what precedes and what follows it in the word. -/
theorem C65_dash_parts (word : Str) : ∃ parts, Bytes.dashLoop word (word.length + 1) 0 = .ok parts ∧
    ['-'].intercalate (parts.map fun p => p.2.1) = word ∧
    ∀ pre part post, (pre, part, post) ∈ parts ↔ DashPart word pre part post := by
  have h := Bytes.dashLoop_eq (word.length + 1) [] word (by omega)
  rw [List.nil_append, byteLen_nil] at h
  refine ⟨_, h, ?_, ?_⟩
  · have key : ∀ (rest pre cur : Str),
        ['-'].intercalate ((dashPieces pre cur rest).map fun p => p.2.1) = cur ++ rest := by
      intro rest
      induction rest with
      | nil => intro pre cur; simp [dashPieces]
      | cons c rest ih =>
        intro pre cur
        unfold dashPieces
        split
        · rename_i hc
          subst hc
          have := ih (pre ++ cur ++ ['-']) []
          cases hd : dashPieces (pre ++ cur ++ ['-']) [] rest with
          | nil =>
            exfalso
            have hne : ∀ (r p c : Str), dashPieces p c r ≠ [] := by
              intro r
              induction r with
              | nil => intro p c; simp [dashPieces]
              | cons x r ihr =>
                intro p c
                unfold dashPieces
                split
                · simp
                · exact ihr _ _
            exact hne _ _ _ hd
          | cons p ps =>
            rw [hd] at this
            rw [List.map_cons, List.map_cons, List.intercalate_cons_cons]
            rw [List.map_cons] at this
            rw [this]
            simp
        · rw [ih]; simp
    simpa using key word [] []
  · exact fun a b c => Suggester.mem_dashPieces

/-- **C65** (two words): where a word is cut, the byte overwritten is the space between the halves, and the
result is the halves with a hyphen between them. -/
theorem C65_hyphen (word1 word2 : Str) :
    Bytes.writeOne (word1 ++ [' '] ++ word2) (utf8 word1).length 0x2D = .ok (word1 ++ ['-'] ++ word2) := by
  have := Bytes.writeOne_eq (a := word1) (b := word2) (c := ' ') (d := '-') (x := 0x2D) (by decide) (by decide)
  rw [length_utf8]
  simpa using this

/-- **C65** (escaped slashes): the byte overwritten in a line of the word list is the backslash in front of a
slash, and the result is the text with a slash in its place. -/
theorem C65_slash (before after : Str) :
    Bytes.writeOne (before ++ ['\\'] ++ after) (utf8 before).length 0x2F = .ok (before ++ ['/'] ++ after) := by
  have := Bytes.writeOne_eq (a := before) (b := after) (c := '\\') (d := '/') (x := 0x2F) (by decide) (by decide)
  rw [length_utf8]
  simpa using this

/-- **C65** (lines of the word list): `parse_dic_line` on bytes never panics and reads what the model on
characters reads. -/
theorem C65_dic_line (U : Unicode) (line : Str) (ty : FlagType) (aliases : List FlagSet) (ignore : List Char) :
    Bytes.parseDicLine U line ty aliases ignore = .ok (parseDicLine U line ty aliases ignore) :=
  Bytes.parseDicLine_eq U line ty aliases ignore

/-- **C65** (affix files): the loops over byte positions which read similarity groups, numeric flags and
conditions end without a panic and read what the model on characters reads. -/
theorem C65_aff_readers (s : Str) :
    Bytes.similarityGroup s = .ok (SimilarityGroup.ofText s) ∧
    (s ≠ [] → (Bytes.numFlags s (s.length + 1) 0) = .ok (parseFlagList .numeric s)) ∧
    (Bytes.scanChars (s.length + 1) s 0).map (Except.map fun chars =>
        (⟨s, chars, !(s.contains '.' || s.contains '[')⟩ : Condition)) = .ok (Condition.parse s) := by
  refine ⟨Bytes.similarityGroup_eq s, fun hs => ?_, ?_⟩
  · have := Bytes.numFlags_eq (s.length + 1) [] s (by omega)
    rw [List.nil_append, byteLen_nil] at this
    rw [this]
    cases s with
    | nil => exact absurd rfl hs
    | cons c s => rfl
  · rw [Bytes.scanChars_eq _ _ _ (by omega)]
    unfold Condition.parse
    cases Condition.scanChars s 0 <;> rfl

/-- **C65** (conversions): `convert` replaces ranges of bytes, ends without a panic and gives the text which the
model on characters gives. -/
theorem C65_convert (t : ConversionTable) (word : Str) : Bytes.convert t word = .ok (t.convert word) :=
  Bytes.convert_eq t word

/-- A byte written inside a character of more than one byte is a panic. -/
example : Bytes.writeOne "€a".toList 1 0x2D = .error .panic ∧ Bytes.writeOne "€a".toList 4 0x2D = .error .panic ∧
    Bytes.writeOne "€ ß".toList 3 0x2D = .ok "€-ß".toList := by decide +kernel

/-- The parts of a word with dashes next to each other and at its end. -/
example : Bytes.dashLoop "ß€--ü-".toList 7 0 = .ok [([], "ß€".toList, "--ü-".toList), ("ß€-".toList, [], "-ü-".toList),
    ("ß€--".toList, "ü".toList, "-".toList), ("ß€--ü-".toList, [], [])] := by decide +kernel

/-- The readers on texts with characters of two and three bytes. -/
example : (Bytes.parseDicLine .sample "ß\\/€/Aé po:x".toList .utf8 [] []).map (Except.map fun r => (r.1, r.2.elems)) =
      .ok (.ok ("ß/€".toList, [0x41, 0xE9])) ∧
    Bytes.similarityGroup "é(ss)ß".toList = .ok ⟨"éß".toList, ["ss".toList]⟩ ∧
    Bytes.scanChars 9 "é[^€ß].".toList 0 = .ok (.ok 3) ∧
    Bytes.numFlags "12,7".toList 9 0 = .ok (.ok [12, 7]) ∧
    Bytes.convert ⟨[⟨"€".toList, "ßß".toList, false⟩], List.pairwise_singleton _ _⟩ "a€€b".toList =
      .ok "aßßßßb".toList := by
  decide +kernel

/-- A dictionary with characters of two and three bytes meets the hypotheses. The suggestions of words with
mistakes of several kinds are found on bytes. -/
example : ∃ S : Suggester, Reachable .sample S.C.dict ∧ S.C.checkLowerAsTitle = false ∧
    S.C.checkLowerAsUpper = false ∧ (∀ c, S.C.U.lower c ≠ []) ∧ (∀ c, S.C.U.upper c ≠ []) ∧ S.ngram = false ∧
    S.C.checkSimpleWord [] .skip = none ∧
    (Bytes.suggest S 9 9 "ü€ß€".toList [] = .ok ["ü€ ß€".toList, "ü€-ß€".toList] ∧
    Bytes.suggest S 9 9 "ö".toList [] = .ok ["ü€".toList] ∧
    Bytes.suggest S 9 9 "aé-ßé".toList [] = .ok ["aé-aé".toList] ∧
    Bytes.suggest S 9 9 "€ß".toList [] = .ok ["ß€".toList]) := by
  obtain ⟨C, h1, h2⟩ := of_load (aff := "TRY aß-\nREP 1\nREP ö ü€\n") (dic := "3\nß€\nü€\naé\n") (L := .default)
    (p := fun C => (C.checkSimpleWord [] .skip = none ∧
      (Bytes.suggest ⟨C, .sample, false⟩ 9 9 "ü€ß€".toList [] = .ok ["ü€ ß€".toList, "ü€-ß€".toList] ∧
      Bytes.suggest ⟨C, .sample, false⟩ 9 9 "ö".toList [] = .ok ["ü€".toList] ∧
      Bytes.suggest ⟨C, .sample, false⟩ 9 9 "aé-ßé".toList [] = .ok ["aé-aé".toList] ∧
      Bytes.suggest ⟨C, .sample, false⟩ 9 9 "€ß".toList [] = .ok ["ß€".toList])))
    (by decide +kernel)
  have := loadChecker_reachable h1
  have h3 := of_decide_eq_true h2
  exact ⟨⟨C, .sample, false⟩, this.1, this.2.1, this.2.2.1, by rw [this.2.2.2]; exact sample_lower,
    by rw [this.2.2.2]; exact sample_upper, rfl, h3.1, h3.2⟩

end Spellbook.Props
