import Verif.Proof.Layout
import Verif.Props.Faults
/-!
# Properties of `Dictionary::new`: C73 the layout of the texts does not matter
-/

namespace Spellbook.Props
open Spec

variable {U : Unicode} {S : Sorts} {aff aff' dic dic' : Str}

/-- **C73**: if two `.aff` texts have, comments aside, lines with the same words, and two `.dic` texts have,
comments, blank lines and lines `/…` aside, the same lines up to the white space around them, then the outcome
is the same: the very same dictionary, or an error of the same kind at the same place. -/
theorem C73_layout {al al' dl dl' : List (Nat × Str)} (ha : SameAff U aff aff' al al')
    (hd : SameDic U dic dic' dl dl') :
    SameOutcome al al' dl dl' (parse U S aff dic) (parse U S aff' dic') :=
  parse_same ha hd

/-- A byte order mark in front of the `.aff` text changes nothing. -/
theorem C73_mark_aff (h : aff.head? ≠ some (Char.ofNat 0xFEFF)) :
    parse U S (Char.ofNat 0xFEFF :: aff) dic = parse U S aff dic := parse_bom h

/-- A byte order mark in front of the `.dic` text changes nothing. -/
theorem C73_mark_dic (h : dic.head? ≠ some (Char.ofNat 0xFEFF)) :
    parse U S aff (Char.ofNat 0xFEFF :: dic) = parse U S aff dic := parse_bom_dic h

/-- Indentation, the white space between words and at the end of lines, `\r\n` instead of `\n` and a missing
line end at the end of the `.aff` text change nothing, not even the line numbers of errors. -/
theorem C73_white_aff {ls ls' : List Str} (h : PlainLines aff ls) (h' : PlainLines aff' ls')
    (hs : List.Forall₂ (fun l l' => ∃ ws, WordsOf U l ws ∧ WordsOf U l' ws) ls ls') :
    parse U S aff dic = parse U S aff' dic :=
  parse_affLines h h' (hs.imp fun _ _ ⟨_, h1, h2⟩ => (splitWhitespace_iff.2 h1).trans (splitWhitespace_iff.2 h2).symm)

/-- White space around the lines of the `.dic` text, `\r\n` instead of `\n` and a missing line end at the end of
the text change nothing. -/
theorem C73_white_dic {ls ls' : List Str} (h : PlainLines dic ls) (h' : PlainLines dic' ls')
    (hs : List.Forall₂ (fun l l' => ∃ t, Trimmed U l t ∧ Trimmed U l' t) ls ls') :
    parse U S aff dic = parse U S aff dic' :=
  parse_dicLines h h' hs

/-- An inserted comment changes nothing but the numbers of the lines below it, wherever it is, even within a
table. -/
theorem C73_comment_aff {c : Str} {p q : List Str} (hc : Comment U c) (h : PlainLines aff (p ++ q))
    (h' : PlainLines aff' (p ++ c :: q)) :
    parse U S aff' dic = movedDown .aff p.length (parse U S aff dic) :=
  parse_affComment hc h h'

theorem C73_comment_dic {c : Str} {p q : List Str} (hc : Comment U c) (h : PlainLines dic (p ++ q))
    (h' : PlainLines dic' (p ++ c :: q)) :
    parse U S aff dic' = movedDown .dic p.length (parse U S aff dic) :=
  parse_dicComment hc h h'

/-- So does a blank line, or one with a slash in front, in the `.dic` text below the line with the number. -/
theorem C73_blank_dic {c t l : Str} {p q : List Str} (hc : Trimmed U c t) (hs : SkippedLine t) (hl : l ∈ p)
    (hl' : ¬ Comment U l) (h : PlainLines dic (p ++ q)) (h' : PlainLines dic' (p ++ c :: q)) :
    parse U S aff dic' = movedDown .dic p.length (parse U S aff dic) :=
  parse_dicSkipped hc hs hl hl' h h'

/-- The text with carriage returns in front of the line feeds. -/
def withReturns (text : Str) : Str := text.flatMap fun c => if c = '\n' then ['\r', '\n'] else [c]

theorem withReturns_plain {x : Str} (h : '\n' ∉ x) : withReturns x = x := by
  induction x with
  | nil => rfl
  | cons c x ih =>
    rw [withReturns, List.flatMap_cons, if_neg (by rintro rfl; simp at h)]
    exact congrArg (c :: ·) (ih fun h' => h (by simp [h']))

theorem withReturns_lines {s : Str} {ls : List Str} (h : LinesOf s ls) (hr : '\r' ∉ s) : LinesOf (withReturns s) ls := by
  induction h with
  | nil => exact .nil
  | last h1 h2 => rw [withReturns_plain h2]; exact .last h1 h2
  | @lf line rest lines h1 h2 _ ih =>
    have e : withReturns (line ++ '\n' :: rest) = line ++ '\r' :: '\n' :: withReturns rest := by
      have := withReturns_plain h1
      unfold withReturns at this ⊢
      rw [List.flatMap_append, this, List.flatMap_cons]
      rfl
    rw [e]
    exact .crlf h1 (ih fun h => hr (by simp [h]))
  | crlf => simp at hr

theorem withReturns_content {s : Str} (h : '\r' ∉ s) : contentLines U (withReturns s) = contentLines U s := by
  have key : ∀ t : Str, '\r' ∉ t → textLines (withReturns t) = textLines t := fun t ht =>
    (withReturns_lines (textLines_iff.1 rfl) ht).eq
  unfold contentLines numbered
  dsimp only
  cases s with
  | nil => rfl
  | cons c s =>
    by_cases hc : c = Char.ofNat 0xFEFF
    · subst hc
      have e : withReturns (Char.ofNat 0xFEFF :: s) = Char.ofNat 0xFEFF :: withReturns s := by
        rw [withReturns, List.flatMap_cons, if_neg (by decide)]; rfl
      rw [e]
      simp only [List.head?_cons, ↓reduceIte, List.tail_cons]
      rw [key s fun h' => h (by simp [h'])]
    · have e : (withReturns (c :: s)).head? ≠ some (Char.ofNat 0xFEFF) := by
        rw [withReturns, List.flatMap_cons]
        by_cases hn : c = '\n'
        · subst hn
          simp
        · simpa [hn] using hc
      have e' : (c :: s).head? ≠ some (Char.ofNat 0xFEFF) := by simpa using hc
      rw [if_neg e, if_neg e', key _ h]

/-- Texts with Unix line ends mean the same as with Windows line ends. -/
theorem C73_line_ends (ha : '\r' ∉ aff) (hd : '\r' ∉ dic) :
    parse U S (withReturns aff) (withReturns dic) = parse U S aff dic :=
  parse_content (withReturns_content ha) (withReturns_content hd)

/-! ## Cases -/

/-- A text with a comment within a table, indentation, tabs and Windows line ends, and the plain text. -/
def fancyAff : Str := "  SET UTF-8\r\n# rules\r\nSFX A  Y 2\r\n\t# one\r\nSFX A 0\ts .\r\nSFX A y ies y".toList
def plainAff : Str := "SET UTF-8\nSFX A Y 2\nSFX A 0 s .\nSFX A y ies y\n".toList
def fancyDic : Str := "# words\n 2 \n\n  berry/A\r\n/comment\n# more\nbook/A  ".toList
def plainDic : Str := "2\nberry/A\nbook/A".toList

theorem fancyAff_same : SameAff .sample fancyAff plainAff
    [(1, "  SET UTF-8".toList), (3, "SFX A  Y 2".toList), (5, "SFX A 0\ts .".toList), (6, "SFX A y ies y".toList)]
    [(1, "SET UTF-8".toList), (2, "SFX A Y 2".toList), (3, "SFX A 0 s .".toList), (4, "SFX A y ies y".toList)] :=
  ⟨content_iff.2 (by decide +kernel), content_iff.2 (by decide +kernel),
    .cons (sameWords_iff.2 (by decide +kernel)) (.cons (sameWords_iff.2 (by decide +kernel))
      (.cons (sameWords_iff.2 (by decide +kernel)) (.cons (sameWords_iff.2 (by decide +kernel)) .nil)))⟩

theorem trim_iff {line t : Str} (h : trim U line = t) : Trimmed U line t := h ▸ trim_spec U line

theorem fancyDic_same : SameDic .sample fancyDic plainDic
    [(2, " 2 ".toList), (4, "  berry/A".toList), (7, "book/A  ".toList)]
    [(1, "2".toList), (2, "berry/A".toList), (3, "book/A".toList)] := by
  have entry : ∀ l, trim .sample l = "berry/A".toList ∨ trim .sample l = "book/A".toList →
      ∃ t, Trimmed .sample l t ∧ ¬ SkippedLine t := by
    intro l h
    refine ⟨_, trim_spec _ l, ?_⟩
    rcases h with h | h <;> rw [h] <;> rintro (h | ⟨c, r, h⟩) <;> simp at h
  have skip : ∀ l, trim .sample l = [] ∨ trim .sample l = "/comment".toList →
      ¬ ∃ t, Trimmed .sample l t ∧ ¬ SkippedLine t := by
    rintro l h ⟨t, h1, h2⟩
    rw [trim_eq h1] at h
    rcases h with rfl | rfl
    · exact h2 (.inl rfl)
    · exact h2 (.inr ⟨_, _, rfl⟩)
  refine .lines (rest := [(3, []), (4, "  berry/A".toList), (5, "/comment".toList), (7, "book/A  ".toList)])
    (rest' := [(2, "berry/A".toList), (3, "book/A".toList)]) (content_iff.2 (by decide +kernel)) (content_iff.2 (by decide +kernel))
    (sameWords_iff.2 (by decide +kernel)) ⟨by decide, ?_⟩ ⟨by decide, ?_⟩
    (.cons ⟨"berry/A".toList, trim_iff (by decide +kernel), trim_iff (by decide +kernel)⟩
      (.cons ⟨"book/A".toList, trim_iff (by decide +kernel), trim_iff (by decide +kernel)⟩ .nil))
  · intro l hl
    simp only [List.mem_cons, List.not_mem_nil, or_false] at hl
    rcases hl with rfl | rfl | rfl | rfl
    · exact iff_of_false (by decide) (skip _ (by decide +kernel))
    · exact iff_of_true (by decide) (entry _ (by decide +kernel))
    · exact iff_of_false (by decide) (skip _ (by decide +kernel))
    · exact iff_of_true (by decide) (entry _ (by decide +kernel))
  · intro l hl
    simp only [List.mem_cons, List.not_mem_nil, or_false] at hl
    rcases hl with rfl | rfl
    · exact iff_of_true (by decide) (entry _ (by decide +kernel))
    · exact iff_of_true (by decide) (entry _ (by decide +kernel))

/-- The two pairs of texts denote the same dictionary. -/
theorem fancy_parse : ∃ D, parse .sample .default fancyAff fancyDic = .ok D ∧ parse .sample .default plainAff plainDic = .ok D := by
  have h := C73_layout (S := .default) fancyAff_same fancyDic_same
  generalize e : parse .sample .default fancyAff fancyDic = r at h
  have hok : (parse .sample .default plainAff plainDic).map (fun _ => ()) = .ok () := by decide +kernel
  cases h' : parse .sample .default plainAff plainDic with
  | error e => rw [h'] at hok; cases hok
  | ok D =>
    rw [h'] at h
    cases h
    exact ⟨D, rfl, rfl⟩

example : parse .sample .default (withReturns plainAff) (withReturns plainDic) = parse .sample .default plainAff plainDic :=
  C73_line_ends (by decide) (by decide)

/-- Blank lines of the `.aff` text are not always harmless: between the rows of a table they are an error. -/
theorem C73_blank_aff_witness : parse .sample .default "REP 2\nREP a b\n\nREP c d".toList "0".toList
    = .error (.error ⟨.mismatchedRowCount 2 2, .aff, some 3⟩) := of_err (by decide +kernel)

/-- Nor is a blank line in front of the number of the `.dic` text. -/
theorem C73_blank_dic_witness : parse .sample .default [] "\n1\nfoo".toList
    = .error (.error ⟨.mismatchedArity 1 0, .dic, some 1⟩) := of_err (by decide +kernel)

-- A comment in front of the wrong line moves the number.
example : parse .sample .default "REP 2\n# x\nREP a b\nREP c".toList "0".toList
    = .error (.error ⟨.mismatchedArity 2 1, .aff, some 4⟩) := by
  rw [C73_comment_aff (c := "# x".toList) (p := ["REP 2".toList]) (q := ["REP a b".toList, "REP c".toList])
      (aff := "REP 2\nREP a b\nREP c".toList) ⟨[], " x".toList, rfl, by decide +kernel, by simp⟩
      ⟨textLines_iff.1 (by decide +kernel), by decide⟩ ⟨textLines_iff.1 (by decide +kernel), by decide⟩,
    of_err (h := .error ⟨.mismatchedArity 2 1, .aff, some 3⟩) (by decide +kernel)]
  rfl


-- Indentation and tabs, and the number of the wrong line stays.
example : parse .sample .default " REP\t1\r\nREP  a \r\n".toList [] = .error (.error ⟨.mismatchedArity 2 1, .aff, some 2⟩) := by
  rw [C73_white_aff (ls := [" REP\t1".toList, "REP  a ".toList]) (ls' := ["REP 1".toList, "REP a".toList])
      (aff' := "REP 1\nREP a".toList) ⟨textLines_iff.1 (by decide +kernel), by decide⟩
      ⟨textLines_iff.1 (by decide +kernel), by decide⟩
      (.cons ⟨["REP".toList, ['1']], splitWhitespace_iff.1 (by decide +kernel), splitWhitespace_iff.1 (by decide +kernel)⟩
        (.cons ⟨["REP".toList, ['a']], splitWhitespace_iff.1 (by decide +kernel), splitWhitespace_iff.1 (by decide +kernel)⟩ .nil))]
  exact of_err (by decide +kernel)
example : parse .sample .default [] " 1\n\tfoo/\r\n".toList = parse .sample .default [] "1\nfoo/".toList :=
  C73_white_dic (ls := [" 1".toList, "\tfoo/".toList]) (ls' := ["1".toList, "foo/".toList])
    ⟨textLines_iff.1 (by decide +kernel), by decide⟩ ⟨textLines_iff.1 (by decide +kernel), by decide⟩
    (.cons ⟨['1'], trim_iff (by decide +kernel), trim_iff (by decide +kernel)⟩
      (.cons ⟨"foo/".toList, trim_iff (by decide +kernel), trim_iff (by decide +kernel)⟩ .nil))
example : parse .sample .default [] "1\n  \nfoo".toList = movedDown .dic 1 (parse .sample .default [] "1\nfoo".toList) :=
  C73_blank_dic (c := "  ".toList) (p := [['1']]) (q := ["foo".toList]) (t := []) (l := ['1'])
    (trim_iff (by decide +kernel)) (.inl rfl) (by simp) (by rw [← isComment_iff]; decide +kernel)
    ⟨textLines_iff.1 (by decide +kernel), by decide⟩ ⟨textLines_iff.1 (by decide +kernel), by decide⟩

end Spellbook.Props
