import Verif.Proof.Repeat
import Verif.Props.Order
import Verif.Props.Unused
/-!
# C90 Saying something twice changes no answer

A line which stands in the word list twice, an entry which is added again, and an affix rule which is given again
change no answer of `check`, nor the suggestions made by editing. They can change the suggestions by similarity, since
the search keeps the hundred most similar entries.
-/

namespace Spellbook
namespace Props
open Spec

variable {U : Unicode}

/-- **C90** (check): two dictionaries which differ in repetitions of entries and of affix rules give the same answer
for every word, if entries with the same stem have the same flags. -/
theorem C90_check {C C' : Checker} (hU : C.U = C'.U) (h : SameOnce C.dict C'.dict) (hn : NoConflict C.dict)
    (h1 : C.checkLowerAsTitle = C'.checkLowerAsTitle) (h2 : C.checkLowerAsUpper = C'.checkLowerAsUpper)
    (fuel : Nat) (word : Str) : C.check fuel word = C'.check fuel word := by
  rw [(Repeat.alike hU h hn h1 h2).check]

/-- **C90** (suggest): they give the same suggestions, those by similarity left out, if there are equally many affix
rules, or less than 1000 of each kind. -/
theorem C90_suggest {S S' : Suggester} (hU : S.C.U = S'.C.U) (h : SameOnce S.C.dict S'.C.dict)
    (hn : NoConflict S.C.dict) (h1 : S.C.checkLowerAsTitle = S'.C.checkLowerAsTitle)
    (h2 : S.C.checkLowerAsUpper = S'.C.checkLowerAsUpper) (hg : S.ngram = false) (hg' : S'.ngram = false)
    (hl : (S.C.dict.aff.prefixes.table.length = S'.C.dict.aff.prefixes.table.length ∧
        S.C.dict.aff.suffixes.table.length = S'.C.dict.aff.suffixes.table.length) ∨
      (S.C.dict.aff.prefixes.table.length < 1000 ∧ S.C.dict.aff.suffixes.table.length < 1000 ∧
        S'.C.dict.aff.prefixes.table.length < 1000 ∧ S'.C.dict.aff.suffixes.table.length < 1000))
    (fuel depth : Nat) (word : Str) (out : List Str) :
    S.suggest fuel depth word out = S'.suggest fuel depth word out := by
  have ha := Repeat.alike hU h hn h1 h2
  have : Suggester.Alike S S' := ⟨ha, by
    funext w
    rcases hl with ⟨hp, hs⟩ | ⟨hp, hs, hp', hs'⟩
    · unfold Suggester.maxAttempts
      dsimp only [Checker.aff]
      rw [hp, hs, ha.opts]
    · rw [attempts_few hp hs, attempts_few hp' hs', ha.opts]⟩
  rw [Suggester.alike_suggest this]
  funext c w hq o
  unfold Suggester.ngramPart
  rw [hg, hg']
  rfl

/-- **C90** (lines): if a pair of texts makes a dictionary, so does the pair with another `.dic` text which has the
same lines, however often and in whatever order (behind the first line, which must announce a number). All words get
the same answer, if entries with the same stem have the same flags. -/
theorem C90_lines {D : Dict} {first first' : Nat × Str} {rest rest' : List (Nat × Str)} {S : Sorts}
    {aff dic dic' : Str} (h : parse U S aff dic = .ok D) (h1 : Content U dic (first :: rest))
    (h2 : Content U dic' (first' :: rest')) (ha : Announces U first'.2)
    (hp : ∀ line, line ∈ rest.map (·.2) ↔ line ∈ rest'.map (·.2)) :
    ∃ D', parse U S aff dic' = .ok D' ∧ SameOnce D D' ∧ (NoConflict D → ∀ L L' title upper fuel word,
      Checker.check ⟨U, L, D, title, upper⟩ fuel word = Checker.check ⟨U, L', D', title, upper⟩ fuel word) := by
  obtain ⟨D', h3, h4, h5⟩ := parse_sameLines h h1 h2 ha hp
  have hs : SameOnce D D' := ⟨by rw [h4], h5, by rw [h4], by rw [h4]⟩
  exact ⟨D', h3, hs, fun hn L L' title upper fuel word =>
    C90_check (C := ⟨U, L, D, title, upper⟩) (C' := ⟨U, L', D', title, upper⟩) rfl hs hn rfl rfl fuel word⟩

/-- **C90** (add): adding an entry which is listed already changes no answer, if entries with the same stem have the
same flags. -/
theorem C90_add {D D' : Dict} {line stem : Str} {F : FlagSet} (h : D.add U line = .ok D')
    (hl : LineMeans U D.aff.flagType D.aff.flagAliases D.aff.ignoreChars line stem F) (hm : (stem, F) ∈ D.words.slots)
    (hn : NoConflict D) (L L' : Layout) (title upper : Bool) (fuel : Nat) (word : Str) :
    Checker.check ⟨U, L, D, title, upper⟩ fuel word = Checker.check ⟨U, L', D', title, upper⟩ fuel word := by
  obtain ⟨stem', F', hl', h4, h5⟩ := C11_added.1 h
  have e := (parseDicLine_ok.2 hl).symm.trans (parseDicLine_ok.2 hl')
  cases e
  refine C90_check (C := ⟨U, L, D, title, upper⟩) (C' := ⟨U, L', D', title, upper⟩) rfl
    ⟨by rw [h4], fun e => ?_, by rw [h4], by rw [h4]⟩ hn rfl rfl fuel word
  rw [h5, List.mem_append, List.mem_singleton]
  exact ⟨.inl, fun h => h.elim id fun h => h ▸ hm⟩

/-! ## The conditions are needed -/

/-- **C90** (the condition on flags is needed): `foo` is listed twice, once forbidden. Which entry is found first
depends on the hasher; with this one, adding `foo` once more makes it a word. -/
theorem C90_conflict_needed : ∃ D D', Reachable .sample D ∧ D.add .sample "foo".toList = .ok D' ∧ SameOnce D D' ∧
    Rejects ⟨.sample, .reversed, D, false, false⟩ "foo".toList ∧
    Accepts ⟨.sample, .reversed, D', false, false⟩ "foo".toList := by
  obtain ⟨D, h1, h2⟩ := of_map (x := parse .sample .default "FORBIDDENWORD !\n".toList "2\nfoo\nfoo/!\n".toList)
    (D := fun D => match D.add .sample "foo".toList with
      | .ok D' => decide (D.words.slots = [("foo".toList, .empty), ("foo".toList, .ofList [33])]) &&
        decide (D'.words.slots = [("foo".toList, .empty), ("foo".toList, .ofList [33]), ("foo".toList, .empty)]) &&
        decide (Checker.check ⟨.sample, .reversed, D, false, false⟩ 1 "foo".toList = .ok false) &&
        decide (Checker.check ⟨.sample, .reversed, D', false, false⟩ 1 "foo".toList = .ok true)
      | .error _ => false) (by decide +kernel)
  split at h2
  · rename_i D' h3
    simp only [Bool.and_eq_true, decide_eq_true_eq] at h2
    obtain ⟨⟨⟨h4, h5⟩, h6⟩, h7⟩ := h2
    obtain ⟨_, _, -, ha, -⟩ := C11_added.1 h3
    refine ⟨D, D', .loaded h1, h3, ⟨by rw [ha], fun e => ?_, by rw [ha], by rw [ha]⟩, ⟨1, h6⟩, ⟨1, h7⟩⟩
    rw [h4, h5]
    simp only [List.mem_cons, List.not_mem_nil, or_false]
    exact ⟨fun h => h.elim .inl fun h => .inr (.inl h), fun h => h.elim .inl fun h => h.elim .inr .inl⟩
  · cases h2

/-- A dictionary in which one word is listed `n` times more. -/
def crowd (D : Dict) (n : Nat) : Dict := ⟨⟨D.words.slots ++ List.replicate n ("abcdxf".toList, .empty)⟩, D.aff⟩

theorem crowd_reachable {D D' : Dict} (h : Reachable .sample D) (ha : D.add .sample "abcdxf".toList = .ok D')
    (hs : D'.words.slots = D.words.slots ++ [("abcdxf".toList, .empty)]) : ∀ n, Reachable .sample (crowd D n)
  | 0 => by
    have : crowd D 0 = D := by unfold crowd; rw [List.replicate_zero, List.append_nil]
    rw [this]; exact h
  | n + 1 => by
    obtain ⟨stem, F, hl, -, h2⟩ := C11_added.1 ha
    rw [h2, List.append_cancel_left_eq, List.cons.injEq] at hs
    obtain ⟨rfl, rfl⟩ := Prod.mk.inj hs.1
    refine .added (line := "abcdxf".toList) (crowd_reachable h ha (by rw [h2]) n) (C11_added.2 ⟨_, _, hl, rfl, ?_⟩)
    show _ ++ _ = (_ ++ _) ++ _
    rw [List.append_assoc, ← List.replicate_succ']

/-- **C90** (suggestions by similarity are an exception): a word listed a hundred times more drives another one out
of the suggestions. -/
theorem C90_similarity : ∃ D D', Reachable .sample D ∧ Reachable .sample D' ∧ SameOnce D D' ∧ NoConflict D ∧
    Suggests (Checker.intoSuggester ⟨.sample, .default, D, false, false⟩ .sample) "abcdef".toList []
      ["abcdxf".toList, "abxxef".toList] ∧
    Suggests (Checker.intoSuggester ⟨.sample, .default, D', false, false⟩ .sample) "abcdef".toList []
      ["abcdxf".toList] := by
  obtain ⟨D, h1, h2⟩ := of_map (x := parse .sample .default "MAXDIFF 10\n".toList "2\nabcdxf\nabxxef\n".toList)
    (D := fun D => decide (D.words.slots = [("abcdxf".toList, .empty), ("abxxef".toList, .empty)]) &&
      (match D.add .sample "abcdxf".toList with
      | .ok D' => decide (D'.words.slots = D.words.slots ++ [("abcdxf".toList, .empty)])
      | .error _ => false) &&
      decide ((Checker.intoSuggester ⟨.sample, .default, D, false, false⟩ .sample).suggest 1 1 "abcdef".toList []
        = .ok ["abcdxf".toList, "abxxef".toList]) &&
      decide ((Checker.intoSuggester ⟨.sample, .default, crowd D 100, false, false⟩ .sample).suggest 1 1
        "abcdef".toList [] = .ok ["abcdxf".toList])) (by decide +kernel)
  simp only [Bool.and_eq_true, decide_eq_true_eq] at h2
  obtain ⟨⟨⟨h3, h4⟩, h5⟩, h6⟩ := h2
  split at h4
  · rename_i D' h7
    refine ⟨D, crowd D 100, .loaded h1, crowd_reachable (.loaded h1) h7 (by simpa using h4) 100,
      ⟨rfl, fun e => ?_, rfl, rfl⟩, C13_unique_stems (by rw [h3]; decide), ⟨1, 1, h5⟩, ⟨1, 1, h6⟩⟩
    show _ ↔ e ∈ D.words.slots ++ _
    rw [List.mem_append, List.mem_replicate]
    exact ⟨.inl, fun h => h.elim id fun h => by rw [h.2, h3]; exact .head _⟩
  · cases h4

theorem erase_replicate {α : Type} [BEq α] [LawfulBEq α] (a : α) (n : Nat) :
    (List.replicate (n + 1) a).eraseDups = [a] := by
  rw [List.replicate_succ, List.eraseDups_cons, List.filter_replicate_of_neg (by simp)]
  rfl

/-- **C90** (the condition on the number of rules is needed): repeated rules lower the number of edits `suggest`
tries. -/
theorem C90_effort : SameOnce (spareChecker 1).dict (spareChecker 10020).dict ∧ NoConflict (spareChecker 1).dict ∧
    (editsOnly (spareChecker 1)).maxAttempts "word".toList = .ok 100000 ∧
    (editsOnly (spareChecker 10020)).maxAttempts "word".toList = .ok 99402 := by
  refine ⟨⟨rfl, fun _ => .rfl, rfl, ?_⟩, fun _ _ _ h => (nomatch h), attempts_few (by decide) (by decide), C89_effort.2.1⟩
  exact (erase_replicate spare 0).trans (erase_replicate spare 10019).symm

/-! ## Examples -/

/-- The same lines, some of them repeated, and in another order. -/
example : ∃ D first rest first' rest', parse .sample .default [] "2\nfoo/A\nbar\n".toList = .ok D ∧
    NoConflict D ∧ Content .sample "2\nfoo/A\nbar\n".toList (first :: rest) ∧
    Content .sample "4\nbar\nfoo/A\nbar\nbar\n".toList (first' :: rest') ∧ Announces .sample first'.2 ∧
    (∀ line, line ∈ rest.map (·.2) ↔ line ∈ rest'.map (·.2)) ∧ rest.length = 2 ∧ rest'.length = 4 := by
  obtain ⟨D, h1, h2⟩ := of_map (x := parse .sample .default [] "2\nfoo/A\nbar\n".toList)
    (D := fun D => decide ((D.words.slots.map Prod.fst).Nodup)) (by decide +kernel)
  refine ⟨D, (1, "2".toList), [(2, "foo/A".toList), (3, "bar".toList)], (1, "4".toList),
    [(2, "bar".toList), (3, "foo/A".toList), (4, "bar".toList), (5, "bar".toList)], h1,
    C13_unique_stems (by simpa using h2), content_iff.2 (by decide +kernel),
    content_iff.2 (by decide +kernel), ⟨"4".toList, [], 4, by decide +kernel, usize_ok.1 (by decide +kernel)⟩, ?_, rfl, rfl⟩
  intro line
  simp only [List.map_cons, List.map_nil, List.mem_cons, List.not_mem_nil, or_false]
  exact ⟨fun h => h.elim (fun h => .inr (.inl h)) .inl,
    fun h => h.elim .inr fun h => h.elim .inl fun h => .inr (h.elim id id)⟩

/-- Repeated rules, with words in which they are used. -/
example : ∃ C C', loadChecker "SFX A Y 2\nSFX A 0 s .\nSFX A 0 ed .\n" "1\nfoo/A\n" = some C ∧
    loadChecker "SFX A Y 4\nSFX A 0 s .\nSFX A 0 ed .\nSFX A 0 s .\nSFX A 0 s .\n" "2\nfoo/A\nfoo/A\n" = some C' ∧
    C.dict.aff.suffixes.table.eraseDups = C'.dict.aff.suffixes.table.eraseDups ∧
    C.dict.aff.suffixes.table.length = 2 ∧ C'.dict.aff.suffixes.table.length = 4 ∧
    (∀ e, e ∈ C.dict.words.slots ↔ e ∈ C'.dict.words.slots) ∧ NoConflict C.dict ∧
    C.check 40 "foos".toList = .ok true ∧ C'.check 40 "foos".toList = .ok true := by
  obtain ⟨C, h1, h2⟩ := of_load (aff := "SFX A Y 2\nSFX A 0 s .\nSFX A 0 ed .\n") (dic := "1\nfoo/A\n") (L := .default)
    (p := fun C => decide (C.dict.aff.suffixes.table = [⟨65, true, none, "ed".toList, none, .empty⟩, ⟨65, true, none, "s".toList, none, .empty⟩]) &&
      decide (C.dict.words.slots = [("foo".toList, .ofList [65])]) &&
      decide (C.check 40 "foos".toList = .ok true)) (by decide +kernel)
  obtain ⟨C', h3, h4⟩ := of_load (aff := "SFX A Y 4\nSFX A 0 s .\nSFX A 0 ed .\nSFX A 0 s .\nSFX A 0 s .\n")
    (dic := "2\nfoo/A\nfoo/A\n") (L := .default)
    (p := fun C => decide (C.dict.aff.suffixes.table.eraseDups =
        [⟨65, true, none, "ed".toList, none, .empty⟩, ⟨65, true, none, "s".toList, none, .empty⟩]) &&
      decide (C.dict.aff.suffixes.table.length = 4) &&
      decide (C.dict.words.slots = [("foo".toList, .ofList [65]), ("foo".toList, .ofList [65])]) &&
      decide (C.check 40 "foos".toList = .ok true)) (by decide +kernel)
  simp only [Bool.and_eq_true, decide_eq_true_eq] at h2 h4
  obtain ⟨⟨h5, h6⟩, h7⟩ := h2
  obtain ⟨⟨⟨h8, h9⟩, h10⟩, h11⟩ := h4
  refine ⟨C, C', h1, h3, by rw [h8, h5]; decide +kernel, by rw [h5]; rfl, h9, fun e => by rw [h6, h10]; simp,
    C13_unique_stems (by rw [h6]; decide), h7, h11⟩

end Props
end Spellbook
