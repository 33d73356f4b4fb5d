import Verif.Proof.SuggestSame
import Verif.Proof.NgramSafe
import Verif.Props.Check
import Verif.Props.Dictionary
/-!
# Suggestions (C01, C02 and C13 for `suggest`, C39, C40, C45, C46, C55–C57)
-/

namespace Spellbook.Props
open Spec Run

/-! ## C01, C02 -/

/-- **C01**, the part about `suggest`: a word of more than 360 bytes gets no suggestions, and what was in
the vector is removed. -/
theorem C01_suggest_overlong (S : Suggester) (word : Str) (h : 360 < (utf8 word).length) (out : List Str)
    (fuel depth : Nat) : S.suggest fuel depth word out = .ok [] := by
  unfold Suggester.suggest
  rw [if_pos (by unfold byteLen maxWordLen; omega)]
  simp

/-- **C02**, the part about `suggest`: there are no suggestions for the empty word. -/
theorem C02_suggest_empty (S : Suggester) (out : List Str) (fuel depth : Nat) :
    S.suggest fuel (depth + 1) [] out = .ok [] := by
  unfold Suggester.suggest
  rw [if_neg (by decide)]
  simp [Suggester.suggestImpl]

/-! ## Samples -/

/-- A dictionary for examples, loaded from its texts. -/
def loadChecker (aff dic : String) (L : Layout := .default) : Option Checker :=
  match parse .sample .default aff.toList dic.toList with
  | .ok D => some { U := .sample, L, dict := D }
  | .error _ => none

theorem loadChecker_reachable {aff dic : String} {L : Layout} {C : Checker} (h : loadChecker aff dic L = some C) :
    Reachable .sample C.dict ∧ C.checkLowerAsTitle = false ∧ C.checkLowerAsUpper = false ∧ C.U = .sample := by
  unfold loadChecker at h
  split at h
  · rename_i D hD
    cases h
    exact ⟨.loaded hD, rfl, rfl, rfl⟩
  · cases h

/-- A checker loaded from texts which passes a test. -/
theorem of_load {aff dic : String} {L : Layout} {p : Checker → Bool}
    (h : (loadChecker aff dic L).any p = true) : ∃ C, loadChecker aff dic L = some C ∧ p C = true := by
  cases hC : loadChecker aff dic L with
  | none => rw [hC] at h; cases h
  | some C => rw [hC] at h; exact ⟨C, rfl, h⟩

/-- The suggester of a checker without suggestions by similarity. -/
def editsOnly (C : Checker) : Suggester := { C, H := .sample, ngram := false }

/-- Two words, OCONV b c. -/
def oconvChecker : Checker := mkChecker [("ab", []), ("ac", [])]
  { outputConversions := ⟨[⟨['b'], ['c'], false⟩], List.pairwise_singleton _ _⟩, tryChars := "bc".toList }

/-! ## C39 Suggestions replace the output -/

/-- **C39** (one outcome): what happens in the model does not depend on the bounds it is given, so that
exactly one of three things happens to each call: it returns with one list, panics, or recurses without
end. -/
theorem C39_one_outcome (S : Suggester) (word : Str) (out : List Str) :
    ((∃ r, Suggests S word out r) ∨ SuggestPanics S word out ∨ SuggestDiverges S word out) ∧
    (∀ r r', Suggests S word out r → Suggests S word out r' → r = r') ∧
    (∀ r, Suggests S word out r → ¬ SuggestPanics S word out ∧ ¬ SuggestDiverges S word out) ∧
    ¬ (SuggestPanics S word out ∧ SuggestDiverges S word out) := by
  refine ⟨?_, ?_, ?_, ?_⟩
  · by_cases h : SuggestDiverges S word out
    · exact .inr (.inr h)
    · obtain ⟨f, h⟩ := Classical.not_forall.1 h
      obtain ⟨d, h⟩ := Classical.not_forall.1 h
      cases hr : S.suggest f d word out with
      | ok r => exact .inl ⟨r, f, d, hr⟩
      | error e =>
        cases e with
        | panic => exact .inr (.inl ⟨f, d, hr⟩)
        | fuel => exact absurd hr h
  · rintro r r' ⟨f, d, h⟩ ⟨f', d', h'⟩
    have h1 := (Suggester.suggest_le (Nat.le_max_left f f') (Nat.le_max_left d d') word out).ok h
    have h2 := (Suggester.suggest_le (Nat.le_max_right f f') (Nat.le_max_right d d') word out).ok h'
    rw [h1] at h2
    simpa using h2
  · rintro r ⟨f, d, h⟩
    refine ⟨?_, fun h' => by rw [h' f d] at h; cases h⟩
    rintro ⟨f', d', h'⟩
    have h1 := (Suggester.suggest_le (Nat.le_max_left f f') (Nat.le_max_left d d') word out).ok h
    have h2 := (Suggester.suggest_le (Nat.le_max_right f f') (Nat.le_max_right d d') word out).panic h'
    rw [h1] at h2
    cases h2
  · rintro ⟨⟨f, d, h⟩, h'⟩
    rw [h' f d] at h
    cases h

/-- **C39** (independence): whatever was in the vector before, the same happens. -/
theorem C39_out_irrelevant (S : Suggester) (word : Str) (out out' : List Str) (fuel depth : Nat) :
    S.suggest fuel depth word out = S.suggest fuel depth word out' := by
  unfold Suggester.suggest
  simp only [List.take_zero]

theorem firsts_pairwise {α : Type} [DecidableEq α] [BEq α] [LawfulBEq α] : ∀ (xs pre seen : List α), (∀ x, x ∈ seen ↔ x ∈ pre) →
    (firsts seen xs).Pairwise fun a b => (pre ++ xs).idxOf a < (pre ++ xs).idxOf b
  | [], pre, seen, _ => by simp [firsts]
  | x :: xs, pre, seen, h => by
    have e : pre ++ x :: xs = (pre ++ [x]) ++ xs := by simp
    unfold firsts
    split
    · rename_i hx
      rw [e]
      exact firsts_pairwise xs (pre ++ [x]) seen fun y => by
        rw [h]; simp only [List.mem_append, List.mem_singleton]
        exact ⟨.inl, fun hy => hy.elim id fun hy => by subst hy; exact (h y).mp hx⟩
    · rename_i hx
      refine List.pairwise_cons.mpr ⟨fun y hy => ?_, ?_⟩
      · rw [mem_firsts] at hy
        have hy2 : y ∉ pre ++ [x] := by
          simp only [List.mem_append, List.mem_singleton, ← h]
          simpa [or_comm] using hy.2
        have hx2 : x ∉ pre := fun hm => hx ((h x).mpr hm)
        rw [e, List.idxOf_append_of_notMem hy2, List.idxOf_append_of_mem (by simp), List.idxOf_append_of_notMem hx2]
        simp
        omega
      · rw [e]
        exact firsts_pairwise xs (pre ++ [x]) (x :: seen) fun y => by simp [h, or_comm]

/-- **C39** (removal of duplicates): the swapping loops of `deduplicate` never go out of bounds; they keep
every item once, in the order of the first occurrences. -/
theorem C39_deduplicate (items : List Str) : ∃ r, deduplicate? items = some r ∧ r.Nodup ∧
    (∀ x, x ∈ r ↔ x ∈ items) ∧ r.Sublist items ∧
    r.Pairwise fun a b => items.idxOf a < items.idxOf b :=
  ⟨_, deduplicate?_eq items, firsts_nodup _ _, fun x => by simp [mem_firsts], firsts_sublist _ _, by
    simpa using firsts_pairwise items [] [] (by simp)⟩

example : deduplicate? ["b".toList, "a".toList, "b".toList, "c".toList, "a".toList] =
    some ["b".toList, "a".toList, "c".toList] := by decide +kernel

/-- **C39** (no duplicates): without OCONV no text is suggested twice. -/
theorem C39_no_duplicates {S : Suggester} {word : Str} {out r : List Str} (h : Suggests S word out r)
    (hO : S.C.aff.outputConversions = .empty) : r.Nodup := by
  obtain ⟨fuel, depth, h⟩ := h
  unfold Suggester.suggest at h
  simp only [List.take_zero] at h
  split at h
  · cases h; simp
  · rcases Suggester.suggestImpl_ok h with ⟨-, rfl⟩ | ⟨d, -, -, h⟩
    · simp
    · rcases Suggester.suggestConverted_ok h with ⟨-, -, t, -, rfl⟩ | ⟨b, h⟩
      · simp
      · obtain ⟨o1, o2, -, -, rfl⟩ := Suggester.finish_ok h
        rw [hO]
        have : (ConversionTable.empty.convert) = id := by funext w; exact ConversionTable.empty_convert w
        rw [this, List.map_id]
        exact firsts_nodup _ _

/-- With OCONV it is false: duplicates are removed before the conversion. -/
theorem C39_oconv_negation : ∃ S word r, Suggests S word [] r ∧ ¬ r.Nodup :=
  ⟨editsOnly oconvChecker, "aa".toList, ["ac".toList, "ac".toList], ⟨1, 1, by decide +kernel⟩, by decide⟩

/-! ## C13 -/

/-- **C13**, the part about `suggest`, without suggestions by similarity: two suggesters whose dictionaries
have the same entries, in whatever order and whatever the hashers and the layouts of the tables, suggest the
same, if entries with the same stem have the same flags. Missing: suggestions by similarity, for which it is
false (`C13_ngram_negation`). -/
theorem C13_suggest_partial {S S' : Suggester} (hU : S.C.U = S'.C.U) (ha : S.C.dict.aff = S'.C.dict.aff)
    (h1 : S.C.checkLowerAsTitle = S'.C.checkLowerAsTitle) (h2 : S.C.checkLowerAsUpper = S'.C.checkLowerAsUpper)
    (hp : S.C.dict.words.slots.Perm S'.C.dict.words.slots) (hc : NoConflict S.C.dict)
    (hn : S.ngram = false) (hn' : S'.ngram = false) (fuel depth : Nat) (word : Str) (out : List Str) :
    S.suggest fuel depth word out = S'.suggest fuel depth word out := by
  rw [Suggester.same_suggest (same_of_noConflict hU ha h1 h2 hp hc) hn hn']

/-- Suggestions by similarity depend on the hasher: two words are equally similar, and only one is
suggested. -/
theorem C13_ngram_negation : ∃ D, Reachable .sample D ∧ NoConflict D ∧ ∃ H : Heaps,
    Suggests (Checker.intoSuggester { U := .sample, L := .default, dict := D } H) "abcf".toList [] ["abcd".toList] ∧
    Suggests (Checker.intoSuggester { U := .sample, L := .reversed, dict := D } H) "abcf".toList [] ["abce".toList] := by
  obtain ⟨D, h1, h2⟩ := of_map (x := parse .sample .default "MAXNGRAMSUGS 1\nMAXDIFF 10\n".toList
      "2\nabcd\nabce\n".toList)
    (D := fun D => decide ((D.words.slots.map Prod.fst).Nodup) &&
      decide ((Checker.intoSuggester { U := .sample, L := .default, dict := D } .sample).suggest 1 1 "abcf".toList []
        = .ok ["abcd".toList]) &&
      decide ((Checker.intoSuggester { U := .sample, L := .reversed, dict := D } .sample).suggest 1 1 "abcf".toList []
        = .ok ["abce".toList])) (by decide +kernel)
  simp only [Bool.and_eq_true, decide_eq_true_eq] at h2
  exact ⟨D, .loaded h1, C13_unique_stems h2.1.1, .sample, ⟨1, 1, h2.1.2⟩, ⟨1, 1, h2.2⟩⟩

/-! ## C40 Edit suggestions are real words -/

/-- **C40** (edits): every text which an edit method adds, for whatever texts it tries, is a word the lookup
accepts, neither forbidden nor warned against, and is one of the texts tried. All of these are added, in the
order in which they are tried. (Which texts each method tries: C41.) -/
theorem C40_edits {S : Suggester} {fuel : Nat} {texts out r : List Str} (h : S.addAll fuel texts out = .ok r) :
    ∃ new, r = out ++ new ∧ new.Sublist texts ∧ ∀ t, t ∈ new ↔ t ∈ texts ∧ Suggestable S.C fuel t :=
  ⟨_, Suggester.addAll_ok h, List.filter_sublist, fun _ => mem_suggestables⟩

/-- **C40** (REP): a replacement without a space is suggested iff it is such a word. -/
theorem C40_rep {S : Suggester} {fuel : Nat} {text : Str} {out r : List Str} (h : S.tryRep fuel text out = .ok r)
    (hs : ' ' ∉ text) : (Suggestable S.C fuel text ∧ r = out ++ [text]) ∨ (¬ Suggestable S.C fuel text ∧ r = out) := by
  have hno : ¬ SpacedWords S.C fuel text := by
    rintro ⟨parts, last, h1, rfl, -, -⟩
    cases parts with
    | nil => exact h1 rfl
    | cons p ps => simp at hs
  rcases Suggester.tryRep_ok h with ⟨h1 | h1, h2⟩ | ⟨h1, h2⟩
  · exact .inl ⟨h1, h2⟩
  · exact absurd h1 hno
  · exact .inr ⟨fun h => h1 (.inl h), h2⟩

/-- **C40** (all methods together): whatever the methods for one spelling of the word add is a word the
lookup accepts, neither forbidden nor warned against, and one edit, one similar spelling or one replacement
away; or a replacement with spaces all of whose parts but the last are accepted; or the word split into two
accepted words. Earlier suggestions are kept. -/
theorem C40_proposals {U : Unicode} {S : Suggester} (hD : Reachable U S.C.dict) {fuel : Nat} {w : Str}
    {out : List Str} {r : Bool × List Str} (h : S.suggestLow fuel w out = .ok r) :
    ∃ new, r.2 = out ++ new ∧ ∀ t ∈ new, Proposal S.C fuel w t := by
  obtain ⟨rules, hr, -⟩ := (wellMade_reachable hD).reps
  exact Suggester.low_sound hr h

/-- A suggestion without a space or a dash is such a word. -/
theorem C40_single_words {U : Unicode} {S : Suggester} (hD : Reachable U S.C.dict) {fuel : Nat} {w : Str}
    {r : Bool × List Str} (h : S.suggestLow fuel w [] = .ok r) :
    ∀ t ∈ r.2, ' ' ∉ t → '-' ∉ t → Suggestable S.C fuel t := by
  obtain ⟨new, h1, h2⟩ := C40_proposals hD h
  intro t ht hs hd
  rw [h1, List.nil_append] at ht
  rcases h2 t ht with h | ⟨-, parts, last, h3, rfl, -⟩ | ⟨-, a, b, -, -, -, -, h3⟩
  · exact h.1
  · cases parts with
    | nil => exact absurd rfl h3
    | cons p ps => simp at hs
  · rcases h3 with rfl | ⟨rfl, -⟩
    · simp at hs
    · simp at hd

/-- All of the methods at work on one word. -/
example : ∃ C, loadChecker "TRY abc\nREP 1\nREP f ph\n" "4\nphone\nfone\nfo\nne\n" = some C ∧
    (editsOnly C).suggest 1 1 "foneb".toList [] = .ok ["fone".toList] ∧
    (editsOnly C).suggest 1 1 "fone".toList [] =
      .ok ["phone".toList, "fo ne".toList, "fo-ne".toList] := by
  obtain ⟨C, h1, h2⟩ := of_load (aff := "TRY abc\nREP 1\nREP f ph\n") (dic := "4\nphone\nfone\nfo\nne\n")
    (L := .default) (p := fun C =>
      decide ((editsOnly C).suggest 1 1 "foneb".toList [] = .ok ["fone".toList]) &&
      decide ((editsOnly C).suggest 1 1 "fone".toList [] =
        .ok ["phone".toList, "fo ne".toList, "fo-ne".toList])) (by decide +kernel)
  simp only [Bool.and_eq_true, decide_eq_true_eq] at h2
  exact ⟨C, h1, h2.1, h2.2⟩

/-- The last word of a replacement with spaces is not looked up: `a b` is suggested, but `b` is no
word. -/
theorem C40_rep_negation : ∃ S : Suggester, Reachable .sample S.C.dict ∧
    Suggests S "x".toList [] ["a b".toList] ∧ Rejects S.C "b".toList := by
  obtain ⟨C, h1, h2⟩ := of_load (aff := "REP 1\nREP x a_b\n") (dic := "1\na\n") (L := .default) (p := fun C =>
    decide ((editsOnly C).suggest 1 1 "x".toList [] = .ok ["a b".toList]) &&
    decide (C.check 1 "b".toList = .ok false)) (by decide +kernel)
  simp only [Bool.and_eq_true, decide_eq_true_eq] at h2
  exact ⟨editsOnly C, (loadChecker_reachable h1).1, ⟨1, 1, h2.1⟩, ⟨1, h2.2⟩⟩

/-- The halves of a word are not tested for being forbidden: `foo bar` is suggested, but `foo` is
forbidden. -/
theorem C40_two_words_negation : ∃ S : Suggester, Reachable .sample S.C.dict ∧
    Suggests S "foobar".toList [] ["foo bar".toList] ∧ Rejects S.C "foo".toList := by
  obtain ⟨C, h1, h2⟩ := of_load (aff := "FORBIDDENWORD !\n") (dic := "2\nfoo/!\nbar\n") (L := .default) (p := fun C =>
    decide ((editsOnly C).suggest 1 1 "foobar".toList [] = .ok ["foo bar".toList]) &&
    decide (C.check 1 "foo".toList = .ok false)) (by decide +kernel)
  simp only [Bool.and_eq_true, decide_eq_true_eq] at h2
  exact ⟨editsOnly C, (loadChecker_reachable h1).1, ⟨1, 1, h2.1⟩, ⟨1, h2.2⟩⟩

/-! ## C46 -/

/-- **C46** is false: the edit methods ignore the mark, and the word `abc` is suggested, whose only entry is
marked NOSUGGEST. -/
theorem C46_negation : ∃ S : Suggester, Reachable .sample S.C.dict ∧
    (∀ e ∈ S.C.dict.words.slots, Has e.2 S.C.opts.noSuggestFlag) ∧
    Suggests S "acb".toList [] ["abc".toList] := by
  obtain ⟨C, h1, h2⟩ := of_load (aff := "NOSUGGEST !\n") (dic := "1\nabc/!\n") (L := .default) (p := fun C =>
    decide ((editsOnly C).suggest 1 1 "acb".toList [] = .ok ["abc".toList]) &&
    decide (∀ e ∈ C.dict.words.slots, Has e.2 C.opts.noSuggestFlag)) (by decide +kernel)
  simp only [Bool.and_eq_true, decide_eq_true_eq] at h2
  exact ⟨editsOnly C, (loadChecker_reachable h1).1, h2.2, ⟨1, 1, h2.1⟩⟩

/-! ## C55–C57 The suggestions as a whole -/

/-- What happens after the tests at the beginning. -/
theorem suggests_inv {S : Suggester} {word : Str} {out r : List Str} (h : Suggests S word out r) :
    r = [] ∧ (word = [] ∨ 360 < (utf8 word).length) ∨
    word ≠ [] ∧ (utf8 word).length ≤ 360 ∧ ∃ N d, ∀ fuel, N ≤ fuel → S.suggestConverted fuel (S.suggestImpl fuel d)
      (S.C.aff.inputConversions.convert word) [] = .ok r := by
  obtain ⟨fuel, depth, h⟩ := h
  by_cases hl : 360 < (utf8 word).length
  · rw [C01_suggest_overlong S word hl out] at h
    simp only [Except.ok.injEq] at h
    exact .inl ⟨h.symm, .inr hl⟩
  have hN : ∀ f, fuel ≤ f → S.suggest f depth word out = .ok r :=
    fun f hf => (Suggester.suggest_le hf (Nat.le_refl _) word out).ok h
  unfold Suggester.suggest at h hN
  simp only [List.take_zero] at h hN
  have hb : ¬ byteLen word > maxWordLen := by unfold byteLen maxWordLen; omega
  rw [if_neg hb] at h
  simp only [if_neg hb] at hN
  cases depth with
  | zero => simp [Suggester.suggestImpl] at h
  | succ d =>
    by_cases hw : word = []
    · unfold Suggester.suggestImpl at h
      rw [if_pos hw] at h
      simp only [Except.ok.injEq] at h
      exact .inl ⟨h.symm, .inl hw⟩
    · refine .inr ⟨hw, by omega, fuel, d, fun f hf => ?_⟩
      have := hN f hf
      unfold Suggester.suggestImpl at this
      rwa [if_neg hw] at this

/-- `forceTitle` is about compounds which lack a capital. -/
theorem forceTitle_false {S : Suggester} {fuel : Nat} {w : Str} (h : ¬ LacksCapital S.C w) {b : Bool}
    (hb : S.forceTitle fuel w = .ok b) : b = false := by
  unfold Suggester.forceTitle at hb
  split at hb
  · rename_i hs
    rw [Run.map_eq_ok] at hb
    obtain ⟨o, ho, rfl⟩ := hb
    cases o with
    | none => rfl
    | some c => exact absurd ⟨by simpa [Option.isSome_iff_ne_none] using hs, fuel, c, ho⟩ h
  · simpa using hb.symm

/-- The structure of the suggestions for a word in lower case. -/
theorem suggests_lower {U : Unicode} {S : Suggester} (hD : Reachable U S.C.dict) {word w : Str} {out r : List Str}
    (h : Suggests S word out r) (hne : word ≠ []) (hlen : (utf8 word).length ≤ 360)
    (hw : S.C.aff.inputConversions.convert word = w) (hc : classifyCasing S.C.U w = .none)
    (hf : ¬ LacksCapital S.C w) : ∃ N d, ∀ fuel, N ≤ fuel →
    ∃ lo new dash, S.suggestLow fuel w [] = .ok lo ∧ (∀ t ∈ lo.2, Proposal S.C fuel w t) ∧
      (∀ t ∈ new, S.ngram = true ∧ Lookalike S.C w t) ∧
      (∀ t, t ∈ dash ↔ '-' ∈ w ∧ (∀ s ∈ lo.2 ++ new, '-' ∉ s) ∧
        DashFix S.C fuel (fun part s => ∃ found, S.suggestImpl fuel d part [] = .ok found ∧ s ∈ found) w t) ∧
      r = (firsts [] (lo.2 ++ new ++ dash)).map S.C.aff.outputConversions.convert := by
  subst hw
  obtain ⟨rules, hr, -⟩ := (wellMade_reachable hD).reps
  rcases suggests_inv h with ⟨-, h | h⟩ | ⟨-, -, N, d, h⟩
  · exact absurd h hne
  · omega
  · refine ⟨N, d, fun fuel hfl => ?_⟩
    have hs := h fuel hfl
    have hft : S.forceTitle fuel (S.C.aff.inputConversions.convert word) = .ok false := by
      have := hs
      unfold Suggester.suggestConverted at this
      rw [hc] at this
      dsimp only at this
      rw [Run.bind_eq_ok] at this
      obtain ⟨b, hb, -⟩ := this
      rwa [forceTitle_false hf hb] at hb
    exact Suggester.lower_ok hr (wellMade_reachable hD).condsParsed hc hft hs

/-- Words which the lookup finds with some fuel are found with more. -/
theorem suggestable_more {C : Checker} {f f' : Nat} (hf : f ≤ f') {t : Str} (h : Suggestable C f t) :
    Suggestable C f' t := by
  obtain ⟨F, h1, h2⟩ := h
  exact ⟨F, (Checker.checkWord_le C hf _ _ _).ok h1, h2⟩

theorem spacedWords_more {C : Checker} {f f' : Nat} (hf : f ≤ f') {t : Str} (h : SpacedWords C f t) :
    SpacedWords C f' t := by
  obtain ⟨parts, last, h1, h2, h3, h4⟩ := h
  exact ⟨parts, last, h1, h2, h3, fun p hp => ⟨(h4 p hp).1, (h4 p hp).2.imp fun F hF =>
    (Checker.checkWord_le C hf _ _ _).ok hF⟩⟩

/-- **C55**: for a word in lower case every correction by one of the following edits is suggested (after
OCONV), whatever else is suggested: upper case; two neighbours swapped, or two pairs in words of four or five
characters; a neighbouring key or a capital; one character too many; a doubled pair; a REP replacement which
is a word or a sequence of words; the word split in two; an edit of the limited methods, or letters replaced
by similar ones for MAP groups of letters, if the number of attempts allowed for the word reaches for all of them. -/
theorem C55_found {U : Unicode} {S : Suggester} (hD : Reachable U S.C.dict) {word w : Str} {out r : List Str}
    (h : Suggests S word out r) (hne : word ≠ []) (hlen : (utf8 word).length ≤ 360)
    (hw : S.C.aff.inputConversions.convert word = w) (hc : classifyCasing S.C.U w = .none)
    (hf : ¬ LacksCapital S.C w) {t : Str} {fuel : Nat}
    (ht : Correction S.C fuel w t) : S.C.aff.outputConversions.convert t ∈ r := by
  obtain ⟨N, d, h⟩ := suggests_lower hD h hne hlen hw hc hf
  obtain ⟨rules, hr, -⟩ := (wellMade_reachable hD).reps
  obtain ⟨lo, new, dash, hlo, -, -, -, rfl⟩ := h (max N fuel) (Nat.le_max_left _ _)
  refine List.mem_map_of_mem (mem_firsts.mpr ⟨?_, by simp⟩)
  have hm := Nat.le_max_right N fuel
  have hl := Suggester.low_complete hr hlo t
  have : t ∈ lo.2 := by
    rcases ht with ⟨h1, h2⟩ | ⟨h1, h2⟩ | h1 | ⟨h0, h1, h2⟩ | ⟨h1, h2⟩
    · exact hl.1 h1 (suggestable_more hm h2)
    · exact hl.2.1 h1 (h2.imp (suggestable_more hm) (spacedWords_more hm))
    · exact hl.2.2.1 h1
    · exact hl.2.2.2 h0 h1 (suggestable_more hm h2)
    · exact Suggester.low_similar hr hlo h1 (suggestable_more hm h2)
  simp [this]

/-- **C55** (limited methods): so is every correction by swapping any two characters, inserting or replacing
a character by a TRY character, or moving a character, if the number of attempts allowed for the word reaches
`(n + k) * (n + 1)` for `n` characters of the word and `k` TRY characters. -/
theorem C55_found_limited {U : Unicode} {S : Suggester} (hD : Reachable U S.C.dict) {word w : Str} {out r : List Str}
    (h : Suggests S word out r) (hne : word ≠ []) (hlen : (utf8 word).length ≤ 360)
    (hw : S.C.aff.inputConversions.convert word = w) (hc : classifyCasing S.C.U w = .none)
    (hf : ¬ LacksCapital S.C w) {t : Str} {fuel : Nat}
    (hle : (w.length + S.C.aff.tryChars.length) * (w.length + 1) ≤ editBudget S.C w)
    (ht : LongEdit S.C w t) (hs : Suggestable S.C fuel t) : S.C.aff.outputConversions.convert t ∈ r := by
  obtain ⟨N, d, h⟩ := suggests_lower hD h hne hlen hw hc hf
  obtain ⟨rules, hr, -⟩ := (wellMade_reachable hD).reps
  obtain ⟨lo, new, dash, hlo, -, -, -, rfl⟩ := h (max N fuel) (Nat.le_max_left _ _)
  refine List.mem_map_of_mem (mem_firsts.mpr ⟨?_, by simp⟩)
  have : t ∈ lo.2 := (Suggester.low_complete hr hlo t).2.2.2 hle ht (suggestable_more (Nat.le_max_right N fuel) hs)
  simp [this]

/-- For dictionaries without compounds and with fewer than 20 prefixes and 20 suffixes the number of attempts
is 100000. -/
theorem C55_attempts {C : Checker} (w : Str) (hc : C.opts.allowsCompounding = false)
    (hp : C.aff.prefixes.table.length < 20) (hs : C.aff.suffixes.table.length < 20) : editBudget C w = 100000 := by
  unfold AffOptions.allowsCompounding at hc
  simp only [Bool.or_eq_false_iff, Option.isSome_eq_false_iff, Option.isNone_iff_eq_none] at hc
  unfold editBudget lookupCost
  rw [Nat.div_eq_of_lt hp, Nat.div_eq_of_lt hs]
  simp [hc]

/-- **C56**: for a word with an initial capital, or all in capitals, every suggestion is a text accepted by
`check`, or contains a space; to these OCONV is applied. -/
theorem C56_rechecked {S : Suggester} {word : Str} {out r : List Str} (h : Suggests S word out r)
    (hc : classifyCasing S.C.U (S.C.aff.inputConversions.convert word) = .init ∨
      classifyCasing S.C.U (S.C.aff.inputConversions.convert word) = .all) :
    ∃ texts : List Str, r = texts.map S.C.aff.outputConversions.convert ∧ texts.Nodup ∧
      ∀ t ∈ texts, ' ' ∈ t ∨ Accepts S.C t := by
  rcases suggests_inv h with ⟨rfl, -⟩ | ⟨-, -, N, d, h⟩
  · exact ⟨[], by simp⟩
  rcases Suggester.suggestConverted_ok (h N (Nat.le_refl _)) with ⟨h1, -⟩ | ⟨b, h1⟩
  · rw [h1] at hc; simp at hc
  · obtain ⟨o1, o2, h2, h3, rfl⟩ := Suggester.finish_ok h1
    refine ⟨firsts [] o2, rfl, firsts_nodup _ _, fun t ht => ?_⟩
    rw [mem_firsts] at ht
    unfold Suggester.retained at h3
    rw [if_pos hc] at h3
    exact (Suggester.recheckAll_ok h3 t ht.1).1.imp id fun h => ⟨N, h⟩

/-- **C57**: for a word in lower case there are three kinds of suggestions, in this order and without
duplicates, to which OCONV is applied: proposals (C40); if similarity is on, forms of listed entries which
are allowed in suggestions; and, only for words with a dash and if there is no suggestion with a dash yet, all
texts in which one incorrect part is replaced by a suggestion for it, unless they are forbidden. -/
theorem C57_kinds {U : Unicode} {S : Suggester} (hD : Reachable U S.C.dict) {word w : Str} {out r : List Str}
    (h : Suggests S word out r) (hne : word ≠ []) (hlen : (utf8 word).length ≤ 360)
    (hw : S.C.aff.inputConversions.convert word = w) (hc : classifyCasing S.C.U w = .none)
    (hf : ¬ LacksCapital S.C w) : ∃ (fuel depth : Nat) (prop similar dash : List Str),
      (∀ t ∈ prop, Proposal S.C fuel w t) ∧ (∀ t ∈ similar, S.ngram = true ∧ Lookalike S.C w t) ∧
      (∀ t, t ∈ dash ↔ '-' ∈ w ∧ (∀ s ∈ prop ++ similar, '-' ∉ s) ∧
        DashFix S.C fuel (fun part s => ∃ found, S.suggestImpl fuel depth part [] = .ok found ∧ s ∈ found) w t) ∧
      r = (firsts [] (prop ++ similar ++ dash)).map S.C.aff.outputConversions.convert := by
  obtain ⟨N, d, h⟩ := suggests_lower hD h hne hlen hw hc hf
  obtain ⟨lo, new, dash, -, h1, h2, h3, h4⟩ := h N (Nat.le_refl _)
  exact ⟨N, d, lo.2, new, dash, h1, h2, h3, h4⟩

/-- **C57** (FORCEUCASE): a compound in lower case which lacks a capital gets its title case as only
suggestion. -/
theorem C57_force_title {S : Suggester} {word w : Str} {out r : List Str}
    (h : Suggests S word out r) (hne : word ≠ []) (hlen : (utf8 word).length ≤ 360)
    (hw : S.C.aff.inputConversions.convert word = w) (hc : classifyCasing S.C.U w = .none)
    (hf : LacksCapital S.C w) : ∃ t, S.C.titlecase w = .ok t ∧ r = [t] := by
  subst hw
  obtain ⟨hs, f, c, hcc⟩ := hf
  rcases suggests_inv h with ⟨-, h | h⟩ | ⟨-, -, N, d, h⟩
  · exact absurd h hne
  · omega
  · have h := h (max N f) (Nat.le_max_left _ _)
    unfold Suggester.suggestConverted at h
    rw [hc] at h
    dsimp only at h
    have : S.forceTitle (max N f) (S.C.aff.inputConversions.convert word) = .ok true := by
      unfold Suggester.forceTitle
      rw [if_pos (by simpa [Option.isSome_iff_ne_none] using hs),
        (Checker.checkCompound_le S.C (Nat.le_max_right N f) _ _ _).ok hcc]
      rfl
    rw [this] at h
    have h : (S.C.titlecase (S.C.aff.inputConversions.convert word) >>= fun t => pure ([] ++ [t])) = .ok r := h
    rw [Run.bind_eq_ok] at h
    obtain ⟨t, ht, h⟩ := h
    rw [Run.pure_eq_ok] at h
    exact ⟨t, ht, by simpa using h.symm⟩

/-- The hypotheses of C55 and C57 hold of a word with a dash. -/
example : ∃ C, loadChecker "TRY abc\nREP 1\nREP f ph\n" "2\nphone\nfoo\n" = some C ∧
    Suggests (editsOnly C) "foo-fone".toList [] ["foo-phone".toList] ∧
    classifyCasing C.U (C.aff.inputConversions.convert "foo-fone".toList) = .none ∧
    ¬ LacksCapital C "foo-fone".toList ∧
    Suggests (editsOnly C) "fone".toList [] ["phone".toList] ∧
    Replaced C "fone".toList "phone".toList ∧ Suggestable C 1 "phone".toList ∧
    Suggests (editsOnly C) "Fone".toList [] ["Phone".toList] ∧
    Suggests (editsOnly C) "FONE".toList [] ["PHONE".toList] := by
  obtain ⟨C, h1, h2⟩ := of_load (aff := "TRY abc\nREP 1\nREP f ph\n") (dic := "2\nphone\nfoo\n")
    (L := .default) (p := fun C =>
      decide ((editsOnly C).suggest 1 2 "foo-fone".toList [] = .ok ["foo-phone".toList]) &&
      decide (classifyCasing C.U (C.aff.inputConversions.convert "foo-fone".toList) = .none) &&
      decide (C.opts.compoundForceUppercaseFlag = none) &&
      decide ((editsOnly C).suggest 1 1 "fone".toList [] = .ok ["phone".toList]) &&
      decide (("f".toList, "ph".toList) ∈ C.aff.replacements.anywhere ∧ 0 ∈ matchIndices "fone".toList "f".toList) &&
      decide (C.checkWord 1 "phone".toList .forbidBad .skip = .ok (some (FlagSet.ofList []))) &&
      decide (C.opts.forbiddenWordFlag ∉ (FlagSet.ofList []).elems) &&
      decide (C.opts.forbidWarn = false) &&
      decide ((editsOnly C).suggest 1 1 "Fone".toList [] = .ok ["Phone".toList]) &&
      decide ((editsOnly C).suggest 1 1 "FONE".toList [] = .ok ["PHONE".toList])) (by decide +kernel)
  simp only [Bool.and_eq_true, decide_eq_true_eq] at h2
  obtain ⟨⟨⟨⟨⟨⟨⟨⟨⟨a1, a2⟩, a3⟩, a4⟩, a5⟩, a6⟩, a7⟩, a8⟩, a9⟩, a10⟩ := h2
  exact ⟨C, h1, ⟨1, 2, a1⟩, a2, fun h => h.1 a3, ⟨1, 1, a4⟩,
    .inr (.inr (.inr ⟨"f".toList, "ph".toList, [], "one".toList, a5.1, by decide, a5.2, by decide⟩)),
    ⟨_, a6, a7, fun h => by rw [a8] at h; exact absurd h.1 (by simp)⟩, ⟨1, 1, a9⟩, ⟨1, 1, a10⟩⟩

/-- A compound of words with FORCEUCASE. -/
example : ∃ C, loadChecker "COMPOUNDFLAG C\nFORCEUCASE U\n" "2\nfoo/C\nbar/CU\n" = some C ∧
    LacksCapital C "foobar".toList ∧ Suggests (editsOnly C) "foobar".toList [] ["Foobar".toList] := by
  obtain ⟨C, h1, h2⟩ := of_load (aff := "COMPOUNDFLAG C\nFORCEUCASE U\n") (dic := "2\nfoo/C\nbar/CU\n")
    (L := .default) (p := fun C =>
      decide ((editsOnly C).suggest 5 2 "foobar".toList [] = .ok ["Foobar".toList]) &&
      decide (C.opts.compoundForceUppercaseFlag ≠ none) &&
      (match C.checkCompound 5 .atBegin "foobar".toList .allowBad with | .ok (some _) => true | _ => false))
    (by decide +kernel)
  simp only [Bool.and_eq_true, decide_eq_true_eq] at h2
  refine ⟨C, h1, ⟨h2.1.2, 5, ?_⟩, ⟨5, 2, h2.1.1⟩⟩
  have h3 := h2.2
  split at h3
  · rename_i c hc; exact ⟨c, hc⟩
  · cases h3

/-! ## C45 `suggest` never panics -/

/-- The lookup does not accept the empty text if no stem and no text added by an affix is empty. -/
theorem no_empty_word {U : Unicode} {C : Checker} (hD : Reachable U C.dict)
    (hs : ∀ e ∈ C.dict.words.slots, e.1 ≠ []) (ha : ∀ k, ∀ a ∈ tableOf C.dict k, a.add ≠ []) (hh : HiddenHomonym) :
    C.checkSimpleWord [] hh = none := by
  have made : ∀ {s steps w}, MadeBy C.dict s steps w → s ≠ [] → w ≠ [] := by
    intro s steps w h
    induction h with
    | nil => exact id
    | @cons k a s t w rest h1 h2 _ ih =>
      intro _
      apply ih
      rintro rfl
      have := ha k a h1
      cases k <;> simp_all [Applies, PrefixApplies, SuffixApplies]
  cases h : C.checkSimpleWord [] hh with
  | none => rfl
  | some F =>
    obtain ⟨stem, steps, h1, h2, -⟩ := C54_no_invented_words hD [] hh F h
    exact absurd rfl (made h2 (hs _ h1))

/-- Nor does the lookup of compounds. -/
theorem no_empty_suggestion {U : Unicode} {C : Checker} (hD : Reachable U C.dict)
    (he : C.checkSimpleWord [] .skip = none) (fuel : Nat) : ¬ Suggestable C fuel [] := by
  have hm : 0 < C.opts.minChars := (C54_well_made hD).2.1
  have hsp : splitPoints [] 0 C.opts.minChars = [] := by
    simp only [splitPoints, List.length_nil, List.filter_eq_nil_iff, List.mem_range, decide_eq_true_eq]
    omega
  rintro ⟨F, h, -⟩
  unfold Checker.checkWord at h
  rw [he] at h
  dsimp only at h
  rw [Run.map_eq_ok] at h
  obtain ⟨o, ho, hoF⟩ := h
  have : o = none := by
    unfold Checker.checkCompound at ho
    have hr : (if !C.aff.compoundRules.isEmpty then C.checkRules [] .forbidBad else .ok none) = .ok none := by
      split
      · simp [Checker.checkRules, Checker.checkRulesImpl, hsp, Run.first]
      · rfl
    rw [hr] at ho
    split at ho
    · cases fuel with
      | zero => simp [Checker.checkCompoundImpl, Run.or] at ho
      | succ n => simpa [Checker.checkCompoundImpl, hsp, Run.first, Run.or] using ho.symm
    · simpa [Run.or] using ho.symm
  subst this
  cases hoF

/-- The conversion of a text that is not empty is not empty. -/
theorem iconv_ne_nil {U : Unicode} {C : Checker} (hD : Reachable U C.dict) {w : Str} (hw : w ≠ []) :
    C.aff.inputConversions.convert w ≠ [] := by
  obtain ⟨lines, h1, h2⟩ := (wellMade_reachable hD).inConv
  obtain ⟨o, ho, hc⟩ := ConversionTable.convert?_spec (t := C.aff.inputConversions) h1 w
  rw [ConversionTable.convert?_eq, Option.some.injEq] at ho
  rw [ho]
  exact Converts.ne_nil h2 hc hw

/-- **C45** without similarity: on every dictionary which a program can hold, with the default checker,
`suggest` does not panic if the lookup does not accept the empty text. (`U.lower` and `U.upper` stand for
`char::to_lowercase` and `char::to_uppercase`, which always yield at least one character.) Missing:
similarity, for which see the next theorem; and dictionaries with an empty word, for which it is false
(`C45_empty_negation`). -/
theorem C45_edits_partial {U : Unicode} {S : Suggester} (hD : Reachable U S.C.dict)
    (h1 : S.C.checkLowerAsTitle = false) (h2 : S.C.checkLowerAsUpper = false)
    (hl : ∀ c, S.C.U.lower c ≠ []) (hu : ∀ c, S.C.U.upper c ≠ []) (hn : S.ngram = false)
    (he : S.C.checkSimpleWord [] .skip = none) (word : Str) (out : List Str) : ¬ SuggestPanics S word out := by
  obtain ⟨rules, hr, -⟩ := (wellMade_reachable hD).reps
  rintro ⟨fuel, depth, h⟩
  refine Suggester.suggest_safe (S := S) (B := fun _ => True) (B' := fun _ => True) ⟨h1, h2, ⟨rules, hr⟩, ?_, ?_, hl, hu, ?_, ?_⟩
    depth word out (fun _ => trivial) h
  · exact fun w hw _ => ⟨iconv_ne_nil hD hw, trivial⟩
  · exact fun _ _ _ _ _ _ => trivial
  · exact no_empty_suggestion hD he
  · intro h; rw [hn] at h; cases h

/-- A text converted with replacements which are at most `k` times as long as what they replace. -/
theorem converts_len {k : Nat} (hk : 1 ≤ k) {lines : List (Str × Str)}
    (hb : ∀ r ∈ lines, ∀ tail pat, ConvApplies r tail pat → (utf8 r.2).length ≤ k * (utf8 pat).length) {w out : Str}
    (h : Converts lines w out) : (utf8 out).length ≤ k * (utf8 w).length := by
  have app : ∀ a b : Str, (utf8 (a ++ b)).length = (utf8 a).length + (utf8 b).length := by
    intro a b; simp [utf8]
  induction h with
  | done => simp [utf8]
  | @copy c w out _ _ ih =>
    have h1 := app [c] w
    have h2 := app [c] out
    simp only [List.singleton_append] at h1 h2
    have := Nat.le_mul_of_pos_left (utf8 [c]).length hk
    rw [h1, h2, Nat.mul_add]
    omega
  | replace hm ha _ _ ih =>
    have := hb _ hm _ _ ha
    rw [app, app, Nat.mul_add]
    omega

/-- **C45** with similarity: `suggest` does not panic if there is no empty word, no word whose form or lower case
is longer than 65535 bytes, every prefix which fits a suffixed form of a stem fits the stem, and no ICONV line
makes a text more than `k` times longer, where either `k` is one or no line adds a dash (a part between dashes
is converted once more), and no word of 360 bytes grows beyond 65535 bytes this way. Missing: other ICONV lines,
for which it is false (`C45_iconv_long_negation`), and dictionaries without the other properties, for which it is
false, too (`C45_ngram_negation`). -/
theorem C45_similarity_partial {U : Unicode} {S : Suggester} (hD : Reachable U S.C.dict)
    (h1 : S.C.checkLowerAsTitle = false) (h2 : S.C.checkLowerAsUpper = false)
    (hl : ∀ c, S.C.U.lower c ≠ []) (hu : ∀ c, S.C.U.upper c ≠ [])
    (he : S.C.checkSimpleWord [] .skip = none) (hT : S.C.Tame) {lines : List (Str × Str)}
    (hi : SameConversions S.C.aff.inputConversions lines) {k : Nat} (hk : 1 ≤ k)
    (hb : ∀ r ∈ lines, ∀ tail pat, ConvApplies r tail pat → (utf8 r.2).length ≤ k * (utf8 pat).length)
    (hd : k = 1 ∨ ∀ r ∈ lines, '-' ∉ r.2) (hlong : k * (k * 360) ≤ 65535)
    (hlow : ∀ w, (utf8 w).length ≤ k * (k * 360) → (utf8 (S.C.lowercase w)).length ≤ 65535)
    (word : Str) (out : List Str) : ¬ SuggestPanics S word out := by
  obtain ⟨rules, hr, -⟩ := (wellMade_reachable hD).reps
  have hkk : k * 360 ≤ k * (k * 360) := Nat.le_mul_of_pos_left _ hk
  have hk1 : 360 ≤ k * 360 := Nat.le_mul_of_pos_left _ hk
  rintro ⟨fuel, depth, h⟩
  refine Suggester.suggest_safe (S := S) (B := fun w => byteLen w ≤ 360 ∨ '-' ∉ w ∧ byteLen w ≤ k * 360)
    (B' := fun w => byteLen w ≤ k * 360 ∨ '-' ∉ w ∧ byteLen w ≤ k * (k * 360))
    ⟨h1, h2, ⟨rules, hr⟩, ?_, ?_, hl, hu, ?_, ?_⟩ depth word out .inl h
  · intro w hw hB
    refine ⟨iconv_ne_nil hD hw, ?_⟩
    obtain ⟨o, ho, hc⟩ := ConversionTable.convert?_spec (t := S.C.aff.inputConversions) hi w
    rw [ConversionTable.convert?_eq, Option.some.injEq] at ho
    rw [ho]
    have hlen := converts_len hk hb hc
    rcases hB with hB | ⟨hB, hB'⟩
    · exact .inl (Nat.le_trans hlen (Nat.mul_le_mul_left k hB))
    · rcases hd with rfl | hd
      · exact .inl (by simp only [byteLen] at hB' ⊢; omega)
      · exact .inr ⟨hc.noDash hd hB, Nat.le_trans hlen (Nat.mul_le_mul_left k hB')⟩
  · rintro w hB hdash part ⟨a, b, rfl⟩ hp
    rcases hB with hB | ⟨hB, -⟩
    · refine .inr ⟨hp, ?_⟩
      simp only [byteLen, utf8, List.flatMap_append, List.length_append] at hB ⊢
      omega
    · exact absurd hdash hB
  · exact no_empty_suggestion hD he
  · intro _ w hw hB out hout
    have hB : byteLen w ≤ k * (k * 360) := by
      rcases hB with hB | ⟨-, hB⟩
      · exact Nat.le_trans hB hkk
      · exact hB
    exact ⟨Checker.ngramSuggest_safe hT (Nat.le_trans hB hlong) hout, Checker.ngramSuggest_safe hT (hlow w hB) hout⟩

theorem utf8Char_len (c : Char) : (utf8 [c]).length ≤ 4 ∧ 1 ≤ (utf8 [c]).length := by
  have := c.utf8Size_le_four
  have := c.utf8Size_pos
  simp [utf8]
  omega

/-- The lower case of a text takes at most four bytes for each of its characters, if that of a character
does. -/
theorem lowercase_len {U : Unicode} (hl : ∀ c, (utf8 (U.lower c)).length ≤ 4) (h : CaseHandling) (w : Str) :
    (utf8 (h.lowercase U w)).length ≤ 4 * (utf8 w).length := by
  have app : ∀ a b : Str, (utf8 (a ++ b)).length = (utf8 a).length + (utf8 b).length := by
    intro a b; simp [utf8]
  have chars : ∀ w : Str, w.length ≤ (utf8 w).length := by
    intro w
    induction w with
    | nil => simp
    | cons c w ih =>
      have := app [c] w
      have := (utf8Char_len c).2
      simp only [List.singleton_append, List.length_cons] at *
      omega
  have low : ∀ (w rev : Str), (utf8 (U.lowerStrFrom rev w)).length ≤ 4 * w.length := by
    intro w
    induction w with
    | nil => intro rev; simp [Unicode.lowerStrFrom, utf8]
    | cons c w ih =>
      intro rev
      rw [Unicode.lowerStrFrom, app, List.length_cons]
      have := ih (c :: rev)
      have : (utf8 (if c = 'Σ' then (if U.ignorableThenCased rev && !U.ignorableThenCased w then ['ς'] else ['σ'])
        else U.lower c)).length ≤ 4 := by
        split
        · split <;> decide
        · exact hl c
      omega
  have rep : ∀ (w : Str) (a b : Char), (replaceChar w a [b]).length = w.length := by
    intro w a b
    simp only [replaceChar]
    induction w with
    | nil => rfl
    | cons c w ih => simp only [List.flatMap_cons, List.length_append, ih]; split <;> simp <;> omega
  have h1 := chars w
  cases h with
  | standard => have := low w []; simp only [CaseHandling.lowercase, Unicode.lowerStr]; omega
  | turkic =>
    have := low (replaceChar (replaceChar w 'I' ['ı']) 'İ' ['i']) []
    rw [rep, rep] at this
    simp only [CaseHandling.lowercase, Unicode.lowerStr]; omega

/-- Simple conditions for the last theorem: stems and texts added by affixes are not empty and at most 8000
bytes long, the lower case of a character takes at most four bytes, and no prefix strips text, or no
suffix may be combined with a prefix. -/
theorem tame_of {U : Unicode} {C : Checker} (hD : Reachable U C.dict)
    (hs : ∀ e ∈ C.dict.words.slots, e.1 ≠ [] ∧ (utf8 e.1).length ≤ 8000)
    (ha : ∀ k, ∀ a ∈ tableOf C.dict k, a.add ≠ [] ∧ (utf8 a.add).length ≤ 8000)
    (hlow : ∀ c, (utf8 (C.U.lower c)).length ≤ 4)
    (hx : (∀ p ∈ tableOf C.dict .pfx, p.strip = none) ∨ (∀ s ∈ tableOf C.dict .sfx, s.crossproduct = false)) :
    C.Tame := by
  have hbl : ∀ w, byteLen w = (utf8 w).length := fun _ => rfl
  refine ⟨(wellMade_reachable hD).condsParsed, (wellMade_reachable hD).opts.diff, ?_, ?_, ?_⟩
  · intro e he
    have := (hs e he).2
    have := lowercase_len hlow C.opts.caseHandling e.1
    simp only [hbl, Checker.lowercase]
    omega
  · intro e he word form hform
    have hap : ∀ {k a}, a ∈ tableOf C.dict k → Applies k a e.1 form →
        form ≠ [] ∧ (utf8 form).length ≤ 16000 := by
      intro k a hm hap
      have h1 := ha k a hm
      have h2 := (hs e he).2
      cases k with
      | pfx =>
        obtain ⟨rest, h3, rfl⟩ := hap
        rw [h3] at h2
        simp only [utf8, List.flatMap_append, List.length_append, ne_eq, List.append_eq_nil_iff] at h1 h2 ⊢
        exact ⟨fun h => h1.1 h.1, by omega⟩
      | sfx =>
        obtain ⟨rest, h3, rfl⟩ := hap
        rw [h3] at h2
        simp only [utf8, List.flatMap_append, List.length_append, ne_eq, List.append_eq_nil_iff] at h1 h2 ⊢
        exact ⟨fun h => h1.1 h.2, by omega⟩
    have : form ≠ [] ∧ (utf8 form).length ≤ 16000 := by
      cases hform with
      | bare _ => exact ⟨(hs e he).1, by have := (hs e he).2; omega⟩
      | one cand _ applies => exact hap cand.mem applies
      | cross _ _ _ _ p _ _ applies => exact hap p.mem applies
    have hl := lowercase_len hlow C.opts.caseHandling form
    simp only [hbl, Checker.lowercase]
    exact ⟨this.1, by omega, by omega⟩
  · intro e he word s p mid mid' hcs _ _ hcr hcp _ _
    rcases hx with hx | hx
    · rw [hx p hcp.mem]; simp
    · rw [hx s hcs.mem] at hcr; cases hcr

/-- **C45** (termination): with a well-behaved dictionary, and if no ICONV replacement contains a dash, no
call of `suggest` recurses without end. Missing: the dictionaries for which `check` does not come to an end,
and ICONV with dashes, for which it is false (`C45_iconv_negation`). -/
theorem C45_terminates_partial {S : Suggester} (hS : S.C.dict.Shrinking) {lines : List (Str × Str)}
    (hi : SameConversions S.C.aff.inputConversions lines) (hd : ∀ r ∈ lines, '-' ∉ r.2) (word : Str)
    (out : List Str) : ¬ SuggestDiverges S word out := by
  intro h
  obtain ⟨r, N, hr, hN⟩ := Suggester.suggest_still (S := S) hS (fun w hw => by
    obtain ⟨o, ho, hc⟩ := ConversionTable.convert?_spec (t := S.C.aff.inputConversions) hi w
    rw [ConversionTable.convert?_eq, Option.some.injEq] at ho
    rw [ho]
    exact hc.noDash hd hw) 0 word out
  exact hr ((hN N (Nat.le_refl _)).symm.trans (h N _))

/-- **C45** (both): under the conditions of the last theorems `suggest` returns. -/
theorem C45_returns_partial {U : Unicode} {S : Suggester} (hD : Reachable U S.C.dict)
    (h1 : S.C.checkLowerAsTitle = false) (h2 : S.C.checkLowerAsUpper = false)
    (hl : ∀ c, S.C.U.lower c ≠ []) (hu : ∀ c, S.C.U.upper c ≠ []) (hn : S.ngram = false)
    (he : S.C.checkSimpleWord [] .skip = none) (hS : S.C.dict.Shrinking) {lines : List (Str × Str)}
    (hi : SameConversions S.C.aff.inputConversions lines) (hd : ∀ r ∈ lines, '-' ∉ r.2) (word : Str)
    (out : List Str) : ∃ r, Suggests S word out r := by
  rcases (C39_one_outcome S word out).1 with h | h | h
  · exact h
  · exact absurd h (C45_edits_partial hD h1 h2 hl hu hn he word out)
  · exact absurd h (C45_terminates_partial hS hi hd word out)

/-- **C45** (both, with similarity): `suggest` returns for every word, if the dictionary is well-behaved, has
no ICONV line which makes a text more than six times longer or adds a dash, no empty or extremely long texts, and no
prefix strips text or no suffix may be combined with a prefix. Missing: other dictionaries. -/
theorem C45_returns_similarity_partial {U : Unicode} {S : Suggester} (hD : Reachable U S.C.dict)
    (h1 : S.C.checkLowerAsTitle = false) (h2 : S.C.checkLowerAsUpper = false)
    (hl : ∀ c, S.C.U.lower c ≠ []) (hu : ∀ c, S.C.U.upper c ≠ [])
    (hs : ∀ e ∈ S.C.dict.words.slots, e.1 ≠ [] ∧ (utf8 e.1).length ≤ 8000)
    (ha : ∀ k, ∀ a ∈ tableOf S.C.dict k, a.add ≠ [] ∧ (utf8 a.add).length ≤ 8000)
    (hlow : ∀ c, (utf8 (S.C.U.lower c)).length ≤ 4)
    (hx : (∀ p ∈ tableOf S.C.dict .pfx, p.strip = none) ∨ (∀ s ∈ tableOf S.C.dict .sfx, s.crossproduct = false))
    (hS : S.C.dict.Shrinking) {lines : List (Str × Str)} (hi : SameConversions S.C.aff.inputConversions lines)
    (hb : ∀ r ∈ lines, ∀ tail pat, ConvApplies r tail pat → (utf8 r.2).length ≤ 6 * (utf8 pat).length)
    (hd : ∀ r ∈ lines, '-' ∉ r.2) (word : Str) (out : List Str) :
    ∃ r, Suggests S word out r := by
  rcases (C39_one_outcome S word out).1 with h | h | h
  · exact h
  · refine absurd h (C45_similarity_partial hD h1 h2 hl hu
      (no_empty_word hD (fun e he => (hs e he).1) (fun k a hm => (ha k a hm).1) _) (tame_of hD hs ha hlow hx) hi (k := 6) (by decide) hb (.inr hd)
      (by decide) (fun w hw => ?_) word out)
    have := lowercase_len hlow S.C.opts.caseHandling w
    unfold Checker.lowercase
    omega
  · exact absurd h (C45_terminates_partial hS hi hd word out)

/-- **C45** is false for dictionaries with an empty word: `b` with a suffix which strips the `b`, and the
unknown word `A`. The empty text is suggested and then capitalised. -/
theorem C45_empty_negation : ∃ S : Suggester, Reachable .sample S.C.dict ∧ S.C.checkLowerAsTitle = false ∧
    S.C.checkLowerAsUpper = false ∧ S.ngram = false ∧ SuggestPanics S "A".toList [] := by
  obtain ⟨C, h1, h2⟩ := of_load (aff := "SFX A Y 1\nSFX A b 0 b\n") (dic := "1\nb/A\n") (L := .default) (p := fun C =>
    decide ((editsOnly C).suggest 1 1 "A".toList [] = .error .panic)) (by decide +kernel)
  have := loadChecker_reachable h1
  exact ⟨editsOnly C, this.1, this.2.1, this.2.2.1, rfl, 1, 1, by simpa using h2⟩

/-- The same for an empty stem: the only character of the stem is ignored. -/
theorem C45_ignore_negation : ∃ S : Suggester, Reachable .sample S.C.dict ∧ S.C.checkLowerAsTitle = false ∧
    S.C.checkLowerAsUpper = false ∧ S.ngram = false ∧ SuggestPanics S "A".toList [] := by
  obtain ⟨C, h1, h2⟩ := of_load (aff := "IGNORE x\n") (dic := "1\nx\n") (L := .default) (p := fun C =>
    decide ((editsOnly C).suggest 1 1 "A".toList [] = .error .panic)) (by decide +kernel)
  have := loadChecker_reachable h1
  exact ⟨editsOnly C, this.1, this.2.1, this.2.2.1, rfl, 1, 1, by simpa using h2⟩

/-- **C45** is false with similarity: a prefix is applied to a stem which it does not fit, whatever the
word. -/
theorem C45_prefix_negation : ∃ S : Suggester, Reachable .sample S.C.dict ∧ S.C.checkLowerAsTitle = false ∧
    S.C.checkLowerAsUpper = false ∧ SuggestPanics S "xab".toList [] := by
  obtain ⟨C, h1, h2⟩ := of_load (aff := "PFX P Y 1\nPFX P a 0 a\nSFX A Y 1\nSFX A b ab b\n") (dic := "1\nb/AP\n")
    (L := .default) (p := fun C =>
      decide ((C.intoSuggester .sample).suggest 1 1 "xab".toList [] = .error .panic)) (by decide +kernel)
  have := loadChecker_reachable h1
  exact ⟨C.intoSuggester .sample, this.1, this.2.1, this.2.2.1, 1, 1, by simpa using h2⟩

/-- **C45** (termination) is false for ICONV with dashes: `a` becomes `a-a`, whose parts are `a`. -/
theorem C45_iconv_negation : ∃ S : Suggester, Reachable .sample S.C.dict ∧ S.C.checkLowerAsTitle = false ∧
    S.C.checkLowerAsUpper = false ∧ S.C.dict.Shrinking ∧ SuggestDiverges S "a".toList [] := by
  obtain ⟨C, h1, h2⟩ := of_load (aff := "ICONV 1\nICONV a a-a\n") (dic := "1\nfoo\n") (L := .default) (p := fun C =>
    decide ((editsOnly C).suggestLow 1 "a-a".toList [] = .ok (false, [])) &&
    decide (C.aff.inputConversions.convert "a".toList = "a-a".toList) &&
    decide (C.opts.compoundForceUppercaseFlag = none) && decide (C.check 1 "a".toList = .ok false) &&
    decide (0 < C.opts.minChars) && decide (C.opts.compoundSimplifiedTriple = false) &&
    C.aff.compoundPatterns.isEmpty) (by decide +kernel)
  simp only [Bool.and_eq_true, decide_eq_true_eq, List.isEmpty_iff] at h2
  obtain ⟨⟨⟨⟨⟨⟨a1, a2⟩, a3⟩, a4⟩, a5⟩, a6⟩, a7⟩ := h2
  have hl := loadChecker_reachable h1
  have key : ∀ depth fuel, 1 ≤ fuel → (editsOnly C).suggestImpl fuel depth "a".toList [] = .error .fuel := by
    intro depth
    induction depth with
    | zero => intro fuel _; rfl
    | succ d ih =>
      intro fuel hf
      unfold Suggester.suggestImpl
      rw [if_neg (by decide)]
      change (editsOnly C).suggestConverted fuel _ (C.aff.inputConversions.convert "a".toList) [] = _
      rw [a2]
      unfold Suggester.suggestConverted
      have hcas : classifyCasing (editsOnly C).C.U "a-a".toList = .none := by
        change classifyCasing C.U _ = _
        rw [hl.2.2.2]; decide
      rw [hcas]
      have hft : (editsOnly C).forceTitle fuel "a-a".toList = .ok false := by
        unfold Suggester.forceTitle
        rw [if_neg]
        change ¬ C.opts.compoundForceUppercaseFlag.isSome = true
        rw [a3]; simp
      have hlow : (editsOnly C).suggestLow fuel "a-a".toList [] = .ok (false, []) :=
        (Suggester.suggestLow_le hf _ _).ok a1
      have hchk : C.check fuel "a".toList = .ok false := (Checker.check_le C hf _).ok a4
      dsimp only
      rw [hft, hlow]
      change (editsOnly C).afterCasing fuel _ .none "a-a".toList (false, []) = _
      unfold Suggester.afterCasing
      have hng : (editsOnly C).ngramPart .none "a-a".toList false [] = .ok [] := by
        simp [Suggester.ngramPart, editsOnly]
      rw [hng]
      have hda : (editsOnly C).dashes fuel ((editsOnly C).suggestImpl fuel d) "a-a".toList [] = .error .fuel := by
        unfold Suggester.dashes
        rw [if_pos (by decide)]
        have : dashPieces [] [] "a-a".toList = [([], "a".toList, "-a".toList), ("a-".toList, "a".toList, [])] := by
          decide
        rw [this]
        simp only [List.foldlM_cons, Suggester.dashPart]
        change ((C.check fuel "a".toList >>= _) >>= _) = _
        rw [hchk]
        change ((_ >>= _) >>= _) = _
        rw [ih fuel hf]
        rfl
      change ((editsOnly C).dashes fuel _ "a-a".toList [] >>= _) = _
      rw [hda]
      rfl
  refine ⟨editsOnly C, hl.1, hl.2.1, hl.2.2.1, ⟨a5, ?_, ?_⟩, fun fuel depth => ?_⟩
  · intro h
    have : C.opts.compoundSimplifiedTriple = true := h
    rw [a6] at this; cases this
  · intro c hc
    have : c ∈ C.aff.compoundPatterns := hc
    rw [a7] at this; cases this
  · have h3 := key depth (max fuel 1) (Nat.le_max_right _ _)
    have h4 : (editsOnly C).suggest (max fuel 1) depth "a".toList [] = .error .fuel := by
      unfold Suggester.suggest
      rw [if_neg (by decide)]
      exact h3
    rcases Suggester.suggest_le (S := editsOnly C) (Nat.le_max_left fuel 1) (Nat.le_refl depth) "a".toList [] with h | h
    · exact h
    · rw [h, h4]

/-- ICONV lengthens `a` to 200 bytes. -/
def longIconvAff : Str := "ICONV 1\nICONV a ".toList ++ List.replicate 200 'b' ++ ['\n']

/-- A dictionary without words has no words. -/
theorem nothing_found {C : Checker} (hC : C.dict.CondsParsed) (hw : C.dict.words.slots = [])
    (hc : C.opts.allowsCompounding = false) (hr : C.aff.compoundRules.isEmpty = true) (fuel : Nat) (t : Str)
    (fc : Forceucase) (hh : HiddenHomonym) : C.checkWord fuel t fc hh = .ok none := by
  unfold Checker.checkWord
  have : C.checkSimpleWord t hh = none := by
    cases h : C.checkSimpleWord t hh with
    | none => rfl
    | some F =>
      obtain ⟨stem, steps, h, -⟩ := C05_no_invented_words C hC t hh F h
      rw [hw] at h; cases h
  rw [this]
  simp [Checker.checkCompound, hc, hr, Run.or]
  rfl

/-- A text of `a`s is converted letter by letter. -/
theorem converts_as {r : Str} : ∀ (n : Nat) (out : Str), Converts [(['a'], r)] (List.replicate n 'a') out →
    out = (List.replicate n r).flatten := by
  intro n
  induction n with
  | zero =>
    intro out h
    generalize hw : List.replicate 0 'a' = w at h
    cases h with
    | done => rfl
    | copy => cases hw
    | replace _ ha =>
      rw [List.replicate_zero, eq_comm, List.append_eq_nil_iff] at hw
      exact absurd hw.1 ha.1
  | succ n ih =>
    intro out h
    have happ : ConvApplies (['a'], r) ('a' :: List.replicate n 'a') ['a'] :=
      ⟨by simp, .inr ⟨by rintro ⟨p, hp⟩; simpa using congrArg List.getLast? hp, rfl, _, rfl⟩⟩
    generalize hw : List.replicate (n + 1) 'a' = w at h
    cases h with
    | done => cases hw
    | copy hno =>
      rw [List.replicate_succ] at hw
      cases hw
      exact absurd happ (hno _ (List.mem_singleton.2 rfl) _)
    | @replace line pat w out hm ha _ hc =>
      rw [List.mem_singleton] at hm
      subst hm
      rcases ha.2 with ⟨h, -⟩ | ⟨-, h, -⟩
      · exact absurd (congrArg List.getLast? h) (by simp)
      · subst h
        rw [List.replicate_succ] at hw
        cases hw
        rw [ih _ hc, List.replicate_succ, List.flatten_cons]

/-- **C45** is false with similarity: ICONV makes a word of 360 bytes longer than 65535 bytes. -/
theorem C45_iconv_long_negation : ∃ S : Suggester, Reachable .sample S.C.dict ∧ S.C.checkLowerAsTitle = false ∧
    S.C.checkLowerAsUpper = false ∧ ∃ word, byteLen word = 360 ∧ SuggestPanics S word [] := by
  obtain ⟨D, h1, h2⟩ := of_map (x := parse .sample .default longIconvAff "0\n".toList)
    (D := fun D => D.words.slots = [] ∧ D.aff.options.allowsCompounding = false ∧ D.aff.compoundRules.isEmpty = true ∧
      D.aff.inputConversions.inner = [Conversion.ofPair (['a'], List.replicate 200 'b')] ∧
      D.aff.options.maxNgramSuggestions ≠ 0 ∧ 0 < D.aff.options.minChars ∧ D.aff.options.compoundSimplifiedTriple = false ∧
      D.aff.compoundPatterns = [] ∧ D.aff.options.compoundForceUppercaseFlag = none) (by decide +kernel)
  obtain ⟨a1, a2, a3, a4, a5, a6, a7, a8, a9⟩ := of_decide_eq_true h2
  have hD : Reachable .sample D := .loaded h1
  let S : Suggester := ⟨⟨.sample, .default, D, false, false⟩, .sample, true⟩
  have hi : SameConversions S.C.aff.inputConversions [(['a'], List.replicate 200 'b')] := by
    change D.aff.inputConversions.inner.Perm _
    rw [a4]; exact List.Perm.refl _
  have hlen : ∀ n, byteLen (List.replicate n 'b') = n := by
    intro n
    induction n with
    | zero => rfl
    | succ n ih => rw [List.replicate_succ, byteLen_cons, ih]; exact Nat.add_comm _ _
  obtain ⟨w, hconv, hw, hb⟩ : ∃ w, S.C.aff.inputConversions.convert (List.replicate 360 'a') = w ∧
      65535 < byteLen w ∧ ∀ c ∈ w, c = 'b' := by
    obtain ⟨o, ho, hc⟩ := ConversionTable.convert?_spec (t := S.C.aff.inputConversions) hi (List.replicate 360 'a')
    rw [ConversionTable.convert?_eq, Option.some.injEq] at ho
    refine ⟨_, ho, ?_, ?_⟩
    · rw [converts_as _ _ hc, List.flatten_replicate_replicate, hlen]
      decide
    · rw [converts_as _ _ hc, List.flatten_replicate_replicate]
      exact fun c hc => List.eq_of_mem_replicate hc
  have hlen' : byteLen (List.replicate 360 'a') = 360 := by decide +kernel
  refine ⟨S, hD, rfl, rfl, List.replicate 360 'a', hlen', ?_⟩
  rcases (C39_one_outcome S (List.replicate 360 'a') []).1 with ⟨r, fuel, depth, h⟩ | h | h
  · exfalso
    have hnone := nothing_found (C := S.C) (wellMade_reachable hD).condsParsed a1 a2 a3 fuel
    unfold Suggester.suggest at h
    rw [if_neg (by rw [hlen']; decide)] at h
    cases depth with
    | zero => cases h
    | succ depth =>
    unfold Suggester.suggestImpl at h
    rw [if_neg (by simp), hconv] at h
    unfold Suggester.suggestConverted at h
    have hcas : classifyCasing S.C.U w = .none := by
      exact classifyCasing_iff.2 fun c hc => by rw [hb c hc]; rfl
    rw [hcas] at h
    have hft : S.forceTitle fuel w = .ok false := by
      unfold Suggester.forceTitle
      rw [if_neg]
      change ¬ D.aff.options.compoundForceUppercaseFlag.isSome = true
      rw [a9]; simp
    dsimp only at h
    rw [hft] at h
    replace h : (S.suggestLow fuel w (List.take 0 []) >>= fun r =>
      S.afterCasing fuel (S.suggestImpl fuel depth) .none w r) = .ok r := h
    rw [Run.bind_eq_ok] at h
    obtain ⟨⟨hq, out⟩, h3, h⟩ := h
    obtain ⟨rules, hr, -⟩ := (wellMade_reachable hD).reps
    have hns : ∀ t, ¬ Suggestable S.C fuel t := by
      rintro t ⟨F, hF, -⟩
      rw [hnone] at hF; cases hF
    have hq' : hq = false := by
      rw [← Bool.not_eq_true, (Suggester.suggestLow_ok hr h3).2]
      rintro (hg | ⟨-, F, hF⟩)
      · apply hg
        simp only [goodProposals, suggestables, repWords, hns, false_or, List.append_eq_nil_iff, List.filter_eq_nil_iff,
          decide_eq_true_eq, not_false_eq_true, implies_true, true_and, and_true]
        rintro t - ⟨parts, last, hp, -, -, hw⟩
        obtain ⟨p, hp⟩ := List.exists_mem_of_ne_nil _ hp
        obtain ⟨F, hF⟩ := (hw p hp).2
        rw [hnone] at hF; cases hF
      · rw [hnone] at hF; cases hF
    subst hq'
    unfold Suggester.afterCasing at h
    have hng : S.ngramPart .none w false out = .error .panic := by
      unfold Suggester.ngramPart
      have : (S.ngram && !false && S.C.opts.maxNgramSuggestions != 0) = true := by
        simpa [S] using a5
      rw [if_pos this, if_pos rfl]
      unfold Checker.ngramSuggest charsStr
      dsimp only
      rw [if_neg (by omega)]
      rfl
    rw [hng] at h
    cases h
  · exact h
  · refine absurd h (C45_terminates_partial (S := S) ⟨a6, ?_, ?_⟩ hi ?_ _ _)
    · intro h
      have : D.aff.options.compoundSimplifiedTriple = true := h
      rw [a7] at this; cases this
    · intro c hc
      have : c ∈ D.aff.compoundPatterns := hc
      rw [a8] at this; cases this
    · intro r hr
      rw [List.mem_singleton] at hr
      subst hr
      exact fun h => absurd (List.eq_of_mem_replicate h) (by decide)
theorem sample_lower (c : Char) : Unicode.sample.lower c ≠ [] := by
  simp only [Unicode.sample]; (repeat' split) <;> simp
theorem sample_upper (c : Char) : Unicode.sample.upper c ≠ [] := by
  simp only [Unicode.sample]; (repeat' split) <;> simp

theorem sample_lower_len (c : Char) : (utf8 (Unicode.sample.lower c)).length ≤ 4 := by
  simp only [Unicode.sample]
  split
  · decide
  split
  · decide
  · exact (utf8Char_len c.toLower).1

/-- The hypotheses hold of a dictionary with affixes and a dash in the word. -/
example : ∃ C, loadChecker "SFX A Y 1\nSFX A 0 s .\nPFX P Y 1\nPFX P 0 un .\n" "2\nfoo/AP\nbar\n" = some C ∧
    ∀ word out, ∃ r, Suggests (editsOnly C) word out r := by
  obtain ⟨C, h1, h2⟩ := of_load (aff := "SFX A Y 1\nSFX A 0 s .\nPFX P Y 1\nPFX P 0 un .\n")
    (dic := "2\nfoo/AP\nbar\n") (L := .default) (p := fun C =>
      decide (C.checkSimpleWord [] .skip = none) && C.aff.inputConversions.inner.isEmpty &&
      decide (0 < C.opts.minChars) && decide (C.opts.compoundSimplifiedTriple = false) &&
      C.aff.compoundPatterns.isEmpty) (by decide +kernel)
  simp only [Bool.and_eq_true, decide_eq_true_eq, List.isEmpty_iff] at h2
  obtain ⟨⟨⟨⟨a1, a2⟩, a3⟩, a4⟩, a5⟩ := h2
  have hl := loadChecker_reachable h1
  refine ⟨C, h1, fun word out => C45_returns_partial (S := editsOnly C) hl.1 hl.2.1 hl.2.2.1 ?_ ?_ rfl a1
    ⟨a3, ?_, ?_⟩ (lines := []) ?_ (by simp) word out⟩
  · change ∀ c, C.U.lower c ≠ []
    rw [hl.2.2.2]; exact sample_lower
  · change ∀ c, C.U.upper c ≠ []
    rw [hl.2.2.2]; exact sample_upper
  · intro h
    have : C.opts.compoundSimplifiedTriple = true := h
    rw [a4] at this; cases this
  · intro c hc
    have : c ∈ C.aff.compoundPatterns := hc
    rw [a5] at this; cases this
  · change C.aff.inputConversions.inner.Perm _
    rw [a2]; simp

/-- With similarity and ICONV. -/
example : ∃ C, loadChecker "ICONV 1\nICONV ’ '\nSFX A Y 1\nSFX A y ies y\nPFX P Y 1\nPFX P 0 un .\n" "2\nbody/AP\nbar\n" = some C ∧
    Suggests (C.intoSuggester .sample) "boddyies".toList [] ["bodies".toList] ∧
    ∀ word out, ∃ r, Suggests (C.intoSuggester .sample) word out r := by
  obtain ⟨C, h1, h2⟩ := of_load (aff := "ICONV 1\nICONV ’ '\nSFX A Y 1\nSFX A y ies y\nPFX P Y 1\nPFX P 0 un .\n")
    (dic := "2\nbody/AP\nbar\n") (L := .default) (p := fun C =>
      decide (C.aff.inputConversions.inner = [Conversion.ofPair ("’".toList, "'".toList)]) &&
      decide (0 < C.opts.minChars) && decide (C.opts.compoundSimplifiedTriple = false) &&
      C.aff.compoundPatterns.isEmpty &&
      (C.dict.words.slots.all fun e => !e.1.isEmpty && decide ((utf8 e.1).length ≤ 8000)) &&
      (C.aff.prefixes.table.all fun a => !a.add.isEmpty && decide ((utf8 a.add).length ≤ 8000) && a.strip.isNone) &&
      (C.aff.suffixes.table.all fun a => !a.add.isEmpty && decide ((utf8 a.add).length ≤ 8000)) &&
      decide ((C.intoSuggester .sample).suggest 1 1 "boddyies".toList [] = .ok ["bodies".toList]))
    (by decide +kernel)
  simp only [Bool.and_eq_true, decide_eq_true_eq, List.isEmpty_iff, List.all_eq_true, Bool.not_eq_true',
    List.isEmpty_eq_false_iff, Option.isNone_iff_eq_none] at h2
  obtain ⟨⟨⟨⟨⟨⟨⟨a2, a3⟩, a4⟩, a5⟩, a6⟩, a7⟩, a8⟩, a9⟩ := h2
  have hl := loadChecker_reachable h1
  refine ⟨C, h1, ⟨1, 1, a9⟩, fun word out => C45_returns_similarity_partial (S := C.intoSuggester .sample)
    hl.1 hl.2.1 hl.2.2.1 ?_ ?_ a6 ?_ ?_ (.inl fun p hp => (a7 p hp).2) ⟨a3, ?_, ?_⟩
    (lines := [("’".toList, "'".toList)]) ?_ ?_ (by decide) word out⟩
  · change ∀ c, C.U.lower c ≠ []
    rw [hl.2.2.2]; exact sample_lower
  · change ∀ c, C.U.upper c ≠ []
    rw [hl.2.2.2]; exact sample_upper
  · intro k a hm
    cases k with
    | pfx => exact (a7 a hm).1
    | sfx => exact a8 a hm
  · change ∀ c, (utf8 (C.U.lower c)).length ≤ 4
    rw [hl.2.2.2]; exact sample_lower_len
  · intro h
    have : C.opts.compoundSimplifiedTriple = true := h
    rw [a4] at this; cases this
  · intro c hc
    have : c ∈ C.aff.compoundPatterns := hc
    rw [a5] at this; cases this
  · change C.aff.inputConversions.inner.Perm _
    rw [a2]; exact List.Perm.refl _
  · intro r hr tail pat ha
    rw [List.mem_singleton] at hr
    subst hr
    rcases ha.2 with ha | ⟨-, ha, -⟩
    · exact absurd (congrArg List.getLast? ha.1) (by simp)
    · subst ha; decide +kernel

end Spellbook.Props
