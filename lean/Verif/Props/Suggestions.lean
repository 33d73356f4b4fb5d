import Verif.Proof.SuggestionsAll
import Verif.Proof.SimilarPanics
/-!
# C68 Every outcome of `suggest`
-/

namespace Spellbook.Props
open Spec

variable {U : Unicode}

theorem sound_reachable {S : Suggester} {cx : Cx} (h : Reachable U S.C.dict) (hcx : MadeFrom cx S.C.dict.aff) :
    S.Sound cx.breakPatterns := by
  obtain ⟨hC, hm, -⟩ := C54_well_made h
  obtain ⟨rules, hr, -⟩ := (wellMade_reachable h).reps
  exact ⟨hC, hm, hcx.breaks, ⟨rules, hr⟩, fun w hw => iconv_ne_nil h hw⟩

theorem knowledge_fits {S : Suggester} {cx : Cx} (h : Reachable U S.C.dict) (hcx : MadeFrom cx S.C.dict.aff) :
    (S.knowledge cx.breakPatterns).Fits S cx := by
  obtain ⟨hC, hm, -⟩ := C54_well_made h
  have conv : ∀ (t : ConversionTable) (lines : List (Str × Str)), SameConversions t lines →
      ∀ w, Converts lines w (t.convert w) := by
    intro t lines ht w
    obtain ⟨out, h1, h2⟩ := C20_conversion lines t ht w
    unfold ConversionTable.convert
    rw [h1]
    exact h2
  have sim : ∀ w old new, (S.knowledge cx.breakPatterns).similar w old = .gives new →
      ∃ r, S.C.ngramSuggest S.H w old = .ok r ∧ new = r.drop old.length := by
    intro w old new he
    unfold Suggester.knowledge at he
    dsimp only at he
    cases hn : S.C.ngramSuggest S.H w old with
    | ok r =>
      rw [hn] at he
      cases he
      exact ⟨r, rfl, rfl⟩
    | error e =>
      rw [hn] at he
      cases he
  refine ⟨rfl, rfl, rfl, Checker.choice_fits hC, conv _ _ hcx.input, conv _ _ hcx.output, fun w old new he => ?_,
    fun w old new he => ?_, fun w old he => ?_⟩
  · obtain ⟨r, hr, rfl⟩ := sim w old new he
    obtain ⟨new, rfl, hb⟩ := Checker.ngramSuggest_similar hC hr
    rw [List.drop_left]
    exact hb
  · obtain ⟨r, hr, -⟩ := sim w old new he
    exact Checker.ngramSuggest_short hr
  · unfold Suggester.knowledge at he
    dsimp only at he
    cases hn : S.C.ngramSuggest S.H w old with
    | ok r =>
      rw [hn] at he
      cases he
    | error e =>
      cases e with
      | fuel => exact absurd hn (Checker.ngramSuggest_nf _ _)
      | panic => exact Checker.ngramSuggest_panics hC hn

/-- **C68**: with every dictionary that was loaded and changed by `add` and `remove_stem`, and with every
suggester, `suggest` returns the given suggestions, panics, or recurses without end exactly if the
specification says so, whatever was in the vector before. `cx` are the settings of the `.aff` text. -/
theorem C68_outcome {S : Suggester} {cx : Cx} (h : Reachable U S.C.dict) (hcx : MadeFrom cx S.C.dict.aff) :
    ∃ k : Knowledge, k.Fits S cx ∧ ∀ word out,
      (∀ r, Suggests S word out r ↔ Suggested k word (.gives r)) ∧
      (SuggestPanics S word out ↔ Suggested k word .panics) ∧
      (SuggestDiverges S word out ↔ ¬ ∃ o, Suggested k word o) := by
  refine ⟨S.knowledge cx.breakPatterns, knowledge_fits h hcx, fun word out => ?_⟩
  have key := Suggester.suggested_iff (sound_reachable h hcx) word out
  refine ⟨fun r => key (.gives r), key .panics, ?_, ?_⟩
  · rintro hd ⟨o, ho⟩
    obtain ⟨f, d, hf⟩ := (key o).2 ho
    have := (hd f d).symm.trans hf
    cases o <;> cases this
  · intro hn f d
    cases hf : S.suggest f d word out with
    | ok r => exact absurd ⟨.gives r, (key _).1 ⟨f, d, hf⟩⟩ hn
    | error e =>
      cases e with
      | fuel => rfl
      | panic => exact absurd ⟨.panics, (key _).1 ⟨f, d, hf⟩⟩ hn

/-- **C68**: at most one of them. -/
theorem C68_unique {S : Suggester} {cx : Cx} (h : Reachable U S.C.dict) (hcx : MadeFrom cx S.C.dict.aff) :
    ∃ k : Knowledge, k.Fits S cx ∧ (∀ word out r, Suggests S word out r ↔ Suggested k word (.gives r)) ∧
      ∀ word o o', Suggested k word o → Suggested k word o' → o = o' := by
  refine ⟨S.knowledge cx.breakPatterns, knowledge_fits h hcx, ?_, fun word o o' ho ho' => ?_⟩
  · exact fun word out r => Suggester.suggested_iff (sound_reachable h hcx) word out (.gives r)
  · have key := Suggester.suggested_iff (sound_reachable h hcx) word []
    obtain ⟨f, d, hf⟩ := (key o).2 ho
    obtain ⟨f', d', hf'⟩ := (key o').2 ho'
    have e1 := Suggester.suggest_le (S := S) (Nat.le_max_left f f') (Nat.le_max_left d d') word []
    have e2 := Suggester.suggest_le (S := S) (Nat.le_max_right f f') (Nat.le_max_right d d') word []
    have up : ∀ {a b : Run (List Str)} {o : Result (List Str)}, Run.Le a b → a = o.run → b = o.run := by
      intro a b o hle ha
      cases o with
      | gives r => exact hle.ok ha
      | panics => exact hle.panic ha
    have e := (up e1 hf).symm.trans (up e2 hf')
    cases o <;> cases o' <;> first | rfl | (cases e; rfl) | cases e

/-! Cases: all three outcomes occur. -/

/-- A dictionary which suggests: REP, a word to split, and words with dashes. -/
def outcomesAff : String := "REP 1\nREP f ph\nTRY abc\n"
def outcomesDic : String := "3\nphoto\nball\nfoot\n"

theorem settings_of {C : Checker} (hr : Reachable .sample C.dict) : ∃ cx, MadeFrom cx C.dict.aff := by
  obtain ⟨S, aff, dic, D₀, hp, ha⟩ := C54_aff_unchanged hr
  obtain ⟨cx, -, hcx⟩ := C53_settings hp
  rw [← ha] at hcx
  exact ⟨cx, hcx⟩

example : ∃ S : Suggester, Reachable .sample S.C.dict ∧ ∃ cx, MadeFrom cx S.C.dict.aff ∧ ∃ k : Knowledge, k.Fits S cx ∧
    Suggested k "foto".toList (.gives ["photo".toList, "foot".toList]) ∧
    Suggested k "FOTO".toList (.gives ["PHOTO".toList, "FOOT".toList]) ∧
    Suggested k "ball-foto".toList (.gives ["ball-photo".toList, "ball-foot".toList]) := by
  obtain ⟨C, h1, h2⟩ := of_load (aff := outcomesAff) (dic := outcomesDic) (L := .default)
    (p := fun C => decide ((editsOnly C).suggest 9 9 "foto".toList [] = .ok ["photo".toList, "foot".toList]) &&
      decide ((editsOnly C).suggest 9 9 "FOTO".toList [] = .ok ["PHOTO".toList, "FOOT".toList]) &&
      decide ((editsOnly C).suggest 9 9 "ball-foto".toList [] = .ok ["ball-photo".toList, "ball-foot".toList])) (by decide +kernel)
  obtain ⟨hr, -⟩ := loadChecker_reachable h1
  obtain ⟨cx, hcx⟩ := settings_of hr
  simp only [Bool.and_eq_true, decide_eq_true_eq] at h2
  obtain ⟨k, hk, h3⟩ := C68_outcome (S := editsOnly C) hr hcx
  exact ⟨editsOnly C, hr, cx, hcx, k, hk, ((h3 _ []).1 _).1 ⟨9, 9, h2.1.1⟩, ((h3 _ []).1 _).1 ⟨9, 9, h2.1.2⟩,
    ((h3 _ []).1 _).1 ⟨9, 9, h2.2⟩⟩

example : (∃ S : Suggester, Reachable .sample S.C.dict ∧ ∃ cx, MadeFrom cx S.C.dict.aff ∧ ∃ k : Knowledge, k.Fits S cx ∧
      Suggested k "A".toList .panics) ∧
    (∃ S : Suggester, Reachable .sample S.C.dict ∧ ∃ cx, MadeFrom cx S.C.dict.aff ∧ ∃ k : Knowledge, k.Fits S cx ∧
      ¬ ∃ o, Suggested k "a".toList o) := by
  constructor
  · obtain ⟨S, hr, -, -, -, hp⟩ := C45_empty_negation
    obtain ⟨cx, hcx⟩ := settings_of hr
    obtain ⟨k, hk, h3⟩ := C68_outcome hr hcx
    exact ⟨S, hr, cx, hcx, k, hk, (h3 _ []).2.1.1 hp⟩
  · obtain ⟨S, hr, -, -, -, hd⟩ := C45_iconv_negation
    obtain ⟨cx, hcx⟩ := settings_of hr
    obtain ⟨k, hk, h3⟩ := C68_outcome hr hcx
    exact ⟨S, hr, cx, hcx, k, hk, (h3 _ []).2.2.1 hd⟩

end Spellbook.Props
