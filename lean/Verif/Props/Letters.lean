import Verif.Proof.Letters
import Verif.Props.Dictionary
/-!
# C71 Lower, upper, and title case
-/

namespace Spellbook.Props
open Spec

variable {U : Unicode} {h : CaseHandling}

/-- **C71** (lower case): `lowercase` turns every letter into its small form and a capital sigma into the form
for the end of words or the other one. In Turkic languages `I` becomes `ı` and `İ` becomes `i`. -/
theorem C71_lower (hU : h = .turkic → KnowsI U) {w t : Str} : h.lowercase U w = t ↔ SmallText U h [] w t := by
  have key : SmallText U h [] w (h.lowercase U w) := by
    cases h with
    | standard =>
      have := smallText_from (U := U) (h := .standard) (f := id) (fun _ => rfl) (fun _ => ⟨rfl, rfl⟩)
        (fun _ => Iff.rfl) w []
      rwa [List.map_nil, List.reverse_nil, List.map_id] at this
    | turkic =>
      have := smallText_from (U := U) (h := .turkic) (lower_undot (hU rfl)) (undot_cased (hU rfl))
        (fun _ => undot_sigma) w []
      rw [List.map_nil, List.reverse_nil, ← replace_undot] at this
      exact this
  constructor
  · rintro rfl
    exact key
  · exact fun ht => (smallText_unique key ht).symm

/-- **C71** (upper case): `uppercase` turns every letter into its capital form. In Turkic languages `i` becomes
`İ` and `ı` becomes `I`. -/
theorem C71_upper (hU : h = .turkic → KnowsI U) {w t : Str} : h.uppercase U w = t ↔ Each (Large U h) w t := by
  rw [each_iff (f := h.upperChar U) fun _ _ => capital_iff, eq_comm]
  suffices h.uppercase U w = w.flatMap (h.upperChar U) by rw [this]
  cases h with
  | standard => rfl
  | turkic =>
    unfold CaseHandling.uppercase Unicode.upperStr
    dsimp only
    rw [replace_dot, List.flatMap_map]
    congr 1
    exact funext (upper_dot (hU rfl))

/-- **C71** (title case): `titlecase` panics on the empty text only; otherwise the first letter becomes a
capital and all others small. -/
theorem C71_title {w t : Str} : h.titlecase U w = some t ↔ TitleText U h w t := by
  constructor
  · cases w with
    | nil => intro e; cases e
    | cons c s =>
      intro e
      cases e
      exact ⟨c, s, _, _, rfl, capital_iff.2 rfl, (each_iff (P := Small U h) (f := h.lowerChar U) fun _ _ => small_iff).2 rfl, rfl⟩
  · rintro ⟨c, s, p, q, rfl, hp, hq, rfl⟩
    rw [capital_iff.1 hp, (each_iff (P := Small U h) (f := h.lowerChar U) fun _ _ => small_iff).1 hq]
    rfl

theorem C71_title_panic {w : Str} : h.titlecase U w = none ↔ w = [] := by cases w <;> simp [CaseHandling.titlecase]

/-- **C71** (one letter): `lower_first_char` makes the first letter small and keeps the others. -/
theorem C71_lower_first {w t : Str} : h.lowerFirstChar U w = some t ↔
    ∃ c s p, w = c :: s ∧ Small U h c p ∧ t = p ++ s := by
  constructor
  · cases w with
    | nil => intro e; cases e
    | cons c s =>
      intro e
      cases e
      exact ⟨c, s, _, rfl, small_iff.2 rfl, rfl⟩
  · rintro ⟨c, s, p, rfl, hp, rfl⟩
    rw [small_iff.1 hp]
    rfl

/-- **C71** (one letter): `upper_char_at` makes the letter at the place a capital and keeps the others. -/
theorem C71_upper_at {w t : Str} {i : Nat} : h.upperCharAt U w i = some t ↔
    ∃ a c b p, w = a ++ c :: b ∧ a.length = i ∧ Large U h c p ∧ t = a ++ p ++ b := by
  unfold CaseHandling.upperCharAt
  constructor
  · intro e
    split at e
    · cases e
    · next c b hd =>
      cases e
      have hlt : i < w.length := by
        rcases Nat.lt_or_ge i w.length with hi | hi
        · exact hi
        · rw [List.drop_eq_nil_of_le hi] at hd; cases hd
      refine ⟨w.take i, c, b, _, ?_, ?_, capital_iff.2 rfl, rfl⟩
      · rw [← hd, List.take_append_drop]
      · rw [List.length_take]; omega
  · rintro ⟨a, c, b, p, rfl, rfl, hp, rfl⟩
    rw [List.drop_left, List.take_left, capital_iff.1 hp]

/-- **C71** (comparison): the first letter counts as the lower case of the second one if it is its small form,
or its small form in other languages. -/
theorem C71_same_letter {l r : Char} : h.isCharEqLowercase U l r = true ↔ Small U h r [l] ∨ U.lower r = [l] := same_iff

/-- **C71** (there and back): if every letter of a word is the small form of its own capital, its upper case
turned into lower case is the word again. -/
theorem C71_round_trip (hU : h = .turkic → KnowsI U) {w : Str}
    (hw : ∀ c ∈ w, ∃ d, Large U h c [d] ∧ Small U h d [c] ∧ d ≠ 'Σ') : h.lowercase U (h.uppercase U w) = w := by
  rw [C71_lower hU]
  have : ∀ before, ∃ u, Each (Large U h) w u ∧ SmallText U h before u w := by
    induction w with
    | nil => exact fun _ => ⟨[], .nil, .nil⟩
    | cons c w ih =>
      intro before
      obtain ⟨d, h1, h2, h3⟩ := hw c List.mem_cons_self
      obtain ⟨u, h4, h5⟩ := ih (fun c hc => hw c (List.mem_cons_of_mem _ hc)) (before ++ [d])
      exact ⟨d :: u, .cons (p := [d]) h1 h4, .letter (p := [c]) h3 h2 h5⟩
  obtain ⟨u, h1, h2⟩ := this []
  rw [(C71_upper hU).2 h1]
  exact h2

/-! ## Cases which meet the hypotheses -/

theorem sample_knowsI : KnowsI .sample :=
  ⟨⟨by decide +kernel, by decide +kernel⟩, ⟨by decide +kernel, by decide +kernel⟩, by decide +kernel⟩

-- in Turkic languages `ı` and `i` come back, elsewhere only `i` does
example : CaseHandling.turkic.lowercase .sample (CaseHandling.turkic.uppercase .sample "ılık i".toList) = "ılık i".toList ∧
    CaseHandling.turkic.uppercase .sample "ılık i".toList = "ILIK İ".toList ∧
    CaseHandling.standard.lowercase .sample (CaseHandling.standard.uppercase .sample "ılık i".toList) = "ilik i".toList := by
  decide +kernel

/-- The hypothesis of `C71_round_trip` for this word. -/
theorem round_trip_case : ∀ c ∈ "ılık".toList, ∃ d, Large .sample .turkic c [d] ∧ Small .sample .turkic d [c] ∧ d ≠ 'Σ' := by
  have : ∀ c ∈ "ılık".toList, ∃ d ∈ ['I', 'L', 'K'], [d] = CaseHandling.turkic.upperChar .sample c ∧
      [c] = CaseHandling.turkic.lowerChar .sample d ∧ d ≠ 'Σ' := by decide +kernel
  intro c hc
  obtain ⟨d, -, h1, h2, h3⟩ := this c hc
  exact ⟨d, capital_iff.2 h1, small_iff.2 h2, h3⟩

/-- `sample` with three Greek letters. -/
def greekSample : Unicode := { Unicode.sample with
  isUpper := fun c => Unicode.sample.isUpper c || c == 'Α' || c == 'Σ'
  isLower := fun c => Unicode.sample.isLower c || c == 'α' || c == 'σ' || c == 'ς'
  upper := fun c => if c = 'α' then ['Α'] else if c = 'σ' ∨ c = 'ς' then ['Σ'] else Unicode.sample.upper c
  lower := fun c => if c = 'Α' then ['α'] else if c = 'Σ' then ['σ'] else Unicode.sample.lower c
  cased := fun c => Unicode.sample.cased c || c == 'Α' || c == 'Σ' || c == 'α' || c == 'σ' || c == 'ς' }

-- the last sigma, one before a letter, and one by itself
example : CaseHandling.standard.lowercase greekSample "ΣΑΣ'. ΑΣ-Σ".toList = "σας'. ας-σ".toList := by decide +kernel

/-- **C71** (finding): title case does not know the sigma at the end of words, so the name `Ας` in a word list
is not found in capitals, although `ας` would be. -/
theorem C71_sigma_negation : ∃ D D', parse greekSample .default [] "1\nΑς\n".toList = .ok D ∧
    parse greekSample .default [] "1\nας\n".toList = .ok D' ∧
    CaseHandling.standard.uppercase greekSample "Ας".toList = "ΑΣ".toList ∧
    Accepts { U := greekSample, L := .default, dict := D } "Ας".toList ∧
    Rejects { U := greekSample, L := .default, dict := D } "ΑΣ".toList ∧
    Accepts { U := greekSample, L := .default, dict := D' } "ΑΣ".toList := by
  obtain ⟨D, hp, h1⟩ := of_map (x := parse greekSample .default [] "1\nΑς\n".toList)
    (D := fun D => decide (Checker.check { U := greekSample, L := .default, dict := D } 1 "Ας".toList = .ok true ∧
      Checker.check { U := greekSample, L := .default, dict := D } 1 "ΑΣ".toList = .ok false))
    (by decide +kernel)
  obtain ⟨D', hp', h2⟩ := of_map (x := parse greekSample .default [] "1\nας\n".toList)
    (D := fun D => decide (Checker.check { U := greekSample, L := .default, dict := D } 1 "ΑΣ".toList = .ok true))
    (by decide +kernel)
  have h1 := of_decide_eq_true h1
  exact ⟨D, D', hp, hp', by decide +kernel, ⟨1, h1.1⟩, ⟨1, h1.2⟩, ⟨1, of_decide_eq_true h2⟩⟩

end Spellbook.Props
