import Verif.Proof.PlaceList
import Verif.Props.FormList
/-!
# C101 A list of parts for certain places in compounds, from the text to the answer
-/

namespace Spellbook.Props
open Spec

variable {U : Unicode} {So : Sorts} {r : PlaceRules}

/-- What is found decides what is correct. -/
theorem placed_verdict {D : Dict} {L : Layout} {rules : List CompoundRule} {E Y : Str → Prop}
    (hA : MadeFrom { placeSettings r with compoundRules := rules } D.aff) (hC : D.CondsParsed)
    (hm : 0 < D.aff.options.minChars) (hS : D.Shrinking) (hF : Finds { U, L, dict := D } E Y) (w : Str) :
    (Accepts { U, L, dict := D } w ↔ CorrectBy U E Y w) ∧ (Rejects { U, L, dict := D } w ↔ ¬ CorrectBy U E Y w) := by
  have hk : Correct { U, L, dict := D } (Checker.choice { U, L, dict := D }) (Cx.breakPatterns {}) w
      (D.aff.inputConversions.convert w) ↔ CorrectBy U E Y w := by
    have hcv : D.aff.inputConversions.convert w = w := by
      obtain ⟨out, k1, k2⟩ := C20_conversion [] _ hA.input w
      unfold ConversionTable.convert
      rw [k1, converts_nil k2]
      rfl
    rw [hcv]
    have hb : ∀ t, Breaks (Cx.breakPatterns {}) (WordVerdict { U, L, dict := D } (Checker.choice { U, L, dict := D })) 9 t ↔
        DashedBy (KnownBy U E Y) 9 t :=
      fun t => dashedBy_breaks fun w => hF.verdict rfl rfl w
    have hig : D.aff.ignoreChars = [] := hA.ignore
    unfold Correct CorrectBy
    simp only [hb, hig, List.not_mem_nil, not_false_eq_true, decide_true, List.filter_true]
    refine and_congr_right fun _ => or_congr_right ⟨?_, ?_⟩
    · rintro ⟨t, n, rfl, h1, h | h | ⟨-, h⟩⟩
      · exact ⟨t, n, rfl, h1, .inl h⟩
      · exact ⟨t, n, rfl, h1, .inr (.inl h)⟩
      · exact ⟨t, n, rfl, h1, .inr (.inr h)⟩
    · rintro ⟨t, n, rfl, h1, h | h | h⟩
      · exact ⟨t, n, rfl, h1, .inl h⟩
      · exact ⟨t, n, rfl, h1, .inr (.inl h)⟩
      · cases n with
        | zero => exact ⟨t, 0, rfl, h1, .inr (.inl (by simpa using h))⟩
        | succ n => exact ⟨t, n + 1, rfl, h1, .inr (.inr ⟨by omega, h⟩)⟩
  have hacc : Accepts { U, L, dict := D } w ↔ CorrectBy U E Y w := by
    rw [← hk, correct_prepared hC hm rfl rfl]
    exact C51_preparation _ _ hA.breaks hS rfl rfl w
  refine ⟨hacc, ?_⟩
  rw [← hacc]
  exact ⟨fun hr ha => (C26_one_outcome _ w).2.1 ⟨ha, hr⟩,
    fun hn => (C26_default_decides_partial _ hS rfl rfl w).resolve_left hn⟩

/-- **C101**: an `.aff` text which says something about compounds (COMPOUNDFLAG, COMPOUNDBEGIN, COMPOUNDMIDDLE, COMPOUNDEND,
ONLYINCOMPOUND, COMPOUNDMIN, COMPOUNDWORDMAX, CHECKCOMPOUNDDUP, CHECKCOMPOUNDTRIPLE, CHECKCOMPOUNDCASE) and nothing else, and
a list of words with flags, none listed with two different sets of flags, make a dictionary. With it `check` answers true
exactly for the words which are correct by the list and the rules for compounds, and false exactly for the others. -/
theorem C101_place_list {aff number : Str} {words : List (Str × Str)}
    (ha : Settings U aff (placeSettings r)) (hon : ∀ c, r.only = some c → c.toNat < 256) (hn : PlainHeader U number)
    (hw : ∀ e ∈ words, PlainEntry U e.1 ∧ (∀ c ∈ e.2, LineFlag U c) ∧ (utf8 (formLine e)).length ≤ 65535)
    (ht : ∀ e ∈ words, HasTitle U e → (utf8 (titleForm U e.1)).length ≤ 65535)
    (hu : ∀ e ∈ words, ∀ e' ∈ words, e.1 = e'.1 → e.2 = e'.2) :
    ∃ D, parse U So aff (listText number (words.map formLine)) = .ok D ∧ ∀ (L : Layout) (w : Str),
      (Accepts { U, L, dict := D } w ↔ CorrectBy U (PlacedSo U r words) (Placed U r words) w) ∧
      (Rejects { U, L, dict := D } w ↔ ¬ CorrectBy U (PlacedSo U r words) (Placed U r words) w) := by
  obtain ⟨D, hp, hA, hs⟩ := listed_parse (So := So) ⟨rfl, rfl, rfl, fun _ => form_hasTwin rfl, rfl⟩ ha hn hw ht
  refine ⟨D, hp, fun L w => ?_⟩
  obtain ⟨hC, hm, -⟩ := C54_well_made (U := U) (.loaded hp)
  have ho : D.aff.options.minChars = r.min.getD 3 := by rw [hA.options]; rfl
  have hD : PlaceDict { U, L, dict := D } r [] words :=
    ⟨hA, hs, fun e he => (hw e he).2.1, hu, hon, hC, by rw [← ho]; exact hm⟩
  exact placed_verdict hA hC hm hD.shrinking (hD.finds rfl) w

/-! ## Consequences -/

/-- The rules allow at least as much: the flags are the same, and the limits are not stricter. -/
structure Milder (r r' : PlaceRules) : Prop where
  any : r'.any = r.any
  first : r'.first = r.first
  middle : r'.middle = r.middle
  last : r'.last = r.last
  only : r'.only = r.only
  min : r'.min.getD 3 ≤ r.min.getD 3
  max : ∀ n', r'.max = some n' → ∃ n, r.max = some n ∧ n ≤ n'
  dup : r'.dup = true → r.dup = true
  triple : r'.triple = true → r.triple = true
  capital : r'.capital = true → r.capital = true

theorem PlacedParts.mono {r' : PlaceRules} (h : Milder r r') {words words' parts : List (Str × Str)} (hw : words ⊆ words')
    (hp : PlacedParts U r words parts) : PlacedParts U r' words' parts where
  atLeastTwo := hp.atLeastTwo
  listed e he := hw (hp.listed e he)
  long e he := h.min.trans (hp.long e he)
  begins e l hl := by unfold FlagsAllow; rw [h.any, h.first]; exact hp.begins e l hl
  inside l e l' hl h1 h2 := by unfold FlagsAllow; rw [h.any, h.middle]; exact hp.inside l e l' hl h1 h2
  ends l e hl := by unfold FlagsAllow; rw [h.any, h.last]; exact hp.ends l e hl
  notTooMany n' hn' := by
    obtain ⟨n, hn, hle⟩ := h.max n' hn'
    exact (hp.notTooMany n hn).trans hle
  notDouble hd := hp.notDouble (h.dup hd)
  notTriple hd := hp.notTriple (h.triple hd)
  notCapital hd := hp.notCapital (h.capital hd)

/-- **C101** (more words, milder limits): more words of the list, a smaller COMPOUNDMIN, a larger COMPOUNDWORDMAX and fewer
checks make no correct word wrong. -/
theorem C101_more {r' : PlaceRules} (h : Milder r r') {words words' : List (Str × Str)} (hw : words ⊆ words') {w : Str}
    (hc : CorrectBy U (PlacedSo U r words) (Placed U r words) w) :
    CorrectBy U (PlacedSo U r' words') (Placed U r' words') w := by
  have hal : ∀ fl, StandsAlone r fl → StandsAlone r' fl := fun fl hs c hc' => hs c (by rw [← h.only]; exact hc')
  have hso : ∀ s, PlacedSo U r words s → PlacedSo U r' words' s := fun s hs =>
    hs.imp (fun ⟨e, he, k, k'⟩ => ⟨e, hw he, hal _ k, k'⟩) fun ⟨parts, k, k'⟩ => ⟨parts, PlacedParts.mono h hw k, k'⟩
  exact CorrectBy.mono hso (fun s hs => hs.imp (hso s) fun ⟨e, he, k1, k2, k3⟩ => ⟨e, hw he, k1, hal _ k2, k3⟩) hc

/-- **C101** (only COMPOUNDFLAG): with COMPOUNDFLAG and COMPOUNDMIN alone these are the compounds of C99. -/
theorem C101_any_place {x : Char} {min : Option Nat} {words : List (Str × Str)} {w : Str} :
    OfPlaced U { any := some x, min } words w ↔
      OfParts (words.map fun e => (e.1, decide (x ∈ e.2))) (min.getD 3) w := by
  have hall : ∀ fl : Str, FlagsAllow { any := some x, min } none fl ↔ x ∈ fl := by
    intro fl
    constructor
    · rintro ⟨c, hc, h | h⟩ <;> cases h
      exact hc
    · exact fun h => ⟨x, h, .inl rfl⟩
  constructor
  · rintro ⟨parts, hp, rfl⟩
    refine ⟨parts.map Prod.fst, by rw [List.length_map]; exact hp.atLeastTwo, rfl, fun t ht => ?_⟩
    obtain ⟨e, he, rfl⟩ := List.mem_map.1 ht
    refine ⟨List.mem_map.2 ⟨e, hp.listed e he, ?_⟩, hp.long e he⟩
    have : x ∈ e.2 := by
      obtain ⟨l, l', hl⟩ := List.append_of_mem he
      rw [← hall]
      cases l with
      | nil => exact hp.begins e l' hl
      | cons a l =>
        cases l' with
        | nil => exact hp.ends _ e hl
        | cons b l' => exact hp.inside _ e _ hl (by simp) (by simp)
    simp [this]
  · rintro ⟨parts, h2, rfl, hp⟩
    have hex : ∃ es : List (Str × Str), es.map Prod.fst = parts ∧ ∀ e ∈ es, e ∈ words ∧ x ∈ e.2 ∧ min.getD 3 ≤ e.1.length := by
      clear h2
      induction parts with
      | nil => exact ⟨[], rfl, fun _ h => by cases h⟩
      | cons t ts ih =>
        obtain ⟨es, h1, h3⟩ := ih fun q hq => hp q (by simp [hq])
        obtain ⟨k1, k2⟩ := hp t (by simp)
        obtain ⟨e, he, k3⟩ := List.mem_map.1 k1
        simp only [Prod.mk.injEq, decide_eq_true_eq] at k3
        refine ⟨e :: es, by simp [h1, k3.1], fun y hy => ?_⟩
        rcases List.mem_cons.1 hy with rfl | hy
        · exact ⟨he, k3.2, k3.1 ▸ k2⟩
        · exact h3 y hy
    obtain ⟨es, rfl, hes⟩ := hex
    refine ⟨es, ⟨by simpa using h2, fun e he => (hes e he).1, fun e he => (hes e he).2.2, ?_, ?_, ?_, ?_, ?_, ?_, ?_⟩, rfl⟩
    · rintro e l rfl; exact (hall _).2 (hes e (by simp)).2.1
    · rintro l e l' rfl - -; exact (hall _).2 (hes e (by simp)).2.1
    · rintro l e rfl; exact (hall _).2 (hes e (by simp)).2.1
    · intro n hn; cases hn
    all_goals intro hn; cases hn

/-! ## A case which meets the hypotheses -/

/-- Rules of all kinds. -/
def placeAff : Str :=
  "COMPOUNDBEGIN B\nCOMPOUNDMIDDLE M\nCOMPOUNDEND E\nONLYINCOMPOUND O\nCOMPOUNDMIN 2\nCOMPOUNDWORDMAX 3\nCHECKCOMPOUNDDUP\nCHECKCOMPOUNDTRIPLE\nCHECKCOMPOUNDCASE\n".toList

/-- What they say. -/
def placeRules : PlaceRules :=
  { first := some 'B', middle := some 'M', last := some 'E', only := some 'O', min := some 2, max := some 3, dup := true,
    triple := true, capital := true }

/-- Words for the places, one of them never alone. -/
def placeWords : List (Str × Str) :=
  [("haus".toList, "BE".toList), ("ums".toList, "MO".toList), ("tor".toList, "BME".toList), ("ist".toList, [])]

theorem placeAff_settings : Settings .sample placeAff (placeSettings placeRules) := by
  obtain ⟨cx, h, k⟩ := ok_of_map (x := parseAff .sample placeAff)
    (p := fun cx : Cx => decide (cx.options = (placeSettings placeRules).options) && decide (cx.flagType = .short) &&
      cx.flagAliases.isEmpty && cx.replacements.isEmpty && cx.similarities.isEmpty && cx.inputConversions.isEmpty &&
      cx.outputConversions.isEmpty && decide (cx.breakPatterns = [['^', '-'], ['-'], ['-', '$']]) &&
      cx.compoundSyllableVowels.isEmpty && cx.ignoreChars.isEmpty && cx.tryChars.isEmpty && cx.keyboardCloseness.isEmpty &&
      cx.prefixes.isEmpty && cx.suffixes.isEmpty && cx.compoundRules.isEmpty && cx.compoundPatterns.isEmpty)
    (by decide +kernel)
  refine ⟨_, content_iff.2 rfl, parseAff_iff.1 (h.trans (congrArg _ ?_))⟩
  simp only [Bool.and_eq_true, decide_eq_true_eq, List.isEmpty_iff] at k
  obtain ⟨⟨⟨⟨⟨⟨⟨⟨⟨⟨⟨⟨⟨⟨⟨k1, k2⟩, k3⟩, k4⟩, k5⟩, k6⟩, k7⟩, k8⟩, k9⟩, k10⟩, k11⟩, k12⟩, k13⟩, k14⟩, k15⟩, k16⟩ := k
  cases cx
  subst k1 k2 k3 k4 k5 k6 k7 k8 k9 k10 k11 k12 k13 k14 k15 k16
  rfl

theorem placeWords_entries : ∀ e ∈ placeWords, PlainEntry .sample e.1 ∧ (∀ c ∈ e.2, LineFlag .sample c) ∧
    (utf8 (formLine e)).length ≤ 65535 := by
  have : ∀ e ∈ placeWords, (e.1 ≠ [] ∧ (utf8 e.1).length ≤ 65535 ∧
      ∀ c ∈ e.1, Unicode.sample.isWs c = false ∧ c ∉ ['\n', '\r', '\t', ' ', '/', '\\', '#']) ∧
      (∀ c ∈ e.2, 0 < c.toNat ∧ c.toNat < 128 ∧ Unicode.sample.isWs c = false ∧ c ∉ ['\n', '\r', '#']) ∧
      (utf8 (formLine e)).length ≤ 65535 := by decide +kernel
  exact this

theorem placeWords_titles : ∀ e ∈ placeWords, HasTitle .sample e → (utf8 (titleForm .sample e.1)).length ≤ 65535 := by
  have : ∀ e ∈ placeWords, (utf8 (titleForm .sample e.1)).length ≤ 65535 := by decide +kernel
  exact fun e he _ => this e he

theorem placeWords_dic : listText "4".toList (placeWords.map formLine) = "4\nhaus/BE\nums/MO\ntor/BME\nist\n".toList := by
  decide +kernel

/-- The dictionary of this list accepts compounds with the parts at their places. It rejects a part at a wrong place, a part
which never stands alone, too many parts and doubled parts. -/
example : ∃ D, parse .sample .default placeAff "4\nhaus/BE\nums/MO\ntor/BME\nist\n".toList = .ok D ∧
    Accepts { U := .sample, L := .default, dict := D } "Hausumstor".toList ∧
    Rejects { U := .sample, L := .default, dict := D } "umshaus".toList ∧
    Rejects { U := .sample, L := .default, dict := D } "ums".toList ∧
    Rejects { U := .sample, L := .default, dict := D } "hausumstorhaus".toList ∧
    ¬ CorrectBy .sample (PlacedSo .sample placeRules placeWords) (Placed .sample placeRules placeWords) "haushaus".toList ∧
    CorrectBy .sample (PlacedSo .sample placeRules placeWords) (Placed .sample placeRules placeWords) "torumshaus.".toList := by
  obtain ⟨D, hp, h⟩ := C101_place_list (So := .default) placeAff_settings
    (fun c hc => by cases hc; decide) (number := "4".toList)
      ⟨⟨"4".toList, [], 4, by decide +kernel, usize_ok.1 (by decide +kernel)⟩, by decide +kernel⟩ placeWords_entries
      placeWords_titles (by decide +kernel)
  rw [placeWords_dic] at hp
  obtain ⟨D', hp', hk⟩ := of_map (x := parse .sample .default placeAff "4\nhaus/BE\nums/MO\ntor/BME\nist\n".toList)
    (D := fun D =>
      decide (Checker.check { U := .sample, L := .default, dict := D } 30 "Hausumstor".toList = .ok true) &&
      decide (Checker.check { U := .sample, L := .default, dict := D } 30 "umshaus".toList = .ok false) &&
      decide (Checker.check { U := .sample, L := .default, dict := D } 30 "ums".toList = .ok false) &&
      decide (Checker.check { U := .sample, L := .default, dict := D } 30 "hausumstorhaus".toList = .ok false) &&
      decide (Checker.check { U := .sample, L := .default, dict := D } 30 "haushaus".toList = .ok false) &&
      decide (Checker.check { U := .sample, L := .default, dict := D } 30 "torumshaus.".toList = .ok true))
    (by decide +kernel)
  rw [hp] at hp'
  cases hp'
  simp only [Bool.and_eq_true, decide_eq_true_eq] at hk
  obtain ⟨⟨⟨⟨⟨k1, k2⟩, k3⟩, k4⟩, k5⟩, k6⟩ := hk
  exact ⟨D, hp, ⟨30, k1⟩, ⟨30, k2⟩, ⟨30, k3⟩, ⟨30, k4⟩, (h .default _).2.1 ⟨30, k5⟩, (h .default _).1.1 ⟨30, k6⟩⟩

end Spellbook.Props
