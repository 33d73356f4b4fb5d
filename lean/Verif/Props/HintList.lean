import Verif.Spec.HintList
import Verif.Props.PrepList
import Verif.Props.Accepted
/-!
# C105 Suggestions from a list of words, from the text to the suggestions
-/

namespace Spellbook.Props
open Spec

variable {U : Unicode} {So : Sorts} {r : PrepRules}

theorem listKept_asIs (hr : TakenAsIs r) (words : List Str) : listKept r words = words := by
  unfold listKept
  rw [show lettersKept r = id from funext fun s => by unfold lettersKept; rw [hr.2.2]; simp, List.map_id]

theorem sameConversions_nil {T : ConversionTable} (h : SameConversions T []) : T = .empty := by
  obtain ⟨l, hl⟩ := T
  have : l = [] := List.Perm.eq_nil h
  subst this
  rfl

section
variable {words : List Str} {aff number : Str} {D : Dict} {L : Layout} {H : Heaps} {ngram : Bool}
  (hr : TakenAsIs r) (ha : Settings U aff (prepSettings r)) (hn : PlainHeader U number) (hw : ∀ w ∈ words, PlainEntry U w)
  (ht : ∀ w ∈ words, MixedCase U w → (utf8 (titleForm U w)).length ≤ 65535)
  (hD : parse U So aff (listText number words) = .ok D)
include hr ha hn hw ht hD

theorem hint_dict : PrepDict { U, L, dict := D } r words := by
  obtain ⟨D', hp, hA, hs⟩ := prep_parse (So := So) ha hn hw (by rw [listKept_asIs hr]; exact ht)
  rw [hD] at hp
  cases hp
  exact ⟨hA, hs, (C54_well_made (U := U) (.loaded hD)).1⟩

theorem hint_straight : Straight D := by
  have h := hint_dict (L := .default) hr ha hn hw ht hD
  refine ⟨sameConversions_nil ?_, sameConversions_nil ?_, ?_, fun stem F hm _ => (h.good hm).1⟩
  · rw [← hr.1]; exact h.made.input
  · rw [← hr.2.1]; exact h.made.output
  · have := h.options
    change D.aff.options = { checksharps := r.sharps } at this
    rw [this]

theorem hint_simple {v : Str} (hv : v ∈ words) : ∃ F, Checker.checkSimpleWord { U, L, dict := D } v .skip = some F := by
  have h := hint_dict (L := L) hr ha hn hw ht hD
  cases hc : Checker.checkSimpleWord { U, L, dict := D } v .skip with
  | some F => exact ⟨F, rfl⟩
  | none =>
    refine absurd ?_ ((C05_exact _ h.conds v .skip).2.1 hc)
    refine h.derives.2 ?_
    rw [listKept_asIs hr]
    exact hv

theorem hint_suggestable {v : Str} (hv : v ∈ words) : Suggestable { U, L, dict := D } 0 v := by
  have h := hint_dict (L := L) hr ha hn hw ht hD
  obtain ⟨F, hF⟩ := hint_simple (L := L) hr ha hn hw ht hD hv
  obtain ⟨stem, steps, hd⟩ := (C05_exact _ h.conds v .skip).1 F hF
  have hl : (stem, F) ∈ D.words.slots := by
    cases hd with
    | listed e => exact e.listed
    | one e => exact e.listed
    | pair e => exact e.listed
    | two e => exact e.listed
    | twoThenOne e => exact e.listed
    | sandwich e => exact e.listed
  obtain ⟨g1, g2⟩ := (h.good hl).1
  exact ⟨F, Checker.checkWord_simple hF _ _, g1, g2⟩

/-- **C105** (an end): `suggest` returns for every word, if no word of the list and no title form has more than 8000 bytes. Of
Unicode this needs that no character becomes empty in another case or has more than four bytes in lower case. -/
theorem C105_returns (hl : ∀ c, U.lower c ≠ []) (hu : ∀ c, U.upper c ≠ []) (hlow : ∀ c, (utf8 (U.lower c)).length ≤ 4)
    (hs : ∀ w ∈ words, (utf8 w).length ≤ 8000 ∧ (utf8 (titleForm U w)).length ≤ 8000) (w : Str) (out : List Str) :
    ∃ res, Suggests { C := { U, L, dict := D }, H, ngram } w out res := by
  have h := hint_dict (L := L) hr ha hn hw ht hD
  have hnone : ∀ k, tableOf D k = [] := h.table
  refine C45_returns_similarity_partial (U := U) (S := { C := { U, L, dict := D }, H, ngram }) (.loaded hD) rfl rfl hl hu
    (fun e he => ?_) (fun k a hk => ?_) hlow (.inl fun p hp => ?_) h.shrinking (lines := []) ?_ ?_ ?_ w out
  · obtain ⟨s, F⟩ := e
    have hm := (plain_mem h.slots).1 he
    rw [listKept_asIs hr] at hm
    rcases hm with ⟨h1, -⟩ | ⟨v, hv, -, rfl, -⟩
    · exact ⟨(hw _ h1).1, (hs _ h1).1⟩
    · refine ⟨?_, (hs v hv).2⟩
      obtain ⟨c, s, rfl⟩ := List.exists_cons_of_ne_nil (hw v hv).1
      exact fun he => hu c (List.append_eq_nil_iff.1 he).1
  · rw [show tableOf _ k = [] from hnone k] at hk
    cases hk
  · rw [show tableOf _ .pfx = [] from hnone .pfx] at hp
    cases hp
  · rw [← hr.1]; exact h.made.input
  · intro l hl; cases hl
  · intro l hl; cases hl

/-- **C105** (soundness): every suggestion which is one word (no spaces, no dashes, at most 360 bytes, no dot at its end) is
correct by the list, unless the word has inner capitals behind a capital. -/
theorem C105_sound {w : Str} {out res : List Str} (h : Suggests { C := { U, L, dict := D }, H, ngram } w out res)
    (hc : ¬ HasCasing U w .pascal) {t : Str} (hm : t ∈ res) (h1 : ' ' ∉ t) (h2 : '-' ∉ t) (h3 : (utf8 t).length ≤ 360)
    (h4 : ∀ s, t ≠ s ++ ['.']) : CorrectPrepared U r words t t := by
  have hd := hint_dict (L := L) hr ha hn hw ht hD
  have hig : D.aff.ignoreChars = [] := hr.2.2 ▸ hd.made.ignore
  obtain ⟨k, hk⟩ := hasCasing_exists (U := U) w
  have hacc := (C81_accepted_partial (U := U) (S := { C := { U, L, dict := D }, H, ngram }) (.loaded hD)
    (hint_straight hr ha hn hw ht hD) (.inr ⟨fun stem F hm => (hd.good hm).1, fun s hs => by
      rw [show tableOf _ .sfx = [] from hd.table .sfx] at hs; cases hs⟩) h hk
    (fun e => hc (e ▸ hk)) hm ⟨h1, h2, h3, fun c _ hc' => by
      change c ∈ D.aff.ignoreChars at hc'; rw [hig] at hc'; cases hc'⟩).2 h4
  obtain ⟨D', hp, conv, hcv, hall⟩ := C104_prep_list (So := So) ha hn hw (by rw [listKept_asIs hr]; exact ht)
  rw [hD] at hp
  cases hp
  have := (hall L t).1.1 hacc
  have e : conv t = t := converts_nil (hr.1 ▸ hcv t)
  rwa [e] at this

/-- The suggestions for a word without capitals have all corrections. -/
theorem hint_found {w : Str} {out res : List Str} (h : Suggests { C := { U, L, dict := D }, H, ngram } w out res)
    (h0 : w ≠ []) (hl : (utf8 w).length ≤ 360) (hc : HasCasing U w .none) {t : Str} {fuel : Nat}
    (hco : Correction { U, L, dict := D } fuel w t) : t ∈ res := by
  have hst := hint_straight hr ha hn hw ht hD
  have hcv : (Checker.aff { U, L, dict := D }).inputConversions.convert w = w := empty_convert_of hst.iconv w
  have hf : ¬ LacksCapital { U, L, dict := D } w := fun hf => hf.1 hst.force
  have : (Checker.aff { U, L, dict := D }).outputConversions.convert t ∈ res :=
    C55_found (U := U) (S := { C := { U, L, dict := D }, H, ngram }) (.loaded hD) h h0 hl hcv
      (classifyCasing_iff.2 hc) hf hco
  rwa [empty_convert_of hst.oconv] at this

/-- The number of attempts. -/
theorem hint_budget (w : Str) : editBudget { U, L, dict := D } w = 100000 := by
  have hd := hint_dict (L := L) hr ha hn hw ht hD
  have hp : D.aff.prefixes.table = [] := hd.table .pfx
  have hs' : D.aff.suffixes.table = [] := hd.table .sfx
  have ho : D.aff.options = { checksharps := r.sharps } := hd.options
  exact C55_attempts (C := { U, L, dict := D }) w (by unfold Checker.opts; rw [show (Checker.dict _).aff.options = _ from ho]; rfl)
    (by change D.aff.prefixes.table.length < 20; rw [hp]; decide)
    (by change D.aff.suffixes.table.length < 20; rw [hs']; decide)

/-- A word of the list which differs by one of many slips is a correction. -/
theorem hint_far {w v : Str} (hb : (w.length + r.tries.length) * (w.length + 1) ≤ 100000) (hv : v ∈ words)
    (hs : FarSlipOf r w v) : Correction { U, L, dict := D } 0 w v := by
  have hd := hint_dict (L := L) hr ha hn hw ht hD
  have htr : D.aff.tryChars = r.tries := hd.made.tryChars
  refine .inr (.inr (.inr (.inl ⟨?_, ?_, hint_suggestable hr ha hn hw ht hD hv⟩)))
  · rw [hint_budget hr ha hn hw ht hD]
    change (w.length + D.aff.tryChars.length) * _ ≤ _
    rw [htr]
    exact hb
  · cases hs with
    | missing hm => exact .forgotten rfl (by change _ ∈ D.aff.tryChars; rw [htr]; exact hm)
    | wrong hm hne => exact .wrong rfl (by change _ ∈ D.aff.tryChars; rw [htr]; exact hm) hne
    | swapped => exact .swapAny rfl
    | early hm => exact .right rfl hm
    | late hm => exact .left rfl hm

/-- So is a word with similar letters. -/
theorem hint_similar {w v : Str} (hs : SimilarLetters r.similar 100000 w v) (hv : v ∈ words) :
    Correction { U, L, dict := D } 0 w v := by
  refine .inr (.inr (.inr (.inr ⟨?_, hint_suggestable hr ha hn hw ht hD hv⟩)))
  rw [hint_budget hr ha hn hw ht hD]
  have hm : D.aff.similarities = r.similar := (hint_dict (L := L) hr ha hn hw ht hD).made.similarities
  change SimilarLetters D.aff.similarities _ _ _
  rw [hm]
  exact hs

/-- A slip is an edit which is always tried. -/
theorem hint_edit {w v : Str} (hs : SlipOf U r w v) : SmallEdit { U, L, dict := D } w v := by
  have hd := hint_dict (L := L) hr ha hn hw ht hD
  have ho : D.aff.options = { checksharps := r.sharps } := hd.options
  have hk : D.aff.keyboardCloseness = r.keys := hd.made.keyboard
  cases hs with
  | swapped => exact .swap rfl
  | pairs4 => exact .swap4 rfl
  | pairs5 => exact .swap5 rfl
  | pairs5' => exact .swap5' rfl
  | tooMany => exact .extra rfl
  | @small a x b hx =>
    rw [List.append_assoc]
    exact .shift rfl hx
  | allSmall =>
    have : U.upperStr w = (Checker.opts { U, L, dict := D }).caseHandling.uppercase U w := by
      unfold Checker.opts
      rw [show (Checker.dict _).aff.options = _ from ho]
      rfl
    rw [this]
    exact .upper
  | key hy hxy =>
    refine .key rfl hy ?_
    change _ <:+: D.aff.keyboardCloseness ∨ _ <:+: D.aff.keyboardCloseness
    rw [hk]
    exact hxy.symm
  | doubled hb => exact .doubled rfl hb

/-- **C105** (slips): every word of the list is suggested for a word without capitals which differs from it by one slip. -/
theorem C105_slips {w : Str} {out res : List Str} (h : Suggests { C := { U, L, dict := D }, H, ngram } w out res)
    (h0 : w ≠ []) (hl : (utf8 w).length ≤ 360) (hc : HasCasing U w .none) {v : Str} (hv : v ∈ words)
    (hs : SlipOf U r w v) : v ∈ res :=
  hint_found hr ha hn hw ht hD h h0 hl hc
    (.inl ⟨hint_edit hr ha hn hw ht hD hs, hint_suggestable hr ha hn hw ht hD hv⟩)

/-- **C105** (many slips): so is every word which differs by one slip of which there are many, unless the word and the TRY line
are very long. -/
theorem C105_far_slips {w : Str} {out res : List Str} (h : Suggests { C := { U, L, dict := D }, H, ngram } w out res)
    (h0 : w ≠ []) (hl : (utf8 w).length ≤ 360) (hc : HasCasing U w .none)
    (hb : (w.length + r.tries.length) * (w.length + 1) ≤ 100000) {v : Str} (hv : v ∈ words)
    (hs : FarSlipOf r w v) : v ∈ res :=
  hint_found hr ha hn hw ht hD h h0 hl hc (hint_far hr ha hn hw ht hD hb hv hs)

/-- **C105** (missing space): if a word without capitals is two words of the list written together, these are suggested. -/
theorem C105_missing_space {a b : Str} {out res : List Str}
    (h : Suggests { C := { U, L, dict := D }, H, ngram } (a ++ b) out res) (hl : (utf8 (a ++ b)).length ≤ 360)
    (hc : HasCasing U (a ++ b) .none) (hca : a ∈ words) (hcb : b ∈ words) : a ++ ' ' :: b ∈ res := by
  have hd := hint_dict (L := L) hr ha hn hw ht hD
  have ho : D.aff.options = { checksharps := r.sharps } := hd.options
  obtain ⟨F, hF⟩ := hint_simple (L := L) hr ha hn hw ht hD hca
  obtain ⟨G, hG⟩ := hint_simple (L := L) hr ha hn hw ht hD hcb
  refine hint_found (fuel := 0) hr ha hn hw ht hD h (fun he => (hw a hca).1 (List.append_eq_nil_iff.1 he).1) hl hc
    (.inr (.inr (.inl ⟨?_, a, b, rfl, (hw b hcb).1, by rw [hF]; rfl, by rw [hG]; rfl, .inl rfl⟩)))
  unfold Checker.opts
  rw [show (Checker.dict _).aff.options = _ from ho]

end

/-! ## A case which meets the hypotheses -/

/-- Letters to try and keys. -/
def slipAff : Str := "TRY esi\nKEY qwertz|asdf\n".toList

/-- What the lines say. -/
def slipRules : PrepRules := { tries := "esi".toList, keys := "qwertz|asdf".toList }

/-- Words of several letter cases. -/
def slipWords : List Str := ["house".toList, "cat".toList, "Rome".toList, "NATO".toList]

theorem slipAff_settings : Settings .sample slipAff (prepSettings slipRules) := by
  obtain ⟨cx, h, k⟩ := ok_of_map (x := parseAff .sample slipAff)
    (p := fun cx : Cx => decide (cx.options = {}) && decide (cx.flagType = .short) &&
      cx.flagAliases.isEmpty && cx.replacements.isEmpty && cx.similarities.isEmpty && cx.inputConversions.isEmpty &&
      cx.outputConversions.isEmpty && decide (cx.breakPatterns = [['^', '-'], ['-'], ['-', '$']]) &&
      cx.compoundSyllableVowels.isEmpty && cx.ignoreChars.isEmpty && decide (cx.tryChars = slipRules.tries) &&
      decide (cx.keyboardCloseness = slipRules.keys) &&
      cx.prefixes.isEmpty && cx.suffixes.isEmpty && cx.compoundRules.isEmpty && cx.compoundPatterns.isEmpty)
    (by decide +kernel)
  refine ⟨_, content_iff.2 rfl, parseAff_iff.1 (h.trans (congrArg _ ?_))⟩
  simp only [Bool.and_eq_true, decide_eq_true_eq, List.isEmpty_iff] at k
  obtain ⟨⟨⟨⟨⟨⟨⟨⟨⟨⟨⟨⟨⟨⟨⟨k1, k2⟩, k3⟩, k4⟩, k5⟩, k6⟩, k7⟩, k8⟩, k9⟩, k10⟩, k11⟩, k12⟩, k13⟩, k14⟩, k15⟩, k16⟩ := k
  cases cx
  subst k1 k2 k3 k4 k5 k6 k7 k8 k9 k10 k11 k12 k13 k14 k15 k16
  rfl

theorem slipWords_header : PlainHeader .sample "4".toList :=
  ⟨⟨"4".toList, [], 4, by decide +kernel, usize_ok.1 (by decide +kernel)⟩, by decide +kernel⟩

theorem slipWords_entries : ∀ w ∈ slipWords, PlainEntry .sample w := by
  have : ∀ w ∈ slipWords, w ≠ [] ∧ (utf8 w).length ≤ 65535 ∧
      ∀ c ∈ w, Unicode.sample.isWs c = false ∧ c ∉ ['\n', '\r', '\t', ' ', '/', '\\', '#'] := by decide +kernel
  exact this

theorem slipWords_titles : ∀ w ∈ slipWords, MixedCase .sample w → (utf8 (titleForm .sample w)).length ≤ 65535 := by
  have : ∀ w ∈ slipWords, (utf8 (titleForm .sample w)).length ≤ 65535 := by decide +kernel
  exact fun w hw _ => this w hw

/-- Slips of all kinds are corrected: two letters swapped, one too many, a small letter, all letters small, a wrong key, a
letter missing, a letter too late, a space missing. -/
example : ∃ D, parse .sample .default slipAff (listText "4".toList slipWords) = .ok D ∧
    ∀ (L : Layout) (H : Heaps) (out res : List Str),
      (Suggests { C := { U := .sample, L, dict := D }, H } "huose".toList out res → "house".toList ∈ res) ∧
      (Suggests { C := { U := .sample, L, dict := D }, H } "catt".toList out res → "cat".toList ∈ res) ∧
      (Suggests { C := { U := .sample, L, dict := D }, H } "rome".toList out res → "Rome".toList ∈ res) ∧
      (Suggests { C := { U := .sample, L, dict := D }, H } "nato".toList out res → "NATO".toList ∈ res) ∧
      (Suggests { C := { U := .sample, L, dict := D }, H } "caz".toList out res → "cat".toList ∈ res) ∧
      (Suggests { C := { U := .sample, L, dict := D }, H } "hous".toList out res → "house".toList ∈ res) ∧
      (Suggests { C := { U := .sample, L, dict := D }, H } "oushe".toList out res → "house".toList ∈ res) ∧
      (Suggests { C := { U := .sample, L, dict := D }, H } "housecat".toList out res → "house cat".toList ∈ res) := by
  have hr : TakenAsIs slipRules := ⟨rfl, rfl, rfl⟩
  obtain ⟨D, hp, -⟩ := C104_prep_list (So := .default) slipAff_settings slipWords_header slipWords_entries
    (by rw [listKept_asIs hr]; exact slipWords_titles)
  have small : ∀ {w : Str}, classifyCasing .sample w = .none → HasCasing .sample w .none := classifyCasing_iff.1
  refine ⟨D, hp, fun L H out res => ⟨fun h => ?_, fun h => ?_, fun h => ?_, fun h => ?_, fun h => ?_, fun h => ?_, fun h => ?_,
    fun h => ?_⟩⟩
  · exact C105_slips hr slipAff_settings slipWords_header slipWords_entries slipWords_titles hp h (by decide) (by decide +kernel)
      (small (by decide +kernel)) (by decide) (.swapped (a := ['h']) (x := 'u') (y := 'o') (b := "se".toList))
  · exact C105_slips hr slipAff_settings slipWords_header slipWords_entries slipWords_titles hp h (by decide) (by decide +kernel)
      (small (by decide +kernel)) (by decide) (.tooMany (a := "cat".toList) (x := 't') (b := []))
  · exact C105_slips hr slipAff_settings slipWords_header slipWords_entries slipWords_titles hp h (by decide) (by decide +kernel)
      (small (by decide +kernel)) (by decide)
      (.small (U := .sample) (a := []) (x := 'r') (b := "ome".toList) (by decide +kernel))
  · exact C105_slips hr slipAff_settings slipWords_header slipWords_entries slipWords_titles hp h (by decide) (by decide +kernel)
      (small (by decide +kernel)) (by decide) (.allSmall (U := .sample) (w := "nato".toList))
  · exact C105_slips hr slipAff_settings slipWords_header slipWords_entries slipWords_titles hp h (by decide) (by decide +kernel)
      (small (by decide +kernel)) (by decide) (.key (a := "ca".toList) (x := 'z') (y := 't') (b := []) (by decide)
        (.inr (by decide)))
  · exact C105_far_slips hr slipAff_settings slipWords_header slipWords_entries slipWords_titles hp h (by decide)
      (by decide +kernel) (small (by decide +kernel)) (by decide) (by decide)
      (.missing (a := "hous".toList) (c := 'e') (b := []) (by decide))
  · exact C105_far_slips hr slipAff_settings slipWords_header slipWords_entries slipWords_titles hp h (by decide)
      (by decide +kernel) (small (by decide +kernel)) (by decide) (by decide)
      (.late (a := []) (x := 'h') (m := "ous".toList) (b := "e".toList) (by decide))
  · exact C105_missing_space hr slipAff_settings slipWords_header slipWords_entries slipWords_titles hp (a := "house".toList)
      (b := "cat".toList) h (by decide +kernel) (small (by decide +kernel)) (by decide) (by decide)

/-- `suggest` returns for every word; `hous` gets `house`, and all of its suggestions which are one word are correct. -/
example : ∃ D, parse .sample .default slipAff (listText "4".toList slipWords) = .ok D ∧
    (∀ (L : Layout) (H : Heaps) (w : Str), ∃ res, Suggests { C := { U := .sample, L, dict := D }, H } w [] res) ∧
    ∀ (L : Layout) (H : Heaps), ∃ res, Suggests { C := { U := .sample, L, dict := D }, H } "hous".toList [] res ∧
      "house".toList ∈ res ∧ ∀ t ∈ res, ' ' ∉ t → '-' ∉ t → (utf8 t).length ≤ 360 → (∀ s, t ≠ s ++ ['.']) →
        CorrectPrepared .sample slipRules slipWords t t := by
  have hr : TakenAsIs slipRules := ⟨rfl, rfl, rfl⟩
  obtain ⟨D, hp, -⟩ := C104_prep_list (So := .default) slipAff_settings slipWords_header slipWords_entries
    (by rw [listKept_asIs hr]; exact slipWords_titles)
  have hret : ∀ (L : Layout) (H : Heaps) (w : Str), ∃ res, Suggests { C := { U := .sample, L, dict := D }, H } w [] res :=
    fun L H w => C105_returns hr slipAff_settings slipWords_header slipWords_entries slipWords_titles hp sample_lower sample_upper
      sample_lower_len (by decide +kernel) w []
  have hc : HasCasing .sample "hous".toList .none := classifyCasing_iff.1 (by decide +kernel)
  refine ⟨D, hp, hret, fun L H => ?_⟩
  obtain ⟨res, h⟩ := hret L H "hous".toList
  refine ⟨res, h, ?_, fun t ht h1 h2 h3 h4 => ?_⟩
  · exact C105_far_slips hr slipAff_settings slipWords_header slipWords_entries slipWords_titles hp h (by decide)
      (by decide +kernel) hc (by decide) (by decide) (.missing (a := "hous".toList) (c := 'e') (b := []) (by decide))
  · exact C105_sound hr slipAff_settings slipWords_header slipWords_entries slipWords_titles hp h
      (fun h' => by cases hasCasing_unique hc h') ht h1 h2 h3 h4

end Spellbook.Props
