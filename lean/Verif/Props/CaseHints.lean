import Verif.Spec.CaseHints
import Verif.Props.HintList
import Verif.Props.SuggestCase
/-!
# C106 Suggestions from a list of words with REP lines, for words of every letter case
-/

namespace Spellbook.Props
open Spec

variable {U : Unicode} {So : Sorts} {r : PrepRules}

theorem matchIndices_of_apart {w f a b : Str} (hf : f ≠ []) (hw : w = a ++ (f ++ b))
    (h : ∀ a' b', a ++ (f ++ b) = a' ++ (f ++ b') → a'.length < a.length → a'.length + f.length ≤ a.length) :
    a.length ∈ matchIndices w f := by
  subst hw
  obtain ⟨j, hj, h1, h2⟩ := matchIndicesFrom_cover hf (a ++ (f ++ b)) 0 0 a.length (by omega) (by simp)
  obtain ⟨h3, b', h4⟩ := matchIndices_sound hj
  rcases Nat.lt_or_ge j a.length with h5 | h5
  · have hlen : ((a ++ (f ++ b)).take j).length = j := by rw [List.length_take]; omega
    have := h ((a ++ (f ++ b)).take j) b' (by rw [h4, List.take_append_drop]) (by rw [hlen]; exact h5)
    rw [hlen] at this
    omega
  · have : j = a.length := by omega
    subst this
    exact hj

/-- A REP line is in the section of its kind. -/
theorem mem_repSection {l : List (Str × Str)} {R : ReplacementTable} (h : ReplacementTable.from' l = some R) {line t : Str}
    (hm : (line, t) ∈ l) {place : RepAt} {text : Str} (hk : RepLine line place text) : (text, t) ∈ repSection R place := by
  rw [(C19_replacement_table l).2 R h place (repText place) fun line x => repText_iff]
  exact List.mem_filterMap.2 ⟨_, hm, by rw [repText_iff.2 hk]; rfl⟩

section
variable {words : List Str} {aff number : Str} {D : Dict} {L : Layout} {H : Heaps} {ngram : Bool}
  (hr : TakenAsIs r) (ha : Settings U aff (prepSettings r)) (hn : PlainHeader U number) (hw : ∀ w ∈ words, PlainEntry U w)
  (ht : ∀ w ∈ words, MixedCase U w → (utf8 (titleForm U w)).length ≤ 65535)
  (hD : parse U So aff (listText number words) = .ok D)
include hr ha hn hw ht hD

theorem hint_replaced {w v : Str} (h : FixBy r w v) : Replaced { U, L, dict := D } w v := by
  have hd := hint_dict (L := L) hr ha hn hw ht hD
  have hR : ReplacementTable.from' r.replacements = some D.aff.replacements := hd.made.replacements
  have hne : ∀ p ∈ r.replacements, p.1 ≠ [] := fun p hp he => by
    rw [ReplacementTable.from', ReplacementTable.fromLoop_none _ _ ⟨p, hp, .inl he⟩] at hR
    simp at hR
  cases h with
  | whole hm => exact .inl (mem_repSection hR hm (place := .whole) rfl)
  | start hm hl => exact .inr (.inl ⟨_, _, _, mem_repSection hR hm (place := .start) ⟨rfl, hl⟩, rfl, rfl⟩)
  | stop hm hl => exact .inr (.inr (.inl ⟨_, _, _, mem_repSection hR hm (place := .stop) ⟨rfl, hl⟩, rfl, rfl⟩))
  | anywhere hm h1 h2 h3 =>
    exact .inr (.inr (.inr ⟨_, _, _, _, mem_repSection hR hm (place := .anywhere) ⟨rfl, h1, h2⟩, rfl,
      matchIndices_of_apart (hne _ hm) rfl h3, rfl⟩))

theorem hint_spaced {v : Str} (h : InWords words v) : v ∈ words ∨ SpacedWords { U, L, dict := D } 0 v := by
  have hsp : ∀ v ∈ words, ' ' ∉ v := fun v hv hm => ((hw v hv).2.2 _ hm).2 (by simp)
  have hfind : ∀ v ∈ words, ' ' ∉ v ∧ ∃ F, Checker.checkWord { U, L, dict := D } 0 v .forbidBad .skip = .ok (some F) :=
    fun v hv => by
      obtain ⟨F, hF, -⟩ := hint_suggestable (L := L) hr ha hn hw ht hD hv
      exact ⟨hsp v hv, F, hF⟩
  induction h with
  | one hv => exact .inl hv
  | @more v rest hv _ ih =>
    right
    rcases ih with h | ⟨parts, last, -, rfl, h2, h3⟩
    · exact ⟨[v], rest, by simp, by simp, hsp _ h, fun p hp => by rw [List.mem_singleton.1 hp]; exact hfind v hv⟩
    · refine ⟨v :: parts, last, by simp, by simp, h2, fun p hp => ?_⟩
      rcases List.mem_cons.1 hp with rfl | hp
      · exact hfind _ hv
      · exact h3 p hp

theorem hint_correction {w v : Str} (h : CorrectedTo U r words w v) : Correction { U, L, dict := D } 0 w v := by
  cases h with
  | slip hs hv => exact .inl ⟨hint_edit hr ha hn hw ht hD hs, hint_suggestable hr ha hn hw ht hD hv⟩
  | far hs hb hv => exact hint_far hr ha hn hw ht hD hb hv hs
  | similar hs hv => exact hint_similar hr ha hn hw ht hD hs hv
  | fix hf hv =>
    refine .inr (.inl ⟨hint_replaced hr ha hn hw ht hD hf, ?_⟩)
    exact (hint_spaced hr ha hn hw ht hD hv).imp_left fun h => hint_suggestable hr ha hn hw ht hD h
  | @space a b hca hcb =>
    have hd := hint_dict (L := L) hr ha hn hw ht hD
    have ho : D.aff.options = { checksharps := r.sharps } := hd.options
    obtain ⟨F, hF⟩ := hint_simple (L := L) hr ha hn hw ht hD hca
    obtain ⟨G, hG⟩ := hint_simple (L := L) hr ha hn hw ht hD hcb
    refine .inr (.inr (.inl ⟨?_, a, b, rfl, (hw b hcb).1, by rw [hF]; rfl, by rw [hG]; rfl, .inl rfl⟩))
    unfold Checker.opts
    rw [show (Checker.dict _).aff.options = _ from ho]
  | @dash a b hca hcb h1 h2 h3 =>
    have hd := hint_dict (L := L) hr ha hn hw ht hD
    have ho : D.aff.options = { checksharps := r.sharps } := hd.options
    obtain ⟨F, hF⟩ := hint_simple (L := L) hr ha hn hw ht hD hca
    obtain ⟨G, hG⟩ := hint_simple (L := L) hr ha hn hw ht hD hcb
    refine .inr (.inr (.inl ⟨?_, a, b, rfl, (hw b hcb).1, by rw [hF]; rfl, by rw [hG]; rfl, .inr ⟨rfl, h1, h2, ?_⟩⟩))
    · unfold Checker.opts
      rw [show (Checker.dict _).aff.options = _ from ho]
    · have htr : D.aff.tryChars = r.tries := hd.made.tryChars
      change 'a' ∈ D.aff.tryChars ∨ '-' ∈ D.aff.tryChars
      rwa [htr]

theorem hint_accepts {t : Str} (h : CorrectPrepared U r words t t) : Accepts { U, L, dict := D } t := by
  obtain ⟨D', hp, conv, hcv, hall⟩ := C104_prep_list (So := So) ha hn hw (by rw [listKept_asIs hr]; exact ht)
  rw [hD] at hp
  cases hp
  refine (hall L t).1.2 ?_
  rwa [show conv t = t from converts_nil (hr.1 ▸ hcv t)]

theorem hint_case : (Checker.opts { U, L, dict := D }).caseHandling = .standard := by
  have ho : D.aff.options = { checksharps := r.sharps } := (hint_dict (L := L) hr ha hn hw ht hD).options
  unfold Checker.opts
  rw [show (Checker.dict _).aff.options = _ from ho]

theorem hint_title (w : Str) : titleOf { U, L, dict := D } w = titleForm U w := by
  have hk := hint_case (L := L) hr ha hn hw ht hD
  cases w with
  | nil => rfl
  | cons c w =>
    unfold titleOf titleForm
    rw [hk]
    rfl

/-- **C106** (small letters): for a word without capitals every correction is suggested. -/
theorem C106_small {w : Str} {out res : List Str} (h : Suggests { C := { U, L, dict := D }, H, ngram } w out res)
    (h0 : w ≠ []) (hl : (utf8 w).length ≤ 360) (hc : HasCasing U w .none) {v : Str}
    (hv : CorrectedTo U r words w v) : v ∈ res :=
  hint_found hr ha hn hw ht hD h h0 hl hc (hint_correction hr ha hn hw ht hD hv)

/-- **C106** (initial capital): for a word with an initial capital every correction of the word, or of the word in small letters,
is suggested with a capital, if it has a space or is then correct by the list. -/
theorem C106_title {w : Str} {out res : List Str} (h : Suggests { C := { U, L, dict := D }, H, ngram } w out res)
    (h0 : w ≠ []) (hl : (utf8 w).length ≤ 360) (hc : HasCasing U w .init) {c : Char} {b : Str}
    (hv : CorrectedTo U r words w (c :: b) ∨ CorrectedTo U r words (U.lowerStr w) (c :: b))
    (hok : ' ' ∈ U.upper c ++ b ∨ CorrectPrepared U r words (U.upper c ++ b) (U.upper c ++ b)) : U.upper c ++ b ∈ res := by
  have hst := hint_straight hr ha hn hw ht hD
  have hk := hint_case (L := L) hr ha hn hw ht hD
  have : (Checker.aff { U, L, dict := D }).outputConversions.convert (U.upper c ++ b) ∈ res := by
    refine C59_init_found (U := U) (S := { C := { U, L, dict := D }, H, ngram }) (.loaded hD) h h0 hl (empty_convert_of hst.iconv w)
      (classifyCasing_iff.2 hc) (t := c :: b) (fuel := 0) ?_ ⟨c, b, rfl, ?_⟩
      (hok.imp_right fun h => hint_accepts hr ha hn hw ht hD h)
    · refine hv.imp (fun h => hint_correction hr ha hn hw ht hD h) fun h => ?_
      have e : lowerOf { U, L, dict := D } w = U.lowerStr w := by unfold lowerOf; rw [hk]; rfl
      change Correction _ 0 (lowerOf { U, L, dict := D } w) _
      rw [e]
      exact hint_correction hr ha hn hw ht hD h
    · change _ = (Checker.opts { U, L, dict := D }).caseHandling.upperChar U c ++ b
      rw [hk]
      rfl
  rwa [empty_convert_of hst.oconv] at this

/-- **C106** (capitals): for a word in capitals every correction of the word in small letters, or of these with an initial
capital, is suggested in capitals, if it has a space or is then correct by the list. -/
theorem C106_capitals {w : Str} {out res : List Str} (h : Suggests { C := { U, L, dict := D }, H, ngram } w out res)
    (h0 : w ≠ []) (hl : (utf8 w).length ≤ 360) (hc : HasCasing U w .all) {v : Str}
    (hv : CorrectedTo U r words (U.lowerStr w) v ∨ CorrectedTo U r words (titleForm U (U.lowerStr w)) v)
    (hok : ' ' ∈ U.upperStr v ∨ CorrectPrepared U r words (U.upperStr v) (U.upperStr v)) : U.upperStr v ∈ res := by
  have hst := hint_straight hr ha hn hw ht hD
  have hk := hint_case (L := L) hr ha hn hw ht hD
  have eu : upperOf { U, L, dict := D } v = U.upperStr v := by unfold upperOf; rw [hk]; rfl
  have el : lowerOf { U, L, dict := D } w = U.lowerStr w := by unfold lowerOf; rw [hk]; rfl
  have : (Checker.aff { U, L, dict := D }).outputConversions.convert (upperOf { U, L, dict := D } v) ∈ res := by
    refine C59_all_found (U := U) (S := { C := { U, L, dict := D }, H, ngram }) (.loaded hD) h h0 hl (empty_convert_of hst.iconv w)
      (classifyCasing_iff.2 hc) (t := v) (fuel := 0) ?_ ?_
    · change Correction _ 0 (lowerOf { U, L, dict := D } w) _ ∨
        Correction _ 0 (titleOf { U, L, dict := D } (lowerOf { U, L, dict := D } w)) _
      rw [el, hint_title hr ha hn hw ht hD]
      exact hv.imp (fun h => hint_correction hr ha hn hw ht hD h) fun h => hint_correction hr ha hn hw ht hD h
    · change ' ' ∈ upperOf { U, L, dict := D } v ∨ Accepts { U, L, dict := D } (upperOf { U, L, dict := D } v)
      rw [eu]
      exact hok.imp_right fun h => hint_accepts hr ha hn hw ht hD h
  rw [eu] at this
  rwa [empty_convert_of hst.oconv] at this

/-- **C106** (inner capitals): for a word with inner capitals and a small first letter every correction without a space of the
word, or of the word in small letters, is suggested, and so is the word in small letters, if it is correct by the list. -/
theorem C106_inner {w : Str} {out res : List Str} (h : Suggests { C := { U, L, dict := D }, H, ngram } w out res)
    (h0 : w ≠ []) (hl : (utf8 w).length ≤ 360) (hc : HasCasing U w .camel) {v : Str}
    (hv : CorrectedTo U r words w v ∨ CorrectedTo U r words (U.lowerStr w) v ∨
      v = U.lowerStr w ∧ CorrectPrepared U r words v v) (hs : ' ' ∉ v) : v ∈ res := by
  have hst := hint_straight hr ha hn hw ht hD
  have hk := hint_case (L := L) hr ha hn hw ht hD
  have el : lowerOf { U, L, dict := D } w = U.lowerStr w := by unfold lowerOf; rw [hk]; rfl
  have key : ∀ {fuel}, (Correction { U, L, dict := D } fuel w v ∨ Correction { U, L, dict := D } fuel (U.lowerStr w) v ∨
      v = U.lowerStr w ∧ Checker.check { U, L, dict := D } fuel v = .ok true) → v ∈ res := by
    intro fuel hco
    rw [← el] at hco
    have := C59_camel_found (U := U) (S := { C := { U, L, dict := D }, H, ngram }) (.loaded hD) h h0 hl
      (empty_convert_of hst.iconv w) (classifyCasing_iff.2 hc) hco hs
    change (Checker.aff { U, L, dict := D }).outputConversions.convert v ∈ res at this
    rwa [empty_convert_of hst.oconv] at this
  rcases hv with hv | hv | ⟨h1, h2⟩
  · exact key (.inl (hint_correction hr ha hn hw ht hD hv))
  · exact key (.inr (.inl (hint_correction hr ha hn hw ht hD hv)))
  · obtain ⟨fuel, hf⟩ := hint_accepts (L := L) hr ha hn hw ht hD h2
    exact key (.inr (.inr ⟨h1, hf⟩))

/-- **C106** (inner capitals behind a capital): for a word with inner capitals and a capital first letter every correction
without a space of the word, of the word with a small first letter, in small letters or with an initial capital only, is
suggested with a capital; so are these three spellings, if correct by the list. -/
theorem C106_pascal {c : Char} {cs : Str} {out res : List Str}
    (h : Suggests { C := { U, L, dict := D }, H, ngram } (c :: cs) out res) (hl : (utf8 (c :: cs)).length ≤ 360)
    (hc : HasCasing U (c :: cs) .pascal) {w x : Str} {d : Char} {b : Str}
    (hx : x ∈ [U.lower c ++ cs, U.lowerStr (c :: cs), titleForm U (c :: cs)]) (hv : w = d :: b)
    (hco : CorrectedTo U r words (c :: cs) w ∨ CorrectedTo U r words x w ∨ w = x ∧ CorrectPrepared U r words w w)
    (hs : ' ' ∉ w) : U.upper d ++ b ∈ res := by
  have hst := hint_straight hr ha hn hw ht hD
  have hk := hint_case (L := L) hr ha hn hw ht hD
  have el : lowerOf { U, L, dict := D } (c :: cs) = U.lowerStr (c :: cs) := by unfold lowerOf; rw [hk]; rfl
  have key : ∀ {fuel}, (Correction { U, L, dict := D } fuel (c :: cs) w ∨ Correction { U, L, dict := D } fuel x w ∨
      w = x ∧ Checker.check { U, L, dict := D } fuel w = .ok true) → U.upper d ++ b ∈ res := by
    intro fuel hco
    have := C59_pascal_found (U := U) (S := { C := { U, L, dict := D }, H, ngram }) (.loaded hD) h (by simp) hl
      (empty_convert_of hst.iconv _) (classifyCasing_iff.2 hc) rfl (v := x) (s := U.upper d ++ b) (by
        change x = (Checker.opts { U, L, dict := D }).caseHandling.lowerChar U c ++ cs ∨
          x = lowerOf { U, L, dict := D } (c :: cs) ∨ x = titleOf { U, L, dict := D } (c :: cs)
        rw [el, hint_title hr ha hn hw ht hD, hk]
        simpa [CaseHandling.lowerChar] using hx) hco hs ⟨d, b, hv, by
        change _ = (Checker.opts { U, L, dict := D }).caseHandling.upperChar U d ++ b
        rw [hk]
        rfl⟩
    change (Checker.aff { U, L, dict := D }).outputConversions.convert _ ∈ res at this
    rwa [empty_convert_of hst.oconv] at this
  rcases hco with hv | hv | ⟨h1, h2⟩
  · exact key (.inl (hint_correction hr ha hn hw ht hD hv))
  · exact key (.inr (.inl (hint_correction hr ha hn hw ht hD hv)))
  · obtain ⟨fuel, hf⟩ := hint_accepts (L := L) hr ha hn hw ht hD h2
    exact key (.inr (.inr ⟨h1, hf⟩))

end

/-! ## A case which meets the hypotheses -/

/-- Letters to try, a list of keys, a MAP line and two REP lines. -/
def fixAff : Str := "TRY esia\nKEY qwertz\nMAP 1\nMAP oöó\nREP 2\nREP f ph\nREP ^alot$ a_lot\n".toList

/-- What the lines say. -/
def fixRules : PrepRules :=
  { tries := "esia".toList, keys := "qwertz".toList, similar := [⟨"oöó".toList, []⟩],
    replacements := [("f".toList, "ph".toList), ("^alot$".toList, "a lot".toList)] }

/-- The words. -/
def fixWords : List Str := ["phone".toList, "cat".toList, "a".toList, "lot".toList]

theorem fixAff_settings : Settings .sample fixAff (prepSettings fixRules) := by
  obtain ⟨cx, h, k⟩ := ok_of_map (x := parseAff .sample fixAff)
    (p := fun cx : Cx => decide (cx.options = {}) && decide (cx.flagType = .short) &&
      cx.flagAliases.isEmpty && decide (cx.replacements = fixRules.replacements) && decide (cx.similarities = fixRules.similar) &&
      cx.inputConversions.isEmpty && cx.outputConversions.isEmpty &&
      decide (cx.breakPatterns = [['^', '-'], ['-'], ['-', '$']]) &&
      cx.compoundSyllableVowels.isEmpty && cx.ignoreChars.isEmpty && decide (cx.tryChars = fixRules.tries) &&
      decide (cx.keyboardCloseness = fixRules.keys) &&
      cx.prefixes.isEmpty && cx.suffixes.isEmpty && cx.compoundRules.isEmpty && cx.compoundPatterns.isEmpty)
    (by decide +kernel)
  refine ⟨_, content_iff.2 rfl, parseAff_iff.1 (h.trans (congrArg _ ?_))⟩
  simp only [Bool.and_eq_true, decide_eq_true_eq, List.isEmpty_iff] at k
  obtain ⟨⟨⟨⟨⟨⟨⟨⟨⟨⟨⟨⟨⟨⟨⟨k1, k2⟩, k3⟩, k4⟩, k5⟩, k6⟩, k7⟩, k8⟩, k9⟩, k10⟩, k11⟩, k12⟩, k13⟩, k14⟩, k15⟩, k16⟩ := k
  cases cx
  subst k1 k2 k3 k4 k5 k6 k7 k8 k9 k10 k11 k12 k13 k14 k15 k16
  rfl

theorem fixWords_entries : ∀ w ∈ fixWords, PlainEntry .sample w := by
  have : ∀ w ∈ fixWords, w ≠ [] ∧ (utf8 w).length ≤ 65535 ∧
      ∀ c ∈ w, Unicode.sample.isWs c = false ∧ c ∉ ['\n', '\r', '\t', ' ', '/', '\\', '#'] := by decide +kernel
  exact this

theorem fixWords_titles : ∀ w ∈ fixWords, MixedCase .sample w → (utf8 (titleForm .sample w)).length ≤ 65535 := by
  have : ∀ w ∈ fixWords, (utf8 (titleForm .sample w)).length ≤ 65535 := by decide +kernel
  exact fun w hw _ => this w hw

/-- A known word in another letter case is correct. -/
theorem fix_known {w : Str} (h : (utf8 w).length ≤ 360) (hd : ∀ s, w ≠ s ++ ['.'])
    (hk : KnownBy .sample (· ∈ listKept fixRules fixWords) (InList .sample (listKept fixRules fixWords)) w) :
    CorrectPrepared .sample fixRules fixWords w w := by
  refine ⟨h, .inr ⟨w, 0, by simp, hd, .inr (.inl (.known ?_))⟩⟩
  rw [show lettersKept fixRules w = w from List.filter_eq_self.2 fun c _ => by simp [fixRules]]
  exact .inl hk

theorem fix_similar : SimilarLetters fixRules.similar 100000 "phöne".toList "phone".toList := by
  refine ⟨by decide, by decide, by decide +kernel, by decide, ?_⟩
  exact .cons (.inl rfl) (.cons (.inl rfl) (.cons (.inr ⟨_, by simp [fixRules]; rfl, by decide, by decide⟩)
    (.cons (.inl rfl) (.cons (.inl rfl) .nil))))

/-- Corrections by REP lines, MAP lines and slips of both kinds, for words of every letter case. -/
example : ∃ D, parse .sample .default fixAff (listText "4".toList fixWords) = .ok D ∧
    ∀ (L : Layout) (H : Heaps) (out res : List Str),
      (Suggests { C := { U := .sample, L, dict := D }, H } "fone".toList out res → "phone".toList ∈ res) ∧
      (Suggests { C := { U := .sample, L, dict := D }, H } "alot".toList out res → "a lot".toList ∈ res) ∧
      (Suggests { C := { U := .sample, L, dict := D }, H } "Fone".toList out res → "Phone".toList ∈ res) ∧
      (Suggests { C := { U := .sample, L, dict := D }, H } "Catphone".toList out res → "Cat phone".toList ∈ res) ∧
      (Suggests { C := { U := .sample, L, dict := D }, H } "CATT".toList out res → "CAT".toList ∈ res) ∧
      (Suggests { C := { U := .sample, L, dict := D }, H } "cAT".toList out res → "cat".toList ∈ res) ∧
      (Suggests { C := { U := .sample, L, dict := D }, H } "FOnE".toList out res → "Phone".toList ∈ res) ∧
      (Suggests { C := { U := .sample, L, dict := D }, H } "PHON".toList out res → "PHONE".toList ∈ res) ∧
      (Suggests { C := { U := .sample, L, dict := D }, H } "phöne".toList out res → "phone".toList ∈ res) ∧
      (Suggests { C := { U := .sample, L, dict := D }, H } "hpoen".toList out res → "phone".toList ∈ res) ∧
      (Suggests { C := { U := .sample, L, dict := D }, H } "catphone".toList out res → "cat-phone".toList ∈ res) := by
  have hr : TakenAsIs fixRules := ⟨rfl, rfl, rfl⟩
  obtain ⟨D, hp, -⟩ := C104_prep_list (So := .default) fixAff_settings slipWords_header fixWords_entries
    (by rw [listKept_asIs hr]; exact fixWords_titles)
  have cased : ∀ {w : Str} {k : Casing}, classifyCasing .sample w = k → HasCasing .sample w k := classifyCasing_iff.1
  have hin : ∀ {v}, v ∈ fixWords → InList .sample (listKept fixRules fixWords) v := fun h => by
    rw [listKept_asIs hr]; exact .inl h
  have hfone : FixBy fixRules "fone".toList "phone".toList :=
    .anywhere (f := ['f']) (t := "ph".toList) (a := []) (b := "one".toList) (by decide) (by decide) (by decide)
      (fun _ _ _ h => absurd h (Nat.not_lt_zero _))
  have nodot : ∀ {w s : Str}, w.getLast? ≠ some '.' → w ≠ s ++ ['.'] := fun h e => h (by rw [e]; simp)
  refine ⟨D, hp, fun L H out res => ⟨fun h => ?_, fun h => ?_, fun h => ?_, fun h => ?_, fun h => ?_, fun h => ?_, fun h => ?_,
    fun h => ?_, fun h => ?_, fun h => ?_, fun h => ?_⟩⟩
  · exact C106_small hr fixAff_settings slipWords_header fixWords_entries fixWords_titles hp h (by decide) (by decide +kernel)
      (cased (by decide +kernel)) (.fix hfone (.one (by decide)))
  · exact C106_small hr fixAff_settings slipWords_header fixWords_entries fixWords_titles hp h (by decide) (by decide +kernel)
      (cased (by decide +kernel)) (.fix (.whole (by decide)) (.more (v := ['a']) (rest := "lot".toList) (by decide) (.one (by decide))))
  · exact C106_title hr fixAff_settings slipWords_header fixWords_entries fixWords_titles hp h (by decide) (by decide +kernel)
      (cased (by decide +kernel)) (c := 'p') (b := "hone".toList) (.inr (.fix hfone (.one (by decide))))
      (.inr (fix_known (by decide +kernel) (fun _ => nodot (by decide)) (.title (cased (by decide +kernel)) (.inr (hin (by decide +kernel))))))
  · exact C106_title hr fixAff_settings slipWords_header fixWords_entries fixWords_titles hp h (by decide) (by decide +kernel)
      (cased (by decide +kernel)) (c := 'c') (b := "at phone".toList)
      (.inr (.space (a := "cat".toList) (b := "phone".toList) (by decide) (by decide))) (.inl (by decide +kernel))
  · exact C106_capitals hr fixAff_settings slipWords_header fixWords_entries fixWords_titles hp h (by decide) (by decide +kernel)
      (cased (by decide +kernel)) (v := "cat".toList)
      (.inl (.slip (.tooMany (a := "cat".toList) (x := 't') (b := [])) (by decide)))
      (.inr (fix_known (by decide +kernel) (fun _ => nodot (by decide))
        (.caps (cased (by decide +kernel)) (.inr (.inr (hin (by decide +kernel)))))))
  · exact C106_inner hr fixAff_settings slipWords_header fixWords_entries fixWords_titles hp h (by decide) (by decide +kernel)
      (cased (by decide +kernel)) (v := "cat".toList)
      (.inr (.inr ⟨by decide +kernel, fix_known (by decide +kernel) (fun _ => nodot (by decide))
        (.small (cased (by decide +kernel)) (hin (by decide)))⟩)) (by decide)
  · exact C106_pascal hr fixAff_settings slipWords_header fixWords_entries fixWords_titles hp h (by decide +kernel)
      (cased (by decide +kernel)) (x := "fone".toList) (d := 'p') (b := "hone".toList) (by decide +kernel) rfl
      (.inr (.inl (.fix hfone (.one (by decide))))) (by decide)
  · exact C106_capitals hr fixAff_settings slipWords_header fixWords_entries fixWords_titles hp h (by decide) (by decide +kernel)
      (cased (by decide +kernel)) (v := "phone".toList)
      (.inl (.far (.missing (a := "phon".toList) (c := 'e') (b := []) (by decide)) (by decide +kernel) (by decide)))
      (.inr (fix_known (by decide +kernel) (fun _ => nodot (by decide))
        (.caps (cased (by decide +kernel)) (.inr (.inr (hin (by decide +kernel)))))))
  · exact C106_small hr fixAff_settings slipWords_header fixWords_entries fixWords_titles hp h (by decide) (by decide +kernel)
      (cased (by decide +kernel)) (.similar fix_similar (by decide))
  · exact C106_small hr fixAff_settings slipWords_header fixWords_entries fixWords_titles hp h (by decide) (by decide +kernel)
      (cased (by decide +kernel)) (.slip .pairs5 (by decide))
  · exact C106_small hr fixAff_settings slipWords_header fixWords_entries fixWords_titles hp h (by decide) (by decide +kernel)
      (cased (by decide +kernel)) (.dash (a := "cat".toList) (b := "phone".toList) (by decide) (by decide) (by decide) (by decide)
        (.inl (by decide)))

end Spellbook.Props
