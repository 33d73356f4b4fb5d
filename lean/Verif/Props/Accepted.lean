import Verif.Spec.Accepted
import Verif.Proof.Accepted
import Verif.Props.SuggestCase
import Verif.Props.Ngram
import Verif.Props.Happens
/-!
# Suggestions are accepted by `check` (C81)
-/

namespace Spellbook.Props
open Spec Run Checker

/-! ## Proposals -/

theorem proposals_word {C : Checker} {fuel n : Nat} {w t : Str} (h : t ∈ proposals C fuel n w) (hs : ' ' ∉ t)
    (hd : '-' ∉ t) : Suggestable C fuel t := by
  have sug : ∀ {l}, t ∈ suggestables C fuel l → Suggestable C fuel t := by
    classical
    intro l h
    unfold suggestables at h
    simpa using (List.mem_filter.1 h).2
  have rep : t ∈ repWords C fuel w → Suggestable C fuel t := by
    classical
    intro h
    unfold repWords at h
    have h := (List.mem_filter.1 h).2
    simp only [decide_eq_true_eq] at h
    rcases h with h | ⟨parts, last, h1, rfl, -⟩
    · exact h
    · cases parts with
      | nil => exact absurd rfl h1
      | cons p ps => simp at hs
  have two : t ∉ splitWords C w := by
    intro h
    unfold splitWords at h
    split at h
    · simp at h
    · obtain ⟨s, -, h⟩ := List.mem_flatMap.1 h
      unfold inTwo at h
      split at h
      · rcases List.mem_cons.1 h with rfl | h
        · simp at hs
        · split at h
          · rw [List.mem_singleton] at h
            subst h
            simp at hd
          · simp at h
      · simp at h
  unfold proposals goodProposals at h
  simp only [List.mem_append] at h
  rcases h with ((((((((((h | h) | h) | h) | h) | h) | h) | h) | h) | h) | h) | h
  · exact sug h
  · exact rep h
  · exact sug h
  all_goals first | exact absurd h two | exact sug (by simpa only [List.mem_append] using h)

theorem secondFirst_word {C : Checker} {w : Str} {l l' : List Str} (h : SecondFirst C w l l') {t : Str}
    (ht : t ∈ l') (hs : ' ' ∉ t) : t ∈ l := by
  obtain ⟨ms, ks, hd, rfl⟩ := h
  have key : t ∈ ks := by
    rcases List.mem_append.1 ht with h | h
    · exfalso
      rw [List.mem_reverse] at h
      clear ht
      induction hd with
      | nil => simp at h
      | moved h1 _ ih =>
        rcases List.mem_cons.1 h with rfl | h
        · obtain ⟨a, c, b, -, -, -, rfl⟩ := h1
          simp at hs
        · exact ih h
      | kept _ _ ih => exact ih h
    · exact h
  clear ht
  induction hd with
  | nil => simp at key
  | moved _ _ ih => exact List.mem_cons_of_mem _ (ih key)
  | kept _ _ ih =>
    rcases List.mem_cons.1 key with rfl | h
    · exact List.mem_cons_self ..
    · exact List.mem_cons_of_mem _ (ih h)

theorem ifCorrect_word {C : Checker} {fuel : Nat} {w t : Str} {l : List Str} (h : IfCorrect C fuel w l) (ht : t ∈ l) :
    C.check fuel t = .ok true := by
  rcases h with ⟨h, rfl⟩ | ⟨h, rfl⟩
  · rw [List.mem_singleton] at ht
    rw [ht]; exact h
  · simp at ht

theorem dotSpace_word {U : Unicode} {w t : Str} {l : List Str} (h : DotSpace U w l) (ht : t ∈ l) : ' ' ∈ t := by
  rcases h with ⟨a, b, -, -, -, rfl⟩ | ⟨rfl, -⟩
  · rw [List.mem_singleton] at ht
    simp [ht]
  · simp at ht

/-- The suggestions for the spellings of a word not all in capitals. -/
theorem spellings_word {C : Checker} {fuel : Nat} {w t : Str} {casing : Casing} {good : Prop} {l : List Str}
    (h : Spellings C fuel w casing good l) (hc : casing ≠ .all) (ht : t ∈ l) (hs : ' ' ∉ t) (hd : '-' ∉ t) :
    Suggestable C fuel t ∨ C.check fuel t = .ok true := by
  have prop : ∀ {w g p}, Proposed C fuel w g p → t ∈ p → Suggestable C fuel t ∨ C.check fuel t = .ok true :=
    fun h ht => .inl (proposals_word (h.1 ▸ ht) hs hd)
  have dot : ∀ {d}, DotSpace C.U w d → t ∉ d := fun h ht => hs (dotSpace_word h ht)
  cases h with
  | none h => exact prop h ht
  | init h h' => exact (List.mem_append.1 ht).elim (prop h) (prop h')
  | all => exact absurd rfl hc
  | camel h1 h2 h3 h4 h5 =>
    have ht := secondFirst_word h5 ht hs
    simp only [List.mem_append] at ht
    rcases ht with ((h | h) | h) | h
    · exact .inr (ifCorrect_word h4 h)
    · exact absurd h (dot h2)
    · exact prop h1 h
    · exact prop h3 h
  | pascal h1 h2 h3 h4 h5 h6 h7 h8 h9 h10 =>
    have ht := secondFirst_word h10 ht hs
    simp only [List.mem_append] at ht
    rcases ht with ((((((h | h) | h) | h) | h) | h) | h) | h
    · exact .inr (ifCorrect_word h9 h)
    · exact .inr (ifCorrect_word h7 h)
    · exact .inr (ifCorrect_word h5 h)
    · exact absurd h (dot h2)
    · exact prop h1 h
    · exact prop h4 h
    · exact prop h6 h
    · exact prop h8 h

/-- Similar words, if none is forbidden. -/
theorem lookalike_word {C : Checker} (hC : C.dict.CondsParsed) (hN : NoneForbidden C.dict) {w t : Str}
    (h : Lookalike C w t) (fuel : Nat) : Suggestable C fuel t := by
  obtain ⟨stem, F, hm, -, -, h5, h6, hex⟩ := h
  have hs : (C.checkSimpleWord t .skip).isSome = true := by
    cases hex with
    | bare plain => exact C06_completeness C hC _ .skip (.listed ⟨hm, h5, fun _ => h6⟩ rfl plain) (.inl (by simp))
    | one cand cond applies =>
      exact C06_completeness C hC _ .skip (.one ⟨hm, h5, fun _ => h6⟩ ⟨cand.mem, applies, cond⟩ cand.licence
        cand.full cand.alone cand.nocirc) (.inl (by simp))
    | cross hs _ _ hcr => rw [hN.single _ hs.mem] at hcr; cases hcr
  obtain ⟨F', hF⟩ := Option.isSome_iff_exists.1 hs
  obtain ⟨stem', steps, hd⟩ := (checkSimpleWord_yields hC t .skip).1 F' hF
  refine ⟨F', ?_, hN.good stem' F' (Derives.usable hd).listed⟩
  unfold checkWord
  rw [hF]

theorem dashFix_dash {C : Checker} {fuel : Nat} {R : Str → Str → Prop} {w t : Str} (h : DashFix C fuel R w t)
    (hw : '-' ∈ w) : '-' ∈ t := by
  obtain ⟨pre, part, post, s, ⟨rfl, h1, -, -⟩, -, -, rfl, -⟩ := h
  simp only [List.mem_append] at hw ⊢
  rcases hw with h | h | h
  · exact .inl h
  · exact absurd h h1
  · exact .inr (.inr h)

theorem not_rejects_of {C : Checker} {t : Str} (h : Accepts C t) :
    ¬ Rejects C t ∧ ((∀ s, t ≠ s ++ ['.']) → Accepts C t) :=
  ⟨fun h' => (C26_one_outcome C t).2.1 ⟨h, h'⟩, fun _ => h⟩

theorem empty_convert_of {T : ConversionTable} (h : T = .empty) (w : Str) : T.convert w = w := by
  rw [h]; exact ConversionTable.empty_convert w

/-! ## C81 Suggestions are accepted by `check` -/

/-- What holds of the suggestions before the first letter is put in upper case and they are looked up again. -/
theorem before_ending {U : Unicode} {S : Suggester} (hD : Reachable U S.C.dict) (hS : Straight S.C.dict)
    (hn : S.ngram = false ∨ NoneForbidden S.C.dict) {word : Str} {out r : List Str} (h : Suggests S word out r)
    {casing : Casing} (hc : HasCasing S.C.U word casing) (hp : casing ≠ .all) :
    r = [] ∨ ∃ fuel before l, Ending S.C fuel casing before l ∧ (∀ t ∈ r, t ∈ l) ∧
      ∀ t ∈ before, OneWord S.C.dict t → ¬ Rejects S.C t ∧ ((∀ s, t ≠ s ++ ['.']) → Accepts S.C t) := by
  have conv := empty_convert_of hS.iconv
  by_cases hne : word = [] ∨ (utf8 word).length > 360
  · refine .inl ?_
    rcases suggests_inv h with ⟨h, -⟩ | ⟨h1, h2, -⟩
    · exact h
    · rcases hne with hne | hne
      · exact absurd hne h1
      · omega
  refine .inr ?_
  obtain ⟨fuel, depth, good, sp, sim, dash, l, h1, h2, h3, h4, h5⟩ := C59_exact hD h (fun h => hne (.inl h))
    (by omega) (conv word) (classifyCasing_iff.2 hc) fun _ hl => hl.1 hS.force
  refine ⟨fuel, _, l, h4, fun t ht => ?_, fun t ht hw => ?_⟩
  · rw [h5] at ht
    obtain ⟨t', ht', rfl⟩ := List.mem_map.1 ht
    rw [empty_convert_of hS.oconv]
    exact (mem_firsts.1 ht').1
  · have sug : Suggestable S.C fuel t ∨ S.C.check fuel t = .ok true →
        ¬ Rejects S.C t ∧ ((∀ s, t ≠ s ++ ['.']) → Accepts S.C t) := by
      rintro (h | h)
      · exact check_suggestable hS.force hS.twins h hw.short (conv t) hw.ignore
      · exact not_rejects_of ⟨fuel, h⟩
    rcases List.mem_append.1 ht with ht | ht
    · rcases List.mem_append.1 ht with ht | ht
      · exact sug (spellings_word h1 hp ht hw.space hw.dash)
      · obtain ⟨s, hs, he⟩ := h2.listed t ht
        rw [if_neg hp] at he
        subst he
        rcases hn with hn | hn
        · rw [h2.none (by simp [hn])] at ht
          simp at ht
        · exact sug (.inl (lookalike_word (wellMade_reachable hD).condsParsed hn hs fuel))
    · have := (h3 t).1 ht
      exact absurd (dashFix_dash this.2.2 this.1) hw.dash

/-- **C81**: with such a dictionary, and if similarity is off or no entry is forbidden or may have two affixes,
every suggestion of one word is accepted by `check`, if the word has no inner capitals behind a capital. (One which
ends in a dot is accepted if `check` returns at all.) Missing: words such as `IPhone`, where it is false, and the
other dictionaries; see the witnesses below. -/
theorem C81_accepted_partial {U : Unicode} {S : Suggester} (hD : Reachable U S.C.dict) (hS : Straight S.C.dict)
    (hn : S.ngram = false ∨ NoneForbidden S.C.dict) {word : Str} {out r : List Str} (h : Suggests S word out r)
    {casing : Casing} (hc : HasCasing S.C.U word casing) (hp : casing ≠ .pascal) {t : Str} (ht : t ∈ r)
    (hw : OneWord S.C.dict t) : ¬ Rejects S.C t ∧ ((∀ s, t ≠ s ++ ['.']) → Accepts S.C t) := by
  have capitals (hc' : casing = .init ∨ casing = .all) :
      ¬ Rejects S.C t ∧ ((∀ s, t ≠ s ++ ['.']) → Accepts S.C t) := by
    rw [← classifyCasing_iff] at hc
    obtain ⟨texts, rfl, -, h2⟩ := C56_rechecked h (by rw [empty_convert_of hS.iconv, hc]; exact hc')
    obtain ⟨t', ht', rfl⟩ := List.mem_map.1 ht
    rw [empty_convert_of hS.oconv] at hw ⊢
    exact not_rejects_of ((h2 t' ht').resolve_left hw.space)
  cases casing with
  | pascal => exact absurd rfl hp
  | init => exact capitals (.inl rfl)
  | all => exact capitals (.inr rfl)
  | none =>
    rcases before_ending hD hS hn h hc (by simp) with rfl | ⟨fuel, before, l, h1, h2, h3⟩
    · simp at ht
    · cases h1
      exact h3 t (h2 t ht) hw
  | camel =>
    rcases before_ending hD hS hn h hc (by simp) with rfl | ⟨fuel, before, l, h1, h2, h3⟩
    · simp at ht
    · cases h1
      exact h3 t (h2 t ht) hw

/-- **C81** (inner capitals behind a capital): every suggestion is a text whose first letter was put in upper case,
and which is accepted before that, if it is one word. -/
theorem C81_pascal_partial {U : Unicode} {S : Suggester} (hD : Reachable U S.C.dict) (hS : Straight S.C.dict)
    (hn : S.ngram = false ∨ NoneForbidden S.C.dict) {word : Str} {out r : List Str} (h : Suggests S word out r)
    (hc : HasCasing S.C.U word .pascal) {t : Str} (ht : t ∈ r) :
    ∃ c b, t = S.C.opts.caseHandling.upperChar S.C.U c ++ b ∧ (OneWord S.C.dict (c :: b) →
      ¬ Rejects S.C (c :: b) ∧ ((∀ s, c :: b ≠ s ++ ['.']) → Accepts S.C (c :: b))) := by
  rcases before_ending hD hS hn h hc (by simp) with rfl | ⟨fuel, before, l, h1, h2, h3⟩
  · simp at ht
  · cases h1 with
    | pascal hcap =>
      obtain ⟨t', ht', c, b, rfl, rfl⟩ := forall₂_mem hcap.flip (h2 t ht)
      exact ⟨c, b, rfl, h3 _ ht'⟩

/-- **C81** (a wrong word is not its own correction): a word which `check` rejects is not among the suggestions for
it, with the same exceptions. -/
theorem C81_not_itself_partial {U : Unicode} {S : Suggester} (hD : Reachable U S.C.dict) (hS : Straight S.C.dict)
    (hn : S.ngram = false ∨ NoneForbidden S.C.dict) {word : Str} {out r : List Str} (h : Suggests S word out r)
    {casing : Casing} (hc : HasCasing S.C.U word casing) (hp : casing ≠ .pascal) (hs : ' ' ∉ word) (hd : '-' ∉ word)
    (hi : ∀ c ∈ word, c ∉ S.C.dict.aff.ignoreChars) (hr : Rejects S.C word) : word ∉ r := by
  intro hm
  by_cases hl : (utf8 word).length ≤ 360
  · exact (C81_accepted_partial hD hS hn h hc hp hm ⟨hs, hd, hl, hi⟩).1 hr
  · rcases suggests_inv h with ⟨rfl, -⟩ | ⟨-, h2, -⟩
    · simp at hm
    · omega

/-- **C81** (initial capital, or all capitals): for these words, whose suggestions are looked up again, it is so with
every dictionary without OCONV. -/
theorem C81_not_itself_capitals {S : Suggester} (ho : S.C.dict.aff.outputConversions = .empty) {word : Str}
    {out r : List Str} (h : Suggests S word out r) {casing : Casing}
    (hc : HasCasing S.C.U (S.C.dict.aff.inputConversions.convert word) casing) (hp : casing = .init ∨ casing = .all)
    (hs : ' ' ∉ word) (hr : Rejects S.C word) : word ∉ r := by
  intro hm
  rw [← classifyCasing_iff] at hc
  obtain ⟨texts, rfl, -, h2⟩ := C56_rechecked h (by rw [hc]; exact hp)
  obtain ⟨t', ht', he⟩ := List.mem_map.1 hm
  rw [empty_convert_of ho] at he
  subst he
  exact (C26_one_outcome S.C t').2.1 ⟨(h2 t' ht').resolve_left hs, hr⟩

/-! ## Where it is false -/

/-- A test for `Straight`. -/
def straight (C : Checker) : Bool :=
  decide (C.dict.aff.inputConversions = .empty) && decide (C.dict.aff.outputConversions = .empty) &&
  decide (C.dict.aff.options.compoundForceUppercaseFlag = none) &&
  C.dict.words.slots.all (fun e => !e.2.contains 65535 || C.goodFlags e.2)

theorem straight_of {C : Checker} (h : straight C = true) : Straight C.dict := by
  simp only [straight, Bool.and_eq_true, decide_eq_true_eq, List.all_eq_true, Bool.or_eq_true,
    Bool.not_eq_true'] at h
  obtain ⟨⟨⟨h1, h2⟩, h3⟩, h4⟩ := h
  refine ⟨h1, h2, h3, fun stem F hm hF => ?_⟩
  rcases h4 (stem, F) hm with h | h
  · rw [← Bool.not_eq_true, FlagSet.contains_iff] at h
    exact absurd hF h
  · exact goodFlags_iff.1 h

/-- **C81** is false: with the entry `iPhone` the word `IPhone` is rejected, and is the only suggestion for itself.
The correction `iPhone` gets a capital, and is not looked up again. -/
theorem C81_pascal_negation : ∃ S : Suggester, Reachable .sample S.C.dict ∧ Straight S.C.dict ∧ S.ngram = false ∧
    HasCasing S.C.U "IPhone".toList .pascal ∧ Rejects S.C "IPhone".toList ∧ Accepts S.C "iPhone".toList ∧
    Suggests S "IPhone".toList [] ["IPhone".toList] := by
  obtain ⟨C, h1, h2⟩ := of_load (aff := "") (dic := "1\niPhone\n") (L := .default) (p := fun C =>
    straight C && decide (classifyCasing C.U "IPhone".toList = .pascal) &&
    decide (C.check 1 "IPhone".toList = .ok false) && decide (C.check 1 "iPhone".toList = .ok true) &&
    decide ((editsOnly C).suggest 1 1 "IPhone".toList [] = .ok ["IPhone".toList])) (by decide +kernel)
  simp only [Bool.and_eq_true, decide_eq_true_eq] at h2
  obtain ⟨⟨⟨⟨c1, c2⟩, c3⟩, c4⟩, c5⟩ := h2
  exact ⟨editsOnly C, (loadChecker_reachable h1).1, straight_of c1, rfl, classifyCasing_iff.1 c2, ⟨1, c3⟩, ⟨1, c4⟩,
    ⟨1, 1, c5⟩⟩

/-- **C81** is false with FORCEUCASE: the compound `1stfoo` is rejected since it lacks a capital, and is the only
suggestion for itself: a digit has no upper case. -/
theorem C81_force_negation : ∃ S : Suggester, Reachable .sample S.C.dict ∧
    S.C.dict.aff.inputConversions = .empty ∧ S.C.dict.aff.outputConversions = .empty ∧ S.ngram = false ∧
    HasCasing S.C.U "1stfoo".toList .none ∧ Rejects S.C "1stfoo".toList ∧
    Suggests S "1stfoo".toList [] ["1stfoo".toList] := by
  obtain ⟨C, h1, h2⟩ := of_load (aff := "COMPOUNDFLAG C\nFORCEUCASE U\n") (dic := "2\n1st/C\nfoo/CU\n")
    (L := .default) (p := fun C =>
    decide (C.dict.aff.inputConversions = .empty) && decide (C.dict.aff.outputConversions = .empty) &&
    decide (classifyCasing C.U "1stfoo".toList = .none) &&
    decide (C.check 9 "1stfoo".toList = .ok false) &&
    decide ((editsOnly C).suggest 9 1 "1stfoo".toList [] = .ok ["1stfoo".toList])) (by decide +kernel)
  simp only [Bool.and_eq_true, decide_eq_true_eq] at h2
  obtain ⟨⟨⟨⟨c1, c2⟩, c3⟩, c4⟩, c5⟩ := h2
  exact ⟨editsOnly C, (loadChecker_reachable h1).1, c1, c2, rfl, classifyCasing_iff.1 c3, ⟨9, c4⟩, ⟨9, 1, c5⟩⟩

/-- **C81** is false with ICONV: it makes the entry `ac` something else, so that it is never found, but still
suggested. And it is false with OCONV: it makes the wrong word out of its correction. -/
theorem C81_conversion_negation :
    (∃ S : Suggester, Reachable .sample S.C.dict ∧ S.C.dict.aff.outputConversions = .empty ∧ S.ngram = false ∧
      Rejects S.C "ac".toList ∧ Suggests S "ac".toList [] ["ac".toList]) ∧
    ∃ S : Suggester, Reachable .sample S.C.dict ∧ S.C.dict.aff.inputConversions = .empty ∧ S.ngram = false ∧
      Rejects S.C "ab".toList ∧ Suggests S "ab".toList [] ["ab".toList] := by
  constructor
  · obtain ⟨C, h1, h2⟩ := of_load (aff := "TRY a\nICONV 1\nICONV a b\n") (dic := "1\nac\n") (L := .default)
      (p := fun C => decide (C.dict.aff.outputConversions = .empty) && decide (C.check 1 "ac".toList = .ok false) &&
      decide ((editsOnly C).suggest 1 1 "ac".toList [] = .ok ["ac".toList])) (by decide +kernel)
    simp only [Bool.and_eq_true, decide_eq_true_eq] at h2
    exact ⟨editsOnly C, (loadChecker_reachable h1).1, h2.1.1, rfl, ⟨1, h2.1.2⟩, ⟨1, 1, h2.2⟩⟩
  · obtain ⟨C, h1, h2⟩ := of_load (aff := "TRY c\nOCONV 1\nOCONV ac ab\n") (dic := "1\nac\n") (L := .default)
      (p := fun C => decide (C.dict.aff.inputConversions = .empty) && decide (C.check 1 "ab".toList = .ok false) &&
      decide ((editsOnly C).suggest 1 1 "ab".toList [] = .ok ["ab".toList])) (by decide +kernel)
    simp only [Bool.and_eq_true, decide_eq_true_eq] at h2
    exact ⟨editsOnly C, (loadChecker_reachable h1).1, h2.1.1, rfl, ⟨1, h2.1.2⟩, ⟨1, 1, h2.2⟩⟩

/-- A dictionary and words of every letter case which meet the hypotheses, with similarity on. -/
example : ∃ S : Suggester, Reachable .sample S.C.dict ∧ Straight S.C.dict ∧ S.ngram = true ∧ NoneForbidden S.C.dict ∧
    (HasCasing S.C.U "foto".toList .none ∧ Rejects S.C "foto".toList ∧
      Suggests S "foto".toList [] ["photo".toList]) ∧
    (HasCasing S.C.U "Foto".toList .init ∧ Rejects S.C "Foto".toList ∧
      Suggests S "Foto".toList [] ["Photo".toList]) ∧
    (HasCasing S.C.U "fotO".toList .camel ∧ Rejects S.C "fotO".toList ∧
      Suggests S "fotO".toList [] ["photo".toList]) ∧
    HasCasing S.C.U "FoTo".toList .pascal ∧ Suggests S "FoTo".toList [] ["Photo".toList] ∧
    OneWord S.C.dict "photo".toList ∧ OneWord S.C.dict "Photo".toList := by
  obtain ⟨C, h1, h2⟩ := of_load (aff := "REP 1\nREP f ph\nSFX S N 1\nSFX S 0 s o\n") (dic := "1\nphoto/S\n")
    (L := .default) (p := fun C =>
    straight C && C.dict.words.slots.all (fun e => C.goodFlags e.2) &&
    C.dict.aff.suffixes.table.all (fun a => !a.crossproduct) && decide (C.dict.aff.ignoreChars = []) &&
    ([("foto", .none, "photo"), ("Foto", .init, "Photo"), ("fotO", .camel, "photo"), ("FoTo", .pascal, "Photo")] :
      List (String × Casing × String)).all fun x =>
      decide (classifyCasing C.U x.1.toList = x.2.1) && decide (C.check 1 x.1.toList = .ok false) &&
      decide (({ C, H := .sample, ngram := true } : Suggester).suggest 1 1 x.1.toList [] = .ok [x.2.2.toList]))
    (by decide +kernel)
  simp only [Bool.and_eq_true, decide_eq_true_eq, List.all_eq_true, List.mem_cons, List.not_mem_nil, or_false,
    forall_eq_or_imp, forall_eq, Bool.not_eq_true'] at h2
  obtain ⟨⟨⟨⟨c1, c2⟩, c3⟩, c4⟩, ⟨⟨a1, a2⟩, a3⟩, ⟨⟨b1, b2⟩, b3⟩, ⟨⟨d1, d2⟩, d3⟩, ⟨e1, _⟩, e3⟩ := h2
  refine ⟨{ C, H := .sample, ngram := true }, (loadChecker_reachable h1).1, straight_of c1, rfl,
    ⟨fun stem F h => goodFlags_iff.1 (c2 _ h), fun s h => c3 s h⟩,
    ⟨classifyCasing_iff.1 a1, ⟨1, a2⟩, ⟨1, 1, a3⟩⟩, ⟨classifyCasing_iff.1 b1, ⟨1, b2⟩, ⟨1, 1, b3⟩⟩,
    ⟨classifyCasing_iff.1 d1, ⟨1, d2⟩, ⟨1, 1, d3⟩⟩, classifyCasing_iff.1 e1, ⟨1, 1, e3⟩, ?_, ?_⟩ <;>
  exact ⟨by decide, by decide, by decide +kernel, by simp [c4]⟩

end Spellbook.Props
