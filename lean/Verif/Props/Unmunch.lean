import Verif.Proof.Unmunch
/-!
# C92 Affixes only abbreviate the word list
-/

namespace Spellbook.Props
open Spec Checker

variable {U : Unicode} {C C' : Checker}

/-- **C92** (check): a dictionary without compounds, in which the marks of a word do not depend on how it was made, and
the list of all its words, with the same settings but without affixes, give the same answer for every word. The list may
have any order. -/
theorem C92_check (hD : Reachable U C.dict) (h : ListsAll C C') (hm : SameMarks C.dict)
    (hn : C.dict.aff.options.allowsCompounding = false) (hr : C.dict.aff.compoundRules.rules = [])
    (h1 : C.checkLowerAsTitle = false) (h2 : C.checkLowerAsUpper = false) (word : Str) :
    (Accepts C word ↔ Accepts C' word) ∧ (Rejects C word ↔ Rejects C' word) := by
  unfold Accepts Rejects
  simp only [Unmunch.check h hm (C54_well_made hD).1 hn hr h1 h2, and_self]

/-- **C92** (finite): every dictionary has such a list. -/
theorem C92_finite (D : Dict) : ∃ entries, Unmunched D entries :=
  ⟨(Unmunch.derives_finite D).toFinset.toList, fun w F => by simp⟩

/-- **C92** (list): so for every dictionary as above there is a checker without any affixes which gives the same
answers. -/
theorem C92_list (hD : Reachable U C.dict) (hm : SameMarks C.dict)
    (hn : C.dict.aff.options.allowsCompounding = false) (hr : C.dict.aff.compoundRules.rules = [])
    (h1 : C.checkLowerAsTitle = false) (h2 : C.checkLowerAsUpper = false) : ∃ C' : Checker,
      C'.U = C.U ∧ C'.dict.aff = unaffixed C.dict.aff ∧ C'.dict.aff.prefixes.table = [] ∧ C'.dict.aff.suffixes.table = [] ∧
      ∀ word, (Accepts C word ↔ Accepts C' word) ∧ (Rejects C word ↔ Rejects C' word) := by
  obtain ⟨entries, he⟩ := C92_finite C.dict
  exact ⟨{ C with dict := ⟨⟨entries⟩, unaffixed C.dict.aff⟩ }, rfl, rfl, rfl, rfl,
    C92_check hD ⟨rfl, rfl, rfl, rfl, he⟩ hm hn hr h1 h2⟩

/-- The list for a dictionary with a single suffix. -/
theorem unmunched_single {D : Dict} {a : Affix} {entries : List (Str × FlagSet)} (hp : D.aff.prefixes.table = [])
    (hs : D.aff.suffixes.table = [a]) (hc : a.condition = none) (hst : a.strip = none) (hf : a.flags.elems = [])
    (hn : D.aff.options.needAffixFlag = none) (ho : D.aff.options.onlyInCompoundFlag = none)
    (hcp : D.aff.options.complexPrefixes = false)
    (he : ∀ e ∈ entries, e ∈ D.words.slots ∨ ∃ e' ∈ D.words.slots, a.flag ∈ e'.2.elems ∧ e = (e'.1 ++ a.add, e'.2))
    (he' : ∀ e ∈ D.words.slots, e ∈ entries ∧ (a.flag ∈ e.2.elems → (e.1 ++ a.add, e.2) ∈ entries)) :
    Unmunched D entries := by
  have noPrefix : ∀ b, b ∉ tableOf D .pfx := by
    intro b hb
    unfold tableOf at hb
    rw [hp] at hb
    cases hb
  have suffix : ∀ {b}, b ∈ tableOf D .sfx → b = a := by
    intro b hb
    unfold tableOf at hb
    rw [hs, List.mem_singleton] at hb
    exact hb
  have usable : ∀ {stem F}, (stem, F) ∈ D.words.slots → Usable D false stem F := fun h =>
    ⟨h, (by rintro ⟨x, hx, -⟩; rw [ho] at hx; cases hx), nofun⟩
  have dbl : doubled D = .sfx := by unfold doubled; rw [hcp]; rfl
  intro w F
  constructor
  · intro hw
    rcases he _ hw with hw | ⟨⟨stem, G⟩, hm, hl, e⟩
    · exact ⟨w, [], .listed (usable hw) rfl (by rintro ⟨x, hx, -⟩; rw [hn] at hx; cases hx)⟩
    · cases e
      refine ⟨stem, _, .one (k := .sfx) (a := a) (usable hm) ⟨?_, ?_, ?_⟩ hl ?_ ?_ ?_⟩
      · unfold tableOf; rw [hs]; exact .head _
      · exact ⟨stem, by rw [hst]; simp, rfl⟩
      · intro c hc'; rw [hc] at hc'; cases hc'
      all_goals
        rintro ⟨x, -, hx⟩
        rw [hf] at hx
        cases hx
  · rintro ⟨stem, steps, hd⟩
    cases hd with
    | listed hu e => rw [e]; exact (he' _ hu.1).1
    | @one k b hu st hl =>
      cases k with
      | pfx => exact absurd st.1 (noPrefix _)
      | sfx =>
        obtain rfl := suffix st.1
        obtain ⟨r, hr, rfl⟩ := st.2
        rw [hst] at hr
        simp only [Option.getD_none, List.append_nil] at hr
        subst hr
        exact (he' _ hu.1).2 hl
    | pair _ _ st => exact absurd st.1 (noPrefix _)
    | two _ st1 _ _ _ _ hl =>
      rw [dbl] at st1
      rw [suffix st1.1, hf] at hl
      exact absurd hl.2 List.not_mem_nil
    | twoThenOne _ st1 _ _ _ _ _ _ hl =>
      rw [dbl] at st1
      rw [suffix st1.1, hf] at hl
      exact absurd hl.2.1 List.not_mem_nil
    | sandwich _ _ hb =>
      rw [dbl] at hb
      exact absurd hb (noPrefix _)

/-- What the examples have in common. -/
def oneSuffix (C : Checker) (entries : List (Str × FlagSet)) : Bool :=
  decide (C.dict.aff.prefixes.table = []) &&
  (match C.dict.aff.suffixes.table with
    | [a] => decide (a.condition = none) && decide (a.strip = none) && decide (a.flags.elems = []) &&
      decide (∀ e ∈ entries, e ∈ C.dict.words.slots ∨
        ∃ e' ∈ C.dict.words.slots, a.flag ∈ e'.2.elems ∧ e = (e'.1 ++ a.add, e'.2)) &&
      decide (∀ e ∈ C.dict.words.slots, e ∈ entries ∧ (a.flag ∈ e.2.elems → (e.1 ++ a.add, e.2) ∈ entries))
    | _ => false) &&
  decide (C.dict.aff.options.needAffixFlag = none) && decide (C.dict.aff.options.onlyInCompoundFlag = none) &&
  decide (C.dict.aff.options.complexPrefixes = false)

theorem unmunched_of {entries : List (Str × FlagSet)} (h : oneSuffix C entries = true) : Unmunched C.dict entries := by
  unfold oneSuffix at h
  split at h
  · rename_i a ha
    simp only [Bool.and_eq_true, decide_eq_true_eq] at h
    obtain ⟨⟨⟨⟨a1, ⟨⟨⟨a2, a3⟩, a4⟩, a5⟩, a6⟩, a7⟩, a8⟩, a9⟩ := h
    exact unmunched_single a1 ha a2 a3 a4 a7 a8 a9 a5 a6
  · simp at h

/-- The checker of a list of words without affixes. -/
abbrev listed (C : Checker) (entries : List (Str × FlagSet)) : Checker :=
  { C with dict := ⟨⟨entries⟩, unaffixed C.dict.aff⟩ }

/-- The list for `work/A` and `play`: all three words are listed, and the theorem applies. -/
example : ∃ C, loadChecker "SFX A Y 1\nSFX A 0 s .\n" "2\nwork/A\nplay\n" = some C ∧
    ListsAll C (listed C [("work".toList, .ofList [65]), ("works".toList, .ofList [65]), ("play".toList, .ofList [])]) ∧
    SameMarks C.dict ∧ C.dict.aff.options.allowsCompounding = false ∧ C.dict.aff.compoundRules.rules = [] ∧
    C.checkLowerAsTitle = false ∧ C.checkLowerAsUpper = false ∧
    C.check 9 "Works".toList = .ok true ∧ C.check 9 "plays".toList = .ok false := by
  obtain ⟨C, h1, h2⟩ := of_load (aff := "SFX A Y 1\nSFX A 0 s .\n") (dic := "2\nwork/A\nplay\n") (L := .default)
    (p := fun C => oneSuffix C [("work".toList, .ofList [65]), ("works".toList, .ofList [65]), ("play".toList, .ofList [])] &&
      decide (∀ e ∈ C.dict.words.slots, ¬ Marked C.dict e.2) && decide (C.dict.aff.options.allowsCompounding = false) &&
      decide (C.dict.aff.compoundRules.rules = []) && decide (C.checkLowerAsTitle = false) &&
      decide (C.checkLowerAsUpper = false) && decide (C.check 9 "Works".toList = .ok true) &&
      decide (C.check 9 "plays".toList = .ok false)) (by decide +kernel)
  simp only [Bool.and_eq_true, decide_eq_true_eq] at h2
  obtain ⟨⟨⟨⟨⟨⟨⟨a, b⟩, c⟩, d⟩, e⟩, f⟩, g⟩, i⟩ := h2
  exact ⟨C, h1, ⟨rfl, rfl, rfl, rfl, unmunched_of a⟩, sameMarks_none b, c, d, e, f, g, i⟩

/-- **C92** needs that the marks of a word do not depend on how it was made: `works` is listed as forbidden, and is also
the plural of `work`. In a list with both entries the order decides. -/
theorem C92_marks_needed : ∃ C entries, loadChecker "FORBIDDENWORD X\nSFX A Y 1\nSFX A 0 s .\n" "2\nwork/A\nworks/X\n" = some C ∧
    ListsAll C (listed C entries) ∧ ListsAll C (listed C entries.reverse) ∧
    C.dict.aff.options.allowsCompounding = false ∧ C.dict.aff.compoundRules.rules = [] ∧
    Rejects C "works".toList ∧ Accepts (listed C entries) "works".toList ∧
    Rejects (listed C entries.reverse) "works".toList := by
  obtain ⟨C, h1, h2⟩ := of_load (aff := "FORBIDDENWORD X\nSFX A Y 1\nSFX A 0 s .\n") (dic := "2\nwork/A\nworks/X\n")
    (L := .default)
    (p := fun C =>
      let l := [("work".toList, .ofList [65]), ("works".toList, .ofList [65]), ("works".toList, .ofList [88])]
      oneSuffix C l && oneSuffix C l.reverse && decide (C.dict.aff.options.allowsCompounding = false) &&
      decide (C.dict.aff.compoundRules.rules = []) && decide (C.check 9 "works".toList = .ok false) &&
      decide ((listed C l).check 9 "works".toList = .ok true) &&
      decide ((listed C l.reverse).check 9 "works".toList = .ok false)) (by decide +kernel)
  simp only [Bool.and_eq_true, decide_eq_true_eq] at h2
  obtain ⟨⟨⟨⟨⟨⟨a, b⟩, c⟩, d⟩, e⟩, f⟩, g⟩ := h2
  exact ⟨C, _, h1, ⟨rfl, rfl, rfl, rfl, unmunched_of a⟩, ⟨rfl, rfl, rfl, rfl, unmunched_of b⟩, c, d, ⟨9, e⟩, ⟨9, f⟩, ⟨9, g⟩⟩

/-- **C92** is false with compounds: a suffix is allowed at the end of a compound only, but a listed word anywhere. -/
theorem C92_compounds : ∃ C entries, loadChecker "COMPOUNDFLAG C\nSFX A Y 1\nSFX A 0 s .\n" "2\nwork/AC\nshop/C\n" = some C ∧
    ListsAll C (listed C entries) ∧ SameMarks C.dict ∧ Accepts C "workshop".toList ∧
    Rejects C "worksshop".toList ∧ Accepts (listed C entries) "worksshop".toList := by
  obtain ⟨C, h1, h2⟩ := of_load (aff := "COMPOUNDFLAG C\nSFX A Y 1\nSFX A 0 s .\n") (dic := "2\nwork/AC\nshop/C\n")
    (L := .default)
    (p := fun C =>
      let l := [("work".toList, .ofList [65, 67]), ("works".toList, .ofList [65, 67]), ("shop".toList, .ofList [67])]
      oneSuffix C l && decide (∀ e ∈ C.dict.words.slots, ¬ Marked C.dict e.2) &&
      decide (C.check 40 "workshop".toList = .ok true) &&
      decide (C.check 40 "worksshop".toList = .ok false) &&
      decide ((listed C l).check 40 "worksshop".toList = .ok true)) (by decide +kernel)
  simp only [Bool.and_eq_true, decide_eq_true_eq] at h2
  obtain ⟨⟨⟨⟨a, b⟩, e⟩, f⟩, g⟩ := h2
  exact ⟨C, _, h1, ⟨rfl, rfl, rfl, rfl, unmunched_of a⟩, sameMarks_none b, ⟨40, e⟩, ⟨40, f⟩, ⟨40, g⟩⟩

end Spellbook.Props
