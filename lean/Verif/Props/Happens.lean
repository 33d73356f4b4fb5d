import Verif.Proof.Happens
import Verif.Props.Whole
/-!
# C67 Every outcome of `check`
-/

namespace Spellbook.Props
open Spec Checker

variable {U : Unicode}

theorem happens_check {C : Checker} (hC : C.dict.CondsParsed) (hm : 0 < C.dict.aff.options.minChars)
    {lines : List Str} (hb : BreakTable.new lines = some C.dict.aff.breakTable) (word : Str) (o : Outcome) :
    Gives (fun f => C.check f word) o ↔
      Happens C C.choice lines word (C.dict.aff.inputConversions.convert word) o := by
  unfold check Happens
  by_cases hl : byteLen word > maxWordLen
  · rw [if_pos (show (utf8 word).length > 360 from hl)]
    simp only [if_pos hl]
    exact gives_false
  rw [if_neg (show ¬ (utf8 word).length > 360 from hl)]
  simp only [if_neg hl]
  change Gives (fun f => C.checkConverted f (C.dict.aff.inputConversions.convert word)) o ↔ _
  generalize C.dict.aff.inputConversions.convert word = w
  unfold checkConverted
  by_cases hw : w = []
  · subst hw
    simp only [List.isEmpty_nil, if_true, Gives.const]
    cases o <;> simp [Outcome.run]
  rw [if_neg hw]
  simp only [List.isEmpty_iff, hw, if_false]
  obtain ⟨n, h1, h2⟩ := trailing_dots w
  have huniq : ∀ t' n', w = t' ++ List.replicate n' '.' → (∀ s, t' ≠ s ++ ['.']) →
      t' = trimEndMatches '.' w ∧ (byteLen (trimEndMatches '.' w) != byteLen w) = decide (0 < n') := by
    rintro t' n' rfl hs
    have e := dots_unique (n := n') hs
    exact ⟨e.symm, by rw [e]; exact byteLen_dots⟩
  obtain ⟨-, h3⟩ := huniq _ n h1 h2
  have hex : ∀ p : Str → Bool → Prop, (∃ t n, w = t ++ List.replicate n '.' ∧ (∀ s, t ≠ s ++ ['.']) ∧
      p t (decide (0 < n))) ↔ p (trimEndMatches '.' w) (byteLen (trimEndMatches '.' w) != byteLen w) := by
    intro p
    constructor
    · rintro ⟨t', n', e, hs, hp⟩
      obtain ⟨e1, e2⟩ := huniq _ _ e hs
      rw [e2, ← e1]
      exact hp
    · intro hp
      rw [h3] at hp
      exact ⟨_, n, h1, h2, hp⟩
  have := hex fun t b => (IsNumber t ∧ o = .yes) ∨ (¬ IsNumber t ∧ AnyOf (BreakHappens C C.choice lines 9)
        ((t.filter fun x => x ∉ C.dict.aff.ignoreChars) :: if b = true then [w] else []) o)
  simp only [decide_eq_true_eq] at this
  rw [this]
  generalize trimEndMatches '.' w = t
  by_cases hn : isNumber t = true
  · have := (isNumber_iff _).1 hn
    simp only [hn, if_true, this, true_and, not_true, false_and, or_false, Gives.const]
    cases o <;> simp [Outcome.run]
  · have hn' : ¬ IsNumber t := fun h => hn ((isNumber_iff _).2 h)
    simp only [if_neg hn, hn', false_and, not_false_eq_true, true_and, false_or]
    generalize (byteLen t != byteLen w) = b
    have hg := gives_break hC hm hb 9
    have hor := gives_or (g := fun f => C.spellBreak f (eraseChars t C.aff.ignoreChars))
      (h := fun f => if b then C.spellBreak f w else pure false) (o := o)
      (fun {_ _} hf => spellBreak_le C hf _) (fun {_ _} hf => Le.iteBool (spellBreak_le C hf _) (Run.Le.refl _))
    refine hor.trans ?_
    rw [AnyOf, ← eraseChars_filter]
    unfold spellBreak
    rw [hg, hg]
    change (_ ∨ _ ∧ _) ↔ (_ ∨ _ ∧ _)
    have : Gives (fun f => if b = true then C.doSpellBreak f 9 w else pure false) o ↔
        AnyOf (BreakHappens C C.choice lines 9) (if b = true then [w] else []) o := by
      cases b with
      | false => exact gives_false
      | true =>
        simp only [if_true, AnyOf]
        rw [hg]
        constructor
        · intro h
          by_cases ho : o = .no
          · subst ho; exact .inr ⟨h, rfl⟩
          · exact .inl ⟨h, ho⟩
        · rintro (⟨h, -⟩ | ⟨h, rfl⟩) <;> exact h
    rw [this]

/-- **C67**: with every dictionary that was loaded and changed by `add` and `remove_stem`, and with every
checker, `check` returns true, returns false, panics, or recurses without end exactly if the
specification says so. `cx` are the settings of the `.aff` text. -/
theorem C67_outcome {C : Checker} {cx : Cx} (h : Reachable U C.dict) (hcx : MadeFrom cx C.dict.aff) :
    ∃ (c : Choice) (conv : Str → Str), c.Fits C.dict ∧ (∀ w, Converts cx.inputConversions w (conv w)) ∧
      ∀ word,
        (Accepts C word ↔ Happens C c cx.breakPatterns word (conv word) .yes) ∧
        (Rejects C word ↔ Happens C c cx.breakPatterns word (conv word) .no) ∧
        (Panics C word ↔ Happens C c cx.breakPatterns word (conv word) .panics) ∧
        (Diverges C word ↔ ¬ ∃ o, Happens C c cx.breakPatterns word (conv word) o) := by
  obtain ⟨hC, hm, -⟩ := C54_well_made h
  refine ⟨C.choice, C.dict.aff.inputConversions.convert, choice_fits hC, fun w => ?_, fun word => ?_⟩
  · obtain ⟨out, h1, h2⟩ := C20_conversion cx.inputConversions _ hcx.input w
    unfold ConversionTable.convert
    rw [h1]
    exact h2
  · have key := happens_check hC hm hcx.breaks word
    refine ⟨key .yes, key .no, key .panics, ?_⟩
    constructor
    · rintro hd ⟨o, ho⟩
      obtain ⟨f, hf⟩ := (key o).2 ho
      have := (hd f).symm.trans hf
      cases o <;> cases this
    · intro hn f
      cases hf : C.check f word with
      | ok b =>
        refine absurd ?_ hn
        cases b with
        | true => exact ⟨.yes, (key _).1 ⟨f, hf⟩⟩
        | false => exact ⟨.no, (key _).1 ⟨f, hf⟩⟩
      | error e =>
        cases e with
        | fuel => rfl
        | panic => exact absurd ⟨.panics, (key _).1 ⟨f, hf⟩⟩ hn

/-- **C67**: at most one of them. -/
theorem C67_unique {C : Checker} {cx : Cx} (h : Reachable U C.dict) (hcx : MadeFrom cx C.dict.aff) :
    ∃ (c : Choice) (conv : Str → Str), c.Fits C.dict ∧ (∀ w, Converts cx.inputConversions w (conv w)) ∧
      ∀ word o o', Happens C c cx.breakPatterns word (conv word) o →
        Happens C c cx.breakPatterns word (conv word) o' → o = o' := by
  obtain ⟨c, conv, h1, h2, h3⟩ := C67_outcome h hcx
  refine ⟨c, conv, h1, h2, fun word o o' ho ho' => ?_⟩
  obtain ⟨a1, a2, a3, -⟩ := h3 word
  obtain ⟨-, b1, b2, -, b3, -⟩ := C26_one_outcome C word
  rw [a1, a2] at b1
  rw [a1, a3] at b2
  rw [a2, a3] at b3
  cases o with
  | yes =>
    cases o' with
    | yes => rfl
    | no => exact absurd ⟨ho, ho'⟩ b1
    | panics => exact absurd ⟨ho, ho'⟩ b2
  | no =>
    cases o' with
    | yes => exact absurd ⟨ho', ho⟩ b1
    | no => rfl
    | panics => exact absurd ⟨ho, ho'⟩ b3
  | panics =>
    cases o' with
    | yes => exact absurd ⟨ho', ho⟩ b2
    | no => exact absurd ⟨ho', ho⟩ b3
    | panics => rfl

/-! Cases -/

deriving instance DecidableEq for AffixIndex
deriving instance DecidableEq for ConversionTable
deriving instance DecidableEq for Bag
deriving instance DecidableEq for AffOptions
deriving instance DecidableEq for CompoundRuleTable
deriving instance DecidableEq for AffData
deriving instance DecidableEq for Dict

/-- **C26** (termination) is false for dictionaries which can be loaded, with SIMPLIFIEDTRIPLE. -/
theorem C26_triple_loaded : ∃ D, parse .sample .default
      "FLAG num\nCOMPOUNDFLAG 1\nCOMPOUNDMIN 1\nSIMPLIFIEDTRIPLE\nBREAK 0\n".toList "1\na/1\n".toList = .ok D ∧
    Diverges { U := .sample, L := .default, dict := D } "aax".toList := by
  have h : (parse .sample .default
      "FLAG num\nCOMPOUNDFLAG 1\nCOMPOUNDMIN 1\nSIMPLIFIEDTRIPLE\nBREAK 0\n".toList
      "1\na/1\n".toList).toOption = some tripleChecker.dict := by decide +kernel
  refine ⟨tripleChecker.dict, ?_, C26_triple_diverges⟩
  revert h
  cases parse .sample .default _ _ with
  | error e => exact nofun
  | ok D => intro h; rw [show D = _ from Option.some.inj h]

/-- **C26** (termination) is false for dictionaries which can be loaded, with a replacement that grows the
word. -/
theorem C26_pattern_loaded : ∃ D, parse .sample .default
      "FLAG num\nCOMPOUNDFLAG 1\nCHECKCOMPOUNDPATTERN 1\nCHECKCOMPOUNDPATTERN a bbbz z\nBREAK 0\n".toList
      "1\nbbba/1\n".toList = .ok D ∧
    Diverges { U := .sample, L := .default, dict := D } "bbbzyy".toList := by
  have h : (parse .sample .default
      "FLAG num\nCOMPOUNDFLAG 1\nCHECKCOMPOUNDPATTERN 1\nCHECKCOMPOUNDPATTERN a bbbz z\nBREAK 0\n".toList
      "1\nbbba/1\n".toList).toOption = some growChecker.dict := by decide +kernel
  refine ⟨growChecker.dict, ?_, C26_pattern_diverges⟩
  revert h
  cases parse .sample .default _ _ with
  | error e => exact nofun
  | ok D => intro h; rw [show D = _ from Option.some.inj h]

/-- The same dictionary, where a word in lower case is also looked up in title case. -/
def titleToo (C : Checker) : Checker := { C with checkLowerAsTitle := true }

/-- All four outcomes occur: with the dictionary of C66, whose checker also tries the title case, and with
SIMPLIFIEDTRIPLE. -/
example : (∃ C : Checker, Reachable .sample C.dict ∧ ∃ cx, MadeFrom cx C.dict.aff ∧
      ∃ (c : Choice) (conv : Str → Str), c.Fits C.dict ∧
        Happens C c cx.breakPatterns "foot-Ball".toList (conv "foot-Ball".toList) .yes ∧
        Happens C c cx.breakPatterns "footsball".toList (conv "footsball".toList) .no ∧
        Happens C c cx.breakPatterns ".".toList (conv ".".toList) .panics) ∧
    (∃ C : Checker, Reachable .sample C.dict ∧ ∃ cx, MadeFrom cx C.dict.aff ∧
      ∃ (c : Choice) (conv : Str → Str), c.Fits C.dict ∧
        ¬ ∃ o, Happens C c cx.breakPatterns "aax".toList (conv "aax".toList) o) := by
  constructor
  · obtain ⟨C, h1, h2⟩ := of_load (aff := wholeAff) (dic := wholeDic) (L := .default)
      (p := fun C => decide ((titleToo C).check 20 "foot-Ball".toList = .ok true) &&
        decide ((titleToo C).check 20 "footsball".toList = .ok false) &&
        decide ((titleToo C).check 20 ".".toList = .error .panic)) (by decide +kernel)
    obtain ⟨hr, -⟩ := loadChecker_reachable h1
    obtain ⟨S, aff, dic, D₀, hp, ha⟩ := C54_aff_unchanged hr
    obtain ⟨cx, -, hcx⟩ := C53_settings hp
    rw [← ha] at hcx
    simp only [Bool.and_eq_true, decide_eq_true_eq] at h2
    obtain ⟨c, conv, h4, -, h5⟩ := C67_outcome (C := titleToo C) hr hcx
    exact ⟨titleToo C, hr, cx, hcx, c, conv, h4, (h5 _).1.1 ⟨20, h2.1.1⟩,
      (h5 _).2.1.1 ⟨20, h2.1.2⟩, (h5 _).2.2.1.1 ⟨20, h2.2⟩⟩
  · obtain ⟨D, hD, hd⟩ := C26_triple_loaded
    obtain ⟨cx, -, hcx⟩ := C53_settings hD
    obtain ⟨c, conv, h4, -, h5⟩ := C67_outcome (C := { U := .sample, L := .default, dict := D }) (.loaded hD) hcx
    exact ⟨_, .loaded hD, cx, hcx, c, conv, h4, (h5 _).2.2.2.1 hd⟩

end Spellbook.Props
