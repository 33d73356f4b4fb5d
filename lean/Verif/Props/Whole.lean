import Verif.Proof.Whole
import Verif.Props.Dictionary
import Verif.Props.Parser
import Verif.Props.Suggest
/-!
# C66 The whole answer of `check`

What `check` answers, told from the content of the dictionary alone: its entries, its affixes, and
the settings read from the `.aff` text.
-/

namespace Spellbook.Props
open Spec Checker

variable {U : Unicode} {S : Sorts} {aff dic : Str}

theorem correct_prepared {C : Checker} (hC : C.dict.CondsParsed) (hm : 0 < C.dict.aff.options.minChars)
    (h1 : C.checkLowerAsTitle = false) (h2 : C.checkLowerAsUpper = false) (lines : List Str) (word : Str) :
    Correct C C.choice lines word (C.dict.aff.inputConversions.convert word) ↔
      Prepared C (Breaks lines (WholeVerdict C) 9) word := by
  rw [verdict_iff hC hm (canTitle_default h1 h2)]
  rfl

/-- **C66**: with a dictionary that was loaded and changed by `add` and `remove_stem`, `check` returns
true exactly for the correct words and false exactly for the others. `cx` are the settings of the
`.aff` text. The dictionary must be one on which the search for compounds ends. -/
theorem C66_correct {C : Checker} {cx : Cx} (h : Reachable U C.dict) (hcx : MadeFrom cx C.dict.aff)
    (hD : C.dict.Shrinking) (h1 : C.checkLowerAsTitle = false) (h2 : C.checkLowerAsUpper = false) :
    ∃ (c : Choice) (conv : Str → Str), c.Fits C.dict ∧ (∀ w, Converts cx.inputConversions w (conv w)) ∧
      ∀ word, (Accepts C word ↔ Correct C c cx.breakPatterns word (conv word)) ∧
        (Rejects C word ↔ ¬ Correct C c cx.breakPatterns word (conv word)) := by
  obtain ⟨hC, hm, -⟩ := C54_well_made h
  refine ⟨C.choice, C.dict.aff.inputConversions.convert, choice_fits hC, fun w => ?_, fun word => ?_⟩
  · obtain ⟨out, h1, h2⟩ := C20_conversion cx.inputConversions _ hcx.input w
    unfold ConversionTable.convert
    rw [h1]
    exact h2
  · have ha : Accepts C word ↔ _ := C51_preparation C cx.breakPatterns hcx.breaks hD h1 h2 word
    rw [correct_prepared hC hm h1 h2]
    refine ⟨ha, ?_⟩
    rw [← ha]
    constructor
    · exact fun hr ha => (C26_one_outcome C word).2.1 ⟨ha, hr⟩
    · intro hn
      exact (C26_default_decides_partial C hD h1 h2 word).resolve_left hn

/-- **C66** for two texts: the dictionary which `Dictionary::new` makes of them. -/
theorem C66_texts {D : Dict} (h : parse U S aff dic = .ok D) (hD : D.Shrinking) (L : Layout) :
    Denotes U aff dic D ∧ ∃ cx, Settings U aff cx ∧ MadeFrom cx D.aff ∧
      ∃ (c : Choice) (conv : Str → Str), c.Fits D ∧ (∀ w, Converts cx.inputConversions w (conv w)) ∧
        ∀ word, (Accepts { U, L, dict := D } word ↔
            Correct { U, L, dict := D } c cx.breakPatterns word (conv word)) ∧
          (Rejects { U, L, dict := D } word ↔
            ¬ Correct { U, L, dict := D } c cx.breakPatterns word (conv word)) := by
  obtain ⟨cx, h1, h2⟩ := C53_settings h
  exact ⟨C37_entries h, cx, h1, h2, C66_correct (C := { U, L, dict := D }) (.loaded h) h2 hD rfl rfl⟩

/-- **C66** (soundness): with every dictionary only correct words are accepted. -/
theorem C66_sound {C : Checker} {cx : Cx} (h : Reachable U C.dict) (hcx : MadeFrom cx C.dict.aff)
    (h1 : C.checkLowerAsTitle = false) (h2 : C.checkLowerAsUpper = false) :
    ∃ (c : Choice) (conv : Str → Str), c.Fits C.dict ∧ (∀ w, Converts cx.inputConversions w (conv w)) ∧
      ∀ word, Accepts C word → Correct C c cx.breakPatterns word (conv word) := by
  obtain ⟨hC, hm, -⟩ := C54_well_made h
  refine ⟨C.choice, C.dict.aff.inputConversions.convert, choice_fits hC, fun w => ?_, fun word hw => ?_⟩
  · obtain ⟨out, h1, h2⟩ := C20_conversion cx.inputConversions _ hcx.input w
    unfold ConversionTable.convert
    rw [h1]
    exact h2
  · rw [correct_prepared hC hm h1 h2]
    exact C51_preparation_sound C cx.breakPatterns hcx.breaks word hw

/-- All derivations of a text have the same flags. -/
def OneMeaning (D : Dict) : Prop :=
  ∀ skipHidden w stem F steps stem' F' steps', Derives .code D skipHidden w stem F steps →
    Derives .code D skipHidden w stem' F' steps' → F = F'

/-- **C66**: without compounds, and if all derivations of a text have the same flags, the choice has no
part in the answer: a text is decided by the flags of its derivations. -/
theorem C66_no_choice {D : Dict} {c : Choice} (hc : c.Fits D) (hu : OneMeaning D)
    (hn : D.aff.options.allowsCompounding = false) (hr : D.aff.compoundRules.rules = [])
    (fc : Forceucase) (hh : HiddenHomonym) (word : Str) :
    (∀ F, Decides U D c fc hh word (some F) ↔ ∃ stem steps, Derives .code D hh.skips word stem F steps) ∧
    (Decides U D c fc hh word none ↔ ¬ ∃ stem F steps, Derives .code D hh.skips word stem F steps) := by
  have hno : ∀ parts, ¬ RuleCompound D fc word parts := by
    intro parts hp
    obtain ⟨rule, h, -⟩ := hp.rule
    rw [hr] at h
    simp at h
  have hcF : ∀ F, ¬ CompoundDecides U D c fc word (some F) := by
    rintro F (⟨h, -⟩ | ⟨-, l, p, q, h, -⟩)
    · rw [hn] at h; cases h
    · exact hno _ h
  have hcN : CompoundDecides U D c fc word none :=
    ⟨fun h => absurd h (by simp [hn]), fun ⟨parts, h, _⟩ => hno parts h⟩
  refine ⟨fun F => ⟨?_, ?_⟩, ?_, ?_⟩
  · rintro (⟨h, -⟩ | ⟨-, h⟩)
    · exact hc.simple_some _ _ _ h
    · exact absurd h (hcF F)
  · rintro ⟨stem, steps, h⟩
    left
    refine ⟨?_, by simp⟩
    cases hs : c.simple hh word with
    | none => exact absurd ⟨stem, F, steps, h⟩ (hc.simple_none _ _ hs)
    | some F' =>
      obtain ⟨stem', steps', h'⟩ := hc.simple_some _ _ _ hs
      rw [hu _ _ _ _ _ _ _ _ h h']
  · rintro (⟨-, h⟩ | ⟨h, -⟩)
    · exact absurd rfl h
    · exact hc.simple_none _ _ h
  · intro h
    right
    refine ⟨?_, hcN⟩
    cases hs : c.simple hh word with
    | none => rfl
    | some F' =>
      obtain ⟨stem', steps', h'⟩ := hc.simple_some _ _ _ hs
      exact absurd ⟨_, _, _, h'⟩ h

/-- **C66**: so any two choices agree on what is correct. -/
theorem C66_choices_agree {C : Checker} {c c' : Choice} (hc : c.Fits C.dict) (hc' : c'.Fits C.dict)
    (hu : OneMeaning C.dict) (hn : C.dict.aff.options.allowsCompounding = false)
    (hr : C.dict.aff.compoundRules.rules = []) (lines : List Str) (word converted : Str) :
    Correct C c lines word converted ↔ Correct C c' lines word converted := by
  have h : ∀ fc hh w o, Decides C.U C.dict c fc hh w o ↔ Decides C.U C.dict c' fc hh w o := by
    intro fc hh w o
    cases o with
    | none => rw [(C66_no_choice hc hu hn hr fc hh w).2, (C66_no_choice hc' hu hn hr fc hh w).2]
    | some F => rw [(C66_no_choice hc hu hn hr fc hh w).1, (C66_no_choice hc' hu hn hr fc hh w).1]
  have hf : ∀ a : Attempt, a.Fails C c ↔ a.Fails C c' := by
    intro a; unfold Attempt.Fails; simp only [h]
  have hs : ∀ (a : Attempt) F, a.Succeeds C c F ↔ a.Succeeds C c' F := by
    intro a F; unfold Attempt.Succeeds; simp only [h]
  have hv : WordVerdict C c = WordVerdict C c' := by
    funext w o
    cases o <;> simp only [WordVerdict, hf, hs]
  unfold Correct
  rw [hv]

/-- Two words which take a plural. -/
def pluralChecker : Checker :=
  mkChecker [("cat", [1]), ("dog", [1])] { suffixes := AffixIndex.ofList .sfx [affix 1 "" "s"] }

theorem pluralChecker_oneMeaning : OneMeaning pluralChecker.dict := by
  intro sk w stem F steps stem' F' steps' h h'
  have e := (Derives.usable h).1
  have e' := (Derives.usable h').1
  have hs : ∀ e ∈ pluralChecker.dict.words.slots, e.2 = FlagSet.ofList [1] := by decide
  rw [show F = _ from hs _ e, show F' = _ from hs _ e']

example (c : Choice) (hc : c.Fits pluralChecker.dict) :
    Decides pluralChecker.U pluralChecker.dict c .forbidBad .skip "dogs".toList (some (FlagSet.ofList [1])) := by
  refine ((C66_no_choice hc pluralChecker_oneMeaning (by decide) (by decide) _ _ _).1 _).2 ?_
  exact (C05_exact pluralChecker (condsParsed_of (by decide +kernel)) "dogs".toList .skip).1 _ (by decide +kernel)

/-- **C66** (rules): the search with COMPOUNDRULE always ends; it returns the flags of the last part but
one of the first compound in order made of the entries looked at, and nothing exactly if there is
none. -/
theorem C66_rules {C : Checker} (h : Reachable U C.dict) : ∃ c : Choice, c.Fits C.dict ∧
    ∀ word fc, (∀ F, (∃ r, C.checkRules word fc = .ok (some r) ∧ r.flags = F) ↔ RuleDecides C.dict c fc word F) ∧
      (C.checkRules word fc = .ok none ↔
        ¬ ∃ parts, RuleCompound C.dict fc word parts ∧ ∀ e ∈ parts, c.pick e.1 = some e) := by
  obtain ⟨hC, hm, -⟩ := C54_well_made h
  exact ⟨C.choice, choice_fits hC, fun word fc => checkRules_iff hm fc word⟩

/-! Cases -/

theorem shrinking_of_load {aff dic : String} {L : Layout} {p : Checker → Bool}
    (h : (loadChecker aff dic L).any (fun C => p C && decide (0 < C.dict.aff.options.minChars) &&
      !C.dict.aff.options.compoundSimplifiedTriple && C.dict.aff.compoundPatterns.all (·.replacement.isNone)) = true) :
    ∃ C, loadChecker aff dic L = some C ∧ p C = true ∧ C.dict.Shrinking := by
  obtain ⟨C, h1, h2⟩ := of_load h
  simp only [Bool.and_eq_true, decide_eq_true_eq, Bool.not_eq_true', List.all_eq_true] at h2
  refine ⟨C, h1, h2.1.1.1, h2.1.1.2, by simp [h2.1.2], fun c hc rep hr => ?_⟩
  have := h2.2 c hc
  rw [hr] at this
  cases this

/-- An affix file with affixes, compounds, COMPOUNDRULE, ICONV, BREAK and KEEPCASE. -/
def wholeAff : String :=
  "COMPOUNDFLAG C\nCOMPOUNDRULE 1\nCOMPOUNDRULE N*T\nKEEPCASE K\nICONV 1\nICONV ’ '\nSFX S Y 1\nSFX S 0 s .\n"

def wholeDic : String := "7\nfoot/CS\nball/CS\nkg/K\ndon't\n100/N\n200/N\n300th/T\n"

/-- The texts denote a dictionary on which compounds end, and words of every sort are correct or not. -/
example : ∃ C : Checker, loadChecker wholeAff wholeDic = some C ∧ C.dict.Shrinking ∧
    ∃ cx, MadeFrom cx C.dict.aff ∧ ∃ (c : Choice) (conv : Str → Str), c.Fits C.dict ∧
      (∀ w ∈ ["foots", "Football", "footballs", "DON’T", "kg", "football-Foot.", "100200300th", "12,5"],
        Correct C c cx.breakPatterns w.toList (conv w.toList)) ∧
      (∀ w ∈ ["footsball", "KG", "fooT", "300th100", "x"],
        ¬ Correct C c cx.breakPatterns w.toList (conv w.toList)) := by
  obtain ⟨C, h1, h2, h3⟩ := shrinking_of_load (aff := wholeAff) (dic := wholeDic) (L := .default)
    (p := fun C => ["foots", "Football", "footballs", "DON’T", "kg", "football-Foot.", "100200300th", "12,5"].all
        (fun w => decide (C.check 20 w.toList = .ok true)) &&
      ["footsball", "KG", "fooT", "300th100", "x"].all
        (fun w => decide (C.check 20 w.toList = .ok false)))
    (by decide +kernel)
  obtain ⟨hr, hl, hu, -⟩ := loadChecker_reachable h1
  obtain ⟨S, aff, dic, D₀, hp, ha⟩ := C54_aff_unchanged hr
  obtain ⟨cx, -, hcx⟩ := C53_settings hp
  rw [← ha] at hcx
  obtain ⟨c, conv, h4, -, h5⟩ := C66_correct hr hcx h3 hl hu
  simp only [Bool.and_eq_true, List.all_eq_true, decide_eq_true_eq] at h2
  exact ⟨C, h1, h3, cx, hcx, c, conv, h4, fun w hw => (h5 _).1.1 ⟨20, h2.1 w hw⟩,
    fun w hw => (h5 _).2.1 ⟨20, h2.2 w hw⟩⟩

end Spellbook.Props
