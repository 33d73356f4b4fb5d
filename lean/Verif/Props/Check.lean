import Verif.Proof.Check
import Verif.Props.Simple
import Verif.Props.Tables
/-!
# Properties of `check`: C01–C04, C07, C08, C23–C26
-/

namespace Spellbook.Props
open Spec Checker

instance (F : FlagSet) (f : Option Nat) : Decidable (Has F f) := decidable_of_iff _ hasFlag_iff
instance (D : Dict) (F : FlagSet) : Decidable (Good D F) := by unfold Good; infer_instance
instance (D : Dict) (F : FlagSet) : Decidable (KeepsCase D F) := by unfold KeepsCase; infer_instance

/-! ## C01 Overlong words are rejected everywhere -/

/-- **C01**, the part about `check`: a word of more than 360 bytes is rejected. -/
theorem C01_check_overlong (C : Checker) (word : Str) (h : 360 < (utf8 word).length) (fuel : Nat) :
    C.check fuel word = .ok false := by
  unfold check
  rw [if_pos (by unfold byteLen maxWordLen; omega)]

example : 360 < (utf8 (List.replicate 361 'a')).length := by decide +kernel
-- 360 bytes are not too many
example : (mkChecker [(String.ofList (List.replicate 360 'a'), [])] {}).check 1 (List.replicate 360 'a')
    = .ok true := by decide +kernel

/-! ## C02 The empty word is always accepted -/

/-- **C02**, the part about `check`. -/
theorem C02_check_empty (C : Checker) (fuel : Nat) : C.check fuel [] = .ok true := by
  unfold check
  rw [if_neg (by decide)]
  unfold Checker.aff
  rw [convert_nil]
  rfl

/-! ## C03 Numbers are accepted -/

/-- **C03** (acceptance): a number with any number of dots after it is accepted by every dictionary,
if ICONV leaves it alone and it is not overlong. (The grammar is `C03_number_grammar`.) -/
theorem C03_numbers_accepted (C : Checker) (w : Str) (h : IsNumber w) (n : Nat)
    (hi : C.dict.aff.inputConversions.convert (w ++ List.replicate n '.') = w ++ List.replicate n '.')
    (hl : (utf8 (w ++ List.replicate n '.')).length ≤ 360) : Accepts C (w ++ List.replicate n '.') :=
  ⟨0, check_number h n hi hl 0⟩

example : Accepts (mkChecker [("foo", [])] {}) "-1.234,5...".toList :=
  C03_numbers_accepted _ "-1.234,5".toList ((C03_number_grammar _).1 (by decide)) 3 (ConversionTable.empty_convert _)
    (by decide +kernel)

/-! ## C04 Listed words are accepted -/

/-- **C04**: a word without capitals is accepted if it is listed and all its entries can be used
directly and are good; whatever the layout of the hash table. -/
theorem C04_listed_words (C : Checker) (word : Str) (hu : Untouched C word)
    (hc : HasCasing C.U word .none) (hin : ∃ F, (word, F) ∈ C.dict.words.slots)
    (hall : ∀ F, (word, F) ∈ C.dict.words.slots → ¬ Has F C.dict.aff.options.needAffixFlag ∧
      ¬ Has F C.dict.aff.options.onlyInCompoundFlag ∧ Good C.dict F) : Accepts C word := by
  by_cases hn : IsNumber word
  · exact ⟨0, check_number hn 0 (by simpa using hu.iconv) hu.short 0⟩
  obtain ⟨F, hF⟩ := hin
  obtain ⟨h1, h2, h3⟩ := hall F hF
  obtain ⟨F', g1, _, _, _, g5⟩ := checkSimpleWord_listed (hh := .accept) ⟨F, hF, h1, h2, by simp⟩
  refine ⟨0, ?_⟩
  rw [check_untouched hu hn]
  unfold spellBreak
  rw [doSpellBreak_some (spellCasing_listed hc g5 0), goodFlags_iff.2 (hall F' g1).2.2]

/-- A dictionary for examples: `foo` in two versions, a word which needs an affix, a forbidden one. -/
def listChecker (L : Layout) : Checker :=
  { mkChecker [("foo", [1]), ("foo", []), ("bar", [2]), ("baz", []), ("foo-foo", [3])]
      { options := { needAffixFlag := some 2, forbiddenWordFlag := 3 },
        breakTable := { table := ["-".toList], startLast := 0, middleLast := 1 } } with L := L }

/-- An untouched word for a checker without ICONV. -/
theorem untouched_of {C : Checker} {word : Str} (h1 : C.dict.aff.inputConversions = .empty)
    (h2 : (decide ((utf8 word).length ≤ 360) && word.all (fun c => !C.dict.aff.ignoreChars.contains c)
      && !word.isEmpty && (word.getLast? != some '.')) = true) : Untouched C word := by
  simp only [Bool.and_eq_true, decide_eq_true_eq, List.all_eq_true, Bool.not_eq_true',
    bne_iff_ne, ne_eq] at h2
  obtain ⟨⟨⟨h2, h3⟩, h4⟩, h5⟩ := h2
  refine ⟨h2, by rw [h1]; exact ConversionTable.empty_convert _, ?_, by rintro rfl; simp at h4, ?_⟩
  · intro c hc hm
    have := h3 c hc
    rw [← Bool.not_eq_true, List.contains_iff_mem] at this
    exact this hm
  · rintro t rfl
    simp at h5

example : Accepts (listChecker .reversed) "foo".toList := by
  refine C04_listed_words _ _ (untouched_of rfl (by decide +kernel)) (classifyCasing_iff.1 (by decide)) ⟨FlagSet.ofList [1], ?_⟩ ?_
  · decide
  · intro F hF
    simp [listChecker, mkChecker, mkWords] at hF
    rcases hF with rfl | rfl <;> decide

/-! ## C07 Forbidden words stay forbidden -/

/-- **C07**: if the entry which decides a word is forbidden (or marked WARN under FORBIDWARN), the
word is rejected, and so is every attempt to break it: whatever the BREAK lines and whatever
depth of nesting is left. -/
theorem C07_forbidden_entry (C : Checker) (word : Str) (F : FlagSet) (fuel : Nat)
    (hF : C.spellCasing fuel word = .ok (some F)) (hb : ¬ Good C.dict F) :
    (∀ depth, C.doSpellBreak fuel depth word = .ok false) ∧
    (Untouched C word → ¬ IsNumber word → Rejects C word) := by
  have key : ∀ depth, C.doSpellBreak fuel depth word = .ok false := by
    intro depth
    rw [doSpellBreak_some hF]
    rw [← goodFlags_iff, Bool.not_eq_true] at hb
    rw [hb]
  refine ⟨key, fun hu hn => ⟨fuel, ?_⟩⟩
  rw [check_untouched hu hn]
  exact key 9

/-- **C07** for listed words: a word without capitals all of whose entries are directly usable and bad
is rejected. -/
theorem C07_forbidden_listed (C : Checker) (word : Str) (hu : Untouched C word) (hn : ¬ IsNumber word)
    (hc : HasCasing C.U word .none) (hin : ∃ F, (word, F) ∈ C.dict.words.slots)
    (hall : ∀ F, (word, F) ∈ C.dict.words.slots → ¬ Has F C.dict.aff.options.needAffixFlag ∧
      ¬ Has F C.dict.aff.options.onlyInCompoundFlag ∧ ¬ Good C.dict F) : Rejects C word := by
  obtain ⟨F, hF⟩ := hin
  obtain ⟨h1, h2, h3⟩ := hall F hF
  obtain ⟨F', g1, _, _, _, g5⟩ := checkSimpleWord_listed (hh := .accept) ⟨F, hF, h1, h2, by simp⟩
  exact (C07_forbidden_entry C word F' 0 (spellCasing_listed hc g5 0) (hall F' g1).2.2).2 hu hn

-- `foo-foo` is forbidden although it can be broken into `foo` and `foo`, unlike `foo-baz-foo`
example : Rejects (listChecker .default) "foo-foo".toList := by
  refine C07_forbidden_listed _ _ (untouched_of rfl (by decide +kernel))
    (by rw [← C03_number_grammar]; decide) (classifyCasing_iff.1 (by decide)) ⟨FlagSet.ofList [3], by decide⟩ ?_
  intro F hF
  simp [listChecker, mkChecker, mkWords] at hF
  subst hF; decide
example : Accepts (listChecker .default) "foo-baz-foo".toList := ⟨1, by decide +kernel⟩

/-! ## C08 BREAK -/

/-- **C08**: a word is accepted exactly if it can be cut by the BREAK lines, nested at most 9 deep,
into pieces which have a positive verdict as a whole, where a word with a verdict is not cut. For the
default checker and dictionaries on which every lookup ends. -/
theorem C08_break_exact (C : Checker) (lines : List Str)
    (hb : BreakTable.new lines = some C.dict.aff.breakTable) (hD : C.dict.Shrinking)
    (h1 : C.checkLowerAsTitle = false) (h2 : C.checkLowerAsUpper = false)
    (word : Str) (hu : Untouched C word) (hn : ¬ IsNumber word) :
    Accepts C word ↔ Breaks lines (WholeVerdict C) 9 word := by
  have hw : ∀ w, C.CanTitle w := fun w => ⟨by simp [h1], by simp [h2]⟩
  constructor
  · rintro ⟨f, hf⟩
    rw [check_untouched hu hn] at hf
    exact doSpellBreak_sound hb 9 word hf
  · intro h
    obtain ⟨N, hN⟩ := doSpellBreak_complete hb hD hw h
    exact ⟨N, by rw [check_untouched hu hn]; exact hN N (by omega)⟩

/-- **C08**: any checker and dictionary accepts only words which can be cut. -/
theorem C08_break_sound (C : Checker) (lines : List Str)
    (hb : BreakTable.new lines = some C.dict.aff.breakTable)
    (word : Str) (hu : Untouched C word) (hn : ¬ IsNumber word) (h : Accepts C word) :
    Breaks lines (WholeVerdict C) 9 word := by
  obtain ⟨f, hf⟩ := h
  rw [check_untouched hu hn] at hf
  exact doSpellBreak_sound hb 9 word hf

/-- The default BREAK lines. -/
def breakLines : List Str := ["^-".toList, "-".toList, "-$".toList]
/-- A dictionary for examples with the default BREAK lines. -/
def breakChecker : Checker :=
  mkChecker [("foo", []), ("bar", [])]
    { breakTable := { table := ["-".toList, "-".toList, "-".toList], startLast := 1, middleLast := 2 } }

theorem breakChecker_shrinking : breakChecker.dict.Shrinking :=
  ⟨by decide, by decide, by intro c hc; simp [breakChecker, mkChecker] at hc⟩

example : Breaks breakLines (WholeVerdict breakChecker) 9 "-foo-bar-".toList :=
  (C08_break_exact breakChecker breakLines (by decide +kernel) breakChecker_shrinking rfl rfl _
    (untouched_of rfl (by decide +kernel)) (by rw [← C03_number_grammar]; decide)).1
    ⟨1, by decide +kernel⟩

-- not cut into accepted pieces: the middle pattern does not count at the very end
example : ¬ Breaks breakLines (WholeVerdict breakChecker) 9 "foo-baz".toList := by
  intro h
  obtain ⟨f, hf⟩ := (C08_break_exact breakChecker breakLines (by decide +kernel)
    breakChecker_shrinking rfl rfl _
    (untouched_of rfl (by decide +kernel)) (by rw [← C03_number_grammar]; decide)).2 h
  have h1 : breakChecker.check 1 "foo-baz".toList = .ok false := by decide +kernel
  have := (check_le breakChecker (Nat.le_max_left f 1) _).ok hf
  have h2 := (check_le breakChecker (Nat.le_max_right f 1) _).ok h1
  rw [this] at h2; simp at h2

/-! ## C23 Title case and all capitals -/

/-- **C23** (title case): if the lookup of the lower-case word finds a good entry without KEEPCASE and
the lookup of the title-case form itself does not find a bad one, the title-case form is accepted. -/
theorem C23_title_case (C : Checker) (title lower : Str) (F : FlagSet) (hu : Untouched C title)
    (ht : HasCasing C.U title .init) (hl : C.opts.caseHandling.lowercase C.U title = lower)
    (hF : Finds C .allowBad .accept lower F) (hg : Good C.dict F) (hk : ¬ KeepsCase C.dict F)
    (hown : NotBad C .allowBad .skip title) : Accepts C title := by
  by_cases hn : IsNumber title
  · exact ⟨0, check_number hn 0 (by simpa using hu.iconv) hu.short 0⟩
  obtain ⟨f, hf⟩ := hF
  obtain ⟨N, hN⟩ := checkWord_settles hf
  obtain ⟨M, hM⟩ := NotBad.settles hown
  let K := max N M
  have g1 := hN K (by omega)
  have g2 := hM K (by omega)
  subst hl
  have last : Except.map (C.titleKeepCase (C.lowercase title))
      (C.checkWord K (C.lowercase title) .allowBad .accept) = .ok (some F) := by
    have g1' : C.checkWord K (C.lowercase title) .allowBad .accept = .ok (some F) := g1
    rw [g1']
    simp [Except.map, titleKeepCase_not hk]
  obtain ⟨F', e, q⟩ := g2.or_some last (goodFlags_iff.2 hg)
  refine ⟨K, ?_⟩
  rw [check_untouched hu hn]
  have : C.spellCasing K title = .ok (some F') := by
    rw [spellCasing_init ht]; exact e
  unfold spellBreak
  rw [doSpellBreak_some this, q]

/-- **C23** (all capitals): likewise for the word in all capitals, if no other spelling of it which is
looked up is bad. -/
theorem C23_all_capitals (C : Checker) (caps lower : Str) (F : FlagSet) (hu : Untouched C caps)
    (ht : HasCasing C.U caps .all) (hl : C.opts.caseHandling.lowercase C.U caps = lower)
    (hF : Finds C .allowBad .accept lower F) (hg : Good C.dict F) (hk : ¬ KeepsCase C.dict F)
    (hown : ∀ s, CapsSpelling C caps s → NotBad C .allowBad .accept s) : Accepts C caps := by
  by_cases hn : IsNumber caps
  · exact ⟨0, check_number hn 0 (by simpa using hu.iconv) hu.short 0⟩
  subst hl
  obtain ⟨f, F', e, q⟩ := spellCasingUpper_good hu.nonempty hown hF hg hk
  refine ⟨f, ?_⟩
  rw [check_untouched hu hn]
  unfold spellBreak
  rw [doSpellBreak_some (by rw [spellCasing_all ht]; exact e), q]

/-- **C23** (KEEPCASE): if the lookup of the title-case form itself finds nothing and the lower-case
form is decided by an entry with KEEPCASE, the title-case form is rejected, unless it can be broken at
a BREAK pattern; under CHECKSHARPS only if the word has no sharp s. -/
theorem C23_keepcase_title (C : Checker) (title : Str) (F : FlagSet) (hu : Untouched C title)
    (hn : ¬ IsNumber title) (ht : HasCasing C.U title .init)
    (hs : ¬ (C.dict.aff.options.checksharps = true ∧ 'ß' ∈ C.opts.caseHandling.lowercase C.U title))
    (hF : Finds C .allowBad .accept (C.opts.caseHandling.lowercase C.U title) F)
    (hk : KeepsCase C.dict F) (hown : FindsNothing C .allowBad .skip title)
    (hb : ∀ pat ∈ C.dict.aff.breakTable.table, ∀ a b, title ≠ a ++ pat ++ b) : Rejects C title := by
  obtain ⟨f, hf⟩ := hF
  obtain ⟨N, hN⟩ := checkWord_settles hf
  obtain ⟨f', hf'⟩ := hown
  obtain ⟨M, hM⟩ := checkWord_settles hf'
  let K := max N M
  have g1 : C.checkWord K (C.lowercase title) .allowBad .accept = .ok (some F) := hN K (by omega)
  have g2 : C.checkWord K title .allowBad .skip = .ok none := hM K (by omega)
  refine ⟨K, ?_⟩
  rw [check_untouched hu hn]
  refine doSpellBreak_none ?_ hb 9
  rw [spellCasing_init ht]
  unfold spellCasingTitle
  rw [g1, g2]
  have h := titleKeepCase_keeps (C := C) (lower := C.lowercase title) hk hs
  simp only [Run.none_or, Except.map, h]

/-- A dictionary for examples with a KEEPCASE word. -/
def caseChecker : Checker :=
  mkChecker [("word", []), ("kept", [1]), ("Straße", [])] { options := { keepCaseFlag := some 1 } }

example : Accepts caseChecker "Word".toList :=
  C23_title_case caseChecker _ "word".toList (FlagSet.ofList []) (untouched_of rfl (by decide +kernel))
    (classifyCasing_iff.1 (by decide)) (by decide) ⟨1, by decide +kernel⟩ (by decide) (by decide)
    (Or.inl ⟨1, by decide +kernel⟩)

example : Accepts caseChecker "WORD".toList := by
  refine C23_all_capitals caseChecker _ "word".toList (FlagSet.ofList [])
    (untouched_of rfl (by decide +kernel)) (classifyCasing_iff.1 (by decide)) (by decide)
    ⟨1, by decide +kernel⟩ (by decide) (by decide) ?_
  intro s hs
  cases hs with
  | same => exact Or.inl ⟨1, by decide +kernel⟩
  | article h => exact absurd h.1 (splitOnce?_none.1 (by decide) _ _)
  | name h => exact absurd h.1 (splitOnce?_none.1 (by decide) _ _)
  | sharp h => exact absurd h (by decide)
  | sharpTitle h => exact absurd h (by decide)
  | title h =>
    have : "Word".toList = s := by simpa using (by decide : _ = some "Word".toList).symm.trans h
    subst this
    exact Or.inl ⟨1, by decide +kernel⟩

example : Rejects caseChecker "Kept".toList :=
  C23_keepcase_title caseChecker _ (FlagSet.ofList [1]) (untouched_of rfl (by decide +kernel))
    (by rw [← C03_number_grammar]; decide) (classifyCasing_iff.1 (by decide)) (by decide)
    ⟨1, by decide +kernel⟩ (by decide) ⟨1, by decide +kernel⟩
    (by intro pat hp; simp [caseChecker, mkChecker, BreakTable.empty] at hp)

/-! ## C24 KEEPCASE and all capitals -/

/-- **C24**, for words in which no sharp s is looked for: a word in all capitals without apostrophe
whose lower-case form is decided by an entry with KEEPCASE is rejected, if it is not itself
found, its title-case form is not found without KEEPCASE, and it cannot be broken. Missing: words
with `SS` under CHECKSHARPS, for which it is false (`C24_negation`). -/
theorem C24_keepcase_capitals_partial (C : Checker) (caps title : Str) (F : FlagSet)
    (hu : Untouched C caps) (hn : ¬ IsNumber caps) (ht : HasCasing C.U caps .all)
    (hs : ¬ (C.dict.aff.options.checksharps = true ∧ ∃ a b, caps = a ++ ['S', 'S'] ++ b))
    (ha : '\'' ∉ caps) (hown : FindsNothing C .allowBad .accept caps)
    (htitle : C.opts.caseHandling.titlecase C.U caps = some title)
    (htown : FindsNothing C .allowBad .accept title ∨
      ∃ F', Finds C .allowBad .accept title F' ∧ KeepsCase C.dict F')
    (hF : Finds C .allowBad .accept (C.opts.caseHandling.lowercase C.U caps) F)
    (hk : KeepsCase C.dict F)
    (hb : ∀ pat ∈ C.dict.aff.breakTable.table, ∀ a b, caps ≠ a ++ pat ++ b) : Rejects C caps := by
  obtain ⟨f, hf⟩ := hF
  obtain ⟨N, hN⟩ := checkWord_settles hf
  obtain ⟨f', hf'⟩ := hown
  obtain ⟨M, hM⟩ := checkWord_settles hf'
  have ht' : ∃ K, ∀ f, K ≤ f →
      Except.map C.dropKeepCase (C.checkWord f title .allowBad .accept) = .ok none := by
    rcases htown with ⟨f, h⟩ | ⟨F', ⟨f, h⟩, hk'⟩
    · obtain ⟨K, hK⟩ := checkWord_settles h
      refine ⟨K, fun f hf => ?_⟩
      have : C.checkWord f title .allowBad .accept = .ok none := hK f hf
      rw [this]; rfl
    · obtain ⟨K, hK⟩ := checkWord_settles h
      refine ⟨K, fun f hf => ?_⟩
      have : C.checkWord f title .allowBad .accept = .ok (some F') := hK f hf
      rw [this]
      simp [Except.map, dropKeepCase_keeps hk']
  obtain ⟨L, hL⟩ := ht'
  let K := max N (max M L)
  have g1 : C.checkWord K (C.lowercase caps) .allowBad .accept = .ok (some F) := hN K (by omega)
  have g2 : C.checkWord K caps .allowBad .accept = .ok none := hM K (by omega)
  have g3 := hL K (by omega)
  have g4 : C.spellApostrophe K caps = .ok none := by
    unfold spellApostrophe
    rw [splitOnce?_none.2 fun a b h => ha (by rw [h]; simp)]
  have g5 : C.spellUpperSharps K caps = .ok none := by
    unfold spellUpperSharps
    rw [if_neg]
    rw [Bool.and_eq_true, containsStr_iff]
    exact hs
  refine ⟨K, ?_⟩
  rw [check_untouched hu hn]
  refine doSpellBreak_none ?_ hb 9
  rw [spellCasing_all ht]
  unfold spellCasingUpper
  rw [g1, g2, g4, g5, titlecase_bind htitle, g3]
  simp only [Run.none_or, Except.map, dropKeepCase_keeps hk]

example : Rejects caseChecker "KEPT".toList :=
  C24_keepcase_capitals_partial caseChecker _ "Kept".toList (FlagSet.ofList [1])
    (untouched_of rfl (by decide +kernel)) (by rw [← C03_number_grammar]; decide)
    (classifyCasing_iff.1 (by decide)) (fun h => absurd h.1 (by decide)) (by decide)
    ⟨1, by decide +kernel⟩ (by decide) (Or.inl ⟨1, by decide +kernel⟩) ⟨1, by decide +kernel⟩ (by decide)
    (by intro pat hp; simp [caseChecker, mkChecker, BreakTable.empty] at hp)

/-- A dictionary with CHECKSHARPS and the KEEPCASE word `strasse`. -/
def sharpsChecker : Checker :=
  mkChecker [("strasse", [1])] { options := { keepCaseFlag := some 1, checksharps := true } }

/-- **C24** fails under CHECKSHARPS: `strasse` with KEEPCASE is the only word, it has no `ß`, and yet
`STRASSE` is accepted, since the search for sharp s also tries the word without any. -/
theorem C24_negation :
    (∀ w F, (w, F) ∈ sharpsChecker.dict.words.slots → KeepsCase sharpsChecker.dict F ∧ 'ß' ∉ w) ∧
    HasCasing sharpsChecker.U "STRASSE".toList .all ∧ Accepts sharpsChecker "STRASSE".toList := by
  refine ⟨?_, classifyCasing_iff.1 (by decide), ⟨1, by decide +kernel⟩⟩
  intro w F h
  simp [sharpsChecker, mkChecker, mkWords] at h
  obtain ⟨rfl, rfl⟩ := h
  decide

/-! ## C25 The search for sharp s -/

/-- **C25**: the search for sharp s looks up, in some order and stopping at the first one found, the
texts made by replacing any of the first five `ss`, at most 32; nothing if there is no `ss`. -/
theorem C25_sharp_search (C : Checker) (word : Str) :
    ∃ texts : List Str, (∀ t, t ∈ texts ↔ (∃ a b, word = a ++ ['s', 's'] ++ b) ∧ Sharp 5 word t) ∧
      texts.length ≤ 32 ∧
      ∀ fuel, C.spellSharps fuel word =
        Run.first (fun t => C.checkWord fuel t .allowBad .accept) texts := by
  refine ⟨if containsStr word ['s', 's'] then sharpTexts 5 word else [], ?_, ?_, fun fuel =>
    spellSharps_eq C fuel word⟩
  · intro t
    rw [← containsStr_iff]
    split
    · rename_i h
      simp only [h, true_and]
      exact mem_sharpTexts
    · rename_i h
      simp [h]
  · split
    · exact length_sharpTexts 5 word
    · simp

/-- **C25**: a replacement changes nothing but the chosen `ss`. -/
theorem C25_sharp_undo (k : Nat) (s t : Str) (h : Sharp k s t) (hs : 'ß' ∉ s) :
    (t.flatMap fun c => if c = 'ß' then ['s', 's'] else [c]) = s := by
  have same : ∀ u : Str, 'ß' ∉ u → (u.flatMap fun c => if c = 'ß' then ['s', 's'] else [c]) = u := by
    intro u hu
    induction u with
    | nil => rfl
    | cons c u ih =>
      simp only [List.mem_cons, not_or] at hu
      rw [List.flatMap_cons, ih hu.2, if_neg (Ne.symm hu.1)]; rfl
  induction h with
  | all => exact same _ hs
  | done _ => exact same _ hs
  | replace hf _ ih =>
    have e := hf.1
    subst e
    simp only [List.mem_append, not_or] at hs
    rw [List.flatMap_append, List.flatMap_append, ih hs.2, same _ hs.1.1]
    simp
  | keep hf _ ih =>
    have e := hf.1
    subst e
    simp only [List.mem_append, not_or] at hs
    rw [List.flatMap_append, List.flatMap_append, ih hs.2, same _ hs.1.1]
    simp

example : Sharp 5 "masse".toList "maße".toList :=
  Sharp.replace (a := "ma".toList) (b := "e".toList) (t := "e".toList) (splitOnce?_iff.1 (by decide))
    (.done (splitOnce?_none.1 (by decide)))

/-! ## C26 `check` has an outcome -/

/-- **C26**: giving the model more fuel never changes an outcome, so that exactly one of the four
things happens to each call: it returns true, returns false, panics, or recurses without end. -/
theorem C26_one_outcome (C : Checker) (word : Str) :
    (Accepts C word ∨ Rejects C word ∨ Panics C word ∨ Diverges C word) ∧
    ¬ (Accepts C word ∧ Rejects C word) ∧ ¬ (Accepts C word ∧ Panics C word) ∧
    ¬ (Accepts C word ∧ Diverges C word) ∧ ¬ (Rejects C word ∧ Panics C word) ∧
    ¬ (Rejects C word ∧ Diverges C word) ∧ ¬ (Panics C word ∧ Diverges C word) := by
  have up : ∀ {f r}, C.check f word = .ok r → ∀ f', C.check (max f f') word = .ok r :=
    fun h f' => (check_le C (Nat.le_max_left _ f') word).ok h
  have up' : ∀ {f}, C.check f word = .error .panic → ∀ f', C.check (max f' f) word = .error .panic :=
    fun h f' => (check_le C (Nat.le_max_right f' _) word).panic h
  refine ⟨?_, ?_, ?_, ?_, ?_, ?_, ?_⟩
  · by_cases h : Diverges C word
    · exact Or.inr (Or.inr (Or.inr h))
    · obtain ⟨f, hf⟩ := Classical.not_forall.1 h
      rcases hc : C.check f word with e | b
      · cases e with
        | panic => exact Or.inr (Or.inr (Or.inl ⟨f, hc⟩))
        | fuel => exact absurd hc hf
      · cases b
        · exact Or.inr (Or.inl ⟨f, hc⟩)
        · exact Or.inl ⟨f, hc⟩
  · rintro ⟨⟨f, h⟩, ⟨g, k⟩⟩
    have := up h g
    rw [Nat.max_comm, up k f] at this; simp at this
  · rintro ⟨⟨f, h⟩, ⟨g, k⟩⟩
    have := up h g
    rw [up' k f] at this; simp at this
  · rintro ⟨⟨f, h⟩, k⟩
    rw [k f] at h; simp at h
  · rintro ⟨⟨f, h⟩, ⟨g, k⟩⟩
    have := up h g
    rw [up' k f] at this; simp at this
  · rintro ⟨⟨f, h⟩, k⟩
    rw [k f] at h; simp at h
  · rintro ⟨⟨f, h⟩, k⟩
    rw [k f] at h; simp at h

/-- **C26** (panics): the default checker never panics, whatever the dictionary. -/
theorem C26_default_no_panic (C : Checker) (h1 : C.checkLowerAsTitle = false)
    (h2 : C.checkLowerAsUpper = false) (word : Str) : ¬ Panics C word := by
  rintro ⟨f, hf⟩
  exact check_np (fun w => ⟨by simp [h1], by simp [h2]⟩) word hf

/-- **C26** (termination): with a well-behaved dictionary, no checker recurses without end. Missing:
dictionaries with SIMPLIFIEDTRIPLE and one-letter parts, or with CHECKCOMPOUNDPATTERN replacements
which can grow the word, for which it is false (`C26_triple_diverges`, `C26_pattern_diverges`). -/
theorem C26_terminates_partial (C : Checker) (hD : C.dict.Shrinking) (word : Str) :
    ¬ Diverges C word := by
  intro h
  obtain ⟨N, hN⟩ := Ends.check hD word
  exact hN N (by omega) (h N)

/-- **C26**: with a well-behaved dictionary, the default checker accepts or rejects every word. -/
theorem C26_default_decides_partial (C : Checker) (hD : C.dict.Shrinking)
    (h1 : C.checkLowerAsTitle = false) (h2 : C.checkLowerAsUpper = false) (word : Str) :
    Accepts C word ∨ Rejects C word := by
  rcases (C26_one_outcome C word).1 with h | h | h | h
  · exact Or.inl h
  · exact Or.inr h
  · exact absurd h (C26_default_no_panic C h1 h2 word)
  · exact absurd h (C26_terminates_partial C hD word)

example : Accepts breakChecker "foo.".toList ∨ Rejects breakChecker "foo.".toList :=
  C26_default_decides_partial _ breakChecker_shrinking rfl rfl _

/-- **C26** fails for `check_lower_as_title(true)` and `check_lower_as_upper(true)`: the word `.`
panics on every dictionary without ICONV and BREAK and COMPOUND options, here one with a single
word. -/
theorem C26_panic_negation :
    Panics { mkChecker [("foo", [])] {} with checkLowerAsTitle := true } ".".toList ∧
    Panics { mkChecker [("foo", [])] {} with checkLowerAsUpper := true } ".".toList :=
  ⟨⟨1, by decide +kernel⟩, ⟨1, by decide +kernel⟩⟩

/-- A dictionary with SIMPLIFIEDTRIPLE, COMPOUNDMIN 1 and the word `a/C`. -/
def tripleChecker : Checker :=
  mkChecker [("a", [1])] { flagType := .numeric, options :=
    { compoundFlag := some 1, compoundMinLength := some 1, compoundSimplifiedTriple := true } }

/-- The part `a` of `tripleChecker`. -/
private def partA : CompoundingResult := { stem := ['a'], flags := FlagSet.ofList [1] }

private theorem tripleChecker_a (m : Mode) (hm : m ≠ .full) :
    tripleChecker.checkWordInCompound m ['a'] = some partA := by
  cases m with
  | full => exact absurd rfl hm
  | _ => decide +kernel

private theorem splitPoints_eq {w : Str} {start margin k : Nat}
    (h : ∀ i, start + margin ≤ i ∧ i + margin ≤ w.length ↔ i = k) :
    splitPoints w start margin = [k] := by
  have hn : (splitPoints w start margin).Nodup := List.Nodup.filter _ List.nodup_range
  have := (List.perm_ext_iff_of_nodup hn (List.nodup_singleton k)).2 fun i => by
    rw [mem_splitPoints, h, List.mem_singleton]
  exact List.perm_singleton.1 this

private theorem splitPoints_nil {w : Str} {start margin : Nat} (h : w.length < start + 2 * margin) :
    splitPoints w start margin = [] := by
  rw [List.eq_nil_iff_forall_not_mem]
  intro i hi
  rw [mem_splitPoints] at hi
  omega

/-- The word `a…ax` with `k + 2` letters `a`. -/
private def aax (k : Nat) : Str := List.replicate (k + 2) 'a' ++ ['x']

private theorem aax_length (k : Nat) : (aax k).length = k + 3 := by simp [aax]
private theorem aax_drop (k : Nat) : (aax k).drop (k + 2) = ['x'] := by
  unfold aax; rw [List.drop_append_of_le_length (by simp)]; simp
private theorem aax_take (k j : Nat) (h : j ≤ k + 2) : (aax k).take j = List.replicate j 'a' := by
  unfold aax
  rw [List.take_append_of_le_length (by simpa using h), List.take_replicate, Nat.min_eq_left h]
private theorem aax_slice (k : Nat) : slice (aax k) (k + 1) (k + 2) = ['a'] := by
  unfold slice; rw [aax_take _ _ (by omega)]; simp
private theorem aax_tripled (k : Nat) : tripled (aax k) (k + 2) = some (aax (k + 1)) := by
  unfold tripled
  rw [aax_take _ _ (by omega), List.reverse_replicate, aax_drop]
  simp only [List.replicate_succ]
  have : ∀ n, List.replicate n 'a' ++ ['a'] = 'a' :: List.replicate n 'a' := fun n =>
    (List.replicate_succ' ..).symm.trans (List.replicate_succ ..)
  have e : List.replicate k 'a' ++ ['a', 'a', 'x'] = 'a' :: (List.replicate k 'a' ++ ['a', 'x']) := by
    have := congrArg (· ++ ['a', 'x']) (this k)
    simpa using this
  have e' : List.replicate k 'a' ++ ['a', 'x'] = 'a' :: (List.replicate k 'a' ++ ['x']) := by
    have := congrArg (· ++ ['x']) (this k)
    simpa using this
  simp [aax, List.replicate_succ, e, e']
private theorem aax_drop' (k : Nat) : (aax (k + 1)).drop (k + 2) = ['a', 'x'] := by
  unfold aax; rw [List.drop_append_of_le_length (by simp)]; simp

private theorem triple_middle : ∀ (fuel k n : Nat), tripleChecker.checkCompoundImpl .forbidBad fuel
    .atMiddle (aax k) (k + 1) n = .error .fuel := by
  intro fuel
  induction fuel with
  | zero => intro k n; rfl
  | succ fuel ih =>
    intro k n
    rw [checkCompoundImpl]
    have hmin : tripleChecker.opts.minChars = 1 := rfl
    rw [hmin, splitPoints_eq (k := k + 2) (by rw [aax_length]; omega), Run.first]
    have hsearch : tripleChecker.checkCompoundImpl .forbidBad fuel .atMiddle (aax k) (k + 2)
        (n + 0 + 1) = .error .fuel ∨
        tripleChecker.checkCompoundImpl .forbidBad fuel .atMiddle (aax k) (k + 2) (n + 0 + 1)
          = .ok none := by
      cases fuel with
      | zero => exact Or.inl rfl
      | succ fuel =>
        right
        rw [checkCompoundImpl, hmin, splitPoints_nil (by rw [aax_length]; omega)]
        rfl
    have hfirst : tripleChecker.classicFirst .atMiddle (aax k) (k + 1) (k + 2) = some partA := by
      unfold classicFirst
      rw [aax_slice, tripleChecker_a _ (by decide)]
      rfl
    have hsecond : tripleChecker.classicSecond (aax k) (k + 1) (k + 2) (n + 0) .forbidBad partA
        = .next := by
      unfold classicSecond
      rw [aax_drop]
      have : tripleChecker.checkWordInCompound .atEnd ['x'] = none := by decide +kernel
      rw [this]
    have hthird : tripleChecker.tripleSecond (aax (k + 1)) (aax k) (k + 1) (k + 2) (n + 0) .forbidBad
        partA = .next := by
      unfold tripleSecond
      rw [aax_drop']
      have : tripleChecker.checkWordInCompound .atEnd ['a', 'x'] = none := by decide +kernel
      rw [this]
    have hclassic : tripleChecker.classic (tripleChecker.checkCompoundImpl .forbidBad fuel .atMiddle)
        .atMiddle (aax k) (k + 1) (k + 2) n .forbidBad = .error .fuel := by
      unfold classic
      rw [hfirst]
      have hc : tripleChecker.wordCount partA = 0 := rfl
      dsimp only
      rw [hc, hsecond]
      unfold tryRecursive
      rcases hsearch with h | h
      · dsimp only; rw [h]; rfl
      · dsimp only
        rw [h]
        show tripleChecker.simplifiedTriple _ _ _ _ _ _ _ = _
        unfold simplifiedTriple
        rw [if_neg (by decide), aax_tripled]
        dsimp only
        rw [hthird]
        dsimp only
        unfold tripleRecursive
        rw [ih (k + 1)]
        rfl
    unfold compoundAt
    rw [hclassic]
    rfl

private theorem triple_top (fuel : Nat) : tripleChecker.checkCompoundImpl .forbidBad fuel .atBegin
    "aax".toList 0 0 = .error .fuel := by
  cases fuel with
  | zero => rfl
  | succ fuel =>
    rw [checkCompoundImpl]
    have : splitPoints "aax".toList 0 tripleChecker.opts.minChars = [1, 2] := by decide
    rw [this, Run.first]
    have hfirst : tripleChecker.classicFirst .atBegin "aax".toList 0 1 = some partA := by
      decide +kernel
    have hsecond : tripleChecker.classicSecond "aax".toList 0 1 0 .forbidBad partA = .next := by
      decide +kernel
    have hclassic : tripleChecker.classic (tripleChecker.checkCompoundImpl .forbidBad fuel .atMiddle)
        .atBegin "aax".toList 0 1 0 .forbidBad = .error .fuel := by
      unfold classic
      rw [hfirst]
      have hc : tripleChecker.wordCount partA = 0 := rfl
      dsimp only
      rw [hc, hsecond]
      unfold tryRecursive
      dsimp only
      have := triple_middle fuel 0 1
      have h2 : aax 0 = "aax".toList := by decide
      rw [h2] at this
      rw [this]
      rfl
    unfold compoundAt
    rw [hclassic]
    rfl

/-- If the search for compounds of a lower-case word which is not simple has no end, nor has
`check`. -/
theorem diverges_of {C : Checker} {word : Str} (hu : Untouched C word) (hn : ¬ IsNumber word)
    (hc : HasCasing C.U word .none) (hs : C.checkSimpleWord word .accept = none)
    (ha : C.opts.allowsCompounding = true)
    (h : ∀ fuel, C.checkCompoundImpl .forbidBad fuel .atBegin word 0 0 = .error .fuel) :
    Diverges C word := by
  intro fuel
  rw [check_untouched hu hn]
  have hw : C.checkWord fuel word .forbidBad .accept = .error .fuel := by
    unfold checkWord
    rw [hs]
    dsimp only
    unfold checkCompound
    rw [if_pos ha, h fuel]
    rfl
  have : C.spellCasing fuel word = .error .fuel := by
    rw [spellCasing_none hc]
    unfold spellCasingAsIs
    rw [hw]
    rfl
  unfold spellBreak
  rw [doSpellBreak, this]
  rfl

/-- **C26** fails: with SIMPLIFIEDTRIPLE, COMPOUNDMIN 1 and the word `a` in compounds,
`check("aax")` recurses without end. -/
theorem C26_triple_diverges : Diverges tripleChecker "aax".toList :=
  diverges_of (untouched_of rfl (by decide +kernel)) (by rw [← C03_number_grammar]; decide)
    (classifyCasing_iff.1 (by decide)) (by decide +kernel) (by decide) triple_top

/-- The line `CHECKCOMPOUNDPATTERN a bbbz z`. -/
def growPattern : CompoundPattern where
  first := ['a']
  second := "bbbz".toList
  replacement := some ['z']
  firstWordFlag := none
  secondWordFlag := none
  matchFirstOnlyUnaffixed := false

/-- A dictionary with `CHECKCOMPOUNDPATTERN a bbbz z` and the word `bbba/C`. -/
def growChecker : Checker :=
  mkChecker [("bbba", [1])]
    { flagType := .numeric, options := { compoundFlag := some 1 },
      compoundPatterns := [growPattern] }

private theorem grow_search : ∀ (fuel : Nat) (m : Mode) (w : Str) (n : Nat), m ≠ .full →
    growChecker.checkCompoundImpl .forbidBad fuel m (w ++ "bbbzyy".toList) w.length n
      = .error .fuel := by
  intro fuel
  induction fuel with
  | zero => intro m w n _; rfl
  | succ fuel ih =>
    intro m w n hm
    rw [checkCompoundImpl]
    have hmin : growChecker.opts.minChars = 3 := rfl
    have hlen : (w ++ "bbbzyy".toList).length = w.length + 6 := by simp
    rw [hmin, splitPoints_eq (k := w.length + 3) (by rw [hlen]; omega), Run.first]
    have hb : slice (w ++ "bbbzyy".toList) w.length (w.length + 3) = "bbb".toList := by
      unfold slice
      rw [List.take_append, List.drop_append]
      simp
    have hd : (w ++ "bbbzyy".toList).drop (w.length + 3) = "zyy".toList := by
      rw [List.drop_append]; simp
    have hclassic : growChecker.classic (growChecker.checkCompoundImpl .forbidBad fuel .atMiddle)
        m (w ++ "bbbzyy".toList) w.length (w.length + 3) n .forbidBad = .ok none := by
      unfold classic classicFirst
      rw [hb]
      have : growChecker.checkWordInCompound m "bbb".toList = none := by
        cases m <;> decide +kernel
      rw [this]
    unfold compoundAt
    rw [hclassic]
    show (growChecker.withPatternReplacements _ _ _ _ _ _ _).or _ = _
    unfold withPatternReplacements
    have hp : growChecker.aff.compoundPatterns = [growPattern] := rfl
    rw [hp]
    have hscratch : (w ++ "bbbzyy".toList).take (w.length + 3) ++ (growPattern.first ++ growPattern.second) ++
        (w ++ "bbbzyy".toList).drop (w.length + 3 + 1) = (w ++ "bbba".toList) ++ "bbbzyy".toList := by
      unfold growPattern
      have h4 : w.length + 3 + 1 - w.length = 4 := by omega
      rw [List.take_append, List.drop_append, h4, List.drop_of_length_le (by omega),
        List.take_of_length_le (by omega)]
      simp
    have hbody : growChecker.patternBody (growChecker.checkCompoundImpl .forbidBad fuel .atMiddle) m
        (w ++ "bbbzyy".toList) w.length (w.length + 3) n .forbidBad
        growPattern = .error .fuel := by
      unfold patternBody
      show (if (!startsWith ((w ++ "bbbzyy".toList).drop (w.length + 3)) ['z']) = true then _
        else _) = _
      rw [hd, if_neg (by decide)]
      have hj : w.length + 3 + growPattern.first.length = (w ++ "bbba".toList).length := by
        simp [growPattern]
      have h1 : (['z'] : Str).length = 1 := rfl
      rw [h1]
      dsimp only
      rw [hscratch, hj]
      have hf : growChecker.patternFirst growPattern m ((w ++ "bbba".toList) ++ "bbbzyy".toList) w.length
          (w ++ "bbba".toList).length
          = some { stem := "bbba".toList, flags := FlagSet.ofList [1] } := by
        unfold patternFirst
        have : slice ((w ++ "bbba".toList) ++ "bbbzyy".toList) w.length (w ++ "bbba".toList).length
            = "bbba".toList := by
          unfold slice
          rw [List.take_left', List.drop_left'] <;> simp
        rw [this]
        have : growChecker.checkWordInCompound m "bbba".toList
            = some { stem := "bbba".toList, flags := FlagSet.ofList [1] } := by
          cases m with
          | full => exact absurd rfl hm
          | _ => decide +kernel
        rw [this]
        rfl
      rw [hf]
      dsimp only
      have hs : growChecker.patternSecond growPattern
          (((w ++ "bbba".toList) ++ "bbbzyy".toList).drop (w ++ "bbba".toList).length)
          (w ++ "bbbzyy".toList) w.length n .forbidBad
          { stem := "bbba".toList, flags := FlagSet.ofList [1] } = .next := by
        unfold patternSecond
        rw [List.drop_left]
        have : growChecker.checkWordInCompound .atEnd "bbbzyy".toList = none := by decide +kernel
        rw [this]
      rw [hs]
      dsimp only
      rw [ih .atMiddle (w ++ "bbba".toList) (n + 1) (by decide)]
      rfl
    simp only [Run.first, hbody]
    rfl

/-- **C26** fails: with `CHECKCOMPOUNDPATTERN a bbbz z`, the word `bbba` in compounds,
`check("bbbzyy")` recurses without end. -/
theorem C26_pattern_diverges : Diverges growChecker "bbbzyy".toList :=
  diverges_of (untouched_of rfl (by decide +kernel)) (by rw [← C03_number_grammar]; decide)
    (classifyCasing_iff.1 (by decide)) (by decide +kernel) (by decide)
    fun fuel => grow_search fuel .atBegin [] 0 (by decide)

end Spellbook.Props
