import Verif.Proof.History
import Verif.Props.Parser
import Verif.Props.Prepare
import Verif.Props.Compound
import Verif.Props.Text
/-!
# Properties of a dictionary over its life: C09, C10, C11, C13, C38, C54
-/

namespace Spellbook.Props
open Spec Checker

variable {U : Unicode}

/-! ## C54 Loaded and changed dictionaries meet the assumptions of the other theorems -/

/-- **C54**: whatever texts a dictionary is loaded from, and whatever is added to it or removed from it,
its conditions are parsed, the minimal length of compound parts is positive, all flags are numbers from 1
to 65535, no stem exceeds 65535 bytes, and the BREAK and REP tables come from lines without empty texts.
These are the assumptions of the theorems about `check`. -/
theorem C54_well_made {D : Dict} (h : Reachable U D) :
    D.CondsParsed ∧ 0 < D.aff.options.minChars ∧
    (∀ e ∈ D.words.slots, (∀ f ∈ e.2.elems, 1 ≤ f ∧ f ≤ 65535) ∧ (utf8 e.1).length ≤ 65535) ∧
    (∀ k, ∀ a ∈ tableOf D k, (1 ≤ a.flag ∧ a.flag ≤ 65535) ∧ ∀ f ∈ a.flags.elems, 1 ≤ f ∧ f ≤ 65535) ∧
    (∃ lines, BreakTable.new lines = some D.aff.breakTable ∧ [] ∉ lines) := by
  have hw := wellMade_reachable h
  have hv : ∀ {F : FlagSet}, F.AllValid → ∀ f ∈ F.elems, 1 ≤ f ∧ f ≤ 65535 :=
    fun hF f hf => hF f (FlagSet.contains_iff.2 hf)
  refine ⟨hw.condsParsed, hw.minChars_pos, fun e he => ⟨hv (hw.entries e he).1, (hw.entries e he).2⟩, ?_, ?_⟩
  · intro k a ha
    have : AffixOk a := by
      cases k with
      | pfx => exact hw.prefixes a ha
      | sfx => exact hw.suffixes a ha
    exact ⟨this.flag, hv this.flags⟩
  · obtain ⟨lines, h1, h2⟩ := hw.breaks
    exact ⟨lines, h1, fun hm => h2 _ hm rfl⟩

/-- The affix data never change. -/
theorem C54_aff_unchanged {D : Dict} (h : Reachable U D) :
    ∃ S aff dic D₀, parse U S aff dic = .ok D₀ ∧ D.aff = D₀.aff := by
  induction h with
  | @loaded S aff dic D h => exact ⟨S, aff, dic, D, h, rfl⟩
  | @added D line D' _ h ih =>
    obtain ⟨S, aff, dic, D₀, h1, h2⟩ := ih
    refine ⟨S, aff, dic, D₀, h1, ?_⟩
    unfold Dict.add at h
    split at h
    · cases h
    · cases h; exact h2
  | removed L s _ ih => exact ih

/-- With them, C05 holds of every checker on a dictionary which a program can hold: every word found is
made from a listed stem. -/
theorem C54_no_invented_words {C : Checker} (h : Reachable U C.dict) (word : Str) (hh : HiddenHomonym)
    (F : FlagSet) (hs : C.checkSimpleWord word hh = some F) :
    ∃ stem steps, (stem, F) ∈ C.dict.words.slots ∧ MadeBy C.dict stem steps word ∧ steps.length ≤ 3 := by
  obtain ⟨stem, steps, h1, h2, h3, -⟩ := C05_no_invented_words C (C54_well_made h).1 word hh F hs
  exact ⟨stem, steps, h1, h2, h3⟩

/-! ## C09 `remove_stem` -/

/-- **C09** (result): `remove_stem` returns true exactly if some entry of the stem is not yet
forbidden. -/
theorem C09_result (L : Layout) (D : Dict) (s : Str) : (D.removeStem L s).1 = true ↔
    ∃ F, (s, F) ∈ D.words.slots ∧ D.aff.options.forbiddenWordFlag ∉ F.elems := by
  rw [Dict.removeStem_true]
  simp only [← Bool.not_eq_true, FlagSet.contains_iff]

/-- **C09** (effect): the entries stay where they are; those of the stem get the forbidden flag and keep
their others; all other entries and the affix data stay as they are. -/
theorem C09_effect (L : Layout) (D : Dict) (s : Str) :
    (D.removeStem L s).2.aff = D.aff ∧
    List.Forall₂ (fun old new => new.1 = old.1 ∧ (old.1 ≠ s → new = old) ∧
        (old.1 = s → ∀ f, f ∈ new.2.elems ↔ f ∈ old.2.elems ∨ f = D.aff.options.forbiddenWordFlag))
      D.words.slots (D.removeStem L s).2.words.slots := by
  refine ⟨rfl, ?_⟩
  rw [Dict.removeStem_slots, List.forall₂_map_right_iff, List.forall₂_same]
  rintro ⟨k, F⟩ -
  unfold Bag.upd
  refine ⟨by split <;> rfl, fun hk => if_neg hk, fun hk f => ?_⟩
  rw [if_pos hk, ← FlagSet.contains_iff, ← FlagSet.contains_iff]
  exact Dict.forbid_contains

/-- **C09** (again): a second call returns false and changes nothing. -/
theorem C09_again (L L' : Layout) (D : Dict) (s : Str) :
    (D.removeStem L s).2.removeStem L' s = (false, (D.removeStem L s).2) := by
  have h1 : ((D.removeStem L s).2.removeStem L' s).1 = false := by
    rw [← Bool.not_eq_true, Dict.removeStem_true]
    rintro ⟨G, hG, hn⟩
    obtain ⟨F, -, rfl⟩ := Dict.mem_removeStem.1 hG
    rw [if_pos rfl, Dict.removeStem_aff, Dict.forbid_contains.2 (.inr rfl)] at hn
    cases hn
  have h2 : ((D.removeStem L s).2.removeStem L' s).2.words.slots = (D.removeStem L s).2.words.slots := by
    rw [Dict.removeStem_slots, Dict.removeStem_slots, List.map_map]
    refine List.map_congr_left ?_
    rintro ⟨k, F⟩ -
    unfold Bag.upd Function.comp
    dsimp only
    by_cases hk : k = s
    · rw [if_pos hk]
      dsimp only
      rw [if_pos hk]
      show (k, D.forbid (D.forbid F)) = _
      rw [Dict.forbid_forbid]
    · rw [if_neg hk, if_neg hk]
  refine Prod.ext h1 ?_
  show Dict.mk _ D.aff = Dict.mk _ D.aff
  congr 1
  exact congrArg Bag.mk h2

/-- **C09** (check): afterwards the stem itself is rejected, if it is a word without capitals which ICONV,
IGNORE and trailing dots do not concern and which is no number, and one of its entries can be used directly
(is not marked NEEDAFFIX or ONLYINCOMPOUND); the flag of forbidden words being none of these two. -/
theorem C09_rejected {C : Checker} {L : Layout} {D : Dict} {s : Str} (hd : C.dict = (D.removeStem L s).2)
    (hu : Untouched C s) (hn : ¬ IsNumber s) (hc : HasCasing C.U s .none)
    (h1 : D.aff.options.needAffixFlag ≠ some D.aff.options.forbiddenWordFlag)
    (h2 : D.aff.options.onlyInCompoundFlag ≠ some D.aff.options.forbiddenWordFlag)
    (hin : ∃ F, (s, F) ∈ D.words.slots ∧ ¬ Has F D.aff.options.needAffixFlag ∧
      ¬ Has F D.aff.options.onlyInCompoundFlag) : Rejects C s := by
  have ha : C.dict.aff = D.aff := by rw [hd]; rfl
  have key : ∀ {F : FlagSet} {o : Option Nat}, o ≠ some D.aff.options.forbiddenWordFlag →
      ¬ Has F o → ¬ Has (D.forbid F) o := by
    rintro F o ho hF ⟨f, rfl, hf⟩
    rcases Dict.forbid_contains.1 (FlagSet.contains_iff.2 hf) with hf | rfl
    · exact hF ⟨f, rfl, FlagSet.contains_iff.1 hf⟩
    · exact ho rfl
  obtain ⟨F, hF, hF1, hF2⟩ := hin
  obtain ⟨G, g1, -, -, -, g5⟩ := checkSimpleWord_listed (C := C) (word := s) (hh := .accept)
    ⟨D.forbid F, by rw [hd]; exact Dict.mem_removeStem.2 ⟨F, hF, by rw [if_pos rfl]⟩,
      by rw [ha]; exact key h1 hF1, by rw [ha]; exact key h2 hF2, by simp⟩
  refine (C07_forbidden_entry C s G 0 (spellCasing_listed hc g5 0) ?_).2 hu hn
  rintro ⟨hg, -⟩
  rw [hd] at g1
  obtain ⟨F', -, rfl⟩ := Dict.mem_removeStem.1 g1
  rw [if_pos rfl, ha, ← FlagSet.contains_iff] at hg
  exact hg (Dict.forbid_contains.2 (.inr rfl))

/-- A loaded dictionary with one stem twice and others. -/
def stemAff : Str := "NEEDAFFIX N\nSFX A Y 1\nSFX A 0 s .\n".toList
/-- Its word list. -/
def stemDic : Str := "4\nfoo/A\nfoo/N\nbar/A\nMcDonald\n".toList

theorem of_map {D : Dict → Bool} {x : Except Halt Dict} (h : x.map D = .ok true) :
    ∃ d, x = .ok d ∧ D d = true := by
  cases x with
  | error e => cases h
  | ok d => exact ⟨d, rfl, by simpa [Except.map] using h⟩

-- loading, removing, and checking: `foo` and `foos` are rejected, `bar` and `bars` are not
example : ∃ D, Reachable .sample D ∧ (D.removeStem .reversed "foo".toList).1 = true ∧
    ∀ C : Checker, C = { U := .sample, L := .default, dict := (D.removeStem .reversed "foo".toList).2 } →
      Rejects C "foo".toList ∧ Rejects C "foos".toList ∧ Accepts C "bars".toList := by
  obtain ⟨D, h1, h2⟩ := of_map (x := parse .sample .default stemAff stemDic)
    (D := fun D => (D.removeStem .reversed "foo".toList).1 &&
      let C : Checker := { U := .sample, L := .default, dict := (D.removeStem .reversed "foo".toList).2 }
      decide (C.check 1 "foo".toList = .ok false) && decide (C.check 1 "foos".toList = .ok false)
        && decide (C.check 1 "bars".toList = .ok true)) (by decide +kernel)
  simp only [Bool.and_eq_true, decide_eq_true_eq] at h2
  refine ⟨D, .loaded h1, h2.1, ?_⟩
  rintro C rfl
  exact ⟨⟨1, h2.2.1.1⟩, ⟨1, h2.2.1.2⟩, ⟨1, h2.2.2⟩⟩

/-! ## C10 Removed stems and other spellings -/

/-- The text is found because of stems other than `s`: it is made from an entry of another stem, or
composed of parts made from entries of other stems. -/
def WithoutStem (C : Checker) (s text : Str) : Prop :=
  (∃ stem F steps, stem ≠ s ∧ (stem, F) ∈ C.dict.words.slots ∧ MadeBy C.dict stem steps text) ∨
  ∃ fc pieces, Compound C.U C.dict fc .atBegin 0 [] text pieces ∧
    ∀ p ∈ pieces, p.stem ≠ s ∧ (p.stem, p.flags) ∈ C.dict.words.slots

theorem Compound.entries {D : Dict} {fc : Forceucase} {m : Mode} {n : Nat} {before rest : Str} {pieces : List Piece}
    (h : Compound U D fc m n before rest pieces) : ∀ p ∈ pieces, ∃ m', PieceAt D m' p := by
  induction h with
  | two _ first _ _ second =>
    intro x hx; simp at hx; rcases hx with rfl | rfl
    · exact ⟨_, first⟩
    · exact ⟨_, second⟩
  | more _ first _ _ _ _ _ _ ih =>
    intro x hx; rcases List.mem_cons.1 hx with rfl | hx
    · exact ⟨_, first⟩
    · exact ih x hx

private theorem other_stem {L : Layout} {D : Dict} {s stem : Str} {F : FlagSet}
    (h : (stem, F) ∈ (D.removeStem L s).2.words.slots) (hF : D.aff.options.forbiddenWordFlag ∉ F.elems) : stem ≠ s := by
  rintro rfl
  obtain ⟨G, -, rfl⟩ := Dict.mem_removeStem.1 h
  rw [if_pos rfl, ← FlagSet.contains_iff] at hF
  exact hF (Dict.forbid_contains.2 (.inr rfl))

/-- After the removal of `s`, a lookup of a word or compound has a good result only because of other
stems, if there are no compound rules. -/
theorem C10_lookup_partial {C : Checker} {L : Layout} {D : Dict} {s : Str} (hd : C.dict = (D.removeStem L s).2)
    (hC : C.dict.CondsParsed) (hR : C.dict.aff.compoundRules.rules = []) {text : Str} {fc : Forceucase}
    {hh : HiddenHomonym} {F : FlagSet} (h : Finds C fc hh text F) (hg : Good C.dict F) : WithoutStem C s text := by
  obtain ⟨fuel, h⟩ := h
  unfold checkWord at h
  cases hs : C.checkSimpleWord text hh with
  | some G =>
    rw [hs] at h
    simp only [Except.ok.injEq, Option.some.injEq] at h
    subst h
    obtain ⟨stem, steps, h1, h2, -⟩ := C05_no_invented_words C hC text hh G hs
    refine .inl ⟨stem, G, steps, ?_, h1, h2⟩
    rw [hd] at h1 hg
    exact other_stem h1 hg.1
  | none =>
    rw [hs] at h
    simp only at h
    obtain ⟨r, hr, hr'⟩ := except_map_ok.1 h
    cases r with
    | none => cases hr'
    | some r =>
      obtain ⟨pieces, h1, h2⟩ := C31_no_forbidden_part_partial hC hR hr
      refine .inr ⟨fc, pieces, h1, fun p hp => ?_⟩
      obtain ⟨m', hm'⟩ := Compound.entries h1 p hp
      have he := (C27_part_is_word hm').1
      refine ⟨?_, he⟩
      have hf := h2 p hp
      rw [hd] at he hf
      exact other_stem he hf

theorem Breaks.mono {lines : List Str} {v v' : Str → Option Bool → Prop} (h : ∀ w o, v w o → v' w o) {d : Nat} {w : Str}
    (hb : Breaks lines v d w) : Breaks lines v' d w := by
  induction hb with
  | direct h1 => exact .direct (h _ _ h1)
  | start h1 h2 h3 h4 _ ih => exact .start (h _ _ h1) h2 h3 h4 ih
  | stop h1 h2 h3 h4 _ ih => exact .stop (h _ _ h1) h2 h3 h4 ih
  | middle h1 h2 h3 h4 h5 _ _ ih1 ih2 => exact .middle (h _ _ h1) h2 h3 h4 h5 ih1 ih2

/-- **C10**, for the stem itself: after the removal of `s`, every accepted word is accepted because of
other stems. Up to ICONV, trailing dots and ignored characters, it is cut by BREAK lines into pieces, and
each piece is in one of its spellings (`attempts`) found because of stems other than `s`. For dictionaries
without compound rules. Missing: the title-case twin which the parser made for `s` counts as another stem,
see `C10_twin_left`; compound rules, for which it is false (`C10_rule_left`). -/
theorem C10_removed_partial {C : Checker} {L : Layout} {D : Dict} {s : Str} (hd : C.dict = (D.removeStem L s).2)
    (hC : C.dict.CondsParsed) (hR : C.dict.aff.compoundRules.rules = [])
    (h1 : C.checkLowerAsTitle = false) (h2 : C.checkLowerAsUpper = false) (lines : List Str)
    (hb : BreakTable.new lines = some C.dict.aff.breakTable) (word : Str) (h : Accepts C word) :
    Prepared C (Breaks lines (fun piece v => v = some true →
      ∃ c, HasCasing C.U piece c ∧ ∃ a ∈ attempts C piece c, WithoutStem C s a.text) 9) word := by
  obtain ⟨g1, g2⟩ := C51_preparation_sound C lines hb word h
  have key : ∀ w, Breaks lines (WholeVerdict C) 9 w → Breaks lines (fun piece v => v = some true →
      ∃ c, HasCasing C.U piece c ∧ ∃ a ∈ attempts C piece c, WithoutStem C s a.text) 9 w := by
    intro w hw
    refine Breaks.mono ?_ hw
    rintro w o hv rfl
    obtain ⟨fuel, F, hF, hg⟩ := hv
    have hgood := hg.1 rfl
    have hcase := classifyCasing_iff.1 (rfl : classifyCasing C.U w = _)
    obtain ⟨before, a, after, ha, -, hit⟩ := (C52_decided C w _ hcase (canTitle_default h1 h2 w) F).1 ⟨fuel, hF⟩
    exact ⟨_, hcase, a, by rw [ha]; simp, C10_lookup_partial hd hC hR hit.1 hgood⟩
  refine ⟨g1, ?_⟩
  rcases g2 with g2 | ⟨t, n, g3, g4, g5⟩
  · exact .inl g2
  · refine .inr ⟨t, n, g3, g4, ?_⟩
    rcases g5 with g5 | g5 | ⟨g5, g6⟩
    · exact .inl g5
    · exact .inr (.inl (key _ g5))
    · exact .inr (.inr ⟨g5, key _ g6⟩)

/-- **C10** is false: after `McDonald` is removed from the dictionary which has it as its only stem,
`MCDONALD` is still accepted, because the title-case twin made while loading is left. -/
theorem C10_twin_left : ∃ D, parse .sample .default [] "1\nMcDonald\n".toList = .ok D ∧
    (D.removeStem .default "McDonald".toList).1 = true ∧
    ∀ C : Checker, C = { U := .sample, L := .default, dict := (D.removeStem .default "McDonald".toList).2 } →
      Rejects C "McDonald".toList ∧ Accepts C "MCDONALD".toList := by
  obtain ⟨D, h1, h2⟩ := of_map (x := parse .sample .default [] "1\nMcDonald\n".toList)
    (D := fun D => (D.removeStem .default "McDonald".toList).1 &&
      let C : Checker := { U := .sample, L := .default, dict := (D.removeStem .default "McDonald".toList).2 }
      decide (C.check 1 "McDonald".toList = .ok false) && decide (C.check 1 "MCDONALD".toList = .ok true))
    (by decide +kernel)
  simp only [Bool.and_eq_true, decide_eq_true_eq] at h2
  refine ⟨D, h1, h2.1, ?_⟩
  rintro C rfl
  exact ⟨⟨1, h2.2.1⟩, ⟨1, h2.2.2⟩⟩

/-- **C10** is false with COMPOUNDRULE, too: the flags of only one part of a compound by a rule are looked at,
so `aaabbb` is still accepted after `bbb` is removed. -/
theorem C10_rule_left : ∃ D, parse .sample .default "COMPOUNDRULE 1\nCOMPOUNDRULE AB\n".toList
      "2\naaa/A\nbbb/B\n".toList = .ok D ∧
    (D.removeStem .default "bbb".toList).1 = true ∧
    ∀ C : Checker, C = { U := .sample, L := .default, dict := (D.removeStem .default "bbb".toList).2 } →
      Rejects C "bbb".toList ∧ Accepts C "aaabbb".toList := by
  obtain ⟨D, h1, h2⟩ := of_map (x := parse .sample .default "COMPOUNDRULE 1\nCOMPOUNDRULE AB\n".toList
      "2\naaa/A\nbbb/B\n".toList)
    (D := fun D => (D.removeStem .default "bbb".toList).1 &&
      let C : Checker := { U := .sample, L := .default, dict := (D.removeStem .default "bbb".toList).2 }
      decide (C.check 1 "bbb".toList = .ok false) && decide (C.check 1 "aaabbb".toList = .ok true))
    (by decide +kernel)
  simp only [Bool.and_eq_true, decide_eq_true_eq] at h2
  refine ⟨D, h1, h2.1, ?_⟩
  rintro C rfl
  exact ⟨⟨1, h2.2.1⟩, ⟨1, h2.2.2⟩⟩

/-! ## C11 `add` -/

/-- **C11** (success): a successful `add` puts exactly one entry behind the others: the stem and the flags
which the line denotes (C35). -/
theorem C11_added {D D' : Dict} {line : Str} : D.add U line = .ok D' ↔
    ∃ stem F, LineMeans U D.aff.flagType D.aff.flagAliases D.aff.ignoreChars line stem F ∧
      D'.aff = D.aff ∧ D'.words.slots = D.words.slots ++ [(stem, F)] := by
  unfold Dict.add
  constructor
  · intro h
    split at h
    · cases h
    · rename_i stem F hp
      simp only [Except.ok.injEq] at h
      subst h
      exact ⟨stem, F, parseDicLine_ok.1 hp, rfl, rfl⟩
  · rintro ⟨stem, F, hp, h1, h2⟩
    rw [parseDicLine_ok.2 hp]
    obtain ⟨⟨slots⟩, A⟩ := D'
    simp only at h1 h2
    subst h1 h2
    rfl

/-- **C11** (failure): `add` fails exactly if the line is too long or its flags are malformed, and reports what is
wrong. -/
theorem C11_refused {D : Dict} {line : Str} {e : FlagError} :
    D.add U line = .error e ↔ EntryFault U D.aff.flagType D.aff.flagAliases line e := by
  rw [← parseDicLine_error (ig := D.aff.ignoreChars)]
  unfold Dict.add
  split
  · rename_i e' h; rw [h]; simp
  · rename_i h; rw [h]; simp

/-- **C11** in terms of the text, for lines without white space directly behind the slash: `add` succeeds
exactly if the line has at most 65535 bytes and the text of its flags is well formed; then the new entry is
the stem and the flags of the line. (A failed `add` returns an error and no dictionary: the dictionary of
the caller stays as it is.) -/
theorem C11_line {D : Dict} {line : Str} {n : Nat} (hn : StemEnd U line n)
    (hs : line[n]? = some '/' → ∀ c, line[n + 1]? = some c → U.isWs c = false) :
    ((∃ D', D.add U line = .ok D') ↔ (utf8 line).length ≤ 65535 ∧
      ∃ F, decodeFlagset (flagText U line n) D.aff.flagType D.aff.flagAliases = .ok F) ∧
    ∀ D', D.add U line = .ok D' → ∃ F,
      decodeFlagset (flagText U line n) D.aff.flagType D.aff.flagAliases = .ok F ∧ D'.aff = D.aff ∧
      D'.words.slots = D.words.slots ++ [(stemText D.aff.ignoreChars line n, F)] := by
  have key : ∀ D', D.add U line = .ok D' → (utf8 line).length ≤ 65535 ∧ ∃ F,
      decodeFlagset (flagText U line n) D.aff.flagType D.aff.flagAliases = .ok F ∧ D'.aff = D.aff ∧
      D'.words.slots = D.words.slots ++ [(stemText D.aff.ignoreChars line n, F)] := by
    intro D' h
    obtain ⟨stem, F, hp, h1, h2⟩ := C11_added.1 h
    replace hp := parseDicLine_ok.2 hp
    have hl := (parseDicLine_short hp).2
    obtain ⟨rfl, hF⟩ := (C35_line_partial hl hn hs _ _ _ _ _).1 hp
    exact ⟨hl, F, hF, h1, h2⟩
  refine ⟨⟨?_, ?_⟩, fun D' h => (key D' h).2⟩
  · rintro ⟨D', h⟩
    obtain ⟨hl, F, hF, -⟩ := key D' h
    exact ⟨hl, F, hF⟩
  · rintro ⟨hl, F, hF⟩
    exact ⟨⟨⟨D.words.slots ++ [(_, F)]⟩, D.aff⟩, C11_added.2 ⟨_, F, parseDicLine_ok.1 ((C35_line_partial hl hn hs _ _ _ _ _).2 ⟨rfl, hF⟩), rfl, rfl⟩⟩

example : ∃ D, Reachable .sample D ∧ ∃ D', D.add .sample "un\\/do/A".toList = .ok D' ∧
    D'.words.slots = [("foo".toList, FlagSet.ofList [65]), ("un/do".toList, FlagSet.ofList [65])] := by
  obtain ⟨D, h1, h2⟩ := of_map (x := parse .sample .default [] "1\nfoo/A\n".toList)
    (D := fun D => match D.add .sample "un\\/do/A".toList with
      | .ok D' => decide (D'.words.slots = [("foo".toList, FlagSet.ofList [65]), ("un/do".toList, FlagSet.ofList [65])])
      | .error _ => false) (by decide +kernel)
  refine ⟨D, .loaded h1, ?_⟩
  split at h2
  · rename_i D' h3
    exact ⟨D', h3, by simpa using h2⟩
  · cases h2

/-! ## C13 Hash order does not matter -/

/-- **C13**, the part about `check`: two checkers with the same settings and the same entries, in whatever
order they were inserted and whatever the hashers and the layouts of the tables, behave the same, if
entries with the same stem have the same flags. Missing: `suggest`. -/
theorem C13_check_partial {C C' : Checker} (hU : C.U = C'.U) (ha : C.dict.aff = C'.dict.aff)
    (h1 : C.checkLowerAsTitle = C'.checkLowerAsTitle) (h2 : C.checkLowerAsUpper = C'.checkLowerAsUpper)
    (hp : C.dict.words.slots.Perm C'.dict.words.slots) (hn : NoConflict C.dict) (fuel : Nat) (word : Str) :
    C.check fuel word = C'.check fuel word := by
  rw [(same_of_noConflict hU ha h1 h2 hp hn).check]

/-- In particular no stem may be listed twice with different flags: a list without repeated stems has no
conflict. -/
theorem C13_unique_stems {D : Dict} (h : (D.words.slots.map Prod.fst).Nodup) : NoConflict D := by
  intro stem F G hF hG
  obtain ⟨i, hi, hi'⟩ := List.getElem_of_mem hF
  obtain ⟨j, hj, hj'⟩ := List.getElem_of_mem hG
  have : i = j := by
    refine (List.Nodup.getElem_inj_iff h (i := i) (j := j) (hi := by simpa using hi) (hj := by simpa using hj)).1 ?_
    simp [hi', hj']
  subst this
  rw [hi'] at hj'
  exact (Prod.mk.inj hj').2

example : NoConflict (mkChecker [("foo", [1]), ("bar", []), ("foo", [1])] {}).dict := by
  intro s F G h1 h2
  simp [mkChecker, mkWords] at h1 h2
  rcases h1 with ⟨rfl, rfl⟩ | ⟨rfl, rfl⟩ | ⟨rfl, rfl⟩ <;> rcases h2 with ⟨h, rfl⟩ | ⟨h, rfl⟩ | ⟨h, rfl⟩ <;>
    first | rfl | exact absurd h (by decide)

/-- With a repeated stem the answer can depend on the hasher: `foo` is listed twice, once forbidden. -/
theorem C13_duplicates_negation : ∃ D, Reachable .sample D ∧
    Accepts { U := .sample, L := .default, dict := D } "foo".toList ∧
    Rejects { U := .sample, L := .reversed, dict := D } "foo".toList := by
  obtain ⟨D, h1, h2⟩ := of_map (x := parse .sample .default "FORBIDDENWORD !\n".toList "2\nfoo\nfoo/!\n".toList)
    (D := fun D => decide (Checker.check { U := .sample, L := .default, dict := D } 1 "foo".toList = .ok true) &&
      decide (Checker.check { U := .sample, L := .reversed, dict := D } 1 "foo".toList = .ok false)) (by decide +kernel)
  simp only [Bool.and_eq_true, decide_eq_true_eq] at h2
  exact ⟨D, .loaded h1, ⟨1, h2.1⟩, ⟨1, h2.2⟩⟩

/-! ## C38 `add` misses the hidden twin -/

/-- **C38** is false for stems with a hidden twin: `MCDONALD` is accepted if the line `McDonald` is in the
`.dic` text, and rejected if it is added. -/
theorem C38_twin_missing : ∃ D D₀ D₁, parse .sample .default [] "1\nfoo\nMcDonald".toList = .ok D ∧
    parse .sample .default [] "1\nfoo\n".toList = .ok D₀ ∧ D₀.add .sample "McDonald".toList = .ok D₁ ∧
    Accepts { U := .sample, L := .default, dict := D } "MCDONALD".toList ∧
    Rejects { U := .sample, L := .default, dict := D₁ } "MCDONALD".toList := by
  obtain ⟨D, h1, h2⟩ := of_map (x := parse .sample .default [] "1\nfoo\nMcDonald".toList)
    (D := fun D => decide (Checker.check { U := .sample, L := .default, dict := D } 1 "MCDONALD".toList = .ok true))
    (by decide +kernel)
  obtain ⟨D₀, h3, h4⟩ := of_map (x := parse .sample .default [] "1\nfoo\n".toList)
    (D := fun D => match D.add .sample "McDonald".toList with
      | .ok D' => decide (Checker.check { U := .sample, L := .default, dict := D' } 1 "MCDONALD".toList = .ok false)
      | .error _ => false) (by decide +kernel)
  simp only [decide_eq_true_eq] at h2
  split at h4
  · rename_i D₁ h5
    simp only [decide_eq_true_eq] at h4
    exact ⟨D, D₀, D₁, h1, h3, h5, ⟨1, h2⟩, ⟨1, h4⟩⟩
  · cases h4

end Spellbook.Props
