import Verif.Proof.Respell
import Verif.Props.Hints
import Verif.Props.BlockOrder
/-!
# C96 The spelling of flags does not matter

An affix file may write its flags as single characters, as pairs of characters or as numbers (FLAG), and it may give
numbers to sets of flags (AF). All of this is gone when the dictionary is loaded.
-/

namespace Spellbook
namespace Props
open Spec

/-- **C96**: if two pairs of texts differ in the spelling of flags only, and the first pair makes a dictionary, then so
does the second; the word lists are equal, and the affix data differ in the record of the spelling only. -/
theorem C96_parse {U : Unicode} {S : Sorts} {a b : Spelling} {aff dic aff' dic' : Str} {D : Dict}
    (ht : TextsAlike U a b aff dic aff' dic') (h : parse U S aff dic = .ok D) :
    parse U S aff' dic' = .ok ⟨D.words, { D.aff with flagType := b.type, flagAliases := b.aliases }⟩ :=
  Respell.parse ht h

/-- **C96** (answers): the two dictionaries give the same answers and the same suggestions. -/
theorem C96_answers {U : Unicode} {S : Sorts} {a b : Spelling} {aff dic aff' dic' : Str} {D : Dict}
    (ht : TextsAlike U a b aff dic aff' dic') (h : parse U S aff dic = .ok D) :
    ∃ D', parse U S aff' dic' = .ok D' ∧ ∀ (L : Layout) (H : Heaps) (ngram : Bool) (fuel depth : Nat) (word : Str)
      (out : List Str), Checker.check { U, L, dict := D' } fuel word = Checker.check { U, L, dict := D } fuel word ∧
        Suggester.suggest { C := { U, L, dict := D' }, H, ngram } fuel depth word out
          = Suggester.suggest { C := { U, L, dict := D }, H, ngram } fuel depth word out := by
  refine ⟨_, Respell.parse ht h, fun L H ngram fuel depth word out => ?_⟩
  obtain ⟨h1, h2⟩ := C94_idle { C := { U, L, dict := D }, H, ngram }
    ⟨D.aff.options.fullstrip, D.aff.options.compoundMoreSuffixes, D.aff.options.maxCompoundSuggestions,
      D.aff.options.substandardFlag, D.aff.options.suggestWithDots, b.type, b.aliases⟩ fuel depth word out
  exact ⟨h2, h1⟩

/-! ## Examples -/

/-- A dictionary with flags as characters and a number for a set of flags, and the same with flags as numbers. -/
def aliasAff : String := "AF 1\nAF SK\nKEEPCASE K\nSFX S Y 1\nSFX S 0 s/T .\nSFX T Y 1\nSFX T 0 t .\n"
@[inherit_doc aliasAff]
def aliasDic : String := "2\nfoo/1\nbar\n"
@[inherit_doc aliasAff]
def numAff : String := "FLAG num\nKEEPCASE 75\nSFX 83 Y 1\nSFX 83 0 s/84 .\nSFX 84 Y 1\nSFX 84 0 t .\n"
@[inherit_doc aliasAff]
def numDic : String := "2\nfoo/83,75\nbar\n"

/-- The spellings of these texts. -/
def aliasSpelling : Spelling := ⟨.short, [FlagSet.ofList [83, 75]]⟩
@[inherit_doc aliasSpelling]
def numSpelling : Spelling := ⟨.numeric, []⟩

theorem isNumeral_of {w : Str} {n : Nat} (h : parseUInt n w = .ok n) : IsNumeral w n := (parseUInt_ok.1 h).1

theorem sameFlag_of {w w' : Str} {f : Nat} (hf : Flag.Valid f) {x : UInt8} {t : List UInt8} (h : utf8 w = x :: t)
    (hx : x.toNat = f) (h' : parseUInt f w' = .ok f) : SameFlag aliasSpelling numSpelling w w' :=
  ⟨f, hf, hx ▸ .short h, .numeric (isNumeral_of h')⟩

theorem sameFlagSet_of {w w' : Str} {l : List Nat} (h : decodeFlagset w .short aliasSpelling.aliases = .ok (.ofList l))
    (h' : decodeFlagset w' .numeric [] = .ok (.ofList l)) : SameFlagSet aliasSpelling numSpelling w w' :=
  ⟨_, aliasFlags_iff.2 h, aliasFlags_iff.2 h'⟩

/-- A line with a plain stem and flags. -/
theorem sampleLine {t : Str} {n : Nat} (hn : n ≤ t.length) (h : ∀ c ∈ t.take n, c ∉ ['/', '\\', ' ', '\t'])
    (h0 : 0 < n) (hs : t[n]? = some '/' ∨ t.length = n) : StemEnd .sample t n := by
  have out : ∀ i < n, ∀ c, t[i]? = some c → c ∉ ['/', '\\', ' ', '\t'] := by
    intro i hi c hc
    exact h c (List.mem_of_getElem? (i := i) (by rw [List.getElem?_take_of_lt hi]; exact hc))
  refine ⟨hn, fun i hi => ?_, fun hlt => ?_⟩
  · rintro (h1 | ⟨h1, -⟩ | ⟨h1, -⟩)
    · exact out i hi _ h1 (by decide)
    · exact out i hi _ h1 (by decide)
    · exact out i hi _ h1 (by decide)
  · rcases hs with hs | hs
    · refine .inr (.inl ⟨hs, h0, fun he => ?_⟩)
      exact out (n - 1) (by omega) _ he (by decide)
    · omega

theorem flagsBehind_plain {t : Str} {n : Nat} (h : ∀ c ∈ t.take n, c ∉ ['/', '\\', ' ', '\t']) (hs : t[n]? = some '/')
    (hw : ¬ ∀ c ∈ t.drop (n + 1), Unicode.sample.isWs c = true) :
    flagsBehind .sample t n = ((t.drop (n + 1)).dropWhile Unicode.sample.isWs).takeWhile fun c => !Unicode.sample.isWs c := by
  unfold flagsBehind
  rw [if_pos hs, if_neg (fun ⟨c, h1, h2⟩ => h c h1 h2), if_neg hw]

theorem trimmed_of {t : Str} (h : trim .sample t = t) : Trimmed .sample t t := by
  have := trim_spec .sample t
  rwa [h] at this

theorem respell_head : Reads .sample {} ["AF 1".toList, "AF SK".toList]
    { flagType := aliasSpelling.type, flagAliases := aliasSpelling.aliases } :=
  .directive (rows := ["AF SK".toList]) (key := "AF") (args := ["1".toList]) (by decide +kernel)
    (.table (by decide) (isNumeral_of (n := 1) (by decide +kernel)) (by decide)
      (.cons (args := ["SK".toList]) (by decide +kernel)
        (.af (l := [83, 75]) (F := FlagSet.ofList [83, 75]) (.short "SK".toList) (by decide)
          (fun f => FlagSet.contains_ofList)) .nil)) .done

theorem respell_head' : Reads .sample {} ["FLAG num".toList]
    { flagType := numSpelling.type, flagAliases := numSpelling.aliases } := order_head

/-- The blocks of the two texts. -/
def aliasBlocks : List Block := [⟨"KEEPCASE", "KEEPCASE K".toList, ["K".toList], []⟩,
  ⟨"SFX", "SFX S Y 1".toList, ["S".toList, "Y".toList, "1".toList], ["SFX S 0 s/T .".toList]⟩,
  ⟨"SFX", "SFX T Y 1".toList, ["T".toList, "Y".toList, "1".toList], ["SFX T 0 t .".toList]⟩]
@[inherit_doc aliasBlocks]
def numBlocks : List Block := [⟨"KEEPCASE", "KEEPCASE 75".toList, ["75".toList], []⟩,
  ⟨"SFX", "SFX 83 Y 1".toList, ["83".toList, "Y".toList, "1".toList], ["SFX 83 0 s/84 .".toList]⟩,
  ⟨"SFX", "SFX 84 Y 1".toList, ["84".toList, "Y".toList, "1".toList], ["SFX 84 0 t .".toList]⟩]

theorem respell_lines : HasLines .sample aliasAff.toList
    (["AF 1".toList, "AF SK".toList] ++ (aliasBlocks.map Block.lines).flatten) :=
  ⟨contentLines .sample aliasAff.toList, content_iff.2 rfl, by decide +kernel⟩

theorem respell_lines' : HasLines .sample numAff.toList (["FLAG num".toList] ++ (numBlocks.map Block.lines).flatten) :=
  ⟨contentLines .sample numAff.toList, content_iff.2 rfl, by decide +kernel⟩

theorem respell_cut : ∀ B ∈ aliasBlocks, B.WellCut .sample := by
  simp only [aliasBlocks, List.forall_mem_cons]
  refine ⟨⟨by decide, by decide +kernel, fun h => absurd h (by decide), fun h => absurd h (by decide), fun _ _ => rfl⟩,
    ⟨by decide, by decide +kernel, fun h => absurd h (by decide), fun _ w hw => ?_, fun _ h => absurd (by decide) h⟩,
    ⟨by decide, by decide +kernel, fun h => absurd h (by decide), fun _ w hw => ?_, fun _ h => absurd (by decide) h⟩,
    by simp⟩ <;>
  · cases hw; exact isNumeral_one

theorem respell_cut' : ∀ B ∈ numBlocks, B.WellCut .sample := by
  simp only [numBlocks, List.forall_mem_cons]
  refine ⟨⟨by decide, by decide +kernel, fun h => absurd h (by decide), fun h => absurd h (by decide), fun _ _ => rfl⟩,
    ⟨by decide, by decide +kernel, fun h => absurd h (by decide), fun _ w hw => ?_, fun _ h => absurd (by decide) h⟩,
    ⟨by decide, by decide +kernel, fun h => absurd h (by decide), fun _ w hw => ?_, fun _ h => absurd (by decide) h⟩,
    by simp⟩ <;>
  · cases hw; exact isNumeral_one

theorem respell_blocks : List.Forall₂ (BlockAlike .sample aliasSpelling numSpelling) aliasBlocks numBlocks := by
  have s1 : SameFlag aliasSpelling numSpelling "K".toList "75".toList :=
    sameFlag_of (f := 75) (by decide) (x := 75) (t := []) (by decide +kernel) rfl (by decide +kernel)
  have s2 : SameFlag aliasSpelling numSpelling "S".toList "83".toList :=
    sameFlag_of (f := 83) (by decide) (x := 83) (t := []) (by decide +kernel) rfl (by decide +kernel)
  have s3 : SameFlag aliasSpelling numSpelling "T".toList "84".toList :=
    sameFlag_of (f := 84) (by decide) (x := 84) (t := []) (by decide +kernel) rfl (by decide +kernel)
  refine .cons (.flag (by decide) s1) (.cons (.affixes (by decide) s2 (.cons ⟨["S".toList, "0".toList, "s/T".toList,
    ".".toList], ["83".toList, "0".toList, "s/84".toList, ".".toList], by decide +kernel, by decide +kernel, ?_⟩ .nil))
    (.cons (.affixes (by decide) s3 (.cons ⟨["T".toList, "0".toList, "t".toList, ".".toList],
      ["84".toList, "0".toList, "t".toList, ".".toList], by decide +kernel, by decide +kernel, ?_⟩ .nil)) .nil))
  · exact .affix (by decide) (text := "s".toList) (f := "T".toList) (f' := "84".toList)
      (slashPair_iff.2 (by decide +kernel)) (slashPair_iff.2 (by decide +kernel))
      (sameFlagSet_of (l := [84]) (by decide +kernel) (by decide +kernel))
  · exact .affix (by decide) (text := "t".toList) (f := []) (f' := [])
      (slashPair_iff.2 (by decide +kernel)) (slashPair_iff.2 (by decide +kernel))
      (sameFlagSet_of (l := []) (by decide +kernel) (by decide +kernel))

theorem respell_entries : List.Forall₂ (EntryAlike .sample aliasSpelling numSpelling) ["foo/1".toList, "bar".toList]
    ["foo/83,75".toList, "bar".toList] := by
  refine .cons (.entry (t := "foo/1".toList) (t' := "foo/83,75".toList) (n := 3) (n' := 3)
    (trimmed_of (by decide +kernel)) (trimmed_of (by decide +kernel)) ?_ ?_ (by decide +kernel)
    (sampleLine (by decide) (by decide) (by decide) (.inl (by decide)))
    (sampleLine (by decide) (by decide) (by decide) (.inl (by decide))) (by decide) ?_)
    (.cons (.entry (t := "bar".toList) (t' := "bar".toList) (n := 3) (n' := 3)
    (trimmed_of (by decide +kernel)) (trimmed_of (by decide +kernel)) ?_ ?_ (by decide +kernel)
    (sampleLine (by decide) (by decide) (by decide) (.inr (by decide)))
    (sampleLine (by decide) (by decide) (by decide) (.inr (by decide))) rfl ?_) .nil)
  · rintro (h | ⟨c, r, h⟩) <;> cases h
  · rintro (h | ⟨c, r, h⟩) <;> cases h
  · rw [flagsBehind_plain (by decide) (by decide) (by decide +kernel),
      flagsBehind_plain (by decide) (by decide) (by decide +kernel)]
    exact sameFlagSet_of (l := [83, 75]) (by decide +kernel) (by decide +kernel)
  · rintro (h | ⟨c, r, h⟩) <;> cases h
  · rintro (h | ⟨c, r, h⟩) <;> cases h
  · have e : flagsBehind .sample "bar".toList 3 = [] := by
      unfold flagsBehind
      rw [if_neg (by decide)]
    rw [e]
    exact sameFlagSet_of (l := []) (by decide +kernel) (by decide +kernel)

/-- The hypothesis is met by texts with an alias, a flag of the settings, continuation flags and flags of words. -/
theorem respell_alike : TextsAlike .sample aliasSpelling numSpelling aliasAff.toList aliasDic.toList numAff.toList
    numDic.toList :=
  ⟨⟨_, _, _, _, respell_lines, respell_lines', respell_head, respell_head', respell_cut, respell_cut', respell_blocks⟩,
    "2".toList, _, _, ⟨contentLines .sample aliasDic.toList, content_iff.2 rfl, by decide +kernel⟩,
    ⟨contentLines .sample numDic.toList, content_iff.2 rfl, by decide +kernel⟩, respell_entries⟩

/-- Both dictionaries know the same words. -/
example : ∃ C C' : Checker, loadChecker aliasAff aliasDic = some C ∧ loadChecker numAff numDic = some C' ∧
    (∀ fuel word, C'.check fuel word = C.check fuel word) ∧ C'.check 9 "foost".toList = .ok true ∧
    C'.check 9 "Foo".toList = .ok false := by
  obtain ⟨C, h1, h2⟩ := of_load (aff := aliasAff) (dic := aliasDic) (L := .default)
    (p := fun C => decide (C.check 9 "foost".toList = .ok true) && decide (C.check 9 "Foo".toList = .ok false))
    (by decide +kernel)
  simp only [Bool.and_eq_true, decide_eq_true_eq] at h2
  unfold loadChecker at h1
  split at h1
  · rename_i D hD
    simp only [Option.some.injEq] at h1
    obtain ⟨D', e1, e2⟩ := C96_answers respell_alike hD
    have hall : ∀ fuel word, Checker.check { U := .sample, L := .default, dict := D' } fuel word = C.check fuel word := by
      intro fuel word
      rw [← h1]
      exact (e2 .default .sample false fuel 0 word []).1
    refine ⟨C, { U := .sample, L := .default, dict := D' }, by rw [loadChecker, hD, ← h1], by rw [loadChecker, e1], hall,
      by rw [hall]; exact h2.1, by rw [hall]; exact h2.2⟩
  · cases h1

end Props
end Spellbook
