import Verif.Proof.TableOrder
import Verif.Props.MoreRules
import Verif.Props.Prepare
/-!
# C98 The order of the rows of a table does not matter

The rows of BREAK, COMPOUNDRULE, CHECKCOMPOUNDPATTERN, REP, MAP, ICONV and OCONV are alternatives. `check` goes through
them in order and stops at the first which fits, yet its answer does not depend on the order, unless two conversions of
ICONV compete or a pattern of CHECKCOMPOUNDPATTERN has a replacement.
-/

namespace Spellbook.Props
open Spec Run Checker

section
variable {U : Unicode} {S : Sorts} {aff aff' dic : Str} {head : List Str} {blocks blocks' : List Block} {c₁ : Cx}
  {D : Dict} {keys : List String}

theorem Shuffled.wellCut {b b' : Block} (h : b.Shuffled keys b') (hu : ∀ k ∈ keys, k ∈ unnumbered) (hb : b.WellCut U) :
    b'.WellCut U := by
  obtain ⟨k, l, a, r⟩ := b
  obtain ⟨k', l', a', r'⟩ := b'
  obtain ⟨e1, e2, e3, hp, hf⟩ := h
  dsimp only at *
  subst e1 e2 e3
  refine ⟨hb.known, hb.words, fun hk w hw => hp.length_eq ▸ hb.table hk w hw,
    fun hk w hw => hp.length_eq ▸ hb.affixes hk w hw, fun hk hk' => ?_⟩
  have : r = [] := hb.single hk hk'
  subst this
  exact List.perm_nil.1 hp.symm

/-- The affix file with the rows in another order makes a dictionary too. -/
theorem texts_shuffled (hu : ∀ k ∈ keys, k ∈ unnumbered) (hl : HasLines U aff (head ++ (blocks.map Block.lines).flatten))
    (hl' : HasLines U aff' (head ++ (blocks'.map Block.lines).flatten)) (hh : Reads U {} head c₁)
    (hw : ∀ b ∈ blocks, b.WellCut U) (hb : List.Forall₂ (Block.Shuffled keys) blocks blocks')
    (hp : parse U S aff dic = .ok D) : ∃ cx cx' A', Settings U aff cx ∧ MadeFrom cx D.aff ∧ MadeFrom cx' A' ∧
      parse U S aff' dic = .ok ⟨D.words, A'⟩ ∧
      Blocks.Shuf keys cx cx' ∧ assemble S cx D.words = some D ∧ assemble S cx' D.words = some ⟨D.words, A'⟩ := by
  obtain ⟨l, hc, e⟩ := hl
  obtain ⟨l', hc', e'⟩ := hl'
  obtain ⟨cx, h1, -, h2, h3, h4⟩ := parse_ok_inv hp
  have hset : Settings U aff cx := ⟨l, hc, by rw [content_iff.1 hc]; exact parseAff_iff.1 h1⟩
  rw [content_iff.1 hc] at e
  rw [content_iff.1 hc'] at e'
  rw [parseAff_iff, e] at h1
  obtain ⟨cx', k1, k2⟩ := Blocks.runs_shuffled hu hb (.refl c₁) (Blocks.runs_of_reads hw (hh.split h1))
  have hw' : ∀ b ∈ blocks', b.WellCut U := by
    clear hp hh h1 k1 e e'
    induction hb with
    | nil => simp
    | cons h _ ih =>
      rw [List.forall_mem_cons] at hw ⊢
      exact ⟨Shuffled.wellCut h hu hw.1, ih hw.2⟩
  have ha : parseAff U aff' = .ok cx' := by
    rw [parseAff_iff, e']
    exact hh.append (Blocks.reads_of_runs hw' k1)
  have hok := parseAff_ok U aff'
  rw [ha] at hok
  obtain ⟨A', h5, h6⟩ := assemble_ok S hok
  exact ⟨cx, cx', A', hset, h3, h5, parse_ok ha (by rw [Blocks.parseDic_shuffled k2]; exact h2) (h6 _), k2, h4 _, h6 _⟩

theorem settings_unique {cx cx' : Cx} (h : Settings U aff cx) (h' : Settings U aff cx') : cx = cx' := by
  obtain ⟨l, hc, hr⟩ := h
  obtain ⟨l', hc', hr'⟩ := h'
  rw [content_iff.1 hc] at hr
  rw [content_iff.1 hc'] at hr'
  exact Except.ok.inj ((parseAff_iff.2 hr).symm.trans (parseAff_iff.2 hr'))

variable {cx : Cx}

/-- **C98**: the rows of these tables in another order make a dictionary with which every word has the same answer: if no
two rows of ICONV compete, and no row of CHECKCOMPOUNDPATTERN has a replacement, as far as these rows change places. -/
theorem C98_check (hu : ∀ k ∈ keys, k ∈ unnumbered) (hl : HasLines U aff (head ++ (blocks.map Block.lines).flatten))
    (hl' : HasLines U aff' (head ++ (blocks'.map Block.lines).flatten)) (hh : Reads U {} head c₁)
    (hw : ∀ b ∈ blocks, b.WellCut U) (hb : List.Forall₂ (Block.Shuffled keys) blocks blocks')
    (hp : parse U S aff dic = .ok D) (hc : Settings U aff cx) (ht : "ICONV" ∈ keys → NoTies cx.inputConversions)
    (hpat : "CHECKCOMPOUNDPATTERN" ∈ keys → ∀ p ∈ cx.compoundPatterns, p.replacement = none) (hS : D.Shrinking) :
    ∃ D', parse U S aff' dic = .ok D' ∧ ∀ (L : Layout) (word : Str),
      (Accepts { U, L, dict := D } word ↔ Accepts { U, L, dict := D' } word) ∧
      (Rejects { U, L, dict := D } word ↔ Rejects { U, L, dict := D' } word) := by
  obtain ⟨cx₁, cx', A', h1, h2, h3, h4, h5, h6, h7⟩ := texts_shuffled hu hl hl' hh hw hb hp
  cases settings_unique hc h1
  refine ⟨_, h4, fun L word => ?_⟩
  obtain ⟨W, A⟩ := D
  have same := SameWords.shuffled h5 h6 h7 ht hpat U L
  have hS' : Dict.Shrinking ⟨W, A'⟩ := by
    obtain ⟨a, b, c⟩ := hS
    obtain ⟨⟨_, _, _, _, _, _, _, e⟩, -⟩ := h5
    have ho : A'.options = A.options := by rw [h3.options, h2.options, e]
    refine ⟨by rw [ho]; exact a, by rw [ho]; exact b, fun p hm => ?_⟩
    intro rep hr
    have := c p ((same.compoundPatterns p).2 hm) rep hr
    dsimp only at this ⊢
    rw [ho]
    exact this
  have hbr : ∀ b, b ∈ cx.breakPatterns ↔ b ∈ cx'.breakPatterns := fun b => h5.breaks.perm.mem_iff
  have hv : WholeVerdict { U, L, dict := ⟨W, A'⟩ } = WholeVerdict { U, L, dict := ⟨W, A⟩ } := by
    funext w o
    have good : ∀ F, Good ⟨W, A'⟩ F ↔ Good ⟨W, A⟩ F := by
      intro F
      obtain ⟨⟨_, _, _, _, _, _, _, e⟩, -⟩ := h5
      have ho : A'.options = A.options := by rw [h3.options, h2.options, e]
      simp only [Good, ho]
    cases o with
    | none => simp only [WholeVerdict, same.spellCasing]
    | some b => simp only [WholeVerdict, same.spellCasing, good]
  have key : Accepts { U, L, dict := ⟨W, A⟩ } word ↔ Accepts { U, L, dict := ⟨W, A'⟩ } word := by
    rw [C51_preparation _ cx.breakPatterns h2.breaks hS rfl rfl, C51_preparation _ cx'.breakPatterns h3.breaks hS' rfl rfl,
      hv]
    have hB : ∀ w, Breaks cx.breakPatterns (WholeVerdict { U, L, dict := ⟨W, A⟩ }) 9 w ↔
        Breaks cx'.breakPatterns (WholeVerdict { U, L, dict := ⟨W, A⟩ }) 9 w := fun w =>
      ⟨Breaks.congr hbr, Breaks.congr fun b => (hbr b).symm⟩
    have hcv : ∀ w, A.inputConversions.convert w = A'.inputConversions.convert w := same.inputConversions
    have hig : A.ignoreChars = A'.ignoreChars := by
      obtain ⟨⟨_, _, _, _, _, _, _, e⟩, -⟩ := h5
      rw [h3.ignore, h2.ignore, e]
    simp only [Prepared, hB, hcv, hig]
  refine ⟨key, ?_⟩
  have other : ∀ {C : Checker}, C.dict.Shrinking → C.checkLowerAsTitle = false → C.checkLowerAsUpper = false →
      (Rejects C word ↔ ¬ Accepts C word) := fun hS h1 h2 =>
    ⟨fun hr ha => (C26_one_outcome _ word).2.1 ⟨ha, hr⟩,
      fun hn => (C26_default_decides_partial _ hS h1 h2 word).resolve_left hn⟩
  rw [other (C := { U, L, dict := ⟨W, A⟩ }) hS rfl rfl, other (C := { U, L, dict := ⟨W, A'⟩ }) hS' rfl rfl, key]

/-- **C98** (every outcome): if the rows of BREAK stay where they are, `check` does the same in every respect, with every
dictionary and option. -/
theorem C98_exact (hu : ∀ k ∈ keys, k ∈ unnumbered) (hl : HasLines U aff (head ++ (blocks.map Block.lines).flatten))
    (hl' : HasLines U aff' (head ++ (blocks'.map Block.lines).flatten)) (hh : Reads U {} head c₁)
    (hw : ∀ b ∈ blocks, b.WellCut U) (hb : List.Forall₂ (Block.Shuffled keys) blocks blocks')
    (hp : parse U S aff dic = .ok D) (hc : Settings U aff cx) (ht : "ICONV" ∈ keys → NoTies cx.inputConversions)
    (hpat : "CHECKCOMPOUNDPATTERN" ∈ keys → ∀ p ∈ cx.compoundPatterns, p.replacement = none) (hk : "BREAK" ∉ keys) :
    ∃ D', parse U S aff' dic = .ok D' ∧ ∀ (L : Layout) (a b : Bool) (fuel : Nat) (word : Str),
      Checker.check { U, L, dict := D', checkLowerAsTitle := a, checkLowerAsUpper := b } fuel word =
      Checker.check { U, L, dict := D, checkLowerAsTitle := a, checkLowerAsUpper := b } fuel word := by
  obtain ⟨cx₁, cx', A', h1, h2, h3, h4, h5, h6, h7⟩ := texts_shuffled hu hl hl' hh hw hb hp
  cases settings_unique hc h1
  refine ⟨_, h4, fun L a b fuel word => ?_⟩
  obtain ⟨W, A⟩ := D
  have same := SameWords.shuffled h5 h6 h7 ht hpat U L
  have hbr : A.breakTable = A'.breakTable := by
    have := h2.breaks
    rw [h5.breaks.eq hk, h3.breaks, Option.some.injEq] at this
    exact this.symm
  have : SameRules { U, L, dict := ⟨W, A⟩, checkLowerAsTitle := a, checkLowerAsUpper := b }
      { U, L, dict := ⟨W, A'⟩, checkLowerAsTitle := a, checkLowerAsUpper := b } :=
    { same with lowerAsTitle := rfl, lowerAsUpper := rfl, breakTable := hbr }
  rw [this.check]

/-- **C98** (suggestions): if only rows of COMPOUNDRULE, CHECKCOMPOUNDPATTERN and ICONV change places, every word also has
the same suggestions in the same order. -/
theorem C98_suggest (hu : ∀ k ∈ keys, k ∈ ["COMPOUNDRULE", "CHECKCOMPOUNDPATTERN", "ICONV"])
    (hl : HasLines U aff (head ++ (blocks.map Block.lines).flatten))
    (hl' : HasLines U aff' (head ++ (blocks'.map Block.lines).flatten)) (hh : Reads U {} head c₁)
    (hw : ∀ b ∈ blocks, b.WellCut U) (hb : List.Forall₂ (Block.Shuffled keys) blocks blocks')
    (hp : parse U S aff dic = .ok D) (hc : Settings U aff cx) (ht : "ICONV" ∈ keys → NoTies cx.inputConversions)
    (hpat : "CHECKCOMPOUNDPATTERN" ∈ keys → ∀ p ∈ cx.compoundPatterns, p.replacement = none) :
    ∃ D', parse U S aff' dic = .ok D' ∧ ∀ (L : Layout) (a b ngram : Bool) (H : Heaps) (fuel depth : Nat) (word : Str)
      (out : List Str),
      Suggester.suggest ⟨{ U, L, dict := D', checkLowerAsTitle := a, checkLowerAsUpper := b }, H, ngram⟩ fuel depth word out =
      Suggester.suggest ⟨{ U, L, dict := D, checkLowerAsTitle := a, checkLowerAsUpper := b }, H, ngram⟩ fuel depth word out := by
  have no : ∀ k, k ∉ ["COMPOUNDRULE", "CHECKCOMPOUNDPATTERN", "ICONV"] → k ∉ keys := fun k h h' => h (hu k h')
  obtain ⟨cx₁, cx', A', h1, h2, h3, h4, h5, h6, h7⟩ := texts_shuffled (fun k hk => by
    have := hu k hk
    simp only [List.mem_cons, List.not_mem_nil, or_false] at this
    rcases this with rfl | rfl | rfl <;> decide) hl hl' hh hw hb hp
  cases settings_unique hc h1
  refine ⟨_, h4, fun L a b ngram H fuel depth word out => ?_⟩
  obtain ⟨W, A⟩ := D
  have same := SameWords.shuffled h5 h6 h7 ht hpat U L
  have hbr : A.breakTable = A'.breakTable := by
    have := h2.breaks
    rw [h5.breaks.eq (no _ (by decide)), h3.breaks, Option.some.injEq] at this
    exact this.symm
  have hre : A.replacements = A'.replacements := by
    have := h2.replacements
    rw [h5.replacements.eq (no _ (by decide)), h3.replacements, Option.some.injEq] at this
    exact this.symm
  obtain ⟨⟨_, _, _, _, _, _, _, e⟩, -, -, -, -, h8, -, h9⟩ := h5
  have ho : A.options = A'.options := by rw [h3.options, h2.options, e]
  have h9 := h9.eq (no _ (by decide))
  have hout : A.outputConversions = A'.outputConversions := by
    unfold assemble at h6 h7
    simp only [Option.bind_eq_bind, Option.bind_eq_some_iff, Option.pure_def, Option.some.injEq, Dict.mk.injEq,
      true_and] at h6 h7
    obtain ⟨p, hp1, s, hs1, b, hb, r, hr, rfl⟩ := h6
    obtain ⟨p', hp', s', hs', b', hb', r', hr', rfl⟩ := h7
    exact congrArg S.table h9
  have : Suggester.SameReads ⟨{ U, L, dict := ⟨W, A⟩, checkLowerAsTitle := a, checkLowerAsUpper := b }, H, ngram⟩
      ⟨{ U, L, dict := ⟨W, A'⟩, checkLowerAsTitle := a, checkLowerAsUpper := b }, H, ngram⟩ :=
    { same with
      lowerAsTitle := rfl, lowerAsUpper := rfl, breakTable := hbr
      iter := rfl, H := rfl, ngram := rfl, allReplacements := hre, outputConversions := hout
      similarities := by rw [show A.similarities = A'.similarities by
        rw [h2.similarities, h3.similarities, h8.eq (no _ (by decide))]]
      keyboardCloseness := by rw [show A.keyboardCloseness = A'.keyboardCloseness by rw [h2.keyboard, h3.keyboard, e]]
      tryChars := by rw [show A.tryChars = A'.tryChars by rw [h2.tryChars, h3.tryChars, e]]
      noSuggestFlag := congrArg (·.noSuggestFlag) ho
      maxNgramSuggestions := congrArg (·.maxNgramSuggestions) ho
      maxDiffFactor := congrArg (·.maxDiffFactor) ho
      onlyMaxDiff := congrArg (·.onlyMaxDiff) ho
      noSplitSuggestions := congrArg (·.noSplitSuggestions) ho }
  rw [this.suggest]

end

/-! ## Examples -/

/-- Blocks with two rows, in both orders. -/
def breakAB : Block := ⟨"BREAK", "BREAK 2".toList, ["2".toList], ["BREAK -".toList, "BREAK ^x".toList]⟩
@[inherit_doc breakAB]
def breakBA : Block := ⟨"BREAK", "BREAK 2".toList, ["2".toList], ["BREAK ^x".toList, "BREAK -".toList]⟩
@[inherit_doc breakAB]
def ruleAB : Block := ⟨"COMPOUNDRULE", "COMPOUNDRULE 2".toList, ["2".toList],
  ["COMPOUNDRULE AB".toList, "COMPOUNDRULE BA*".toList]⟩
@[inherit_doc breakAB]
def ruleBA : Block := ⟨"COMPOUNDRULE", "COMPOUNDRULE 2".toList, ["2".toList],
  ["COMPOUNDRULE BA*".toList, "COMPOUNDRULE AB".toList]⟩
@[inherit_doc breakAB]
def convAB : Block := ⟨"ICONV", "ICONV 2".toList, ["2".toList], ["ICONV p b".toList, "ICONV pp d".toList]⟩
@[inherit_doc breakAB]
def convBA : Block := ⟨"ICONV", "ICONV 2".toList, ["2".toList], ["ICONV pp d".toList, "ICONV p b".toList]⟩

theorem tables_wellCut : ∀ b ∈ [breakAB, ruleAB, convAB], b.WellCut .sample := by
  simp only [List.forall_mem_cons]
  refine ⟨⟨by decide, by decide +kernel, fun _ w hw => ?_, fun h => absurd h (by decide), fun h => absurd (by decide) h⟩,
    ⟨by decide, by decide +kernel, fun _ w hw => ?_, fun h => absurd h (by decide), fun h => absurd (by decide) h⟩,
    ⟨by decide, by decide +kernel, fun _ w hw => ?_, fun h => absurd h (by decide), fun h => absurd (by decide) h⟩, by simp⟩
  · cases hw; exact isNumeral_two
  · cases hw; exact isNumeral_two
  · cases hw; exact isNumeral_two

theorem tables_shuffled : List.Forall₂ (Block.Shuffled ["BREAK", "COMPOUNDRULE", "ICONV"]) [breakAB, ruleAB, convAB]
    [breakBA, ruleBA, convBA] :=
  .cons ⟨rfl, rfl, rfl, .swap _ _ _, fun h => absurd (by decide) h⟩
    (.cons ⟨rfl, rfl, rfl, .swap _ _ _, fun h => absurd (by decide) h⟩
    (.cons ⟨rfl, rfl, rfl, .swap _ _ _, fun h => absurd (by decide) h⟩ .nil))

/-- The affix files with these blocks. -/
def tablesAff : String :=
  "BREAK 2\nBREAK -\nBREAK ^x\nCOMPOUNDRULE 2\nCOMPOUNDRULE AB\nCOMPOUNDRULE BA*\nICONV 2\nICONV p b\nICONV pp d\n"
@[inherit_doc tablesAff]
def tablesAff' : String :=
  "BREAK 2\nBREAK ^x\nBREAK -\nCOMPOUNDRULE 2\nCOMPOUNDRULE BA*\nCOMPOUNDRULE AB\nICONV 2\nICONV pp d\nICONV p b\n"

theorem tables_lines : HasLines .sample tablesAff.toList ([] ++ ([breakAB, ruleAB, convAB].map Block.lines).flatten) :=
  ⟨contentLines .sample tablesAff.toList, content_iff.2 rfl, by decide +kernel⟩

theorem tables_lines' : HasLines .sample tablesAff'.toList ([] ++ ([breakBA, ruleBA, convBA].map Block.lines).flatten) :=
  ⟨contentLines .sample tablesAff'.toList, content_iff.2 rfl, by decide +kernel⟩

/-- Conversions with different sources do not compete, if none of them stands at the end of words only. -/
theorem noTies_plain {lines : List (Str × Str)} (h : ∀ l ∈ lines, l.1.getLast? ≠ some '_')
    (hd : ∀ l ∈ lines, ∀ l' ∈ lines, l.1 = l'.1 → l.2 = l'.2) : NoTies lines := by
  have key : ∀ l ∈ lines, ∀ tail pat, ConvApplies l tail pat → l.1 = pat := by
    intro l hl tail pat ha
    rcases ha.2 with ⟨e, -⟩ | ⟨-, e, -⟩
    · exact absurd (by rw [e]; simp) (h l hl)
    · exact e
  exact fun l hl l' hl' tail pat ha ha' => hd l hl l' hl' ((key l hl tail pat ha).trans (key l' hl' tail pat ha').symm)

theorem tables_settings : ∃ cx, Settings .sample tablesAff.toList cx ∧ NoTies cx.inputConversions := by
  have h : (match parseAff .sample tablesAff.toList with
    | .ok cx => decide (cx.inputConversions = [("p".toList, "b".toList), ("pp".toList, "d".toList)])
    | .error _ => false) = true := by decide +kernel
  split at h
  · rename_i cx hc
    rw [decide_eq_true_eq] at h
    refine ⟨cx, ⟨_, content_iff.2 rfl, parseAff_iff.1 hc⟩, ?_⟩
    rw [h]
    exact noTies_plain (by decide) (by decide)
  · cases h

/-- Such texts make dictionaries with the same answers, by rules, breaks and conversions in different places. -/
example : ∃ D D', parse .sample .default tablesAff.toList "3\nfoo/A\nbar/B\ndar/B\n".toList = .ok D ∧
    parse .sample .default tablesAff'.toList "3\nfoo/A\nbar/B\ndar/B\n".toList = .ok D' ∧
    (∀ word, Accepts (checkerOf D) word ↔ Accepts (checkerOf D') word) ∧
    Accepts (checkerOf D) "xfoopar-pparfoo".toList ∧ Rejects (checkerOf D) "foofoo".toList ∧
    D.aff.compoundRules ≠ D'.aff.compoundRules := by
  obtain ⟨C, h1, h2⟩ := of_load (aff := tablesAff) (dic := "3\nfoo/A\nbar/B\ndar/B\n") (L := .default)
    (p := fun C => decide (0 < C.dict.aff.options.minChars) &&
      decide (C.dict.aff.options.compoundSimplifiedTriple = false) && decide (C.dict.aff.compoundPatterns = []) &&
      decide ((checkerOf C.dict).check 99 "xfoopar-pparfoo".toList = .ok true) &&
      decide ((checkerOf C.dict).check 99 "foofoo".toList = .ok false) &&
      decide (C.dict.aff.compoundRules.rules.head?.bind (·.head?.map (·.flag)) = some 65)) (by decide +kernel)
  obtain ⟨C', h1', h2'⟩ := of_load (aff := tablesAff') (dic := "3\nfoo/A\nbar/B\ndar/B\n") (L := .default)
    (p := fun C => decide (C.dict.aff.compoundRules.rules.head?.bind (·.head?.map (·.flag)) = some 66)) (by decide +kernel)
  simp only [Bool.and_eq_true, decide_eq_true_eq] at h2 h2'
  obtain ⟨⟨⟨⟨⟨hmin, ht⟩, hp⟩, c1⟩, c2⟩, hr⟩ := h2
  have hS : C.dict.Shrinking :=
    ⟨hmin, fun h => Bool.noConfusion (ht.symm.trans h), fun c hc => absurd hc (by rw [hp]; simp)⟩
  obtain ⟨cx, hc, hn⟩ := tables_settings
  obtain ⟨D', k1, k2⟩ := C98_check (keys := ["BREAK", "COMPOUNDRULE", "ICONV"]) (by decide) tables_lines tables_lines' .done
    tables_wellCut tables_shuffled (load_parse h1) hc (fun _ => hn) (fun h => absurd h (by decide)) hS
  rw [load_parse h1', Except.ok.injEq] at k1
  subst k1
  refine ⟨C.dict, C'.dict, load_parse h1, load_parse h1', fun word => (k2 .default word).1, ⟨99, c1⟩, ⟨99, c2⟩, fun e => ?_⟩
  rw [e, h2'] at hr
  cases hr

/-! ## Where the conditions are needed -/

/-- The order matters if two rows of ICONV convert the same text. -/
theorem C98_iconv_negation : ∃ C C' : Checker,
    loadChecker "ICONV 2\nICONV x a\nICONV x b\n" "1\na\n" = some C ∧
    loadChecker "ICONV 2\nICONV x b\nICONV x a\n" "1\na\n" = some C' ∧
    Accepts C "x".toList ∧ Rejects C' "x".toList := by
  obtain ⟨C, h1, h2⟩ := of_load (aff := "ICONV 2\nICONV x a\nICONV x b\n")
    (dic := "1\na\n") (L := .default) (p := fun C => decide (C.check 99 "x".toList = .ok true)) (by decide +kernel)
  obtain ⟨C', h1', h2'⟩ := of_load (aff := "ICONV 2\nICONV x b\nICONV x a\n")
    (dic := "1\na\n") (L := .default) (p := fun C => decide (C.check 99 "x".toList = .ok false)) (by decide +kernel)
  simp only [decide_eq_true_eq] at h2 h2'
  exact ⟨C, C', h1, h1', ⟨99, h2⟩, ⟨99, h2'⟩⟩

/-- The order of the rows of CHECKCOMPOUNDPATTERN matters if two of them have the same replacement: of the parts `fooc`
and `fooa`, one of which has a warning, the first one found decides. -/
theorem C98_pattern_negation : ∃ C C' : Checker,
    loadChecker "COMPOUNDFLAG C\nWARN W\nFORBIDWARN\nCOMPOUNDMIN 1\nCHECKCOMPOUNDPATTERN 2\nCHECKCOMPOUNDPATTERN c b x\nCHECKCOMPOUNDPATTERN a b x\n" "3\nfooa/CW\nfooc/C\nbar/C\n" = some C ∧
    loadChecker "COMPOUNDFLAG C\nWARN W\nFORBIDWARN\nCOMPOUNDMIN 1\nCHECKCOMPOUNDPATTERN 2\nCHECKCOMPOUNDPATTERN a b x\nCHECKCOMPOUNDPATTERN c b x\n" "3\nfooa/CW\nfooc/C\nbar/C\n" = some C' ∧
    Accepts C "fooxar".toList ∧ Rejects C' "fooxar".toList := by
  obtain ⟨C, h1, h2⟩ := of_load (aff := "COMPOUNDFLAG C\nWARN W\nFORBIDWARN\nCOMPOUNDMIN 1\nCHECKCOMPOUNDPATTERN 2\nCHECKCOMPOUNDPATTERN c b x\nCHECKCOMPOUNDPATTERN a b x\n")
    (dic := "3\nfooa/CW\nfooc/C\nbar/C\n") (L := .default) (p := fun C => decide (C.check 99 "fooxar".toList = .ok true)) (by decide +kernel)
  obtain ⟨C', h1', h2'⟩ := of_load (aff := "COMPOUNDFLAG C\nWARN W\nFORBIDWARN\nCOMPOUNDMIN 1\nCHECKCOMPOUNDPATTERN 2\nCHECKCOMPOUNDPATTERN a b x\nCHECKCOMPOUNDPATTERN c b x\n")
    (dic := "3\nfooa/CW\nfooc/C\nbar/C\n") (L := .default) (p := fun C => decide (C.check 99 "fooxar".toList = .ok false)) (by decide +kernel)
  simp only [decide_eq_true_eq] at h2 h2'
  exact ⟨C, C', h1, h1', ⟨99, h2⟩, ⟨99, h2'⟩⟩

/-- The rows of AF are numbered: their order matters. -/
theorem C98_alias_negation : ∃ C C' : Checker,
    loadChecker "AF 2\nAF A\nAF F\nFORBIDDENWORD F\n" "1\na/1\n" = some C ∧
    loadChecker "AF 2\nAF F\nAF A\nFORBIDDENWORD F\n" "1\na/1\n" = some C' ∧
    Accepts C "a".toList ∧ Rejects C' "a".toList := by
  obtain ⟨C, h1, h2⟩ := of_load (aff := "AF 2\nAF A\nAF F\nFORBIDDENWORD F\n")
    (dic := "1\na/1\n") (L := .default) (p := fun C => decide (C.check 99 "a".toList = .ok true)) (by decide +kernel)
  obtain ⟨C', h1', h2'⟩ := of_load (aff := "AF 2\nAF F\nAF A\nFORBIDDENWORD F\n")
    (dic := "1\na/1\n") (L := .default) (p := fun C => decide (C.check 99 "a".toList = .ok false)) (by decide +kernel)
  simp only [decide_eq_true_eq] at h2 h2'
  exact ⟨C, C', h1, h1', ⟨99, h2⟩, ⟨99, h2'⟩⟩

end Spellbook.Props
