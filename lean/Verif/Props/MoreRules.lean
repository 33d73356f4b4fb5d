import Verif.Proof.MoreRules
import Verif.Props.Growth
import Verif.Props.BlockOrder
/-!
# C97 The order of affix rules does not matter, and more rules make no correct word wrong

The tables of affixes are sorted by text, and of several derivations of a word the first one found decides. Which one
this is depends on the order of the rules. The answer does not, unless the derivations disagree.
-/

namespace Spellbook.Props
open Spec Run Checker

variable {C C' : Checker}

/-- **C97** (more rules): with a dictionary without compounds, whose homonyms have the same marks, no correct word becomes
wrong when further affix rules are added which make nothing of marked entries. -/
theorem C97_check {U U' : Unicode} (hD : Reachable U C.dict) (hD' : Reachable U' C'.dict) (h : MoreRules C C')
    (hm : SameMarks C.dict) (hn : C.dict.aff.options.allowsCompounding = false)
    (hr : C.dict.aff.compoundRules.rules = []) (hS : C.dict.Shrinking) (h1 : C.checkLowerAsTitle = false)
    (h2 : C.checkLowerAsUpper = false) {word : Str} (ha : Accepts C word) : Accepts C' word :=
  accepts_grows hD hD' h.grows hm hn hr hS h1 h2 ha

/-- **C97** (order): with such a dictionary neither the order of the affix rules nor repeated rules change an answer. -/
theorem C97_order {U U' : Unicode} (hD : Reachable U C.dict) (hD' : Reachable U' C'.dict) (h : SameRuleSet C C')
    (hm : SameMarks C.dict) (hn : C.dict.aff.options.allowsCompounding = false)
    (hr : C.dict.aff.compoundRules.rules = []) (hS : C.dict.Shrinking) (h1 : C.checkLowerAsTitle = false)
    (h2 : C.checkLowerAsUpper = false) (word : Str) :
    (Accepts C word ↔ Accepts C' word) ∧ (Rejects C word ↔ Rejects C' word) := by
  have hS' : C'.dict.Shrinking := by
    obtain ⟨p, s, e⟩ := h.settings
    obtain ⟨a, b, c⟩ := hS
    exact ⟨by rw [e]; exact a, by rw [e]; exact b, by rw [e]; exact c⟩
  have h1' := h.title.trans h1
  have h2' := h.upper.trans h2
  have key : Accepts C word ↔ Accepts C' word :=
    ⟨C97_check hD hD' h.more hm hn hr hS h1 h2,
      C97_check hD' hD h.symm.more (h.marks hm) (by rw [h.more.grows.options]; exact hn)
        (by rw [h.more.grows.rules]; exact hr) hS' h1' h2'⟩
  refine ⟨key, ?_⟩
  have other : ∀ {C : Checker}, C.dict.Shrinking → C.checkLowerAsTitle = false → C.checkLowerAsUpper = false →
      (Rejects C word ↔ ¬ Accepts C word) := fun hS h1 h2 =>
    ⟨fun hr ha => (C26_one_outcome _ word).2.1 ⟨ha, hr⟩,
      fun hn => (C26_default_decides_partial _ hS h1 h2 word).resolve_left hn⟩
  rw [other hS h1 h2, other hS' h1' h2', key]

/-! ## Texts -/

section
variable {U : Unicode} {S : Sorts} {aff aff' dic : Str} {head : List Str} {blocks blocks' : List Block} {c₁ : Cx}
  {D D' : Dict}

/-- Two affix files which differ in the blocks of PFX and SFX only, and where the rows of the first occur in the second. -/
theorem texts_rules (hl : HasLines U aff (head ++ (blocks.map Block.lines).flatten))
    (hl' : HasLines U aff' (head ++ (blocks'.map Block.lines).flatten)) (hh : Reads U {} head c₁)
    (hw : ∀ b ∈ blocks, b.WellCut U) (hw' : ∀ b ∈ blocks', b.WellCut U) (hk : ∀ b ∈ blocks, b.key ∉ ["FLAG", "AF"])
    (hk' : ∀ b ∈ blocks', b.key ∉ ["FLAG", "AF"])
    (hs : ∀ key, key ∉ ["PFX", "SFX"] → blocks.filter (·.key = key) = blocks'.filter (·.key = key))
    (hp : parse U S aff dic = .ok D) (hp' : parse U S aff' dic = .ok D') :
    D'.words = D.words ∧ (∃ p s, D'.aff = { D.aff with prefixes := p, suffixes := s }) ∧
      ((∀ key ∈ ["PFX", "SFX"], ∀ name cross row, HasRow U blocks key name cross row →
        HasRow U blocks' key name cross row) → ∀ k, ∀ a ∈ tableOf D k, a ∈ tableOf D' k) := by
  obtain ⟨l, hc, e⟩ := hl
  obtain ⟨l', hc', e'⟩ := hl'
  rw [content_iff.1 hc] at e
  rw [content_iff.1 hc'] at e'
  obtain ⟨cx, h1, -, h2, h3, h4⟩ := parse_ok_inv hp
  obtain ⟨cx', h1', -, h2', h3', h4'⟩ := parse_ok_inv hp'
  rw [parseAff_iff, e] at h1
  rw [parseAff_iff, e'] at h1'
  obtain ⟨off, mem⟩ := Blocks.reads_rules hw hw' hk hk' hs hh h1 h1'
  refine ⟨?_, Blocks.assemble_off off (h4 D.words) (h4' D.words), fun hrow k a ha => ?_⟩
  · rw [Blocks.parseDic_off off, h2] at h2'
    exact (Except.ok.inj h2').symm
  · rw [Blocks.table_mem h3] at ha
    rw [Blocks.table_mem h3']
    obtain ⟨x, hx, rfl⟩ := ha
    refine ⟨x, mem k (hrow (Blocks.keyOf k) (by cases k <;> decide)) x hx, ?_⟩
    obtain ⟨p, s, rfl⟩ := off
    rfl

variable (hl : HasLines U aff (head ++ (blocks.map Block.lines).flatten))
  (hl' : HasLines U aff' (head ++ (blocks'.map Block.lines).flatten)) (hh : Reads U {} head c₁)
  (hw : ∀ b ∈ blocks, b.WellCut U) (hw' : ∀ b ∈ blocks', b.WellCut U) (hk : ∀ b ∈ blocks, b.key ∉ ["FLAG", "AF"])
  (hk' : ∀ b ∈ blocks', b.key ∉ ["FLAG", "AF"])
  (hs : ∀ key, key ∉ ["PFX", "SFX"] → blocks.filter (·.key = key) = blocks'.filter (·.key = key))
  (hp : parse U S aff dic = .ok D) (hp' : parse U S aff' dic = .ok D')
  (hn : D.aff.options.allowsCompounding = false) (hr : D.aff.compoundRules.rules = []) (hS : D.Shrinking)
include hl hl' hh hw hw' hk hk' hs hp hp' hn hr hS

/-- **C97** (order, texts): two affix files with the same blocks, but for those of PFX and SFX, which have the same rows
in both, in whatever order and blocks: every word has the same answer with both. FLAG and AF stay at the beginning, in
the common part `head`. -/
theorem C97_texts_order (hrow : ∀ key ∈ ["PFX", "SFX"], ∀ name cross row, HasRow U blocks key name cross row ↔
      HasRow U blocks' key name cross row) (hm : SameMarks D) (L L' : Layout) (word : Str) :
    (Accepts { U, L, dict := D } word ↔ Accepts { U, L := L', dict := D' } word) ∧
      (Rejects { U, L, dict := D } word ↔ Rejects { U, L := L', dict := D' } word) := by
  obtain ⟨a, b, c⟩ := texts_rules hl hl' hh hw hw' hk hk' hs hp hp'
  obtain ⟨-, -, d⟩ := texts_rules hl' hl hh hw' hw hk' hk (fun key h => (hs key h).symm) hp' hp
  refine C97_order (C := { U, L, dict := D }) (C' := { U, L := L', dict := D' }) (.loaded hp) (.loaded hp')
    ⟨rfl, b, rfl, rfl, fun e => by rw [show D'.words.slots = D.words.slots by rw [a]], fun k x => ⟨?_, ?_⟩⟩ hm hn hr hS rfl rfl word
  · exact c (fun key h n cr row => (hrow key h n cr row).1) k x
  · exact d (fun key h n cr row => (hrow key h n cr row).2) k x

/-- **C97** (more rules, texts): two affix files with the same blocks, but for those of PFX and SFX, where the second one
has the rows of the first one and further ones. If no entry is marked, no correct word becomes wrong. -/
theorem C97_texts_more (hrow : ∀ key ∈ ["PFX", "SFX"], ∀ name cross row, HasRow U blocks key name cross row →
      HasRow U blocks' key name cross row) (hm : ∀ e ∈ D.words.slots, ¬ Marked D e.2) (L L' : Layout) {word : Str}
    (ha : Accepts { U, L, dict := D } word) : Accepts { U, L := L', dict := D' } word := by
  obtain ⟨a, b, c⟩ := texts_rules hl hl' hh hw hw' hk hk' hs hp hp'
  have hent : ∀ e, e ∈ D'.words.slots ↔ e ∈ D.words.slots := fun e => by rw [a]
  refine C97_check (C := { U, L, dict := D }) (C' := { U, L := L', dict := D' }) (.loaded hp) (.loaded hp')
    ⟨rfl, b, rfl, rfl, hent, c hrow, fun hd => .inr (hm _ ((hent _).1 (Derives.usable hd).listed))⟩ (sameMarks_none hm)
    hn hr hS rfl rfl ha

end

/-! ## Examples -/

/-- Blocks with the same rules in different order, and one rule twice. -/
def ruleA : Block := ⟨"SFX", "SFX A Y 2".toList, ["A".toList, "Y".toList, "2".toList],
  ["SFX A 0 s [^y]".toList, "SFX A y ies y".toList]⟩
@[inherit_doc ruleA]
def ruleA1 : Block := ⟨"SFX", "SFX A Y 1".toList, ["A".toList, "Y".toList, "1".toList], ["SFX A y ies y".toList]⟩
@[inherit_doc ruleA]
def ruleA2 : Block := ⟨"SFX", "SFX A Y 2 # again".toList, ["A".toList, "Y".toList, "2".toList, "#".toList, "again".toList],
  ["SFX A 0  s [^y]".toList, "SFX A y ies y".toList]⟩
@[inherit_doc ruleA]
def ruleB : Block := ⟨"PFX", "PFX B Y 1".toList, ["B".toList, "Y".toList, "1".toList], ["PFX B 0 un .".toList]⟩
@[inherit_doc ruleA]
def ruleC : Block := ⟨"SFX", "SFX C Y 1".toList, ["C".toList, "Y".toList, "1".toList], ["SFX C 0 ed .".toList]⟩

theorem isNumeral_two : IsNumeral ['2'] 2 := (parseUInt_ok (max := 2)).1 (by decide +kernel) |>.1

theorem rules_wellCut : ∀ b ∈ [ruleA, ruleA1, ruleA2, ruleB, ruleC, orderTry], b.WellCut .sample := by
  simp only [List.forall_mem_cons]
  refine ⟨⟨by decide, by decide +kernel, fun h => absurd h (by decide), fun _ w hw => ?_, fun _ h => absurd (by decide) h⟩,
    ⟨by decide, by decide +kernel, fun h => absurd h (by decide), fun _ w hw => ?_, fun _ h => absurd (by decide) h⟩,
    ⟨by decide, by decide +kernel, fun h => absurd h (by decide), fun _ w hw => ?_, fun _ h => absurd (by decide) h⟩,
    ⟨by decide, by decide +kernel, fun h => absurd h (by decide), fun _ w hw => ?_, fun _ h => absurd (by decide) h⟩,
    ⟨by decide, by decide +kernel, fun h => absurd h (by decide), fun _ w hw => ?_, fun _ h => absurd (by decide) h⟩,
    order_wellCut _ (by simp), by simp⟩
  · cases hw; exact isNumeral_two
  · cases hw; exact isNumeral_one
  · cases hw; exact isNumeral_two
  · cases hw; exact isNumeral_one
  · cases hw; exact isNumeral_one

/-- The affix files with these blocks. -/
def rulesAff : String := "TRY ob\nSFX A Y 2\nSFX A 0 s [^y]\nSFX A y ies y\nPFX B Y 1\nPFX B 0 un .\n"
@[inherit_doc rulesAff]
def rulesAff' : String := "SFX A Y 1\nSFX A y ies y\nPFX B Y 1\nPFX B 0 un .\nTRY ob\nSFX A Y 2 # again\nSFX A 0  s [^y]\nSFX A y ies y\n"
@[inherit_doc rulesAff]
def rulesAff'' : String := "SFX C Y 1\nSFX C 0 ed .\nTRY ob\nPFX B Y 1\nPFX B 0 un .\nSFX A Y 2\nSFX A 0 s [^y]\nSFX A y ies y\n"

theorem rules_lines : HasLines .sample rulesAff.toList ([] ++ ([orderTry, ruleA, ruleB].map Block.lines).flatten) :=
  ⟨contentLines .sample rulesAff.toList, content_iff.2 rfl, by decide +kernel⟩

theorem rules_lines' :
    HasLines .sample rulesAff'.toList ([] ++ ([ruleA1, ruleB, orderTry, ruleA2].map Block.lines).flatten) :=
  ⟨contentLines .sample rulesAff'.toList, content_iff.2 rfl, by decide +kernel⟩

theorem rules_lines'' :
    HasLines .sample rulesAff''.toList ([] ++ ([ruleC, orderTry, ruleB, ruleA].map Block.lines).flatten) :=
  ⟨contentLines .sample rulesAff''.toList, content_iff.2 rfl, by decide +kernel⟩

/-- Their blocks are well cut. -/
theorem rules_wellCut₁ : ∀ b ∈ [orderTry, ruleA, ruleB], b.WellCut .sample := by
  have h := rules_wellCut
  simp only [List.forall_mem_cons] at h ⊢
  obtain ⟨h1, h2, h3, h4, h5, h6, -⟩ := h
  exact ⟨h6, h1, h4, by simp⟩
@[inherit_doc rules_wellCut₁]
theorem rules_wellCut₂ : ∀ b ∈ [ruleA1, ruleB, orderTry, ruleA2], b.WellCut .sample := by
  have h := rules_wellCut
  simp only [List.forall_mem_cons] at h ⊢
  obtain ⟨h1, h2, h3, h4, h5, h6, -⟩ := h
  exact ⟨h2, h4, h6, h3, by simp⟩
@[inherit_doc rules_wellCut₁]
theorem rules_wellCut₃ : ∀ b ∈ [ruleC, orderTry, ruleB, ruleA], b.WellCut .sample := by
  have h := rules_wellCut
  simp only [List.forall_mem_cons] at h ⊢
  obtain ⟨h1, h2, h3, h4, h5, h6, -⟩ := h
  exact ⟨h5, h6, h4, h1, by simp⟩

/-- The rows of blocks, each with its directive, flag and `Y` or `N`. -/
def rowsOf (U : Unicode) (blocks : List Block) : List (String × List Str × List Str) :=
  blocks.flatMap fun b => b.rows.map fun l => (b.key, b.args.take 2, splitWhitespace U l)

theorem hasRow_iff {U : Unicode} {blocks : List Block} {key : String} {name cross : Str} {row : List Str} :
    HasRow U blocks key name cross row ↔ (key, [name, cross], key.toList :: row) ∈ rowsOf U blocks := by
  simp only [HasRow, rowsOf, List.mem_flatMap, List.mem_map, Prod.mk.injEq]
  constructor
  · rintro ⟨b, hb, h1, h2, l, hl, h3⟩
    exact ⟨b, hb, l, hl, h1, h2, h3⟩
  · rintro ⟨b, hb, l, hl, h1, h2, h3⟩
    exact ⟨b, hb, h1, h2, l, hl, h3⟩

theorem rules_filter (l l' : List Block) (h : ∀ b ∈ l, b.key ∈ ["PFX", "SFX"]) (h' : ∀ b ∈ l', b.key ∈ ["PFX", "SFX"])
    (r r' : List Block) (hr : ∀ b ∈ r, b.key ∈ ["PFX", "SFX"]) (hr' : ∀ b ∈ r', b.key ∈ ["PFX", "SFX"]) (b : Block)
    {key : String} (hk : key ∉ ["PFX", "SFX"]) :
    (l ++ b :: r).filter (·.key = key) = (l' ++ b :: r').filter (·.key = key) := by
  have no : ∀ l : List Block, (∀ b ∈ l, b.key ∈ ["PFX", "SFX"]) → l.filter (·.key = key) = [] := by
    intro l h
    rw [List.filter_eq_nil_iff]
    intro b hb e
    exact hk ((of_decide_eq_true e) ▸ h b hb)
  rw [List.filter_append, List.filter_append, List.filter_cons, List.filter_cons, no l h, no l' h', no r hr, no r' hr']

/-- The rules in the other order, one of them twice, and in other blocks, give the same answers. -/
theorem rules_example {D D' : Dict} {S : Sorts} {dic : Str} (hp : parse .sample S rulesAff.toList dic = .ok D)
    (hp' : parse .sample S rulesAff'.toList dic = .ok D') (hn : D.aff.options.allowsCompounding = false)
    (hr : D.aff.compoundRules.rules = []) (hS : D.Shrinking) (hm : SameMarks D) (L L' : Layout) (word : Str) :
    (Accepts { U := .sample, L, dict := D } word ↔ Accepts { U := .sample, L := L', dict := D' } word) ∧
      (Rejects { U := .sample, L, dict := D } word ↔ Rejects { U := .sample, L := L', dict := D' } word) := by
  refine C97_texts_order rules_lines rules_lines' .done
    rules_wellCut₁ rules_wellCut₂
    (by decide) (by decide)
    (fun key hk => rules_filter [] [ruleA1, ruleB] (by simp) (by decide) [ruleA, ruleB] [ruleA2] (by decide) (by decide)
      orderTry hk) hp hp' hn hr hS (fun key _ name cross row => ?_) hm L L' word
  have h1 : ∀ x ∈ rowsOf .sample [orderTry, ruleA, ruleB], x ∈ rowsOf .sample [ruleA1, ruleB, orderTry, ruleA2] := by
    decide +kernel
  have h2 : ∀ x ∈ rowsOf .sample [ruleA1, ruleB, orderTry, ruleA2], x ∈ rowsOf .sample [orderTry, ruleA, ruleB] := by
    decide +kernel
  rw [hasRow_iff, hasRow_iff]
  exact ⟨h1 _, h2 _⟩

/-- With one more rule no correct word becomes wrong. -/
theorem rules_more_example {D D' : Dict} {S : Sorts} {dic : Str} (hp : parse .sample S rulesAff.toList dic = .ok D)
    (hp' : parse .sample S rulesAff''.toList dic = .ok D') (hn : D.aff.options.allowsCompounding = false)
    (hr : D.aff.compoundRules.rules = []) (hS : D.Shrinking) (hm : ∀ e ∈ D.words.slots, ¬ Marked D e.2) (L L' : Layout)
    {word : Str} (ha : Accepts { U := .sample, L, dict := D } word) :
    Accepts { U := .sample, L := L', dict := D' } word := by
  refine C97_texts_more rules_lines rules_lines'' .done
    rules_wellCut₁ rules_wellCut₃
    (by decide) (by decide)
    (fun key hk => rules_filter [] [ruleC] (by simp) (by decide) [ruleA, ruleB] [ruleB, ruleA] (by decide) (by decide)
      orderTry hk) hp hp' hn hr hS (fun key _ name cross row => ?_) hm L L' ha
  have h1 : ∀ x ∈ rowsOf .sample [orderTry, ruleA, ruleB], x ∈ rowsOf .sample [ruleC, orderTry, ruleB, ruleA] := by
    decide +kernel
  rw [hasRow_iff, hasRow_iff]
  exact h1 _

theorem load_parse {aff dic : String} {C : Checker} (h : loadChecker aff dic = some C) :
    parse .sample .default aff.toList dic.toList = .ok C.dict := by
  unfold loadChecker at h
  split at h
  · rename_i D hD
    simp only [Option.some.injEq] at h
    rw [← h]
    exact hD
  · cases h

/-- Such texts make dictionaries: the answers are the same, and the further rule adds a word. -/
example : ∃ D D' D'', parse .sample .default rulesAff.toList "2\ncity/AB\nwant/AC\n".toList = .ok D ∧
    parse .sample .default rulesAff'.toList "2\ncity/AB\nwant/AC\n".toList = .ok D' ∧
    parse .sample .default rulesAff''.toList "2\ncity/AB\nwant/AC\n".toList = .ok D'' ∧
    (∀ word, Accepts (checkerOf D) word ↔ Accepts (checkerOf D') word) ∧
    (∀ word, Accepts (checkerOf D) word → Accepts (checkerOf D'') word) ∧
    Accepts (checkerOf D) "uncities".toList ∧ Rejects (checkerOf D) "wanted".toList ∧
    Accepts (checkerOf D'') "wanted".toList ∧ D.aff.suffixes.table ≠ D'.aff.suffixes.table := by
  obtain ⟨C, h1, h2⟩ := of_load (aff := rulesAff) (dic := "2\ncity/AB\nwant/AC\n") (L := .default)
    (p := fun C => decide (∀ e ∈ C.dict.words.slots, ¬ Marked C.dict e.2) &&
      decide (C.dict.aff.options.allowsCompounding = false) && decide (C.dict.aff.compoundRules.rules = []) &&
      decide (0 < C.dict.aff.options.minChars) && decide (C.dict.aff.options.compoundSimplifiedTriple = false) &&
      decide (C.dict.aff.compoundPatterns = []) &&
      decide ((checkerOf C.dict).check 9 "uncities".toList = .ok true) &&
      decide ((checkerOf C.dict).check 9 "wanted".toList = .ok false) &&
      decide (C.dict.aff.suffixes.table.length = 2)) (by decide +kernel)
  obtain ⟨C', h1', h2'⟩ := of_load (aff := rulesAff') (dic := "2\ncity/AB\nwant/AC\n") (L := .default)
    (p := fun C => decide (C.dict.aff.suffixes.table.length = 3)) (by decide +kernel)
  obtain ⟨C'', h1'', h2''⟩ := of_load (aff := rulesAff'') (dic := "2\ncity/AB\nwant/AC\n") (L := .default)
    (p := fun C => decide ((checkerOf C.dict).check 9 "wanted".toList = .ok true)) (by decide +kernel)
  simp only [Bool.and_eq_true, decide_eq_true_eq] at h2 h2' h2''
  obtain ⟨⟨⟨⟨⟨⟨⟨⟨hm, hn⟩, hr⟩, hmin⟩, ht⟩, hp⟩, c1⟩, c2⟩, hlen⟩ := h2
  have hS : C.dict.Shrinking :=
    ⟨hmin, fun h => Bool.noConfusion (ht.symm.trans h), fun c hc => absurd hc (by rw [hp]; simp)⟩
  refine ⟨C.dict, C'.dict, C''.dict, load_parse h1, load_parse h1', load_parse h1'', fun word => ?_, fun word ha => ?_,
    ⟨9, c1⟩, ⟨9, c2⟩, ⟨9, h2''⟩, fun e => ?_⟩
  · exact (rules_example (load_parse h1) (load_parse h1') hn hr hS (sameMarks_none hm) .default .default word).1
  · exact rules_more_example (load_parse h1) (load_parse h1'') hn hr hS hm .default .default ha
  · rw [e, h2'] at hlen
    cases hlen

/-! ## Where the conditions are needed -/

/-- The order matters if derivations disagree: `foos` is made of `foo`, and of `fooo`, which is forbidden. -/
theorem C97_marks_negation : ∃ C C' : Checker,
    loadChecker "FORBIDDENWORD F\nSFX A Y 1\nSFX A 0 s .\nSFX B Y 1\nSFX B o s .\n" "2\nfoo/A\nfooo/BF\n" = some C ∧
    loadChecker "FORBIDDENWORD F\nSFX B Y 1\nSFX B o s .\nSFX A Y 1\nSFX A 0 s .\n" "2\nfoo/A\nfooo/BF\n" = some C' ∧
    Accepts C "foos".toList ∧ Rejects C' "foos".toList := by
  obtain ⟨C, h1, h2⟩ := of_load (aff := "FORBIDDENWORD F\nSFX A Y 1\nSFX A 0 s .\nSFX B Y 1\nSFX B o s .\n")
    (dic := "2\nfoo/A\nfooo/BF\n") (L := .default) (p := fun C => decide (C.check 9 "foos".toList = .ok true))
    (by decide +kernel)
  obtain ⟨C', h1', h2'⟩ := of_load (aff := "FORBIDDENWORD F\nSFX B Y 1\nSFX B o s .\nSFX A Y 1\nSFX A 0 s .\n")
    (dic := "2\nfoo/A\nfooo/BF\n") (L := .default) (p := fun C => decide (C.check 9 "foos".toList = .ok false))
    (by decide +kernel)
  simp only [decide_eq_true_eq] at h2 h2'
  exact ⟨C, C', h1, h1', ⟨9, h2⟩, ⟨9, h2'⟩⟩

/-- With compounds a further rule can make a correct word wrong: with CHECKCOMPOUNDREP the compound `foobar` is rejected
as soon as a rule makes `foubar`, which REP makes of it, of `fouba`. -/
theorem C97_compound_negation : ∃ C C' : Checker,
    loadChecker "COMPOUNDFLAG C\nCHECKCOMPOUNDREP\nREP 1\nREP o u\n" "3\nfoo/C\nbar/C\nfouba/R\n" = some C ∧
    loadChecker "COMPOUNDFLAG C\nCHECKCOMPOUNDREP\nREP 1\nREP o u\nSFX R Y 1\nSFX R 0 r .\n"
      "3\nfoo/C\nbar/C\nfouba/R\n" = some C' ∧ Accepts C "foobar".toList ∧ Rejects C' "foobar".toList := by
  obtain ⟨C, h1, h2⟩ := of_load (aff := "COMPOUNDFLAG C\nCHECKCOMPOUNDREP\nREP 1\nREP o u\n")
    (dic := "3\nfoo/C\nbar/C\nfouba/R\n") (L := .default) (p := fun C => decide (C.check 99 "foobar".toList = .ok true))
    (by decide +kernel)
  obtain ⟨C', h1', h2'⟩ := of_load (aff := "COMPOUNDFLAG C\nCHECKCOMPOUNDREP\nREP 1\nREP o u\nSFX R Y 1\nSFX R 0 r .\n")
    (dic := "3\nfoo/C\nbar/C\nfouba/R\n") (L := .default) (p := fun C => decide (C.check 99 "foobar".toList = .ok false))
    (by decide +kernel)
  simp only [decide_eq_true_eq] at h2 h2'
  exact ⟨C, C', h1, h1', ⟨99, h2⟩, ⟨99, h2'⟩⟩

end Spellbook.Props
