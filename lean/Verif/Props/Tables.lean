import Verif.Proof.Tables
import Verif.Proof.CompoundRule
import Verif.Proof.Conversion
import Verif.Proof.Words
/-!
# Properties of the option tables and string tests: C03 (grammar), C19, C20, C21, C28
-/

namespace Spellbook.Props
open Spec

/-! ## C03 Number grammar -/

/-- A word is a number exactly if it follows the grammar: optional sign, groups of digits, single
separators. -/
theorem C03_number_grammar (w : Str) : isNumber w = true ↔ IsNumber w := isNumber_iff w

example : IsNumber "-1,000.50-7".toList := by
  refine ⟨['-'], ['1'], [(',', "000".toList), ('.', "50".toList), ('-', ['7'])], .inr rfl, ?_, ?_, by decide⟩
  · exact ⟨by simp, by decide⟩
  · intro p hp
    simp at hp
    rcases hp with rfl | rfl | rfl <;> exact ⟨by simp, by decide, by decide⟩
example : ¬ IsNumber "1,,0".toList := by rw [← C03_number_grammar]; decide
example : ¬ IsNumber "--1".toList := by rw [← C03_number_grammar]; decide
example : ¬ IsNumber "1.".toList := by rw [← C03_number_grammar]; decide

/-! ## C19 Break and replacement tables -/

/-- The section of a break table for one kind of pattern. -/
def breakSection (t : BreakTable) : BreakAt → List Str
  | .start => t.startBreaks
  | .middle => t.middleBreaks
  | .stop => t.endBreaks

/-- The section of a replacement table for one kind of pattern. -/
def repSection (t : ReplacementTable) : RepAt → List (Str × Str)
  | .whole => t.whole
  | .start => t.start
  | .stop => t.stop
  | .anywhere => t.anywhere

/-- Every BREAK line is of exactly one kind, with exactly one text. -/
theorem C19_break_line_kind (line : Str) :
    ∃ place text, BreakLine line place text ∧
      ∀ place' text', BreakLine line place' text' → place' = place ∧ text' = text := by
  by_cases h1 : line.head? = some '^'
  · obtain ⟨t, rfl⟩ := head?_eq_some_iff'.1 h1
    refine ⟨.start, t, rfl, ?_⟩
    intro p' t' h
    cases p' <;> simp [BreakLine] at h ⊢
    exact h.symm
  · by_cases h2 : line.getLast? = some '$'
    · obtain ⟨t, rfl⟩ := getLast?_eq_some_iff'.1 h2
      refine ⟨.stop, t, ⟨rfl, h1⟩, ?_⟩
      intro p' t' h
      cases p' <;> simp [BreakLine] at h ⊢
      · exact h1 (by rw [h]; rfl)
      · exact h.1.symm
    · refine ⟨.middle, line, ⟨rfl, h1, h2⟩, ?_⟩
      intro p' t' h
      cases p' <;> simp [BreakLine] at h ⊢
      · exact h1 (by rw [h]; rfl)
      · exact h.1.symm
      · exact h2 (by rw [h.1]; simp)

/-- Each section of the break table holds, in file order, the texts of the lines of its kind and
nothing else; building it only fails (by panic) for an empty line. -/
theorem C19_break_table (lines : List Str) :
    (([] : Str) ∉ lines → ∃ t, BreakTable.new lines = some t) ∧
    ∀ t, BreakTable.new lines = some t → ∀ (place : BreakAt) (text : Str → Option Str),
      (∀ line x, text line = some x ↔ BreakLine line place x) →
      breakSection t place = lines.filterMap text := by
  refine ⟨?_, ?_⟩
  · intro h
    apply Option.isSome_iff_exists.1
    rw [BreakTable.new, BreakTable.newLoop_eq _ _ _ _ (fun b hb he => h (he ▸ hb))]
    rfl
  · intro t ht place text htext
    have : text = breakText place := by
      funext line
      apply Option.ext
      intro x
      rw [htext, breakText_iff]
    subst this
    obtain ⟨h1, h2, h3⟩ := BreakTable.new_spec ht
    cases place
    · exact h1
    · exact h2
    · exact h3

/-- Such a reading of the lines exists. -/
example (place : BreakAt) : ∃ text : Str → Option Str, ∀ line x, text line = some x ↔ BreakLine line place x :=
  ⟨breakText place, fun _ _ => breakText_iff⟩

example : ∃ t, BreakTable.new ["^-".toList, "-".toList, "-$".toList, "^a$".toList] = some t ∧
    t.startBreaks = ["-".toList, "a$".toList] ∧ t.middleBreaks = ["-".toList] ∧
    t.endBreaks = ["-".toList] := ⟨_, rfl, rfl, rfl, rfl⟩

/-- Every REP pattern is of exactly one kind, with exactly one text. The pattern `^` followed by
nothing or `$` alone denote empty texts. -/
theorem C19_rep_line_kind (line : Str) :
    ∃ place text, RepLine line place text ∧
      ∀ place' text', RepLine line place' text' → place' = place ∧ text' = text := by
  have h : ∃ place text, repText place line = some text ∧
      ∀ place' text', repText place' line = some text' → place' = place ∧ text' = text := by
    unfold repText
    cases h1 : stripPrefix? line ['^'] with
    | some v =>
      dsimp only
      cases h2 : stripSuffix? v ['$'] with
      | some v' => exact ⟨.whole, v', rfl, by intro p t; cases p <;> simp [eq_comm]⟩
      | none => exact ⟨.start, v, rfl, by intro p t; cases p <;> simp [eq_comm]⟩
    | none =>
      dsimp only
      cases h2 : stripSuffix? line ['$'] with
      | some v' => exact ⟨.stop, v', rfl, by intro p t; cases p <;> simp [eq_comm]⟩
      | none => exact ⟨.anywhere, line, rfl, by intro p t; cases p <;> simp [eq_comm]⟩
  simpa only [repText_iff] using h

/-- Each section of the replacement table holds, in file order, the lines of its kind with the
anchors removed and nothing else; building it only fails (by panic) for an empty field. -/
theorem C19_replacement_table (lines : List (Str × Str)) :
    ((∀ p ∈ lines, p.1 ≠ [] ∧ p.2 ≠ []) → ∃ t, ReplacementTable.from' lines = some t) ∧
    ∀ t, ReplacementTable.from' lines = some t → ∀ (place : RepAt) (text : Str → Option Str),
      (∀ line x, text line = some x ↔ RepLine line place x) →
      repSection t place = lines.filterMap fun p => (text p.1).map fun x => (x, p.2) := by
  refine ⟨?_, ?_⟩
  · intro h
    apply Option.isSome_iff_exists.1
    rw [ReplacementTable.from', ReplacementTable.fromLoop_eq _ _ h]
    rfl
  · intro t ht place text htext
    have : text = repText place := by
      funext line
      apply Option.ext
      intro x
      rw [htext, repText_iff]
    subst this
    obtain ⟨h1, h2, h3, h4⟩ := ReplacementTable.from'_spec ht
    cases place
    · exact h1
    · exact h2
    · exact h3
    · exact h4

/-- `has_only_whole_word_replacements` says that the other three sections are empty. -/
theorem C19_only_whole (lines : List (Str × Str)) (t : ReplacementTable)
    (ht : ReplacementTable.from' lines = some t) :
    t.hasOnlyWhole = true ↔ t.start = [] ∧ t.stop = [] ∧ t.anywhere = [] := by
  have hne : ∀ p ∈ lines, p.1 ≠ [] ∧ p.2 ≠ [] := by
    intro p hp
    by_contra hc
    rw [ReplacementTable.from', ReplacementTable.fromLoop_none _ _ ⟨p, hp, by tauto⟩] at ht
    simp at ht
  obtain ⟨_, h2, h3, h4⟩ := ReplacementTable.from'_spec ht
  rw [h2, h3, h4]
  rw [ReplacementTable.from', ReplacementTable.fromLoop_eq _ _ hne] at ht
  simp at ht
  subst ht
  simp [ReplacementTable.hasOnlyWhole, List.filterMap_eq_nil_iff]

example : ∃ t, ReplacementTable.from' [("^a$".toList, "b".toList), ("^a".toList, "c".toList),
      ("x".toList, "y".toList), ("z$".toList, "w".toList)] = some t ∧
    t.whole = [("a".toList, "b".toList)] ∧ t.start = [("a".toList, "c".toList)] ∧
    t.stop = [("z".toList, "w".toList)] ∧ t.anywhere = [("x".toList, "y".toList)] :=
  ⟨_, rfl, rfl, rfl, rfl, rfl⟩

/-! ## C20 Conversions -/

/-- For every arrangement the unstable sort may leave, the conversion terminates with a result of
leftmost-longest single-pass rewriting by the lines of the table. -/
theorem C20_conversion (lines : List (Str × Str)) (t : ConversionTable)
    (ht : t.inner.Perm (lines.map Conversion.ofPair)) (w : Str) :
    ∃ out, t.convert? w = some out ∧ Converts lines w out :=
  ConversionTable.convert?_spec t ht w

/-- If no two lines have the same pattern text (up to the end anchor) the result is unique, hence
does not depend on the order left by the unstable sort. -/
theorem C20_conversion_unique (lines : List (Str × Str))
    (hu : ∀ l ∈ lines, ∀ l' ∈ lines, ∀ tail pat, ConvApplies l tail pat → ConvApplies l' tail pat → l = l')
    (w out out' : Str) (h : Converts lines w out) (h' : Converts lines w out') : out = out' := by
  induction h generalizing out' with
  | done => generalize hw : ([] : Str) = w at h'
            cases h' with
            | done => rfl
            | copy _ _ => simp at hw
            | replace hl ha _ _ =>
              exact absurd (List.append_eq_nil_iff.1 hw.symm).1 ha.1
  | @copy c w out hno hr ih =>
    generalize hw : c :: w = v at h'
    cases h' with
    | done => simp at hw
    | copy _ hr' => simp at hw; obtain ⟨rfl, rfl⟩ := hw; rw [ih _ hr']
    | replace hl ha _ _ => rw [← hw] at ha; exact absurd ha (hno _ hl _)
  | @replace line pat w out hl ha hmax hr ih =>
    generalize hw : pat ++ w = v at h'
    cases h' with
    | done => exact absurd (List.append_eq_nil_iff.1 hw).1 ha.1
    | copy hno _ => rw [hw] at ha; exact absurd ha (hno _ hl _)
    | @replace line' pat' w' out' hl' ha' hmax' hr' =>
      have h1 := hmax' _ hl _ (by rw [← hw]; exact ha)
      have h2 := hmax _ hl' _ (by rw [hw]; exact ha')
      have hlen : pat.length = pat'.length := by omega
      obtain ⟨rfl, rfl⟩ := List.append_inj hw hlen
      obtain rfl := hu _ hl _ hl' _ _ ha ha'
      rw [ih _ hr']

/-- Words in which no pattern applies anywhere are returned unchanged. -/
theorem C20_conversion_unchanged (lines : List (Str × Str)) (t : ConversionTable)
    (ht : t.inner.Perm (lines.map Conversion.ofPair)) (w : Str)
    (h : ∀ a b, w = a ++ b → ∀ line ∈ lines, ∀ pat, ¬ ConvApplies line b pat) :
    t.convert? w = some w := by
  obtain ⟨out, h1, h2⟩ := ConversionTable.convert?_spec t ht w
  have : ∀ {w out}, Converts lines w out →
      (∀ a b, w = a ++ b → ∀ line ∈ lines, ∀ pat, ¬ ConvApplies line b pat) → out = w := by
    intro w out h
    induction h with
    | done => intro _; rfl
    | copy _ _ ih => intro h; rw [ih fun a b hab => h (_ :: a) b (by rw [hab]; rfl)]
    | replace hl ha _ _ _ => intro h; exact absurd ha (h [] _ rfl _ hl _)
  rw [h1, this h2 h]

/-- A table with an overlap, an end anchor and a replacement that contains a pattern. -/
example :
    let lines : List (Str × Str) := [("a".toList, "b".toList), ("ab".toList, "aa".toList), ("é_".toList, "e".toList)]
    (ConversionTable.ofLines lines).Holds lines ∧
    (ConversionTable.ofLines lines).convert? "éabaé".toList = some "éaabe".toList :=
  ⟨ConversionTable.ofLines_holds _, by decide +kernel⟩

/-- With two lines for the same pattern the result depends on the order left by the sort. -/
example : ∃ (lines : List (Str × Str)) (t t' : ConversionTable) (w : Str),
    t.Holds lines ∧ t'.Holds lines ∧ t.convert w ≠ t'.convert w :=
  ⟨[("a".toList, "x".toList), ("a_".toList, "y".toList)],
   ⟨[⟨"a".toList, "x".toList, false⟩, ⟨"a".toList, "y".toList, true⟩], by decide +kernel⟩,
   ⟨[⟨"a".toList, "y".toList, true⟩, ⟨"a".toList, "x".toList, false⟩], by decide +kernel⟩,
   "a".toList, List.Perm.refl _, List.Perm.swap _ _ _, by decide +kernel⟩

/-! ## C21 Compound rules -/

/-- The matcher accepts a sequence of flag sets exactly if flags can be picked from the sets which
form a word of the rule's regular language. -/
theorem C21_rule_is_regex (rule : CompoundRule) (data : List FlagSet) :
    compoundRuleMatches rule data = true ↔
      RuleAccepts (rule.map fun el => (el.flag, el.times)) (data.map (·.elems)) :=
  compoundRuleMatches_iff rule data

/-- A table accepts a sequence exactly if one of its rules does. -/
theorem C21_any_rule (t : CompoundRuleTable) (data : List FlagSet) :
    t.anyRuleMatches data = true ↔
      ∃ rule ∈ t.rules, RuleAccepts (rule.map fun el => (el.flag, el.times)) (data.map (·.elems)) := by
  unfold CompoundRuleTable.anyRuleMatches
  rw [List.any_eq_true]
  simp only [C21_rule_is_regex]

/-- `n*1t` reads "1" as `n` or `1`: the search must back up. -/
example : compoundRuleMatches [⟨110, some .zeroOrMore⟩, ⟨49, none⟩, ⟨116, none⟩]
    [FlagSet.ofList [110, 49], FlagSet.ofList [110, 49], FlagSet.ofList [112, 116]] = true := by
  decide +kernel

/-! ## C28 Split positions -/

/-- The byte positions tried are, in increasing order, exactly the character boundaries with at least
`margin` characters before (from `start`) and after them; no slice is taken inside a character. -/
theorem C28_split_positions (word : Str) (start margin : Nat) (hs : start ≤ word.length)
    (hm : 1 ≤ margin) :
    ∃ positions, bytesWithin word (byteLen (word.take start)) margin = some positions ∧
      positions.Pairwise (· < ·) ∧
      ∀ byte, byte ∈ positions ↔ ∃ front middle back : Str, word = front ++ middle ++ back ∧
        front = word.take start ∧ margin ≤ middle.length ∧ margin ≤ back.length ∧
        byte = byteLen (front ++ middle) := by
  refine ⟨_, bytesWithin_eq word start margin hs hm, ?_, ?_⟩
  · rw [List.pairwise_map]
    have : (splitPoints word start margin).Pairwise (· < ·) := by
      rw [splitPoints_eq]; exact List.pairwise_lt_range'
    rw [List.pairwise_iff_forall_sublist] at this ⊢
    intro a b hab
    have hb : b ∈ splitPoints word start margin := hab.subset (by simp)
    rw [mem_splitPoints] at hb
    exact byteLen_take_lt (this hab) (by omega)
  · intro byte
    rw [List.mem_map]
    constructor
    · rintro ⟨i, hi, rfl⟩
      rw [mem_splitPoints] at hi
      refine ⟨word.take start, (word.take i).drop start, word.drop i, ?_, rfl, ?_, ?_, ?_⟩
      · have : word.take start ++ (word.take i).drop start = word.take i := by
          have : word.take start = (word.take i).take start := by
            rw [List.take_take, Nat.min_eq_left (by omega)]
          rw [this, List.take_append_drop]
        rw [this, List.take_append_drop]
      · rw [List.length_drop, List.length_take]; omega
      · rw [List.length_drop]; omega
      · congr 1
        have : word.take start = (word.take i).take start := by
          rw [List.take_take, Nat.min_eq_left (by omega)]
        rw [this, List.take_append_drop]
    · rintro ⟨front, middle, back, he, hf, h1, h2, rfl⟩
      have hl := congrArg List.length he
      have hfl : front.length = start := by rw [hf, List.length_take]; omega
      simp at hl
      refine ⟨(front ++ middle).length, ?_, ?_⟩
      · rw [mem_splitPoints]; simp; omega
      · congr 1; rw [he, List.take_left]

example : bytesWithin "aßcdé".toList 1 1 = some [3, 4, 5] := by decide +kernel
example : bytesWithin "aßcdé".toList 0 2 = some [3, 4] := by decide +kernel

end Spellbook.Props
