import Verif.Spec.PrepList
import Verif.Proof.FormList
/-!
# Proofs about lists with BREAK, ICONV, OCONV, IGNORE and CHECKSHARPS
-/

namespace Spellbook
open Spec Props

variable {U : Unicode} {r : PrepRules}

/-! ## The texts -/

theorem prep_dicLine {w : Str} (h : PlainEntry U w) :
    parseDicLine U w .short [] r.ignored = .ok (lettersKept r w, .empty) := by
  have hs : ∀ i, ¬ StopsAt U w i := by
    rintro i (h' | ⟨h', -⟩ | ⟨h', -⟩)
    · exact (h.2.2 _ (List.mem_of_getElem? h')).2 (by simp)
    · exact (h.2.2 _ (List.mem_of_getElem? h')).2 (by simp)
    · exact (h.2.2 _ (List.mem_of_getElem? h')).2 (by simp)
  refine (C35_line_partial h.2.1 (n := w.length) ⟨le_rfl, fun i _ => hs i, fun h => absurd h (by omega)⟩ ?_ _ _ _ _ _).2
    ⟨?_, ?_⟩
  · intro h; simp at h
  · unfold stemText
    rw [List.take_length, unescape_plain fun hb => (h.2.2 _ hb).2 (by simp)]
    rfl
  · unfold flagText
    rw [if_neg (by simp)]
    rfl

theorem prep_trimmed {w : Str} (h : PlainEntry U w) : Trimmed U w w :=
  ⟨[], [], by simp, by simp, by simp, fun c hc => (h.2.2 c (List.mem_of_head? hc)).1,
    fun c hc => (h.2.2 c (List.mem_of_getLast? hc)).1⟩

theorem noFlags_contains (f : Nat) : ¬ FlagSet.empty.contains f = true := by
  rw [FlagSet.contains_iff]; simp [FlagSet.empty]

theorem mixedCase_ne_nil {w : Str} (h : MixedCase U w) : w ≠ [] := by
  rintro rfl
  have h0 : HasCasing U [] .none := classifyCasing_iff.1 rfl
  rcases h with h | h <;> cases hasCasing_unique h h0

theorem prep_entriesOf {w : Str} (h : PlainEntry U w) :
    EntriesOf U (prepSettings r) w (plainEntries U (lettersKept r w)) := by
  have hs : ¬ SkippedLine w := by
    rintro (hn | ⟨c, rest, rfl⟩)
    · exact h.1 hn
    · exact (h.2.2 '/' (by simp)).2 (by simp)
  unfold plainEntries
  split
  · rename_i hm
    obtain ⟨c, s, e⟩ := List.exists_cons_of_ne_nil (mixedCase_ne_nil hm)
    refine .twin (prep_trimmed h) hs (parseDicLine_ok.1 (prep_dicLine h)) (.inl ⟨hm, noFlags_contains _⟩) ?_ fun f => contains_hidden
    rw [e]; rfl
  · rename_i hm
    refine .plain (prep_trimmed h) hs (parseDicLine_ok.1 (prep_dicLine h)) ?_
    rintro (⟨h1, -⟩ | ⟨-, f, h1⟩)
    · exact hm h1
    · exact noFlags_contains f h1

/-- Loading such a list. -/
theorem prep_parse {So : Sorts} {aff number : Str} {words : List Str} (ha : Settings U aff (prepSettings r))
    (hn : PlainHeader U number) (hw : ∀ w ∈ words, PlainEntry U w)
    (ht : ∀ w ∈ listKept r words, MixedCase U w → (utf8 (titleForm U w)).length ≤ 65535) :
    ∃ D, parse U So aff (listText number words) = .ok D ∧ MadeFrom (prepSettings r) D.aff ∧
      D.words.slots = ((listKept r words).map (plainEntries U)).flatten := by
  obtain ⟨first, rest, hc, rfl, rfl⟩ := plain_content hn hw
  obtain ⟨l, hc', hs⟩ := ha
  rw [content_iff.1 hc'] at hs
  have hpa : parseAff U aff = .ok (prepSettings r) := parseAff_iff.2 hs
  have hok := parseAff_ok U aff
  rw [hpa] at hok
  obtain ⟨A, hA1, hA2⟩ := assemble_ok So hok
  have hd : parseDic U (prepSettings r) (listText first.2 (rest.map (·.2))) =
      .ok ⟨((listKept r (rest.map (·.2))).map (plainEntries U)).flatten⟩ := by
    rw [parseDic_content hc hn.1]
    rw [fold_entries (ess := (listKept r (rest.map (·.2))).map (plainEntries U))]
    · rfl
    · unfold listKept
      rw [List.map_map, List.map_map, List.forall₂_map_right_iff, List.forall₂_same]
      exact fun l hl => prep_entriesOf (hw l.2 (List.mem_map.2 ⟨l, hl, rfl⟩))
    · rintro l hl ⟨t, stem, F, title, h1, -, h3, h4, h5, h6⟩
      have hl' : l.2 ∈ rest.map (·.2) := List.mem_map.2 ⟨l, hl, rfl⟩
      have hp := hw _ hl'
      have : t = l.2 := by
        rw [← trim_eq h1]
        exact trim_eq (prep_trimmed hp)
      subst this
      replace h3 := parseDicLine_ok.2 h3
      rw [show parseDicLine U l.2 (prepSettings r).flagType (prepSettings r).flagAliases (prepSettings r).ignoreChars = _ from
        prep_dicLine hp] at h3
      cases h3
      rcases h4 with ⟨h4, -⟩ | ⟨-, f, h4⟩
      · have ht' := ht _ (List.mem_map.2 ⟨_, hl', rfl⟩) h4
        have : titleForm U (lettersKept r l.2) = title := by
          obtain ⟨c, s, e⟩ := List.exists_cons_of_ne_nil (mixedCase_ne_nil h4)
          rw [e] at h5 ⊢
          exact Option.some.inj h5
        rw [this] at ht'
        exact absurd ht' (by unfold byteLen at h6; omega)
      · exact absurd h4 (noFlags_contains f)
  exact ⟨_, parse_ok hpa hd (hA2 _), hA1, rfl⟩

/-! ## The answers -/

section Answers
variable {C : Checker} {words : List Str}

/-- What is known about the dictionary of such a list. -/
structure PrepDict (C : Checker) (r : PrepRules) (words : List Str) : Prop where
  made : MadeFrom (prepSettings r) C.dict.aff
  slots : C.dict.words.slots = ((listKept r words).map (plainEntries C.U)).flatten
  conds : C.dict.CondsParsed

variable (h : PrepDict C r words)
include h

theorem PrepDict.options : C.dict.aff.options = { checksharps := r.sharps } := h.made.options

theorem PrepDict.table (k : Kind) : tableOf C.dict k = [] := by
  cases k
  · exact List.Perm.eq_nil h.made.prefixes
  · exact List.Perm.eq_nil h.made.suffixes

theorem PrepDict.shrinking : C.dict.Shrinking := by
  refine ⟨?_, ?_, ?_⟩
  · rw [h.options]; exact Nat.zero_lt_succ 2
  · rw [h.options]; intro h; cases h
  · rw [h.made.patterns]; intro c h; cases h

/-- What can be derived. -/
theorem PrepDict.derives {skip : Bool} {w : Str} : (∃ stem F steps, Derives .code C.dict skip w stem F steps) ↔
    if skip = true then w ∈ listKept r words else InList C.U (listKept r words) w := by
  constructor
  · rintro ⟨stem, F, steps, hd⟩
    have hno : ∀ {k a s t}, ¬ Step C.dict k a s t := fun hs => by
      have := hs.mem; rw [h.table] at this; simp at this
    cases hd with
    | listed e same _ =>
      subst same
      rcases (plain_mem h.slots).1 e.listed with ⟨h, -⟩ | ⟨v, hv, hm, h, rfl⟩
      · split
        · exact h
        · exact .inl h
      · split
        · rename_i hk
          exact absurd hidden_elems (e.not_hidden hk)
        · exact .inr ⟨v, hv, hm, h⟩
    | one _ h => exact absurd h hno
    | pair _ h => exact absurd h hno
    | two _ h => exact absurd h hno
    | twoThenOne _ h => exact absurd h hno
    | sandwich _ h => exact absurd h hno
  · have ho := h.options
    have key : ∀ F, (w, F) ∈ C.dict.words.slots → (skip = true → 65535 ∉ F.elems) →
        ∃ stem F steps, Derives .code C.dict skip w stem F steps := by
      intro F h1 h2
      refine ⟨w, F, [], .listed ⟨h1, ?_, h2⟩ rfl ?_⟩ <;> rw [ho] <;> rintro ⟨x, h, -⟩ <;> cases h
    intro hw
    split at hw
    · exact key .empty ((plain_mem h.slots).2 (.inl ⟨hw, rfl⟩)) (fun _ => by simp [FlagSet.empty])
    · rename_i hk
      rcases hw with hw | ⟨v, hv, hm, hw⟩
      · exact key .empty ((plain_mem h.slots).2 (.inl ⟨hw, rfl⟩)) (fun _ => by simp [FlagSet.empty])
      · exact key hiddenFlags ((plain_mem h.slots).2 (.inr ⟨v, hv, hm, hw, rfl⟩)) (fun h => absurd h hk)

theorem PrepDict.good {s : Str} {F : FlagSet} (hm : (s, F) ∈ C.dict.words.slots) :
    Good C.dict F ∧ ¬ KeepsCase C.dict F := by
  have ho := h.options
  refine ⟨⟨fun hf => ?_, ?_⟩, ?_⟩
  · rw [ho] at hf
    rcases (plain_mem h.slots).1 hm with ⟨-, rfl⟩ | ⟨v, -, -, -, rfl⟩
    · simp [FlagSet.empty] at hf
    · cases hiddenFlags_iff.1 hf
  · rintro ⟨-, y, hy, -⟩
    rw [ho] at hy; cases hy
  · rintro ⟨y, hy, -⟩
    rw [ho] at hy; cases hy

theorem PrepDict.finds : FindsAny C (· ∈ listKept r words) (InList C.U (listKept r words)) := by
  have ho := h.options
  refine ⟨by unfold Checker.opts; rw [h.made.options]; rfl, fun fc hh w => ?_⟩
  have hn : C.dict.aff.options.allowsCompounding = false := by rw [ho]; rfl
  have hno : ∀ parts, ¬ RuleCompound C.dict fc w parts := by
    intro parts hp
    obtain ⟨rule, hr, -⟩ := hp.rule
    rw [h.made.rules] at hr
    cases hr
  have hcF : ∀ F, ¬ CompoundDecides C.U C.dict C.choice fc w (some F) := by
    rintro F (⟨h, -⟩ | ⟨-, l, p, q, h, -⟩)
    · rw [hn] at h; cases h
    · exact hno _ h
  have hcN : CompoundDecides C.U C.dict C.choice fc w none :=
    ⟨fun h => absurd h (by simp [hn]), fun ⟨parts, h, _⟩ => hno parts h⟩
  have hc := Checker.choice_fits h.conds
  have hd : (∃ stem F steps, Derives .code C.dict hh.skips w stem F steps) ↔
      FoundBy (· ∈ listKept r words) (InList C.U (listKept r words)) hh w := h.derives
  have hN : C.choice.simple hh w = none ↔ ¬ FoundBy (· ∈ listKept r words) (InList C.U (listKept r words)) hh w := by
    rw [← hd]
    refine ⟨hc.simple_none hh w, fun h => ?_⟩
    cases hsm : C.choice.simple hh w with
    | none => rfl
    | some F =>
      obtain ⟨stem, steps, h'⟩ := hc.simple_some _ _ _ hsm
      exact absurd ⟨_, _, _, h'⟩ h
  refine ⟨⟨?_, fun h => .inr ⟨hN.2 h, hcN⟩⟩, ⟨?_, fun h => ?_⟩, ?_⟩
  · rintro (⟨-, h⟩ | ⟨h, -⟩)
    · exact absurd rfl h
    · exact hN.1 h
  · rintro ⟨F, ⟨h, -⟩ | ⟨-, h⟩⟩
    · exact Classical.not_not.1 fun hf => by rw [hN.2 hf] at h; cases h
    · exact absurd h (hcF F)
  · cases hsm : C.choice.simple hh w with
    | none => exact absurd h (hN.1 hsm)
    | some F => exact ⟨F, .inl ⟨hsm, by simp⟩⟩
  · rintro F (⟨h1, -⟩ | ⟨-, h1⟩)
    · obtain ⟨stem, steps, h'⟩ := hc.simple_some _ _ _ h1
      have hl : (stem, F) ∈ C.dict.words.slots := by
        cases h' with
        | listed e => exact e.listed
        | one e => exact e.listed
        | pair e => exact e.listed
        | two e => exact e.listed
        | twoThenOne e => exact e.listed
        | sandwich e => exact e.listed
      exact h.good hl
    · exact absurd h1 (hcF F)

omit h in
/-- Cutting by verdicts is cutting by what is known, if every text is known or has no verdict. -/
theorem breaks_cutBy {lines : List Str} {verdict : Str → Option Bool → Prop} {known : Str → Prop}
    (hv : ∀ w, (verdict w none ↔ ¬ known w) ∧ (verdict w (some true) ↔ known w)) {depth : Nat} {w : Str} :
    Breaks lines verdict depth w ↔ CutBy lines known depth w := by
  constructor
  · intro h
    induction h with
    | direct h => exact .known ((hv _).2.1 h)
    | start _ hl hb hw _ ih =>
      unfold BreakLine at hb
      subst hb hw
      exact .start hl ih
    | stop _ hl hb hw _ ih =>
      obtain ⟨rfl, hb⟩ := hb
      subst hw
      exact .stop hl hb ih
    | middle _ hl hb hf hne _ _ iha ihb =>
      obtain ⟨rfl, hb1, hb2⟩ := hb
      obtain ⟨rfl, hmin⟩ := hf
      exact .middle hl hb1 hb2 hmin hne iha ihb
  · intro h
    induction h with
    | known h => exact .direct ((hv _).2.2 h)
    | @start depth text w hl _ ih =>
      by_cases hk : known (text ++ w)
      · exact .direct ((hv _).2.2 hk)
      · exact .start ((hv _).1.2 hk) hl rfl rfl ih
    | @stop depth text w hl hb _ ih =>
      by_cases hk : known (w ++ text)
      · exact .direct ((hv _).2.2 hk)
      · exact .stop ((hv _).1.2 hk) hl ⟨rfl, hb⟩ rfl ih
    | @middle depth text a b hl hb1 hb2 hmin hne _ _ iha ihb =>
      by_cases hk : known (a ++ text ++ b)
      · exact .direct ((hv _).2.2 hk)
      · exact .middle ((hv _).1.2 hk) hl ⟨rfl, hb1, hb2⟩ ⟨rfl, hmin⟩ hne iha ihb

end Answers

end Spellbook
