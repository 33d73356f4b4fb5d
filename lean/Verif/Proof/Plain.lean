import Verif.Spec.Plain
import Verif.Proof.Order
import Verif.Proof.RuleText
import Verif.Props.Whole
import Mathlib.Tactic.ByContra
/-!
# Proofs about plain word lists
-/

namespace Spellbook
open Spec Props

variable {U : Unicode}

/-! ## The texts -/

theorem plain_lines {words : List Str} (hw : ∀ w ∈ words, PlainEntry U w) :
    LinesOf (words.flatMap (· ++ ['\n'])) words := by
  induction words with
  | nil => exact .nil
  | cons w ws ih =>
    have h := (hw w (by simp)).2.2
    rw [List.flatMap_cons, List.append_assoc]
    refine .lf (fun hn => (h _ hn).2 (by simp)) (fun hl => ?_) (ih fun v hv => hw v (by simp [hv]))
    exact (h _ (List.mem_of_getLast? hl)).2 (by simp)

theorem plain_numbered {number : Str} {words : List Str} (hn : PlainHeader U number)
    (hw : ∀ w ∈ words, PlainEntry U w) :
    numbered (listText number words) = (number :: words).zipIdx.map fun p => (p.2 + 1, p.1) := by
  have hl : LinesOf (listText number words) (number :: words) := by
    refine .lf (fun h => hn.2 _ h (by simp)) (fun hl => ?_) (plain_lines hw)
    exact hn.2 _ (List.mem_of_getLast? hl) (by simp)
  have hb : (listText number words).head? ≠ some (Char.ofNat 0xFEFF) := by
    unfold listText
    cases number with
    | nil => simp
    | cons c s =>
      simp only [List.cons_append, List.head?_cons, ne_eq, Option.some.injEq]
      rintro rfl
      exact hn.2 (Char.ofNat 0xFEFF) (by simp) (by simp)
  unfold numbered
  simp only
  rw [if_neg hb, hl.eq]

theorem plain_content {number : Str} {words : List Str} (hn : PlainHeader U number)
    (hw : ∀ w ∈ words, PlainEntry U w) : ∃ first rest, Content U (listText number words) (first :: rest) ∧
      first.2 = number ∧ rest.map (·.2) = words := by
  have h1 := plain_numbered hn hw
  have hc : ∀ l ∈ number :: words, ¬ Comment U l := by
    rintro l hl ⟨ws, rest, rfl, -, -⟩
    rcases List.mem_cons.1 hl with h | h
    · exact hn.2 '#' (h ▸ by simp) (by simp)
    · exact ((hw _ h).2.2 '#' (by simp)).2 (by simp)
  refine ⟨(1, number), (words.zipIdx 1).map fun p => (p.2 + 1, p.1), ?_, rfl, ?_⟩
  · have : (1, number) :: (words.zipIdx 1).map (fun p => (p.2 + 1, p.1)) = numbered (listText number words) := by
      rw [h1]; rfl
    rw [this]
    refine ⟨List.Sublist.refl _, fun l hl => ⟨fun _ => ?_, fun _ => hl⟩⟩
    rw [h1] at hl
    obtain ⟨p, hp, rfl⟩ := List.mem_map.1 hl
    exact hc _ (List.fst_mem_of_mem_zipIdx hp)
  · rw [List.map_map]
    exact List.zipIdx_map_fst 1 words

/-- The flags of a hidden entry. -/
def hiddenFlags : FlagSet := FlagSet.empty.withFlag hiddenHomonymFlag

open Classical in
/-- The entries of a word of the list. -/
noncomputable def plainEntries (U : Unicode) (w : Str) : List (Str × FlagSet) :=
  if MixedCase U w then [(titleForm U w, hiddenFlags), (w, .empty)] else [(w, .empty)]

theorem plain_dicLine {w : Str} (h : PlainEntry U w) :
    parseDicLine U w .short [] [] = .ok (w, .empty) := by
  have hs : ∀ i, ¬ StopsAt U w i := by
    rintro i (h' | ⟨h', -⟩ | ⟨h', -⟩)
    · exact (h.2.2 _ (List.mem_of_getElem? h')).2 (by simp)
    · exact (h.2.2 _ (List.mem_of_getElem? h')).2 (by simp)
    · exact (h.2.2 _ (List.mem_of_getElem? h')).2 (by simp)
  refine (C35_line_partial h.2.1 (n := w.length) ⟨le_rfl, fun i _ => hs i, fun h => absurd h (by omega)⟩ ?_ _ _ _ _ _).2
    ⟨?_, ?_⟩
  · intro h; simp at h
  · unfold stemText
    rw [List.take_length, unescape_plain fun hb => (h.2.2 _ hb).2 (by simp)]
    simp
  · unfold flagText
    rw [if_neg (by simp)]
    rfl

theorem plain_entriesOf {w : Str} (h : PlainEntry U w) : EntriesOf U {} w (plainEntries U w) := by
  have ht : Trimmed U w w := ⟨[], [], by simp, by simp, by simp, fun c hc => (h.2.2 c (List.mem_of_head? hc)).1,
    fun c hc => (h.2.2 c (List.mem_of_getLast? hc)).1⟩
  have hs : ¬ SkippedLine w := by
    rintro (hn | ⟨c, rest, rfl⟩)
    · exact h.1 hn
    · exact (h.2.2 '/' (by simp)).2 (by simp)
  have he : ∀ f, ¬ FlagSet.empty.contains f = true := by
    intro f; rw [FlagSet.contains_iff]; simp [FlagSet.empty, FlagSet.elems]
  unfold plainEntries
  split
  · rename_i hm
    obtain ⟨c, s, rfl⟩ := List.exists_cons_of_ne_nil h.1
    refine .twin ht hs (parseDicLine_ok.1 (plain_dicLine h)) (.inl ⟨hm, he _⟩) rfl fun f => contains_hidden
  · rename_i hm
    refine .plain ht hs (parseDicLine_ok.1 (plain_dicLine h)) ?_
    rintro (⟨h1, -⟩ | ⟨-, f, h1⟩)
    · exact hm h1
    · exact he f h1

theorem parseAff_nil : parseAff U [] = .ok {} := rfl

/-- Loading a plain word list. -/
theorem plain_parse {S : Sorts} {number : Str} {words : List Str} (hn : PlainHeader U number)
    (hw : ∀ w ∈ words, PlainEntry U w) (ht : ∀ w ∈ words, MixedCase U w → (utf8 (titleForm U w)).length ≤ 65535) :
    ∃ D, parse U S [] (listText number words) = .ok D ∧ MadeFrom {} D.aff ∧
      D.words.slots = (words.map (plainEntries U)).flatten := by
  obtain ⟨first, rest, hc, rfl, rfl⟩ := plain_content hn hw
  have hok := parseAff_ok U []
  rw [parseAff_nil] at hok
  obtain ⟨A, hA1, hA2⟩ := assemble_ok S hok
  have hd : parseDic U {} (listText first.2 (rest.map (·.2))) = .ok ⟨((rest.map (·.2)).map (plainEntries U)).flatten⟩ := by
    rw [parseDic_content hc hn.1]
    rw [fold_entries (ess := (rest.map (·.2)).map (plainEntries U))]
    · rfl
    · rw [List.map_map, List.forall₂_map_right_iff, List.forall₂_same]
      exact fun l hl => plain_entriesOf (hw l.2 (List.mem_map.2 ⟨l, hl, rfl⟩))
    · rintro l hl ⟨t, stem, F, title, h1, -, h3, h4, h5, h6⟩
      have hl' : l.2 ∈ rest.map (·.2) := List.mem_map.2 ⟨l, hl, rfl⟩
      have hp := hw _ hl'
      have : t = l.2 := by
        rw [← trim_eq h1]
        exact trim_eq ⟨[], [], by simp, by simp, by simp, fun c hc => (hp.2.2 c (List.mem_of_head? hc)).1,
          fun c hc => (hp.2.2 c (List.mem_of_getLast? hc)).1⟩
      subst this
      replace h3 := parseDicLine_ok.2 h3
      rw [show parseDicLine U l.2 (Cx.flagType {}) (Cx.flagAliases {}) (Cx.ignoreChars {}) = _ from plain_dicLine hp] at h3
      cases h3
      rcases h4 with ⟨h4, -⟩ | ⟨-, f, h4⟩
      · have ht' := ht _ hl' h4
        have : titleForm U l.2 = title := by
          obtain ⟨c, s, e⟩ := List.exists_cons_of_ne_nil hp.1
          rw [e] at h5 ⊢
          exact Option.some.inj h5
        rw [this] at ht'
        exact absurd ht' (by unfold byteLen at h6; omega)
      · rw [FlagSet.contains_iff] at h4; simp [FlagSet.empty, FlagSet.elems] at h4
  exact ⟨_, parse_ok parseAff_nil hd (hA2 _), hA1, rfl⟩

/-! ## The answers -/

section Answers
variable {D : Dict} {words : List Str} (hA : MadeFrom {} D.aff)
  (hs : D.words.slots = (words.map (plainEntries U)).flatten)

include hs in
theorem plain_mem {s : Str} {F : FlagSet} : (s, F) ∈ D.words.slots ↔ (s ∈ words ∧ F = .empty) ∨
    ∃ v ∈ words, MixedCase U v ∧ s = titleForm U v ∧ F = hiddenFlags := by
  rw [hs]
  simp only [List.mem_flatten, List.mem_map]
  constructor
  · rintro ⟨_, ⟨w, hw, rfl⟩, h⟩
    unfold plainEntries at h
    split at h
    · rename_i hm
      simp only [List.mem_cons, Prod.mk.injEq, List.not_mem_nil, or_false] at h
      rcases h with ⟨rfl, rfl⟩ | ⟨rfl, rfl⟩
      · exact .inr ⟨w, hw, hm, rfl, rfl⟩
      · exact .inl ⟨hw, rfl⟩
    · simp only [List.mem_cons, Prod.mk.injEq, List.not_mem_nil, or_false] at h
      exact .inl ⟨h.1 ▸ hw, h.2⟩
  · rintro (⟨hw, rfl⟩ | ⟨v, hv, hm, rfl, rfl⟩)
    · refine ⟨_, ⟨s, hw, rfl⟩, ?_⟩
      unfold plainEntries
      split <;> simp
    · refine ⟨_, ⟨v, hv, rfl⟩, ?_⟩
      unfold plainEntries
      rw [if_pos hm]
      simp

theorem hidden_elems : (65535 : Nat) ∈ hiddenFlags.elems := by
  rw [← FlagSet.contains_iff]; exact contains_hidden.2 (.inr rfl)

theorem hiddenFlags_iff {f : Nat} : f ∈ hiddenFlags.elems ↔ f = 65535 := by
  rw [← FlagSet.contains_iff]
  refine contains_hidden.trans ⟨?_, .inr⟩
  rintro (h | h)
  · rw [FlagSet.contains_iff] at h; simp [FlagSet.empty, FlagSet.elems] at h
  · exact h

include hA in
theorem plain_table (k : Kind) : tableOf D k = [] := by
  cases k
  · exact List.Perm.eq_nil hA.prefixes
  · exact List.Perm.eq_nil hA.suffixes

include hA hs in
/-- What can be derived. -/
theorem plain_derives {skip : Bool} {w : Str} : (∃ stem F steps, Derives .code D skip w stem F steps) ↔
    if skip = true then w ∈ words else InList U words w := by
  constructor
  · rintro ⟨stem, F, steps, h⟩
    have hno : ∀ {k a s t}, ¬ Step D k a s t := fun h => by
      have := h.mem; rw [plain_table hA] at this; simp at this
    cases h with
    | listed e same _ =>
      subst same
      rcases (plain_mem hs).1 e.listed with ⟨h, -⟩ | ⟨v, hv, hm, h, rfl⟩
      · split
        · exact h
        · exact .inl h
      · split
        · rename_i hk
          exact absurd hidden_elems (e.not_hidden hk)
        · exact .inr ⟨v, hv, hm, h⟩
    | one _ h => exact absurd h hno
    | pair _ h => exact absurd h hno
    | two _ h => exact absurd h hno
    | twoThenOne _ h => exact absurd h hno
    | sandwich _ h => exact absurd h hno
  · have ho : D.aff.options = {} := hA.options
    have key : ∀ F, (w, F) ∈ D.words.slots → (skip = true → 65535 ∉ F.elems) →
        ∃ stem F steps, Derives .code D skip w stem F steps := by
      intro F h1 h2
      refine ⟨w, F, [], .listed ⟨h1, ?_, h2⟩ rfl ?_⟩ <;> rw [ho] <;> rintro ⟨x, h, -⟩ <;> cases h
    intro h
    split at h
    · exact key .empty ((plain_mem hs).2 (.inl ⟨h, rfl⟩)) (fun _ => by simp [FlagSet.empty, FlagSet.elems])
    · rename_i hk
      rcases h with h | ⟨v, hv, hm, h⟩
      · exact key .empty ((plain_mem hs).2 (.inl ⟨h, rfl⟩)) (fun _ => by simp [FlagSet.empty, FlagSet.elems])
      · exact key hiddenFlags ((plain_mem hs).2 (.inr ⟨v, hv, hm, h, rfl⟩)) (fun h => absurd h hk)

/-- The text is found, with hidden entries or without. -/
def Found (U : Unicode) (words : List Str) (hh : HiddenHomonym) (w : Str) : Prop :=
  if hh.skips = true then w ∈ words else InList U words w

include hA hs in
theorem plain_decides {c : Choice} (hc : c.Fits D) (fc : Forceucase) (hh : HiddenHomonym) (w : Str) :
    (Decides U D c fc hh w none ↔ ¬ Found U words hh w) ∧
    ((∃ F, Decides U D c fc hh w (some F)) ↔ Found U words hh w) ∧
    ∀ F, Decides U D c fc hh w (some F) → Good D F ∧ ¬ KeepsCase D F := by
  have ho : D.aff.options = {} := hA.options
  have hn : D.aff.options.allowsCompounding = false := by rw [ho]; rfl
  have hno : ∀ parts, ¬ RuleCompound D fc w parts := by
    intro parts hp
    obtain ⟨rule, h, -⟩ := hp.rule
    rw [hA.rules] at h
    cases h
  have hcF : ∀ F, ¬ CompoundDecides U D c fc w (some F) := by
    rintro F (⟨h, -⟩ | ⟨-, l, p, q, h, -⟩)
    · rw [hn] at h; cases h
    · exact hno _ h
  have hcN : CompoundDecides U D c fc w none :=
    ⟨fun h => absurd h (by simp [hn]), fun ⟨parts, h, _⟩ => hno parts h⟩
  have hd := plain_derives hA hs (skip := hh.skips) (w := w)
  have hN : c.simple hh w = none ↔ ¬ Found U words hh w := by
    unfold Found
    rw [← hd]
    refine ⟨hc.simple_none hh w, fun h => ?_⟩
    cases hsm : c.simple hh w with
    | none => rfl
    | some F =>
      obtain ⟨stem, steps, h'⟩ := hc.simple_some _ _ _ hsm
      exact absurd ⟨_, _, _, h'⟩ h
  refine ⟨⟨?_, fun h => .inr ⟨hN.2 h, hcN⟩⟩, ⟨?_, fun h => ?_⟩, ?_⟩
  · rintro (⟨-, h⟩ | ⟨h, -⟩)
    · exact absurd rfl h
    · exact hN.1 h
  · rintro ⟨F, ⟨h, -⟩ | ⟨-, h⟩⟩
    · exact Classical.not_not.1 fun hf => by rw [hN.2 hf] at h; cases h
    · exact absurd h (hcF F)
  · cases hsm : c.simple hh w with
    | none => exact absurd h (hN.1 hsm)
    | some F => exact ⟨F, .inl ⟨hsm, by simp⟩⟩
  · rintro F (⟨h, -⟩ | ⟨-, h⟩)
    · obtain ⟨stem, steps, h'⟩ := hc.simple_some _ _ _ h
      have hl : (stem, F) ∈ D.words.slots := by
        cases h' with
        | listed e => exact e.listed
        | one e => exact e.listed
        | pair e => exact e.listed
        | two e => exact e.listed
        | twoThenOne e => exact e.listed
        | sandwich e => exact e.listed
      have hF : ∀ f ∈ F.elems, f = 65535 := by
        rcases (plain_mem hs).1 hl with ⟨-, rfl⟩ | ⟨_, _, _, _, rfl⟩
        · intro f hf; simp [FlagSet.empty, FlagSet.elems] at hf
        · exact fun f hf => hiddenFlags_iff.1 hf
      constructor
      · constructor
        · intro hf
          have := hF _ hf
          rw [ho] at this
          cases this
        · rintro ⟨-, x, hx, -⟩
          rw [ho] at hx; cases hx
      · rintro ⟨x, hx, -⟩
        rw [ho] at hx; cases hx
    · exact absurd h (hcF F)

end Answers

theorem hasCasing_unique {w : Str} {c c' : Casing} (h : HasCasing U w c) (h' : HasCasing U w c') : c = c' :=
  (classifyCasing_iff.2 h).symm.trans (classifyCasing_iff.2 h')

theorem hasCasing_exists (w : Str) : ∃ c, HasCasing U w c := ⟨_, classifyCasing_iff.1 rfl⟩

section Verdict
variable {C : Checker} {words : List Str} {c : Choice} (hA : MadeFrom {} C.dict.aff)
  (hs : C.dict.words.slots = (words.map (plainEntries C.U)).flatten) (hc : c.Fits C.dict)
  (h1 : C.checkLowerAsTitle = false) (h2 : C.checkLowerAsUpper = false)

include hA hs hc in
theorem plain_fails (a : Attempt) : a.Fails C c ↔ ¬ Found C.U words a.hidden a.text := by
  obtain ⟨d1, d2, d3⟩ := plain_decides hA hs hc a.upper a.hidden a.text
  constructor
  · rintro (h | ⟨F, h, -, hk⟩)
    · exact d1.1 h
    · exact absurd hk (d3 F h).2
  · exact fun h => .inl (d1.2 h)

include hA hs hc in
theorem plain_succeeds (a : Attempt) : (∃ F, a.Succeeds C c F) ↔ Found C.U words a.hidden a.text := by
  obtain ⟨d1, d2, d3⟩ := plain_decides hA hs hc a.upper a.hidden a.text
  constructor
  · rintro ⟨F, h, -⟩
    exact d2.1 ⟨F, h⟩
  · intro h
    obtain ⟨F, h⟩ := d2.2 h
    exact ⟨F, h, .inr (d3 F h).2⟩

include hA hs hc in
theorem plain_verdict_none {w : Str} {k : Casing} (hk : HasCasing C.U w k) :
    WordVerdict C c w none ↔ ∀ a ∈ attempts C w k, ¬ Found C.U words a.hidden a.text := by
  constructor
  · rintro ⟨k', hk', h⟩ a ha
    rw [hasCasing_unique hk hk'] at ha
    exact (plain_fails hA hs hc a).1 (h a ha)
  · exact fun h => ⟨k, hk, fun a ha => (plain_fails hA hs hc a).2 (h a ha)⟩

theorem first_in {α : Type} {p : α → Prop} : ∀ {l : List α}, (∃ a ∈ l, p a) →
    ∃ before a after, l = before ++ a :: after ∧ (∀ x ∈ before, ¬ p x) ∧ p a
  | [], h => by obtain ⟨a, h, -⟩ := h; cases h
  | x :: l, h => by
    by_cases hx : p x
    · exact ⟨[], x, l, rfl, by simp, hx⟩
    · obtain ⟨a, ha, hp⟩ := h
      rcases List.mem_cons.1 ha with rfl | ha
      · exact absurd hp hx
      · obtain ⟨before, a, after, rfl, h1, h2⟩ := first_in ⟨a, ha, hp⟩
        refine ⟨x :: before, a, after, rfl, ?_, h2⟩
        intro y hy
        rcases List.mem_cons.1 hy with rfl | hy
        · exact hx
        · exact h1 y hy

include hA hs hc in
theorem plain_verdict_true {w : Str} {k : Casing} (hk : HasCasing C.U w k) :
    WordVerdict C c w (some true) ↔ ∃ a ∈ attempts C w k, Found C.U words a.hidden a.text := by
  constructor
  · rintro ⟨k', before, a, after, F, hk', h1, -, h2, -⟩
    rw [hasCasing_unique hk hk', h1]
    exact ⟨a, by simp, (plain_succeeds hA hs hc a).1 ⟨F, h2⟩⟩
  · intro h
    obtain ⟨before, a, after, h1, h2, h3⟩ := first_in h
    obtain ⟨F, hF⟩ := (plain_succeeds hA hs hc a).2 h3
    refine ⟨k, before, a, after, F, hk, h1, fun x hx => (plain_fails hA hs hc x).2 (h2 x hx), hF, ?_⟩
    simp only [true_iff]
    exact ((plain_decides hA hs hc a.upper a.hidden a.text).2.2 F hF.1).1

include hA in
theorem plain_titleOf (w : Str) : titleOf C w = titleForm C.U w := by
  have ho : C.opts.caseHandling = .standard := by
    unfold Checker.opts; rw [hA.options]
  cases w with
  | nil => rfl
  | cons x s =>
    unfold titleOf titleForm
    rw [ho]
    rfl

include hA in
theorem plain_lowerOf (w : Str) : lowerOf C w = C.U.lowerStr w := by
  have ho : C.opts.caseHandling = .standard := by
    unfold Checker.opts; rw [hA.options]
  unfold lowerOf
  rw [ho]
  rfl

include hA h1 h2 in
theorem plain_known {w : Str} {k : Casing} (hk : HasCasing C.U w k) :
    (∃ a ∈ attempts C w k, Found C.U words a.hidden a.text) ↔ KnownWord C.U words w := by
  have hch : C.dict.aff.options.checksharps = false := by rw [hA.options]
  have hacc : ∀ w, Found C.U words .accept w ↔ InList C.U words w := fun w => Iff.rfl
  have hskip : ∀ w, Found C.U words .skip w ↔ w ∈ words := fun w => Iff.rfl
  have hplain : ∀ p, (∃ a ∈ plainAttempts C w p, Found C.U words a.hidden a.text) ↔ InList C.U words w := by
    intro p
    unfold plainAttempts
    simp [h1, h2, hacc]
  cases k with
  | none =>
    refine (hplain false).trans ⟨.small hk, ?_⟩
    intro h
    cases h with
    | small _ h => exact h
    | mixed h => rcases h with h | h <;> cases hasCasing_unique hk h
    | title h => cases hasCasing_unique hk h
    | caps h => cases hasCasing_unique hk h
    | article h => cases hasCasing_unique hk h
  | camel =>
    refine (hplain false).trans ⟨.mixed (.inr hk), ?_⟩
    intro h
    cases h with
    | small h => cases hasCasing_unique hk h
    | mixed _ h => exact h
    | title h => cases hasCasing_unique hk h
    | caps h => cases hasCasing_unique hk h
    | article h => cases hasCasing_unique hk h
  | pascal =>
    refine (hplain true).trans ⟨.mixed (.inl hk), ?_⟩
    intro h
    cases h with
    | small h => cases hasCasing_unique hk h
    | mixed _ h => exact h
    | title h => cases hasCasing_unique hk h
    | caps h => cases hasCasing_unique hk h
    | article h => cases hasCasing_unique hk h
  | init =>
    have : (∃ a ∈ attempts C w .init, Found C.U words a.hidden a.text) ↔ w ∈ words ∨ InList C.U words (C.U.lowerStr w) := by
      unfold attempts titleAttempts
      simp [hacc, hskip, plain_lowerOf hA]
    refine this.trans ⟨.title hk, ?_⟩
    intro h
    cases h with
    | small h => cases hasCasing_unique hk h
    | mixed h => rcases h with h | h <;> cases hasCasing_unique hk h
    | title _ h => exact h
    | caps h => cases hasCasing_unique hk h
    | article h => cases hasCasing_unique hk h
  | all =>
    have : (∃ a ∈ attempts C w .all, Found C.U words a.hidden a.text) ↔
        (∃ t ∈ articleForms C w, InList C.U words t) ∨
        (InList C.U words w ∨ InList C.U words (titleForm C.U w) ∨ InList C.U words (C.U.lowerStr w)) := by
      unfold attempts capsAttempts
      simp only [hch, Bool.false_eq_true, false_and, if_false, List.append_nil, List.map_cons, List.cons_append,
        List.mem_cons, List.mem_append, List.mem_map, List.not_mem_nil, or_false]
      constructor
      · rintro ⟨a, rfl | ⟨t, ht, rfl⟩ | rfl | rfl, h⟩
        · exact .inr (.inl h)
        · exact .inl ⟨t, ht, h⟩
        · rw [plain_titleOf hA] at h; exact .inr (.inr (.inl h))
        · rw [plain_lowerOf hA] at h; exact .inr (.inr (.inr h))
      · rintro (⟨t, ht, h⟩ | h | h | h)
        · exact ⟨_, .inr (.inl ⟨t, ht, rfl⟩), h⟩
        · exact ⟨_, .inl rfl, h⟩
        · exact ⟨_, .inr (.inr (.inl rfl)), by rw [plain_titleOf hA]; exact h⟩
        · exact ⟨_, .inr (.inr (.inr rfl)), by rw [plain_lowerOf hA]; exact h⟩
    rw [this]
    constructor
    · rintro (⟨t, ht, h⟩ | h)
      · unfold articleForms at ht
        split at ht
        · rename_i q b bs hd
          have hq : q = '\'' := by
            have := List.head?_dropWhile_not (fun x : Char => decide (x ≠ '\'')) w
            rw [hd] at this
            simpa using this
          subst hq
          have hw : w = w.takeWhile (fun x => decide (x ≠ '\'')) ++ '\'' :: b :: bs := by
            rw [← hd]; exact (List.takeWhile_append_dropWhile).symm
          have hna : '\'' ∉ w.takeWhile (fun x => decide (x ≠ '\'')) := by
            intro h
            have := List.mem_takeWhile_imp h
            simp at this
          simp only [List.mem_cons, List.not_mem_nil, or_false, plain_lowerOf hA, plain_titleOf hA] at ht
          refine .article hk hw hna (by simp) ?_
          rcases ht with rfl | rfl
          · exact .inl h
          · exact .inr h
        · cases ht
      · exact .caps hk h
    · intro h
      cases h with
      | small h => cases hasCasing_unique hk h
      | mixed h => rcases h with h | h <;> cases hasCasing_unique hk h
      | title h => cases hasCasing_unique hk h
      | caps _ h => exact .inr h
      | @article a b _ hw hna hb h =>
        left
        obtain ⟨x, xs, rfl⟩ := List.exists_cons_of_ne_nil hb
        have ht : w.takeWhile (fun x => decide (x ≠ '\'')) = a := by
          rw [hw, List.takeWhile_append_of_pos]
          · simp
          · intro y hy; simp; rintro rfl; exact hna hy
        have hd : w.dropWhile (fun x => decide (x ≠ '\'')) = '\'' :: x :: xs := by
          rw [hw, List.dropWhile_append_of_pos]
          · simp
          · intro y hy; simp; rintro rfl; exact hna hy
        unfold articleForms
        rw [hd]
        simp only [ht, plain_lowerOf hA, plain_titleOf hA]
        rcases h with h | h
        · exact ⟨_, by simp, h⟩
        · exact ⟨_, by simp, h⟩

include hA hs hc h1 h2 in
theorem plain_verdict (w : Str) : (WordVerdict C c w none ↔ ¬ KnownWord C.U words w) ∧
    (WordVerdict C c w (some true) ↔ KnownWord C.U words w) := by
  obtain ⟨k, hk⟩ := hasCasing_exists (U := C.U) w
  rw [plain_verdict_none hA hs hc hk, plain_verdict_true hA hs hc hk, ← plain_known hA h1 h2 hk]
  exact ⟨by simp, Iff.rfl⟩

theorem dashed_middle {U : Unicode} {depth : Nat} {a b : Str} (h1 : '-' ∉ a) (h2 : b ≠ []) (h3 : Dashed U words depth a)
    (h4 : Dashed U words depth b) : Dashed U words (depth + 1) (a ++ ['-'] ++ b) := by
  rw [List.append_assoc]
  exact .middle h1 h2 h3 h4

include hA hs hc h1 h2 in
theorem plain_breaks {depth : Nat} {w : Str} :
    Breaks (Cx.breakPatterns {}) (WordVerdict C c) depth w ↔ Dashed C.U words depth w := by
  have hv := plain_verdict hA hs hc h1 h2
  constructor
  · intro h
    induction h with
    | direct h => exact .known ((hv _).2.1 h)
    | start _ hl hb hw _ ih =>
      simp only [List.mem_cons, List.not_mem_nil, or_false] at hl
      unfold BreakLine at hb
      rcases hl with rfl | rfl | rfl <;> simp at hb
      subst hb hw
      exact .start ih
    | @stop _ _ _ pat_ _ _ hl hb hw _ ih =>
      simp only [List.mem_cons, List.not_mem_nil, or_false] at hl
      unfold BreakLine at hb
      rcases hl with rfl | rfl | rfl
      · simp at hb
      · have := congrArg List.getLast? hb.1; simp at this
      · have : pat_ = ['-'] := by
          have := congrArg List.dropLast hb.1
          simpa using this.symm
        subst this hw
        exact .stop ih
    | @middle _ _ _ _ _ b_ _ hl hb hf hne _ _ iha ihb =>
      simp only [List.mem_cons, List.not_mem_nil, or_false] at hl
      unfold BreakLine at hb
      rcases hl with rfl | rfl | rfl
      · simp at hb
      · obtain ⟨rfl, -, -⟩ := hb
        obtain ⟨rfl, hmin⟩ := hf
        refine dashed_middle (fun hm => ?_) hne iha ihb
        obtain ⟨x, y, rfl⟩ := List.append_of_mem hm
        have := hmin x (y ++ '-' :: b_) (by simp)
        simp at this
      · simp at hb
  · intro h
    induction h with
    | known h => exact .direct ((hv _).2.2 h)
    | @start depth w h ih =>
      by_cases hk : KnownWord C.U words ('-' :: w)
      · exact .direct ((hv _).2.2 hk)
      · exact .start ((hv _).1.2 hk) (line := ['^', '-']) (pat := ['-']) (by simp) rfl rfl ih
    | @stop depth w h ih =>
      by_cases hk : KnownWord C.U words (w ++ ['-'])
      · exact .direct ((hv _).2.2 hk)
      · exact .stop ((hv _).1.2 hk) (line := ['-', '$']) (pat := ['-']) (by simp) ⟨rfl, by simp⟩ rfl ih
    | @middle depth a b hna hb _ _ iha ihb =>
      by_cases hk : KnownWord C.U words (a ++ '-' :: b)
      · exact .direct ((hv _).2.2 hk)
      · refine .middle ((hv _).1.2 hk) (line := ['-']) (pat := ['-']) (by simp) ⟨rfl, by simp, by simp⟩ ⟨by simp, ?_⟩
          hb iha ihb
        intro a' b' h
        by_contra hlt
        have hmem : '-' ∈ a := by
          have h3 := congrArg (fun l : List Char => l[a'.length]?) h
          simp only [List.append_assoc, List.singleton_append] at h3
          rw [List.getElem?_append_left (by omega), List.getElem?_append_right (by omega)] at h3
          simp at h3
          exact List.mem_of_getElem? h3
        exact hna hmem

end Verdict

end Spellbook
