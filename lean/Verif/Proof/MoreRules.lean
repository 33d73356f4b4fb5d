import Verif.Spec.MoreRules
import Verif.Proof.Growth
import Verif.Proof.BlockOrder
import Verif.Proof.Respell
/-!
# More affix rules
-/

namespace Spellbook
open Spec

namespace Spec
variable {C C' : Checker}

/-- A derivation stays one with more affixes and more entries. -/
theorem derives_more {D D' : Dict} (ha : ∃ p s, D'.aff = { D.aff with prefixes := p, suffixes := s })
    (hw : ∀ e ∈ D.words.slots, e ∈ D'.words.slots) (ht : ∀ k, ∀ a ∈ tableOf D k, a ∈ tableOf D' k) {sk : Bool}
    {w stem : Str} {F : FlagSet} {steps : List (Kind × Affix)} (h : Derives .code D sk w stem F steps) :
    Derives .code D' sk w stem F steps := by
  obtain ⟨words, aff⟩ := D
  obtain ⟨words', aff'⟩ := D'
  obtain ⟨p, s, e⟩ := ha
  cases e
  have use : ∀ {stem F}, Usable ⟨words, aff⟩ sk stem F →
      Usable ⟨words', { aff with prefixes := p, suffixes := s }⟩ sk stem F :=
    fun h => ⟨hw _ h.1, h.2, h.3⟩
  have go : ∀ {k a s' t}, Step ⟨words, aff⟩ k a s' t →
      Step ⟨words', { aff with prefixes := p, suffixes := s }⟩ k a s' t :=
    fun h => ⟨ht _ _ h.1, h.2, h.3⟩
  cases h with
  | listed h h1 h2 => exact .listed (use h) h1 h2
  | one h h1 h2 h3 h4 h5 => exact .one (use h) (go h1) h2 h3 h4 h5
  | pair h h1 h2 h3 h4 h5 h6 => exact .pair (use h) (go h1) (go h2) h3 h4 h5 h6
  | two h h1 h2 h3 h4 h5 h6 => exact .two (use h) (go h1) (go h2) h3 h4 h5 h6
  | twoThenOne h h1 h2 h3 h4 h5 h6 h7 h8 h9 =>
    refine .twoThenOne (use h) (go h1) (go h2) (go h3) h4 h5 h6 h7 h8 fun q => ?_
    obtain ⟨x, hx, hf⟩ := h9 q
    exact ⟨x, ht _ _ hx, hf⟩
  | sandwich h h1 h2 h3 h4 h5 h6 h7 h8 h9 h10 =>
    exact .sandwich (use h) (go h1) (ht _ _ h2) h3 h4 (go h5) h6 h7 h8 h9 h10

theorem MoreRules.grows (h : MoreRules C C') : Grows C C' :=
  ⟨h.unicode, h.settings, h.title, h.upper, derives_more h.settings (fun e he => (h.entries e).2 he) h.old, h.new⟩

theorem SameRuleSet.symm (h : SameRuleSet C C') : SameRuleSet C' C := by
  refine ⟨h.unicode.symm, ?_, h.title.symm, h.upper.symm, fun e => (h.entries e).symm, fun k a => (h.rules k a).symm⟩
  obtain ⟨p, s, e⟩ := h.settings
  exact ⟨C.dict.aff.prefixes, C.dict.aff.suffixes, by rw [e]⟩

theorem SameRuleSet.more (h : SameRuleSet C C') : MoreRules C C' := by
  have h' := h.symm
  exact ⟨h.unicode, h.settings, h.title, h.upper, h.entries, fun k a => (h.rules k a).1, fun hd =>
    .inl (derives_more h'.settings (fun e he => (h.entries e).1 he) (fun k a ha => (h.rules k a).2 ha) hd)⟩

/-- The marks of derivations do not depend on the order of the rules. -/
theorem SameRuleSet.marks (h : SameRuleSet C C') (hm : SameMarks C.dict) : SameMarks C'.dict := by
  have h' := h.symm
  have back : ∀ {sk w stem F steps}, Derives .code C'.dict sk w stem F steps → Derives .code C.dict sk w stem F steps :=
    fun hd => derives_more h'.settings (fun e he => (h.entries e).1 he) (fun k a ha => (h.rules k a).2 ha) hd
  intro sk w stem F steps stem' F' steps' h1 h2
  rw [h.more.grows.good, h.more.grows.good, h.more.grows.keeps, h.more.grows.keeps]
  exact hm _ _ _ _ _ _ _ _ (back h1) (back h2)

end Spec

/-! ## The affixes of an affix file -/

namespace Blocks
variable {U : Unicode}

/-- The affixes of a kind, and their directive. -/
def part : Kind → Cx → List Affix
  | .pfx, c => c.prefixes
  | .sfx, c => c.suffixes

@[inherit_doc part]
def keyOf : Kind → String
  | .pfx => "PFX"
  | .sfx => "SFX"

/-- The affix which a row makes. -/
def RowMakes (cx : Cx) (name cross : Str) (row : List Str) (a : Affix) : Prop :=
  ∃ f strip add more, row = name :: strip :: add :: more ∧ FlagOf cx.flagType name f ∧
    AffixRow cx f (cross = ['Y']) strip add more a

theorem RowMakes.unique {cx : Cx} {name cross : Str} {row : List Str} {a b : Affix} (h : RowMakes cx name cross row a)
    (h' : RowMakes cx name cross row b) : a = b := by
  obtain ⟨f, s, t, m, rfl, h1, h2⟩ := h
  obtain ⟨f', s', t', m', e, h1', h2'⟩ := h'
  simp only [List.cons.injEq, true_and] at e
  obtain ⟨rfl, rfl, rfl⟩ := e
  cases Respell.flagOf_unique h1 h1'
  rw [affixRow_iff] at h2 h2'
  rw [h2] at h2'
  exact Except.ok.inj h2'

theorem RowMakes.congr {cx x : Cx} (h : SameFlags cx x) {name cross : Str} {row : List Str} {a : Affix}
    (hr : RowMakes cx name cross row a) : RowMakes x name cross row a := by
  obtain ⟨f, s, t, m, rfl, h1, h2⟩ := hr
  exact ⟨f, s, t, m, rfl, by rw [h.type]; exact h1,
    ⟨h2.flag, h2.cross, h2.strip, by rw [h.type, h.aliases]; exact h2.add, h2.condition⟩⟩

/-- Only the affixes differ. -/
def OffAffixes (c c' : Cx) : Prop := ∃ p s, c' = { c with prefixes := p, suffixes := s }

theorem OffAffixes.flags {c c' : Cx} (h : OffAffixes c c') : SameFlags c c' := by
  obtain ⟨p, s, rfl⟩ := h
  exact ⟨rfl, rfl⟩

theorem OffAffixes.trans {a b c : Cx} (h : OffAffixes a b) (h' : OffAffixes b c) : OffAffixes a c := by
  obtain ⟨p, s, rfl⟩ := h
  obtain ⟨p', s', rfl⟩ := h'
  exact ⟨p', s', rfl⟩

theorem OffAffixes.symm {a b : Cx} (h : OffAffixes a b) : OffAffixes b a := by
  obtain ⟨p, s, rfl⟩ := h
  exact ⟨a.prefixes, a.suffixes, rfl⟩

theorem row_affix {j : Kind} {name cross : Str} {head args : List Str} {cx c : Cx}
    (h : Row (keyOf j) (name :: cross :: head) cx args c) :
    OffAffixes cx c ∧ ∃ a, RowMakes cx name cross args a ∧
      ∀ k x, x ∈ part k c ↔ x ∈ part k cx ∨ (k = j ∧ x = a) := by
  cases j with
  | pfx =>
    generalize hkey : keyOf .pfx = key at h
    cases h with
    | pfx h1 h2 h3 =>
      exact ⟨⟨_, _, rfl⟩, _, ⟨_, _, _, _, rfl, h1, h3⟩, fun k x => by cases k <;> simp [part]⟩
    | _ => exact absurd hkey (by decide)
  | sfx =>
    generalize hkey : keyOf .sfx = key at h
    cases h with
    | sfx h1 h2 h3 =>
      exact ⟨⟨_, _, rfl⟩, _, ⟨_, _, _, _, rfl, h1, h3⟩, fun k x => by cases k <;> simp [part]⟩
    | _ => exact absurd hkey (by decide)

theorem rows_affix {j : Kind} {name cross : Str} {head rows : List Str} {cx c : Cx}
    (h : Rows U (keyOf j) (name :: cross :: head) cx rows c) :
    OffAffixes cx c ∧ ∀ k x, x ∈ part k c ↔ x ∈ part k cx ∨
      (k = j ∧ ∃ line ∈ rows, ∃ row, splitWhitespace U line = (keyOf k).toList :: row ∧ RowMakes cx name cross row x) := by
  induction h with
  | nil => exact ⟨⟨_, _, rfl⟩, by simp⟩
  | @cons cx line args cx₁ lines cx₂ hl hr _ ih =>
    obtain ⟨h1, a, ha, h2⟩ := row_affix hr
    refine ⟨h1.trans ih.1, fun k x => ?_⟩
    rw [ih.2 k x, h2 k x, or_assoc]
    refine or_congr .rfl ?_
    constructor
    · rintro (⟨rfl, rfl⟩ | ⟨rfl, l, hm, row, e, hm'⟩)
      · exact ⟨rfl, line, by simp, args, hl, ha⟩
      · exact ⟨rfl, l, by simp [hm], row, e, hm'.congr h1.flags.symm⟩
    · rintro ⟨rfl, l, hm, row, e, hm'⟩
      rcases List.mem_cons.1 hm with rfl | hm
      · rw [hl] at e
        simp only [List.cons.injEq, true_and] at e
        subst e
        exact .inl ⟨rfl, hm'.unique ha⟩
      · exact .inr ⟨rfl, l, hm, row, e, hm'.congr h1.flags⟩

theorem keyOf_inj {j k : Kind} (h : keyOf j = keyOf k) : j = k := by
  cases j <;> cases k <;> first | rfl | exact absurd h (by decide)

theorem effect_affix {key : String} {args rows : List Str} {cx c : Cx} (h : Effect U key args cx rows c)
    (hk : key ∈ ["PFX", "SFX"]) : OffAffixes cx c ∧ ∃ name cross more, args = name :: cross :: more ∧
      ∀ k x, x ∈ part k c ↔ x ∈ part k cx ∨
        (keyOf k = key ∧ ∃ line ∈ rows, ∃ row, splitWhitespace U line = (keyOf k).toList :: row ∧
          RowMakes cx name cross row x) := by
  have hc := class_affix _ hk
  cases h with
  | affixes _ _ _ _ _ _ hr =>
    obtain ⟨j, rfl⟩ : ∃ j, keyOf j = key := by
      simp only [List.mem_cons, List.not_mem_nil, or_false] at hk
      rcases hk with rfl | rfl
      · exact ⟨.pfx, rfl⟩
      · exact ⟨.sfx, rfl⟩
    obtain ⟨h1, h2⟩ := rows_affix hr
    refine ⟨h1, _, _, _, rfl, fun k x => ?_⟩
    rw [h2 k x]
    exact or_congr .rfl (and_congr_left fun _ => ⟨fun e => by rw [e], keyOf_inj⟩)
  | table ht => exact absurd (hc.symm.trans (class_table _ ht)) (by decide)
  | flag ht => exact absurd (hc.symm.trans (class_flag _ (List.mem_map.2 ⟨_, ht, rfl⟩))) (by decide)
  | switch ht => exact absurd (hc.symm.trans (class_switch _ (List.mem_map.2 ⟨_, ht, rfl⟩))) (by decide)
  | number ht => exact absurd (hc.symm.trans (class_number _ (List.mem_map.2 ⟨_, ht, rfl⟩))) (by decide)
  | _ => exact absurd hk (by decide)

theorem runs_affix {bs : List Block} {cx c : Cx} (h : Runs U cx bs c) (hk : ∀ b ∈ bs, b.key ∈ ["PFX", "SFX"]) :
    OffAffixes cx c ∧ ∀ k x, x ∈ part k c ↔ x ∈ part k cx ∨
      ∃ name cross row, HasRow U bs (keyOf k) name cross row ∧ RowMakes cx name cross row x := by
  induction h with
  | nil => exact ⟨⟨_, _, rfl⟩, by simp [HasRow]⟩
  | @cons cx b c bs c' he _ ih =>
    obtain ⟨h1, name, cross, more, ea, h2⟩ := effect_affix he (hk b (by simp))
    obtain ⟨h3, h4⟩ := ih fun b hb => hk b (by simp [hb])
    refine ⟨h1.trans h3, fun k x => ?_⟩
    rw [h4 k x, h2 k x, or_assoc]
    refine or_congr .rfl ?_
    constructor
    · rintro (⟨e, line, hl, row, e', hm⟩ | ⟨n, cr, row, ⟨b', hb', e⟩, hm⟩)
      · exact ⟨name, cross, row, ⟨b, by simp, e.symm, by rw [ea]; rfl, line, hl, e'⟩, hm⟩
      · exact ⟨n, cr, row, ⟨b', by simp [hb'], e⟩, hm.congr h1.flags.symm⟩
    · rintro ⟨n, cr, row, ⟨b', hb', e, e2, line, hl, e'⟩, hm⟩
      rcases List.mem_cons.1 hb' with rfl | hb'
      · left
        rw [ea] at e2
        simp only [List.take_succ_cons, List.take_zero, List.cons.injEq, and_true] at e2
        obtain ⟨rfl, rfl⟩ := e2
        exact ⟨e.symm, line, hl, row, e', hm⟩
      · exact .inr ⟨n, cr, row, ⟨b', hb', e, e2, line, hl, e'⟩, hm.congr h1.flags⟩

theorem Runs.unique {bs : List Block} {cx c c' : Cx} (h : Runs U cx bs c) (h' : Runs U cx bs c') : c = c' := by
  induction h with
  | nil => cases h'; rfl
  | cons he _ ih =>
    obtain _ | ⟨he', hr'⟩ := h'
    rw [← effect_unique he he'] at hr'
    exact ih hr'

/-- Two affix files whose blocks differ in the affixes only: the settings differ in the affixes only, and each row makes
the same affix in both. -/
theorem runs_rules {bs bs' : List Block} {cx c c' : Cx} (h : Runs U cx bs c) (h' : Runs U cx bs' c')
    (hb : ∀ b ∈ bs, b.key ∉ ["FLAG", "AF"]) (hb' : ∀ b ∈ bs', b.key ∉ ["FLAG", "AF"])
    (hs : ∀ key, key ∉ ["PFX", "SFX"] → bs.filter (·.key = key) = bs'.filter (·.key = key)) :
    OffAffixes c c' ∧ ∀ k, (∀ name cross row, HasRow U bs (keyOf k) name cross row →
      HasRow U bs' (keyOf k) name cross row) → ∀ a ∈ part k c, a ∈ part k c' := by
  have sort : ∀ {l : List Block} {d : Cx}, (∀ b ∈ l, b.key ∉ ["FLAG", "AF"]) → Runs U cx l d →
      ∃ d₁, Runs U cx (l.filter fun b => b.key ∉ ["PFX", "SFX"]) d₁ ∧
        Runs U d₁ (l.filter fun b => b.key ∈ ["PFX", "SFX"]) d := by
    intro l d hl hr
    refine Runs.split (Runs.order (fun b hb => by simpa using hl b hb) (fun key => ?_) hr)
    rw [List.filter_append, List.filter_filter, List.filter_filter]
    by_cases hk : key ∈ ["PFX", "SFX"]
    · have e1 : l.filter (fun b => decide (b.key = key) && decide (b.key ∉ ["PFX", "SFX"])) = [] := by
        rw [List.filter_eq_nil_iff]
        intro b _
        simp only [Bool.and_eq_true, decide_eq_true_eq, not_and, not_not]
        rintro rfl
        exact hk
      rw [e1, List.nil_append]
      refine List.filter_congr fun b _ => ?_
      by_cases e : b.key = key
      · simp only [e, decide_true, Bool.true_and]
        exact (decide_eq_true hk).symm
      · simp [e]
    · have e1 : l.filter (fun b => decide (b.key = key) && decide (b.key ∈ ["PFX", "SFX"])) = [] := by
        rw [List.filter_eq_nil_iff]
        intro b _
        simp only [Bool.and_eq_true, decide_eq_true_eq, not_and]
        rintro rfl
        exact hk
      rw [e1, List.append_nil]
      refine List.filter_congr fun b _ => ?_
      by_cases e : b.key = key
      · simp only [e, decide_true, Bool.true_and]
        exact (decide_eq_true hk).symm
      · simp [e]
  obtain ⟨d, h1, h2⟩ := sort hb h
  obtain ⟨d', h1', h2'⟩ := sort hb' h'
  have hd : d = d' := by
    refine Runs.unique h1 (Runs.order (fun b hm => by simpa using hb' b (List.mem_filter.1 hm).1) (fun key => ?_) h1')
    rw [List.filter_filter, List.filter_filter]
    by_cases hk : key ∈ ["PFX", "SFX"]
    · have e : ∀ l : List Block, l.filter (fun b => decide (b.key = key) && decide (b.key ∉ ["PFX", "SFX"])) = [] := by
        intro l
        rw [List.filter_eq_nil_iff]
        intro b _
        simp only [Bool.and_eq_true, decide_eq_true_eq, not_and, not_not]
        rintro rfl
        exact hk
      rw [e, e]
    · have e : ∀ l : List Block, l.filter (fun b => decide (b.key = key) && decide (b.key ∉ ["PFX", "SFX"])) =
          l.filter (·.key = key) := by
        intro l
        refine List.filter_congr fun b _ => ?_
        by_cases e : b.key = key
        · simp only [e, decide_true, Bool.true_and]
          exact decide_eq_true hk
        · simp [e]
      rw [e, e, hs key hk]
  subst hd
  obtain ⟨o, m⟩ := runs_affix h2 fun b hm => by simpa using (List.mem_filter.1 hm).2
  obtain ⟨o', m'⟩ := runs_affix h2' fun b hm => by simpa using (List.mem_filter.1 hm).2
  refine ⟨o.symm.trans o', fun k hk a ha => ?_⟩
  rw [m k a] at ha
  rw [m' k a]
  refine ha.imp id ?_
  have hf : ∀ {l : List Block} {name cross row}, HasRow U (l.filter fun b => b.key ∈ ["PFX", "SFX"]) (keyOf k) name cross row ↔
      HasRow U l (keyOf k) name cross row := by
    intro l name cross row
    constructor
    · rintro ⟨b, hb, h⟩
      exact ⟨b, (List.mem_filter.1 hb).1, h⟩
    · rintro ⟨b, hb, h⟩
      refine ⟨b, List.mem_filter.2 ⟨hb, ?_⟩, h⟩
      rw [h.1]
      cases k <;> decide
  rintro ⟨name, cross, row, hr, hm⟩
  exact ⟨name, cross, row, hf.2 (hk _ _ _ (hf.1 hr)), hm⟩

/-- The same for the lines of the affix files. -/
theorem reads_rules {head : List Str} {bs bs' : List Block} {c₁ c c' : Cx} (hw : ∀ b ∈ bs, b.WellCut U)
    (hw' : ∀ b ∈ bs', b.WellCut U) (hb : ∀ b ∈ bs, b.key ∉ ["FLAG", "AF"]) (hb' : ∀ b ∈ bs', b.key ∉ ["FLAG", "AF"])
    (hs : ∀ key, key ∉ ["PFX", "SFX"] → bs.filter (·.key = key) = bs'.filter (·.key = key))
    (hh : Reads U {} head c₁) (h : Reads U {} (head ++ (bs.map Block.lines).flatten) c)
    (h' : Reads U {} (head ++ (bs'.map Block.lines).flatten) c') :
    OffAffixes c c' ∧ ∀ k, (∀ name cross row, HasRow U bs (keyOf k) name cross row →
      HasRow U bs' (keyOf k) name cross row) → ∀ a ∈ part k c, a ∈ part k c' :=
  runs_rules (runs_of_reads hw (hh.split h)) (runs_of_reads hw' (hh.split h')) hb hb' hs

/-- The word list does not depend on the affixes. -/
theorem parseDic_off {c c' : Cx} (h : OffAffixes c c') (dic : Str) : parseDic U c' dic = parseDic U c dic := by
  obtain ⟨p, s, rfl⟩ := h
  have : dicLoop U { c with prefixes := p, suffixes := s } = dicLoop U c := by
    funext fuel
    induction fuel with
    | zero => rfl
    | succ n ih =>
      funext words
      simp only [dicLoop, ih]
      rfl
  simp only [parseDic, this]

/-- Neither do the other tables. -/
theorem assemble_off {S : Sorts} {c c' : Cx} (h : OffAffixes c c') {w : Bag FlagSet} {A A' : AffData}
    (h1 : assemble S c w = some ⟨w, A⟩) (h2 : assemble S c' w = some ⟨w, A'⟩) :
    ∃ p s, A' = { A with prefixes := p, suffixes := s } := by
  obtain ⟨p, s, rfl⟩ := h
  unfold assemble at h1 h2
  simp only [Option.bind_eq_bind, Option.bind_eq_some_iff, Option.pure_def, Option.some.injEq, Dict.mk.injEq,
    true_and] at h1 h2
  obtain ⟨p, hp, s, hs, b, hb, r, hr, rfl⟩ := h1
  obtain ⟨p', hp', s', hs', b', hb', r', hr', rfl⟩ := h2
  rw [hb] at hb'
  rw [hr] at hr'
  cases hb'
  cases hr'
  exact ⟨p', s', rfl⟩

/-- The affixes in the tables. -/
theorem table_mem {cx : Cx} {D : Dict} (h : MadeFrom cx D.aff) (k : Kind) (a : Affix) :
    a ∈ tableOf D k ↔ ∃ x ∈ part k cx, { x with add := x.add.filter fun c => !cx.ignoreChars.contains c } = a := by
  cases k with
  | pfx => exact h.prefixes.mem_iff.trans List.mem_map
  | sfx => exact h.suffixes.mem_iff.trans List.mem_map

end Blocks
end Spellbook
