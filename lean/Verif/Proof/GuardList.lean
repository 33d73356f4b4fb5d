import Verif.Spec.GuardList
import Verif.Proof.PlaceList
/-!
# Proofs about lists with forbidden words and words which keep their letter case
-/

namespace Spellbook
open Spec Props

section Guards
variable {C : Checker} {g : GuardRules} {words : List (Str × Str)}

/-- What is known about the dictionary of such a list. -/
structure GuardDict (C : Checker) (g : GuardRules) (words : List (Str × Str)) : Prop where
  made : MadeFrom (guardSettings g) C.dict.aff
  slots : C.dict.words.slots = (words.map (formEntries C.U (GuardTitle C.U g))).flatten
  flags : ∀ e ∈ words, ∀ c ∈ e.2, LineFlag C.U c
  once : ∀ t fl fl', GuardPart C.U g words (t, fl) → GuardPart C.U g words (t, fl') → fl = fl'
  small : ∀ c, g.forbidden = some c ∨ g.keep = some c ∨ g.warn = some c → c.toNat < 256
  conds : C.dict.CondsParsed
  plain : C.checkLowerAsTitle = false ∧ C.checkLowerAsUpper = false

variable (h : GuardDict C g words)
include h

theorem GuardDict.mem {s : Str} {F : FlagSet} : (s, F) ∈ C.dict.words.slots ↔ (∃ e ∈ words, s = e.1 ∧ F = formFlags e) ∨
    ∃ e ∈ words, GuardTitle C.U g e ∧ s = titleForm C.U e.1 ∧ F = (formFlags e).withFlag hiddenHomonymFlag := by
  rw [h.slots]
  exact formEntries_mem

theorem GuardDict.options : C.dict.aff.options = (guardSettings g).options := h.made.options

theorem GuardDict.noStep {k : Kind} {a : Affix} {s t : Str} : ¬ Step C.dict k a s t := fun hs => by
  have := hs.mem
  have ht : tableOf C.dict k = [] := by
    cases k
    · exact List.Perm.eq_nil h.made.prefixes
    · exact List.Perm.eq_nil h.made.suffixes
  rw [ht] at this; simp at this

/-- The flags of an entry are those of the word, but for the mark of title forms. -/
def GuardFlags (F : FlagSet) (fl : Str) : Prop := ∀ f, f ≠ 65535 → (f ∈ F.elems ↔ f ∈ fl.map Char.toNat)

omit h in
theorem guardFlags_form (e : Str × Str) : GuardFlags (formFlags e) e.2 := fun f _ => by
  rw [formFlags_iff, List.mem_map]

omit h in
theorem guardFlags_title (e : Str × Str) : GuardFlags ((formFlags e).withFlag hiddenHomonymFlag) e.2 := fun f hf => by
  rw [← FlagSet.contains_iff, contains_hidden, FlagSet.contains_iff, formFlags_iff, List.mem_map]
  exact or_iff_left hf

/-- What an entry with these flags is for. -/
def GuardFound (U : Unicode) (g : GuardRules) (words : List (Str × Str)) (hh : HiddenHomonym) (t fl : Str) : Prop :=
  if hh.skips = true then (t, fl) ∈ words else GuardPart U g words (t, fl)

omit h in
theorem guard_has {F : FlagSet} {fl : Str} (hF : GuardFlags F fl) {o : Option Char} (ho : ∀ c, o = some c → c.toNat < 256) :
    Has F (o.map Char.toNat) ↔ ∃ c, o = some c ∧ c ∈ fl := by
  constructor
  · rintro ⟨f, hf, hm⟩
    obtain ⟨c, hc, rfl⟩ := Option.map_eq_some_iff.1 hf
    have := ho c hc
    obtain ⟨d, hd, e⟩ := List.mem_map.1 ((hF _ (by omega)).1 hm)
    rw [Char.toNat_inj.1 e] at hd
    exact ⟨c, hc, hd⟩
  · rintro ⟨c, rfl, hc⟩
    have := ho c rfl
    exact ⟨c.toNat, rfl, (hF _ (by omega)).2 (List.mem_map_of_mem hc)⟩

theorem GuardDict.keeps {F : FlagSet} {fl : Str} (hF : GuardFlags F fl) :
    ¬ KeepsCase C.dict F ↔ ∀ c, g.keep = some c → c ∉ fl := by
  unfold KeepsCase
  rw [h.options, show (guardSettings g).options.keepCaseFlag = g.keep.map Char.toNat from rfl,
    guard_has hF fun c hc => h.small c (.inr (.inl hc))]
  simp

theorem GuardDict.goodFlags {F : FlagSet} {fl : Str} (hF : GuardFlags F fl) (hl : ∀ c ∈ fl, LineFlag C.U c) :
    Good C.dict F ↔ Allowed g fl := by
  unfold Good Allowed
  rw [h.options, show (guardSettings g).options.warnFlag = g.warn.map Char.toNat from rfl,
    guard_has hF fun c hc => h.small c (.inr (.inr hc)),
    show (guardSettings g).options.forbidWarn = g.noWarn from rfl,
    show (guardSettings g).options.forbiddenWordFlag = (g.forbidden.map Char.toNat).getD 65510 from rfl]
  refine and_congr ?_ (by simp)
  cases hg : g.forbidden with
  | none =>
    refine ⟨fun _ c hc => (by cases hc), fun _ hm => ?_⟩
    obtain ⟨c, hc, e⟩ := List.mem_map.1 ((hF _ (show ((none : Option Char).map Char.toNat).getD 65510 ≠ 65535 by decide)).1 hm)
    have := (hl c hc).2.1
    rw [e] at this
    exact absurd this (by decide)
  | some x =>
    have hx := h.small x (.inl hg)
    rw [show ((some x).map Char.toNat).getD 65510 = x.toNat from rfl, hF _ (by omega)]
    constructor
    · rintro hn c hc hm
      cases hc
      exact hn (List.mem_map_of_mem hm)
    · intro hn hm
      obtain ⟨d, hd, e⟩ := List.mem_map.1 hm
      rw [Char.toNat_inj.1 e] at hd
      exact hn x rfl hd

/-- What can be derived is in the list. -/
theorem GuardDict.derived {hh : HiddenHomonym} {w stem : Str} {F : FlagSet} {steps : List (Kind × Affix)}
    (hd : Derives .code C.dict hh.skips w stem F steps) :
    ∃ fl, GuardFound C.U g words hh w fl ∧ GuardFlags F fl ∧ ∀ c ∈ fl, LineFlag C.U c := by
  unfold GuardFound
  cases hd with
  | listed e same _ =>
    subst same
    rcases h.mem.1 e.listed with ⟨v, hv, hs, rfl⟩ | ⟨v, hv, hm, hs, rfl⟩
    · refine ⟨v.2, ?_, guardFlags_form v, h.flags v hv⟩
      split
      · rw [hs]; exact hv
      · exact ⟨v, hv, rfl, .inl hs⟩
    · refine ⟨v.2, ?_, guardFlags_title v, h.flags v hv⟩
      rw [if_neg]
      · exact ⟨v, hv, rfl, .inr ⟨hm, hs⟩⟩
      · intro hk
        exact absurd (hidden_elem v) (e.not_hidden hk)
  | one _ hs => exact absurd hs h.noStep
  | pair _ hs => exact absurd hs h.noStep
  | two _ hs => exact absurd hs h.noStep
  | twoThenOne _ hs => exact absurd hs h.noStep
  | sandwich _ hs => exact absurd hs h.noStep

theorem GuardDict.derives {hh : HiddenHomonym} {w fl : Str} (hl : GuardFound C.U g words hh w fl) :
    ∃ stem F steps, Derives .code C.dict hh.skips w stem F steps := by
  have hneed : ∀ F, ¬ Has F C.dict.aff.options.needAffixFlag := by
    rw [h.options]; rintro F ⟨y, hy, -⟩; cases hy
  have honly : ∀ F, ¬ Has F C.dict.aff.options.onlyInCompoundFlag := by
    rw [h.options]; rintro F ⟨y, hy, -⟩; cases hy
  have hvis : ∀ e ∈ words, 65535 ∉ (formFlags e).elems := by
    intro e he hm
    obtain ⟨c, hc, h'⟩ := formFlags_iff.1 hm
    have := (h.flags e he c hc).2.1
    omega
  have plain : ∀ e ∈ words, ∃ stem F steps, Derives .code C.dict hh.skips e.1 stem F steps := fun e he =>
    ⟨_, _, [], .listed ⟨h.mem.2 (.inl ⟨e, he, rfl, rfl⟩), honly _, fun _ => hvis e he⟩ rfl (hneed _)⟩
  unfold GuardFound at hl
  split at hl
  · exact plain _ hl
  · rename_i hk
    obtain ⟨e, he, -, hs | ⟨ht, hs⟩⟩ := hl
    · simp only at hs
      rw [hs]; exact plain e he
    · simp only at hs
      rw [hs]
      exact ⟨_, _, [], .listed ⟨h.mem.2 (.inr ⟨e, he, ht, rfl, rfl⟩), honly _, fun hk' => absurd hk' hk⟩ rfl (hneed _)⟩

theorem GuardDict.unique {hh hh' : HiddenHomonym} {w fl fl' : Str} (h1 : GuardFound C.U g words hh w fl)
    (h2 : GuardFound C.U g words hh' w fl') : fl = fl' := by
  have key : ∀ {hh fl}, GuardFound C.U g words hh w fl → GuardPart C.U g words (w, fl) := by
    intro hh fl hl
    unfold GuardFound at hl
    split at hl
    · exact ⟨_, hl, rfl, .inl rfl⟩
    · exact hl
  exact h.once w fl fl' (key h1) (key h2)

/-- By which flags a text is decided. -/
theorem GuardDict.decides (fc : Forceucase) (hh : HiddenHomonym) (w : Str) :
    (Decides C.U C.dict C.choice fc hh w none ↔ ∀ fl, ¬ GuardFound C.U g words hh w fl) ∧
    (∀ F, Decides C.U C.dict C.choice fc hh w (some F) →
      ∃ fl, GuardFound C.U g words hh w fl ∧ GuardFlags F fl ∧ ∀ c ∈ fl, LineFlag C.U c) ∧
    ∀ fl, GuardFound C.U g words hh w fl → ∃ F, Decides C.U C.dict C.choice fc hh w (some F) := by
  have ho := h.options
  have hn : C.dict.aff.options.allowsCompounding = false := by rw [ho]; rfl
  have hno : ∀ parts, ¬ RuleCompound C.dict fc w parts := by
    intro parts hp
    obtain ⟨rule, hr, -⟩ := hp.rule
    rw [h.made.rules] at hr
    cases hr
  have hcF : ∀ F, ¬ CompoundDecides C.U C.dict C.choice fc w (some F) := by
    rintro F (⟨h, -⟩ | ⟨-, l, p, q, h, -⟩)
    · rw [hn] at h; cases h
    · exact hno _ h
  have hcN : CompoundDecides C.U C.dict C.choice fc w none :=
    ⟨fun h => absurd h (by simp [hn]), fun ⟨parts, h, _⟩ => hno parts h⟩
  have hc := Checker.choice_fits h.conds
  refine ⟨⟨?_, fun hf => ?_⟩, ?_, ?_⟩
  · rintro (⟨-, hx⟩ | ⟨hx, -⟩) fl hl
    · exact hx rfl
    · exact hc.simple_none hh w hx (h.derives hl)
  · refine .inr ⟨?_, hcN⟩
    cases hsm : C.choice.simple hh w with
    | none => rfl
    | some F =>
      obtain ⟨stem, steps, h'⟩ := hc.simple_some _ _ _ hsm
      obtain ⟨fl, hl, -⟩ := h.derived h'
      exact absurd hl (hf fl)
  · rintro F (⟨h1, -⟩ | ⟨-, h1⟩)
    · obtain ⟨stem, steps, h'⟩ := hc.simple_some _ _ _ h1
      exact h.derived h'
    · exact absurd h1 (hcF F)
  · intro fl hl
    cases hsm : C.choice.simple hh w with
    | none => exact absurd (h.derives hl) (hc.simple_none hh w hsm)
    | some F => exact ⟨F, .inl ⟨hsm, by simp⟩⟩

/-- The attempt for a spelling. -/
def Spec.TriedForm.attempt (fc : Forceucase) (l : TriedForm) : Attempt := ⟨l.text, fc, if l.titles then .accept else .skip, l.kept⟩

omit h in
theorem guardFound_attempt {U : Unicode} {fc : Forceucase} {l : TriedForm} {fl : Str} :
    GuardFound U g words (l.attempt fc).hidden l.text fl ↔
      if l.titles = true then GuardPart U g words (l.text, fl) else (l.text, fl) ∈ words := by
  obtain ⟨t, b, k⟩ := l
  cases b <;> exact Iff.rfl

theorem GuardDict.fails {fc : Forceucase} {l : TriedForm} :
    (l.attempt fc).Fails C C.choice ↔ ∀ fl, ¬ Meets C.U g words l fl := by
  obtain ⟨d1, d2, d3⟩ := h.decides fc (l.attempt fc).hidden l.text
  constructor
  · rintro (hx | ⟨F, hx, hk, hkc⟩) fl ⟨hm, hm'⟩
    · exact d1.1 hx fl (guardFound_attempt.2 hm)
    · obtain ⟨fl', h1, h2, h3⟩ := d2 F hx
      rw [h.unique h1 ((guardFound_attempt (fc := fc)).2 hm)] at h2
      rcases hm' with hm' | hm'
      · rw [show l.kept = false from hk] at hm'; cases hm'
      · exact (h.keeps h2).2 hm' hkc
  · intro hf
    by_cases hex : ∃ fl, GuardFound C.U g words (l.attempt fc).hidden l.text fl
    · obtain ⟨fl, hl⟩ := hex
      obtain ⟨F, hF⟩ := d3 fl hl
      obtain ⟨fl', h1, h2, h3⟩ := d2 F hF
      have hm : ¬ (l.kept = true ∨ ∀ c, g.keep = some c → c ∉ fl') := fun hx => hf fl' ⟨guardFound_attempt.1 h1, hx⟩
      rw [not_or] at hm
      refine .inr ⟨F, hF, show l.kept = false by simpa using hm.1, Classical.not_not.1 fun hk => hm.2 ((h.keeps h2).1 hk)⟩
    · exact .inl (d1.2 fun fl hl => hex ⟨fl, hl⟩)

theorem GuardDict.succeeds {fc : Forceucase} {l : TriedForm} {F : FlagSet} (hs : (l.attempt fc).Succeeds C C.choice F) :
    ∃ fl, Meets C.U g words l fl ∧ (Good C.dict F ↔ Allowed g fl) := by
  obtain ⟨d1, d2, d3⟩ := h.decides fc (l.attempt fc).hidden l.text
  obtain ⟨hx, hk⟩ := hs
  obtain ⟨fl, h1, h2, h3⟩ := d2 F hx
  exact ⟨fl, ⟨guardFound_attempt.1 h1, hk.imp id (h.keeps h2).1⟩, h.goodFlags h2 h3⟩

theorem GuardDict.meets {l : TriedForm} {fl : Str} (hm : Meets C.U g words l fl) (fc : Forceucase) :
    ∃ F, (l.attempt fc).Succeeds C C.choice F ∧ (Good C.dict F ↔ Allowed g fl) := by
  obtain ⟨d1, d2, d3⟩ := h.decides fc (l.attempt fc).hidden l.text
  obtain ⟨F, hF⟩ := d3 fl (guardFound_attempt.2 hm.1)
  obtain ⟨fl', h1, h2, h3⟩ := d2 F hF
  have e : fl' = fl := h.unique h1 ((guardFound_attempt (fc := fc)).2 hm.1)
  subst e
  exact ⟨F, ⟨hF, hm.2.imp id (h.keeps h2).2⟩, h.goodFlags h2 h3⟩

/-- The spellings tried are those of the specification. -/
theorem GuardDict.attempts (w : Str) (k : Casing) : ∃ fc, Spec.attempts C w k = (triedForms C.U w k).map (TriedForm.attempt fc) := by
  have hst : C.opts.caseHandling = .standard := by unfold Checker.opts; rw [h.made.options]; rfl
  have hsh : C.dict.aff.options.checksharps = false := by rw [h.options]; rfl
  have htitle : ∀ w, titleOf C w = titleForm C.U w := by
    intro w
    cases w with
    | nil => rfl
    | cons y s => unfold titleOf titleForm; rw [hst]; rfl
  have hlower : ∀ w, lowerOf C w = C.U.lowerStr w := by
    intro w; unfold lowerOf; rw [hst]; rfl
  have hplain : ∀ p, plainAttempts C w p = [⟨w, .forbidBad, .accept, true⟩] := by
    intro p; unfold plainAttempts; simp [h.plain.1, h.plain.2]
  cases k with
  | none => exact ⟨.forbidBad, hplain _⟩
  | camel => exact ⟨.forbidBad, hplain _⟩
  | pascal => exact ⟨.forbidBad, hplain _⟩
  | init =>
    refine ⟨.allowBad, ?_⟩
    unfold Spec.attempts titleAttempts triedForms
    rw [hsh, hlower]
    rfl
  | all =>
    refine ⟨.allowBad, ?_⟩
    have ha : (articleForms C w).map (fun t => (⟨t, .allowBad, .accept, true⟩ : Attempt)) =
        (articleTried C.U w).map (TriedForm.attempt .allowBad) := by
      unfold articleForms articleTried
      rcases w.dropWhile (· ≠ '\'') with - | ⟨a, - | ⟨b, bs⟩⟩
      · rfl
      · rfl
      · simp only [htitle, hlower]; rfl
    unfold Spec.attempts capsAttempts triedForms
    rw [hsh, hlower, htitle, if_neg (by simp), List.append_nil, List.map_cons, ha]
    simp [TriedForm.attempt]

/-- The verdict on a word is that of the list. -/
theorem GuardDict.verdict : WordVerdict C C.choice = ListVerdict C.U g words := by
  funext w o
  apply propext
  cases o with
  | none =>
    constructor
    · rintro ⟨k, hk, hf⟩
      obtain ⟨fc, ha⟩ := h.attempts w k
      refine ⟨k, hk, fun l hl => h.fails.1 (hf (l.attempt fc) ?_)⟩
      rw [ha]; exact List.mem_map_of_mem hl
    · rintro ⟨k, hk, hf⟩
      obtain ⟨fc, ha⟩ := h.attempts w k
      refine ⟨k, hk, fun a hm => ?_⟩
      rw [ha] at hm
      obtain ⟨l, hl, rfl⟩ := List.mem_map.1 hm
      exact h.fails.2 (hf l hl)
  | some b =>
    constructor
    · rintro ⟨k, before, a, after, F, hk, h1, h2, h3, h4⟩
      obtain ⟨fc, ha⟩ := h.attempts w k
      rw [ha] at h1
      obtain ⟨B, R, k1, rfl, k2⟩ := List.map_eq_append_iff.1 h1
      obtain ⟨l, A, rfl, rfl, rfl⟩ := List.map_eq_cons_iff.1 k2
      obtain ⟨fl, hm, hg⟩ := h.succeeds h3
      exact ⟨k, B, l, A, fl, hk, k1, fun x hx => h.fails.1 (h2 _ (List.mem_map_of_mem hx)), hm, h4.trans hg⟩
    · rintro ⟨k, B, l, A, fl, hk, h1, h2, h3, h4⟩
      obtain ⟨fc, ha⟩ := h.attempts w k
      obtain ⟨F, hs, hg⟩ := h.meets h3 fc
      refine ⟨k, B.map (TriedForm.attempt fc), l.attempt fc, A.map (TriedForm.attempt fc), F, hk, by rw [ha, h1]; simp, ?_, hs,
        h4.trans hg.symm⟩
      intro x hx
      obtain ⟨y, hy, rfl⟩ := List.mem_map.1 hx
      exact h.fails.2 (h2 y hy)

theorem GuardDict.shrinking : C.dict.Shrinking := by
  refine ⟨?_, ?_, ?_⟩
  · rw [h.options]; exact Nat.succ_pos 2
  · rw [h.options]; intro h; cases h
  · rw [h.made.patterns]; intro c h; cases h

end Guards
end Spellbook
