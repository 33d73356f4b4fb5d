import Verif.Spec.RuleList
import Verif.Proof.PlaceList
/-!
# Proofs about lists of words with rules for compounds
-/

namespace Spellbook
open Spec Props

section Rules
variable {C : Checker} {r : PlaceRules} {rules : List CompoundRule} {words : List (Str × Str)}

/-- The flags picked are flags of the rule. -/
theorem picked_flags {rule : List (Nat × Times)} {picked : List Nat} (h : picked ∈ (ruleRegex rule).matches') :
    ∀ f ∈ picked, ∃ x ∈ rule, x.1 = f := fun f hf => List.mem_map.1 (Checker.ruleRegex_flags rule picked h f hf)

/-- A rule looks at its own flags only. -/
theorem RuleAccepts.map {α : Type} {rule : List (Nat × Times)} {l : List α} {F G : α → List Nat}
    (h : RuleAccepts rule (l.map F)) (hFG : ∀ a ∈ l, ∀ x ∈ rule, x.1 ∈ F a → x.1 ∈ G a) : RuleAccepts rule (l.map G) := by
  obtain ⟨picked, hp, hm⟩ := h
  refine ⟨picked, hp, ?_⟩
  have hfl := picked_flags hp
  clear hp
  rw [List.forall₂_map_right_iff] at hm ⊢
  induction hm with
  | nil => exact .nil
  | @cons f a fs l h1 _ ih =>
    refine .cons ?_ (ih (fun b hb => hFG b (by simp [hb])) fun g hg => hfl g (by simp [hg]))
    obtain ⟨x, hx, rfl⟩ := hfl f (by simp)
    exact hFG a (by simp) x hx h1

variable (h : PlaceDict C r rules words) (hf : ∀ rule ∈ rules, ∀ x ∈ rule, x.flag < 256)
  (hu : ∀ t fl fl', RulePart C.U words (t, fl) → RulePart C.U words (t, fl') → fl = fl')
include h

/-- The entries are the parts which rules can use. -/
theorem PlaceDict.rulePart {s : Str} {F : FlagSet} (hm : (s, F) ∈ C.dict.words.slots) :
    ∃ fl, RulePart C.U words (s, fl) ∧ ∀ f < 256, f ∈ F.elems ↔ f ∈ fl.map Char.toNat := by
  rcases h.mem.1 hm with ⟨e, he, rfl, rfl⟩ | ⟨e, he, ht, rfl, rfl⟩
  · refine ⟨e.2, ⟨e, he, rfl, .inl rfl⟩, fun f _ => ?_⟩
    rw [formFlags_iff, List.mem_map]
  · refine ⟨e.2, ⟨e, he, rfl, .inr ⟨ht, rfl⟩⟩, fun f hf => ?_⟩
    rw [← FlagSet.contains_iff, contains_hidden, FlagSet.contains_iff, formFlags_iff, List.mem_map]
    exact or_iff_left (by omega)

theorem PlaceDict.ofRulePart {s fl : Str} (hp : RulePart C.U words (s, fl)) : ∃ F, (s, F) ∈ C.dict.words.slots := by
  obtain ⟨e, he, -, h1 | ⟨ht, h1⟩⟩ := hp
  · exact ⟨_, h.mem.2 (.inl ⟨e, he, h1, rfl⟩)⟩
  · exact ⟨_, h.mem.2 (.inr ⟨e, he, ht, h1, rfl⟩)⟩

include hf

/-- The compounds by rules which the search finds are as the specification says. -/
theorem PlaceDict.ofRule_of {fc : Forceucase} {w : Str} {parts : List (Str × FlagSet)}
    (hp : RuleCompound C.dict fc w parts) : OfRule C.U r rules words w := by
  obtain ⟨rule, hr, ha⟩ := hp.rule
  rw [h.made.rules] at hr
  have hex : ∀ p : Str × FlagSet, ∃ fl, p ∈ parts →
      RulePart C.U words (p.1, fl) ∧ ∀ f < 256, f ∈ p.2.elems ↔ f ∈ fl.map Char.toNat := by
    intro p
    by_cases hm : p ∈ parts
    · obtain ⟨fl, hfl⟩ := h.rulePart (hp.listed p hm)
      exact ⟨fl, fun _ => hfl⟩
    · exact ⟨[], fun hm' => absurd hm' hm⟩
  choose fl hfl using hex
  refine ⟨parts.map fun p => (p.1, fl p), ⟨by simpa using hp.atLeastTwo, ?_, ?_, rule, hr, ?_⟩, ?_⟩
  · intro q hq
    obtain ⟨p, hm, rfl⟩ := List.mem_map.1 hq
    exact (hfl p hm).1
  · intro q hq
    obtain ⟨p, hm, rfl⟩ := List.mem_map.1 hq
    have := hp.long p hm
    rw [h.options] at this
    exact this
  · rw [List.map_map]
    refine RuleAccepts.map ha fun p hm x hx hxf => ?_
    obtain ⟨el, hel, rfl⟩ := List.mem_map.1 hx
    exact ((hfl p hm).2 _ (hf rule hr el hel)).1 hxf
  · unfold wordsText
    rw [List.map_map]
    exact hp.spelled

include hu

/-- The search finds the compounds by rules. -/
theorem PlaceDict.ruleComplete {fc : Forceucase} {w : Str} (hp : OfRule C.U r rules words w) :
    ∃ res, C.checkRules w fc = .ok (some res) := by
  obtain ⟨parts, hp, rfl⟩ := hp
  obtain ⟨rule, hr, ha⟩ := hp.rule
  have hm : 0 < C.dict.aff.options.minChars := by rw [h.options]; exact h.pos
  obtain ⟨pick, hpick, hex⟩ := C30_rule_exact (C := C) hm
  refine (hex fc _).2 ?_
  have hneed : ∀ F, ¬ Has F C.dict.aff.options.needAffixFlag := by
    rw [h.options]; rintro F ⟨y, hy, -⟩; cases hy
  have hany : ∀ p ∈ parts, ∃ el ∈ rule, el.flag ∈ p.2.map Char.toNat := by
    intro p hp'
    obtain ⟨picked, h1, h2⟩ := ha
    have hfl := picked_flags h1
    clear h1
    rw [List.forall₂_map_right_iff] at h2
    have key : ∀ {picked : List Nat} {parts : List (Str × Str)},
        List.Forall₂ (fun f (q : Str × Str) => f ∈ q.2.map Char.toNat) picked parts → p ∈ parts →
        ∃ f ∈ picked, f ∈ p.2.map Char.toNat := by
      intro picked parts h2 hp'
      induction h2 with
      | nil => cases hp'
      | @cons f a fs l h1 _ ih =>
        rcases List.mem_cons.1 hp' with rfl | hp'
        · exact ⟨f, by simp, h1⟩
        · obtain ⟨g, hg, k⟩ := ih hp'
          exact ⟨g, by simp [hg], k⟩
    obtain ⟨f, hfm, hfp⟩ := key h2 hp'
    obtain ⟨x, hx, rfl⟩ := hfl f hfm
    obtain ⟨el, hel, rfl⟩ := List.mem_map.1 hx
    exact ⟨el, hel, hfp⟩
  have hgot : ∀ p : Str × Str, ∃ q : Str × FlagSet, p ∈ parts → q.1 = p.1 ∧ pick p.1 = some q ∧ q ∈ C.dict.words.slots ∧
      ∀ f < 256, f ∈ p.2.map Char.toNat → f ∈ q.2.elems := by
    intro p
    by_cases hm : p ∈ parts
    · obtain ⟨F, hF⟩ := h.ofRulePart (hp.listed p hm)
      have same : ∀ {F}, (p.1, F) ∈ C.dict.words.slots → ∀ f < 256, f ∈ F.elems ↔ f ∈ p.2.map Char.toNat := by
        intro F hF
        obtain ⟨fl, h1, h2⟩ := h.rulePart hF
        rw [hu p.1 p.2 fl (hp.listed p hm) h1]
        exact h2
      obtain ⟨el, hel, hin⟩ := hany p hm
      obtain ⟨q, hq⟩ := hpick.some (p.1, F) hF (hneed _) ⟨rule, by rw [h.made.rules]; exact hr, el, hel,
        (same hF _ (hf rule hr el hel)).2 hin⟩
      obtain ⟨h1, h2, -⟩ := hpick.entry _ _ hq
      refine ⟨q, fun _ => ⟨h1, hq, h2, fun f hf hin => ?_⟩⟩
      obtain ⟨t, G⟩ := q
      cases h1
      exact (same h2 f hf).2 hin
    · exact ⟨([], FlagSet.empty), fun hm' => absurd hm' hm⟩
  choose q hq using hgot
  refine ⟨parts.map q, ⟨?_, by simpa using hp.atLeastTwo, ?_, fun _ _ => hneed _, ?_,
    ⟨rule, by rw [h.made.rules]; exact hr, ?_⟩, ?_⟩, ?_⟩
  · unfold wordsText
    rw [List.map_map]
    exact congrArg List.flatten (List.map_congr_left fun p hp' => ((hq p hp').1).symm)
  · intro x hx
    obtain ⟨p, hp', rfl⟩ := List.mem_map.1 hx
    exact (hq p hp').2.2.1
  · intro x hx
    obtain ⟨p, hp', rfl⟩ := List.mem_map.1 hx
    rw [(hq p hp').1, h.options]
    exact hp.long p hp'
  · rw [List.map_map]
    refine RuleAccepts.map ha fun p hp' x hx hin => ?_
    obtain ⟨el, hel, rfl⟩ := List.mem_map.1 hx
    exact (hq p hp').2.2.2 _ (hf rule hr el hel) hin
  · rw [h.options]; rintro - l x - ⟨y, hy, -⟩; cases hy
  · intro x hx
    obtain ⟨p, hp', rfl⟩ := List.mem_map.1 hx
    rw [(hq p hp').1]
    exact (hq p hp').2.1

/-- The search finds them after the search for parts at their places. -/
theorem PlaceDict.ruleComplete' {fc : Forceucase} {w : Str} (hp : OfRule C.U r rules words w) (fuel : Nat)
    (hw : w.length < fuel) : ∃ res, C.checkCompound fuel .atBegin w fc = .ok (some res) := by
  obtain ⟨res, hres⟩ := h.ruleComplete hf hu (fc := fc) hp
  have hne : (!C.aff.compoundRules.isEmpty) = true := by
    obtain ⟨parts, hp, -⟩ := hp
    obtain ⟨rule, hr, -⟩ := hp.rule
    have : C.aff.compoundRules.rules = rules := h.made.rules
    unfold CompoundRuleTable.isEmpty
    rw [this]
    cases rules with
    | nil => cases hr
    | cons a l => rfl
  obtain ⟨o, ho⟩ := Checker.checkCompound_ok h.shrinking .atBegin w fc hw
  cases o with
  | some x => exact ⟨x, ho⟩
  | none =>
    unfold Checker.checkCompound at ho
    rw [if_pos hne, hres] at ho
    exfalso
    revert ho
    generalize (if C.opts.allowsCompounding = true then C.checkCompoundImpl fc fuel .atBegin w 0 0 else .ok none) = x
    intro ho
    match x with
    | .error _ => cases ho
    | .ok none => cases ho
    | .ok (some _) => cases ho

/-- What is found. -/
theorem PlaceDict.rulesFind : Finds C (RuledSo C.U r rules words) (RuledAny C.U r rules words) := by
  refine h.finds_of fun fc w => h.decides_of (fun hs => ?_) fun hK fuel hw => ?_
  · obtain ⟨h1 | ⟨parts, hp⟩, h2⟩ := h.sound hs
    · exact ⟨.inl h1, h2⟩
    · exact ⟨.inr (h.ofRule_of hf hp), h2⟩
  · rcases hK with hK | hK
    · exact h.complete hK fuel hw
    · exact h.ruleComplete' hf hu hK fuel hw

end Rules
end Spellbook
