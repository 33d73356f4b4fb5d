import Verif.Model.Tables
import Verif.Proof.FlagSet
import Verif.Spec.Tables

namespace Spellbook

variable {pattern : CompoundRule} {data : List FlagSet}

theorem ruleLoop_nil : ruleLoop pattern data [] = false := by rw [ruleLoop]

theorem ruleLoop_done {p d : Nat} {stack} (h : pattern[p]? = none) :
    ruleLoop pattern data ((p, d) :: stack) = (d == data.length) := by
  rw [ruleLoop]; split
  · rfl
  · rename_i h'; rw [h] at h'; simp at h'

theorem ruleLoop_step {p d : Nat} {stack el} (h : pattern[p]? = some el) :
    ruleLoop pattern data ((p, d) :: stack)
      = ruleLoop pattern data (rulePush el (ruleFlagMatches data d el.flag) p d ++ stack) := by
  rw [ruleLoop]; split
  · rename_i h'; rw [h] at h'; simp at h'
  · rename_i el' h'
    obtain rfl : el = el' := by rw [h] at h'; exact Option.some.inj h'
    rfl

/-- A path of the search from pattern position `p` and data position `d` reaches the end of the
pattern at data position `e`. -/
inductive Reach (pattern : CompoundRule) (data : List FlagSet) : Nat → Nat → Nat → Prop
  | done {p d} : pattern[p]? = none → Reach pattern data p d d
  | step {p d p' d' e el} : pattern[p]? = some el →
      (p', d') ∈ rulePush el (ruleFlagMatches data d el.flag) p d →
      Reach pattern data p' d' e → Reach pattern data p d e

theorem ruleFlagMatches_lt {d f : Nat} (h : ruleFlagMatches data d f = true) : d < data.length := by
  unfold ruleFlagMatches at h
  split at h
  · rename_i hx; exact (List.getElem?_eq_some_iff.1 hx).1
  · simp at h

theorem rulePush_mem {el : RuleElement} {hit : Bool} {p d p' d' : Nat} :
    (p', d') ∈ rulePush el hit p d ↔
      (el.modifier = none ∧ hit = true ∧ p' = p + 1 ∧ d' = d + 1) ∨
      (el.modifier = some .zeroOrOne ∧ ((hit = true ∧ p' = p + 1 ∧ d' = d + 1) ∨ (p' = p + 1 ∧ d' = d))) ∨
      (el.modifier = some .zeroOrMore ∧ ((hit = true ∧ p' = p ∧ d' = d + 1) ∨ (p' = p + 1 ∧ d' = d))) := by
  unfold rulePush
  cases hm : el.modifier with
  | none => cases hit <;> simp
  | some m => cases m <;> cases hit <;> simp

theorem Reach.bounds {p d e : Nat} (h : Reach pattern data p d e) (hd : d ≤ data.length) :
    d ≤ e ∧ e ≤ data.length := by
  induction h with
  | done => exact ⟨Nat.le_refl _, hd⟩
  | step hp hm _ ih =>
    rw [rulePush_mem] at hm
    rcases hm with ⟨_, hh, _, rfl⟩ | ⟨_, ⟨hh, _, rfl⟩ | ⟨_, rfl⟩⟩ | ⟨_, ⟨hh, _, rfl⟩ | ⟨_, rfl⟩⟩
    · have := ruleFlagMatches_lt hh; have := ih (by omega); omega
    · have := ruleFlagMatches_lt hh; have := ih (by omega); omega
    · exact ih hd
    · have := ruleFlagMatches_lt hh; have := ih (by omega); omega
    · exact ih hd

theorem reach_none {p d e : Nat} (h : pattern[p]? = none) : Reach pattern data p d e ↔ e = d := by
  constructor
  · rintro (_ | ⟨h', _, _⟩)
    · rfl
    · rw [h] at h'; simp at h'
  · rintro rfl; exact .done h

theorem reach_one {p d e : Nat} {f : Nat} (h : pattern[p]? = some ⟨f, none⟩) :
    Reach pattern data p d e ↔ ruleFlagMatches data d f = true ∧ Reach pattern data (p + 1) (d + 1) e := by
  constructor
  · rintro (h' | ⟨h', hm, hr⟩)
    · rw [h] at h'; simp at h'
    · rw [h] at h'; obtain rfl := Option.some.inj h'
      rw [rulePush_mem] at hm
      simp at hm
      obtain ⟨a, rfl, rfl⟩ := hm
      exact ⟨a, hr⟩
  · rintro ⟨a, b⟩
    exact .step h (by rw [rulePush_mem]; simp [a]) b

theorem reach_opt {p d e : Nat} {f : Nat} (h : pattern[p]? = some ⟨f, some .zeroOrOne⟩) :
    Reach pattern data p d e ↔
      (ruleFlagMatches data d f = true ∧ Reach pattern data (p + 1) (d + 1) e) ∨
      Reach pattern data (p + 1) d e := by
  constructor
  · rintro (h' | ⟨h', hm, hr⟩)
    · rw [h] at h'; simp at h'
    · rw [h] at h'; obtain rfl := Option.some.inj h'
      rw [rulePush_mem] at hm
      simp at hm
      obtain ⟨a, rfl, rfl⟩ | ⟨rfl, rfl⟩ := hm
      · exact .inl ⟨a, hr⟩
      · exact .inr hr
  · rintro (⟨a, b⟩ | b)
    · exact .step (d' := d + 1) h (by rw [rulePush_mem]; simp [a]) b
    · exact .step (d' := d) h (by rw [rulePush_mem]; simp) b

theorem reach_star {p d e : Nat} {f : Nat} (h : pattern[p]? = some ⟨f, some .zeroOrMore⟩) :
    Reach pattern data p d e ↔
      (ruleFlagMatches data d f = true ∧ Reach pattern data p (d + 1) e) ∨
      Reach pattern data (p + 1) d e := by
  constructor
  · rintro (h' | ⟨h', hm, hr⟩)
    · rw [h] at h'; simp at h'
    · rw [h] at h'; obtain rfl := Option.some.inj h'
      rw [rulePush_mem] at hm
      simp at hm
      obtain ⟨a, rfl, rfl⟩ | ⟨rfl, rfl⟩ := hm
      · exact .inl ⟨a, hr⟩
      · exact .inr hr
  · rintro (⟨a, b⟩ | b)
    · exact .step (p' := p) (d' := d + 1) h (by rw [rulePush_mem]; simp [a]) b
    · exact .step (p' := p + 1) (d' := d) h (by rw [rulePush_mem]; simp) b

theorem reach_star_run {p d e : Nat} {f : Nat} (h : pattern[p]? = some ⟨f, some .zeroOrMore⟩) :
    Reach pattern data p d e ↔
      ∃ m, d ≤ m ∧ (∀ i, d ≤ i → i < m → ruleFlagMatches data i f = true) ∧
        Reach pattern data (p + 1) m e := by
  constructor
  · intro hr
    generalize hq : p = q at hr
    induction hr with
    | done h' => subst hq; rw [h] at h'; simp at h'
    | @step p0 d0 p' d' e0 el h' hm hr ih =>
      subst hq
      rw [h] at h'; obtain rfl := Option.some.inj h'
      rw [rulePush_mem] at hm
      simp at hm
      obtain ⟨a, rfl, rfl⟩ | ⟨rfl, rfl⟩ := hm
      · obtain ⟨m, h1, h2, h3⟩ := ih rfl
        refine ⟨m, by omega, fun i hi hi' => ?_, h3⟩
        rcases Nat.eq_or_lt_of_le hi with rfl | hlt
        · exact a
        · exact h2 i (by omega) hi'
      · exact ⟨_, Nat.le_refl _, fun i _ _ => by omega, hr⟩
  · rintro ⟨m, h1, h2, h3⟩
    obtain ⟨k, rfl⟩ : ∃ k, m = d + k := ⟨m - d, by omega⟩
    clear h1
    induction k generalizing d with
    | zero => exact (reach_star h).2 (.inr h3)
    | succ k ih =>
      refine (reach_star h).2 (.inl ⟨h2 d (Nat.le_refl _) (by omega), ih (d := d + 1) ?_ ?_⟩)
      · intro i hi hi'; exact h2 i (by omega) (by omega)
      · rw [show d + 1 + k = d + (k + 1) by omega]; exact h3

/-- Starting later in the data never ends earlier: two paths of the search cannot cross. -/
theorem Reach.mono {p d₁ d₂ e₁ e₂ : Nat} (h₁ : Reach pattern data p d₁ e₁)
    (h₂ : Reach pattern data p d₂ e₂) (hd : d₁ ≤ d₂) : ∃ e, e₁ ≤ e ∧ Reach pattern data p d₂ e := by
  obtain ⟨n, hn⟩ : ∃ n, pattern.length - p = n := ⟨_, rfl⟩
  induction n generalizing p d₁ d₂ e₁ e₂ with
  | zero =>
    have : pattern[p]? = none := List.getElem?_eq_none (by omega)
    rw [reach_none this] at h₁ h₂
    exact ⟨d₂, by omega, .done this⟩
  | succ n ih =>
    have hp : p < pattern.length := by omega
    obtain ⟨⟨f, m⟩, hel⟩ : ∃ el, pattern[p]? = some el := ⟨_, List.getElem?_eq_getElem hp⟩
    rcases m with _ | ⟨_ | _⟩
    · rw [reach_one hel] at h₁ h₂
      obtain ⟨e, he, hr⟩ := ih h₁.2 h₂.2 (by omega) (by omega)
      exact ⟨e, he, (reach_one hel).2 ⟨h₂.1, hr⟩⟩
    · rcases Nat.eq_or_lt_of_le hd with rfl | hlt
      · exact ⟨e₁, Nat.le_refl _, h₁⟩
      · have h1 : ∃ m, m ≤ d₂ ∧ Reach pattern data (p + 1) m e₁ := by
          rcases (reach_opt hel).1 h₁ with ⟨_, h⟩ | h
          · exact ⟨_, by omega, h⟩
          · exact ⟨_, by omega, h⟩
        obtain ⟨m, hm, h1⟩ := h1
        rcases (reach_opt hel).1 h₂ with ⟨a, h⟩ | h
        · obtain ⟨e, he, hr⟩ := ih h1 h (by omega) (by omega)
          exact ⟨e, he, (reach_opt hel).2 (.inl ⟨a, hr⟩)⟩
        · obtain ⟨e, he, hr⟩ := ih h1 h (by omega) (by omega)
          exact ⟨e, he, (reach_opt hel).2 (.inr hr)⟩
    · obtain ⟨m₁, hm₁, run₁, r₁⟩ := (reach_star_run hel).1 h₁
      obtain ⟨m₂, hm₂, run₂, r₂⟩ := (reach_star_run hel).1 h₂
      rcases Nat.lt_or_ge m₂ m₁ with hlt | hge
      · exact ⟨e₁, Nat.le_refl _, (reach_star_run hel).2
          ⟨m₁, by omega, fun i hi hi' => run₁ i (by omega) hi', r₁⟩⟩
      · obtain ⟨e, he, hr⟩ := ih r₁ r₂ hge (by omega)
        exact ⟨e, he, (reach_star_run hel).2 ⟨m₂, hm₂, run₂, hr⟩⟩

/-- The search returns true iff the topmost state from which the end of the pattern can be reached
at all can reach it with all data consumed. -/
theorem ruleLoop_iff (stack : List (Nat × Nat)) (hst : ∀ s ∈ stack, s.2 ≤ data.length) :
    ruleLoop pattern data stack = true ↔
      ∃ pre s post, stack = pre ++ s :: post ∧ (∀ x ∈ pre, ∀ e, ¬ Reach pattern data x.1 x.2 e) ∧
        Reach pattern data s.1 s.2 data.length := by
  obtain ⟨n, hn⟩ : ∃ n, (stack.map (ruleWeight pattern data)).sum = n := ⟨_, rfl⟩
  induction n using Nat.strongRecOn generalizing stack with
  | ind n ih =>
  match stack with
  | [] => rw [ruleLoop_nil]; simp
  | (p, d) :: stack =>
    have hd : d ≤ data.length := hst (p, d) (by simp)
    -- the shape of the right hand side for a non-empty stack
    have cons_iff : ∀ (s : Nat × Nat) (st : List (Nat × Nat)),
        (∃ pre t post, s :: st = pre ++ t :: post ∧ (∀ x ∈ pre, ∀ e, ¬ Reach pattern data x.1 x.2 e) ∧
          Reach pattern data t.1 t.2 data.length) ↔
        Reach pattern data s.1 s.2 data.length ∨ ((∀ e, ¬ Reach pattern data s.1 s.2 e) ∧
          ∃ pre t post, st = pre ++ t :: post ∧ (∀ x ∈ pre, ∀ e, ¬ Reach pattern data x.1 x.2 e) ∧
            Reach pattern data t.1 t.2 data.length) := by
      intro s st
      constructor
      · rintro ⟨pre, t, post, he, hpre, ht⟩
        cases pre with
        | nil => simp at he; left; rw [he.1]; exact ht
        | cons x pre =>
          simp at he
          obtain ⟨rfl, rfl⟩ := he
          exact .inr ⟨hpre _ (by simp), pre, t, post, rfl, fun y hy => hpre y (by simp [hy]), ht⟩
      · rintro (h | ⟨h, pre, t, post, rfl, hpre, ht⟩)
        · exact ⟨[], s, st, rfl, by simp, h⟩
        · refine ⟨s :: pre, t, post, rfl, ?_, ht⟩
          intro x hx
          rcases List.mem_cons.1 hx with rfl | hx
          · exact h
          · exact hpre x hx
    cases hel : pattern[p]? with
    | none =>
      rw [ruleLoop_done hel, cons_iff, reach_none hel, beq_iff_eq]
      constructor
      · intro h; exact .inl h.symm
      · rintro (h | ⟨h, _⟩)
        · exact h.symm
        · exact absurd (Reach.done hel) (h d)
    | some el =>
      have hw := rulePush_weight (data := data) (d := d) hel
      rw [ruleLoop_step hel, ih _ (by
        rw [← hn]; simp only [List.map_append, List.sum_append, List.map_cons, List.sum_cons]; omega) _ (by
        intro s hs
        rcases List.mem_append.1 hs with hs | hs
        · obtain ⟨p', d'⟩ := s
          rw [rulePush_mem] at hs
          rcases hs with ⟨_, hh, _, rfl⟩ | ⟨_, ⟨hh, _, rfl⟩ | ⟨_, rfl⟩⟩ | ⟨_, ⟨hh, _, rfl⟩ | ⟨_, rfl⟩⟩
          · exact ruleFlagMatches_lt hh
          · exact ruleFlagMatches_lt hh
          · exact hd
          · exact ruleFlagMatches_lt hh
          · exact hd
        · exact hst s (by simp [hs])) rfl, cons_iff]
      obtain ⟨f, m⟩ := el
      rcases m with _ | ⟨_ | _⟩
      · simp only [rulePush]
        by_cases hh : ruleFlagMatches data d f = true
        · simp only [hh, ↓reduceIte, List.cons_append, List.nil_append, cons_iff, reach_one hel, true_and]
        · simp only [hh, Bool.false_eq_true, ↓reduceIte, List.nil_append, reach_one hel, false_and,
            false_or, not_false_eq_true, implies_true, true_and]
      · simp only [rulePush]
        by_cases hh : ruleFlagMatches data d f = true
        · simp only [hh, ↓reduceIte, List.cons_append, List.nil_append, cons_iff, reach_opt hel, true_and]
          constructor
          · rintro (h | ⟨h, h' | ⟨h', h''⟩⟩)
            · exact .inl (.inl h)
            · exact .inl (.inr h')
            · exact .inr ⟨fun e he => he.elim (h e) (h' e), h''⟩
          · rintro ((h | h) | ⟨h, h'⟩)
            · exact .inl h
            · by_cases hc : ∃ e, Reach pattern data (p + 1) (d + 1) e
              · obtain ⟨e, he⟩ := hc
                obtain ⟨e', hle, hr⟩ := h.mono he (by omega)
                have := (hr.bounds (ruleFlagMatches_lt hh)).2
                exact .inl (by rwa [show data.length = e' by omega])
              · exact .inr ⟨fun e he => hc ⟨e, he⟩, .inl h⟩
            · exact .inr ⟨fun e he => h e (.inl he), .inr ⟨fun e he => h e (.inr he), h'⟩⟩
        · simp only [hh, Bool.false_eq_true, ↓reduceIte, List.cons_append, List.nil_append, cons_iff,
            reach_opt hel, false_and, false_or]
      · simp only [rulePush]
        by_cases hh : ruleFlagMatches data d f = true
        · simp only [hh, ↓reduceIte, List.cons_append, List.nil_append, cons_iff]
          have hs : ∀ e, Reach pattern data p d e ↔
              Reach pattern data p (d + 1) e ∨ Reach pattern data (p + 1) d e := by
            intro e; rw [reach_star hel]; simp [hh]
          simp only [hs]
          constructor
          · rintro (h | ⟨h, h' | ⟨h', h''⟩⟩)
            · exact .inl (.inl h)
            · exact .inl (.inr h')
            · exact .inr ⟨fun e he => he.elim (h e) (h' e), h''⟩
          · rintro ((h | h) | ⟨h, h'⟩)
            · exact .inl h
            · by_cases hc : ∃ e, Reach pattern data p (d + 1) e
              · obtain ⟨e, he⟩ := hc
                obtain ⟨e', hle, hr⟩ := ((hs _).2 (.inr h)).mono he (by omega)
                have := (hr.bounds (ruleFlagMatches_lt hh)).2
                exact .inl (by rwa [show data.length = e' by omega])
              · exact .inr ⟨fun e he => hc ⟨e, he⟩, .inl h⟩
            · exact .inr ⟨fun e he => h e (.inl he), .inr ⟨fun e he => h e (.inr he), h'⟩⟩
        · simp only [hh, Bool.false_eq_true, ↓reduceIte, List.cons_append, List.nil_append, cons_iff]
          have hs : ∀ e, Reach pattern data p d e ↔ Reach pattern data (p + 1) d e := by
            intro e; rw [reach_star hel]; simp [hh]
          simp only [hs]

theorem compoundRuleMatches_reach (pattern : CompoundRule) (data : List FlagSet) :
    compoundRuleMatches pattern data = true ↔ Reach pattern data 0 0 data.length := by
  unfold compoundRuleMatches
  rw [ruleLoop_iff _ (by simp)]
  constructor
  · rintro ⟨pre, s, post, he, _, h⟩
    cases pre with
    | nil => simp at he; rw [← he.1] at h; exact h
    | cons x pre => simp at he
  · intro h; exact ⟨[], (0, 0), [], rfl, by simp, h⟩

theorem forall₂_append_left {α β : Type} {R : α → β → Prop} {a b : List α} {l : List β}
    (h : List.Forall₂ R (a ++ b) l) : ∃ l₁ l₂, l = l₁ ++ l₂ ∧ List.Forall₂ R a l₁ ∧ List.Forall₂ R b l₂ := by
  induction a generalizing l with
  | nil => exact ⟨[], l, rfl, .nil, h⟩
  | cons x a ih =>
    cases h with
    | cons hx ht =>
      obtain ⟨l₁, l₂, rfl, h1, h2⟩ := ih ht
      exact ⟨_ :: l₁, l₂, rfl, .cons hx h1, h2⟩

theorem forall₂_append {α β : Type} {R : α → β → Prop} {a b : List α} {l₁ l₂ : List β}
    (h1 : List.Forall₂ R a l₁) (h2 : List.Forall₂ R b l₂) : List.Forall₂ R (a ++ b) (l₁ ++ l₂) := by
  induction h1 with
  | nil => exact h2
  | cons hx _ ih => exact .cons hx ih

theorem ruleFlagMatches_iff {d f : Nat} : ruleFlagMatches data d f = true ↔
    ∃ fs rest, data.drop d = fs :: rest ∧ data.drop (d + 1) = rest ∧ f ∈ fs.elems := by
  unfold ruleFlagMatches
  constructor
  · intro h
    split at h
    · rename_i fs hfs
      obtain ⟨hlt, hget⟩ := List.getElem?_eq_some_iff.1 hfs
      refine ⟨fs, data.drop (d + 1), ?_, rfl, ?_⟩
      · rw [← hget]; exact List.drop_eq_getElem_cons hlt
      · exact (FlagSet.contains_iff).1 h
    · simp at h
  · rintro ⟨fs, rest, h1, _, h3⟩
    have : data[d]? = some fs := by rw [← List.head?_drop, h1]; rfl
    rw [this]
    exact (FlagSet.contains_iff).2 h3

theorem reach_regex (p d : Nat) (hd : d ≤ data.length) :
    Reach pattern data p d data.length ↔
      ∃ w ∈ (Spec.ruleRegex (CompoundRule.spec (pattern.drop p))).matches',
        List.Forall₂ (fun f (fs : FlagSet) => f ∈ fs.elems) w (data.drop d) := by
  obtain ⟨n, hn⟩ : ∃ n, pattern.length - p = n := ⟨_, rfl⟩
  induction n generalizing p d with
  | zero =>
    have : pattern[p]? = none := List.getElem?_eq_none (by omega)
    rw [reach_none this, List.drop_eq_nil_of_le (by omega : pattern.length ≤ p)]
    simp only [CompoundRule.spec, List.map_nil, Spec.ruleRegex, RegularExpression.matches'_epsilon,
      Language.mem_one]
    constructor
    · rintro rfl; exact ⟨[], rfl, by simp⟩
    · rintro ⟨w, rfl, h⟩
      have : data.drop d = [] := by simpa using h
      have := List.drop_eq_nil_iff.1 this
      omega
  | succ n ih =>
    have hp : p < pattern.length := by omega
    obtain ⟨⟨f, m⟩, hel⟩ : ∃ el, pattern[p]? = some el := ⟨_, List.getElem?_eq_getElem hp⟩
    have hdrop : pattern.drop p = ⟨f, m⟩ :: pattern.drop (p + 1) := by
      rw [List.drop_eq_getElem_cons hp]; congr 1
      exact (List.getElem?_eq_some_iff.1 hel).2
    -- one occurrence of the flag, then the rest
    have one : ∀ (L : Language Nat) (d : Nat), d ≤ data.length →
        ((∃ w ∈ ({[f]} : Language Nat) * L,
          List.Forall₂ (fun f (fs : FlagSet) => f ∈ fs.elems) w (data.drop d)) ↔
        ruleFlagMatches data d f = true ∧ ∃ w ∈ L,
          List.Forall₂ (fun f (fs : FlagSet) => f ∈ fs.elems) w (data.drop (d + 1))) := by
      intro L d _
      rw [ruleFlagMatches_iff]
      constructor
      · rintro ⟨w, hw, hf⟩
        obtain ⟨a, ha, b, hb, rfl⟩ := Language.mem_mul.1 hw
        obtain rfl : a = [f] := ha
        cases hdd : data.drop d with
        | nil => rw [hdd] at hf; cases hf
        | cons fs rest =>
          have hrest : data.drop (d + 1) = rest := by rw [← List.tail_drop, hdd]; rfl
          rw [hdd] at hf
          cases hf with
          | cons h1 h2 => exact ⟨⟨fs, rest, rfl, hrest, h1⟩, b, hb, by rw [hrest]; exact h2⟩
      · rintro ⟨⟨fs, rest, h1, h2, h3⟩, b, hb, hf⟩
        refine ⟨[f] ++ b, Language.mem_mul.2 ⟨[f], rfl, b, hb, rfl⟩, ?_⟩
        rw [h1]; rw [h2] at hf
        exact .cons h3 hf
    rw [hdrop]
    simp only [CompoundRule.spec, List.map_cons, Spec.ruleRegex, RegularExpression.matches']
    rcases m with _ | ⟨_ | _⟩
    · rw [reach_one hel]
      simp only [RuleElement.times, Spec.ruleAtom, RegularExpression.matches']
      rw [one _ _ hd]
      constructor
      · rintro ⟨a, b⟩
        exact ⟨a, (ih (p + 1) (d + 1) (ruleFlagMatches_lt a) (by omega)).1 b⟩
      · rintro ⟨a, b⟩
        exact ⟨a, (ih (p + 1) (d + 1) (ruleFlagMatches_lt a) (by omega)).2 b⟩
    · rw [reach_opt hel]
      simp only [RuleElement.times, Spec.ruleAtom, RegularExpression.matches', add_mul,
        RegularExpression.matches'_epsilon, one_mul]
      constructor
      · rintro (⟨a, b⟩ | b)
        · obtain ⟨w, hw, hf⟩ := (one _ _ hd).2
            ⟨a, (ih (p + 1) (d + 1) (ruleFlagMatches_lt a) (by omega)).1 b⟩
          exact ⟨w, (Language.mem_add _ _ _).2 (.inr hw), hf⟩
        · obtain ⟨w, hw, hf⟩ := (ih (p + 1) d hd (by omega)).1 b
          exact ⟨w, (Language.mem_add _ _ _).2 (.inl hw), hf⟩
      · rintro ⟨w, hw, hf⟩
        rcases (Language.mem_add _ _ _).1 hw with hw | hw
        · exact .inr ((ih (p + 1) d hd (by omega)).2 ⟨w, hw, hf⟩)
        · obtain ⟨a, b⟩ := (one _ _ hd).1 ⟨w, hw, hf⟩
          exact .inl ⟨a, (ih (p + 1) (d + 1) (ruleFlagMatches_lt a) (by omega)).2 b⟩
    · rw [reach_star_run hel]
      simp only [RuleElement.times, Spec.ruleAtom, RegularExpression.matches']
      constructor
      · rintro ⟨m, hm, hrun, hr⟩
        obtain ⟨k, rfl⟩ : ∃ k, m = d + k := ⟨m - d, by omega⟩
        clear hm
        induction k generalizing d with
        | zero =>
          obtain ⟨w, hw, hf⟩ := (ih (p + 1) d hd (by omega)).1 hr
          refine ⟨w, Language.mem_mul.2 ⟨[], ?_, w, hw, rfl⟩, hf⟩
          exact Language.nil_mem_kstar _
        | succ k ih2 =>
          have h0 := hrun d (Nat.le_refl _) (by omega)
          obtain ⟨w, hw, hf⟩ := ih2 (d + 1) (ruleFlagMatches_lt h0)
            (fun i hi hi' => hrun i (by omega) (by omega))
            (by rw [show d + 1 + k = d + (k + 1) by omega]; exact hr)
          obtain ⟨w', hw', hf'⟩ := (one _ _ hd).2 ⟨h0, w, hw, hf⟩
          refine ⟨w', ?_, hf'⟩
          rw [← mul_assoc] at hw'
          have hle : ({[f]} : Language Nat) * KStar.kstar {[f]} ≤ KStar.kstar {[f]} :=
            mul_kstar_le_kstar
          obtain ⟨x, hx, y, hy, rfl⟩ := Language.mem_mul.1 hw'
          exact Language.mem_mul.2 ⟨x, hle hx, y, hy, rfl⟩
      · rintro ⟨w, hw, hf⟩
        obtain ⟨a, ha, b, hb, rfl⟩ := Language.mem_mul.1 hw
        obtain ⟨L, rfl, hL⟩ := Language.mem_kstar.1 ha
        clear hw ha
        induction L generalizing d with
        | nil =>
          exact ⟨d, Nat.le_refl _, fun i _ _ => by omega, (ih (p + 1) d hd (by omega)).2 ⟨b, hb, hf⟩⟩
        | cons x L ih2 =>
          obtain rfl : x = [f] := hL x (by simp)
          obtain ⟨h0, w', hw', hf'⟩ := (one ({L.flatten ++ b} : Language Nat) _ hd).1
            ⟨[f] ++ (L.flatten ++ b), Language.mem_mul.2 ⟨[f], rfl, _, rfl, rfl⟩, by simpa using hf⟩
          obtain rfl : w' = L.flatten ++ b := hw'
          obtain ⟨m, hm, hrun, hr⟩ := ih2 (d + 1) (ruleFlagMatches_lt h0)
            (fun y hy => hL y (List.mem_cons_of_mem _ hy)) hf'
          refine ⟨m, by omega, fun i hi hi' => ?_, hr⟩
          rcases Nat.eq_or_lt_of_le hi with rfl | hlt
          · exact h0
          · exact hrun i (by omega) hi'

/-- The backtracking search decides membership in the regular language of the rule. -/
theorem compoundRuleMatches_iff (rule : CompoundRule) (data : List FlagSet) :
    compoundRuleMatches rule data = true ↔
      Spec.RuleAccepts (CompoundRule.spec rule) (data.map (·.elems)) := by
  rw [compoundRuleMatches_reach, reach_regex 0 0 (Nat.zero_le _)]
  unfold Spec.RuleAccepts
  simp only [List.drop_zero, List.forall₂_map_right_iff]

end Spellbook
