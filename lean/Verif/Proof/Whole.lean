import Verif.Spec.Whole
import Verif.Props.Search
import Verif.Props.Prepare
import Verif.Props.Simple
/-!
# The whole of `check` meets its specification
-/

namespace Spellbook
open Spec Checker Props

namespace Checker

/-! ### The order of the search with COMPOUNDRULE -/

/-- The search finds something at the end of the first part of a compound. -/
theorem ruleAt_complete {C : Checker} (hm : 0 < C.opts.minChars) {fc : Forceucase}
    {p q : Str × FlagSet} {rest : List (Str × FlagSet)} {fuel : Nat} {word : Str} {data : List FlagSet} {start : Nat}
    (hpick : ∀ x ∈ p :: q :: rest, C.rulePick x.1 = some x) (hst : start ≤ word.length)
    (hfuel : word.length - start ≤ fuel) (h : C.RuleTail fc data (word.drop start) (p :: q :: rest)) :
    start + p.1.length ∈ splitPoints word start C.opts.minChars ∧
    slice word start (start + p.1.length) = p.1 ∧
    word.drop (start + p.1.length) = ((q :: rest).map Prod.fst).flatten ∧
    (rest = [] → C.ruleDirect word (data ++ [p.2]) (start + p.1.length) fc = true) ∧
    (rest ≠ [] → C.RuleTail fc (data ++ [p.2]) (word.drop (start + p.1.length)) (q :: rest)) ∧
    ∃ r, C.ruleAt (C.checkRulesImpl fc fuel) word data start fc (start + p.1.length) = .ok (some r) := by
  have hpm := h.long p (by simp)
  have hqm := h.long q (by simp)
  have hsp := h.spelled
  have hlen : word.length - start = p.1.length + (q.1.length + ((rest.map Prod.fst).flatten).length) := by
    have := congrArg List.length hsp
    simpa using this
  simp only [Checker.opts] at hm
  have hsl : slice word start (start + p.1.length) = p.1 := by
    unfold slice; rw [List.drop_take, hsp]; simp
  have hdrop : word.drop (start + p.1.length) = ((q :: rest).map Prod.fst).flatten := by
    rw [← List.drop_drop, hsp]; simp
  have hdir : rest = [] → C.ruleDirect word (data ++ [p.2]) (start + p.1.length) fc = true := by
    rintro rfl
    unfold ruleDirect
    rw [hdrop]
    simp only [List.map_cons, List.map_nil, List.flatten_cons, List.flatten_nil, List.append_nil]
    rw [show (C.entries q.1).find? C.rulePart = some q from hpick q (by simp)]
    simp only [Bool.and_eq_true, Bool.not_eq_true', Bool.and_eq_false_iff]
    refine ⟨anyRuleMatches_iff.2 ?_, ?_⟩
    · have := h.rule
      simpa using this
    · cases fc with
      | allowBad => left; rfl
      | forbidBad => right; exact hasFlag_false.2 (h.force rfl [p] q rfl)
  have htail : rest ≠ [] → C.RuleTail fc (data ++ [p.2]) (word.drop (start + p.1.length)) (q :: rest) := by
    intro hne
    refine ⟨hdrop, ?_, ?_, ?_, ?_, ?_⟩
    · cases rest with
      | nil => exact absurd rfl hne
      | cons => simp
    · exact fun x hx => h.entries x (List.mem_cons_of_mem _ hx)
    · exact fun x hx => h.long x (List.mem_cons_of_mem _ hx)
    · have := h.rule
      simpa using this
    · intro hf l x hl
      exact h.force hf (p :: l) x (by rw [hl]; rfl)
  refine ⟨?_, hsl, hdrop, hdir, htail, ?_⟩
  · rw [mem_splitPoints]; simp only [Checker.opts]; omega
  · unfold ruleAt
    rw [hsl, show (C.entries p.1).find? C.rulePart = some p from hpick p (by simp)]
    dsimp only
    split
    · exact ⟨_, rfl⟩
    rename_i hd
    have hne : rest ≠ [] := fun h => hd (hdir h)
    exact checkRulesImpl_complete hm (q :: rest) fuel word _ _ (fun x hx => hpick x (List.mem_cons_of_mem _ hx))
      (by omega) (by omega) (htail hne)

theorem earlier_cons {p : Str × FlagSet} {a b : List (Str × FlagSet)} (h : Earlier a b) :
    Earlier (p :: a) (p :: b) := by
  obtain ⟨l, x, r, x', r', rfl, rfl, h1, h2⟩ := h
  exact ⟨p :: l, x, r, x', r', rfl, rfl, h1, h2⟩

/-- The search finds the first compound in order. -/
theorem checkRulesImpl_first {C : Checker} (hm : 0 < C.opts.minChars) {fc : Forceucase} :
    ∀ (fuel : Nat) (word : Str) (data : List FlagSet) (start : Nat) (r : CompoundingResult),
    start ≤ word.length → word.length - start < fuel →
    C.checkRulesImpl fc fuel word data start = .ok (some r) →
    ∃ l p q, C.RuleTail fc data (word.drop start) (l ++ [p, q]) ∧
      (∀ e ∈ l ++ [p, q], C.rulePick e.1 = some e) ∧
      (∀ parts, C.RuleTail fc data (word.drop start) parts → (∀ e ∈ parts, C.rulePick e.1 = some e) →
        parts = l ++ [p, q] ∨ Earlier (l ++ [p, q]) parts) ∧ r = { stem := p.1, flags := p.2 } := by
  intro fuel
  induction fuel with
  | zero => intro word data start r _ h; omega
  | succ fuel ih =>
    intro word data start r hst hfuel h
    rw [checkRulesImpl] at h
    rcases first_ok_iff.1 h with ⟨h, _⟩ | ⟨r', l1, i, l2, h1, hl, hnone, h⟩
    · cases h
    obtain rfl := Option.some.inj h1
    clear h1
    have hsorted := splitPoints_sorted hl
    have hi : i ∈ splitPoints word start C.opts.minChars := by rw [hl]; simp
    rw [mem_splitPoints] at hi
    have hiw : i ≤ word.length := by omega
    -- what other compounds can be
    have other : ∀ p parts, C.RuleTail fc data (word.drop start) parts →
        (∀ e ∈ parts, C.rulePick e.1 = some e) → C.rulePick (slice word start i) = some p →
        p.1.length = i - start →
        ∃ p' q' rest', parts = p' :: q' :: rest' ∧ p.1.length ≤ p'.1.length ∧
          (p.1.length = p'.1.length → p' = p) := by
      intro p parts ht hpk hp hpl
      match parts, ht, hpk with
      | [], ht, _ => have := ht.atLeastTwo; simp at this
      | [_], ht, _ => have := ht.atLeastTwo; simp at this
      | p' :: q' :: rest', ht, hpk =>
        obtain ⟨k1, k2, k3, k4, k5, r', hr'⟩ := ruleAt_complete hm hpk hst (fuel := fuel) (by omega) ht
        have hm' := k1
        rw [mem_splitPoints] at hm'
        refine ⟨p', q', rest', rfl, ?_, ?_⟩
        · refine Nat.le_of_not_lt fun hlt => ?_
          have := hnone _ ((hsorted _).2 ⟨k1, by omega⟩)
          rw [this] at hr'
          cases hr'
        · intro heq
          have : start + p'.1.length = i := by omega
          rw [this] at k2
          have h3 := hpk p' (by simp)
          rw [← k2, hp] at h3
          exact (Option.some.inj h3).symm
    unfold ruleAt at h
    split at h
    · simp at h
    rename_i p hp
    obtain ⟨hp1, hp2⟩ := find_rulePart hp
    have hlen : p.1.length = i - start := by rw [hp1, length_slice hiw]
    have hspell := drop_eq_slice_add (word := word) (show start ≤ i by omega)
    rw [← hp1] at hspell
    simp only [Checker.opts] at hi
    dsimp only at h
    split at h
    · rename_i hd
      obtain ⟨q, q1, q2, q5, q3, q4⟩ := ruleDirect_sound hd
      refine ⟨[], p, q, ⟨?_, by simp, ?_, ?_, ?_, ?_⟩, ?_, ?_, by simpa using h.symm⟩
      · rw [hspell, ← q1]; simp
      · intro x hx; simp at hx; rcases hx with rfl | rfl
        · exact hp2
        · exact q2
      · intro x hx; simp at hx; rcases hx with rfl | rfl
        · omega
        · rw [q1]; simp; omega
      · simpa using q3
      · intro hf l x hl
        match l, hl with
        | [], hl => simp at hl
        | [y], hl => simp at hl; obtain ⟨_, rfl⟩ := hl; exact q4 hf
        | y :: z :: l, hl => simp at hl
      · intro x hx; simp at hx; rcases hx with rfl | rfl
        · rw [hp1]; exact hp
        · exact q5
      · intro parts ht hpk
        obtain ⟨p', q', rest', rfl, hle, heq⟩ := other p parts ht hpk hp hlen
        by_cases he : p.1.length = p'.1.length
        · obtain rfl := heq he
          obtain ⟨-, -, k3, -⟩ := ruleAt_complete hm hpk hst (fuel := fuel) (by omega) ht
          have hii : start + p'.1.length = i := by omega
          rw [hii, ← q1] at k3
          cases rest' with
          | nil =>
            left
            have hqq : q.1 = q'.1 := by simpa using k3
            have h3 := hpk q' (by simp)
            rw [← hqq, q5] at h3
            rw [Option.some.inj h3]; rfl
          | cons x rest' =>
            right
            refine ⟨[p'], q, [], q', x :: rest', rfl, rfl, ?_, .inl rfl⟩
            have hx := ht.long x (by simp)
            have := congrArg List.length k3
            simp only [Checker.opts] at hm
            simp only [List.map_cons, List.flatten_cons, List.length_append] at this
            omega
        · right
          exact ⟨[], p, [q], p', q' :: rest', rfl, rfl, he, .inr ⟨by simp, by omega⟩⟩
    · rename_i hd
      obtain ⟨l, x, y, ht, hpick, hfirst, hr⟩ := ih word _ i r hiw (by simp only [Checker.opts] at hm; omega) h
      refine ⟨p :: l, x, y, ⟨?_, by simp, ?_, ?_, ?_, ?_⟩, ?_, ?_, hr⟩
      · rw [hspell, ht.spelled]; simp
      · intro x hx; rcases List.mem_cons.1 hx with rfl | hx
        · exact hp2
        · exact ht.entries x hx
      · intro x hx; rcases List.mem_cons.1 hx with rfl | hx
        · omega
        · exact ht.long x hx
      · simpa using ht.rule
      · intro hf l' x' hl'
        match l', hl' with
        | [], hl' => simp at hl'
        | z :: l', hl' =>
          simp only [List.cons_append, List.cons.injEq] at hl'
          exact ht.force hf l' x' hl'.2
      · intro x hx; rcases List.mem_cons.1 hx with rfl | hx
        · rw [hp1]; exact hp
        · exact hpick x hx
      · intro parts ht' hpk
        obtain ⟨p', q', rest', rfl, hle, heq⟩ := other p parts ht' hpk hp hlen
        by_cases he : p.1.length = p'.1.length
        · obtain rfl := heq he
          obtain ⟨-, -, -, k4, k5, -⟩ := ruleAt_complete hm hpk hst (fuel := fuel) (by omega) ht'
          have hii : start + p'.1.length = i := by omega
          rw [hii] at k4 k5
          have hne : rest' ≠ [] := fun h => hd (k4 h)
          rcases hfirst _ (k5 hne) (fun e he => hpk e (List.mem_cons_of_mem _ he)) with h3 | h3
          · left; rw [h3]; rfl
          · right; exact earlier_cons h3
        · right
          exact ⟨[], p, l ++ [x, y], p', q' :: rest', rfl, rfl, he, .inr ⟨by simp, by omega⟩⟩

/-- Of two compounds spelling the same word only one is earlier. -/
theorem earlier_asymm {a b : List (Str × FlagSet)} (hs : (a.map Prod.fst).flatten = (b.map Prod.fst).flatten)
    (h : Earlier a b) (h' : Earlier b a) : False := by
  obtain ⟨l, x, r, x', r', rfl, rfl, h1, h2⟩ := h
  obtain ⟨l2, y, s, y', s', e1, e2, h3, h4⟩ := h'
  have key : ∀ (l l2 : List (Str × FlagSet)), l ++ x' :: r' = l2 ++ y :: s → l ++ x :: r = l2 ++ y' :: s' →
      x = y' ∧ r = s' ∧ x' = y ∧ r' = s := by
    intro l
    induction l with
    | nil =>
      intro l2 e1 e2
      cases l2 with
      | nil => simp at e1 e2; exact ⟨e2.1, e2.2, e1.1, e1.2⟩
      | cons z l2 =>
        simp at e1 e2
        exact absurd (by rw [e1.1, e2.1]) h1
    | cons w l ih =>
      intro l2 e1 e2
      cases l2 with
      | nil =>
        simp at e1 e2
        exact absurd (by rw [← e1.1, ← e2.1]) h3
      | cons z l2 =>
        simp at e1 e2
        exact ih l2 e1.2 e2.2
  obtain ⟨rfl, rfl, rfl, rfl⟩ := key l l2 e1 e2
  rcases h2 with rfl | ⟨h2, h2'⟩
  · rcases h4 with rfl | ⟨h4, -⟩
    · simp at hs
      exact h1 (by rw [hs])
    · exact h4 rfl
  · rcases h4 with h4 | ⟨-, h4⟩
    · exact h2 h4
    · omega

/-- What the code looks at. -/
noncomputable def choice (C : Checker) : Choice where
  simple := fun hh w => C.checkSimpleWord w hh
  read := C.reading
  pick := C.rulePick

theorem choice_fits {C : Checker} (hC : C.dict.CondsParsed) : C.choice.Fits C.dict where
  simple_some := fun hh w F h => (C05_exact C hC w hh).1 F h
  simple_none := fun hh w h => (C05_exact C hC w hh).2.1 h
  read := reading_reads hC
  pick := rulePick_picks

/-- The answer of the search with COMPOUNDRULE. -/
theorem checkRules_iff {C : Checker} (hm : 0 < C.opts.minChars) (fc : Forceucase) (word : Str) :
    (∀ F, (∃ r, C.checkRules word fc = .ok (some r) ∧ r.flags = F) ↔ RuleDecides C.dict C.choice fc word F) ∧
    (C.checkRules word fc = .ok none ↔
      ¬ ∃ parts, RuleCompound C.dict fc word parts ∧ ∀ e ∈ parts, C.choice.pick e.1 = some e) := by
  have hfind : ∀ r, C.checkRules word fc = .ok (some r) → RuleDecides C.dict C.choice fc word r.flags := by
    intro r h
    obtain ⟨l, p, q, h1, h2, h3, h4⟩ := checkRulesImpl_first hm _ _ _ _ r (by omega) (by omega) h
    exact ⟨l, p, q, rule_of_tail h1, h2, fun parts hp => h3 parts (by simpa using tail_of_rule hp), by rw [h4]⟩
  have hc : ∀ parts, RuleCompound C.dict fc word parts → (∀ e ∈ parts, C.rulePick e.1 = some e) →
      ∃ r, C.checkRules word fc = .ok (some r) := fun parts h hp =>
    checkRulesImpl_complete hm parts _ _ _ _ hp (by omega) (by omega) (by simpa using tail_of_rule h)
  refine ⟨fun F => ⟨?_, ?_⟩, ?_⟩
  · rintro ⟨r, h, rfl⟩
    exact hfind r h
  · rintro ⟨l, p, q, h1, h2, h3, rfl⟩
    obtain ⟨r, hr⟩ := hc _ h1 h2
    refine ⟨r, hr, ?_⟩
    obtain ⟨l', p', q', k1, k2, k3, k4⟩ := hfind r hr
    rw [k4]
    have heq : l' ++ [p', q'] = l ++ [p, q] := by
      rcases h3 _ k1 k2 with h | h
      · exact h
      · rcases k3 _ h1 h2 with h' | h'
        · exact h'.symm
        · exact (earlier_asymm (by rw [← h1.spelled, ← k1.spelled]) h h').elim
    have := congrArg (fun l => l.reverse[1]?) heq
    simp at this
    rw [this]
  · constructor
    · rintro h ⟨parts, h1, h2⟩
      obtain ⟨r, hr⟩ := hc parts h1 h2
      rw [h] at hr; cases hr
    · intro h
      obtain ⟨o, ho⟩ := checkRules_ok hm word fc
      cases o with
      | none => exact ho
      | some r =>
        obtain ⟨l, p, q, h1, h2, -⟩ := hfind r ho
        exact absurd ⟨_, h1, h2⟩ h

/-- The answer of the other search. -/
theorem impl_iff {C : Checker} (hC : C.dict.CondsParsed) (fc : Forceucase) (fuel : Nat) (word : Str) :
    (C.checkCompoundImpl fc fuel .atBegin word 0 0 = .ok none ↔
      Answers C.U C.dict fc C.reading fuel .atBegin 0 [] word none) ∧
    ∀ F, (∃ r, C.checkCompoundImpl fc fuel .atBegin word 0 0 = .ok (some r) ∧ r.flags = F) ↔
      ∃ p, Answers C.U C.dict fc C.reading fuel .atBegin 0 [] word (some p) ∧ p.flags = F := by
  have key := checkCompoundImpl_iff hC (fc := fc) fuel .atBegin (.inl rfl) word 0 0 (by omega)
  simp only [List.take_zero, List.drop_zero] at key
  refine ⟨⟨fun h => ?_, fun h => (key _).2 ⟨none, h, rfl⟩⟩, fun F => ⟨?_, ?_⟩⟩
  · obtain ⟨o, h1, h2⟩ := (key _).1 h
    cases o with
    | none => exact h1
    | some p => simp at h2
  · rintro ⟨r, h, rfl⟩
    obtain ⟨o, h1, h2⟩ := (key _).1 h
    cases o with
    | none => simp at h2
    | some p =>
      have h2 : r = C.resultOf .atBegin p := by simpa using h2
      subst h2
      exact ⟨p, h1, resultOf_flags.symm⟩
  · rintro ⟨p, h, rfl⟩
    exact ⟨_, (key _).2 ⟨some p, h, rfl⟩, resultOf_flags⟩

theorem checkRules_of_isEmpty {C : Checker} (hm : 0 < C.opts.minChars) (word : Str) (fc : Forceucase) :
    (if !C.aff.compoundRules.isEmpty then C.checkRules word fc else .ok none) = C.checkRules word fc := by
  cases he : C.aff.compoundRules.isEmpty with
  | false => rfl
  | true =>
    have : C.dict.aff.compoundRules.rules = [] := by
      simpa [CompoundRuleTable.isEmpty] using he
    obtain ⟨o, ho⟩ := checkRules_ok hm word fc
    cases o with
    | none => exact ho.symm
    | some r =>
      obtain ⟨parts, hp, _⟩ := checkRules_sound ho
      obtain ⟨rule, hr, _⟩ := hp.rule
      rw [this] at hr; simp at hr

/-- The answer for compounds. -/
theorem compound_iff {C : Checker} (hC : C.dict.CondsParsed) (hm : 0 < C.opts.minChars) (fc : Forceucase)
    (word : Str) :
    ((∃ fuel, C.checkCompound fuel .atBegin word fc = .ok none) ↔
      CompoundDecides C.U C.dict C.choice fc word none) ∧
    ∀ F, (∃ fuel r, C.checkCompound fuel .atBegin word fc = .ok (some r) ∧ r.flags = F) ↔
      CompoundDecides C.U C.dict C.choice fc word (some F) := by
  obtain ⟨hr1, hr2⟩ := checkRules_iff hm fc word
  have hi := fun fuel => impl_iff hC fc fuel word
  unfold checkCompound
  simp only [checkRules_of_isEmpty hm]
  refine ⟨?_, fun F => ?_⟩
  · simp only [Run.or_eq_none]
    constructor
    · rintro ⟨fuel, h, h'⟩
      refine ⟨fun ha => ⟨fuel, ?_⟩, hr2.1 h'⟩
      rw [if_pos ha] at h
      exact (hi fuel).1.1 h
    · rintro ⟨h, h'⟩
      by_cases ha : C.opts.allowsCompounding = true
      · obtain ⟨fuel, h⟩ := h ha
        exact ⟨fuel, by rw [if_pos ha]; exact (hi fuel).1.2 h, hr2.2 h'⟩
      · exact ⟨0, by rw [if_neg ha], hr2.2 h'⟩
  · simp only [Run.or_eq_some]
    constructor
    · rintro ⟨fuel, r, h | ⟨h, h'⟩, rfl⟩
      · left
        split at h
        · rename_i ha
          obtain ⟨p, hp⟩ := ((hi fuel).2 _).1 ⟨r, h, rfl⟩
          exact ⟨ha, fuel, p, hp⟩
        · simp at h
      · right
        refine ⟨fun ha => ⟨fuel, ?_⟩, (hr1 _).1 ⟨r, h', rfl⟩⟩
        rw [if_pos ha] at h
        exact (hi fuel).1.1 h
    · rintro (⟨ha, fuel, p, hp⟩ | ⟨h, h'⟩)
      · obtain ⟨r, hr⟩ := ((hi fuel).2 F).2 ⟨p, hp⟩
        exact ⟨fuel, r, .inl (by rw [if_pos (show C.opts.allowsCompounding = true from ha)]; exact hr.1), hr.2⟩
      · obtain ⟨r, hr, hF⟩ := (hr1 F).2 h'
        by_cases ha : C.opts.allowsCompounding = true
        · obtain ⟨fuel, h⟩ := h ha
          exact ⟨fuel, r, .inr ⟨by rw [if_pos ha]; exact (hi fuel).1.2 h, hr⟩, hF⟩
        · exact ⟨0, r, .inr ⟨by rw [if_neg ha], hr⟩, hF⟩

/-- The answer for simple words and compounds. -/
theorem finds_iff {C : Checker} (hC : C.dict.CondsParsed) (hm : 0 < C.opts.minChars) (fc : Forceucase)
    (hh : HiddenHomonym) (word : Str) :
    (FindsNothing C fc hh word ↔ Decides C.U C.dict C.choice fc hh word none) ∧
    ∀ F, Finds C fc hh word F ↔ Decides C.U C.dict C.choice fc hh word (some F) := by
  obtain ⟨h1, h2⟩ := compound_iff hC hm fc word
  unfold FindsNothing Finds Decides checkWord
  rw [← h1]
  simp only [← h2]
  change (_ ↔ C.checkSimpleWord word hh = none ∧ _ ∨ C.checkSimpleWord word hh = none ∧ _) ∧
    ∀ F, _ ↔ C.checkSimpleWord word hh = some F ∧ _ ∨ C.checkSimpleWord word hh = none ∧ _
  cases C.checkSimpleWord word hh with
  | some F' => simp
  | none =>
    simp only [Run.map_eq_ok]
    refine ⟨?_, fun F => ?_⟩
    · constructor
      · rintro ⟨fuel, o, h, h'⟩
        cases o with
        | none => exact .inr ⟨trivial, fuel, h⟩
        | some r => simp at h'
      · rintro (⟨-, h⟩ | ⟨-, fuel, h⟩)
        · exact absurd rfl h
        · exact ⟨fuel, none, h, rfl⟩
    · constructor
      · rintro ⟨fuel, o, h, h'⟩
        cases o with
        | none => simp at h'
        | some r => exact .inr ⟨trivial, fuel, r, h, by simpa using h'⟩
      · rintro (⟨h, -⟩ | ⟨-, fuel, r, h, rfl⟩)
        · cases h
        · exact ⟨fuel, some r, h, rfl⟩

/-- The verdict on a whole word. -/
theorem verdict_iff {C : Checker} (hC : C.dict.CondsParsed) (hm : 0 < C.opts.minChars) (hw : ∀ w, C.CanTitle w) :
    WholeVerdict C = WordVerdict C C.choice := by
  have hfail : ∀ a : Attempt, a.Misses C ↔ a.Fails C C.choice := by
    intro a
    obtain ⟨h1, h2⟩ := finds_iff hC hm a.upper a.hidden a.text
    unfold Attempt.Misses Attempt.Fails
    simp only [h1, h2]
  have hsucc : ∀ (a : Attempt) F, a.Hits C F ↔ a.Succeeds C C.choice F := by
    intro a F
    obtain ⟨h1, h2⟩ := finds_iff hC hm a.upper a.hidden a.text
    unfold Attempt.Hits Attempt.Succeeds
    simp only [h2]
  funext word o
  refine propext ?_
  have hcase := classifyCasing_iff.1 (rfl : classifyCasing C.U word = _)
  have huniq : ∀ {c}, HasCasing C.U word c → c = classifyCasing C.U word := fun h => (classifyCasing_iff.2 h).symm
  cases o with
  | none =>
    unfold WholeVerdict WordVerdict
    rw [C52_undecided C word _ hcase (hw word)]
    simp only [hfail]
    constructor
    · exact fun h => ⟨_, hcase, h⟩
    · rintro ⟨c, hc, h⟩
      rw [huniq hc] at h
      exact h
  | some b =>
    unfold WholeVerdict WordVerdict
    constructor
    · rintro ⟨fuel, F, h, hb⟩
      obtain ⟨before, a, after, h1, h2, h3⟩ := (C52_decided C word _ hcase (hw word) F).1 ⟨fuel, h⟩
      exact ⟨_, before, a, after, F, hcase, h1, fun x hx => (hfail x).1 (h2 x hx), (hsucc a F).1 h3, hb⟩
    · rintro ⟨c, before, a, after, F, hc, h1, h2, h3, hb⟩
      rw [huniq hc] at h1
      obtain ⟨fuel, h⟩ := (C52_decided C word _ hcase (hw word) F).2
        ⟨before, a, after, h1, fun x hx => (hfail x).2 (h2 x hx), (hsucc a F).2 h3⟩
      exact ⟨fuel, F, h, hb⟩

end Checker
end Spellbook
