import Verif.Proof.FlagFaults
import Verif.Proof.RuleText
import Verif.Proof.Condition
import Verif.Spec.Faults
/-!
# Errors of compound rules and conditions
-/

namespace Spellbook
open Spec

/-! ## Compound rules -/

theorem ruleFlag_spelled {ty : FlagType} {name rest : Str} {f : Nat} (h : RuleFlagText ty name f) :
    ruleFlag ty (name ++ rest) =
      if f = 0 then .error (.parseFlag .zeroFlag)
      else if 65535 < f then
        .error (.parseFlag (if ty = .utf8 then .flagAbove65535 else .parseInt .posOverflow))
      else .ok (f, rest) := by
  by_cases hv : Flag.Valid f
  · rw [if_neg (by have := hv.1; omega), if_neg (by have := hv.2; omega)]
    exact ruleFlag_ok.2 ⟨name, rfl, h, hv⟩
  · have hz : f = 0 ∨ 65535 < f := by unfold Flag.Valid at hv; omega
    cases h with
    | short c h1 h2 h3 =>
      have h0 : c.toNat = 0 := by omega
      simp [ruleFlag, ruleFlagShort, isAsciiB_iff.2 h1, h2, h3, h0, tryFlagFromU16, Except.map]
    | utf8 c h1 h2 =>
      rcases hz with h0 | h0
      · simp [ruleFlag, ruleFlagUtf8, h1, h2, h0, tryFlagFromU16, tryFlagFromU32, tryFlagFromChar, Except.map]
      · have h0' : c.toNat ≠ 0 := by omega
        simp [ruleFlag, ruleFlagUtf8, h1, h2, h0, h0', tryFlagFromU32, tryFlagFromChar, u16Max, Except.map]
    | long order a b ha hb ha' hb' =>
      have h1 : twoBytes order a.toNat b.toNat = 0 := by
        rcases order <;> simp only [twoBytes] at hz ⊢ <;> omega
      have h0 : a.toNat = 0 ∧ b.toNat = 0 := by
        rcases order <;> simp only [twoBytes] at h1 <;> omega
      rw [if_pos h1]
      cases order <;> simp [ruleFlag, ruleFlagLong, ruleLongChar, isAsciiB_iff.2 ha, isAsciiB_iff.2 hb, ha', hb', h0.1, h0.2,
        bind, Except.bind, fromNeBytes, tryFlagFromU16, throw, throwThe, MonadExceptOf.throw, pure, Except.pure]
    | numeric ds hne hd =>
      have h1 : ruleDigits [] (ds ++ ')' :: rest) = .ok (ds, rest) :=
        ruleDigits_ok.2 ⟨ds, by simp, rfl, hd, hne⟩
      have h2 : '(' :: ds ++ [')'] ++ rest = '(' :: (ds ++ ')' :: rest) := by simp
      rw [h2]
      simp only [ruleFlag, ↓reduceIte, ruleFlagNum, h1, bind, Except.bind]
      have hb : AfterPlus ds ds := .inr ⟨rfl, fun t _ h => by
        have := hd '+' (by rw [h]; simp)
        exact absurd this (by decide)⟩
      rcases hz with h0 | h0
      · rw [parseNumFlag_error.2 (.zero (.numeric ((isNumeral_digits hne hd).2 h0.symm)))]
        simp [h0, throw, throwThe, MonadExceptOf.throw]
      · rw [parseNumFlag_error.2 (.number (.tooLarge (rest := []) (by simpa using hb) hd h0))]
        rw [if_neg (by omega), if_pos h0]
        simp [throw, throwThe, MonadExceptOf.throw]

theorem ruleFlag_nonAscii {ty : FlagType} {s : Str} {c : Char} (h : NonAscii ty s c) :
    ruleFlag ty s = .error (.parseFlag (.nonAscii c)) := by
  have na : ∀ c : Char, 128 ≤ c.toNat → Char.isAsciiB c = false := by
    intro c hc
    cases hb : Char.isAsciiB c with
    | false => rfl
    | true => have := isAsciiB_iff.1 hb; omega
  cases h with
  | short h => simp [ruleFlag, ruleFlagShort, na _ h, Except.map]
  | first h => simp [ruleFlag, ruleFlagLong, ruleLongChar, na _ h, bind, Except.bind]
  | second h1 h2 h3 =>
    simp [ruleFlag, ruleFlagLong, ruleLongChar, isAsciiB_iff.2 h1, h2, na _ h3, bind, Except.bind]

theorem nonAscii_not_spelled {ty : FlagType} {s name rest : Str} {c : Char} {f : Nat} (h : NonAscii ty s c)
    (hs : s = name ++ rest) (h' : RuleFlagText ty name f) : False := by
  cases h with
  | short h => cases h' with | short _ h1 => cases hs; omega
  | first h => cases h' with | long _ _ h1 => cases hs; omega
  | second _ _ h => cases h' with | long _ _ h1 h2 => cases hs; omega

theorem ruleDigits_error {s : Str} : ∀ {number : Str} {e : RuleError}, ruleDigits number s = .error e →
    e = .invalidFormat := by
  induction s with
  | nil => intro number e h; cases h; rfl
  | cons c s ih =>
    intro number e h
    rw [ruleDigits] at h
    split at h
    · exact ih h
    · split at h
      · cases h
      · cases h; rfl

theorem ruleFlag_unspelled {ty : FlagType} {s : Str}
    (h : ∀ name f rest, s = name ++ rest → ¬ RuleFlagText ty name f) (hn : ∀ c, ¬ NonAscii ty s c) :
    ruleFlag ty s = .error .invalidFormat := by
  have asc : ∀ c : Char, Char.isAsciiB c = false → 128 ≤ c.toNat := by
    intro c hc
    by_contra hlt
    rw [isAsciiB_iff.2 (by omega)] at hc; cases hc
  cases s with
  | nil => rfl
  | cons c s =>
    cases ty with
    | short =>
      cases ha : Char.isAsciiB c with
      | false => exact absurd (.short (asc c ha)) (hn c)
      | true =>
        by_cases hc : c ≠ '?' ∧ c ≠ '*'
        · exact absurd (.short c (isAsciiB_iff.1 ha) hc.1 hc.2) (h [c] _ s rfl)
        · simp only [ruleFlag, ruleFlagShort, ha, Bool.not_true, Bool.false_eq_true, ↓reduceIte, if_neg hc,
            Except.map]
    | utf8 =>
      by_cases hc : c ≠ '?' ∧ c ≠ '*'
      · exact absurd (.utf8 c hc.1 hc.2) (h [c] _ s rfl)
      · simp only [ruleFlag, ruleFlagUtf8, if_neg hc, Except.map]
    | long =>
      simp only [ruleFlag]
      by_cases hp : c = '('
      · subst hp
        rw [if_pos rfl]
        have one : ∀ o : Option Char, (∃ a, o = some a ∧ a.toNat < 128 ∧ a ≠ ')' ∧ ruleLongChar o = .ok a) ∨
            (ruleLongChar o = .error .invalidFormat) ∨ ∃ a, o = some a ∧ 128 ≤ a.toNat := by
          intro o
          cases o with
          | none => exact .inr (.inl rfl)
          | some a =>
            cases ha : Char.isAsciiB a with
            | false => exact .inr (.inr ⟨a, rfl, asc a ha⟩)
            | true =>
              by_cases hb : a = ')'
              · subst hb; exact .inr (.inl rfl)
              · exact .inl ⟨a, rfl, isAsciiB_iff.1 ha, hb, ruleLongChar_ok.2 ⟨rfl, isAsciiB_iff.1 ha, hb⟩⟩
        unfold ruleFlagLong
        rcases one s.head? with ⟨a, e1, e2, e3, e4⟩ | e4 | ⟨a, e1, e2⟩
        · obtain ⟨s, rfl⟩ : ∃ t, s = a :: t := by
            cases s with
            | nil => simp at e1
            | cons x t => simp at e1; exact ⟨t, by rw [e1]⟩
          rw [e4]
          simp only [List.tail_cons]
          rcases one s.head? with ⟨b, f1, f2, f3, f4⟩ | f4 | ⟨b, f1, f2⟩
          · obtain ⟨s, rfl⟩ : ∃ t, s = b :: t := by
              cases s with
              | nil => simp at f1
              | cons x t => simp at f1; exact ⟨t, by rw [f1]⟩
            rw [f4]
            simp only [List.tail_cons, bind, Except.bind]
            by_cases hq : s.head? = some ')'
            · obtain ⟨s, rfl⟩ : ∃ t, s = ')' :: t := by
                cases s with
                | nil => simp at hq
                | cons x t => simp at hq; exact ⟨t, by rw [hq]⟩
              exact absurd (.long _ a b e2 f2 e3 f3) (h ['(', a, b, ')'] _ s rfl)
            · simp only [ne_eq, hq, not_false_eq_true, ↓reduceIte, throw, throwThe, MonadExceptOf.throw]
          · rw [f4]; rfl
          · obtain ⟨s, rfl⟩ : ∃ t, s = b :: t := by
              cases s with
              | nil => simp at f1
              | cons x t => simp at f1; exact ⟨t, by rw [f1]⟩
            exact absurd (.second e2 e3 f2) (hn b)
        · rw [e4]; rfl
        · obtain ⟨s, rfl⟩ : ∃ t, s = a :: t := by
            cases s with
            | nil => simp at e1
            | cons x t => simp at e1; exact ⟨t, by rw [e1]⟩
          exact absurd (.first e2) (hn a)
      · rw [if_neg hp]
    | numeric =>
      simp only [ruleFlag]
      by_cases hp : c = '('
      · subst hp
        rw [if_pos rfl]
        unfold ruleFlagNum
        cases hd : ruleDigits [] s with
        | error e => rw [ruleDigits_error hd]; rfl
        | ok p =>
          obtain ⟨ds, rest⟩ := p
          obtain ⟨more, e1, rfl, e3, e4⟩ := ruleDigits_ok.1 hd
          simp only [List.nil_append] at e1
          subst e1
          exact absurd (.numeric ds e4 e3) (h ('(' :: ds ++ [')']) _ rest (by simp))
      · rw [if_neg hp]

theorem ruleFlag_error {ty : FlagType} {s : Str} {e : RuleError} :
    ruleFlag ty s = .error e ↔ RuleFlagFault ty s e := by
  by_cases hsp : ∃ name f rest, s = name ++ rest ∧ RuleFlagText ty name f
  · obtain ⟨name, f, rest, rfl, h⟩ := hsp
    constructor
    · intro he
      rw [ruleFlag_spelled h] at he
      split at he
      · rename_i h0; subst h0; cases he; exact .zero h
      · split at he
        · rename_i h1
          cases he
          by_cases hu : ty = .utf8
          · rw [if_pos hu]; exact .large hu h h1
          · rw [if_neg hu]
            refine .number ?_ h h1
            cases h with
            | short c hc => omega
            | utf8 => exact absurd rfl hu
            | long order a b ha hb => cases order <;> simp only [twoBytes] at h1 <;> omega
            | numeric => rfl
        · cases he
    · intro hf
      generalize hs : name ++ rest = t at hf
      cases hf with
      | nonAscii hn => exact (nonAscii_not_spelled hn hs.symm h).elim
      | unspelled hn => exact absurd h (hn _ _ _ hs.symm)
      | zero h' => rw [ruleFlag_spelled h']; rfl
      | large hu h' h1 => rw [ruleFlag_spelled h', if_neg (by omega), if_pos h1, if_pos hu]
      | number hu h' h1 =>
        rw [ruleFlag_spelled h', if_neg (by omega), if_pos h1, if_neg (by rw [hu]; simp)]
  · have hsp' : ∀ name f rest, s = name ++ rest → ¬ RuleFlagText ty name f :=
      fun name f rest h1 h2 => hsp ⟨name, f, rest, h1, h2⟩
    by_cases hna : ∃ c, NonAscii ty s c
    · obtain ⟨c, hc⟩ := hna
      rw [ruleFlag_nonAscii hc]
      simp only [Except.error.injEq]
      constructor
      · rintro rfl; exact .nonAscii hc
      · intro hf
        cases hf with
        | nonAscii hn =>
          have e1 := ruleFlag_nonAscii hc
          rw [ruleFlag_nonAscii hn] at e1
          cases e1; rfl
        | unspelled _ h => exact absurd hc (h c)
        | zero h => exact absurd h (hsp' _ _ _ rfl)
        | large _ h => exact absurd h (hsp' _ _ _ rfl)
        | number _ h => exact absurd h (hsp' _ _ _ rfl)
    · have hna' : ∀ c, ¬ NonAscii ty s c := fun c hc => hna ⟨c, hc⟩
      rw [ruleFlag_unspelled hsp' hna']
      simp only [Except.error.injEq]
      constructor
      · rintro rfl; exact .unspelled hsp' hna'
      · intro hf
        cases hf with
        | nonAscii hn => exact absurd hn (hna' _)
        | unspelled => rfl
        | zero h => exact absurd h (hsp' _ _ _ rfl)
        | large _ h => exact absurd h (hsp' _ _ _ rfl)
        | number _ h => exact absurd h (hsp' _ _ _ rfl)

theorem takeModifier_rest {rest : Str} (h : (takeModifier rest).1 = none) :
    (takeModifier rest).2.head? ≠ some '?' ∧ (takeModifier rest).2.head? ≠ some '*' := by
  unfold takeModifier at *
  split at h
  · cases h
  · cases h
  · rename_i h1 h2
    simp only
    cases rest with
    | nil => simp
    | cons c r =>
      simp only [List.head?_cons, ne_eq, Option.some.injEq]
      exact ⟨fun hc => h1 r (by rw [hc]), fun hc => h2 r (by rw [hc])⟩

theorem takeModifier_of {m : Option RuleModifier} {rest : Str}
    (h : m = none → rest.head? ≠ some '?' ∧ rest.head? ≠ some '*') :
    takeModifier (modifierText m ++ rest) = (m, rest) := by
  cases m with
  | none => exact takeModifier_text none (h rfl)
  | some m => cases m <;> rfl

theorem ruleFault_ne {ty : FlagType} {s : Str} {e : RuleError} (h : RuleFault ty s e) : s ≠ [] := by
  cases h with
  | here h _ => exact h
  | later h =>
    obtain ⟨c, r, rfl, -⟩ := h.head
    simp

theorem ruleLoopText_error {ty : FlagType} : ∀ {fuel : Nat} {s : Str} {e : RuleError}, s.length ≤ fuel →
    (ruleLoopText ty fuel s = .error e ↔ RuleFault ty s e) := by
  intro fuel
  induction fuel with
  | zero =>
    intro s e hs
    obtain rfl : s = [] := List.length_eq_zero_iff.1 (by omega)
    rw [ruleLoopText]
    constructor
    · intro h; cases h
    · intro h; exact absurd rfl (ruleFault_ne h)
  | succ fuel ih =>
    intro s e hs
    cases s with
    | nil =>
      rw [ruleLoopText]
      constructor
      · intro h; cases h
      · intro h; exact absurd rfl (ruleFault_ne h)
    | cons ch s =>
      rw [ruleLoopText]
      cases h : ruleFlag ty (ch :: s) with
      | error e' =>
        simp only [bind, Except.bind, Except.error.injEq]
        constructor
        · rintro rfl; exact .here (by simp) (ruleFlag_error.1 h)
        · intro hf
          generalize hcs : ch :: s = t at hf
          cases hf with
          | here _ h1 =>
            subst hcs
            rw [ruleFlag_error.2 h1] at h; cases h; rfl
          | later h1 h2 =>
            rw [hcs, List.append_assoc] at h
            rw [ruleFlag_ok.2 ⟨_, rfl, h1, h2⟩] at h; cases h
      | ok p =>
        obtain ⟨f, rest⟩ := p
        obtain ⟨name, hs', hn, hf⟩ := ruleFlag_ok.1 h
        simp only [bind, Except.bind, pure, Except.pure]
        have hlen : (takeModifier rest).2.length ≤ fuel := by
          obtain ⟨c, r, rfl, -⟩ := hn.head
          have h1 := congrArg List.length hs'
          have h2 := congrArg List.length (takeModifier_split rest)
          simp at h1 h2 hs
          omega
        have step : RuleFault ty (ch :: s) e ↔ RuleFault ty (takeModifier rest).2 e := by
          constructor
          · intro hf
            generalize hcs : ch :: s = t at hf
            cases hf with
            | here _ h1 =>
              subst hcs
              rw [ruleFlag_error.2 h1] at h; cases h
            | later h1 h2 h3 h4 =>
              rw [hcs, List.append_assoc, ruleFlag_ok.2 ⟨_, rfl, h1, h2⟩] at h
              simp only [Except.ok.injEq, Prod.mk.injEq] at h
              obtain ⟨rfl, rfl⟩ := h
              rw [takeModifier_of h3]
              exact h4
          · intro h1
            have := RuleFault.later (modifier := (takeModifier rest).1) hn hf takeModifier_rest h1
            rwa [List.append_assoc, ← takeModifier_split rest, ← hs'] at this
        rw [step, ← ih hlen]
        cases ruleLoopText ty fuel (takeModifier rest).2 with
        | error e' => simp
        | ok r => simp

theorem parseCompoundRule_error {ty : FlagType} {s : Str} {e : RuleError} :
    parseCompoundRule s ty = .error e ↔ RuleFault ty s e :=
  ruleLoopText_error (Nat.le_refl _)

/-! ## Conditions -/

namespace Condition

theorem bracket_elem {s cs s3 : Str} (h : (takeCaret s).2 = cs ++ ']' :: s3) (hne : cs ≠ [])
    (hb : ']' ∉ cs) : ∃ x : CondElem, x.WellFormed ∧ '[' :: s = x.render ++ s3 := by
  by_cases hc : ∃ t, s = '^' :: t
  · obtain ⟨t, rfl⟩ := hc
    rw [takeCaret_caret] at h
    simp only at h
    subst h
    exact ⟨.noneOf cs, ⟨hne, hb⟩, by simp [CondElem.render]⟩
  · have : takeCaret s = (false, s) := by
      unfold takeCaret
      split
      · rename_i t; exact absurd ⟨t, rfl⟩ hc
      · rfl
    rw [this] at h
    simp only at h
    subst h
    refine ⟨.oneOf cs, ⟨hne, hb, ?_⟩, by simp [CondElem.render]⟩
    cases cs with
    | nil => exact absurd rfl hne
    | cons a cs =>
      intro ha
      simp only [List.head?_cons, Option.some.injEq] at ha
      exact hc ⟨cs ++ ']' :: s3, by rw [ha]; rfl⟩

theorem scanChars_elem {x : CondElem} (hx : x.WellFormed) (s : Str) (n : Nat) :
    scanChars (x.render ++ s) n = scanChars s (n + 1) := by
  cases x with
  | lit c => exact scanChars_cons hx.2.1 hx.2.2
  | any => exact scanChars_cons (by decide) (by decide)
  | oneOf cs =>
    obtain ⟨h1, h2, h3⟩ := hx
    have : (CondElem.oneOf cs).render ++ s = '[' :: (cs ++ ']' :: s) := by simp [CondElem.render]
    rw [this, scanChars_bracket, takeCaret_of_head h1 h3]
    simp only [(takeWhile_ne_append h2).1, (takeWhile_ne_append h2).2]
    simp [h1]
  | noneOf cs =>
    obtain ⟨h1, h2⟩ := hx
    have : (CondElem.noneOf cs).render ++ s = '[' :: ('^' :: cs ++ ']' :: s) := by simp [CondElem.render]
    rw [this, scanChars_bracket]
    simp only [List.cons_append, takeCaret_caret, (takeWhile_ne_append h2).1, (takeWhile_ne_append h2).2]
    simp [h1]

theorem scanChars_append {es : List CondElem} (hwf : ∀ e ∈ es, e.WellFormed) (rest : Str) :
    ∀ n, ∃ m, scanChars (renderCond es ++ rest) n = scanChars rest m := by
  induction es with
  | nil => exact fun n => ⟨n, rfl⟩
  | cons x es ih =>
    intro n
    obtain ⟨m, hm⟩ := ih (fun e he => hwf e (by simp [he])) (n + 1)
    refine ⟨m, ?_⟩
    have hr : renderCond (x :: es) ++ rest = x.render ++ (renderCond es ++ rest) := by
      simp [renderCond]
    rw [hr, scanChars_elem (hwf x (by simp)), hm]

theorem conditionFault_cons {x : CondElem} (hx : x.WellFormed) {s : Str} {e : ConditionError}
    (h : ConditionFault s e) : ConditionFault (x.render ++ s) e := by
  have hr : ∀ es rest, x.render ++ (renderCond es ++ rest) = renderCond (x :: es) ++ rest := by
    intro es rest; simp [renderCond]
  have hw : ∀ es : List CondElem, (∀ e ∈ es, e.WellFormed) → ∀ e ∈ x :: es, e.WellFormed := by
    intro es h e he
    rcases List.mem_cons.1 he with rfl | he
    · exact hx
    · exact h e he
  cases h with
  | unopened h => rw [hr]; exact .unopened (hw _ h)
  | unclosed h h1 => rw [hr]; exact .unclosed (hw _ h) h1
  | empty h => rw [hr]; exact .empty (hw _ h)
  | emptyNone h => rw [hr]; exact .emptyNone (hw _ h)

theorem fault_of_scanChars : ∀ {s : Str} {n : Nat} {e : ConditionError}, scanChars s n = .error e →
    ConditionFault s e := by
  intro s
  induction hl : s.length using Nat.strongRecOn generalizing s with
  | ind l ih =>
    intro n e h
    cases s with
    | nil => rw [scanChars_nil] at h; cases h
    | cons c s =>
      simp only [List.length_cons] at hl
      by_cases h1 : c = '['
      · subst h1
        rw [scanChars_bracket] at h
        split at h
        · rename_i hs
          cases h
          have : s = [] := by simpa using hs
          subst this
          exact .unclosed (es := []) (by simp) (by simp)
        · generalize hcut : (takeCaret s).2 = s2 at h
          split at h
          · rename_i hd
            cases h
            refine .unclosed (es := []) (by simp) ?_
            have h2 : ']' ∉ s2 := by
              intro hm
              have := List.dropWhile_eq_nil_iff.1 hd _ hm
              simp at this
            by_cases hc : ∃ t, s = '^' :: t
            · obtain ⟨t, rfl⟩ := hc
              rw [takeCaret_caret] at hcut
              simp only at hcut
              subst hcut
              simpa using h2
            · have : takeCaret s = (false, s) := by
                unfold takeCaret
                split
                · exact absurd ⟨_, rfl⟩ hc
                · rfl
              rw [this] at hcut
              simp only at hcut
              rw [hcut]; exact h2
          · rename_i b s3 hd
            have hb : b = ']' := by simpa using dropWhile_head hd
            subst hb
            have hs2 : s2 = s2.takeWhile (· ≠ ']') ++ ']' :: s3 := by
              conv => lhs; rw [← List.takeWhile_append_dropWhile (p := (· ≠ ']')) (l := s2)]
              rw [hd]
            have hmem : ']' ∉ s2.takeWhile (· ≠ ']') := by
              intro hm
              have := of_mem_takeWhile hm
              simp at this
            generalize hcs : s2.takeWhile (· ≠ ']') = cs at *
            split at h
            · rename_i hempty
              cases h
              have : cs = [] := by simpa using hempty
              subst this
              simp only [List.nil_append] at hs2
              subst hs2
              by_cases hc : ∃ t, s = '^' :: t
              · obtain ⟨t, rfl⟩ := hc
                rw [takeCaret_caret] at hcut
                simp only at hcut
                subst hcut
                exact .emptyNone (es := []) (by simp)
              · have : takeCaret s = (false, s) := by
                  unfold takeCaret
                  split
                  · exact absurd ⟨_, rfl⟩ hc
                  · rfl
                rw [this] at hcut
                simp only at hcut
                subst hcut
                exact .empty (es := []) (by simp)
            · rename_i hne
              have hlen2 : s2.length ≤ s.length := by rw [← hcut]; exact takeCaret_length s
              have hlen3 : s3.length < s2.length := by rw [hs2]; simp; omega
              obtain ⟨x, hx, hr⟩ := bracket_elem (hcut.trans hs2) (by simpa using hne) hmem
              rw [hr]
              exact conditionFault_cons hx (ih s3.length (by omega) rfl h)
      · by_cases h2 : c = ']'
        · subst h2
          rw [scanChars_close] at h
          cases h
          exact .unopened (es := []) (by simp)
        · rw [scanChars_cons h1 h2] at h
          have hf := ih s.length (by omega) rfl h
          by_cases h3 : c = '.'
          · subst h3; exact conditionFault_cons (x := .any) trivial hf
          · exact conditionFault_cons (x := .lit c) ⟨h3, h1, h2⟩ hf

theorem parse_error {s : Str} {e : ConditionError} : parse s = .error e ↔ ConditionFault s e := by
  have hp : parse s = .error e ↔ scanChars s 0 = .error e := by
    unfold parse
    cases scanChars s 0 with
    | error e' =>
      constructor
      · intro h; cases h; rfl
      · intro h; cases h; rfl
    | ok n =>
      constructor
      · intro h; cases h
      · intro h; cases h
  rw [hp]
  constructor
  · exact fault_of_scanChars
  · intro h
    cases h with
    | unopened h =>
      obtain ⟨m, hm⟩ := scanChars_append h _ 0
      rw [hm, scanChars_close]
    | @unclosed es rest h h1 =>
      obtain ⟨m, hm⟩ := scanChars_append h ('[' :: rest) 0
      rw [hm, scanChars_bracket]
      split
      · rfl
      · have : (takeCaret rest).2.dropWhile (· ≠ ']') = [] := by
          rw [List.dropWhile_eq_nil_iff]
          intro c hc
          have hc' : c ∈ rest := by
            unfold takeCaret at hc
            split at hc
            · exact List.mem_cons_of_mem _ hc
            · exact hc
          simp only [ne_eq, decide_not, Bool.not_eq_eq_eq_not, Bool.not_true, decide_eq_false_iff_not]
          rintro rfl
          exact h1 hc'
        rw [this]
    | @empty es rest h =>
      obtain ⟨m, hm⟩ := scanChars_append h ('[' :: ']' :: rest) 0
      rw [hm, scanChars_bracket]
      simp [takeCaret]
    | @emptyNone es rest h =>
      obtain ⟨m, hm⟩ := scanChars_append h ('[' :: '^' :: ']' :: rest) 0
      rw [hm, scanChars_bracket]
      simp [takeCaret]

end Condition

end Spellbook
