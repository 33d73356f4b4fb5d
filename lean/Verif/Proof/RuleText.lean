import Verif.Spec.RuleText
import Verif.Model.AffText
import Verif.Proof.FlagText
import Verif.Proof.Tables
import Mathlib.Data.List.TakeWhile
/-!
# Compound rule texts, similarity group texts and lines
-/

namespace Spellbook
open Spec

/-! ## Compound rules -/

theorem takeModifier_text (m : Option RuleModifier) {rest : Str}
    (h : rest.head? ≠ some '?' ∧ rest.head? ≠ some '*') :
    takeModifier (modifierText m ++ rest) = (m, rest) := by
  cases m with
  | none =>
    show takeModifier rest = _
    cases rest with
    | nil => rfl
    | cons c rest =>
      simp only [List.head?_cons, ne_eq, Option.some.injEq] at h
      unfold takeModifier
      split
      · rename_i hc; cases hc; exact absurd rfl h.1
      · rename_i hc; cases hc; exact absurd rfl h.2
      · rfl
  | some m => cases m <;> rfl

theorem takeModifier_split (s : Str) :
    s = modifierText (takeModifier s).1 ++ (takeModifier s).2 := by
  unfold takeModifier
  split <;> rfl

theorem isAsciiB_iff {c : Char} : Char.isAsciiB c = true ↔ c.toNat < 128 := by
  unfold Char.isAsciiB; simp

theorem tryFlagFromU32_ok {v f : Nat} : tryFlagFromU32 v = .ok f ↔ f = v ∧ Flag.Valid f := by
  unfold tryFlagFromU32 Flag.Valid u16Max
  split
  · simp only [reduceCtorEq, false_iff]; rintro ⟨rfl, h⟩; omega
  · rw [tryFlagFromU16_ok]
    constructor
    · rintro ⟨rfl, h⟩; exact ⟨rfl, by omega, by omega⟩
    · rintro ⟨rfl, h⟩; exact ⟨rfl, by omega⟩

theorem ruleFlagShort_ok {c : Char} {f : Nat} :
    ruleFlagShort c = .ok f ↔ RuleFlagText .short [c] f ∧ Flag.Valid f := by
  unfold ruleFlagShort
  have inv : RuleFlagText .short [c] f → c.toNat < 128 ∧ c ≠ '?' ∧ c ≠ '*' ∧ f = c.toNat := by
    intro h; cases h with | short h1 h2 h3 h4 => exact ⟨h2, h3, h4, rfl⟩
  cases ha : Char.isAsciiB c with
  | false =>
    simp only [Bool.not_false, ↓reduceIte, reduceCtorEq, false_iff]
    rintro ⟨h, -⟩
    have := isAsciiB_iff.2 (inv h).1
    rw [ha] at this; cases this
  | true =>
    have hlt := isAsciiB_iff.1 ha
    simp only [Bool.not_true, Bool.false_eq_true, ↓reduceIte]
    split
    · rename_i hc
      cases ht : tryFlagFromU16 c.toNat with
      | error e =>
        simp only [reduceCtorEq, false_iff]
        rintro ⟨h, hv⟩
        obtain ⟨-, -, -, rfl⟩ := inv h
        rw [tryFlagFromU16_ok.2 ⟨rfl, by have := hv.1; omega⟩] at ht; cases ht
      | ok g =>
        obtain ⟨rfl, h0⟩ := tryFlagFromU16_ok.1 ht
        simp only [Except.ok.injEq]
        constructor
        · rintro rfl; exact ⟨.short c hlt hc.1 hc.2, by omega, by omega⟩
        · rintro ⟨h, -⟩; exact (inv h).2.2.2.symm
    · rename_i hc
      simp only [reduceCtorEq, false_iff]
      rintro ⟨h, -⟩
      exact hc ⟨(inv h).2.1, (inv h).2.2.1⟩

theorem ruleFlagUtf8_ok {c : Char} {f : Nat} :
    ruleFlagUtf8 c = .ok f ↔ RuleFlagText .utf8 [c] f ∧ Flag.Valid f := by
  unfold ruleFlagUtf8
  have inv : RuleFlagText .utf8 [c] f → c ≠ '?' ∧ c ≠ '*' ∧ f = c.toNat := by
    intro h; cases h with | utf8 h1 h2 h3 => exact ⟨h2, h3, rfl⟩
  split
  · rename_i hc
    unfold tryFlagFromChar
    cases ht : tryFlagFromU32 c.toNat with
    | error e =>
      simp only [reduceCtorEq, false_iff]
      rintro ⟨h, hv⟩
      obtain ⟨-, -, rfl⟩ := inv h
      rw [tryFlagFromU32_ok.2 ⟨rfl, hv⟩] at ht; cases ht
    | ok g =>
      obtain ⟨rfl, hv⟩ := tryFlagFromU32_ok.1 ht
      simp only [Except.ok.injEq]
      constructor
      · rintro rfl; exact ⟨.utf8 c hc.1 hc.2, hv⟩
      · rintro ⟨h, -⟩; exact (inv h).2.2.symm
  · rename_i hc
    simp only [reduceCtorEq, false_iff]
    rintro ⟨h, -⟩
    exact hc ⟨(inv h).1, (inv h).2.1⟩

theorem ruleLongChar_ok {o : Option Char} {c : Char} :
    ruleLongChar o = .ok c ↔ o = some c ∧ c.toNat < 128 ∧ c ≠ ')' := by
  unfold ruleLongChar
  cases o with
  | none => simp
  | some d =>
    simp only [Option.some.injEq]
    cases ha : Char.isAsciiB d with
    | false =>
      simp only [Bool.not_false, ↓reduceIte, reduceCtorEq, false_iff]
      rintro ⟨rfl, h, -⟩
      rw [isAsciiB_iff.2 h] at ha; cases ha
    | true =>
      have := isAsciiB_iff.1 ha
      simp only [Bool.not_true, Bool.false_eq_true, ↓reduceIte]
      split
      · rename_i h
        simp only [Except.ok.injEq]
        constructor
        · rintro rfl; exact ⟨rfl, this, h⟩
        · exact fun h => h.1
      · rename_i h
        simp only [reduceCtorEq, false_iff]
        rintro ⟨rfl, -, h'⟩
        exact h h'

theorem ruleFlagLong_ok {order : ByteOrder} {s rest : Str} {f : Nat} : ruleFlagLong order s = .ok (f, rest) ↔
    ∃ a b : Char, s = a :: b :: ')' :: rest ∧ a.toNat < 128 ∧ b.toNat < 128 ∧ a ≠ ')' ∧ b ≠ ')' ∧
      f = twoBytes order a.toNat b.toNat ∧ Flag.Valid f := by
  unfold ruleFlagLong
  have byte : ∀ c : Char, c.toNat < 128 → (UInt8.ofNat c.toNat).toNat = c.toNat := by
    intro c hc; rw [UInt8.toNat_ofNat']; omega
  cases h1 : ruleLongChar s.head? with
  | error e =>
    simp only [bind, Except.bind, reduceCtorEq, false_iff]
    rintro ⟨a, b, rfl, ha, hb, ha', hb', -⟩
    have := (ruleLongChar_ok (o := some a)).2 ⟨rfl, ha, ha'⟩
    exact nomatch h1.symm.trans this
  | ok a =>
    obtain ⟨e1, ha, ha'⟩ := ruleLongChar_ok.1 h1
    cases h2 : ruleLongChar s.tail.head? with
    | error e =>
      simp only [bind, Except.bind, h2, reduceCtorEq, false_iff]
      rintro ⟨a, b, rfl, ha, hb, ha', hb', -⟩
      have := (ruleLongChar_ok (o := some b)).2 ⟨rfl, hb, hb'⟩
      exact nomatch h2.symm.trans this
    | ok b =>
      obtain ⟨e2, hb, hb'⟩ := ruleLongChar_ok.1 h2
      simp only [bind, Except.bind, h2]
      cases s with
      | nil => cases e1
      | cons a₀ s =>
        cases e1
        cases s with
        | nil => cases e2
        | cons b₀ s =>
          cases e2
          simp only [List.tail_cons]
          cases s with
          | nil => simp [throw, throwThe, MonadExceptOf.throw]
          | cons p s =>
            by_cases hp : p = ')'
            · subst hp
              simp only [List.head?_cons, ne_eq, not_true_eq_false, ↓reduceIte, pure, Except.pure,
                fromNeBytes_eq, byte a ha, byte b hb, List.tail_cons]
              have same : (∃ a' b' : Char, a :: b :: ')' :: s = a' :: b' :: ')' :: rest ∧ a'.toNat < 128 ∧
                  b'.toNat < 128 ∧ a' ≠ ')' ∧ b' ≠ ')' ∧ f = twoBytes order a'.toNat b'.toNat ∧ Flag.Valid f) ↔
                  s = rest ∧ f = twoBytes order a.toNat b.toNat ∧ Flag.Valid f := by
                constructor
                · rintro ⟨a', b', h, -, -, -, -, h', hv⟩
                  cases h
                  exact ⟨rfl, h', hv⟩
                · rintro ⟨rfl, h, hv⟩
                  exact ⟨a, b, rfl, ha, hb, ha', hb', h, hv⟩
              rw [same]
              cases ht : tryFlagFromU16 (twoBytes order a.toNat b.toNat) with
              | error e =>
                simp only [throw, throwThe, MonadExceptOf.throw, reduceCtorEq, false_iff]
                rintro ⟨-, h, hv⟩
                rw [tryFlagFromU16_ok.2 ⟨h, by have := hv.1; omega⟩] at ht; cases ht
              | ok g =>
                obtain ⟨rfl, h0⟩ := tryFlagFromU16_ok.1 ht
                simp only [Except.ok.injEq, Prod.mk.injEq]
                constructor
                · rintro ⟨rfl, rfl⟩
                  exact ⟨rfl, rfl, by omega, by cases order <;> simp only [twoBytes] <;> omega⟩
                · rintro ⟨rfl, rfl, -⟩
                  exact ⟨rfl, rfl⟩
            · simp only [List.head?_cons, ne_eq, Option.some.injEq, hp, not_false_eq_true, ↓reduceIte,
                throw, throwThe, MonadExceptOf.throw, reduceCtorEq, false_iff]
              rintro ⟨a', b', h, -⟩
              simp only [List.cons.injEq] at h
              exact hp h.2.2.1

theorem ruleDigits_ok {s : Str} : ∀ {number ds rest : Str}, ruleDigits number s = .ok (ds, rest) ↔
    ∃ more, ds = number ++ more ∧ s = more ++ ')' :: rest ∧ (∀ c ∈ more, '0' ≤ c ∧ c ≤ '9') ∧ ds ≠ [] := by
  induction s with
  | nil => intro number ds rest; simp [ruleDigits]
  | cons ch s ih =>
    intro number ds rest
    rw [ruleDigits]
    split
    · rename_i hd
      rw [ih]
      constructor
      · rintro ⟨more, rfl, rfl, h, hne⟩
        exact ⟨ch :: more, by simp, by simp, by simpa using ⟨hd, h⟩, hne⟩
      · rintro ⟨more, rfl, hs, h, hne⟩
        cases more with
        | nil =>
          simp only [List.nil_append, List.cons.injEq] at hs
          exact absurd (hs.1 ▸ hd) (by decide)
        | cons c more =>
          simp only [List.cons_append, List.cons.injEq] at hs
          obtain ⟨rfl, rfl⟩ := hs
          exact ⟨more, by simp, rfl, fun c hc => h c (by simp [hc]), hne⟩
    · rename_i hd
      have only : ∀ more : Str, ch :: s = more ++ ')' :: rest → (∀ c ∈ more, '0' ≤ c ∧ c ≤ '9') →
          more = [] ∧ ch = ')' ∧ s = rest := by
        intro more hs h
        cases more with
        | nil => simp only [List.nil_append, List.cons.injEq] at hs; exact ⟨rfl, hs⟩
        | cons c more =>
          simp only [List.cons_append, List.cons.injEq] at hs
          exact absurd (hs.1 ▸ h c (by simp)) hd
      split
      · rename_i hc
        simp only [Except.ok.injEq, Prod.mk.injEq]
        constructor
        · rintro ⟨rfl, rfl⟩
          exact ⟨[], by simp, by simp [hc.1], by simp, hc.2⟩
        · rintro ⟨more, rfl, hs, h, hne⟩
          obtain ⟨rfl, -, rfl⟩ := only more hs h
          exact ⟨by simp, rfl⟩
      · rename_i hc
        simp only [reduceCtorEq, false_iff]
        rintro ⟨more, rfl, hs, h, hne⟩
        obtain ⟨rfl, rfl, rfl⟩ := only more hs h
        exact hc ⟨rfl, by simpa using hne⟩

theorem isNumeral_digits {ds : Str} {n : Nat} (hne : ds ≠ []) (h : ∀ c ∈ ds, '0' ≤ c ∧ c ≤ '9') :
    IsNumeral ds n ↔ n = decimal ds := by
  constructor
  · rintro ⟨es, he | he, h1, h2, h3⟩
    · rw [he]; exact h3
    · exact absurd (h '+' (by rw [he]; simp)) (by decide)
  · rintro rfl; exact ⟨ds, .inl rfl, hne, h, rfl⟩

theorem ruleFlagNum_ok {s rest : Str} {f : Nat} : ruleFlagNum s = .ok (f, rest) ↔
    ∃ ds : Str, s = ds ++ ')' :: rest ∧ ds ≠ [] ∧ (∀ c ∈ ds, '0' ≤ c ∧ c ≤ '9') ∧ f = decimal ds ∧
      Flag.Valid f := by
  unfold ruleFlagNum
  cases h1 : ruleDigits [] s with
  | error e =>
    simp only [bind, Except.bind, reduceCtorEq, false_iff]
    rintro ⟨ds, rfl, hne, h, -⟩
    rw [ruleDigits_ok.2 ⟨ds, by simp, rfl, h, hne⟩] at h1; cases h1
  | ok p =>
    obtain ⟨ds, r⟩ := p
    obtain ⟨more, e, hs, hd, hne⟩ := ruleDigits_ok.1 h1
    simp only [List.nil_append] at e
    subst e
    simp only [bind, Except.bind]
    have same : (∃ es : Str, s = es ++ ')' :: rest ∧ es ≠ [] ∧ (∀ c ∈ es, '0' ≤ c ∧ c ≤ '9') ∧
        f = decimal es ∧ Flag.Valid f) ↔ r = rest ∧ IsNumeral ds f ∧ Flag.Valid f := by
      rw [isNumeral_digits hne hd]
      constructor
      · rintro ⟨es, h, hne', h', hf, hv⟩
        have := ruleDigits_ok.2 ⟨es, (List.nil_append es).symm, h, h', hne'⟩
        rw [h1] at this
        cases this
        exact ⟨rfl, hf, hv⟩
      · rintro ⟨rfl, h, hv⟩
        exact ⟨ds, hs, hne, hd, h, hv⟩
    rw [same]
    cases ht : parseNumFlag ds with
    | error e =>
      simp only [throw, throwThe, MonadExceptOf.throw, reduceCtorEq, false_iff]
      rintro ⟨-, h⟩
      rw [parseNumFlag_ok.2 h] at ht; cases ht
    | ok g =>
      simp only [pure, Except.pure, Except.ok.injEq, Prod.mk.injEq]
      constructor
      · rintro ⟨rfl, rfl⟩; exact ⟨rfl, parseNumFlag_ok.1 ht⟩
      · rintro ⟨rfl, h⟩
        rw [parseNumFlag_ok.2 h] at ht; cases ht; exact ⟨rfl, rfl⟩

theorem ruleFlag_ok {ty : FlagType} {s rest : Str} {f : Nat} : ruleFlag ty s = .ok (f, rest) ↔
    ∃ name, s = name ++ rest ∧ RuleFlagText ty name f ∧ Flag.Valid f := by
  have ne : ∀ {ty name f}, RuleFlagText ty name f → name ≠ [] := by
    intro ty name f h; cases h <;> simp
  cases s with
  | nil =>
    simp only [ruleFlag, reduceCtorEq, false_iff]
    rintro ⟨name, h, h', -⟩
    exact ne h' (List.append_eq_nil_iff.1 h.symm).1
  | cons ch s =>
    unfold ruleFlag
    cases ty with
    | short =>
      cases h : ruleFlagShort ch with
      | error e =>
        simp only [Except.map, h, reduceCtorEq, false_iff]
        rintro ⟨name, hs, ht, hv⟩
        cases ht with
        | short c h1 h2 h3 =>
          cases hs
          rw [ruleFlagShort_ok.2 ⟨.short _ h1 h2 h3, hv⟩] at h; cases h
      | ok g =>
        simp only [Except.map, h, Except.ok.injEq, Prod.mk.injEq]
        constructor
        · rintro ⟨rfl, rfl⟩
          exact ⟨[ch], rfl, ruleFlagShort_ok.1 h⟩
        · rintro ⟨name, hs, ht, hv⟩
          cases ht with
          | short c h1 h2 h3 =>
            cases hs
            rw [ruleFlagShort_ok.2 ⟨.short _ h1 h2 h3, hv⟩] at h; cases h
            exact ⟨rfl, rfl⟩
    | utf8 =>
      cases h : ruleFlagUtf8 ch with
      | error e =>
        simp only [Except.map, h, reduceCtorEq, false_iff]
        rintro ⟨name, hs, ht, hv⟩
        cases ht with
        | utf8 c h1 h2 =>
          cases hs
          rw [ruleFlagUtf8_ok.2 ⟨.utf8 _ h1 h2, hv⟩] at h; cases h
      | ok g =>
        simp only [Except.map, h, Except.ok.injEq, Prod.mk.injEq]
        constructor
        · rintro ⟨rfl, rfl⟩
          exact ⟨[ch], rfl, ruleFlagUtf8_ok.1 h⟩
        · rintro ⟨name, hs, ht, hv⟩
          cases ht with
          | utf8 c h1 h2 =>
            cases hs
            rw [ruleFlagUtf8_ok.2 ⟨.utf8 _ h1 h2, hv⟩] at h; cases h
            exact ⟨rfl, rfl⟩
    | long =>
      simp only
      split
      · rename_i hc
        subst hc
        rw [ruleFlagLong_ok]
        constructor
        · rintro ⟨a, b, rfl, ha, hb, ha', hb', rfl, hv⟩
          exact ⟨['(', a, b, ')'], rfl, .long _ a b ha hb ha' hb', hv⟩
        · rintro ⟨name, hs, ht, hv⟩
          cases ht with
          | long _ a b ha hb ha' hb' =>
            cases hs
            exact ⟨a, b, rfl, ha, hb, ha', hb', rfl, hv⟩
      · rename_i hc
        simp only [reduceCtorEq, false_iff]
        rintro ⟨name, hs, ht, -⟩
        cases ht with
        | long => cases hs; exact hc rfl
    | numeric =>
      simp only
      split
      · rename_i hc
        subst hc
        rw [ruleFlagNum_ok]
        constructor
        · rintro ⟨ds, rfl, hne, h, rfl, hv⟩
          exact ⟨'(' :: ds ++ [')'], by simp, .numeric ds hne h, hv⟩
        · rintro ⟨name, hs, ht, hv⟩
          cases ht with
          | numeric ds hne h =>
            simp only [List.cons_append, List.append_assoc, List.cons.injEq, true_and, List.nil_append] at hs
            exact ⟨ds, hs, hne, h, rfl, hv⟩
      · rename_i hc
        simp only [reduceCtorEq, false_iff]
        rintro ⟨name, hs, ht, -⟩
        cases ht with
        | numeric => cases hs; exact hc rfl

theorem Spec.RuleFlagText.head {ty : FlagType} {name : Str} {f : Nat} (h : RuleFlagText ty name f) :
    ∃ c r, name = c :: r ∧ c ≠ '?' ∧ c ≠ '*' := by
  cases h with
  | short c _ h1 h2 => exact ⟨c, [], rfl, h1, h2⟩
  | utf8 c h1 h2 => exact ⟨c, [], rfl, h1, h2⟩
  | long a b => exact ⟨'(', _, rfl, by decide, by decide⟩
  | numeric ds => exact ⟨'(', _, rfl, by decide, by decide⟩

theorem Spec.RuleText.head {ty : FlagType} {s : Str} {rule : CompoundRule} (h : RuleText ty s rule) :
    s.head? ≠ some '?' ∧ s.head? ≠ some '*' := by
  cases h with
  | nil => simp
  | cons h _ =>
    obtain ⟨c, r, rfl, h1, h2⟩ := h.head
    simpa using ⟨h1, h2⟩

theorem ruleLoopText_ok {ty : FlagType} : ∀ {fuel : Nat} {s : Str} {rule : CompoundRule}, s.length ≤ fuel →
    (ruleLoopText ty fuel s = .ok rule ↔ RuleText ty s rule ∧ ∀ e ∈ rule, Flag.Valid e.flag) := by
  have ne : ∀ {rule : CompoundRule}, RuleText ty [] rule → rule = [] := by
    intro rule h
    generalize hs : ([] : Str) = s at h
    cases h with
    | nil => rfl
    | cons h _ =>
      obtain ⟨c, r, rfl, -⟩ := h.head
      cases hs
  have base : ∀ {rule : CompoundRule}, (Except.ok (ε := RuleError) [] = .ok rule ↔
      RuleText ty [] rule ∧ ∀ e ∈ rule, Flag.Valid e.flag) := by
    intro rule
    rw [Except.ok.injEq]
    constructor
    · rintro rfl; exact ⟨.nil, by simp⟩
    · rintro ⟨h, -⟩; exact (ne h).symm
  intro fuel
  induction fuel with
  | zero =>
    intro s rule hs
    obtain rfl : s = [] := List.length_eq_zero_iff.1 (by omega)
    rw [ruleLoopText]; exact base
  | succ fuel ih =>
    intro s rule hs
    cases s with
    | nil => rw [ruleLoopText]; exact base
    | cons ch s =>
      rw [ruleLoopText]
      cases h : ruleFlag ty (ch :: s) with
      | error e =>
        simp only [bind, Except.bind, reduceCtorEq, false_iff]
        rintro ⟨ht, hv⟩
        generalize hcs : ch :: s = t at ht
        cases ht with
        | nil => cases hcs
        | @cons name flag m rest rule h1 h2 =>
          have := (ruleFlag_ok (s := ch :: s)).2 ⟨name, by rw [hcs, List.append_assoc], h1, hv _ (List.mem_cons_self ..)⟩
          rw [h] at this; cases this
      | ok p =>
        obtain ⟨f, rest⟩ := p
        obtain ⟨name, hs', hn, hf⟩ := ruleFlag_ok.1 h
        simp only [bind, Except.bind, pure, Except.pure]
        have hlen : (takeModifier rest).2.length ≤ fuel := by
          obtain ⟨c, r, rfl, -⟩ := hn.head
          have h1 := congrArg List.length hs'
          have h2 := congrArg List.length (takeModifier_split rest)
          simp at h1 h2 hs
          omega
        have step : (RuleText ty (ch :: s) rule ∧ ∀ e ∈ rule, Flag.Valid e.flag) ↔
            ∃ rule', rule = { flag := f, modifier := (takeModifier rest).1 } :: rule' ∧
              RuleText ty (takeModifier rest).2 rule' ∧ ∀ e ∈ rule', Flag.Valid e.flag := by
          constructor
          · rintro ⟨ht, hv⟩
            generalize hcs : ch :: s = t at ht
            cases ht with
            | nil => cases hcs
            | @cons name' flag m rest' rule h1 h2 =>
              have := (ruleFlag_ok (s := ch :: s)).2 ⟨name', by rw [hcs, List.append_assoc], h1, hv _ (List.mem_cons_self ..)⟩
              rw [h] at this
              simp only [Except.ok.injEq, Prod.mk.injEq] at this
              obtain ⟨rfl, rfl⟩ := this
              rw [takeModifier_text m h2.head]
              exact ⟨rule, rfl, h2, fun e he => hv e (by simp [he])⟩
          · rintro ⟨rule', rfl, h1, h2⟩
            refine ⟨?_, by simpa using ⟨hf, h2⟩⟩
            have := RuleText.cons (modifier := (takeModifier rest).1) hn h1
            rwa [List.append_assoc, ← takeModifier_split rest, ← hs'] at this
        rw [step]
        cases hl : ruleLoopText ty fuel (takeModifier rest).2 with
        | error e =>
          simp only [reduceCtorEq, false_iff]
          rintro ⟨rule', rfl, h1⟩
          rw [(ih hlen).2 h1] at hl; cases hl
        | ok rule' =>
          simp only [Except.ok.injEq]
          constructor
          · rintro rfl; exact ⟨rule', rfl, (ih hlen).1 hl⟩
          · rintro ⟨rule'', rfl, h1⟩
            rw [(ih hlen).2 h1] at hl; cases hl; rfl

theorem parseCompoundRule_ok {ty : FlagType} {s : Str} {rule : CompoundRule} :
    parseCompoundRule s ty = .ok rule ↔ RuleText ty s rule ∧ ∀ e ∈ rule, Flag.Valid e.flag :=
  ruleLoopText_ok (le_refl _)

/-! ## Similarity groups -/

theorem similarityLoop_text {s : Str} : ∀ {fuel : Nat} {chars : Str} {strings : List Str}, s.length < fuel →
    ∃ g : SimilarityGroup, MapText s g ∧
      similarityLoop fuel s chars strings = (chars ++ g.chars, strings ++ g.strings) := by
  intro fuel
  induction fuel generalizing s with
  | zero => intro chars strings h; omega
  | succ fuel ih =>
    intro chars strings hf
    rw [similarityLoop]
    cases h1 : splitOnce? ['('] s with
    | none =>
      exact ⟨_, .plain (splitOnce?_char_none.1 h1), by simp⟩
    | some p =>
      obtain ⟨before, rest⟩ := p
      obtain ⟨rfl, hb⟩ := splitOnce?_char.1 h1
      simp only
      cases h2 : splitOnce? [')'] rest with
      | none => exact ⟨_, .unclosed hb (splitOnce?_char_none.1 h2), by simp⟩
      | some q =>
        obtain ⟨sub, rest'⟩ := q
        obtain ⟨rfl, hs⟩ := splitOnce?_char.1 h2
        have hl : rest'.length < fuel := by simp at hf; omega
        simp only
        split
        · rename_i hc
          obtain ⟨g, hg, e⟩ := ih (s := rest') (chars := chars ++ before ++ sub) (strings := strings) hl
          refine ⟨{ chars := before ++ sub ++ g.chars, strings := g.strings }, ?_,
            e.trans (by simp only [List.append_assoc])⟩
          have := MapText.char hb hs hc hg
          simpa using this
        · rename_i hc
          obtain ⟨g, hg, e⟩ := ih (s := rest') (chars := chars ++ before) (strings := strings ++ [sub]) hl
          refine ⟨{ chars := before ++ g.chars, strings := sub :: g.strings }, ?_,
            e.trans (by simp only [List.append_assoc, List.cons_append, List.nil_append])⟩
          have := MapText.string hb hs (by omega) hg
          simpa using this

theorem ofText_text (s : Str) : MapText s (SimilarityGroup.ofText s) := by
  obtain ⟨g, hg, e⟩ := similarityLoop_text (s := s) (chars := []) (strings := []) (Nat.lt_succ_self _)
  unfold SimilarityGroup.ofText
  rw [e]
  exact hg

theorem Spec.MapText.unique {s : Str} {g : SimilarityGroup} (h : MapText s g) :
    ∀ {g' : SimilarityGroup}, MapText s g' → g = g' := by
  have cut : ∀ {c : Char} {a b a' b' : Str}, c ∉ a → c ∉ a' → a ++ c :: b = a' ++ c :: b' → a = a' ∧ b = b' := by
    intro c a b a' b' h1 h2 h
    have e := (splitOnce?_char (b := b)).2 ⟨rfl, h1⟩
    rw [h, splitOnce?_char.2 ⟨rfl, h2⟩] at e
    simp only [Option.some.injEq, Prod.mk.injEq] at e
    exact ⟨e.1.symm, e.2.symm⟩
  induction h with
  | plain h1 =>
    rename_i s
    intro g' h
    generalize hs : s = s' at h
    cases h with
    | plain => rfl
    | unclosed => rw [hs] at h1; simp at h1
    | char => rw [hs] at h1; simp at h1
    | string => rw [hs] at h1; simp at h1
  | @unclosed s t h1 h2 =>
    intro g' h
    generalize hs : s ++ '(' :: t = s' at h
    cases h with
    | plain h => rw [← hs] at h; simp at h
    | unclosed h3 h4 => obtain ⟨rfl, rfl⟩ := cut h1 h3 hs; rfl
    | char h3 h4 h5 h6 =>
      simp only [List.append_assoc, List.cons_append] at hs
      obtain ⟨rfl, rfl⟩ := cut h1 h3 hs; simp at h2
    | string h3 h4 h5 h6 =>
      simp only [List.append_assoc, List.cons_append] at hs
      obtain ⟨rfl, rfl⟩ := cut h1 h3 hs; simp at h2
  | @char s t rest cs ss h1 h2 h3 h4 ih =>
    intro g' h
    generalize hs : s ++ '(' :: t ++ ')' :: rest = s' at h
    simp only [List.append_assoc, List.cons_append] at hs
    cases h with
    | plain h => rw [← hs] at h; simp at h
    | unclosed h5 h6 => obtain ⟨rfl, rfl⟩ := cut h1 h5 hs; simp at h6
    | char h5 h6 h7 h8 =>
      simp only [List.append_assoc, List.cons_append] at hs
      obtain ⟨rfl, e⟩ := cut h1 h5 hs
      obtain ⟨rfl, rfl⟩ := cut h2 h6 e
      cases ih h8; rfl
    | string h5 h6 h7 h8 =>
      simp only [List.append_assoc, List.cons_append] at hs
      obtain ⟨rfl, e⟩ := cut h1 h5 hs
      obtain ⟨rfl, rfl⟩ := cut h2 h6 e
      omega
  | @string s t rest cs ss h1 h2 h3 h4 ih =>
    intro g' h
    generalize hs : s ++ '(' :: t ++ ')' :: rest = s' at h
    simp only [List.append_assoc, List.cons_append] at hs
    cases h with
    | plain h => rw [← hs] at h; simp at h
    | unclosed h5 h6 => obtain ⟨rfl, rfl⟩ := cut h1 h5 hs; simp at h6
    | char h5 h6 h7 h8 =>
      simp only [List.append_assoc, List.cons_append] at hs
      obtain ⟨rfl, e⟩ := cut h1 h5 hs
      obtain ⟨rfl, rfl⟩ := cut h2 h6 e
      omega
    | string h5 h6 h7 h8 =>
      simp only [List.append_assoc, List.cons_append] at hs
      obtain ⟨rfl, e⟩ := cut h1 h5 hs
      obtain ⟨rfl, rfl⟩ := cut h2 h6 e
      cases ih h8; rfl

theorem ofText_iff {s : Str} {g : SimilarityGroup} : SimilarityGroup.ofText s = g ↔ MapText s g := by
  constructor
  · rintro rfl; exact ofText_text s
  · exact fun h => (ofText_text s).unique h

/-! ## Lines -/

theorem linesLoop_line {x : Str} (h : '\n' ∉ x) (rest : Str) : ∀ cur,
    linesLoop cur (x ++ '\n' :: rest) = ((stripSuffix? (cur ++ x) ['\r']).getD (cur ++ x)) :: linesLoop [] rest := by
  induction x with
  | nil => intro cur; simp [linesLoop]
  | cons c x ih =>
    intro cur
    rw [List.cons_append, linesLoop, if_neg (by rintro rfl; simp at h), ih (fun h' => h (by simp [h']))]
    simp

theorem linesLoop_rest {x : Str} (h : '\n' ∉ x) : ∀ cur,
    linesLoop cur x = if (cur ++ x).isEmpty then [] else [cur ++ x] := by
  induction x with
  | nil => intro cur; simp [linesLoop]
  | cons c x ih =>
    intro cur
    rw [linesLoop, if_neg (by rintro rfl; simp at h), ih (fun h' => h (by simp [h']))]
    simp

theorem Spec.LinesOf.eq {s : Str} {ls : List Str} (h : LinesOf s ls) : textLines s = ls := by
  unfold textLines
  induction h with
  | nil => rfl
  | last h1 h2 => rw [linesLoop_rest h2]; simp [h1]
  | @lf line rest lines h1 h2 _ ih =>
    rw [linesLoop_line h1, ih, List.nil_append]
    have : stripSuffix? line ['\r'] = none := by
      rw [stripSuffix?_none]
      rintro t rfl
      simp at h2
    rw [this]; rfl
  | @crlf line rest lines h1 _ ih =>
    have e : line ++ '\r' :: '\n' :: rest = (line ++ ['\r']) ++ '\n' :: rest := by simp
    rw [e, linesLoop_line (by simpa using h1), ih, List.nil_append, stripSuffix?_iff.2 rfl]
    rfl

theorem linesOf_exists (s : Str) : ∃ ls, LinesOf s ls := by
  induction hn : s.length using Nat.strong_induction_on generalizing s with
  | _ n ih =>
    by_cases h : '\n' ∈ s
    · obtain ⟨a, b, rfl, ha⟩ := List.eq_append_cons_of_mem h
      obtain ⟨ls, hl⟩ := ih b.length (by simp at hn; omega) b rfl
      by_cases hr : a.getLast? = some '\r'
      · obtain ⟨c, rfl⟩ := List.getLast?_eq_some_iff.1 hr
        have := LinesOf.crlf (fun h => ha (by simp [h])) hl (line := c)
        exact ⟨_, by simpa using this⟩
      · exact ⟨_, .lf ha hr hl⟩
    · by_cases he : s = []
      · subst he; exact ⟨_, .nil⟩
      · exact ⟨_, .last he h⟩

theorem textLines_iff {s : Str} {ls : List Str} : textLines s = ls ↔ LinesOf s ls := by
  constructor
  · rintro rfl
    obtain ⟨ls, h⟩ := linesOf_exists s
    rw [h.eq]; exact h
  · exact fun h => h.eq

/-! ## Words -/

theorem splitWhitespace_words (U : Unicode) (s : Str) : WordsOf U s (splitWhitespace U s) := by
  fun_induction splitWhitespace U s with
  | case1 s h =>
    exact .nil fun c hc => List.dropWhile_eq_nil_iff.1 h c hc
  | case2 s c rest h ih =>
    have e : s = s.takeWhile U.isWs ++ (c :: (takeWord U rest).1) ++ (takeWord U rest).2 := by
      have h1 : rest = (takeWord U rest).1 ++ (takeWord U rest).2 := by
        simp only [takeWord, List.takeWhile_append_dropWhile]
      conv_lhs => rw [← List.takeWhile_append_dropWhile (p := U.isWs) (l := s), h, h1]
      simp
    have hc : U.isWs c = false := by
      have := List.head?_dropWhile_not U.isWs s
      rw [h] at this
      simpa using this
    rw [e]
    have := WordsOf.cons (U := U) (space := s.takeWhile U.isWs) (word := c :: (takeWord U rest).1)
      (rest := (takeWord U rest).2) (fun c hc => List.mem_takeWhile_imp hc) (by simp) (by
        intro d hd
        rcases List.mem_cons.1 hd with rfl | hd
        · exact hc
        · simpa [takeWord] using List.mem_takeWhile_imp hd) (by
        intro d hd
        have h2 := List.head?_dropWhile_not (fun c => !U.isWs c) rest
        simp only [takeWord] at hd
        rw [hd] at h2
        simpa using h2) ih
    exact this

theorem Spec.WordsOf.unique {U : Unicode} {s : Str} {ws : List Str} (h : WordsOf U s ws) :
    ∀ {ws'}, WordsOf U s ws' → ws = ws' := by
  have cut : ∀ {p : Char → Bool} {a b a' b' : Str}, (∀ c ∈ a, p c = true) → (∀ c ∈ a', p c = true) →
      (∀ c, b.head? = some c → p c = false) → (∀ c, b'.head? = some c → p c = false) →
      a ++ b = a' ++ b' → a = a' ∧ b = b' := by
    intro p a b a' b' h1 h2 h3 h4 e
    have key : ∀ {a b : Str}, (∀ c ∈ a, p c = true) → (∀ c, b.head? = some c → p c = false) →
        (a ++ b).takeWhile p = a := by
      intro a b h1 h3
      rw [List.takeWhile_append_of_pos h1]
      cases b with
      | nil => simp
      | cons c b => rw [List.takeWhile_cons_of_neg (by simp [h3 c rfl])]; simp
    have ea : a = a' := by rw [← key h1 h3, e, key h2 h4]
    subst ea
    exact ⟨rfl, List.append_cancel_left e⟩
  have headw : ∀ {word rest : Str}, word ≠ [] → (∀ c ∈ word, U.isWs c = false) →
      ∀ c, (word ++ rest).head? = some c → U.isWs c = false := by
    intro word rest h1 h2 c hc
    cases word with
    | nil => exact absurd rfl h1
    | cons d w => simp at hc; subst hc; exact h2 d (by simp)
  induction h with
  | @nil space h1 =>
    intro ws' h
    generalize hs : space = s at h
    cases h with
    | nil => rfl
    | @cons space' word rest words h2 h3 h4 =>
      exfalso
      cases word with
      | nil => exact h3 rfl
      | cons d w =>
        have := h1 d (by rw [hs]; simp)
        rw [h4 d (by simp)] at this; cases this
  | @cons space word rest words h1 h2 h3 h4 _ ih =>
    intro ws' h
    generalize hs : space ++ word ++ rest = s at h
    cases h with
    | nil h5 =>
      exfalso
      cases word with
      | nil => exact h2 rfl
      | cons d w =>
        have := h5 d (by rw [← hs]; simp)
        rw [h3 d (by simp)] at this; cases this
    | cons h5 h6 h7 h8 h9 =>
      rw [List.append_assoc, List.append_assoc] at hs
      obtain ⟨-, e⟩ := cut h1 h5 (headw h2 h3) (headw h6 h7) hs
      obtain ⟨rfl, rfl⟩ := cut (p := fun c => !U.isWs c) (by simpa using h3) (by simpa using h7)
        (by simpa using h4) (by simpa using h8) e
      rw [ih h9]

theorem splitWhitespace_iff {U : Unicode} {s : Str} {ws : List Str} :
    splitWhitespace U s = ws ↔ WordsOf U s ws := by
  constructor
  · rintro rfl; exact splitWhitespace_words U s
  · exact fun h => (splitWhitespace_words U s).unique h
