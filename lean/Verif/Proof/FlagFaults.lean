import Verif.Proof.FlagText
import Verif.Proof.FlagSet
import Verif.Spec.FlagFaults
/-!
# Errors of numbers and flags, and `AF` numbers
-/

namespace Spellbook
open Spec

/-! ## Numbers -/

theorem digit?_none {c : Char} : digit? c = none ↔ ¬ Digit c := by
  unfold digit? Digit
  split
  · rename_i h; simp [h]
  · rename_i h; simpa using h

/-- The loop on the text `s` that follows digits of value `acc`. -/
theorem digitsLoop_error {max : Nat} {s : Str} : ∀ {acc : Nat}, acc ≤ max → ∀ {e : IntError},
    (digitsLoop max acc s = .error e ↔
      (e = .invalidDigit ∧ ∃ ds c rest, s = ds ++ c :: rest ∧ (∀ d ∈ ds, Digit d) ∧ ¬ Digit c ∧
        ds.foldl (fun v c => 10 * v + (c.toNat - 48)) acc ≤ max) ∨
      (e = .posOverflow ∧ ∃ ds rest, s = ds ++ rest ∧ (∀ d ∈ ds, Digit d) ∧
        max < ds.foldl (fun v c => 10 * v + (c.toNat - 48)) acc)) := by
  induction s with
  | nil =>
    intro acc hacc e
    simp only [digitsLoop, reduceCtorEq, List.nil_eq, List.append_eq_nil_iff, and_false, false_and,
      exists_false, false_or, false_iff, not_and, not_exists]
    rintro - ds rest ⟨rfl, rfl⟩ -
    simpa using hacc
  | cons c s ih =>
    intro acc hacc e
    rw [digitsLoop]
    cases hd : digit? c with
    | none =>
      have hc := digit?_none.1 hd
      simp only [Except.error.injEq]
      constructor
      · rintro rfl
        exact .inl ⟨rfl, [], c, s, rfl, by simp, hc, hacc⟩
      · rintro (⟨rfl, -⟩ | ⟨-, ds, rest, h, h1, h2⟩)
        · rfl
        · cases ds with
          | nil => exact absurd h2 (by simpa using hacc)
          | cons d ds =>
            simp only [List.cons_append, List.cons.injEq] at h
            exact absurd (h.1 ▸ h1 d (by simp)) hc
    | some d =>
      obtain ⟨hc, rfl⟩ := digit?_some.1 hd
      have e1 : acc * 10 + (c.toNat - 48) = 10 * acc + (c.toNat - 48) := by omega
      simp only [e1]
      split
      · rename_i h
        simp only [Except.error.injEq]
        constructor
        · rintro rfl
          exact .inr ⟨rfl, [c], s, rfl, by rintro d hd; rw [List.mem_singleton.1 hd]; exact hc, by simpa using h⟩
        · rintro (⟨-, ds, c', rest, h1, h2, h3, h4⟩ | ⟨rfl, -⟩)
          · cases ds with
            | nil =>
              simp only [List.nil_append, List.cons.injEq] at h1
              exact absurd (h1.1 ▸ hc) h3
            | cons d ds =>
              simp only [List.cons_append, List.cons.injEq] at h1
              obtain ⟨rfl, -⟩ := h1
              have := decimal_from ds (10 * acc + (c.toNat - 48))
              simp only [List.foldl_cons] at h4
              omega
          · rfl
      · rename_i h
        rw [ih (by omega)]
        constructor
        · rintro (⟨h1, ds, c', rest, rfl, h2, h3, h4⟩ | ⟨h1, ds, rest, rfl, h2, h3⟩)
          · exact .inl ⟨h1, c :: ds, c', rest, rfl, by
              intro d hd; rcases List.mem_cons.1 hd with rfl | hd
              · exact hc
              · exact h2 d hd, h3, h4⟩
          · exact .inr ⟨h1, c :: ds, rest, rfl, by
              intro d hd; rcases List.mem_cons.1 hd with rfl | hd
              · exact hc
              · exact h2 d hd, h3⟩
        · rintro (⟨h1, ds, c', rest, h5, h2, h3, h4⟩ | ⟨h1, ds, rest, h5, h2, h3⟩)
          · cases ds with
            | nil =>
              simp only [List.nil_append, List.cons.injEq] at h5
              exact absurd (h5.1 ▸ hc) h3
            | cons d ds =>
              simp only [List.cons_append, List.cons.injEq] at h5
              obtain ⟨rfl, rfl⟩ := h5
              exact .inl ⟨h1, ds, c', rest, rfl, fun d hd => h2 d (by simp [hd]), h3, h4⟩
          · cases ds with
            | nil => simp only [List.foldl_nil] at h3; omega
            | cons d ds =>
              simp only [List.cons_append, List.cons.injEq] at h5
              obtain ⟨rfl, rfl⟩ := h5
              exact .inr ⟨h1, ds, rest, rfl, fun d hd => h2 d (by simp [hd]), h3⟩

theorem numberFault_body {max : Nat} {s body : Str} (hne : s ≠ []) (hb : ∀ b, AfterPlus s b ↔ b = body)
    {e : IntError} : NumberFault max s e ↔ digitsLoop max 0 body = .error e := by
  rw [digitsLoop_error (Nat.zero_le _)]
  constructor
  · intro h
    cases h with
    | empty => exact absurd rfl hne
    | character h1 h2 h3 h4 => exact .inl ⟨rfl, _, _, _, ((hb _).1 h1).symm, h2, h3, h4⟩
    | tooLarge h1 h2 h3 => exact .inr ⟨rfl, _, _, ((hb _).1 h1).symm, h2, h3⟩
  · rintro (⟨rfl, ds, c, rest, h1, h2, h3, h4⟩ | ⟨rfl, ds, rest, h1, h2, h3⟩)
    · exact .character ((hb _).2 h1.symm) h2 h3 h4
    · exact .tooLarge ((hb _).2 h1.symm) h2 h3

theorem parseUInt_error {max : Nat} {s : Str} {e : IntError} :
    parseUInt max s = .error e ↔ NumberFault max s e := by
  unfold parseUInt
  split
  · constructor
    · intro h; cases h; exact .empty
    · intro h
      cases h with
      | empty => rfl
      | character h1 => rcases h1 with ⟨h, -⟩ | ⟨h, -⟩ <;> simp at h
      | @tooLarge _ ds _ h1 _ h3 =>
        rcases h1 with ⟨h, -⟩ | ⟨h, -⟩
        · simp at h
        · have : ds = [] := by simp at h; exact h.1
          subst this; simp [decimal] at h3
  · rw [numberFault_body (body := ['+']) (by simp)]
    · rfl
    · intro b
      constructor
      · rintro (⟨h, h1⟩ | ⟨h, -⟩)
        · simp at h; exact absurd h h1
        · exact h.symm
      · rintro rfl
        exact .inr ⟨rfl, fun t ht h => by simp at h; exact ht h⟩
  · rw [numberFault_body (body := ['-']) (by simp)]
    · rfl
    · intro b
      constructor
      · rintro (⟨h, h1⟩ | ⟨h, -⟩)
        · simp at h
        · exact h.symm
      · rintro rfl
        exact .inr ⟨rfl, fun t ht h => by simp at h⟩
  · rename_i ds h1
    have hne : ds ≠ [] := fun h => h1 (by simp [h])
    rw [numberFault_body (body := ds) (by simp)]
    intro b
    constructor
    · rintro (⟨h, -⟩ | ⟨-, h⟩)
      · simpa using h.symm
      · exact absurd rfl (h ds hne)
    · rintro rfl; exact .inl ⟨rfl, hne⟩
  · rename_i h0 h1 h2 h3
    rw [numberFault_body (body := s) h0]
    intro b
    constructor
    · rintro (⟨h, -⟩ | ⟨h, -⟩)
      · exact absurd h (h3 b)
      · exact h.symm
    · rintro rfl; exact .inr ⟨rfl, fun t _ h => h3 t h⟩

/-! ## Flags -/

theorem parseNumFlag_error {s : Str} {e : FlagError} :
    parseNumFlag s = .error e ↔ FlagFault .numeric s e := by
  unfold parseNumFlag
  cases h : parseUInt u16Max s with
  | error e' =>
    have hf := parseUInt_error.1 h
    simp only [Except.error.injEq]
    constructor
    · rintro rfl; exact .number hf
    · intro h'
      cases h' with
      | zero h1 =>
        cases h1 with
        | numeric h1 => rw [parseUInt_ok.2 ⟨h1, Nat.zero_le _⟩] at h; cases h
      | number h1 =>
        have h1 : parseUInt u16Max s = _ := parseUInt_error.2 h1
        rw [h1] at h; cases h; rfl
  | ok n =>
    have hn := parseUInt_ok.1 h
    simp only [tryFlagFromU16]
    constructor
    · intro h'
      split at h'
      · rename_i h0; subst h0; cases h'; exact .zero (.numeric hn.1)
      · cases h'
    · intro h'
      cases h' with
      | zero h1 =>
        cases h1 with
        | numeric h1 =>
          rw [parseUInt_ok.2 ⟨h1, Nat.zero_le _⟩] at h; cases h; rfl
      | number h1 =>
        have h1 : parseUInt u16Max s = _ := parseUInt_error.2 h1
        rw [h1] at h; cases h

theorem parseFlag?_error {ty : FlagType} {s : Str} {e : FlagError} (hs : s ≠ []) :
    parseFlag? ty s = some (.error e) ↔ FlagFault ty s e := by
  have zero : ∀ n : Nat, tryFlagFromU16 n = .error e ↔ e = .zeroFlag ∧ n = 0 := by
    intro n
    unfold tryFlagFromU16
    split
    · rename_i h; simp [h, eq_comm]
    · rename_i h; simp [h]
  unfold parseFlag?
  rw [if_neg (by simpa using hs)]
  cases ty with
  | short =>
    cases hb : utf8 s with
    | nil =>
      constructor
      · intro h; cases h
      · intro h
        cases h with
        | zero h => generalize hz : (0 : Nat) = z at h; cases h with | short h => rw [hb] at h; cases h
    | cons b bs =>
      simp only [Option.some.injEq, zero]
      constructor
      · rintro ⟨rfl, h⟩; exact .zero (h ▸ .short hb)
      · intro h
        cases h with
        | zero h =>
          generalize hz : (0 : Nat) = z at h
          cases h with
          | short h => rw [hb] at h; cases h; exact ⟨rfl, rfl⟩
  | long order =>
    have two : ∀ a b bs, utf8 s = a :: b :: bs →
        (some (tryFlagFromU16 (fromNeBytes order a b)) = some (.error e) ↔ FlagFault (.long order) s e) := by
      intro a b bs hb
      simp only [Option.some.injEq, zero, fromNeBytes_eq]
      constructor
      · rintro ⟨rfl, h⟩; exact .zero (h ▸ .long hb)
      · intro h
        cases h with
        | zero h =>
          generalize hz : (0 : Nat) = z at h
          cases h with
          | long h => rw [hb] at h; cases h; exact ⟨rfl, rfl⟩
        | half h => rw [hb] at h; simp at h; omega
    match hb : utf8 s with
    | a :: b :: bs => exact two a b bs hb
    | [] =>
      simp only [Option.some.injEq, Except.error.injEq]
      constructor
      · rintro rfl; exact .half (by simp [hb])
      · intro h
        cases h with
        | zero h => generalize hz : (0 : Nat) = z at h; cases h with | long h => rw [hb] at h; cases h
        | half => rfl
    | [a] =>
      simp only [Option.some.injEq, Except.error.injEq]
      constructor
      · rintro rfl; exact .half (by simp [hb])
      · intro h
        cases h with
        | zero h => generalize hz : (0 : Nat) = z at h; cases h with | long h => rw [hb] at h; cases h
        | half => rfl
  | numeric => simp only [Option.some.injEq, parseNumFlag_error]
  | utf8 =>
    cases hb : utf16 s with
    | nil => exact absurd (utf16_eq_nil.1 hb) hs
    | cons b bs =>
      simp only [Option.some.injEq, zero]
      constructor
      · rintro ⟨rfl, h⟩; exact .zero (h ▸ .utf8 (utf16_iff.2 hb))
      · intro h
        cases h with
        | zero h =>
          generalize hz : (0 : Nat) = z at h
          cases h with
          | utf8 h => rw [utf16_iff, hb] at h; cases h; exact ⟨rfl, rfl⟩

theorem tryFlags_error {vs : List Nat} {e : FlagError} : tryFlags vs = .error e ↔ e = .zeroFlag ∧ 0 ∈ vs := by
  induction vs with
  | nil => simp [tryFlags]
  | cons v vs ih =>
    rw [tryFlags]
    unfold tryFlagFromU16
    by_cases hv : v = 0
    · subst hv; simp [eq_comm]
    · rw [if_neg hv]
      simp only
      cases h : tryFlags vs with
      | error e' =>
        rw [h] at ih
        simp only [Except.error.injEq] at ih ⊢
        rw [ih]
        simp [Ne.symm hv]
      | ok l =>
        rw [h] at ih
        simp only [reduceCtorEq, false_iff] at ih ⊢
        simpa [Ne.symm hv] using ih

theorem longFlags_error {order : ByteOrder} : ∀ {bs : List UInt8} {e : FlagError}, bs.length % 2 = 0 →
    (longFlags order bs = .error e ↔ e = .zeroFlag ∧ ∃ l, BytePairs order bs l ∧ 0 ∈ l)
  | [], e, _ => by
    simp only [longFlags, reduceCtorEq, false_iff]
    rintro ⟨-, l, h, h0⟩
    cases h; simp at h0
  | [_], _, h => by simp at h
  | a :: b :: rest, e, h => by
    have ih := longFlags_error (order := order) (bs := rest) (e := e) (by simp at h; omega)
    rw [longFlags]
    have pairs : (∃ l, BytePairs order (a :: b :: rest) l ∧ 0 ∈ l) ↔
        twoBytes order a.toNat b.toNat = 0 ∨ ∃ l, BytePairs order rest l ∧ 0 ∈ l := by
      constructor
      · rintro ⟨l, h1, h2⟩
        cases h1 with
        | cons _ _ h1 =>
          rcases List.mem_cons.1 h2 with h2 | h2
          · exact .inl h2.symm
          · exact .inr ⟨_, h1, h2⟩
      · rintro (h1 | ⟨l, h1, h2⟩)
        · have : ∀ (n : Nat) (bs : List UInt8), bs.length = n → bs.length % 2 = 0 → ∃ l, BytePairs order bs l := by
            intro n
            induction n using Nat.strongRecOn with
            | ind n ih =>
              intro bs hn hb
              match bs with
              | [] => exact ⟨[], .nil⟩
              | [_] => simp at hb
              | x :: y :: bs =>
                obtain ⟨l, hl⟩ := ih bs.length (by simp at hn; omega) bs rfl (by simp at hb; omega)
                exact ⟨_, .cons x y hl⟩
          obtain ⟨l, hl⟩ := this rest.length rest rfl (by simp at h; omega)
          exact ⟨_, .cons a b hl, by simp [h1]⟩
        · exact ⟨_, .cons a b h1, by simp [h2]⟩
    rw [pairs]
    rw [fromNeBytes_eq]
    unfold tryFlagFromU16
    by_cases hv : twoBytes order a.toNat b.toNat = 0
    · rw [if_pos hv]; simp [hv, eq_comm]
    · rw [if_neg hv]
      simp only [hv, false_or, ← ih]
      cases longFlags order rest with
      | error e' => simp
      | ok l => simp

theorem flagFault_not_ok {s : Str} {e : FlagError} {f : Nat} (h : FlagFault .numeric s e)
    (h1 : FlagOf .numeric s f) (h2 : Flag.Valid f) : False := by
  have e1 := parseNumFlag_error.2 h
  cases h1 with
  | numeric h1 =>
    rw [parseNumFlag_ok.2 ⟨h1, h2⟩] at e1
    cases e1

theorem comma_split {a b rest rest' : Str} (ha : ',' ∉ a) (hb : ',' ∉ b)
    (h : a ++ ',' :: rest = b ++ ',' :: rest') : a = b ∧ rest = rest' := by
  have h1 := (splitOnce?_char (s := a ++ ',' :: rest)).2 ⟨rfl, ha⟩
  have h2 := (splitOnce?_char (s := b ++ ',' :: rest')).2 ⟨rfl, hb⟩
  rw [h, h2] at h1
  simpa using h1.symm

theorem numFlags_error : ∀ {fuel : Nat} {s : Str} {e : FlagError}, s.length < fuel →
    (numFlags fuel s = .error e ↔ NumbersFault s e) := by
  intro fuel
  induction fuel with
  | zero => intro s e h; omega
  | succ fuel ih =>
    intro s e hf
    rw [numFlags]
    cases hs : splitOnce? [','] s with
    | none =>
      have hn := splitOnce?_char_none.1 hs
      simp only
      have key : NumbersFault s e ↔ FlagFault .numeric s e := by
        constructor
        · intro h
          cases h with
          | last _ h => exact h
          | _ => simp at hn
        · exact .last hn
      rw [key, ← parseNumFlag_error]
      cases parseNumFlag s with
      | error e' => simp
      | ok f => simp
    | some p =>
      obtain ⟨a, rest⟩ := p
      obtain ⟨rfl, ha⟩ := splitOnce?_char.1 hs
      simp only
      by_cases hr : rest.head? = some ','
      · rw [if_pos hr]
        obtain ⟨r, rfl⟩ : ∃ r, rest = ',' :: r := by
          cases rest with
          | nil => simp at hr
          | cons c r => simp at hr; exact ⟨r, by rw [hr]⟩
        simp only [Except.error.injEq]
        constructor
        · rintro rfl; exact .commas ha
        · intro h
          generalize hX : a ++ ',' :: ',' :: r = X at h
          cases h with
          | commas h => rfl
          | first h1 h2 =>
            obtain ⟨-, rfl⟩ := comma_split ha h1 hX
            simp at h2
          | later h1 h2 =>
            obtain ⟨-, rfl⟩ := comma_split ha h1 hX
            simp at h2
          | last h => rw [← hX] at h; simp at h
      · rw [if_neg hr]
        have hl : rest.length < fuel := by simp at hf; omega
        have key : NumbersFault (a ++ ',' :: rest) e ↔ FlagFault .numeric a e ∨
            ∃ f, FlagOf .numeric a f ∧ Flag.Valid f ∧ NumbersFault rest e := by
          constructor
          · intro h
            generalize hX : a ++ ',' :: rest = X at h
            cases h with
            | commas h =>
              obtain ⟨-, rfl⟩ := comma_split ha h hX
              simp at hr
            | first h1 h2 h3 =>
              obtain ⟨rfl, rfl⟩ := comma_split ha h1 hX
              exact .inl h3
            | later h1 h2 h3 h4 h5 =>
              obtain ⟨rfl, rfl⟩ := comma_split ha h1 hX
              exact .inr ⟨_, h3, h4, h5⟩
            | last h => rw [← hX] at h; simp at h
          · rintro (h | ⟨f, h1, h2, h3⟩)
            · exact .first ha hr h
            · exact .later ha hr h1 h2 h3
        rw [key]
        cases hp : parseNumFlag a with
        | error e' =>
          have h1 := parseNumFlag_error.1 hp
          simp only [Except.error.injEq]
          constructor
          · rintro rfl; exact .inl h1
          · rintro (h | ⟨f, h2, h3, -⟩)
            · rw [parseNumFlag_error.2 h] at hp; cases hp; rfl
            · exact (flagFault_not_ok h1 h2 h3).elim
        | ok f =>
          obtain ⟨h1, h2⟩ := parseNumFlag_ok.1 hp
          simp only
          have ih' := ih (e := e) hl
          have key2 : NumbersFault rest e ↔ FlagFault .numeric a e ∨
              ∃ f, FlagOf .numeric a f ∧ Flag.Valid f ∧ NumbersFault rest e := ?_
          rw [← key2, ← ih']
          · cases numFlags fuel rest <;> simp
          constructor
          · intro h; exact .inr ⟨f, .numeric h1, h2, h⟩
          · rintro (h | ⟨_, _, _, h⟩)
            · exact (flagFault_not_ok h (.numeric h1) h2).elim
            · exact h

theorem parseFlags_error {ty : FlagType} {s : Str} {e : FlagError} :
    parseFlags ty s = .error e ↔ FlagsFault ty s e := by
  have hm : parseFlags ty s = .error e ↔ parseFlagList ty s = .error e := by
    unfold parseFlags
    cases parseFlagList ty s <;> simp [Except.map]
  rw [hm]
  unfold parseFlagList
  by_cases hs : s = []
  · subst hs
    simp only [List.isEmpty_nil, ↓reduceIte, reduceCtorEq, false_iff]
    intro h
    generalize hX : ([] : Str) = X at h
    cases h with
    | zero hn h h0 =>
      cases h with
      | empty => simp at h0
      | short => subst hX; simp [utf8] at h0
      | long h =>
        subst hX
        simp only [utf8, List.flatMap_nil] at h
        cases h; simp at h0
      | numeric => exact hn rfl
      | utf8 h => subst hX; cases h; simp at h0
    | half h => subst hX; simp [utf8] at h
    | numbers h => exact h hX.symm
  · rw [if_neg (by simpa using hs)]
    cases ty with
    | short =>
      rw [tryFlags_error]
      constructor
      · rintro ⟨rfl, h⟩; exact .zero (by simp) (.short s) h
      · intro h
        cases h with
        | zero _ h h0 =>
          cases h with
          | empty => exact absurd rfl hs
          | short => exact ⟨rfl, h0⟩
    | long =>
      have hb : byteLen s = (utf8 s).length := rfl
      simp only
      by_cases ho : (utf8 s).length % 2 = 1
      · rw [if_pos (by rw [hb]; exact ho)]
        simp only [Except.error.injEq]
        constructor
        · rintro rfl; exact .half ho
        · intro h
          cases h with
          | zero _ h h0 =>
            cases h with
            | empty => exact absurd rfl hs
            | long h => have := h.even; omega
          | half => rfl
      · rw [if_neg (by rw [hb]; exact ho), longFlags_error (by omega)]
        constructor
        · rintro ⟨rfl, l, h1, h2⟩; exact .zero (by simp) (.long h1) h2
        · intro h
          cases h with
          | zero _ h h0 =>
            cases h with
            | empty => exact absurd rfl hs
            | long h => exact ⟨rfl, _, h, h0⟩
          | half h => exact absurd h ho
    | numeric =>
      rw [numFlags_error (Nat.lt_succ_self _)]
      constructor
      · exact .numbers hs
      · intro h
        cases h with
        | zero h => exact absurd rfl h
        | numbers _ h => exact h
    | utf8 =>
      rw [tryFlags_error]
      constructor
      · rintro ⟨rfl, h⟩; exact .zero (by simp) (.utf8 (utf16_spec s)) h
      · intro h
        cases h with
        | zero _ h h0 =>
          cases h with
          | empty => exact absurd rfl hs
          | utf8 h => rw [utf16_iff] at h; rw [h]; exact ⟨rfl, h0⟩

theorem decodeFlagset_error {ty : FlagType} {al : List FlagSet} {s : Str} {e : FlagError} :
    decodeFlagset s ty al = .error e ↔ AliasFault ty al s e := by
  unfold decodeFlagset AliasFault
  by_cases hn : ty = .numeric ∨ al.isEmpty = true
  · rw [if_pos hn, parseFlags_error]
    constructor
    · refine fun h => ⟨hn.imp id fun hn i _ _ => ?_, h⟩
      rw [List.isEmpty_iff.1 hn]; simp
    · exact fun h => h.2
  · rw [if_neg hn]
    have hty : ty ≠ .numeric := fun h => hn (.inl h)
    cases hi : aliasIndex? s al.length with
    | some i =>
      obtain ⟨h1, h2, h3, h4⟩ := aliasIndex?_some.1 hi
      simp only [reduceCtorEq, false_iff]
      rintro ⟨h | h, -⟩
      · exact hty h
      · obtain ⟨i, rfl⟩ : ∃ j, i = j + 1 := ⟨i - 1, by omega⟩
        have := h i h1 (by omega)
        omega
    | none =>
      simp only [parseFlags_error]
      constructor
      · intro h
        refine ⟨.inr fun i h1 h2 => ?_, h⟩
        by_contra h3
        have := (aliasIndex?_some (n := al.length)).2 ⟨h1, by omega, by omega, by omega⟩
        rw [hi] at this; cases this
      · exact fun h => h.2

theorem aliasFlags_iff {ty : FlagType} {al : List FlagSet} {s : Str} {F : FlagSet} :
    AliasFlags ty al s F ↔ decodeFlagset s ty al = .ok F := by
  have text : (∃ l, FlagsOf ty s l ∧ (∀ f ∈ l, Flag.Valid f) ∧ ∀ f, F.contains f = true ↔ f ∈ l) ↔
      parseFlags ty s = .ok F := by
    rw [parseFlags_ok]
    constructor
    · rintro ⟨l, h1, h2, h3⟩
      refine ⟨l, h1, h2, FlagSet.ext fun f => ?_⟩
      rw [Bool.eq_iff_iff, h3, FlagSet.contains_ofList]
    · rintro ⟨l, h1, h2, rfl⟩
      exact ⟨l, h1, h2, fun f => FlagSet.contains_ofList⟩
  unfold decodeFlagset
  by_cases hn : ty = .numeric ∨ al.isEmpty = true
  · rw [if_pos hn, ← text]
    constructor
    · intro h
      cases h with
      | byNumber i h1 h2 h3 h4 =>
        rcases hn with hn | hn
        · exact absurd hn h1
        · rw [List.isEmpty_iff.1 hn] at h4; simp at h4
      | text l h1 h2 h3 h4 => exact ⟨l, h2, h3, h4⟩
    · rintro ⟨l, h2, h3, h4⟩
      refine .text l (hn.imp id fun hn i _ _ => ?_) h2 h3 h4
      rw [List.isEmpty_iff.1 hn]; simp
  · rw [if_neg hn]
    have hty : ty ≠ .numeric := fun h => hn (.inl h)
    cases hi : aliasIndex? s al.length with
    | some i =>
      obtain ⟨h1, h2, h3, h4⟩ := aliasIndex?_some.1 hi
      obtain ⟨i, rfl⟩ : ∃ j, i = j + 1 := ⟨i - 1, by omega⟩
      simp only [Nat.add_sub_cancel, Except.ok.injEq]
      have hget : al[i]? = some (al.getD i FlagSet.empty) := by
        rw [List.getElem?_eq_getElem (by omega)]
        simp [List.getD, List.getElem?_eq_getElem (show i < al.length by omega)]
      constructor
      · intro h
        cases h with
        | byNumber j h5 h6 h7 h8 =>
          have : j + 1 = i + 1 := by
            have e1 := parseUInt_ok.2 ⟨h6, show j + 1 ≤ 65535 by omega⟩
            have e2 := parseUInt_ok.2 ⟨h1, h2⟩
            rw [e1] at e2; cases e2; rfl
          obtain rfl : j = i := by omega
          rw [hget] at h8
          simpa using h8
        | text l h5 =>
          rcases h5 with h5 | h5
          · exact absurd h5 hty
          · have := h5 i h1 (by omega); omega
      · rintro rfl
        exact .byNumber i hty h1 (by omega) hget
    | none =>
      have hno : ∀ i, IsNumeral s (i + 1) → i < 65535 → al.length ≤ i := by
        intro i h1 h2
        by_contra h3
        have := (aliasIndex?_some (n := al.length)).2 ⟨h1, by omega, by omega, by omega⟩
        rw [hi] at this; cases this
      simp only
      rw [← text]
      constructor
      · intro h
        cases h with
        | byNumber j h5 h6 h7 h8 =>
          have h9 := hno j h6 h7
          have := (List.getElem?_eq_some_iff.1 h8).1
          omega
        | text l h1 h2 h3 h4 => exact ⟨l, h2, h3, h4⟩
      · rintro ⟨l, h2, h3, h4⟩
        exact .text l (.inr hno) h2 h3 h4

end Spellbook
