import Verif.Spec.FlagText
import Verif.Proof.Utf8
/-!
# Numbers and flags
-/

namespace Spellbook
open Spec

theorem digit?_some {c : Char} {d : Nat} :
    digit? c = some d ↔ ('0' ≤ c ∧ c ≤ '9') ∧ d = c.toNat - 48 := by
  unfold digit?
  split
  · rename_i h; simp [h, eq_comm]
  · rename_i h; simp [h]

theorem decimal_from (ds : Str) (v : Nat) :
    v ≤ ds.foldl (fun v c => 10 * v + (c.toNat - 48)) v := by
  induction ds generalizing v with
  | nil => simp
  | cons c ds ih => exact Nat.le_trans (by omega) (ih (10 * v + (c.toNat - 48)))

theorem digitsLoop_ok {max acc n : Nat} {ds : Str} (hacc : acc ≤ max) :
    digitsLoop max acc ds = .ok n ↔ (∀ c ∈ ds, '0' ≤ c ∧ c ≤ '9') ∧ n ≤ max ∧
      n = ds.foldl (fun v c => 10 * v + (c.toNat - 48)) acc := by
  induction ds generalizing acc with
  | nil =>
    simp only [digitsLoop, Except.ok.injEq, List.foldl_nil, List.not_mem_nil, false_implies,
      implies_true, true_and]
    constructor
    · rintro rfl; exact ⟨hacc, rfl⟩
    · exact fun h => h.2.symm
  | cons c ds ih =>
    rw [digitsLoop]
    cases hd : digit? c with
    | none =>
      simp only [reduceCtorEq, false_iff]
      rintro ⟨h, -⟩
      have := h c (by simp)
      simp [digit?, this] at hd
    | some d =>
      obtain ⟨hc, rfl⟩ := digit?_some.1 hd
      have e : acc * 10 + (c.toNat - 48) = 10 * acc + (c.toNat - 48) := by omega
      simp only [e, List.foldl_cons, List.mem_cons, forall_eq_or_imp]
      split
      · rename_i h
        simp only [reduceCtorEq, false_iff]
        rintro ⟨-, h1, h2⟩
        have := decimal_from ds (10 * acc + (c.toNat - 48))
        omega
      · rename_i h
        rw [ih (by omega)]
        constructor
        · rintro ⟨a, b, c⟩; exact ⟨⟨hc, a⟩, b, c⟩
        · rintro ⟨⟨-, a⟩, b, c⟩; exact ⟨a, b, c⟩

theorem digitsLoop_plus (max acc : Nat) (ds : Str) :
    digitsLoop max acc ('+' :: ds) = .error .invalidDigit := rfl

theorem parseUInt_ok {max n : Nat} {s : Str} : parseUInt max s = .ok n ↔ IsNumeral s n ∧ n ≤ max := by
  unfold parseUInt IsNumeral decimal
  have plus : ¬ ('0' ≤ '+' ∧ '+' ≤ '9') := by decide
  have minus : ¬ ('0' ≤ '-' ∧ '-' ≤ '9') := by decide
  split
  · simp
  · simp only [reduceCtorEq, false_iff]
    rintro ⟨⟨ds, hs | hs, hne, hd, -⟩, -⟩
    · subst hs; exact plus (hd '+' (by simp))
    · simp at hs; exact hne hs
  · simp only [reduceCtorEq, false_iff]
    rintro ⟨⟨ds, hs | hs, hne, hd, -⟩, -⟩
    · subst hs; exact minus (hd '-' (by simp))
    · simp at hs
  · rename_i ds h1
    have hne : ds ≠ [] := fun h => h1 (by simp [h])
    rw [digitsLoop_ok (Nat.zero_le _)]
    constructor
    · rintro ⟨a, b, c⟩; exact ⟨⟨ds, .inr rfl, hne, a, c⟩, b⟩
    · rintro ⟨⟨ds', hs | hs, -, hd, hn⟩, hm⟩
      · subst hs; exact absurd (hd '+' (by simp)) plus
      · simp at hs; subst hs; exact ⟨hd, hm, hn⟩
  · rename_i h0 h1 h2 h3
    rw [digitsLoop_ok (Nat.zero_le _)]
    constructor
    · rintro ⟨a, b, c⟩; exact ⟨⟨s, .inl rfl, h0, a, c⟩, b⟩
    · rintro ⟨⟨ds', hs | hs, -, hd, hn⟩, hm⟩
      · subst hs; exact ⟨hd, hm, hn⟩
      · exact absurd hs (h3 ds')

theorem tryFlagFromU16_ok {v f : Nat} : tryFlagFromU16 v = .ok f ↔ f = v ∧ v ≠ 0 := by
  unfold tryFlagFromU16
  split <;> simp_all [eq_comm]

theorem parseNumFlag_ok {s : Str} {f : Nat} :
    parseNumFlag s = .ok f ↔ IsNumeral s f ∧ Flag.Valid f := by
  unfold parseNumFlag Flag.Valid
  cases h : parseUInt u16Max s with
  | error e =>
    simp only [reduceCtorEq, false_iff]
    rintro ⟨h1, h2, h3⟩
    have h' : parseUInt u16Max s = .ok f := parseUInt_ok.2 ⟨h1, h3⟩
    rw [h'] at h
    simp at h
  | ok n =>
    have hn := parseUInt_ok.1 h
    simp only [tryFlagFromU16_ok]
    constructor
    · rintro ⟨rfl, h0⟩; exact ⟨hn.1, by omega, hn.2⟩
    · rintro ⟨h1, h2, h3⟩
      have := parseUInt_ok.2 ⟨h1, h3⟩
      unfold u16Max at h
      rw [this] at h
      injection h with h
      exact ⟨h, by omega⟩

theorem tryFlags_ok {vs fs : List Nat} : tryFlags vs = .ok fs ↔ fs = vs ∧ ∀ v ∈ vs, v ≠ 0 := by
  induction vs generalizing fs with
  | nil => simp [tryFlags, eq_comm]
  | cons v vs ih =>
    rw [tryFlags]
    cases h : tryFlagFromU16 v with
    | error e =>
      simp only [reduceCtorEq, false_iff, List.mem_cons, forall_eq_or_imp]
      rintro ⟨-, h1, -⟩
      rw [tryFlagFromU16_ok.2 ⟨rfl, h1⟩] at h
      simp at h
    | ok f =>
      obtain ⟨rfl, h0⟩ := tryFlagFromU16_ok.1 h
      cases h' : tryFlags vs with
      | error e =>
        simp only [reduceCtorEq, false_iff, List.mem_cons, forall_eq_or_imp]
        rintro ⟨-, -, h1⟩
        rw [ih.2 ⟨rfl, h1⟩] at h'
        simp at h'
      | ok fs' =>
        obtain ⟨rfl, hv⟩ := ih.1 h'
        simp only [Except.ok.injEq, List.mem_cons, forall_eq_or_imp]
        constructor
        · rintro rfl; exact ⟨rfl, h0, hv⟩
        · exact fun h => h.1.symm

theorem fromNeBytes_eq (order : ByteOrder) (a b : UInt8) :
    fromNeBytes order a b = twoBytes order a.toNat b.toNat := by cases order <;> rfl

theorem twoBytes_lt (order : ByteOrder) (a b : UInt8) : twoBytes order a.toNat b.toNat < 65536 := by
  have := a.toNat_lt
  have := b.toNat_lt
  cases order <;> simp only [twoBytes] <;> omega

theorem twoBytes_inj {order : ByteOrder} {a b c d : UInt8}
    (h : twoBytes order a.toNat b.toNat = twoBytes order c.toNat d.toNat) : a = c ∧ b = d := by
  have := a.toNat_lt
  have := b.toNat_lt
  have := c.toNat_lt
  have := d.toNat_lt
  cases order <;> simp only [twoBytes] at h <;>
    exact ⟨UInt8.toNat_inj.1 (by omega), UInt8.toNat_inj.1 (by omega)⟩

theorem longFlags_ok {order : ByteOrder} : ∀ {bs : List UInt8} {fs : List Nat}, bs.length % 2 = 0 →
    (longFlags order bs = .ok fs ↔ BytePairs order bs fs ∧ ∀ v ∈ fs, v ≠ 0)
  | [], fs, _ => by
    simp only [longFlags, Except.ok.injEq]
    constructor
    · rintro rfl; exact ⟨.nil, by simp⟩
    · rintro ⟨h, -⟩; cases h; rfl
  | [_], _, h => by simp at h
  | a :: b :: rest, fs, hl => by
    have ih := fun fs => longFlags_ok (order := order) (bs := rest) (fs := fs) (by simp at hl; omega)
    rw [longFlags]
    rw [fromNeBytes_eq]
    cases h : tryFlagFromU16 (twoBytes order a.toNat b.toNat) with
    | error e =>
      simp only [reduceCtorEq, false_iff]
      rintro ⟨hp, h1⟩
      cases hp with
      | cons _ _ hp =>
        rw [tryFlagFromU16_ok.2 ⟨rfl, h1 _ (by simp)⟩] at h
        simp at h
    | ok f =>
      obtain ⟨rfl, h0⟩ := tryFlagFromU16_ok.1 h
      cases h' : longFlags order rest with
      | error e =>
        simp only [reduceCtorEq, false_iff]
        rintro ⟨hp, h1⟩
        cases hp with
        | cons _ _ hp =>
          rw [(ih _).2 ⟨hp, fun v hv => h1 v (by simp [hv])⟩] at h'
          simp at h'
      | ok fs' =>
        obtain ⟨hp, hv⟩ := (ih _).1 h'
        simp only [Except.ok.injEq]
        constructor
        · rintro rfl
          exact ⟨.cons a b hp, by simpa [h0] using hv⟩
        · rintro ⟨hp', hv'⟩
          cases hp' with
          | cons _ _ hp'' =>
            rename_i l
            have : longFlags order rest = .ok l := by
              rw [ih]
              exact ⟨hp'', fun v hv => hv' v (by simp [hv])⟩
            rw [h'] at this
            injection this with this
            rw [this]

theorem splitOnce?_char {c : Char} {s a b : Str} :
    splitOnce? [c] s = some (a, b) ↔ s = a ++ c :: b ∧ c ∉ a := by
  induction s generalizing a with
  | nil => simp [splitOnce?, List.isPrefixOf]
  | cons d s ih =>
    rw [splitOnce?]
    have : [c].isPrefixOf (d :: s) = (c == d) := by simp [List.isPrefixOf]
    rw [this]
    by_cases h : c = d
    · subst h
      simp only [beq_self_eq_true, ↓reduceIte, List.length_singleton, List.drop_succ_cons,
        List.drop_zero, Option.some.injEq, Prod.mk.injEq]
      constructor
      · rintro ⟨rfl, rfl⟩; simp
      · rintro ⟨h, hn⟩
        cases a with
        | nil => simp_all
        | cons x a => simp at h hn; exact absurd h.1 hn.1
    · simp only [beq_iff_eq, h, ↓reduceIte, Option.map_eq_some_iff, Prod.exists, Prod.mk.injEq]
      constructor
      · rintro ⟨a', b', h', rfl, rfl⟩
        obtain ⟨rfl, hn⟩ := ih.1 h'
        exact ⟨rfl, by simp [hn, h]⟩
      · rintro ⟨h', hn⟩
        cases a with
        | nil => simp at h'; exact absurd h'.1.symm h
        | cons x a =>
          simp at h' hn
          obtain ⟨rfl, rfl⟩ := h'
          exact ⟨a, b, ih.2 ⟨rfl, hn.2⟩, rfl, rfl⟩

theorem splitOnce?_char_none {c : Char} {s : Str} : splitOnce? [c] s = none ↔ c ∉ s := by
  constructor
  · intro h hc
    obtain ⟨a, b, hs, hn⟩ := List.eq_append_cons_of_mem hc
    rw [splitOnce?_char.2 ⟨hs, hn⟩] at h
    simp at h
  · intro h
    cases hs : splitOnce? [c] s with
    | none => rfl
    | some p =>
      obtain ⟨a, b⟩ := p
      obtain ⟨rfl, -⟩ := splitOnce?_char.1 hs
      simp at h

theorem Spec.BytePairs.even {order : ByteOrder} {bs : List UInt8} {l : List Nat} (h : BytePairs order bs l) : bs.length % 2 = 0 := by
  induction h with
  | nil => rfl
  | cons _ _ _ ih => simp; omega

theorem Spec.BytePairs.bound {order : ByteOrder} {bs : List UInt8} {l : List Nat} (h : BytePairs order bs l) :
    ∀ f ∈ l, f ≤ 65535 := by
  induction h with
  | nil => simp
  | cons a b _ ih =>
    intro f hf
    rcases List.mem_cons.1 hf with rfl | hf
    · have := twoBytes_lt order a b; omega
    · exact ih f hf

theorem utf16Char_bound (c : Char) : ∀ u ∈ utf16Char c, u ≤ 65535 := by
  intro u hu
  have hc : c.toNat < 0x110000 := by
    have := c.valid
    rcases this with h | h
    · show c.val.toNat < _; have : c.val.toNat < 0xD800 := h; omega
    · show c.val.toNat < _; exact h.2
  unfold utf16Char at hu
  split at hu
  · simp at hu; omega
  · simp at hu; omega

theorem Spec.Utf16.eq {s : Str} {us : List Nat} (h : Utf16 s us) : us = utf16 s := by
  induction h with
  | nil => rfl
  | unit c hc _ ih =>
    unfold utf16 at ih ⊢
    rw [List.flatMap_cons, ← ih, utf16Char, if_pos (by omega)]
    rfl
  | surrogates c hi lo h1 h2 h3 _ ih =>
    unfold utf16 at ih ⊢
    rw [List.flatMap_cons, ← ih, utf16Char, if_neg (by omega)]
    simp only [List.cons_append, List.nil_append, List.cons.injEq, and_true]
    omega

theorem utf16_spec (s : Str) : Utf16 s (utf16 s) := by
  induction s with
  | nil => exact .nil
  | cons c s ih =>
    unfold utf16 at ih ⊢
    rw [List.flatMap_cons]
    by_cases hc : c.toNat < 65536
    · have := Utf16.unit c hc ih
      unfold utf16Char; rw [if_pos (by omega)]; exact this
    · have hlt : c.toNat < 0x110000 := by
        rcases c.valid with h | h
        · show c.val.toNat < _; have : c.val.toNat < 0xD800 := h; omega
        · show c.val.toNat < _; exact h.2
      have := Utf16.surrogates c ((c.toNat - 65536) / 1024) ((c.toNat - 65536) % 1024) (by omega) (by omega)
        (by omega) ih
      unfold utf16Char; rw [if_neg (by omega)]; exact this

theorem utf16_iff {s : Str} {us : List Nat} : Utf16 s us ↔ utf16 s = us :=
  ⟨fun h => h.eq.symm, fun h => h ▸ utf16_spec s⟩

theorem Spec.IsNumeral.no_comma {s : Str} {n : Nat} (h : IsNumeral s n) : ',' ∉ s := by
  obtain ⟨ds, hs, -, hd, -⟩ := h
  have : ',' ∉ ds := fun hc => absurd (hd _ hc) (by decide)
  rcases hs with rfl | rfl
  · exact this
  · simpa using this

theorem Spec.IsNumeral.ne_nil {s : Str} {n : Nat} (h : IsNumeral s n) : s ≠ [] := by
  obtain ⟨ds, hs, hne, -, -⟩ := h
  rcases hs with rfl | rfl
  · exact hne
  · simp

theorem commaJoin_cons {p : Str} {ps : List Str} (h : ps ≠ []) :
    commaJoin (p :: ps) = p ++ ',' :: commaJoin ps := by
  cases ps with
  | nil => exact absurd rfl h
  | cons q ps => rfl

theorem commaJoin_head {p : Str} {ps : List Str} (hp : p ≠ []) :
    (commaJoin (p :: ps)).head? = p.head? := by
  cases p with
  | nil => exact absurd rfl hp
  | cons c p => cases ps <;> rfl

theorem numFlags_ok {fuel : Nat} {s : Str} {fs : List Nat} (hf : s.length < fuel) :
    numFlags fuel s = .ok fs ↔
      (∃ parts, parts ≠ [] ∧ s = commaJoin parts ∧ List.Forall₂ IsNumeral parts fs) ∧
        ∀ f ∈ fs, Flag.Valid f := by
  induction fuel generalizing s fs with
  | zero => omega
  | succ fuel ih =>
    rw [numFlags]
    cases h : splitOnce? [','] s with
    | none =>
      have hc := splitOnce?_char_none.1 h
      simp only
      have single : (∃ parts, parts ≠ [] ∧ s = commaJoin parts ∧ List.Forall₂ IsNumeral parts fs) ↔
          ∃ n, IsNumeral s n ∧ fs = [n] := by
        constructor
        · rintro ⟨parts, hne, hs, hp⟩
          cases hp with
          | nil => exact absurd rfl hne
          | cons h1 h2 =>
            cases h2 with
            | nil => exact ⟨_, by rw [hs]; exact h1, rfl⟩
            | cons h3 h4 =>
              rw [commaJoin_cons (by simp)] at hs
              simp [hs] at hc
        · rintro ⟨n, h1, rfl⟩
          exact ⟨[s], by simp, rfl, .cons h1 .nil⟩
      rw [single]
      cases h' : parseNumFlag s with
      | error e =>
        simp only [reduceCtorEq, false_iff]
        rintro ⟨⟨n, h1, rfl⟩, h2⟩
        rw [parseNumFlag_ok.2 ⟨h1, h2 n (by simp)⟩] at h'
        simp at h'
      | ok f =>
        have hf := parseNumFlag_ok.1 h'
        simp only [Except.ok.injEq]
        constructor
        · rintro rfl; exact ⟨⟨f, hf.1, rfl⟩, by simpa using hf.2⟩
        · rintro ⟨⟨n, h1, rfl⟩, h2⟩
          rw [parseNumFlag_ok.2 ⟨h1, h2 n (by simp)⟩] at h'
          injection h' with h'
          rw [h']
    | some p =>
      obtain ⟨a, rest⟩ := p
      obtain ⟨hs, hca⟩ := splitOnce?_char.1 h
      simp only
      have hrl : rest.length < fuel := by rw [hs] at hf; simp at hf; omega
      have step : (∃ parts, parts ≠ [] ∧ s = commaJoin parts ∧ List.Forall₂ IsNumeral parts fs) ↔
          ∃ n fs', fs = n :: fs' ∧ IsNumeral a n ∧
            ∃ parts, parts ≠ [] ∧ rest = commaJoin parts ∧ List.Forall₂ IsNumeral parts fs' := by
        constructor
        · rintro ⟨parts, hne, hs', hp⟩
          cases hp with
          | nil => exact absurd rfl hne
          | @cons p n ps ns h1 h2 =>
            by_cases hps : ps = []
            · subst hps
              exfalso
              have : commaJoin [p] = p := rfl
              rw [this] at hs'
              exact h1.no_comma (by rw [← hs', hs]; simp)
            · rw [commaJoin_cons hps, hs] at hs'
              have e : splitOnce? [','] (a ++ ',' :: rest) = some (p, commaJoin ps) :=
                splitOnce?_char.2 ⟨hs', h1.no_comma⟩
              rw [splitOnce?_char.2 ⟨rfl, hca⟩] at e
              simp only [Option.some.injEq, Prod.mk.injEq] at e
              obtain ⟨rfl, rfl⟩ := e
              exact ⟨n, ns, rfl, h1, ps, hps, rfl, h2⟩
        · rintro ⟨n, fs', rfl, h1, parts, hne, hr, h2⟩
          exact ⟨a :: parts, by simp, by rw [commaJoin_cons hne, hs, hr], .cons h1 h2⟩
      rw [step]
      have hhead : ∀ fs' parts, parts ≠ [] → rest = commaJoin parts →
          List.Forall₂ IsNumeral parts fs' → rest.head? ≠ some ',' := by
        rintro fs' parts hne hr hp hh
        cases hp with
        | nil => exact hne rfl
        | @cons p n ps ns h1 h2 =>
          rw [hr, commaJoin_head h1.ne_nil] at hh
          exact h1.no_comma (List.mem_of_mem_head? hh)
      split
      · rename_i hh
        simp only [reduceCtorEq, false_iff]
        rintro ⟨⟨n, fs', rfl, h1, parts, hne, hr, h2⟩, -⟩
        exact hhead _ _ hne hr h2 hh
      · cases h' : parseNumFlag a with
        | error e =>
          simp only [reduceCtorEq, false_iff]
          rintro ⟨⟨n, fs', rfl, h1, -⟩, h2⟩
          rw [parseNumFlag_ok.2 ⟨h1, h2 n (by simp)⟩] at h'
          simp at h'
        | ok f =>
          have hf := parseNumFlag_ok.1 h'
          cases h'' : numFlags fuel rest with
          | error e =>
            simp only [reduceCtorEq, false_iff]
            rintro ⟨⟨n, fs', rfl, h1, h3⟩, h2⟩
            rw [(ih hrl).2 ⟨h3, fun f hf => h2 f (by simp [hf])⟩] at h''
            simp at h''
          | ok fs' =>
            have hfs := (ih hrl).1 h''
            simp only [Except.ok.injEq]
            constructor
            · rintro rfl
              exact ⟨⟨f, fs', rfl, hf.1, hfs.1⟩, by simpa using ⟨hf.2, hfs.2⟩⟩
            · rintro ⟨⟨n, fs'', rfl, h1, h3⟩, h2⟩
              rw [parseNumFlag_ok.2 ⟨h1, h2 n (by simp)⟩] at h'
              rw [(ih hrl).2 ⟨h3, fun f hf => h2 f (by simp [hf])⟩] at h''
              injection h' with h'
              injection h'' with h''
              rw [h', h'']

/-- The flags of a text, exactly. -/
theorem parseFlagList_ok {ty : FlagType} {s : Str} {l : List Nat} :
    parseFlagList ty s = .ok l ↔ FlagsOf ty s l ∧ ∀ f ∈ l, Flag.Valid f := by
  unfold parseFlagList
  by_cases hs : s = []
  · subst hs
    simp only [List.isEmpty_nil, ↓reduceIte, Except.ok.injEq]
    constructor
    · rintro rfl; exact ⟨.empty ty, by simp⟩
    · rintro ⟨h, -⟩
      generalize hs : ([] : Str) = s at h
      cases h with
      | empty => rfl
      | short => subst hs; rfl
      | long h => subst hs; cases h; rfl
      | numeric hne hp =>
        exfalso
        cases hp with
        | nil => exact hne rfl
        | cons h1 h2 =>
          have := congrArg List.head? hs
          rw [commaJoin_head h1.ne_nil] at this
          exact h1.ne_nil (List.head?_eq_none_iff.1 this.symm)
      | utf8 h => subst hs; cases h; rfl
  · have he : s.isEmpty = false := by simpa using hs
    simp only [he, Bool.false_eq_true, ↓reduceIte]
    cases ty with
    | short =>
      simp only [tryFlags_ok]
      constructor
      · rintro ⟨rfl, h⟩
        refine ⟨.short s, fun f hf => ?_⟩
        have h0 := h f hf
        obtain ⟨b, -, rfl⟩ := List.mem_map.1 hf
        have := b.toNat_lt
        exact ⟨by omega, by omega⟩
      · rintro ⟨h, hv⟩
        cases h with
        | empty => exact absurd rfl hs
        | short => exact ⟨rfl, fun v h => by have := (hv v h).1; omega⟩
    | long =>
      simp only
      split
      · rename_i hodd
        simp only [reduceCtorEq, false_iff]
        rintro ⟨h, -⟩
        cases h with
        | empty => exact absurd rfl hs
        | long h => have := h.even; unfold byteLen at hodd; omega
      · rename_i hodd
        rw [longFlags_ok (by unfold byteLen at hodd; omega)]
        constructor
        · rintro ⟨h, hv⟩
          exact ⟨.long h, fun f hf => ⟨by have := hv f hf; omega, h.bound f hf⟩⟩
        · rintro ⟨h, hv⟩
          cases h with
          | empty => exact absurd rfl hs
          | long h => exact ⟨h, fun v hf => by have := (hv v hf).1; omega⟩
    | numeric =>
      simp only
      rw [numFlags_ok (by omega)]
      constructor
      · rintro ⟨⟨parts, hne, rfl, hp⟩, hv⟩
        exact ⟨.numeric hne hp, hv⟩
      · rintro ⟨h, hv⟩
        cases h with
        | empty => exact absurd rfl hs
        | numeric hne hp => exact ⟨⟨_, hne, rfl, hp⟩, hv⟩
    | utf8 =>
      simp only [tryFlags_ok]
      constructor
      · rintro ⟨rfl, h⟩
        refine ⟨.utf8 (utf16_spec s), fun f hf => ?_⟩
        have h0 := h f hf
        obtain ⟨c, -, hc⟩ := List.mem_flatMap.1 hf
        exact ⟨by omega, utf16Char_bound c f hc⟩
      · rintro ⟨h, hv⟩
        cases h with
        | empty => exact absurd rfl hs
        | utf8 h => have e := h.eq; subst e; exact ⟨rfl, fun v h => by have := (hv v h).1; omega⟩

theorem utf16_eq_nil {s : Str} : utf16 s = [] ↔ s = [] := by
  cases s with
  | nil => simp [utf16]
  | cons c s =>
    simp only [utf16, List.flatMap_cons, List.append_eq_nil_iff, reduceCtorEq, iff_false, not_and]
    intro h
    unfold utf16Char at h
    split at h <;> simp at h

theorem parseFlag?_isSome {ty : FlagType} {s : Str} : (parseFlag? ty s).isSome ↔ s ≠ [] := by
  unfold parseFlag?
  by_cases hs : s = []
  · simp [hs]
  · have he : s.isEmpty = false := by simpa using hs
    simp only [he, Bool.false_eq_true, ↓reduceIte, ne_eq, hs, not_false_eq_true, iff_true]
    cases ty with
    | short =>
      simp only
      split
      · rename_i h; exact absurd (utf8_eq_nil.1 h) hs
      · rfl
    | long => simp only; split <;> rfl
    | numeric => rfl
    | utf8 =>
      simp only
      split
      · rename_i h; exact absurd (utf16_eq_nil.1 h) hs
      · rfl

theorem parseFlag?_ok {ty : FlagType} {s : Str} {f : Nat} :
    parseFlag? ty s = some (.ok f) ↔ FlagOf ty s f ∧ Flag.Valid f := by
  unfold parseFlag?
  by_cases hs : s = []
  · subst hs
    simp only [List.isEmpty_nil, ↓reduceIte, reduceCtorEq, false_iff]
    rintro ⟨h, -⟩
    cases h with
    | short h => simp at h
    | long h => simp at h
    | numeric h => exact h.ne_nil rfl
    | utf8 h => cases h
  · have he : s.isEmpty = false := by simpa using hs
    simp only [he, Bool.false_eq_true, ↓reduceIte]
    cases ty with
    | short =>
      simp only
      split
      · rename_i h; exact absurd (utf8_eq_nil.1 h) hs
      · rename_i b rest h
        simp only [Option.some.injEq, tryFlagFromU16_ok]
        constructor
        · rintro ⟨rfl, h0⟩
          have := b.toNat_lt
          exact ⟨.short h, by omega, by omega⟩
        · rintro ⟨h', hv⟩
          cases h' with
          | short h' => rw [h] at h'; cases h'; exact ⟨rfl, by have := hv.1; omega⟩
    | long =>
      simp only
      split
      · rename_i a b rest h
        simp only [Option.some.injEq, tryFlagFromU16_ok, fromNeBytes_eq]
        constructor
        · rintro ⟨rfl, h0⟩
          have := twoBytes_lt ‹_› a b
          exact ⟨.long h, by omega, by omega⟩
        · rintro ⟨h', hv⟩
          cases h' with
          | long h' => rw [h] at h'; cases h'; exact ⟨rfl, by have := hv.1; omega⟩
      · rename_i h
        simp only [Option.some.injEq, reduceCtorEq, false_iff]
        rintro ⟨h', -⟩
        cases h' with
        | long h' => exact h _ _ _ h'
    | numeric =>
      simp only [Option.some.injEq, parseNumFlag_ok]
      constructor
      · exact fun h => ⟨.numeric h.1, h.2⟩
      · rintro ⟨h, hv⟩
        cases h with
        | numeric h => exact ⟨h, hv⟩
    | utf8 =>
      simp only
      split
      · rename_i h; exact absurd (utf16_eq_nil.1 h) hs
      · rename_i u rest h
        simp only [Option.some.injEq, tryFlagFromU16_ok]
        constructor
        · rintro ⟨rfl, h0⟩
          have hu : f ∈ utf16 s := by rw [h]; simp
          obtain ⟨c, -, hc⟩ := List.mem_flatMap.1 hu
          exact ⟨.utf8 (utf16_iff.2 h), by omega, utf16Char_bound c f hc⟩
        · rintro ⟨h', hv⟩
          cases h' with
          | utf8 h' => rw [utf16_iff, h] at h'; cases h'; exact ⟨rfl, by have := hv.1; omega⟩


theorem aliasIndex?_some {s : Str} {n i : Nat} :
    aliasIndex? s n = some i ↔ IsNumeral s i ∧ i ≤ 65535 ∧ 1 ≤ i ∧ i ≤ n := by
  unfold aliasIndex?
  cases h : parseUInt u16Max s with
  | error e =>
    simp only [reduceCtorEq, false_iff]
    rintro ⟨h1, h2, -⟩
    have h' : parseUInt u16Max s = .ok i := parseUInt_ok.2 ⟨h1, h2⟩
    rw [h'] at h; simp at h
  | ok j =>
    have hj := parseUInt_ok.1 h
    simp only
    split
    · rename_i hc
      simp only [Option.some.injEq]
      constructor
      · rintro rfl; exact ⟨hj.1, hj.2, by omega, hc.2⟩
      · rintro ⟨h1, h2, -⟩
        have h' : parseUInt u16Max s = .ok i := parseUInt_ok.2 ⟨h1, h2⟩
        rw [h'] at h; injection h with h; exact h.symm
    · rename_i hc
      simp only [reduceCtorEq, false_iff]
      rintro ⟨h1, h2, h3, h4⟩
      have h' : parseUInt u16Max s = .ok i := parseUInt_ok.2 ⟨h1, h2⟩
      rw [h'] at h; injection h with h; subst h
      exact hc ⟨by omega, h4⟩

theorem except_map_ok {ε α β : Type} {f : α → β} {x : Except ε α} {b : β} :
    x.map f = .ok b ↔ ∃ a, x = .ok a ∧ f a = b := by
  cases x <;> simp [Except.map]

theorem parseFlags_ok {ty : FlagType} {s : Str} {F : FlagSet} :
    parseFlags ty s = .ok F ↔
      ∃ l, FlagsOf ty s l ∧ (∀ f ∈ l, Flag.Valid f) ∧ F = FlagSet.ofList l := by
  unfold parseFlags
  rw [except_map_ok]
  constructor
  · rintro ⟨l, h, rfl⟩
    exact ⟨l, (parseFlagList_ok.1 h).1, (parseFlagList_ok.1 h).2, rfl⟩
  · rintro ⟨l, h1, h2, rfl⟩
    exact ⟨l, parseFlagList_ok.2 ⟨h1, h2⟩, rfl⟩

end Spellbook
