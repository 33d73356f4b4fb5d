import Verif.Spec.Check
import Verif.Proof.Outcome
import Verif.Proof.Casing
import Verif.Proof.Conversion
/-! # `check`: preparation, BREAK and sharp s -/

namespace Spellbook
open Spec

theorem splitOnce?_iff {p : Str} : ∀ {w a b : Str}, splitOnce? p w = some (a, b) ↔ FirstSplit p w a b := by
  intro w
  induction w with
  | nil =>
    intro a b
    unfold splitOnce? FirstSplit
    by_cases hp : p = []
    · subst hp
      constructor
      · intro h; simp at h; obtain ⟨rfl, rfl⟩ := h; simp
      · rintro ⟨h, _⟩; simp at h; simp [h]
    · have : p.isPrefixOf ([] : Str) = false := by cases p <;> simp_all
      simp [this]
      intro _ h; exact absurd h hp
  | cons c s ih =>
    intro a b
    rw [splitOnce?]
    by_cases hp : p.isPrefixOf (c :: s) = true
    · rw [if_pos hp]
      obtain ⟨t, ht⟩ := List.isPrefixOf_iff_prefix.1 hp
      rw [← ht]
      constructor
      · intro h
        simp at h
        obtain ⟨rfl, rfl⟩ := h
        exact ⟨by simp, fun a' b' _ => by simp⟩
      · rintro ⟨h1, h2⟩
        have := h2 [] t (by simp)
        have : a = [] := by cases a <;> simp_all
        subst this
        simp at h1
        simp [h1]
    · rw [if_neg hp]
      have hn : ∀ t, c :: s ≠ p ++ t := fun t ht => hp (List.isPrefixOf_iff_prefix.2 ⟨t, ht.symm⟩)
      rw [Option.map_eq_some_iff]
      constructor
      · rintro ⟨⟨x, y⟩, h, he⟩
        simp at he
        obtain ⟨rfl, rfl⟩ := he
        obtain ⟨h1, h2⟩ := ih.1 h
        refine ⟨by rw [h1]; simp, ?_⟩
        intro a' b' h'
        cases a' with
        | nil => exact absurd (by simpa using h') (hn b')
        | cons d a' =>
          simp only [List.cons_append, List.cons.injEq] at h'
          have := h2 a' b' h'.2
          simp; omega
      · rintro ⟨h1, h2⟩
        cases a with
        | nil => exact absurd (by simpa using h1) (hn b)
        | cons d a =>
          simp only [List.cons_append, List.cons.injEq] at h1
          obtain ⟨rfl, h1⟩ := h1
          refine ⟨(a, b), ih.2 ⟨h1, ?_⟩, rfl⟩
          intro a' b' h'
          have := h2 (c :: a') b' (by rw [h']; simp)
          simpa using this

theorem splitOnce?_none {p w : Str} : splitOnce? p w = none ↔ ∀ a b, w ≠ a ++ p ++ b := by
  induction w with
  | nil =>
    unfold splitOnce?
    cases p with
    | nil => simp
    | cons c p => simp
  | cons c s ih =>
    rw [splitOnce?]
    by_cases hp : p.isPrefixOf (c :: s) = true
    · obtain ⟨t, ht⟩ := List.isPrefixOf_iff_prefix.1 hp
      rw [if_pos hp]
      simp only [reduceCtorEq, ne_eq, false_iff]
      intro h; exact h [] t (by rw [← ht]; simp)
    · rw [if_neg hp, Option.map_eq_none_iff, ih]
      constructor
      · intro h a b he
        cases a with
        | nil => exact hp (List.isPrefixOf_iff_prefix.2 ⟨b, by simpa using he.symm⟩)
        | cons d a =>
          simp only [List.cons_append, List.cons.injEq] at he
          exact h a b he.2
      · intro h a b he
        exact h (c :: a) b (by rw [he]; simp)

theorem containsStr_iff {p w : Str} : containsStr w p = true ↔ ∃ a b, w = a ++ p ++ b := by
  unfold containsStr
  constructor
  · intro h
    obtain ⟨⟨a, b⟩, hab⟩ := Option.isSome_iff_exists.1 h
    exact ⟨a, b, (splitOnce?_iff.1 hab).1⟩
  · rintro ⟨a, b, h⟩
    by_contra hn
    rw [Bool.not_eq_true, Option.isSome_eq_false_iff, Option.isNone_iff_eq_none, splitOnce?_none] at hn
    exact hn a b h

theorem trimEndMatches_append {c : Char} {t : Str} (n : Nat) :
    trimEndMatches c (t ++ List.replicate n c) = trimEndMatches c t := by
  unfold trimEndMatches
  congr 1
  rw [List.reverse_append, List.reverse_replicate]
  induction n with
  | zero => simp
  | succ n ih => rw [List.replicate_succ, List.cons_append, List.dropWhile_cons]; simpa using ih

theorem trimEndMatches_self {c : Char} {t : Str} (h : ∀ s, t ≠ s ++ [c]) : trimEndMatches c t = t := by
  unfold trimEndMatches
  cases hr : t.reverse with
  | nil => simp at hr; simp [hr]
  | cons d r =>
    have ht := eq_append_singleton_of_reverse hr
    rw [List.dropWhile_cons_of_neg, ← hr, List.reverse_reverse]
    simp only [beq_iff_eq]
    rintro rfl
    exact h _ ht

theorem convert_nil (t : ConversionTable) : t.convert [] = [] := by
  unfold ConversionTable.convert ConversionTable.convert?
  split
  · rfl
  · split
    · rfl
    · split
      · rfl
      · simp [ConversionTable.convertLoop]

namespace Checker

theorem eraseChars_self {w : Str} {ig : List Char} (h : ∀ c ∈ w, c ∉ ig) : eraseChars w ig = w := by
  rw [eraseChars_eq, List.filter_eq_self]
  intro c hc
  simpa using h c hc

/-- A word which is left alone is only looked up and cut by BREAK. -/
theorem check_untouched {C : Checker} {word : Str} (h : Untouched C word) (hn : ¬ IsNumber word)
    (fuel : Nat) :
    C.check fuel word = C.spellBreak fuel word := by
  unfold check
  rw [if_neg (by have := h.short; unfold byteLen maxWordLen; omega)]
  unfold checkConverted Checker.aff
  rw [h.iconv, trimEndMatches_self h.dot]
  have h1 : word.isEmpty = false := by cases word with | nil => exact absurd rfl h.nonempty | cons => rfl
  have h2 : isNumber word = false := by rw [← Bool.not_eq_true, isNumber_iff]; exact hn
  rw [h1]
  dsimp only
  rw [eraseChars_self h.ignore, h2]
  simp only [Bool.false_eq_true, if_false, bne_self_eq_false]
  cases C.spellBreak fuel word with
  | error e => rfl
  | ok b => cases b <;> rfl

theorem goodFlags_iff {C : Checker} {F : FlagSet} : C.goodFlags F = true ↔ Good C.dict F := by
  unfold goodFlags Good
  rw [← FlagSet.contains_iff, ← hasFlag_iff]
  simp only [Checker.opts]
  cases F.contains C.dict.aff.options.forbiddenWordFlag <;>
    cases C.dict.aff.options.forbidWarn <;> cases hasFlag F C.dict.aff.options.warnFlag <;> decide

theorem doSpellBreak_some {C : Checker} {fuel : Nat} {word : Str} {F : FlagSet}
    (h : C.spellCasing fuel word = .ok (some F)) (d : Nat) :
    C.doSpellBreak fuel d word = .ok (C.goodFlags F) := by
  cases d <;> rw [doSpellBreak, h] <;> rfl

theorem doSpellBreak_zero_none {C : Checker} {fuel : Nat} {word : Str}
    (h : C.spellCasing fuel word = .ok none) : C.doSpellBreak fuel 0 word = .ok false := by
  rw [doSpellBreak, h]; rfl

theorem doSpellBreak_succ_none {C : Checker} {fuel : Nat} {word : Str} {d : Nat}
    (h : C.spellCasing fuel word = .ok none) :
    C.doSpellBreak fuel (d + 1) word = C.breakLoops (C.doSpellBreak fuel d) word := by
  rw [doSpellBreak, h]; rfl

theorem anyRun_true {α : Type} {f : α → Run Bool} : ∀ {l : List α}, anyRun f l = .ok true →
    ∃ a ∈ l, f a = .ok true
  | [], h => by simp [anyRun] at h
  | a :: as, h => by
    rw [anyRun] at h
    obtain ⟨b, hb, h⟩ := Run.bind_eq_ok.1 h
    cases b
    · obtain ⟨x, hx, hf⟩ := anyRun_true h
      exact ⟨x, by simp [hx], hf⟩
    · exact ⟨a, by simp, hb⟩

theorem anyRun_of {α : Type} {f : α → Run Bool} : ∀ {l : List α}, (∀ a ∈ l, ∃ b, f a = .ok b) →
    ∀ {x}, x ∈ l → f x = .ok true → anyRun f l = .ok true
  | [], _, x, hx, _ => by simp at hx
  | a :: as, h, x, hx, hf => by
    rw [anyRun]
    obtain ⟨b, hb⟩ := h a (by simp)
    rw [hb]
    cases b with
    | true => rfl
    | false =>
      rcases List.mem_cons.1 hx with rfl | hx
      · rw [hf] at hb; simp at hb
      · exact anyRun_of (fun a ha => h a (by simp [ha])) hx hf

theorem anyRun_false {α : Type} {f : α → Run Bool} : ∀ {l : List α}, (∀ a ∈ l, f a = .ok false) →
    anyRun f l = .ok false
  | [], _ => rfl
  | a :: as, h => by
    rw [anyRun, h a (by simp)]
    exact anyRun_false fun x hx => h x (by simp [hx])

theorem anyRun_ok {α : Type} {f : α → Run Bool} {l : List α} (h : ∀ a ∈ l, ∃ b, f a = .ok b) :
    ∃ b, anyRun f l = .ok b := by
  induction l with
  | nil => exact ⟨_, rfl⟩
  | cons a as ih =>
    rw [anyRun]
    obtain ⟨b, hb⟩ := h a (by simp)
    rw [hb]
    cases b with
    | true => exact ⟨_, rfl⟩
    | false => exact ih fun x hx => h x (by simp [hx])

/-- The attempt to break off a pattern at the start. -/
def startTry (rec' : Str → Run Bool) (word pat : Str) : Run Bool :=
  match stripPrefix? word pat with
  | some rest => rec' rest
  | none => .ok false
/-- The attempt to break off a pattern at the end. -/
def endTry (rec' : Str → Run Bool) (word pat : Str) : Run Bool :=
  match stripSuffix? word pat with
  | some rest => rec' rest
  | none => .ok false
/-- The attempt to cut at a pattern. -/
def middleTry (rec' : Str → Run Bool) (word pat : Str) : Run Bool :=
  match splitOnce? pat word with
  | some (part1, part2) =>
    if part2.isEmpty then .ok false
    else do if ← rec' part1 then rec' part2 else pure false
  | none => .ok false

theorem breakLoops_eq (C : Checker) (rec' : Str → Run Bool) (word : Str) : C.breakLoops rec' word =
    (anyRun (startTry rec' word) C.aff.breakTable.startBreaks >>= fun b =>
      if b then pure true else anyRun (endTry rec' word) C.aff.breakTable.endBreaks >>= fun b =>
        if b then pure true else anyRun (middleTry rec' word) C.aff.breakTable.middleBreaks) := by
  unfold breakLoops startTry endTry middleTry
  rfl

theorem mem_startBreaks {lines : List Str} {t : BreakTable} (h : BreakTable.new lines = some t)
    {pat : Str} : pat ∈ t.startBreaks ↔ ∃ line ∈ lines, BreakLine line .start pat := by
  rw [(BreakTable.new_spec h).1, List.mem_filterMap]
  simp only [breakText_iff]
theorem mem_middleBreaks {lines : List Str} {t : BreakTable} (h : BreakTable.new lines = some t)
    {pat : Str} : pat ∈ t.middleBreaks ↔ ∃ line ∈ lines, BreakLine line .middle pat := by
  rw [(BreakTable.new_spec h).2.1, List.mem_filterMap]
  simp only [breakText_iff]
theorem mem_endBreaks {lines : List Str} {t : BreakTable} (h : BreakTable.new lines = some t)
    {pat : Str} : pat ∈ t.endBreaks ↔ ∃ line ∈ lines, BreakLine line .stop pat := by
  rw [(BreakTable.new_spec h).2.2, List.mem_filterMap]
  simp only [breakText_iff]

/-- Only words which can be cut are accepted. -/
theorem doSpellBreak_sound {C : Checker} {lines : List Str}
    (hb : BreakTable.new lines = some C.dict.aff.breakTable) {fuel : Nat} : ∀ (d : Nat) (word : Str),
    C.doSpellBreak fuel d word = .ok true → Breaks lines (WholeVerdict C) d word := by
  have some' : ∀ d word F, C.spellCasing fuel word = .ok (some F) →
      C.doSpellBreak fuel d word = .ok true → Breaks lines (WholeVerdict C) d word := by
    intro d word F hF h
    rw [doSpellBreak_some hF] at h
    have hg : C.goodFlags F = true := by simpa using h
    exact .direct ⟨fuel, F, hF, by simpa [goodFlags_iff] using hg⟩
  intro d
  induction d with
  | zero =>
    intro word h
    have h0 := h
    rw [doSpellBreak] at h
    obtain ⟨o, ho, h⟩ := Run.bind_eq_ok.1 h
    cases o with
    | some F => exact some' 0 word F ho h0
    | none => simp [pure, Except.pure] at h
  | succ d ih =>
    intro word h
    have h0 := h
    rw [doSpellBreak] at h
    obtain ⟨o, ho, h⟩ := Run.bind_eq_ok.1 h
    cases o with
    | some F => exact some' _ word F ho h0
    | none =>
      have hnone : WholeVerdict C word none := ⟨fuel, ho⟩
      dsimp only at h
      rw [breakLoops_eq] at h
      obtain ⟨b, hb1, h⟩ := Run.bind_eq_ok.1 h
      cases b with
      | true =>
        obtain ⟨pat, hp, h1⟩ := anyRun_true hb1
        obtain ⟨line, hl, hline⟩ := (mem_startBreaks hb).1 hp
        unfold startTry at h1
        split at h1
        · rename_i rest hr
          exact .start hnone hl hline (stripPrefix?_iff.1 hr) (ih _ h1)
        · simp at h1
      | false =>
        obtain ⟨b, hb2, h⟩ := Run.bind_eq_ok.1 h
        cases b with
        | true =>
          obtain ⟨pat, hp, h1⟩ := anyRun_true hb2
          obtain ⟨line, hl, hline⟩ := (mem_endBreaks hb).1 hp
          unfold endTry at h1
          split at h1
          · rename_i rest hr
            exact .stop hnone hl hline (stripSuffix?_iff.1 hr) (ih _ h1)
          · simp at h1
        | false =>
          obtain ⟨pat, hp, h1⟩ := anyRun_true h
          obtain ⟨line, hl, hline⟩ := (mem_middleBreaks hb).1 hp
          unfold middleTry at h1
          split at h1
          · rename_i x y hxy
            split at h1
            · simp at h1
            · rename_i hy
              obtain ⟨b, hx, h1⟩ := Run.bind_eq_ok.1 h1
              cases b with
              | false => simp [pure, Except.pure] at h1
              | true =>
                exact .middle hnone hl hline (splitOnce?_iff.1 hxy)
                  (by rintro rfl; simp at hy) (ih _ hx) (ih _ h1)
          · simp at h1

/-- A computation which from some fuel on yields `r`. -/
def Settles {α : Type} (g : Nat → Run α) (r : α) : Prop := ∃ N, ∀ f, N ≤ f → g f = .ok r

theorem Settles.of_le {α : Type} {g : Nat → Run α} (hg : ∀ f f', f ≤ f' → Run.Le (g f) (g f'))
    {f : Nat} {r : α} (h : g f = .ok r) : Settles g r := ⟨f, fun f' hf => (hg f f' hf).ok h⟩

theorem spellCasing_settles {C : Checker} {word : Str} {f : Nat} {o : Option FlagSet}
    (h : C.spellCasing f word = .ok o) : Settles (fun f => C.spellCasing f word) o :=
  .of_le (fun _ _ hf => spellCasing_le C hf _) h

theorem checkWord_settles {C : Checker} {word : Str} {fc : Forceucase} {hh : HiddenHomonym} {f : Nat}
    {o : Option FlagSet} (h : C.checkWord f word fc hh = .ok o) :
    Settles (fun f => C.checkWord f word fc hh) o :=
  .of_le (fun _ _ hf => checkWord_le C hf _ _ _) h

/-- Words which can be cut are accepted, if all lookups have a result. -/
theorem doSpellBreak_complete {C : Checker} {lines : List Str}
    (hb : BreakTable.new lines = some C.dict.aff.breakTable)
    (hD : C.dict.Shrinking) (hw : ∀ w, C.CanTitle w) {d : Nat} {word : Str}
    (h : Breaks lines (WholeVerdict C) d word) : Settles (fun f => C.doSpellBreak f d word) true := by
  -- for large fuel, all attempts on this word have a result
  have total : ∀ d word, ∃ N, ∀ f, N ≤ f →
      (∀ pat ∈ C.aff.breakTable.startBreaks, ∃ b, startTry (C.doSpellBreak f d) word pat = .ok b) ∧
      (∀ pat ∈ C.aff.breakTable.endBreaks, ∃ b, endTry (C.doSpellBreak f d) word pat = .ok b) ∧
      (∀ pat ∈ C.aff.breakTable.middleBreaks, ∃ b, middleTry (C.doSpellBreak f d) word pat = .ok b) := by
    intro d word
    have hc : ∀ (l : List Str) (g : Str → Nat → Run Bool), (∀ p, Conv (g p)) →
        ∃ N, ∀ f, N ≤ f → ∀ p ∈ l, ∃ b, g p f = .ok b := by
      intro l g hg
      induction l with
      | nil => exact ⟨0, by simp⟩
      | cons p l ih =>
        obtain ⟨N, hN⟩ := ih
        obtain ⟨M, hM⟩ := hg p
        refine ⟨max N M, fun f hf x hx => ?_⟩
        rcases List.mem_cons.1 hx with rfl | hx
        · exact hM f (by omega)
        · exact hN f (by omega) x hx
    obtain ⟨N1, h1⟩ := hc C.aff.breakTable.startBreaks
      (fun p f => startTry (C.doSpellBreak f d) word p) (by
        intro p
        unfold startTry
        split
        · exact Conv.spell hD hw d _
        · exact Conv.const _)
    obtain ⟨N2, h2⟩ := hc C.aff.breakTable.endBreaks
      (fun p f => endTry (C.doSpellBreak f d) word p) (by
        intro p
        unfold endTry
        split
        · exact Conv.spell hD hw d _
        · exact Conv.const _)
    obtain ⟨N3, h3⟩ := hc C.aff.breakTable.middleBreaks
      (fun p f => middleTry (C.doSpellBreak f d) word p) (by
        intro p
        unfold middleTry
        split
        · split
          · exact Conv.const _
          · refine Conv.bindBool (Conv.spell hD hw d _) (k := fun b f => _) fun b => ?_
            cases b
            · exact Conv.const _
            · exact Conv.spell hD hw d _
        · exact Conv.const _)
    exact ⟨max N1 (max N2 N3), fun f hf => ⟨h1 f (by omega), h2 f (by omega), h3 f (by omega)⟩⟩
  induction h with
  | @direct d word hv =>
    obtain ⟨f, F, hF, hg⟩ := hv
    obtain ⟨N, hN⟩ := spellCasing_settles hF
    refine ⟨N, fun f hf => ?_⟩
    show C.doSpellBreak f d word = _
    rw [doSpellBreak_some (hN f hf), goodFlags_iff.2 (hg.1 rfl)]
  | @start d word line pat rest hv hl hline he _ ih =>
    obtain ⟨f, hf⟩ := hv
    obtain ⟨N, hN⟩ := spellCasing_settles hf
    obtain ⟨M, hM⟩ := ih
    obtain ⟨K, hK⟩ := total d word
    refine ⟨max N (max M K), fun f hf => ?_⟩
    obtain ⟨k1, k2, k3⟩ := hK f (by omega)
    show C.doSpellBreak f (d + 1) word = _
    rw [doSpellBreak_succ_none (hN f (by omega)), breakLoops_eq]
    have : anyRun (startTry (C.doSpellBreak f d) word) C.aff.breakTable.startBreaks = .ok true := by
      refine anyRun_of k1 ((mem_startBreaks hb).2 ⟨line, hl, hline⟩) ?_
      unfold startTry
      rw [stripPrefix?_iff.2 he]
      exact hM f (by omega)
    rw [this]; rfl
  | @stop d word line pat rest hv hl hline he _ ih =>
    obtain ⟨f, hf⟩ := hv
    obtain ⟨N, hN⟩ := spellCasing_settles hf
    obtain ⟨M, hM⟩ := ih
    obtain ⟨K, hK⟩ := total d word
    refine ⟨max N (max M K), fun f hf => ?_⟩
    obtain ⟨k1, k2, k3⟩ := hK f (by omega)
    show C.doSpellBreak f (d + 1) word = _
    rw [doSpellBreak_succ_none (hN f (by omega)), breakLoops_eq]
    have : anyRun (endTry (C.doSpellBreak f d) word) C.aff.breakTable.endBreaks = .ok true := by
      refine anyRun_of k2 ((mem_endBreaks hb).2 ⟨line, hl, hline⟩) ?_
      unfold endTry
      rw [stripSuffix?_iff.2 he]
      exact hM f (by omega)
    rw [this]
    obtain ⟨b, hb1⟩ := anyRun_ok k1
    rw [hb1]
    cases b <;> rfl
  | @middle d word line pat x y hv hl hline he hy _ _ ih1 ih2 =>
    obtain ⟨f, hf⟩ := hv
    obtain ⟨N, hN⟩ := spellCasing_settles hf
    obtain ⟨M1, hM1⟩ := ih1
    obtain ⟨M2, hM2⟩ := ih2
    obtain ⟨K, hK⟩ := total d word
    refine ⟨max N (max M1 (max M2 K)), fun f hf => ?_⟩
    obtain ⟨k1, k2, k3⟩ := hK f (by omega)
    show C.doSpellBreak f (d + 1) word = _
    rw [doSpellBreak_succ_none (hN f (by omega)), breakLoops_eq]
    have : anyRun (middleTry (C.doSpellBreak f d) word) C.aff.breakTable.middleBreaks = .ok true := by
      refine anyRun_of k3 ((mem_middleBreaks hb).2 ⟨line, hl, hline⟩) ?_
      unfold middleTry
      rw [splitOnce?_iff.2 he]
      dsimp only
      rw [if_neg (by simpa using hy)]
      have h1 := hM1 f (by omega)
      have h2 := hM2 f (by omega)
      dsimp only at h1 h2
      rw [h1]
      exact h2
    rw [this]
    obtain ⟨b, hb1⟩ := anyRun_ok k1
    obtain ⟨b', hb2⟩ := anyRun_ok k2
    rw [hb1, hb2]
    cases b <;> cases b' <;> rfl

/-- If no BREAK pattern occurs in a word without a verdict, the word is rejected. -/
theorem doSpellBreak_none {C : Checker} {word : Str} {fuel : Nat}
    (h : C.spellCasing fuel word = .ok none)
    (hb : ∀ pat ∈ C.dict.aff.breakTable.table, ∀ a b, word ≠ a ++ pat ++ b) (d : Nat) :
    C.doSpellBreak fuel d word = .ok false := by
  cases d with
  | zero => exact doSpellBreak_zero_none h
  | succ d =>
    rw [doSpellBreak_succ_none h, breakLoops_eq]
    have h1 : anyRun (startTry (C.doSpellBreak fuel d) word) C.aff.breakTable.startBreaks = .ok false := by
      refine anyRun_false fun pat hp => ?_
      unfold startTry
      rw [stripPrefix?_none.2 fun t ht => hb pat (List.mem_of_mem_take hp) [] t (by simpa using ht)]
    have h2 : anyRun (endTry (C.doSpellBreak fuel d) word) C.aff.breakTable.endBreaks = .ok false := by
      refine anyRun_false fun pat hp => ?_
      unfold endTry
      rw [stripSuffix?_none.2 fun t ht => hb pat (List.mem_of_mem_drop hp) t [] (by simpa using ht)]
    have h3 : anyRun (middleTry (C.doSpellBreak fuel d) word) C.aff.breakTable.middleBreaks
        = .ok false := by
      refine anyRun_false fun pat hp => ?_
      unfold middleTry
      rw [splitOnce?_none.2 fun a b ht => hb pat
        (List.mem_of_mem_take (List.mem_of_mem_drop hp)) a b ht]
    rw [h1, h2, h3]; rfl

/-! ### Sharp s -/

/-- The texts tried by `do_spell_sharps`, in order. -/
def sharpTexts : Nat → Str → List Str
  | 0, s => [s]
  | k + 1, s =>
    match splitOnce? ['s', 's'] s with
    | none => [s]
    | some (a, b) => (sharpTexts k b).map (fun t => a ++ ['ß'] ++ t) ++
        (sharpTexts k b).map (fun t => a ++ ['s', 's'] ++ t)

theorem mem_sharpTexts : ∀ {k : Nat} {s t : Str}, t ∈ sharpTexts k s ↔ Sharp k s t := by
  intro k
  induction k with
  | zero =>
    intro s t
    rw [sharpTexts, List.mem_singleton]
    constructor
    · rintro rfl; exact .all
    · intro h; cases h; rfl
  | succ k ih =>
    intro s t
    rw [sharpTexts]
    cases h : splitOnce? ['s', 's'] s with
    | none =>
      rw [List.mem_singleton]
      have hn := splitOnce?_none.1 h
      constructor
      · rintro rfl; exact .done hn
      · intro h'
        cases h' with
        | done => rfl
        | replace hs => exact absurd hs.1 (hn _ _)
        | keep hs => exact absurd hs.1 (hn _ _)
    | some ab =>
      obtain ⟨a, b⟩ := ab
      simp only [List.mem_append, List.mem_map, ih]
      have hs := splitOnce?_iff.1 h
      constructor
      · rintro (⟨u, hu, rfl⟩ | ⟨u, hu, rfl⟩)
        · exact .replace hs hu
        · exact .keep hs hu
      · intro h'
        cases h' with
        | done hn => exact absurd hs.1 (hn _ _)
        | @replace _ _ a' b' u hs' hu =>
          have := splitOnce?_iff.2 hs'
          rw [h] at this
          simp at this
          obtain ⟨rfl, rfl⟩ := this
          exact Or.inl ⟨u, hu, rfl⟩
        | @keep _ _ a' b' u hs' hu =>
          have := splitOnce?_iff.2 hs'
          rw [h] at this
          simp at this
          obtain ⟨rfl, rfl⟩ := this
          exact Or.inr ⟨u, hu, rfl⟩

theorem length_sharpTexts : ∀ (k : Nat) (s : Str), (sharpTexts k s).length ≤ 2 ^ k := by
  intro k
  induction k with
  | zero => intro s; simp [sharpTexts]
  | succ k ih =>
    intro s
    rw [sharpTexts]
    split
    · simp; exact Nat.one_le_two_pow
    · rename_i a b _
      have := ih b
      simp [Nat.pow_succ]; omega

theorem _root_.Spellbook.Run.first_append {α β : Type} {f : α → Run (Option β)} : ∀ {l r : List α},
    Run.first f (l ++ r) = (Run.first f l).or (Run.first f r)
  | [], r => rfl
  | a :: l, r => by
    rw [List.cons_append, Run.first, Run.first, Run.first_append]
    cases f a with
    | error e => rfl
    | ok o => cases o <;> rfl

theorem _root_.Spellbook.Run.first_map {α β γ : Type} {f : β → Run (Option γ)} {g : α → β} :
    ∀ {l : List α}, Run.first f (l.map g) = Run.first (fun a => f (g a)) l
  | [] => rfl
  | a :: l => by rw [List.map_cons, Run.first, Run.first, Run.first_map]

theorem doSpellSharps_eq (C : Checker) (fuel : Nat) : ∀ (k : Nat) (before rest : Str) (depth r : Nat),
    depth + k = 5 → 0 < r → C.doSpellSharps fuel before rest depth r =
      Run.first (fun t => C.checkWord fuel (before ++ t) .allowBad .accept) (sharpTexts k rest) := by
  intro k
  have stop : ∀ (before rest : Str) (depth r : Nat), 0 < r →
      5 ≤ depth ∨ splitOnce? ['s', 's'] rest = none → C.doSpellSharps fuel before rest depth r =
      Run.first (fun t => C.checkWord fuel (before ++ t) .allowBad .accept) [rest] := by
    intro before rest depth r hr h
    rw [doSpellSharps_stop C h, if_pos hr, Run.first, Run.first, Run.or_none]
  induction k with
  | zero => intro before rest depth r hd hr; exact stop _ _ _ _ hr (Or.inl (by omega))
  | succ k ih =>
    intro before rest depth r hd hr
    rw [sharpTexts]
    cases h : splitOnce? ['s', 's'] rest with
    | none => exact stop _ _ _ _ hr (Or.inr h)
    | some ab =>
      obtain ⟨a, b⟩ := ab
      rw [doSpellSharps_go C (by omega) h, ih _ _ _ _ (by omega) (by omega),
        ih _ _ _ _ (by omega) (by omega)]
      dsimp only
      rw [Run.first_append, Run.first_map, Run.first_map]
      simp only [List.append_assoc]

theorem spellSharps_eq (C : Checker) (fuel : Nat) (word : Str) : C.spellSharps fuel word =
    Run.first (fun t => C.checkWord fuel t .allowBad .accept)
      (if containsStr word ['s', 's'] then sharpTexts 5 word else []) := by
  unfold spellSharps
  cases h : splitOnce? ['s', 's'] word with
  | none =>
    rw [doSpellSharps_stop C (Or.inr h), if_neg (by omega)]
    simp [containsStr, h, Run.first]
  | some ab =>
    obtain ⟨a, b⟩ := ab
    rw [doSpellSharps_go C (by omega) h, doSpellSharps_eq C fuel 4 _ _ _ _ rfl (by omega),
      doSpellSharps_eq C fuel 4 _ _ _ _ rfl (by omega)]
    have h5 : sharpTexts 5 word = (sharpTexts 4 b).map (fun t => a ++ ['ß'] ++ t) ++
        (sharpTexts 4 b).map (fun t => a ++ ['s', 's'] ++ t) := by
      rw [sharpTexts, h]
    simp only [containsStr, h, Option.isSome_some, if_true, h5]
    rw [Run.first_append, Run.first_map, Run.first_map]
    simp only [List.nil_append]

/-! ### Numbers and listed words -/

theorem _root_.Spellbook.Spec.IsNumber.no_dot {w : Str} (h : IsNumber w) (t : Str) : w ≠ t ++ ['.'] := by
  obtain ⟨sign, g, gs, _, hg, hgs, rfl⟩ := h
  intro he
  have digits : ∀ d : Str, Digits d → ∀ u v : Str, u ++ d ≠ v ++ ['.'] := by
    intro d hd u v h'
    have h2 := congrArg List.getLast? h'
    rw [List.getLast?_append_of_ne_nil _ hd.1, List.getLast?_append_of_ne_nil _ (by simp)] at h2
    have : '.' ∈ d := List.mem_of_getLast? (by rw [h2]; rfl)
    have := hd.2 _ this
    revert this; decide
  rcases List.eq_nil_or_concat gs with rfl | ⟨gs', p, rfl⟩
  · simp at he
    exact digits g hg sign t he
  · have hp := (hgs p (by simp)).2
    rw [List.concat_eq_append, List.flatMap_append] at he
    simp only [List.flatMap_cons, List.flatMap_nil, List.append_nil] at he
    refine digits p.2 hp (sign ++ g ++ (gs'.flatMap fun p => p.1 :: p.2) ++ [p.1]) t ?_
    rw [← he]; simp

theorem _root_.Spellbook.Spec.IsNumber.ne_nil {w : Str} (h : IsNumber w) : w ≠ [] := by
  obtain ⟨sign, g, gs, _, hg, _, rfl⟩ := h
  have := hg.1
  simp [this]

theorem check_number {C : Checker} {w : Str} (h : IsNumber w) {word : Str} (n : Nat)
    (he : C.dict.aff.inputConversions.convert word = w ++ List.replicate n '.')
    (hl : (utf8 word).length ≤ 360) (fuel : Nat) : C.check fuel word = .ok true := by
  unfold check
  rw [if_neg (by unfold byteLen maxWordLen; omega)]
  unfold checkConverted Checker.aff
  rw [he, trimEndMatches_append, trimEndMatches_self h.no_dot]
  have h1 : (w ++ List.replicate n '.').isEmpty = false := by simp [h.ne_nil]
  rw [h1]
  simp only [Bool.false_eq_true, if_false, (isNumber_iff w).2 h, if_true]

/-- If all entries of a listed word can be used directly, the lookup finds one of them. -/
theorem checkSimpleWord_listed {C : Checker} {word : Str} {hh : HiddenHomonym}
    (hin : ∃ F, (word, F) ∈ C.dict.words.slots ∧ ¬ Has F C.dict.aff.options.needAffixFlag ∧
      ¬ Has F C.dict.aff.options.onlyInCompoundFlag ∧ (hh = .skip → 65535 ∉ F.elems)) :
    ∃ F, (word, F) ∈ C.dict.words.slots ∧ ¬ Has F C.dict.aff.options.needAffixFlag ∧
      ¬ Has F C.dict.aff.options.onlyInCompoundFlag ∧ (hh = .skip → 65535 ∉ F.elems) ∧
      C.checkSimpleWord word hh = some F := by
  have hy := direct_yields (C := C) word hh
  have hs : hh.skips = true ↔ hh = .skip := by cases hh <;> decide
  simp only [hs] at hy
  obtain ⟨F, h1, h2, h3, h4⟩ := hin
  obtain ⟨F', hF'⟩ := Option.isSome_iff_exists.1 (hy.2 ⟨F, F, h1, h2, h3, h4, rfl⟩)
  obtain ⟨F1, g1, g2, g3, g4, rfl⟩ := hy.1 F' hF'
  refine ⟨F', g1, g2, g3, g4, ?_⟩
  unfold checkSimpleWord
  rw [hF']; rfl

theorem checkWord_simple {C : Checker} {word : Str} {hh : HiddenHomonym} {F : FlagSet}
    (h : C.checkSimpleWord word hh = some F) (fuel : Nat) (fc : Forceucase) :
    C.checkWord fuel word fc hh = .ok (some F) := by
  unfold checkWord; rw [h]

theorem spellCasing_none {C : Checker} {word : Str} (hl : HasCasing C.U word .none) (fuel : Nat) :
    C.spellCasing fuel word = C.spellCasingAsIs fuel word false := by
  unfold spellCasing; rw [classifyCasing_iff.2 hl]
theorem spellCasing_init {C : Checker} {word : Str} (hl : HasCasing C.U word .init) (fuel : Nat) :
    C.spellCasing fuel word = C.spellCasingTitle fuel word := by
  unfold spellCasing; rw [classifyCasing_iff.2 hl]
theorem spellCasing_all {C : Checker} {word : Str} (hl : HasCasing C.U word .all) (fuel : Nat) :
    C.spellCasing fuel word = C.spellCasingUpper fuel word := by
  unfold spellCasing; rw [classifyCasing_iff.2 hl]

theorem spellCasing_listed {C : Checker} {word : Str} {F : FlagSet} (hl : HasCasing C.U word .none)
    (h : C.checkSimpleWord word .accept = some F) (fuel : Nat) :
    C.spellCasing fuel word = .ok (some F) := by
  rw [spellCasing_none hl]
  unfold spellCasingAsIs
  rw [checkWord_simple h]; rfl

/-! ### Letter case -/

/-- A computation which comes to nothing or to something good. -/
def Fine (C : Checker) (x : Run (Option FlagSet)) : Prop :=
  x = .ok none ∨ ∃ F, x = .ok (some F) ∧ C.goodFlags F = true

theorem Fine.or {C : Checker} {x y : Run (Option FlagSet)} (h : C.Fine x) (h' : C.Fine y) :
    C.Fine (x.or y) := by
  rcases h with rfl | ⟨F, rfl, hF⟩
  · exact h'
  · exact Or.inr ⟨F, rfl, hF⟩

theorem Fine.first {C : Checker} {α : Type} {f : α → Run (Option FlagSet)} : ∀ {l : List α},
    (∀ a ∈ l, C.Fine (f a)) → C.Fine (Run.first f l)
  | [], _ => Or.inl rfl
  | a :: as, h => .or (h a (by simp)) (.first fun x hx => h x (by simp [hx]))

theorem Fine.map {C : Checker} {x : Run (Option FlagSet)} {g : Option FlagSet → Option FlagSet}
    (hg : g none = none) (hg' : ∀ F, g (some F) = some F ∨ g (some F) = none) (h : C.Fine x) :
    C.Fine (x.map g) := by
  rcases h with rfl | ⟨F, rfl, hF⟩
  · exact Or.inl (by simp [Except.map, hg])
  · rcases hg' F with h | h
    · exact Or.inr ⟨F, by simp [Except.map, h], hF⟩
    · exact Or.inl (by simp [Except.map, h])

theorem Fine.or_some {C : Checker} {x y : Run (Option FlagSet)} (h : C.Fine x) {F : FlagSet}
    (hy : y = .ok (some F)) (hF : C.goodFlags F = true) :
    ∃ F', x.or y = .ok (some F') ∧ C.goodFlags F' = true := by
  rcases h with rfl | ⟨F', rfl, hF'⟩
  · exact ⟨F, hy, hF⟩
  · exact ⟨F', rfl, hF'⟩

theorem NotBad.settles {C : Checker} {fc : Forceucase} {hh : HiddenHomonym} {word : Str}
    (h : NotBad C fc hh word) : ∃ N, ∀ f, N ≤ f → C.Fine (C.checkWord f word fc hh) := by
  rcases h with ⟨f, h⟩ | ⟨F, ⟨f, h⟩, hg⟩
  · obtain ⟨N, hN⟩ := checkWord_settles h
    exact ⟨N, fun f hf => Or.inl (hN f hf)⟩
  · obtain ⟨N, hN⟩ := checkWord_settles h
    exact ⟨N, fun f hf => Or.inr ⟨F, hN f hf, goodFlags_iff.2 hg⟩⟩

theorem dropKeepCase_some (C : Checker) (F : FlagSet) :
    C.dropKeepCase (some F) = some F ∨ C.dropKeepCase (some F) = none := by
  unfold dropKeepCase
  by_cases h : hasFlag F C.opts.keepCaseFlag = true <;> simp [Option.filter, h]

theorem dropKeepCase_keeps {C : Checker} {F : FlagSet} (h : KeepsCase C.dict F) :
    C.dropKeepCase (some F) = none := by
  have : hasFlag F C.opts.keepCaseFlag = true := hasFlag_iff.2 h
  simp [dropKeepCase, Option.filter, this]

theorem dropKeepCase_not {C : Checker} {F : FlagSet} (h : ¬ KeepsCase C.dict F) :
    C.dropKeepCase (some F) = some F := by
  have : hasFlag F C.opts.keepCaseFlag = false := hasFlag_false.2 h
  simp [dropKeepCase, Option.filter, this]

/-- Finitely many things settle together. -/
theorem settle_all {α : Type} {p : α → Nat → Prop} : ∀ {l : List α},
    (∀ a ∈ l, ∃ N, ∀ f, N ≤ f → p a f) → ∃ N, ∀ f, N ≤ f → ∀ a ∈ l, p a f
  | [], _ => ⟨0, by simp⟩
  | a :: as, h => by
    obtain ⟨N, hN⟩ := h a (by simp)
    obtain ⟨M, hM⟩ := settle_all (l := as) fun x hx => h x (by simp [hx])
    refine ⟨max N M, fun f hf x hx => ?_⟩
    rcases List.mem_cons.1 hx with rfl | hx
    · exact hN f (by omega)
    · exact hM f (by omega) x hx

theorem spellSharps_fine {C : Checker} {text : Str}
    (h : ∀ s, Sharp 5 text s → NotBad C .allowBad .accept s) :
    ∃ N, ∀ f, N ≤ f → C.Fine (C.spellSharps f text) := by
  obtain ⟨N, hN⟩ := settle_all (l := if containsStr text ['s', 's'] then sharpTexts 5 text else [])
    (p := fun s f => C.Fine (C.checkWord f s .allowBad .accept)) (by
      intro s hs
      split at hs
      · exact NotBad.settles (h s (mem_sharpTexts.1 hs))
      · simp at hs)
  refine ⟨N, fun f hf => ?_⟩
  rw [spellSharps_eq]
  exact .first (hN f hf)

theorem titlecase_some {C : Checker} {w : Str} (hw : w ≠ []) :
    ∃ t, C.opts.caseHandling.titlecase C.U w = some t := by
  cases w with
  | nil => simp at hw
  | cons c cs => exact ⟨_, rfl⟩

theorem titlecase_bind {C : Checker} {w t : Str} (h : C.opts.caseHandling.titlecase C.U w = some t)
    {β : Type} (k : Str → Run β) : (C.titlecase w >>= k) = k t := by
  unfold titlecase; rw [h]; rfl

theorem spellApostrophe_fine {C : Checker} {W : Str}
    (h : ∀ s, CapsSpelling C W s → NotBad C .allowBad .accept s) :
    ∃ N, ∀ f, N ≤ f → C.Fine (C.spellApostrophe f W) := by
  unfold spellApostrophe
  cases hs : splitOnce? ['\''] W with
  | none => exact ⟨0, fun _ _ => Or.inl rfl⟩
  | some ab =>
    obtain ⟨a, b⟩ := ab
    have hf := splitOnce?_iff.1 hs
    by_cases hb : b = []
    · subst hb; exact ⟨0, fun _ _ => Or.inl rfl⟩
    · obtain ⟨t, ht⟩ := titlecase_some (C := C) hb
      obtain ⟨s, hs'⟩ := titlecase_some (C := C) (w := a ++ ['\'']) (by simp)
      obtain ⟨N, hN⟩ := NotBad.settles (h _ (.article hf ht))
      obtain ⟨M, hM⟩ := NotBad.settles (h _ (.name hf hs' ht))
      refine ⟨max N M, fun f hf => ?_⟩
      dsimp only
      rw [if_neg (by simpa using hb), titlecase_bind ht, titlecase_bind hs']
      exact .or (hN f (by omega)) (hM f (by omega))

theorem spellUpperSharps_fine {C : Checker} {W : Str} (hw : W ≠ [])
    (h : ∀ s, CapsSpelling C W s → NotBad C .allowBad .accept s) :
    ∃ N, ∀ f, N ≤ f → C.Fine (C.spellUpperSharps f W) := by
  unfold spellUpperSharps
  by_cases hc : (C.opts.checksharps && containsStr W ['S', 'S']) = true
  · obtain ⟨h1, h2⟩ := (Bool.and_eq_true _ _).mp hc
    have h2 := containsStr_iff.1 h2
    obtain ⟨t, ht⟩ := titlecase_some (C := C) hw
    obtain ⟨N, hN⟩ := spellSharps_fine (C := C) (text := C.lowercase W) fun s hs => h s (.sharp h1 h2 hs)
    obtain ⟨M, hM⟩ := spellSharps_fine (C := C) (text := t) fun s hs => h s (.sharpTitle h1 h2 ht hs)
    refine ⟨max N M, fun f hf => ?_⟩
    rw [if_pos hc, titlecase_bind ht]
    exact .or (hN f (by omega)) (hM f (by omega))
  · exact ⟨0, fun f _ => by rw [if_neg hc]; exact Or.inl rfl⟩

/-- A word in all capitals whose other spellings are not bad is decided by a good entry, if its
lower-case form has a good entry without KEEPCASE. -/
theorem spellCasingUpper_good {C : Checker} {W : Str} (hw : W ≠ [])
    (h : ∀ s, CapsSpelling C W s → NotBad C .allowBad .accept s) {F : FlagSet}
    (hF : Finds C .allowBad .accept (C.lowercase W) F) (hg : Good C.dict F)
    (hk : ¬ KeepsCase C.dict F) :
    ∃ f F', C.spellCasingUpper f W = .ok (some F') ∧ C.goodFlags F' = true := by
  obtain ⟨t, ht⟩ := titlecase_some (C := C) hw
  obtain ⟨N1, h1⟩ := NotBad.settles (h _ .same)
  obtain ⟨N2, h2⟩ := spellApostrophe_fine h
  obtain ⟨N3, h3⟩ := spellUpperSharps_fine hw h
  obtain ⟨N4, h4⟩ := NotBad.settles (h _ (.title ht))
  obtain ⟨f, hf⟩ := hF
  obtain ⟨N5, h5⟩ := checkWord_settles hf
  let N := max N1 (max N2 (max N3 (max N4 N5)))
  have g1 := h1 N (by omega)
  have g2 := h2 N (by omega)
  have g3 := h3 N (by omega)
  have g4 := h4 N (by omega)
  have g5 := h5 N (by omega)
  refine ⟨N, ?_⟩
  unfold spellCasingUpper
  rw [titlecase_bind ht]
  dsimp only at g5
  rw [g5]
  have last : Except.map C.dropKeepCase (.ok (some F) : Run (Option FlagSet)) = .ok (some F) := by
    simp [Except.map, dropKeepCase_not hk]
  have hgood := goodFlags_iff.2 hg
  obtain ⟨F1, e1, q1⟩ := (g4.map (g := C.dropKeepCase) rfl C.dropKeepCase_some).or_some last hgood
  obtain ⟨F2, e2, q2⟩ := g3.or_some e1 q1
  obtain ⟨F3, e3, q3⟩ := g2.or_some e2 q2
  exact g1.or_some e3 q3

theorem titleKeepCase_not {C : Checker} {F : FlagSet} {lower : Str} (h : ¬ KeepsCase C.dict F) :
    C.titleKeepCase lower (some F) = some F := by
  have : hasFlag F C.opts.keepCaseFlag = false := hasFlag_false.2 h
  simp [titleKeepCase, Option.filter, this]

theorem titleKeepCase_keeps {C : Checker} {F : FlagSet} {lower : Str} (h : KeepsCase C.dict F)
    (hs : ¬ (C.opts.checksharps = true ∧ 'ß' ∈ lower)) : C.titleKeepCase lower (some F) = none := by
  have h1 : hasFlag F C.opts.keepCaseFlag = true := hasFlag_iff.2 h
  have h2 : (C.opts.checksharps && lower.contains 'ß') = false := by
    rw [← Bool.not_eq_true, Bool.and_eq_true, List.contains_iff_mem]; exact hs
  simp only [titleKeepCase, Option.filter, h1, h2]; rfl

theorem titleKeepCase_sharp {C : Checker} {F : FlagSet} {lower : Str}
    (hs : C.opts.checksharps = true ∧ 'ß' ∈ lower) : C.titleKeepCase lower (some F) = some F := by
  have h2 : (C.opts.checksharps && lower.contains 'ß') = true := by
    rw [Bool.and_eq_true, List.contains_iff_mem]; exact hs
  unfold titleKeepCase Option.filter
  dsimp only
  rw [h2]; simp

end Checker
end Spellbook
