import Verif.Spec.Letters
/-!
# Proofs about lower, upper, and title case
-/

namespace Spellbook
open Spec

variable {U : Unicode} {h : CaseHandling}

theorem turkicPair_small {s c : Char} : TurkicPair s c → ∀ {s'}, TurkicPair s' c → s' = s := by
  rintro (⟨rfl, rfl⟩ | ⟨rfl, rfl⟩) s' (⟨rfl, h⟩ | ⟨rfl, h⟩)
  · rfl
  · exact absurd h (by decide)
  · exact absurd h (by decide)
  · rfl

theorem turkicPair_capital {s c : Char} : TurkicPair s c → ∀ {c'}, TurkicPair s c' → c' = c := by
  rintro (⟨rfl, rfl⟩ | ⟨rfl, rfl⟩) c' (⟨h, rfl⟩ | ⟨h, rfl⟩)
  · rfl
  · exact absurd h (by decide)
  · exact absurd h (by decide)
  · rfl

theorem small_lowerChar (c : Char) : Small U h c (h.lowerChar U c) := by
  cases h with
  | standard => exact .standard
  | turkic =>
    unfold CaseHandling.lowerChar
    dsimp only
    split
    · next e => exact .pair (.inr ⟨rfl, e⟩)
    · next e1 =>
      split
      · next e => exact .pair (.inl ⟨rfl, e⟩)
      · next e2 =>
        refine .other ?_
        rintro s (⟨-, e⟩ | ⟨-, e⟩)
        · exact e2 e
        · exact e1 e

theorem small_iff {c : Char} {p : Str} : Small U h c p ↔ p = h.lowerChar U c := by
  constructor
  · intro hp
    have h' := small_lowerChar (U := U) (h := h) c
    generalize h.lowerChar U c = q at h'
    cases hp with
    | pair h1 =>
      cases h' with
      | pair h2 => rw [turkicPair_small h2 h1]
      | other h2 => exact absurd h1 (h2 _)
    | other h1 =>
      cases h' with
      | pair h2 => exact absurd h2 (h1 _)
      | other h2 => rfl
    | standard => cases h'; rfl
  · rintro rfl
    exact small_lowerChar c

theorem capital_upperChar (c : Char) : Large U h c (h.upperChar U c) := by
  cases h with
  | standard => exact .standard
  | turkic =>
    unfold CaseHandling.upperChar
    dsimp only
    split
    · next e => exact .pair (.inl ⟨e, rfl⟩)
    · next e1 =>
      split
      · next e => exact .pair (.inr ⟨e, rfl⟩)
      · next e2 =>
        refine .other ?_
        rintro s (⟨e, -⟩ | ⟨e, -⟩)
        · exact e1 e
        · exact e2 e

theorem capital_iff {c : Char} {p : Str} : Large U h c p ↔ p = h.upperChar U c := by
  constructor
  · intro hp
    have h' := capital_upperChar (U := U) (h := h) c
    generalize h.upperChar U c = q at h'
    cases hp with
    | pair h1 =>
      cases h' with
      | pair h2 => rw [turkicPair_capital h2 h1]
      | other h2 => exact absurd h1 (h2 _)
    | other h1 =>
      cases h' with
      | pair h2 => exact absurd h2 (h1 _)
      | other h2 => rfl
    | standard => cases h'; rfl
  · rintro rfl
    exact capital_upperChar c

theorem each_iff {P : Char → Str → Prop} {f : Char → Str} (hP : ∀ c p, P c p ↔ p = f c) {s t : Str} :
    Each P s t ↔ t = s.flatMap f := by
  constructor
  · intro ht
    induction ht with
    | nil => rfl
    | cons h1 _ ih => rw [List.flatMap_cons, (hP _ _).1 h1, ih]
  · rintro rfl
    induction s with
    | nil => exact .nil
    | cons c s ih => exact .cons ((hP _ _).2 rfl) ih

theorem startsCased_iff {s : Str} : StartsCased U s ↔ U.ignorableThenCased s = true := by
  unfold StartsCased Unicode.ignorableThenCased
  induction s with
  | nil => simp
  | cons x s ih =>
    by_cases hx : U.caseIgnorable x = true
    · rw [List.dropWhile_cons_of_pos hx, ← ih]
      constructor
      · rintro ⟨a, c, b, e, h1, h2, h3⟩
        cases a with
        | nil =>
          rw [List.nil_append, List.cons.injEq] at e
          rw [← e.1, hx] at h2
          cases h2
        | cons y a =>
          rw [List.cons_append, List.cons.injEq] at e
          exact ⟨a, c, b, e.2, fun z hz => h1 z (List.mem_cons_of_mem _ hz), h2, h3⟩
      · rintro ⟨a, c, b, rfl, h1, h2, h3⟩
        refine ⟨x :: a, c, b, rfl, fun z hz => ?_, h2, h3⟩
        rcases List.mem_cons.1 hz with rfl | hz
        · exact hx
        · exact h1 z hz
    · rw [List.dropWhile_cons_of_neg hx]
      constructor
      · rintro ⟨a, c, b, e, h1, h2, h3⟩
        cases a with
        | nil =>
          rw [List.nil_append, List.cons.injEq] at e
          rw [e.1]; exact h3
        | cons y a =>
          rw [List.cons_append, List.cons.injEq] at e
          exact absurd (e.1 ▸ h1 y List.mem_cons_self) hx
      · intro h3
        exact ⟨[], x, s, rfl, fun z hz => (by cases hz), by simpa using hx, h3⟩

/-- The letters before the text which is turned into lower case matter only for being cased. -/
theorem ignorableThenCased_map {f : Char → Char} (hf : ∀ c, U.cased (f c) = U.cased c ∧
    U.caseIgnorable (f c) = U.caseIgnorable c) (s : Str) :
    U.ignorableThenCased (s.map f) = U.ignorableThenCased s := by
  induction s with
  | nil => rfl
  | cons c s ih =>
    unfold Unicode.ignorableThenCased at ih ⊢
    rw [List.map_cons]
    by_cases hx : U.caseIgnorable c = true
    · rw [List.dropWhile_cons_of_pos hx, List.dropWhile_cons_of_pos (by rw [(hf c).2]; exact hx)]
      exact ih
    · rw [List.dropWhile_cons_of_neg hx, List.dropWhile_cons_of_neg (by rw [(hf c).2]; exact hx)]
      exact (hf c).1

/-- What the two replacements before `to_lowercase` do. -/
def undot (c : Char) : Char := if c = 'I' then 'ı' else if c = 'İ' then 'i' else c

/-- What the two replacements before `to_uppercase` do. -/
def dot (c : Char) : Char := if c = 'i' then 'İ' else if c = 'ı' then 'I' else c

theorem replace_undot (w : Str) : replaceChar (replaceChar w 'I' ['ı']) 'İ' ['i'] = w.map undot := by
  induction w with
  | nil => rfl
  | cons c w ih =>
    unfold replaceChar at ih ⊢
    rw [List.flatMap_cons, List.flatMap_append, ih, List.map_cons]
    unfold undot
    split
    · rfl
    · split
      · next h => subst h; rfl
      · next h => simp [h]

theorem replace_dot (w : Str) : replaceChar (replaceChar w 'i' ['İ']) 'ı' ['I'] = w.map dot := by
  induction w with
  | nil => rfl
  | cons c w ih =>
    unfold replaceChar at ih ⊢
    rw [List.flatMap_cons, List.flatMap_append, ih, List.map_cons]
    unfold dot
    split
    · rfl
    · split
      · next h => subst h; rfl
      · next h => simp [h]

theorem lower_undot (hU : KnowsI U) (c : Char) : U.lower (undot c) = CaseHandling.turkic.lowerChar U c := by
  unfold undot CaseHandling.lowerChar
  dsimp only
  split
  · exact hU.lower.2
  · split
    · exact hU.lower.1
    · rfl

theorem upper_dot (hU : KnowsI U) (c : Char) : U.upper (dot c) = CaseHandling.turkic.upperChar U c := by
  unfold dot CaseHandling.upperChar
  dsimp only
  split
  · exact hU.upper.2
  · split
    · exact hU.upper.1
    · rfl

theorem undot_cased (hU : KnowsI U) (c : Char) : U.cased (undot c) = U.cased c ∧
    U.caseIgnorable (undot c) = U.caseIgnorable c := by
  unfold undot
  split
  · next h =>
    subst h
    have h1 := hU.cased 'ı' (by decide)
    have h2 := hU.cased 'I' (by decide)
    rw [h1.1, h1.2, h2.1, h2.2]
    exact ⟨rfl, rfl⟩
  · split
    · next h =>
      subst h
      have h1 := hU.cased 'i' (by decide)
      have h2 := hU.cased 'İ' (by decide)
      rw [h1.1, h1.2, h2.1, h2.2]
      exact ⟨rfl, rfl⟩
    · exact ⟨rfl, rfl⟩

theorem undot_sigma {c : Char} : undot c = 'Σ' ↔ c = 'Σ' := by
  unfold undot
  split
  · next h => subst h; decide
  · split
    · next h => subst h; decide
    · rfl

theorem endsWord_iff {before after : Str} : EndsWord U before after ↔
    (U.ignorableThenCased before.reverse && !U.ignorableThenCased after) = true := by
  unfold EndsWord
  rw [startsCased_iff, startsCased_iff]
  simp

/-- The loop of `to_lowercase` on the prepared text. -/
theorem smallText_from {f : Char → Char} (hl : ∀ c, U.lower (f c) = h.lowerChar U c)
    (hf : ∀ c, U.cased (f c) = U.cased c ∧ U.caseIgnorable (f c) = U.caseIgnorable c)
    (hs : ∀ c, f c = 'Σ' ↔ c = 'Σ') (w : Str) : ∀ before,
    SmallText U h before w (U.lowerStrFrom (before.map f).reverse (w.map f)) := by
  induction w with
  | nil => intro before; exact .nil
  | cons c w ih =>
    intro before
    have ih' := ih (before ++ [c])
    rw [List.map_append, List.reverse_append, List.map_singleton, List.reverse_singleton,
      List.singleton_append] at ih'
    rw [List.map_cons]
    unfold Unicode.lowerStrFrom
    by_cases hc : c = 'Σ'
    · subst hc
      rw [(hs 'Σ').2 rfl] at ih' ⊢
      rw [if_pos rfl, ← List.map_reverse, ignorableThenCased_map hf, ignorableThenCased_map hf]
      rw [← List.map_reverse] at ih'
      split
      · next e => exact .last (endsWord_iff.2 e) ih'
      · next e => exact .sigma (fun h => e (endsWord_iff.1 h)) ih'
    · rw [if_neg fun h => hc ((hs c).1 h)]
      exact .letter hc (small_iff.2 (hl c)) ih'

theorem smallText_unique {before w t t' : Str} (h1 : SmallText U h before w t) :
    SmallText U h before w t' → t' = t := by
  induction h1 generalizing t' with
  | nil => intro h2; cases h2; rfl
  | last e _ ih =>
    intro h2
    cases h2 with
    | last _ h2 => rw [ih h2]
    | sigma e' _ => exact absurd e e'
    | letter e' _ _ => exact absurd rfl e'
  | sigma e _ ih =>
    intro h2
    cases h2 with
    | last e' _ => exact absurd e' e
    | sigma _ h2 => rw [ih h2]
    | letter e' _ _ => exact absurd rfl e'
  | letter e hp _ ih =>
    intro h2
    cases h2 with
    | last _ _ => exact absurd rfl e
    | sigma _ _ => exact absurd rfl e
    | letter _ hp' h2 => rw [ih h2, small_iff.1 hp, small_iff.1 hp']

theorem charEq_iff {l r : Char} : h.isCharEqLowercase U l r = true ↔ (h = .turkic ∧ TurkicPair l r) ∨ U.lower r = [l] := by
  unfold CaseHandling.isCharEqLowercase
  by_cases h1 : h = .turkic ∧ l = 'ı' ∧ r = 'I'
  · rw [if_pos h1]
    exact iff_of_true rfl (.inl ⟨h1.1, .inr h1.2⟩)
  by_cases h2 : h = .turkic ∧ l = 'i' ∧ r = 'İ'
  · rw [if_neg h1, if_pos h2]
    exact iff_of_true rfl (.inl ⟨h2.1, .inl h2.2⟩)
  rw [if_neg h1, if_neg h2]
  have h3 : ¬ (h = .turkic ∧ TurkicPair l r) := by
    rintro ⟨h3, h4 | h4⟩
    · exact h2 ⟨h3, h4⟩
    · exact h1 ⟨h3, h4⟩
  rw [or_iff_right h3]
  generalize U.lower r = t
  rcases t with _ | ⟨x, _ | ⟨y, ys⟩⟩
  · exact iff_of_false (fun e => by cases e) (fun e => by cases e)
  · dsimp only
    rw [beq_iff_eq, List.cons.injEq]
    exact ⟨fun e => ⟨e.symm, rfl⟩, fun e => e.1.symm⟩
  · exact iff_of_false (fun e => by cases e) (fun e => by cases e)

theorem same_iff {l r : Char} : h.isCharEqLowercase U l r = true ↔ Small U h r [l] ∨ U.lower r = [l] := by
  rw [charEq_iff]
  constructor
  · rintro (⟨rfl, hp⟩ | hl)
    · exact .inl (.pair hp)
    · exact .inr hl
  · rintro (hs | hl)
    · generalize hq : [l] = q at hs
      cases hs with
      | pair h1 =>
        rw [List.cons.injEq] at hq
        exact .inl ⟨rfl, hq.1 ▸ h1⟩
      | other _ => exact .inr rfl
      | standard => exact .inr rfl
    · exact .inr hl

end Spellbook
