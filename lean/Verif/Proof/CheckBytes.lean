import Verif.Model.CheckBytes
import Verif.Proof.Words
import Verif.Proof.EditBytes
import Verif.Proof.Run
import Verif.Proof.Compound
import Verif.Proof.Edits
import Verif.Proof.Check
import Verif.Proof.Conversion
import Mathlib.Data.List.Induction
import Mathlib.Tactic.ByContra
/-!
# Byte positions and character positions

Every function of `Model/CheckBytes.lean`, called with the byte position of a character, yields what
its counterpart yields for the character position.
-/

namespace Spellbook.Bytes

/-- The byte position of character `i`. -/
abbrev pos (w : Str) (i : Nat) : Nat := byteLen (w.take i)

@[simp] theorem need_some {α : Type} (a : α) : need (some a) = .ok a := rfl

@[simp] theorem ok_bind {α β : Type} (a : α) (f : α → Run β) : (Except.ok a >>= f) = f a := rfl

theorem areThreeCharsEqual_eq (w : Str) (i : Nat) :
    areThreeCharsEqual w (pos w i) = .ok (Spellbook.areThreeCharsEqual w i) := by
  unfold areThreeCharsEqual Spellbook.areThreeCharsEqual
  rw [sliceFrom?_take, sliceTo?_take]
  simp only [need_some, ok_bind]
  generalize w.drop i = a
  generalize (w.take i).reverse = b
  cases a with
  | nil => rfl
  | cons ch ahead =>
    cases b with
    | nil => rfl
    | cons prev behind =>
      simp only [List.getElem?_cons_zero, List.getElem?_cons_succ]
      show Except.ok _ = Except.ok _
      congr 1
      by_cases h : prev = ch
      · cases ahead <;> cases behind <;> simp [h, Bool.beq_eq_decide_eq] <;> rfl
      · simp [h]

theorem hasUppercaseAtBoundary_eq (u : Unicode) (w : Str) (i : Nat) :
    hasUppercaseAtBoundary u w (pos w i) = .ok (Spellbook.hasUppercaseAtBoundary u w i) := by
  unfold hasUppercaseAtBoundary Spellbook.hasUppercaseAtBoundary
  rw [sliceFrom?_take, sliceTo?_take]
  simp only [need_some, ok_bind]
  generalize w.drop i = a
  cases a with
  | nil => rfl
  | cons ch ahead =>
    rw [← List.head?_reverse]
    cases (w.take i).reverse <;> rfl

theorem charIndices_getLast? (w : Str) : ∀ n, (charIndices n w).getLast? =
    match w.reverse with
    | [] => none
    | c :: cs => some (n + byteLen cs.reverse, c) := by
  induction w using List.reverseRecOn with
  | nil => intro n; rfl
  | append_singleton w c _ =>
    intro n
    rw [List.reverse_append]
    simp only [List.reverse_singleton, List.singleton_append, List.reverse_reverse]
    have : ∀ (a b : Str) n, charIndices n (a ++ b) = charIndices n a ++ charIndices (n + byteLen a) b := by
      intro a b
      induction a with
      | nil => intro n; simp [charIndices]
      | cons d a ih => intro n; simp [charIndices, ih, Nat.add_assoc]
    rw [this]
    simp [charIndices]

theorem prevCodepoint_eq (w : Str) (i : Nat) :
    prevCodepoint w (pos w i) = .ok (match (w.take i).reverse with
      | [] => none
      | c :: cs => some (byteLen cs.reverse, c)) := by
  unfold prevCodepoint
  rw [sliceTo?_take]
  simp only [need_some, ok_bind, charIndices_getLast?]
  cases (w.take i).reverse <;> simp [pure, Except.pure]

/-- What `doubled` yields: the last character if the one before is the same. -/
theorem doubled_eq (w : Str) (i : Nat) :
    doubled w (pos w i) = .ok (match (w.take i).reverse with
      | c :: c' :: rest => if c = c' then some (byteLen (c' :: rest).reverse, c) else none
      | _ => none) := by
  unfold doubled
  rw [prevCodepoint_eq]
  rcases h : (w.take i).reverse with _ | ⟨c, _ | ⟨c', rest⟩⟩
  · rfl
  · rfl
  · have hw : w = ((c' :: rest).reverse ++ [c]) ++ w.drop i := by
      have := congrArg List.reverse h
      rw [List.reverse_reverse, List.reverse_cons] at this
      rw [← this, List.take_append_drop]
    have hp : byteLen (c' :: rest).reverse = pos w (rest.length + 1) := by
      unfold pos
      congr 1
      rw [hw, List.append_assoc, List.take_left' (by simp)]
    have ht : w.take (rest.length + 1) = (c' :: rest).reverse := by
      rw [hw, List.append_assoc, List.take_left' (by simp)]
    have h0 : byteLen (c' :: rest).reverse ≠ 0 := by
      intro h0
      have := byteLen_eq_zero.1 h0
      simp at this
    simp only [ok_bind, if_neg h0]
    rw [hp, prevCodepoint_eq, ht, List.reverse_reverse]
    simp only [ok_bind]
    by_cases hc : c = c'
    · simp [hc, pure, Except.pure]
    · simp [hc, pure, Except.pure]

theorem tripled_eq (w : Str) (i : Nat) : Checker.tripled w i =
    match (w.take i).reverse with
    | c :: c' :: _ => if c = c' then some (w.take i ++ [c] ++ w.drop i) else none
    | _ => none := by
  unfold Checker.tripled
  split <;> simp_all

/-! ## Patterns -/

theorem startsWith_pattern {p w : Str} {i : Nat} (hi : i ≤ w.length) (q : Str) :
    (p.length ≤ i ∧ startsWith (w.drop (i - p.length)) (p ++ q) = true) ↔
      ∃ x y, w = x ++ (p ++ q) ++ y ∧ i = x.length + p.length := by
  rw [startsWith_iff]
  constructor
  · rintro ⟨h, t, ht⟩
    refine ⟨w.take (i - p.length), t, ?_, ?_⟩
    · rw [List.append_assoc, ← ht, List.take_append_drop]
    · simp; omega
  · rintro ⟨x, y, rfl, rfl⟩
    refine ⟨by omega, ?_⟩
    rw [show x.length + p.length - p.length = x.length by omega, List.append_assoc, List.drop_left]
    exact ⟨y, rfl⟩

theorem sliceFrom_pattern {p w : Str} {i : Nat} (hi : i ≤ w.length) (q : Str) :
    (byteLen p ≤ pos w i ∧ ((sliceFrom? w (pos w i - byteLen p)).any fun comp =>
      startsWith comp (p ++ q)) = true) ↔
      ∃ x y, w = x ++ (p ++ q) ++ y ∧ i = x.length + p.length := by
  constructor
  · rintro ⟨h, h2⟩
    rw [Option.any_eq_true] at h2
    obtain ⟨comp, h2, h3⟩ := h2
    obtain ⟨x, hx, hl⟩ := sliceFrom?_some h2
    obtain ⟨y, hy⟩ := startsWith_iff.1 h3
    subst hy
    refine ⟨x, y, by rw [hx]; simp, ?_⟩
    have hlen : x.length + p.length ≤ w.length := by rw [hx]; simp
    refine byteLen_take_inj hi hlen ?_
    have : w.take (x.length + p.length) = x ++ p := by
      rw [hx, List.append_assoc, ← List.append_assoc x, List.take_left' (by simp)]
    rw [this, byteLen_append, hl]
    show pos w i = _
    omega
  · rintro ⟨x, y, rfl, rfl⟩
    have : (x ++ (p ++ q) ++ y).take (x.length + p.length) = x ++ p := by
      rw [List.append_assoc, List.append_assoc, ← List.append_assoc, List.take_left' (by simp)]
    unfold pos
    rw [this, byteLen_append]
    refine ⟨by omega, ?_⟩
    rw [Nat.add_sub_cancel, List.append_assoc, sliceFrom?_append]
    exact startsWith_iff.2 ⟨y, rfl⟩

theorem matchCompoundPattern_eq {w : Str} {i : Nat} (hi : i ≤ w.length) (p : CompoundPattern)
    (a b : CompoundingResult) :
    matchCompoundPattern p w (pos w i) a b = Checker.matchCompoundPattern p w i a b := by
  have h := (startsWith_pattern (p := p.first) hi p.second).trans
    (sliceFrom_pattern (p := p.first) hi p.second).symm
  unfold matchCompoundPattern Checker.matchCompoundPattern
  by_cases h1 : p.first.length ≤ i ∧ startsWith (w.drop (i - p.first.length)) (p.first ++ p.second) = true
  · obtain ⟨h3, h4⟩ := h.1 h1
    rw [if_neg (Nat.not_lt.2 h3), if_neg (Nat.not_lt.2 h1.1), h4, h1.2]
  · have h2 := mt h.2 h1
    have e1 : (if i < p.first.length then false
      else if !startsWith (w.drop (i - p.first.length)) (p.first ++ p.second) then false
      else if p.firstWordFlag.any fun f => !a.flags.contains f then false
      else if p.secondWordFlag.any fun f => !b.flags.contains f then false
      else if p.matchFirstOnlyUnaffixed && a.affixedAndModified then false
      else true) = false := by
      by_cases h3 : i < p.first.length
      · rw [if_pos h3]
      · rw [if_neg h3, if_pos]
        by_contra h4
        exact h1 ⟨by omega, by simpa using h4⟩
    rw [e1]
    by_cases h3 : pos w i < byteLen p.first
    · rw [if_pos h3]
    · rw [if_neg h3, if_pos]
      by_contra h4
      exact h2 ⟨by omega, by simpa using h4⟩

theorem forbiddenByPatterns_eq (C : Checker) {w : Str} {i : Nat} (hi : i ≤ w.length)
    (a b : CompoundingResult) :
    forbiddenByPatterns C w (pos w i) a b = C.forbiddenByPatterns w i a b := by
  unfold forbiddenByPatterns Checker.forbiddenByPatterns
  congr 1
  funext p
  exact matchCompoundPattern_eq hi p a b

/-! ## REP -/

/-- A loop which leaves the scratch text as it is unless it returns. -/
theorem scratchLoop_eq {α : Type} {f : α → Str → Run (Option Str)} {g : α → Bool} {w : Str} :
    ∀ {l : List α}, (∀ a ∈ l, f a w = .ok (if g a then none else some w)) →
      scratchLoop f l w = .ok (if l.any g then none else some w)
  | [], _ => rfl
  | a :: l, h => by
    rw [scratchLoop, h a (List.mem_cons_self ..)]
    cases hg : g a with
    | true => simp [pure, Except.pure, hg]
    | false =>
      simp only [Bool.false_eq_true, if_false, ok_bind]
      rw [scratchLoop_eq fun a ha => h a (List.mem_cons_of_mem _ ha)]
      simp [hg]

theorem scratchLoop_map {α β : Type} (f : β → Str → Run (Option Str)) (φ : α → β) :
    ∀ (l : List α) (w : Str), scratchLoop f (l.map φ) w = scratchLoop (fun a => f (φ a)) l w
  | [], _ => rfl
  | a :: l, w => by
    simp only [List.map_cons, scratchLoop]
    congr 1
    funext r
    cases r with
    | none => rfl
    | some w => exact scratchLoop_map f φ l w

theorem repAttempt_eq (C : Checker) {x y : Str} (f t : Str) {hi back : Str → Nat}
    (h1 : hi (x ++ f ++ y) = byteLen x + byteLen f)
    (h2 : back (x ++ t ++ y) = byteLen x + byteLen t) :
    repAttempt C (byteLen x) hi back f t (x ++ f ++ y) =
      .ok (if C.isSimpleWord (x ++ t ++ y) then none else some (x ++ f ++ y)) := by
  have e : ∀ f t : Str, replaceRange? (x ++ f ++ y) (byteLen x) (byteLen x + byteLen f) t =
      some (x ++ t ++ y) := by
    intro f t
    simpa [List.append_assoc] using replaceRange?_eq x f y t
  unfold repAttempt
  rw [h1, e]
  simp only [need_some, ok_bind]
  rw [h2, e]
  split <;> simp [pure, Except.pure]

theorem isRepSimilar_eq (C : Checker) (w : Str) : isRepSimilar C w = .ok (C.isRepSimilar w) := by
  unfold isRepSimilar Checker.isRepSimilar
  simp only
  split
  · rfl
  split
  · rfl
  rw [scratchLoop_eq (g := fun r => startsWith w r.1 && C.isSimpleWord (r.2 ++ w.drop r.1.length))]
  swap
  · rintro ⟨f, t⟩ -
    simp only
    by_cases h : startsWith w f = true
    · obtain ⟨y, rfl⟩ := startsWith_iff.1 h
      have := repAttempt_eq C (x := []) (y := y) f t (hi := fun _ => byteLen f) (back := fun _ => byteLen t)
        (by simp) (by simp)
      simp only [List.nil_append, byteLen_nil] at this
      rw [if_pos h, this, h]
      simp
    · rw [if_neg h]
      simp [h, pure, Except.pure]
  simp only [ok_bind]
  by_cases hs : (C.aff.replacements.start.any fun r => startsWith w r.1 &&
    C.isSimpleWord (r.2 ++ w.drop r.1.length)) = true
  · rw [if_pos hs, if_pos hs]; rfl
  rw [if_neg hs, if_neg hs]
  simp only
  rw [scratchLoop_eq (g := fun r => endsWith w r.1 &&
    C.isSimpleWord (w.take (w.length - r.1.length) ++ r.2))]
  swap
  · rintro ⟨f, t⟩ -
    simp only
    by_cases h : endsWith w f = true
    · obtain ⟨x, rfl⟩ := endsWith_iff.1 h
      have := repAttempt_eq C (x := x) (y := []) f t (hi := byteLen) (back := byteLen)
        (by simp) (by simp)
      simp only [List.append_nil] at this
      rw [if_pos h, byteLen_append, Nat.add_sub_cancel, this, h]
      simp
    · rw [if_neg h]
      simp [h, pure, Except.pure]
  simp only [ok_bind]
  by_cases hs : (C.aff.replacements.stop.any fun r => endsWith w r.1 &&
    C.isSimpleWord (w.take (w.length - r.1.length) ++ r.2)) = true
  · rw [if_pos hs, if_pos hs]; rfl
  rw [if_neg hs, if_neg hs]
  simp only
  rw [scratchLoop_eq (g := fun r => (matchIndices w r.1).any fun idx =>
    C.isSimpleWord (w.take idx ++ r.2 ++ w.drop (idx + r.1.length)))]
  · simp only [ok_bind]
    generalize (C.aff.replacements.anywhere.any _) = b
    cases b <;> rfl
  · rintro ⟨f, t⟩ -
    simp only
    unfold matchBytes
    rw [scratchLoop_map, scratchLoop_eq (g := fun idx =>
      C.isSimpleWord (w.take idx ++ t ++ w.drop (idx + f.length)))]
    intro i hi
    obtain ⟨h1, y, hy⟩ := matchIndices_sound hi
    have hw : w = w.take i ++ f ++ y := by rw [List.append_assoc, hy, List.take_append_drop]
    have hd : w.drop (i + f.length) = y := by rw [← List.drop_drop, ← hy, List.drop_left]
    have := repAttempt_eq C (x := w.take i) (y := y) f t
      (hi := fun _ => byteLen (w.take i) + byteLen f) (back := fun _ => byteLen (w.take i) + byteLen t)
      rfl rfl
    rw [← hw] at this
    rw [this, hd]

/-! ## The search -/

theorem slice?_eq (w : Str) {a b : Nat} (h : a ≤ b) :
    slice? w (pos w a) (pos w b) = some (slice w a b) := slice?_take w h

theorem sliceFrom?_pos (w : Str) (i : Nat) : sliceFrom? w (pos w i) = some (w.drop i) :=
  sliceFrom?_take w i

theorem sliceTo?_pos (w : Str) (i : Nat) : sliceTo? w (pos w i) = some (w.take i) :=
  sliceTo?_take w i

@[simp] theorem ite_ok {α : Type} {c : Prop} [Decidable c] (a b : α) :
    (if c then (Except.ok a : Run α) else Except.ok b) = .ok (if c then a else b) := by
  split <;> rfl

theorem pure_ok {α : Type} (a : α) : (pure a : Run α) = .ok a := rfl

theorem ite_and (c x : Bool) : (if c = true then x else false) = (c && x) := by cases c <;> rfl

theorem classicSecond_eq (C : Checker) {w : Str} {s i n : Nat} (hi : i ≤ w.length) (fc : Forceucase)
    (a : CompoundingResult) :
    classicSecond C w (pos w s) (pos w i) n fc a = .ok (C.classicSecond w s i n fc a) := by
  unfold classicSecond Checker.classicSecond
  rw [sliceFrom?_pos w i]
  simp only [need_some, ok_bind]
  cases C.checkWordInCompound .atEnd (w.drop i) with
  | none => rfl
  | some b =>
    simp only [sliceFrom?_pos, need_some, ok_bind, isRepSimilar_eq, pure_ok, ite_ok, ite_and,
      forbiddenByPatterns_eq C hi]

theorem slice_stem {w : Str} {s i : Nat} (hs : s ≤ i) (hi : i ≤ w.length) {stem : Str}
    (h : startsWith (w.drop i) stem = true) :
    slice? w (pos w s) (pos w i + byteLen stem) = some (slice w s (i + stem.length)) := by
  obtain ⟨t, ht⟩ := startsWith_iff.1 h
  have : pos w i + byteLen stem = pos w (i + stem.length) := by
    unfold pos
    rw [List.take_add, ht, List.take_left, byteLen_append]
  rw [this, slice?_eq w (by omega)]

theorem repAfterRecursion_eq (C : Checker) {w : Str} {s i : Nat} (hs : s ≤ i) (hi : i ≤ w.length)
    (b : CompoundingResult) :
    repAfterRecursion C w (pos w s) (pos w i) b = .ok (C.repAfterRecursion w s i b) := by
  unfold repAfterRecursion Checker.repAfterRecursion
  cases C.opts.compoundCheckRep with
  | false => rfl
  | true =>
    simp only [sliceFrom?_pos, need_some, ok_bind, isRepSimilar_eq, pure_ok, Option.any_some,
      Bool.true_and, if_true]
    cases C.isRepSimilar (w.drop s) with
    | true => rfl
    | false =>
      cases h : startsWith (w.drop i) b.stem with
      | false => rfl
      | true =>
        simp only [slice_stem hs hi h, need_some, ok_bind, isRepSimilar_eq, Bool.false_eq_true, if_false,
          if_true, Bool.false_or, Bool.true_and]

theorem tripleSecond_eq (C : Checker) {t w : Str} {s i n : Nat} (hi : i ≤ t.length)
    (ht : pos t i = pos w i) (fc : Forceucase) (a : CompoundingResult) :
    tripleSecond C t w (pos w s) (pos w i) n fc a = .ok (C.tripleSecond t w s i n fc a) := by
  unfold tripleSecond Checker.tripleSecond
  rw [← ht, sliceFrom?_pos t i]
  simp only [need_some, ok_bind]
  cases C.checkWordInCompound .atEnd (t.drop i) with
  | none => rfl
  | some b =>
    simp only [sliceFrom?_pos, need_some, ok_bind, isRepSimilar_eq, pure_ok, ite_ok, ite_and,
      forbiddenByPatterns_eq C hi]

/-- The search at byte positions is the search at character positions. -/
def Agree (S T : Checker.Search) : Prop :=
  ∀ w s n, s ≤ w.length → S w (pos w s) n = T w s n

theorem tripleRecursive_eq (C : Checker) {S T : Checker.Search} (hS : Agree S T) {t w : Str}
    {s i n : Nat} (hs : s ≤ i) (hi : i ≤ w.length) (hit : i ≤ t.length) (ht : pos t i = pos w i)
    (a : CompoundingResult) :
    tripleRecursive C S t w (pos w s) (pos w i) n a = C.tripleRecursive T t w s i n a := by
  unfold tripleRecursive Checker.tripleRecursive
  rw [← ht, hS t i (n + 1) hit]
  congr 1
  funext r
  cases r with
  | none => rfl
  | some b =>
    simp only
    rw [forbiddenByPatterns_eq C hit, ht, repAfterRecursion_eq C hs hi]
    simp only [ok_bind]

theorem simplifiedTriple_eq (C : Checker) {S T : Checker.Search} (hS : Agree S T) {w : Str}
    {s i n : Nat} (hs : s ≤ i) (hi : i ≤ w.length) (fc : Forceucase) (a : CompoundingResult) :
    simplifiedTriple C S w (pos w s) (pos w i) n fc a = C.simplifiedTriple T w s i n fc a := by
  unfold simplifiedTriple Checker.simplifiedTriple
  split
  · rfl
  rw [doubled_eq, tripled_eq]
  rcases h : (w.take i).reverse with _ | ⟨c, _ | ⟨c', rest⟩⟩
  · rfl
  · rfl
  simp only [ok_bind]
  by_cases hc : c = c'
  · subst hc
    simp only [if_true]
    have h' := congrArg List.reverse h
    rw [List.reverse_reverse, List.reverse_cons] at h'
    have hins : insertAt? w (byteLen (c :: rest).reverse) c = some (w.take i ++ [c] ++ w.drop i) := by
      have := insertAt?_eq (c :: rest).reverse (c :: w.drop i) c
      rw [show (c :: rest).reverse ++ c :: w.drop i = w by
        conv_rhs => rw [← List.take_append_drop i w, h']
        simp] at this
      rw [this, h']
      simp
    rw [hins]
    simp only [need_some, ok_bind]
    have hl : (w.take i).length = i := by rw [List.length_take]; omega
    have ht : pos (w.take i ++ [c] ++ w.drop i) i = pos w i := by
      unfold pos
      rw [List.append_assoc, List.take_left' hl]
    have hit : i ≤ (w.take i ++ [c] ++ w.drop i).length := by simp; omega
    rw [tripleSecond_eq C hit ht]
    simp only [ok_bind]
    cases C.tripleSecond (w.take i ++ [c] ++ w.drop i) w s i n fc a with
    | accept => rfl
    | reject => rfl
    | next => exact tripleRecursive_eq C hS hs hi hit ht a
  · simp only [if_neg hc]; rfl

theorem tryRecursive_eq (C : Checker) {S T : Checker.Search} (hS : Agree S T) {w : Str}
    {s i n : Nat} (hs : s ≤ i) (hi : i ≤ w.length) (fc : Forceucase) (a : CompoundingResult) :
    tryRecursive C S w (pos w s) (pos w i) n fc a = C.tryRecursive T w s i n fc a := by
  unfold tryRecursive Checker.tryRecursive
  rw [hS w i (n + 1) hi]
  congr 1
  funext r
  cases r with
  | none => exact simplifiedTriple_eq C hS hs hi fc a
  | some b =>
    simp only
    rw [forbiddenByPatterns_eq C hi, repAfterRecursion_eq C hs hi, simplifiedTriple_eq C hS hs hi]
    simp only [ok_bind]

theorem classicFirst_eq (C : Checker) (m : Mode) {w : Str} {s i : Nat} (hs : s ≤ i) :
    classicFirst C m w (pos w s) (pos w i) = .ok (C.classicFirst m w s i) := by
  unfold classicFirst Checker.classicFirst
  rw [slice?_eq w hs]
  simp only [need_some, ok_bind]
  cases C.checkWordInCompound m (slice w s i) with
  | none => rfl
  | some b =>
    simp only [areThreeCharsEqual_eq, hasUppercaseAtBoundary_eq, pure_ok, ite_ok, ok_bind, ite_and]

theorem classic_eq (C : Checker) {S T : Checker.Search} (hS : Agree S T) (m : Mode) {w : Str}
    {s i n : Nat} (hs : s ≤ i) (hi : i ≤ w.length) (fc : Forceucase) :
    classic C S m w (pos w s) (pos w i) n fc = C.classic T m w s i n fc := by
  unfold classic Checker.classic
  rw [classicFirst_eq C m hs]
  simp only [ok_bind]
  cases C.classicFirst m w s i with
  | none => rfl
  | some a =>
    simp only
    rw [classicSecond_eq C hi]
    simp only [ok_bind]
    cases C.classicSecond w s i (n + C.wordCount a) fc a with
    | accept => rfl
    | reject => rfl
    | next => exact tryRecursive_eq C hS hs hi fc a

/-! ## Replaced boundaries -/

theorem patternFirst_eq (C : Checker) (p : CompoundPattern) (m : Mode) {x : Str} {s j : Nat}
    (hs : s ≤ j) :
    patternFirst C p m x (pos x s) (pos x j) = .ok (C.patternFirst p m x s j) := by
  unfold patternFirst Checker.patternFirst
  rw [slice?_eq x hs]
  simp only [need_some, ok_bind]
  cases C.checkWordInCompound m (slice x s j) with
  | none => rfl
  | some b => simp only [areThreeCharsEqual_eq, pure_ok, ite_ok, ok_bind, ite_and]

theorem patternSecond_eq (C : Checker) (p : CompoundPattern) (text : Str) {w : Str} {s n : Nat}
    (fc : Forceucase) (a : CompoundingResult) :
    patternSecond C p text w (pos w s) n fc a = .ok (C.patternSecond p text w s n fc a) := by
  unfold patternSecond Checker.patternSecond
  cases C.checkWordInCompound .atEnd text with
  | none => rfl
  | some b =>
    simp only [sliceFrom?_pos, need_some, ok_bind, isRepSimilar_eq, pure_ok, ite_ok, ite_and]

theorem patternRecursionOk_eq (C : Checker) (p : CompoundPattern) {x w : Str} {s j : Nat} (hs : s ≤ j)
    (hj : j ≤ x.length) (hx : pos x s = pos w s) (b : CompoundingResult) :
    patternRecursionOk C p x w (pos w s) (pos x j) b = .ok (C.patternRecursionOk p x w s j b) := by
  unfold patternRecursionOk Checker.patternRecursionOk
  split
  · rfl
  cases C.opts.compoundCheckRep with
  | false => rfl
  | true =>
    simp only [sliceFrom?_pos, need_some, ok_bind, isRepSimilar_eq, pure_ok, Bool.true_and, if_true]
    cases C.isRepSimilar (w.drop s) with
    | true => rfl
    | false =>
      cases h : startsWith (x.drop j) b.stem with
      | false => rfl
      | true =>
        rw [← hx]
        simp only [slice_stem hs hj h, need_some, ok_bind, isRepSimilar_eq, Bool.false_eq_true, if_false,
          if_true, Bool.false_or, Bool.true_and]
        cases C.isRepSimilar (slice x s (j + b.stem.length)) <;> rfl

theorem slice?_ite (w : Str) {a b : Nat} (ha : a ≤ w.length) (hb : b ≤ w.length) :
    slice? w (pos w a) (pos w b) = if a ≤ b then some (slice w a b) else none := by
  split
  · exact slice?_eq w ‹_›
  · unfold slice?
    rw [if_neg]
    exact fun h => ‹¬ _› ((byteLen_take_le_iff ha hb).1 h)

theorem patternTripleRecursionOk_eq (C : Checker) (p : CompoundPattern) {x w : Str} {s j : Nat}
    (hs : s ≤ j) (hj : j ≤ x.length) (hx : pos x s = pos w s) {c : Char} {y : Str}
    (hy : x.take j = y ++ [c]) (b : CompoundingResult) :
    patternTripleRecursionOk C p (x.take j ++ [c] ++ x.drop j) x w (pos w s) (pos x j) c.utf8Size b =
      .ok (C.patternTripleRecursionOk p (x.take j ++ [c] ++ x.drop j) x w s j b) := by
  have hl : (x.take j).length = j := by rw [List.length_take]; omega
  have hj1 : j = y.length + 1 := by rw [← hl, hy]; simp
  have hd : (x.take j ++ [c] ++ x.drop j).drop j = c :: x.drop j := by
    rw [List.append_assoc, List.drop_left' hl]; rfl
  have hp : pos (x.take j ++ [c] ++ x.drop j) j = pos x j := by
    unfold pos
    rw [List.append_assoc, List.take_left' hl]
  have hpj : pos x j = byteLen y + c.utf8Size := by
    unfold pos
    rw [hy, byteLen_append]
    simp
  unfold patternTripleRecursionOk Checker.patternTripleRecursionOk
  split
  · rfl
  cases C.opts.compoundCheckRep with
  | false => rfl
  | true =>
    rw [← hp, sliceFrom?_pos, sliceFrom?_pos, hp, hd]
    simp only [need_some, ok_bind, isRepSimilar_eq, pure_ok, Bool.true_and, if_true]
    cases C.isRepSimilar (w.drop s) with
    | true => rfl
    | false =>
      cases h : startsWith (c :: x.drop j) b.stem with
      | false => rfl
      | true =>
        have hend : pos x j + byteLen b.stem - c.utf8Size = pos x (j + b.stem.length - 1) ∧
            j + b.stem.length - 1 ≤ x.length := by
          obtain ⟨t, ht⟩ := startsWith_iff.1 h
          cases hb : b.stem with
          | nil =>
            refine ⟨?_, by simp; omega⟩
            have : x.take (j - 1) = y := by
              have : x.take (j - 1) = (x.take j).take (j - 1) := by
                rw [List.take_take, Nat.min_eq_left (by omega)]
              rw [this, hy, List.take_left' (by omega)]
            simp only [List.length_nil, Nat.add_zero, byteLen_nil]
            unfold pos
            rw [this]
            show pos x j - _ = _
            omega
          | cons d r =>
            rw [hb, List.cons_append] at ht
            obtain ⟨rfl, ht'⟩ := List.cons.inj ht
            have hlen := congrArg List.length ht'
            rw [List.length_drop, List.length_append] at hlen
            refine ⟨?_, by simp only [List.length_cons]; omega⟩
            have : pos x (j + r.length) = pos x j + byteLen r := by
              unfold pos
              rw [List.take_add, ht', List.take_left, byteLen_append]
            rw [List.length_cons, show j + (r.length + 1) - 1 = j + r.length by omega, this,
              byteLen_cons]
            omega
        rw [← hx]
        simp only [Bool.false_eq_true, if_false, if_true, Bool.false_or, Bool.true_and]
        rw [if_neg (by omega), hend.1, slice?_ite x (by omega) hend.2]
        by_cases hse : s ≤ j + b.stem.length - 1
        · simp only [hse, if_true, decide_true, Bool.true_and, isRepSimilar_eq, ok_bind]
          cases C.isRepSimilar (slice x s (j + b.stem.length - 1)) <;> rfl
        · simp [hse]

theorem patternTriple_eq (C : Checker) {S T : Checker.Search} (hS : Agree S T) (p : CompoundPattern)
    {x w : Str} {s j n : Nat} (hs : s ≤ j) (hj : j ≤ x.length) (hx : pos x s = pos w s)
    (fc : Forceucase) (a : CompoundingResult) :
    patternTriple C S p x w (pos w s) (pos x j) n fc a = C.patternTriple T p x w s j n fc a := by
  unfold patternTriple Checker.patternTriple
  split
  · rfl
  rw [doubled_eq, tripled_eq]
  rcases h : (x.take j).reverse with _ | ⟨c, _ | ⟨c', rest⟩⟩
  · rfl
  · rfl
  simp only [ok_bind]
  by_cases hc : c = c'
  · subst hc
    have h' := congrArg List.reverse h
    rw [List.reverse_reverse, List.reverse_cons] at h'
    have hl : (x.take j).length = j := by rw [List.length_take]; omega
    have ht : pos (x.take j ++ [c] ++ x.drop j) j = pos x j := by
      unfold pos
      rw [List.append_assoc, List.take_left' hl]
    have hit : j ≤ (x.take j ++ [c] ++ x.drop j).length := by simp; omega
    simp only [if_true, sliceFrom?_pos, sliceTo?_pos, need_some, ok_bind]
    rw [← ht, sliceFrom?_pos, ht]
    simp only [need_some, ok_bind]
    rw [patternSecond_eq]
    simp only [ok_bind]
    cases C.patternSecond p ((x.take j ++ [c] ++ x.drop j).drop j) w s n fc a with
    | accept => rfl
    | reject => rfl
    | next =>
      simp only
      have := hS (x.take j ++ [c] ++ x.drop j) j (n + 1) hit
      rw [ht] at this
      rw [this]
      congr 1
      funext r
      cases r with
      | none => rfl
      | some b =>
        simp only
        rw [patternTripleRecursionOk_eq C p hs hj hx h']
        simp only [ok_bind]
  · simp only [if_neg hc]; rfl

theorem patternBody_eq (C : Checker) {S T : Checker.Search} (hS : Agree S T) (m : Mode) {w : Str}
    {s i n : Nat} (hs : s ≤ i) (hi : i ≤ w.length) (fc : Forceucase) (p : CompoundPattern) :
    patternBody C S m w (pos w s) (pos w i) n fc p = C.patternBody T m w s i n fc p := by
  unfold patternBody Checker.patternBody
  cases p.replacement with
  | none => rfl
  | some rep =>
    simp only [sliceFrom?_pos, sliceTo?_pos, need_some, ok_bind]
    cases h : startsWith (w.drop i) rep with
    | false => rfl
    | true =>
      obtain ⟨t, ht⟩ := startsWith_iff.1 h
      have hr : pos w i + byteLen rep = pos w (i + rep.length) := by
        unfold pos
        rw [List.take_add, ht, List.take_left, byteLen_append]
      have hl : (w.take i).length = i := by rw [List.length_take]; omega
      rw [hr, sliceFrom?_pos]
      simp only [need_some, ok_bind, Bool.not_true, Bool.false_eq_true, if_false]
      generalize hxd : w.take i ++ (p.first ++ p.second) ++ w.drop (i + rep.length) = x
      have hxs : pos x s = pos w s := by
        unfold pos
        rw [← hxd, List.append_assoc, List.take_append_of_le_length (by omega), List.take_take,
          Nat.min_eq_left hs]
      have hxj : pos w i + byteLen p.first = pos x (i + p.first.length) := by
        unfold pos
        rw [← hxd, List.append_assoc, List.append_assoc, ← List.append_assoc, List.take_left'
          (by rw [List.length_append, hl]), byteLen_append]
      have hj : i + p.first.length ≤ x.length := by
        rw [← hxd]
        simp only [List.length_append, hl]
        omega
      have hsj : s ≤ i + p.first.length := by omega
      rw [hxj, ← hxs, patternFirst_eq C p m hsj, hxs]
      simp only [ok_bind]
      cases C.patternFirst p m x s (i + p.first.length) with
      | none => rfl
      | some a =>
        simp only
        rw [sliceFrom?_pos]
        simp only [need_some, ok_bind]
        rw [patternSecond_eq]
        simp only [ok_bind]
        cases C.patternSecond p (x.drop (i + p.first.length)) w s n fc a with
        | accept => rfl
        | reject => rfl
        | next =>
          simp only
          rw [hS x _ (n + 1) hj]
          congr 1
          funext r
          cases r with
          | none => exact patternTriple_eq C hS p hsj hj hxs fc a
          | some b =>
            simp only
            rw [patternRecursionOk_eq C p hsj hj hxs, patternTriple_eq C hS p hsj hj hxs]
            simp only [ok_bind]

theorem compoundAt_eq (C : Checker) {S T : Checker.Search} (hS : Agree S T) (m : Mode) {w : Str}
    {s i n : Nat} (hs : s ≤ i) (hi : i ≤ w.length) (fc : Forceucase) :
    compoundAt C S m w (pos w s) n fc (pos w i) = C.compoundAt T m w s n fc i := by
  unfold compoundAt Checker.compoundAt withPatternReplacements Checker.withPatternReplacements
  rw [classic_eq C hS m hs hi]
  congr 4
  funext p
  exact patternBody_eq C hS m hs hi fc p

theorem first_map_eq {α β γ : Type} {f : α → Run (Option γ)} {g : β → Run (Option γ)} {φ : β → α} :
    ∀ {l : List β}, (∀ b ∈ l, f (φ b) = g b) → Run.first f (l.map φ) = Run.first g l
  | [], _ => rfl
  | b :: l, h => by
    simp only [List.map_cons, Run.first]
    rw [h b (List.mem_cons_self ..), first_map_eq fun b hb => h b (List.mem_cons_of_mem _ hb)]

theorem checkCompoundImpl_eq (C : Checker) (hm : 0 < C.opts.minChars) (fc : Forceucase) :
    ∀ (fuel : Nat) (m : Mode), Agree (checkCompoundImpl C fc fuel m) (C.checkCompoundImpl fc fuel m)
  | 0, _, _, _, _, _ => rfl
  | fuel + 1, m, w, s, n, hs => by
    unfold checkCompoundImpl Checker.checkCompoundImpl
    rw [bytesWithin_eq w s _ hs hm]
    simp only [need_some, ok_bind]
    refine first_map_eq fun i hi => ?_
    obtain ⟨h1, h2⟩ := mem_splitPoints.1 hi
    exact compoundAt_eq C (checkCompoundImpl_eq C hm fc fuel .atMiddle) m (by omega) (by omega) fc

/-! ## Rules -/

theorem ruleAt_eq (C : Checker) {S T : Str → List FlagSet → Nat → Run (Option CompoundingResult)}
    (hS : ∀ w d s, s ≤ w.length → S w d (pos w s) = T w d s) {w : Str} {d : List FlagSet} {s i : Nat}
    (hs : s ≤ i) (hi : i ≤ w.length) (fc : Forceucase) :
    ruleAt C S w d (pos w s) fc (pos w i) = C.ruleAt T w d s fc i := by
  unfold ruleAt Checker.ruleAt
  rw [slice?_eq w hs]
  simp only [need_some, ok_bind]
  cases (C.entries (slice w s i)).find? C.rulePart with
  | none => rfl
  | some a =>
    simp only
    have : ruleDirect C w (d ++ [a.2]) (pos w i) fc = .ok (C.ruleDirect w (d ++ [a.2]) i fc) := by
      unfold ruleDirect Checker.ruleDirect
      rw [sliceFrom?_pos]
      simp only [need_some, ok_bind]
      cases (C.entries (w.drop i)).find? C.rulePart <;> rfl
    rw [this, hS w _ i hi]
    simp only [ok_bind, pure_ok]

theorem checkRulesImpl_eq (C : Checker) (hm : 0 < C.opts.minChars) (fc : Forceucase) :
    ∀ (fuel : Nat) (w : Str) (d : List FlagSet) (s : Nat), s ≤ w.length →
      checkRulesImpl C fc fuel w d (pos w s) = C.checkRulesImpl fc fuel w d s
  | 0, _, _, _, _ => rfl
  | fuel + 1, w, d, s, hs => by
    unfold checkRulesImpl Checker.checkRulesImpl
    rw [bytesWithin_eq w s _ hs hm]
    simp only [need_some, ok_bind]
    refine first_map_eq fun i hi => ?_
    obtain ⟨h1, h2⟩ := mem_splitPoints.1 hi
    exact ruleAt_eq C (checkRulesImpl_eq C hm fc fuel) (by omega) (by omega) fc

theorem checkCompound_eq (C : Checker) (hm : 0 < C.opts.minChars) (fuel : Nat) (m : Mode) (w : Str)
    (fc : Forceucase) : checkCompound C fuel m w fc = C.checkCompound fuel m w fc := by
  have h1 := checkCompoundImpl_eq C hm fc fuel m w 0 0 (Nat.zero_le _)
  have h2 := checkRulesImpl_eq C hm fc (w.length + 1) w [] 0 (Nat.zero_le _)
  unfold checkCompound Checker.checkCompound Checker.checkRules
  rw [← h1, ← h2]
  rfl

theorem checkWord_eq (C : Checker) (hm : 0 < C.opts.minChars) (fuel : Nat) (w : Str)
    (fc : Forceucase) (hh : HiddenHomonym) : checkWord C fuel w fc hh = C.checkWord fuel w fc hh := by
  unfold checkWord Checker.checkWord
  rw [checkCompound_eq C hm]
  rfl

/-! ## Sharp s -/

theorem writeTwo_eq {a m m' y : Str} {p q : UInt8} (hm : (utf8 m).length = 2) (h : utf8 m' = [p, q]) :
    writeTwo (a ++ (m ++ y)) (byteLen a) p q = .ok (a ++ (m' ++ y)) := by
  obtain ⟨u, v, huv⟩ : ∃ u v, utf8 m = [u, v] := by
    match utf8 m, hm with
    | [u, v], _ => exact ⟨u, v, rfl⟩
  unfold writeTwo
  have h1 : utf8 (a ++ (m ++ y)) = utf8 a ++ ([u] ++ ([v] ++ utf8 y)) := by
    rw [utf8_append, utf8_append, huv]; simp
  rw [h1, onRange?_append (by rw [length_utf8]) (by rw [length_utf8]; rfl)]
  simp only [Option.map_some, need_some, ok_bind]
  rw [show utf8 a ++ ([p] ++ ([v] ++ utf8 y)) = (utf8 a ++ [p]) ++ ([v] ++ utf8 y) by simp,
    onRange?_append (by simp [length_utf8]) (by simp [length_utf8])]
  simp only [Option.map_some, need_some, ok_bind]
  rw [show (utf8 a ++ [p]) ++ ([q] ++ utf8 y) = utf8 (a ++ (m' ++ y)) by
    rw [utf8_append, utf8_append, h]; simp, fromUtf8?_utf8]
  rfl

theorem findFrom?_eq (a b pat : Str) :
    findFrom? (a ++ b) (byteLen a) pat =
      some ((splitOnce? pat b).map fun (x, _) => byteLen x + byteLen a) := by
  unfold findFrom?
  rw [sliceFrom?_append]
  rfl

theorem doSpellSharps_eq (C : Checker) (hm : 0 < C.opts.minChars) (fuel : Nat) :
    ∀ (k : Nat) (before rest : Str) (depth repl : Nat), k = 5 - depth →
      (doSpellSharps C fuel (before ++ rest) (byteLen before) depth repl).map (·.1) =
        C.doSpellSharps fuel before rest depth repl ∧
      ∀ w, doSpellSharps C fuel (before ++ rest) (byteLen before) depth repl = .ok (none, w) →
        w = before ++ rest := by
  intro k
  induction k with
  | zero =>
    intro before rest depth repl hk
    have hd : ¬ depth < 5 := by omega
    rw [doSpellSharps, Checker.doSpellSharps, findFrom?_eq, dif_neg hd, checkWord_eq C hm]
    simp only [need_some, ok_bind]
    have key : ∀ r : Run (Option FlagSet), (Except.map (·.1) (Except.map (fun r => (r, before ++ rest)) r)) = r ∧
        ∀ w, Except.map (fun r => (r, before ++ rest)) r = .ok (none, w) → w = before ++ rest := by
      intro r
      cases r with
      | error e => exact ⟨rfl, fun w h => by cases h⟩
      | ok v => exact ⟨rfl, fun w h => by cases h; rfl⟩
    cases splitOnce? ['s', 's'] rest with
    | none =>
      simp only [Option.map_none]
      split
      · exact key _
      · exact ⟨rfl, fun w h => by cases h; rfl⟩
    | some xy =>
      simp only [Option.map_some, dif_neg hd]
      split
      · exact key _
      · exact ⟨rfl, fun w h => by cases h; rfl⟩
  | succ k ih =>
    intro before rest depth repl hk
    have hd : depth < 5 := by omega
    rw [doSpellSharps, Checker.doSpellSharps, findFrom?_eq, dif_pos hd]
    simp only [need_some, ok_bind]
    cases hsp : splitOnce? ['s', 's'] rest with
    | none =>
      simp only [Option.map_none]
      rw [checkWord_eq C hm]
      split
      · cases C.checkWord fuel (before ++ rest) .allowBad .accept with
        | error e => exact ⟨rfl, fun w h => by cases h⟩
        | ok v => exact ⟨rfl, fun w h => by cases h; rfl⟩
      · exact ⟨rfl, fun w h => by cases h; rfl⟩
    | some xy =>
      obtain ⟨x, y⟩ := xy
      have hr := splitOnce?_append hsp
      simp only [Option.map_some, dif_pos hd]
      have e1 : before ++ rest = (before ++ x) ++ (['s', 's'] ++ y) := by rw [hr]; simp
      have e2 : byteLen x + byteLen before = byteLen (before ++ x) := by rw [byteLen_append]; omega
      rw [e1, e2, writeTwo_eq (m' := ['ß']) (by decide) (by decide)]
      simp only [ok_bind]
      have e3 : (before ++ x) ++ (['ß'] ++ y) = (before ++ x ++ ['ß']) ++ y := by simp
      have e4 : byteLen (before ++ x) + 2 = byteLen (before ++ x ++ ['ß']) := by
        rw [byteLen_append (before ++ x)]; rfl
      have e5 : (before ++ x) ++ (['s', 's'] ++ y) = (before ++ x ++ ['s', 's']) ++ y := by simp
      have e6 : byteLen (before ++ x) + 2 = byteLen (before ++ x ++ ['s', 's']) := by
        rw [byteLen_append (before ++ x)]; rfl
      obtain ⟨i1, i2⟩ := ih (before ++ x ++ ['ß']) y (depth + 1) (repl + 1) (by omega)
      obtain ⟨j1, j2⟩ := ih (before ++ x ++ ['s', 's']) y (depth + 1) (repl + 1) (by omega)
      rw [← i1, ← j1]
      rw [← e3, ← e4] at i2
      rw [← e3, ← e4]
      rw [← e5, ← e6] at j2
      rw [← e5, ← e6]
      cases hrec : doSpellSharps C fuel (before ++ x ++ (['ß'] ++ y)) (byteLen (before ++ x) + 2)
          (depth + 1) (repl + 1) with
      | error e => exact ⟨rfl, fun w h => by cases h⟩
      | ok v =>
        obtain ⟨r, b⟩ := v
        cases r with
        | some f => exact ⟨rfl, fun w h => by cases h⟩
        | none =>
          have := i2 b hrec
          subst this
          simp only [ok_bind]
          rw [writeTwo_eq (m' := ['s', 's']) (by decide) (by decide)]
          simp only [ok_bind]
          exact ⟨rfl, j2⟩

theorem spellSharps_eq (C : Checker) (hm : 0 < C.opts.minChars) (fuel : Nat) (w : Str) :
    spellSharps C fuel w = C.spellSharps fuel w :=
  (doSpellSharps_eq C hm fuel 5 [] w 0 0 rfl).1

/-! ## Letter case and BREAK -/

theorem spellApostrophe_eq (C : Checker) (hm : 0 < C.opts.minChars) (fuel : Nat) (w : Str) :
    spellApostrophe C fuel w = C.spellApostrophe fuel w := by
  unfold spellApostrophe Checker.spellApostrophe
  have h0 := findFrom?_eq [] w ['\'']
  simp only [List.nil_append, byteLen_nil] at h0
  rw [h0]
  simp only [need_some, ok_bind]
  cases hsp : splitOnce? ['\''] w with
  | none => rfl
  | some ab =>
    obtain ⟨a, b⟩ := ab
    have hw := splitOnce?_append hsp
    have hq : '\''.utf8Size = 1 := by decide
    simp only [Option.map_some, Nat.add_zero]
    cases b with
    | nil =>
      have : (byteLen a != byteLen w - 1) = false := by
        rw [hw]; simp [hq]
      rw [Option.filter_some, this]
      rfl
    | cons d b =>
      have hd := d.utf8Size_pos
      have : (byteLen a != byteLen w - 1) = true := by
        rw [hw]; simp [hq]; omega
      rw [Option.filter_some, this]
      have e1 : byteLen a + '\''.utf8Size = byteLen (a ++ ['\'']) := by simp
      have e2 : w = (a ++ ['\'']) ++ d :: b := by rw [hw]; simp
      simp only [if_true, e1]
      rw [e2, sliceTo?_append, sliceFrom?_append]
      simp only [need_some, ok_bind, checkWord_eq C hm, List.isEmpty_cons, Bool.false_eq_true, if_false]

theorem spellUpperSharps_eq (C : Checker) (hm : 0 < C.opts.minChars) (fuel : Nat) (w : Str) :
    spellUpperSharps C fuel w = C.spellUpperSharps fuel w := by
  unfold spellUpperSharps Checker.spellUpperSharps
  simp only [spellSharps_eq C hm]

theorem spellCasingUpper_eq (C : Checker) (hm : 0 < C.opts.minChars) (fuel : Nat) (w : Str) :
    spellCasingUpper C fuel w = C.spellCasingUpper fuel w := by
  unfold spellCasingUpper Checker.spellCasingUpper
  simp only [checkWord_eq C hm, spellApostrophe_eq C hm, spellUpperSharps_eq C hm]

theorem spellCasingTitle_eq (C : Checker) (hm : 0 < C.opts.minChars) (fuel : Nat) (w : Str) :
    spellCasingTitle C fuel w = C.spellCasingTitle fuel w := by
  unfold spellCasingTitle Checker.spellCasingTitle
  simp only [checkWord_eq C hm]

theorem spellCasing_eq (C : Checker) (hm : 0 < C.opts.minChars) (fuel : Nat) (w : Str) :
    spellCasing C fuel w = C.spellCasing fuel w := by
  unfold spellCasing Checker.spellCasing spellCasingAsIs Checker.spellCasingAsIs
  simp only [checkWord_eq C hm, spellCasingUpper_eq C hm, spellCasingTitle_eq C hm]
  cases classifyCasing C.U w <;> rfl

theorem doSpellBreak_eq (C : Checker) (hm : 0 < C.opts.minChars) (fuel : Nat) :
    ∀ (d : Nat), doSpellBreak C fuel d = C.doSpellBreak fuel d
  | 0 => by
    funext w
    unfold doSpellBreak Checker.doSpellBreak
    rw [spellCasing_eq C hm]
    rfl
  | d + 1 => by
    funext w
    unfold doSpellBreak Checker.doSpellBreak
    rw [spellCasing_eq C hm, doSpellBreak_eq C hm fuel d]
    rfl

/-! ## Conversions -/

theorem fits_append {c : Conversion} {tail : Str} (h : ConversionTable.Fits c tail) :
    c.src ≠ [] ∧ tail = c.src ++ tail.drop c.src.length := by
  refine ⟨h.1, ?_⟩
  have h2 := h.2
  unfold ConversionTable.matchesAt at h2
  split at h2
  · rw [beq_iff_eq] at h2
    subst h2; simp
  · obtain ⟨t, rfl⟩ := startsWith_iff.1 h2
    rw [List.drop_left]

theorem convertLoop_eq (t : ConversionTable) : ∀ (rounds : Nat) (done rest : Str), rest.length < rounds →
    convertLoop t rounds (done ++ rest) (byteLen done) = need (t.convertLoop rounds done rest)
  | 0, _, _, h => by omega
  | rounds + 1, done, [], _ => by
    unfold convertLoop
    rw [List.append_nil, if_neg (Nat.lt_irrefl _)]
    rfl
  | rounds + 1, done, ch :: rest, h => by
    unfold convertLoop ConversionTable.convertLoop
    have := Char.utf8Size_pos ch
    rw [if_pos (by rw [byteLen_append, byteLen_cons]; omega), sliceFrom?_append]
    simp only [need_some, ok_bind]
    cases hm : t.matchAt (ch :: rest) with
    | none =>
      simp only [List.head?_cons, Option.map_some, Option.getD_some]
      have := convertLoop_eq t rounds (done ++ [ch]) rest (by simp at h; omega)
      rw [← this, byteLen_append, byteLen_cons, byteLen_nil]
      simp
    | some c =>
      obtain ⟨h0, h1⟩ := fits_append (t.matchAt_some hm).2.1
      simp only
      have hlen : ((ch :: rest).drop c.src.length).length < rounds := by
        have := List.length_pos_iff.2 h0
        rw [List.length_drop]
        rw [List.length_cons] at h ⊢
        omega
      rw [← convertLoop_eq t rounds (done ++ c.dst) _ hlen]
      conv_lhs => rw [h1, replaceRange?_eq]
      simp only [need_some, ok_bind]
      rw [byteLen_append, List.append_assoc]

theorem convert_eq (t : ConversionTable) (word : Str) : convert t word = .ok (t.convert word) := by
  have h := t.convert?_eq word
  unfold ConversionTable.convert? at h
  unfold convert
  split
  · rename_i h1; rw [if_pos h1] at h; exact congrArg _ (Option.some.inj h)
  rename_i h1; rw [if_neg h1] at h
  split
  · rename_i h2; rw [if_pos h2] at h; exact congrArg _ (Option.some.inj h)
  rename_i h2; rw [if_neg h2] at h
  split
  · rename_i h3; rw [if_pos h3] at h; exact congrArg _ (Option.some.inj h)
  rename_i h3; rw [if_neg h3] at h
  have := convertLoop_eq t (word.length + 1) [] word (by omega)
  rw [List.nil_append, byteLen_nil] at this
  rw [this, h]
  rfl

theorem check_eq (C : Checker) (hm : 0 < C.opts.minChars) (fuel : Nat) (w : Str) :
    check C fuel w = C.check fuel w := by
  unfold check Checker.check Checker.checkConverted Checker.spellBreak
  simp only [doSpellBreak_eq C hm, convert_eq, ok_bind]

/-! ## Affixes -/

theorem charIndices_length (w : Str) : ∀ n, (charIndices n w).length = w.length := by
  induction w with
  | nil => intro n; rfl
  | cons c w ih => intro n; simp [charIndices, ih]

theorem charIndices_fst (w : Str) : ∀ n i, ((charIndices n w)[i]?).map (·.1) =
    if i < w.length then some (n + pos w i) else none := by
  induction w with
  | nil => intro n i; simp [charIndices]
  | cons c w ih =>
    intro n i
    cases i with
    | zero => simp [charIndices, pos]
    | succ i => simp [charIndices, ih, pos, Nat.add_assoc]

theorem fold_last (len : Nat) (l : List (Nat × Char)) : ∀ c b,
    l.foldl (fun (x : Nat × Nat) (y : Nat × Char) => (x.1 + 1, len - y.1)) (c, b) =
      (c + l.length, ((l.getLast?.map (·.1)).map (len - ·)).getD b) := by
  induction l with
  | nil => intro c b; simp
  | cons y l ih =>
    intro c b
    rw [List.foldl_cons, ih]
    cases l with
    | nil => simp
    | cons z l => simp [List.getLast?_cons, Nat.add_assoc, Nat.add_comm]

theorem suffixConditionMatches_eq (a : Affix) (w : Str) :
    suffixConditionMatches a w = .ok (a.suffixConditionMatches w) := by
  unfold suffixConditionMatches Affix.suffixConditionMatches
  cases a.condition with
  | none => rfl
  | some c =>
    simp only
    split
    · rfl
    split
    · rfl
    rw [show ((charIndices 0 w).reverse.take c.chars).foldl
        (fun (x : Nat × Nat) (y : Nat × Char) =>
          match x, y with
          | (chars, _), (byteIndex, _) => (chars + 1, byteLen w - byteIndex)) (0, 0) = _ from
        fold_last (byteLen w) _ 0 0]
    have hl : (List.take c.chars (charIndices 0 w).reverse).length = min c.chars w.length := by
      simp [charIndices_length]
    have ht : (List.take c.chars w.reverse).reverse = w.drop (w.length - c.chars) := by
      rw [List.reverse_take]; simp
    simp only [hl, Nat.zero_add, ht, List.length_drop]
    by_cases h : w.length < c.chars
    · rw [if_pos (by omega), if_pos (by omega)]; rfl
    · rw [if_neg (by omega), if_neg (by omega)]
      have : byteLen w - ((((List.take c.chars (charIndices 0 w).reverse).getLast?).map (·.1)).map
          (byteLen w - ·)).getD 0 = pos w (w.length - c.chars) := by
        rw [List.getLast?_eq_getElem?, hl]
        by_cases h0 : c.chars = 0
        · simp [h0, pos]
        · rw [List.getElem?_take_of_lt (by omega), List.getElem?_reverse (by rw [charIndices_length]; omega),
            charIndices_fst, if_pos (by rw [charIndices_length]; omega), charIndices_length]
          have e : w.length - 1 - (min c.chars w.length - 1) = w.length - c.chars := by omega
          have : byteLen (w.take (w.length - c.chars)) ≤ byteLen w := by
            conv => rhs; rw [← List.take_append_drop (w.length - c.chars) w, byteLen_append]
            exact Nat.le_add_right _ _
          rw [e]
          simp only [Option.map_some, Option.getD_some, pos] at this ⊢
          omega
      rw [this, sliceFrom?_pos]
      rfl

theorem concat_eq {inline : List UInt8} (h : inline.length = Affix.stemInlineCap) (a b : Str) :
    concat inline a b = .ok (a ++ b) := by
  unfold concat
  rw [Affix.stemConcat_eq h, ← utf8_append]
  simp only [need_some, ok_bind, fromUtf8?_utf8]

theorem toStem_eq {inline : List UInt8} (h : inline.length = Affix.stemInlineCap) {k : Kind} {a : Affix} {w : Str}
    (ha : a.addMatches k w = true) : toStem inline k a w = .ok (a.toStem k w) := by
  cases k with
  | pfx =>
    obtain ⟨t, rfl⟩ := startsWith_iff.1 ha
    unfold toStem Affix.toStem
    simp only [sliceFrom?_append, need_some, ok_bind, List.drop_left, concat_eq h]
    cases a.strip <;> rfl
  | sfx =>
    obtain ⟨t, rfl⟩ := endsWith_iff.1 ha
    unfold toStem Affix.toStem
    have : byteLen (t ++ a.add) - byteLen a.add = byteLen t := by simp
    simp only [if_pos (show byteLen a.add ≤ byteLen (t ++ a.add) by simp), this, sliceTo?_append, need_some, ok_bind,
      List.length_append, Nat.add_sub_cancel, List.take_left, concat_eq h]
    cases a.strip with
    | none => simp; rfl
    | some s => simp

end Spellbook.Bytes
