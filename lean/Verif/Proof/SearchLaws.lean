import Verif.Spec.Search
/-! # Laws of the specified search: it has at most one answer, and deeper searches keep it -/

namespace Spellbook.Spec

variable {U : Unicode} {D : Dict} {fc : Forceucase} {read : Mode → Str → Option Piece}

/-! ### At most one answer -/

theorem Behind.unique {R : Found} (hR : ∀ n b t o o', R n b t o → R n b t o' → o = o') {n : Nat}
    {before rest remains text : Str} {p : Piece} {pat : Option CompoundPattern} {tripled : Bool}
    {a a' : Answer} (h : Behind D fc read R n before rest remains text p pat tripled a)
    (h' : Behind D fc read R n before rest remains text p pat tripled a') : a = a' := by
  cases h with
  | last r f l =>
    cases h' with
    | last => rfl
    | limit r' f' o n =>
      rw [r] at r'; cases r'
      obtain ⟨h1, h2, h3, _⟩ := l o
      exact absurd ⟨h1, h2, h3⟩ n
    | compound => rfl
    | nothing no =>
      obtain ⟨h1, _, _, _, h2⟩ := no _ r f
      exact absurd h2 (l h1).2.2.2
  | limit r f o n =>
    cases h' with
    | last r' f' l =>
      rw [r] at r'; cases r'
      obtain ⟨h1, h2, h3, _⟩ := l o
      exact absurd ⟨h1, h2, h3⟩ n
    | limit => rfl
    | compound no =>
      obtain ⟨_, h1, h2, h3, _⟩ := no _ r f
      exact absurd ⟨h1, h2, h3⟩ n
    | nothing no =>
      obtain ⟨_, h1, h2, h3, _⟩ := no _ r f
      exact absurd ⟨h1, h2, h3⟩ n
  | compound no found fits =>
    cases h' with
    | last => rfl
    | limit r f o n =>
      obtain ⟨_, h1, h2, h3, _⟩ := no _ r f
      exact absurd ⟨h1, h2, h3⟩ n
    | compound => rfl
    | nothing _ found' unfit => exact absurd fits (unfit _ (hR _ _ _ _ _ found' found))
  | nothing no found unfit =>
    cases h' with
    | last r f l =>
      obtain ⟨h1, _, _, _, h2⟩ := no _ r f
      exact absurd h2 (l h1).2.2.2
    | limit r f o n =>
      obtain ⟨_, h1, h2, h3, _⟩ := no _ r f
      exact absurd ⟨h1, h2, h3⟩ n
    | compound _ found' fits => exact absurd fits (unfit _ (hR _ _ _ _ _ found found'))
    | nothing => rfl

theorem CanPutBack.unique {before : Str} {c c' : Char} (h : CanPutBack D before c)
    (h' : CanPutBack D before c') : c = c' := by
  obtain ⟨_, a, rfl⟩ := h
  obtain ⟨_, b, hb⟩ := h'
  have := List.append_inj_right' hb rfl
  simpa using this

theorem Way.unique {R : Found} (hR : ∀ n b t o o', R n b t o → R n b t o' → o = o') {m : Mode}
    {n : Nat} {before rest text remains : Str} {pat : Option CompoundPattern} {a a' : Answer}
    (h : Way U D fc read R m n before rest text remains pat a)
    (h' : Way U D fc read R m n before rest text remains pat a') : a = a' := by
  cases h with
  | noPart no =>
    cases h' with
    | noPart => rfl
    | direct r f => exact absurd f (no _ r)
    | noTriple => rfl
    | triple r f => exact absurd f (no _ r)
  | direct r f b c =>
    cases h' with
    | noPart no => exact absurd f (no _ r)
    | direct r' f' b' => rw [r] at r'; cases r'; exact Behind.unique hR b b'
    | noTriple r' f' b' => rw [r] at r'; cases r'; exact Behind.unique hR b b'
    | triple r' f' b' => rw [r] at r'; cases r'; exact absurd (Behind.unique hR b b') c
  | noTriple r f b no =>
    cases h' with
    | noPart => rfl
    | direct r' f' b' => rw [r] at r'; cases r'; exact Behind.unique hR b b'
    | noTriple => rfl
    | triple r' f' b' back => exact absurd back (no _)
  | triple r f b back b2 =>
    cases h' with
    | noPart no => exact absurd f (no _ r)
    | direct r' f' b' c' => rw [r] at r'; cases r'; exact absurd (Behind.unique hR b' b) c'
    | noTriple r' f' b' no => exact absurd back (no _)
    | triple r' f' b' back' b2' =>
      rw [r] at r'; cases r'
      cases CanPutBack.unique back back'
      exact Behind.unique hR b2 b2'

theorem PatternWay.unique {R : Found} (hR : ∀ n b t o o', R n b t o → R n b t o' → o = o')
    {m : Mode} {n : Nat} {before x y : Str} {c : CompoundPattern} {a a' : Answer}
    (h : PatternWay U D fc read R m n before x y c a)
    (h' : PatternWay U D fc read R m n before x y c a') : a = a' := by
  cases h with
  | notWritten no =>
    cases h' with
    | notWritten => rfl
    | written r e => exact absurd e (no _ _ r)
  | written r e w =>
    cases h' with
    | notWritten no => exact absurd e (no _ _ r)
    | written r' e' w' =>
      rw [r] at r'; cases r'
      rw [e] at e'
      cases List.append_cancel_left e'
      exact Way.unique hR w w'

/-- Two ways to find the first element which is not passed over find the same. -/
theorem first_split {α : Type} {P : α → Prop} : ∀ {l l' r r' : List α} {c c' : α},
    l ++ c :: r = l' ++ c' :: r' → (∀ x ∈ l, P x) → (∀ x ∈ l', P x) → ¬ P c → ¬ P c' → c = c'
  | [], [], _, _, _, _, h, _, _, _, _ => by simp at h; exact h.1
  | [], b :: l', _, _, _, _, h, _, h2, h3, _ => by
    simp at h; exact absurd (h.1 ▸ h2 b (by simp)) h3
  | a :: l, [], _, _, _, _, h, h1, _, _, h4 => by
    simp at h; exact absurd (h.1 ▸ h1 a (by simp)) h4
  | a :: l, b :: l', _, _, _, _, h, h1, h2, h3, h4 => by
    simp at h
    exact first_split h.2 (fun x hx => h1 x (by simp [hx])) (fun x hx => h2 x (by simp [hx])) h3 h4

theorem AtBoundary.unique {R : Found} (hR : ∀ n b t o o', R n b t o → R n b t o' → o = o')
    {m : Mode} {n : Nat} {before x y : Str} {o o' : Option Piece}
    (h : AtBoundary U D fc read R m n before x y o)
    (h' : AtBoundary U D fc read R m n before x y o') : o = o' := by
  have hw := fun a a' => @Way.unique U D fc read R hR m n before (x ++ y) x y Option.none a a'
  have hp := fun c a a' => @PatternWay.unique U D fc read R hR m n before x y c a a'
  have no : ∀ {c a}, PatternWay U D fc read R m n before x y c a → a ≠ .nothing →
      ¬ PatternWay U D fc read R m n before x y c .nothing := fun h h1 h2 => h1 (hp _ _ _ h h2)
  cases h with
  | plain w =>
    cases h' with
    | plain w' => cases hw _ _ w w'; rfl
    | pattern w' n => exact absurd (hw _ _ w' w) (n _)
    | stopped w' n => exact absurd (hw _ _ w' w) (n _)
    | none w' n => exact absurd (hw _ _ w' w) (n _)
  | pattern w n s e t =>
    cases h' with
    | plain w' => exact absurd (hw _ _ w w') (n _)
    | pattern w' n' s' e' t' =>
      cases first_split (s.symm.trans s') e e' (no t (by simp)) (no t' (by simp))
      cases hp _ _ _ t t'; rfl
    | stopped w' n' s' e' t' =>
      cases first_split (s.symm.trans s') e e' (no t (by simp)) (no t' (by simp))
      cases hp _ _ _ t t'
    | none w' n' all => exact absurd (all _ (by rw [s]; simp)) (no t (by simp))
  | stopped w n s e t =>
    cases h' with
    | plain w' => exact absurd (hw _ _ w w') (n _)
    | pattern w' n' s' e' t' =>
      cases first_split (s.symm.trans s') e e' (no t (by simp)) (no t' (by simp))
      cases hp _ _ _ t t'
    | stopped => rfl
    | none => rfl
  | none w n all =>
    cases h' with
    | plain w' => exact absurd (hw _ _ w w') (n _)
    | pattern w' n' s' e' t' => exact absurd (all _ (by rw [s']; simp)) (no t' (by simp))
    | stopped => rfl
    | none => rfl

theorem Level.unique {R : Found} (hR : ∀ n b t o o', R n b t o → R n b t o' → o = o')
    {m : Mode} {n : Nat} {before rest : Str} {o o' : Option Piece}
    (h : Level U D fc read R m n before rest o)
    (h' : Level U D fc read R m n before rest o') : o = o' := by
  cases h with
  | @some x y p b f e =>
    cases h' with
    | @some x' y' p' b' f' e' =>
      rcases Nat.lt_trichotomy x.length x'.length with hl | hl | hl
      · cases AtBoundary.unique hR f (e' _ _ b hl)
      · have h1 := b.1.symm.trans b'.1
        obtain ⟨rfl, rfl⟩ := List.append_inj h1 hl
        exact AtBoundary.unique hR f f'
      · cases AtBoundary.unique hR f' (e _ _ b' hl)
    | none all => cases AtBoundary.unique hR f (all _ _ b)
  | none all =>
    cases h' with
    | some b f e => cases AtBoundary.unique hR f (all _ _ b)
    | none => rfl

theorem Answers.unique : ∀ {d : Nat} {m : Mode} {n : Nat} {before rest : Str} {o o' : Option Piece},
    Answers U D fc read d m n before rest o → Answers U D fc read d m n before rest o' → o = o'
  | 0, _, _, _, _, _, _, h, _ => h.elim
  | d + 1, m, n, b, r, o, o', h, h' =>
    @Level.unique U D fc read (Answers U D fc read d .atMiddle)
      (fun _ _ _ _ _ => Answers.unique) m n b r o o' h h'

/-! ### Deeper searches -/

theorem Behind.mono {R R' : Found} (hR : ∀ n b t o, R n b t o → R' n b t o) {n : Nat}
    {before rest remains text : Str} {p : Piece} {pat : Option CompoundPattern} {tripled : Bool}
    {a : Answer} (h : Behind D fc read R n before rest remains text p pat tripled a) :
    Behind D fc read R' n before rest remains text p pat tripled a := by
  cases h with
  | last r f l => exact .last r f l
  | limit r f o n => exact .limit r f o n
  | compound no found fits => exact .compound no (hR _ _ _ _ found) fits
  | nothing no found unfit => exact .nothing no (hR _ _ _ _ found) unfit

theorem Way.mono {R R' : Found} (hR : ∀ n b t o, R n b t o → R' n b t o) {m : Mode} {n : Nat}
    {before rest text remains : Str} {pat : Option CompoundPattern} {a : Answer}
    (h : Way U D fc read R m n before rest text remains pat a) :
    Way U D fc read R' m n before rest text remains pat a := by
  cases h with
  | noPart no => exact .noPart no
  | direct r f b c => exact .direct r f (b.mono hR) c
  | noTriple r f b no => exact .noTriple r f (b.mono hR) no
  | triple r f b back b' => exact .triple r f (b.mono hR) back (b'.mono hR)

theorem PatternWay.mono {R R' : Found} (hR : ∀ n b t o, R n b t o → R' n b t o) {m : Mode} {n : Nat}
    {before x y : Str} {c : CompoundPattern} {a : Answer}
    (h : PatternWay U D fc read R m n before x y c a) :
    PatternWay U D fc read R' m n before x y c a := by
  cases h with
  | notWritten no => exact .notWritten no
  | written r e w => exact .written r e (w.mono hR)

theorem AtBoundary.mono {R R' : Found} (hR : ∀ n b t o, R n b t o → R' n b t o) {m : Mode} {n : Nat}
    {before x y : Str} {o : Option Piece} (h : AtBoundary U D fc read R m n before x y o) :
    AtBoundary U D fc read R' m n before x y o := by
  cases h with
  | plain w => exact .plain (w.mono hR)
  | pattern w n s e t =>
    exact .pattern (w.mono hR) n s (fun c hc => (e c hc).mono hR) (t.mono hR)
  | stopped w n s e t =>
    exact .stopped (w.mono hR) n s (fun c hc => (e c hc).mono hR) (t.mono hR)
  | none w n all => exact .none (w.mono hR) n fun c hc => (all c hc).mono hR

theorem Level.mono {R R' : Found} (hR : ∀ n b t o, R n b t o → R' n b t o) {m : Mode} {n : Nat}
    {before rest : Str} {o : Option Piece} (h : Level U D fc read R m n before rest o) :
    Level U D fc read R' m n before rest o := by
  cases h with
  | some b f e => exact .some b (f.mono hR) fun x y h h' => (e x y h h').mono hR
  | none all => exact .none fun x y h => (all x y h).mono hR

theorem Answers.succ : ∀ {d : Nat} {m : Mode} {n : Nat} {before rest : Str} {o : Option Piece},
    Answers U D fc read d m n before rest o → Answers U D fc read (d + 1) m n before rest o
  | 0, _, _, _, _, _, h => h.elim
  | _ + 1, _, _, _, _, _, h => Level.mono (fun _ _ _ _ => Answers.succ) h

theorem Answers.mono {d d' : Nat} (hd : d ≤ d') {m : Mode} {n : Nat} {before rest : Str}
    {o : Option Piece} (h : Answers U D fc read d m n before rest o) :
    Answers U D fc read d' m n before rest o := by
  induction hd with
  | refl => exact h
  | step _ ih => exact ih.succ

/-! ### The limits of plain compounds -/

/-- Without dropped letters and replaced boundaries, what is found is a sequence of parts within
the limits. -/
theorem Answers.limit (hP : OnlyPlain D) (hr : Readings D read) : ∀ {d : Nat} {m : Mode} {n : Nat}
    {before rest : Str} {p : Piece}, m ≠ .full → Answers U D fc read d m n before rest (some p) →
    ∃ pieces, rest = texts (p :: pieces) ∧ pieces ≠ [] ∧
      (∀ l x r, p :: pieces = l ++ x :: r → PieceAt D (positionIn m l r) x) ∧
      ∀ max, D.aff.options.compoundMaxWordCount = some max →
        n + ((p :: pieces).map fun x => 1 + extraWords D x).sum ≤ max ∨
        D.aff.compoundSyllableVowels ≠ [] ∧
          ∀ l q, p :: pieces = l ++ [q] → ¬ TooManySyllables D (before ++ rest) q
  | 0, _, _, _, _, _, _, h => h.elim
  | d + 1, m, n, before, rest, p, hm, h => by
    have ih := fun {n before rest p} h => @Answers.limit hP hr d .atMiddle n before rest p (by simp) h
    cases h with
    | @some x y _ b f e =>
    have hway : Way U D fc read (Answers U D fc read d .atMiddle) m n before (x ++ y) x y none
        (.found p) := by
      cases f with
      | plain w => exact w
      | @pattern _ _ c _ _ _ _ s _ t =>
        cases t with
        | written r => rw [hP.2 c (by rw [s]; simp)] at r; cases r
    have hbeh : read m x = some p ∧ FirstFits U D (before ++ x) y p none ∧
        Behind D fc read (Answers U D fc read d .atMiddle) n (before ++ x) (x ++ y) y y p none false
          (.found p) := by
      cases hway with
      | @direct q _ r ff bb c =>
        have : q = p := by cases bb <;> rfl
        subst this
        exact ⟨r, ff, bb⟩
      | triple _ _ _ back => have := back.1; rw [hP.1] at this; cases this
    obtain ⟨hread, hfits, hb⟩ := hbeh
    obtain ⟨hpt, hpp⟩ := hr.part _ _ _ hm hread
    have hrest := b.1
    cases hb with
    | @last q r f l =>
      obtain ⟨hqt, hqp⟩ := hr.part _ _ _ (by simp) r
      refine ⟨[q], ?_, by simp, ?_, ?_⟩
      · rw [hrest]; simp [texts, hpt, hqt]
      · intro l' z r' hz
        match l', r', hz with
        | [], r', hz => simp at hz; obtain ⟨rfl, _⟩ := hz; exact ⟨hpp, hfits.allowed⟩
        | [a], [], hz => simp at hz; obtain ⟨_, rfl⟩ := hz; exact ⟨hqp, f.allowed⟩
        | [a], b :: r', hz => simp at hz
        | a :: b :: l', r', hz => simp at hz
      · intro max hmax
        by_cases hw : WordsReached D n p q none false
        · right
          obtain ⟨_, _, h3, h4⟩ := l hw
          refine ⟨h3, fun l' z hz => ?_⟩
          have hz : z = q := by
            match l', hz with
            | [], hz => simp at hz
            | [a], hz => simp at hz; exact hz.2.symm
            | a :: b :: l', hz => simp at hz
          rw [hz, hrest, ← List.append_assoc]
          exact h4
        · left
          have : ¬ (max < n + extraWords D p + extraWords D q + 2) := fun h => hw ⟨max, hmax, h⟩
          simp
          omega
    | @compound q no found fits =>
      obtain ⟨pieces, h1, h2, h3, h4⟩ := ih found
      refine ⟨q :: pieces, ?_, by simp, ?_, ?_⟩
      · rw [hrest, h1]; simp [texts, hpt]
      · intro l' z r' hz
        match l', hz with
        | [], hz => simp at hz; obtain ⟨rfl, _⟩ := hz; exact ⟨hpp, hfits.allowed⟩
        | a :: l', hz =>
          simp at hz
          have := h3 l' z r' hz.2
          match l', r', hz, this with
          | [], [], hz, _ => simp at hz; exact absurd hz.2.2 h2
          | [], _ :: _, _, this => exact this
          | _ :: _, [], _, this => exact this
          | _ :: _, _ :: _, _, this => exact this
      · intro max hmax
        rcases h4 max hmax with h4 | ⟨h4, h5⟩
        · left
          rw [if_pos rfl] at h4
          simp only [List.map_cons, List.sum_cons] at h4 ⊢
          omega
        · right
          refine ⟨h4, fun l' z hz => ?_⟩
          match l', hz with
          | [], hz => simp at hz
          | a :: l', hz =>
            simp at hz
            have := h5 l' z hz.2
            rwa [List.append_assoc, ← hrest] at this

end Spellbook.Spec
