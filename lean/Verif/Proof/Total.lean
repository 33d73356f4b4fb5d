import Verif.Proof.Run
import Verif.Proof.Words
import Verif.Proof.Compound
/-! # Fuel: more never changes a result, and when it is enough -/

namespace Spellbook.Checker
open Run

/-! ### Monotonicity -/

/-- The second search knows at least as much. -/
def SearchLe (s t : Search) : Prop := ∀ word start n, Le (s word start n) (t word start n)

variable {C : Checker} {s t : Search} (h : SearchLe s t)
include h

theorem tripleRecursive_le {triple word : Str} {start i n : Nat} {p : CompoundingResult} :
    Le (C.tripleRecursive s triple word start i n p) (C.tripleRecursive t triple word start i n p) :=
  Le.bind (h _ _ _) fun _ => Le.refl _

theorem simplifiedTriple_le {word : Str} {start i n : Nat} {fc : Forceucase} {p : CompoundingResult} :
    Le (C.simplifiedTriple s word start i n fc p) (C.simplifiedTriple t word start i n fc p) := by
  unfold simplifiedTriple
  split
  · exact Le.refl _
  · split
    · exact Le.refl _
    · split
      · exact Le.refl _
      · exact Le.refl _
      · exact tripleRecursive_le h

theorem tryRecursive_le {word : Str} {start i n : Nat} {fc : Forceucase} {p : CompoundingResult} :
    Le (C.tryRecursive s word start i n fc p) (C.tryRecursive t word start i n fc p) := by
  refine Le.bind (h _ _ _) fun o => ?_
  cases o with
  | none => exact simplifiedTriple_le h
  | some r =>
    dsimp only
    split
    · exact simplifiedTriple_le h
    · split
      · exact simplifiedTriple_le h
      · exact Le.refl _

theorem classic_le {m : Mode} {word : Str} {start i n : Nat} {fc : Forceucase} :
    Le (C.classic s m word start i n fc) (C.classic t m word start i n fc) := by
  unfold classic
  split
  · exact Le.refl _
  · dsimp only
    split
    · exact Le.refl _
    · exact Le.refl _
    · exact tryRecursive_le h

theorem patternTriple_le {p : CompoundPattern} {scratch word : Str} {start j n : Nat}
    {fc : Forceucase} {r : CompoundingResult} :
    Le (C.patternTriple s p scratch word start j n fc r)
      (C.patternTriple t p scratch word start j n fc r) := by
  unfold patternTriple
  split
  · exact Le.refl _
  · split
    · exact Le.refl _
    · split
      · exact Le.refl _
      · exact Le.refl _
      · exact Le.bind (h _ _ _) fun _ => Le.refl _

theorem patternBody_le {m : Mode} {word : Str} {start i n : Nat} {fc : Forceucase}
    {p : CompoundPattern} :
    Le (C.patternBody s m word start i n fc p) (C.patternBody t m word start i n fc p) := by
  unfold patternBody
  split
  · exact Le.refl _
  · split
    · exact Le.refl _
    · dsimp only
      split
      · exact Le.refl _
      · split
        · exact Le.refl _
        · exact Le.refl _
        · refine Le.bind (h _ _ _) fun o => ?_
          cases o with
          | none => exact patternTriple_le h
          | some r =>
            dsimp only
            split
            · exact Le.refl _
            · exact patternTriple_le h

theorem compoundAt_le {m : Mode} {word : Str} {start i n : Nat} {fc : Forceucase} :
    Le (C.compoundAt s m word start n fc i) (C.compoundAt t m word start n fc i) :=
  Le.or (classic_le h) (Le.map _ (Le.first fun _ => patternBody_le h))
omit h

theorem checkCompoundImpl_le (C : Checker) (fc : Forceucase) : ∀ {f f' : Nat}, f ≤ f' → ∀ m word start n,
    Le (C.checkCompoundImpl fc f m word start n) (C.checkCompoundImpl fc f' m word start n) := by
  intro f
  induction f with
  | zero => intro f' _ m word start n; exact Or.inl rfl
  | succ f ih =>
    intro f' hf m word start n
    obtain ⟨g, rfl⟩ : ∃ g, f' = g + 1 := ⟨f' - 1, by omega⟩
    rw [checkCompoundImpl, checkCompoundImpl]
    exact Le.first fun i => compoundAt_le fun w s n => ih (by omega) _ _ _ _

theorem checkCompound_le (C : Checker) {f f' : Nat} (hf : f ≤ f') (m : Mode) (word : Str)
    (fc : Forceucase) : Le (C.checkCompound f m word fc) (C.checkCompound f' m word fc) := by
  refine Le.or ?_ (Le.refl _)
  split
  · exact checkCompoundImpl_le C fc hf _ _ _ _
  · exact Le.refl _

theorem checkWord_le (C : Checker) {f f' : Nat} (hf : f ≤ f') (word : Str) (fc : Forceucase)
    (hh : HiddenHomonym) : Le (C.checkWord f word fc hh) (C.checkWord f' word fc hh) := by
  unfold checkWord
  split
  · exact Le.refl _
  · exact Le.map _ (checkCompound_le C hf _ _ _)

theorem doSpellSharps_le (C : Checker) {f f' : Nat} (hf : f ≤ f') : ∀ (k : Nat) (before rest : Str)
    (depth r : Nat), 5 - depth = k →
    Le (C.doSpellSharps f before rest depth r) (C.doSpellSharps f' before rest depth r) := by
  intro k
  induction k with
  | zero =>
    intro before rest depth r hk
    rw [doSpellSharps, doSpellSharps, dif_neg (by omega), dif_neg (by omega)]
    split
    · exact checkWord_le C hf _ _ _
    · exact Le.refl _
  | succ k ih =>
    intro before rest depth r hk
    rw [doSpellSharps, doSpellSharps, dif_pos (by omega), dif_pos (by omega)]
    split
    · exact Le.or (ih _ _ _ _ (by omega)) (ih _ _ _ _ (by omega))
    · split
      · exact checkWord_le C hf _ _ _
      · exact Le.refl _

theorem spellSharps_le (C : Checker) {f f' : Nat} (hf : f ≤ f') (word : Str) :
    Le (C.spellSharps f word) (C.spellSharps f' word) := doSpellSharps_le C hf _ _ _ _ _ rfl

theorem spellApostrophe_le (C : Checker) {f f' : Nat} (hf : f ≤ f') (word : Str) :
    Le (C.spellApostrophe f word) (C.spellApostrophe f' word) := by
  unfold spellApostrophe
  split
  · exact Le.refl _
  · split
    · exact Le.refl _
    · exact Le.bind (Le.refl _) fun _ => Le.or (checkWord_le C hf _ _ _)
        (Le.bind (Le.refl _) fun _ => checkWord_le C hf _ _ _)

theorem spellUpperSharps_le (C : Checker) {f f' : Nat} (hf : f ≤ f') (word : Str) :
    Le (C.spellUpperSharps f word) (C.spellUpperSharps f' word) := by
  unfold spellUpperSharps
  split
  · exact Le.or (spellSharps_le C hf _) (Le.bind (Le.refl _) fun _ => spellSharps_le C hf _)
  · exact Le.refl _

theorem spellCasingUpper_le (C : Checker) {f f' : Nat} (hf : f ≤ f') (word : Str) :
    Le (C.spellCasingUpper f word) (C.spellCasingUpper f' word) :=
  Le.or (checkWord_le C hf _ _ _) <| Le.or (spellApostrophe_le C hf _) <|
  Le.or (spellUpperSharps_le C hf _) <|
  Le.or (Le.bind (Le.refl _) fun _ => Le.map _ (checkWord_le C hf _ _ _)) <|
  Le.map _ (checkWord_le C hf _ _ _)

theorem spellCasingTitle_le (C : Checker) {f f' : Nat} (hf : f ≤ f') (word : Str) :
    Le (C.spellCasingTitle f word) (C.spellCasingTitle f' word) :=
  Le.or (checkWord_le C hf _ _ _) (Le.map _ (checkWord_le C hf _ _ _))

theorem spellCasingAsIs_le (C : Checker) {f f' : Nat} (hf : f ≤ f') (word : Str) (b : Bool) :
    Le (C.spellCasingAsIs f word b) (C.spellCasingAsIs f' word b) := by
  refine Le.or (checkWord_le C hf _ _ _) (Le.or ?_ ?_)
  · split
    · exact Le.bind (Le.refl _) fun _ => spellCasingTitle_le C hf _
    · exact Le.refl _
  · split
    · exact spellCasingUpper_le C hf _
    · exact Le.refl _

theorem spellCasing_le (C : Checker) {f f' : Nat} (hf : f ≤ f') (word : Str) :
    Le (C.spellCasing f word) (C.spellCasing f' word) := by
  unfold spellCasing
  split
  · exact spellCasingAsIs_le C hf _ _
  · exact spellCasingAsIs_le C hf _ _
  · exact spellCasingAsIs_le C hf _ _
  · exact spellCasingUpper_le C hf _
  · exact spellCasingTitle_le C hf _

theorem anyRun_le {α : Type} {f g : α → Run Bool} (h : ∀ a, Le (f a) (g a)) : ∀ l : List α,
    Le (anyRun f l) (anyRun g l)
  | [] => Le.refl _
  | a :: as => by
    refine Le.bind (h a) fun b => ?_
    cases b
    · exact anyRun_le h as
    · exact Le.refl _

theorem breakLoops_le (C : Checker) {f g : Str → Run Bool} (h : ∀ w, Le (f w) (g w)) (word : Str) :
    Le (C.breakLoops f word) (C.breakLoops g word) := by
  refine Le.bind (anyRun_le (fun pat => ?_) _) fun b => ?_
  · split
    · exact h _
    · exact Le.refl _
  cases b
  swap
  · exact Le.refl _
  refine Le.bind (anyRun_le (fun pat => ?_) _) fun b => ?_
  · split
    · exact h _
    · exact Le.refl _
  cases b
  swap
  · exact Le.refl _
  refine anyRun_le (fun pat => ?_) _
  split
  · split
    · exact Le.refl _
    · refine Le.bind (h _) fun b => ?_
      cases b
      · exact Le.refl _
      · exact h _
  · exact Le.refl _

theorem doSpellBreak_le (C : Checker) {f f' : Nat} (hf : f ≤ f') : ∀ (d : Nat) (word : Str),
    Le (C.doSpellBreak f d word) (C.doSpellBreak f' d word)
  | 0, word => Le.bind (spellCasing_le C hf _) fun _ => Le.refl _
  | d + 1, word => by
    refine Le.bind (spellCasing_le C hf _) fun o => ?_
    cases o
    · exact breakLoops_le C (doSpellBreak_le C hf d) _
    · exact Le.refl _

theorem spellBreak_le (C : Checker) {f f' : Nat} (hf : f ≤ f') (word : Str) :
    Le (C.spellBreak f word) (C.spellBreak f' word) := doSpellBreak_le C hf _ _

theorem Le.iteBool {α : Type} {b : Bool} {x y x' y' : Run α} (h : Le x x') (h' : Le y y') :
    Le (if b then x else y) (if b then x' else y') := by cases b <;> simpa

theorem checkConverted_le (C : Checker) {f f' : Nat} (hf : f ≤ f') (word : Str) :
    Le (C.checkConverted f word) (C.checkConverted f' word) := by
  unfold checkConverted
  refine Le.iteBool (Le.refl _) ?_
  generalize trimEndMatches '.' word = t
  generalize (byteLen t != byteLen word) = a
  refine Le.iteBool (Le.refl _) (Le.bind (spellBreak_le C hf _) fun b => ?_)
  exact Le.iteBool (Le.refl _) (Le.iteBool (spellBreak_le C hf _) (Le.refl _))

theorem check_le (C : Checker) {f f' : Nat} (hf : f ≤ f') (word : Str) :
    Le (C.check f word) (C.check f' word) := by
  unfold check
  by_cases h : byteLen word > maxWordLen
  · rw [if_pos h, if_pos h]; exact Le.refl _
  · rw [if_neg h, if_neg h]; exact checkConverted_le C hf _

/-! ### Enough fuel -/

/-- The search has a result for all rests shorter than `B`. -/
def SearchOk (s : Search) (B : Nat) : Prop :=
  ∀ word start n, word.length - start < B → ∃ r, s word start n = .ok r

theorem bind_ok {α β : Type} {x : Run α} {f : α → Run β} (h : ∃ a, x = .ok a)
    (h' : ∀ a, ∃ b, f a = .ok b) : ∃ b, (x >>= f) = .ok b := by
  obtain ⟨a, rfl⟩ := h
  exact h' a

theorem map_ok {α β : Type} {x : Run α} {f : α → β} (h : ∃ a, x = .ok a) :
    ∃ b, Except.map f x = .ok b := by
  obtain ⟨a, rfl⟩ := h
  exact ⟨_, rfl⟩

theorem or_ok {β : Type} {a b : Run (Option β)} (h : ∃ r, a = .ok r) (h' : ∃ r, b = .ok r) :
    ∃ r, a.or b = .ok r := by
  obtain ⟨r, rfl⟩ := h
  cases r with
  | none => exact h'
  | some r => exact ⟨_, rfl⟩

theorem simplifiedTriple_ok {C : Checker} (hD : C.dict.Shrinking) {s : Search} {word : Str}
    {start i n : Nat} (hs : SearchOk s (word.length - start)) {fc : Forceucase}
    {p : CompoundingResult} (h1 : start + C.opts.minChars ≤ i) (h2 : i + C.opts.minChars ≤ word.length) :
    ∃ r, C.simplifiedTriple s word start i n fc p = .ok r := by
  unfold simplifiedTriple
  split
  · exact ⟨_, rfl⟩
  rename_i hon
  have hmin := hD.triple (by simpa [Checker.opts] using hon)
  split
  · exact ⟨_, rfl⟩
  rename_i t ht
  obtain ⟨a, c, _, rfl⟩ := tripled_some ht
  split
  · exact ⟨_, rfl⟩
  · exact ⟨_, rfl⟩
  · refine bind_ok (hs _ _ _ ?_) fun o => ?_
    · simp only [Checker.opts] at h1 h2
      simp; omega
    · cases o with
      | none => exact ⟨_, rfl⟩
      | some r =>
        dsimp only
        split
        · exact ⟨_, rfl⟩
        · split <;> exact ⟨_, rfl⟩

theorem classic_ok {C : Checker} (hD : C.dict.Shrinking) {s : Search} {m : Mode} {word : Str}
    {start i n : Nat} (hs : SearchOk s (word.length - start)) {fc : Forceucase}
    (h1 : start + C.opts.minChars ≤ i) (h2 : i + C.opts.minChars ≤ word.length) :
    ∃ r, C.classic s m word start i n fc = .ok r := by
  unfold classic
  split
  · exact ⟨_, rfl⟩
  dsimp only
  split
  · exact ⟨_, rfl⟩
  · exact ⟨_, rfl⟩
  have hmin := hD.min_pos
  refine bind_ok (hs _ _ _ ?_) fun o => ?_
  · simp only [Checker.opts] at h1 h2
    omega
  · cases o with
    | none => exact simplifiedTriple_ok hD hs h1 h2
    | some r =>
      dsimp only
      split
      · exact simplifiedTriple_ok hD hs h1 h2
      · split
        · exact simplifiedTriple_ok hD hs h1 h2
        · exact ⟨_, rfl⟩

theorem patternTriple_ok {C : Checker} {s : Search} {B : Nat} (hs : SearchOk s B)
    {c : CompoundPattern} {scratch word : Str} {start j n : Nat} {fc : Forceucase}
    {p : CompoundingResult} (hj : j ≤ scratch.length)
    (hB : C.opts.compoundSimplifiedTriple = true → scratch.length + 1 - j < B) :
    ∃ r, C.patternTriple s c scratch word start j n fc p = .ok r := by
  unfold patternTriple
  split
  · exact ⟨_, rfl⟩
  rename_i hon
  split
  · exact ⟨_, rfl⟩
  rename_i t ht
  obtain ⟨a, x, _, rfl⟩ := tripled_some ht
  split
  · exact ⟨_, rfl⟩
  · exact ⟨_, rfl⟩
  · refine bind_ok (hs _ _ _ ?_) fun o => ?_
    · have := hB (by simpa using hon)
      simp; omega
    · cases o with
      | none => exact ⟨_, rfl⟩
      | some r => dsimp only; split <;> exact ⟨_, rfl⟩

theorem patternBody_ok {C : Checker} (hD : C.dict.Shrinking) {s : Search} {m : Mode} {word : Str}
    {start i n : Nat} (hs : SearchOk s (word.length - start)) {fc : Forceucase}
    (h1 : start + C.opts.minChars ≤ i) (h2 : i + C.opts.minChars ≤ word.length)
    {c : CompoundPattern} (hc : c ∈ C.dict.aff.compoundPatterns) :
    ∃ r, C.patternBody s m word start i n fc c = .ok r := by
  unfold patternBody
  split
  · exact ⟨_, rfl⟩
  rename_i rep hrep
  split
  · exact ⟨_, rfl⟩
  rename_i hst
  obtain ⟨t, ht⟩ := startsWith_iff.1 (by simpa using hst)
  have hmin := hD.min_pos
  have hpat := hD.pattern c hc rep hrep
  have hlt : rep.length + t.length = word.length - i := by
    have := congrArg List.length ht; simp at this; omega
  have hd : word.drop (i + rep.length) = t := by rw [← List.drop_drop, ht]; simp
  simp only [Checker.opts] at h1 h2
  dsimp only
  rw [hd]
  split
  · exact ⟨_, rfl⟩
  split
  · exact ⟨_, rfl⟩
  · exact ⟨_, rfl⟩
  · have trip : ∀ p, ∃ r, C.patternTriple s c (word.take i ++ (c.first ++ c.second) ++ t) word start
        (i + c.first.length) n fc p = .ok r := by
      intro p
      refine patternTriple_ok hs (by simp; omega) fun hon => ?_
      simp only [Checker.opts] at hon
      rw [hon] at hpat
      simp at hpat ⊢; omega
    refine bind_ok (hs _ _ _ ?_) fun o => ?_
    · have : c.second.length < rep.length + C.dict.aff.options.minChars := by omega
      simp; omega
    · cases o with
      | none => exact trip _
      | some r =>
        dsimp only
        split
        · exact ⟨_, rfl⟩
        · exact trip _

/-- With more fuel than characters left, the search has a result. -/
theorem checkCompoundImpl_ok {C : Checker} (hD : C.dict.Shrinking) (fc : Forceucase) :
    ∀ (fuel : Nat) (m : Mode) (word : Str) (start n : Nat), word.length - start < fuel →
      ∃ r, C.checkCompoundImpl fc fuel m word start n = .ok r := by
  intro fuel
  induction fuel with
  | zero => intro m word start n h; omega
  | succ fuel ih =>
    intro m word start n h
    rw [checkCompoundImpl]
    refine Run.first_ok fun i hi => ?_
    rw [mem_splitPoints] at hi
    have hs : SearchOk (C.checkCompoundImpl fc fuel .atMiddle) (word.length - start) :=
      fun w s n hl => ih _ _ _ _ (by omega)
    refine or_ok (classic_ok hD hs hi.1 hi.2) (map_ok (Run.first_ok fun c hc => ?_))
    exact patternBody_ok hD hs hi.1 hi.2 hc

theorem checkRulesImpl_ok {C : Checker} (hm : 0 < C.opts.minChars) (fc : Forceucase) :
    ∀ (fuel : Nat) (word : Str) (data : List FlagSet) (start : Nat), word.length - start < fuel →
      ∃ r, C.checkRulesImpl fc fuel word data start = .ok r := by
  intro fuel
  induction fuel with
  | zero => intro word data start h; omega
  | succ fuel ih =>
    intro word data start h
    rw [checkRulesImpl]
    refine Run.first_ok fun i hi => ?_
    rw [mem_splitPoints] at hi
    unfold ruleAt
    split
    · exact ⟨_, rfl⟩
    · dsimp only
      split
      · exact ⟨_, rfl⟩
      · exact ih _ _ _ (by omega)

theorem checkRules_ok {C : Checker} (hm : 0 < C.opts.minChars) (word : Str) (fc : Forceucase) :
    ∃ r, C.checkRules word fc = .ok r := checkRulesImpl_ok hm fc _ _ _ _ (by omega)

theorem checkCompound_ok {C : Checker} (hD : C.dict.Shrinking) {fuel : Nat} (m : Mode) (word : Str)
    (fc : Forceucase) (hf : word.length < fuel) : ∃ r, C.checkCompound fuel m word fc = .ok r := by
  refine or_ok ?_ ?_
  · split
    · exact checkCompoundImpl_ok hD fc _ _ _ _ _ (by omega)
    · exact ⟨_, rfl⟩
  · split
    · exact checkRules_ok hD.min_pos _ _
    · exact ⟨_, rfl⟩

theorem checkWord_ok {C : Checker} (hD : C.dict.Shrinking) {fuel : Nat} (word : Str)
    (fc : Forceucase) (hh : HiddenHomonym) (hf : word.length < fuel) :
    ∃ r, C.checkWord fuel word fc hh = .ok r := by
  unfold checkWord
  split
  · exact ⟨_, rfl⟩
  · exact map_ok (checkCompound_ok hD _ _ _ hf)

/-! ### `check` -/

/-- From some amount of fuel on there is a result. -/
def Conv {α : Type} (g : Nat → Run α) : Prop := ∃ N, ∀ f, N ≤ f → ∃ r, g f = .ok r

theorem Conv.const {α : Type} (r : α) : Conv fun _ => (.ok r : Run α) := ⟨0, fun _ _ => ⟨r, rfl⟩⟩

theorem Conv.or {β : Type} {g g' : Nat → Run (Option β)} (h : Conv g) (h' : Conv g') :
    Conv fun f => (g f).or (g' f) := by
  obtain ⟨N, hN⟩ := h
  obtain ⟨N', hN'⟩ := h'
  exact ⟨max N N', fun f hf => or_ok (hN f (by omega)) (hN' f (by omega))⟩

theorem Conv.map {α β : Type} {g : Nat → Run α} (k : α → β) (h : Conv g) :
    Conv fun f => (g f).map k := by
  obtain ⟨N, hN⟩ := h
  exact ⟨N, fun f hf => map_ok (hN f hf)⟩

/-- A computation whose continuation is only needed for the results which occur. -/
theorem Conv.bindBool {β : Type} {g : Nat → Run Bool} {k : Bool → Nat → Run β} (h : Conv g)
    (h' : ∀ b, Conv (k b)) : Conv fun f => g f >>= fun b => k b f := by
  obtain ⟨N, hN⟩ := h
  obtain ⟨N1, h1⟩ := h' true
  obtain ⟨N2, h2⟩ := h' false
  refine ⟨max N (max N1 N2), fun f hf => bind_ok (hN f (by omega)) fun b => ?_⟩
  cases b
  · exact h2 f (by omega)
  · exact h1 f (by omega)

theorem Conv.title {C : Checker} {β : Type} {w : Str} (hw : w ≠ []) {k : Str → Nat → Run β}
    (h : ∀ t, Conv (k t)) : Conv fun f => C.titlecase w >>= fun t => k t f := by
  unfold titlecase
  cases w with
  | nil => simp at hw
  | cons c cs => exact h _

theorem Conv.word {C : Checker} (hD : C.dict.Shrinking) (w : Str) (fc : Forceucase)
    (hh : HiddenHomonym) : Conv fun f => C.checkWord f w fc hh :=
  ⟨w.length + 1, fun _ hf => checkWord_ok hD _ _ _ (by omega)⟩

theorem doSpellSharps_stop (C : Checker) {f : Nat} {before rest : Str} {depth r : Nat}
    (h : 5 ≤ depth ∨ splitOnce? ['s', 's'] rest = none) : C.doSpellSharps f before rest depth r =
      if r > 0 then C.checkWord f (before ++ rest) .allowBad .accept else .ok none := by
  rw [doSpellSharps]
  by_cases hd : depth < 5
  · rw [dif_pos hd]
    rcases h with h | h
    · omega
    · rw [h]
  · rw [dif_neg hd]

theorem doSpellSharps_go (C : Checker) {f : Nat} {before rest x y : Str} {depth r : Nat}
    (hd : depth < 5) (h : splitOnce? ['s', 's'] rest = some (x, y)) :
    C.doSpellSharps f before rest depth r =
      (C.doSpellSharps f (before ++ x ++ ['ß']) y (depth + 1) (r + 1)).or
        (C.doSpellSharps f (before ++ x ++ ['s', 's']) y (depth + 1) (r + 1)) := by
  rw [doSpellSharps, dif_pos hd, h]

theorem Conv.sharps {C : Checker} (hD : C.dict.Shrinking) : ∀ (k : Nat) (before rest : Str)
    (depth r : Nat), 5 - depth = k → Conv fun f => C.doSpellSharps f before rest depth r := by
  have stop : ∀ (before rest : Str) (depth r : Nat),
      5 ≤ depth ∨ splitOnce? ['s', 's'] rest = none →
      Conv fun f => C.doSpellSharps f before rest depth r := by
    intro before rest depth r h
    rw [funext fun f => doSpellSharps_stop C h]
    split
    · exact Conv.word hD _ _ _
    · exact Conv.const _
  intro k
  induction k with
  | zero => exact fun before rest depth r hk => stop _ _ _ _ (Or.inl (by omega))
  | succ k ih =>
    intro before rest depth r hk
    rcases h : splitOnce? ['s', 's'] rest with _ | ⟨x, y⟩
    · exact stop _ _ _ _ (Or.inr h)
    · rw [funext fun f => doSpellSharps_go C (show depth < 5 by omega) h]
      exact Conv.or (ih _ _ _ _ (by omega)) (ih _ _ _ _ (by omega))

theorem Conv.apostrophe {C : Checker} (hD : C.dict.Shrinking) (w : Str) :
    Conv fun f => C.spellApostrophe f w := by
  unfold spellApostrophe
  rcases splitOnce? ['\''] w with _ | ⟨a, b⟩
  · exact Conv.const _
  · dsimp only
    split
    · exact Conv.const _
    · rename_i hb
      refine Conv.title (by intro h; simp [h] at hb) fun t => ?_
      exact Conv.or (Conv.word hD _ _ _) (Conv.title (by simp) fun t => Conv.word hD _ _ _)

theorem Conv.upper {C : Checker} (hD : C.dict.Shrinking) {w : Str} (hw : w ≠ []) :
    Conv fun f => C.spellCasingUpper f w := by
  refine Conv.or (Conv.word hD _ _ _) <| Conv.or (Conv.apostrophe hD _) <| Conv.or ?_ <|
    Conv.or (Conv.title hw fun t => Conv.map _ (Conv.word hD _ _ _)) (Conv.map _ (Conv.word hD _ _ _))
  unfold spellUpperSharps
  split
  · exact Conv.or (Conv.sharps hD _ _ _ _ _ rfl) (Conv.title hw fun t => Conv.sharps hD _ _ _ _ _ rfl)
  · exact Conv.const _

theorem Conv.titleCase {C : Checker} (hD : C.dict.Shrinking) (w : Str) :
    Conv fun f => C.spellCasingTitle f w :=
  Conv.or (Conv.word hD _ _ _) (Conv.map _ (Conv.word hD _ _ _))

/-- When the words looked at for `word` are never empty before they are title-cased: always for the
default checker; for the other ones if the word and its upper case form are not empty. -/
def CanTitle (C : Checker) (word : Str) : Prop :=
  (C.checkLowerAsTitle = true → word ≠ []) ∧
  (C.checkLowerAsUpper = true → C.opts.caseHandling.uppercase C.U word ≠ [])

theorem Conv.asIs {C : Checker} (hD : C.dict.Shrinking) {w : Str} (hw : C.CanTitle w) (b : Bool) :
    Conv fun f => C.spellCasingAsIs f w b := by
  refine Conv.or (Conv.word hD _ _ _) (Conv.or ?_ ?_)
  · split
    · rename_i h
      exact Conv.title (hw.1 (by simp at h; exact h.1)) fun t => Conv.titleCase hD _
    · exact Conv.const _
  · split
    · rename_i h
      exact Conv.upper hD (hw.2 h)
    · exact Conv.const _

theorem Conv.casing {C : Checker} (hD : C.dict.Shrinking) {w : Str} (hw : C.CanTitle w) :
    Conv fun f => C.spellCasing f w := by
  unfold spellCasing
  cases hc : classifyCasing C.U w with
  | none => exact Conv.asIs hD hw _
  | camel => exact Conv.asIs hD hw _
  | pascal => exact Conv.asIs hD hw _
  | all =>
    refine Conv.upper hD fun h => ?_
    subst h
    simp [classifyCasing, classifyCasing?, countCases] at hc
  | init => exact Conv.titleCase hD _

theorem Conv.any {α : Type} {g : α → Nat → Run Bool} : ∀ {l : List α}, (∀ a ∈ l, Conv (g a)) →
    Conv fun f => anyRun (fun a => g a f) l
  | [], _ => Conv.const _
  | a :: as, h => by
    refine Conv.bindBool (h a (by simp)) (k := fun b f => if b then pure true else
      anyRun (fun a => g a f) as) fun b => ?_
    cases b
    · exact Conv.any fun x hx => h x (by simp [hx])
    · exact Conv.const _

theorem Conv.break {C : Checker} {g : Str → Nat → Run Bool} (h : ∀ w, Conv (g w)) (w : Str) :
    Conv fun f => C.breakLoops (fun w => g w f) w := by
  unfold breakLoops
  refine Conv.bindBool (k := fun b f => _) (Conv.any fun pat _ => ?_) fun b => ?_
  · split
    · exact h _
    · exact Conv.const _
  cases b
  swap
  · exact Conv.const _
  refine Conv.bindBool (k := fun b f => _) (Conv.any fun pat _ => ?_) fun b => ?_
  · split
    · exact h _
    · exact Conv.const _
  cases b
  swap
  · exact Conv.const _
  refine Conv.any fun pat _ => ?_
  split
  · split
    · exact Conv.const _
    · refine Conv.bindBool (h _) (k := fun b f => _) fun b => ?_
      cases b
      · exact Conv.const _
      · exact h _
  · exact Conv.const _

theorem Conv.spell {C : Checker} (hD : C.dict.Shrinking) (hw : ∀ w, C.CanTitle w) : ∀ (d : Nat)
    (w : Str), Conv fun f => C.doSpellBreak f d w := by
  have bindO : ∀ (w : Str) (k : Nat → Run Bool), Conv k →
      Conv fun f => C.spellCasing f w >>= fun o => match o with
        | some flags => (pure (C.goodFlags flags) : Run Bool)
        | none => k f := by
    intro w k hk
    obtain ⟨N, hN⟩ := Conv.casing hD (hw w)
    obtain ⟨N', hN'⟩ := hk
    refine ⟨max N N', fun f hf => bind_ok (hN f (by omega)) fun o => ?_⟩
    cases o with
    | none => exact hN' f (by omega)
    | some F => exact ⟨_, rfl⟩
  intro d
  induction d with
  | zero => exact fun w => bindO w _ (Conv.const false)
  | succ d ih => exact fun w => bindO w _ (Conv.break ih w)

theorem Conv.check {C : Checker} (hD : C.dict.Shrinking) (hw : ∀ w, C.CanTitle w) (word : Str) :
    Conv fun f => C.check f word := by
  unfold Checker.check
  by_cases h : byteLen word > maxWordLen
  · simp only [if_pos h]; exact Conv.const _
  · simp only [if_neg h]
    unfold checkConverted
    generalize C.aff.inputConversions.convert word = w
    cases w.isEmpty
    swap
    · exact Conv.const _
    generalize trimEndMatches '.' w = t
    dsimp only
    generalize (byteLen t != byteLen w) = a
    simp only [Bool.false_eq_true, if_false]
    cases isNumber t
    swap
    · exact Conv.const _
    simp only [Bool.false_eq_true, if_false]
    refine Conv.bindBool (Conv.spell hD hw 9 _) (k := fun b f => _) fun b => ?_
    cases b
    · cases a
      · exact Conv.const _
      · exact Conv.spell hD hw 9 _
    · exact Conv.const _

end Spellbook.Checker
