import Verif.Spec.Depth
import Verif.Proof.Outcome
import Verif.Proof.Edits
/-!
# Proofs about the depth of recursion
-/

namespace Spellbook
open Spec Run

/-! ### Lengths -/

theorem flatMap_chars {g : Char → Str} {k : Nat} (h : ∀ c, (g c).length ≤ k) : ∀ w : Str,
    (w.flatMap g).length ≤ k * w.length
  | [] => by simp
  | c :: w => by
    have := flatMap_chars h w
    have := h c
    rw [List.flatMap_cons, List.length_append, List.length_cons, Nat.mul_add]
    omega

theorem replaceChar_length (w : Str) (c d : Char) : (replaceChar w c [d]).length = w.length := by
  induction w with
  | nil => rfl
  | cons x w ih =>
    unfold replaceChar at ih ⊢
    rw [List.flatMap_cons, List.length_append, ih]
    split <;> simp <;> omega

variable {U : Unicode} {k : Nat}

theorem lowerStrFrom_length (hU : CaseGrowth U k) : ∀ w rev : Str, (U.lowerStrFrom rev w).length ≤ k * w.length
  | [], _ => by simp [Unicode.lowerStrFrom]
  | c :: w, rev => by
    have h1 := lowerStrFrom_length hU w (c :: rev)
    have h2 := hU.lower c
    have h3 := hU.pos
    unfold Unicode.lowerStrFrom
    rw [List.length_append, List.length_cons, Nat.mul_add]
    split
    · split <;> simp <;> omega
    · omega

theorem lowercase_chars (hU : CaseGrowth U k) (h : CaseHandling) (w : Str) : (h.lowercase U w).length ≤ k * w.length := by
  cases h
  · unfold CaseHandling.lowercase
    have := lowerStrFrom_length hU (replaceChar (replaceChar w 'I' ['ı']) 'İ' ['i']) []
    rwa [replaceChar_length, replaceChar_length] at this
  · exact lowerStrFrom_length hU w []

theorem uppercase_chars (hU : CaseGrowth U k) (h : CaseHandling) (w : Str) : (h.uppercase U w).length ≤ k * w.length := by
  cases h
  · unfold CaseHandling.uppercase
    have := flatMap_chars hU.upper (replaceChar (replaceChar w 'i' ['İ']) 'ı' ['I'])
    rwa [replaceChar_length, replaceChar_length] at this
  · exact flatMap_chars hU.upper w

theorem titlecase_chars (hU : CaseGrowth U k) (h : CaseHandling) {w t : Str} (ht : h.titlecase U w = some t) :
    t.length ≤ k * w.length := by
  have hp := hU.pos
  have hl : ∀ c, (h.lowerChar U c).length ≤ k := by
    intro c
    unfold CaseHandling.lowerChar
    split
    · split
      · simpa using hp
      · split
        · simpa using hp
        · exact hU.lower c
    · exact hU.lower c
  have hu : ∀ c, (h.upperChar U c).length ≤ k := by
    intro c
    unfold CaseHandling.upperChar
    split
    · split
      · simpa using hp
      · split
        · simpa using hp
        · exact hU.upper c
    · exact hU.upper c
  cases w with
  | nil => cases ht
  | cons c w =>
    cases ht
    have := flatMap_chars hl w
    have := hu c
    rw [List.length_append, List.length_cons, Nat.mul_add]
    omega

namespace Checker

/-! ### Ends by a bound -/

/-- With `n` fuel or more the computation comes to an end. -/
def EndsBy {α : Type} (n : Nat) (g : Nat → Run α) : Prop := ∀ f, n ≤ f → Never .fuel (g f)

namespace EndsBy

variable {n : Nat}

theorem const {α : Type} (r : α) : EndsBy n fun _ => (.ok r : Run α) := fun _ _ => .ok r

theorem or {β : Type} {g g' : Nat → Run (Option β)} (h : EndsBy n g) (h' : EndsBy n g') :
    EndsBy n fun f => (g f).or (g' f) := fun f hf => .or (h f hf) (h' f hf)

theorem map {α β : Type} {g : Nat → Run α} (k : α → β) (h : EndsBy n g) : EndsBy n fun f => (g f).map k :=
  fun f hf => .map _ (h f hf)

theorem bind {α β : Type} {g : Nat → Run α} {k : α → Nat → Run β} (h : EndsBy n g) (h' : ∀ b, EndsBy n (k b)) :
    EndsBy n fun f => g f >>= fun b => k b f := fun f hf => .bind (h f hf) fun b => h' b f hf

theorem title {C : Checker} (hU : CaseGrowth C.U k) {β : Type} {w : Str} {g : Str → Nat → Run β}
    (h : ∀ t, t.length ≤ k * w.length → EndsBy n (g t)) : EndsBy n fun f => C.titlecase w >>= fun t => g t f := by
  unfold titlecase
  cases ht : C.opts.caseHandling.titlecase C.U w with
  | none => exact fun _ _ h => nomatch h
  | some t => exact h t (titlecase_chars hU _ ht)

theorem word {C : Checker} (hD : C.dict.Shrinking) (w : Str) (fc : Forceucase) (hh : HiddenHomonym)
    (hw : w.length < n) : EndsBy n fun f => C.checkWord f w fc hh := fun f hf => by
  obtain ⟨r, hr⟩ := checkWord_ok hD (fuel := f) w fc hh (by omega)
  simp [Never, hr]

theorem sharps {C : Checker} (hD : C.dict.Shrinking) : ∀ (k : Nat) (before rest : Str) (depth r : Nat),
    5 - depth = k → before.length + rest.length < n → EndsBy n fun f => C.doSpellSharps f before rest depth r := by
  have stop : ∀ (before rest : Str) (depth r : Nat), before.length + rest.length < n →
      5 ≤ depth ∨ splitOnce? ['s', 's'] rest = none →
      EndsBy n fun f => C.doSpellSharps f before rest depth r := by
    intro before rest depth r hn h
    rw [funext fun f => doSpellSharps_stop C h]
    split
    · exact word hD _ _ _ (by simpa using hn)
    · exact const _
  intro k
  induction k with
  | zero => exact fun before rest depth r hk hn => stop _ _ _ _ hn (Or.inl (by omega))
  | succ k ih =>
    intro before rest depth r hk hn
    rcases h : splitOnce? ['s', 's'] rest with _ | ⟨x, y⟩
    · exact stop _ _ _ _ hn (Or.inr h)
    · rw [funext fun f => doSpellSharps_go C (show depth < 5 by omega) h]
      have hl := congrArg List.length (splitOnce?_append h)
      simp only [List.length_append, List.length_cons, List.length_nil] at hl
      exact or (ih _ _ _ _ (by omega) (by simp only [List.length_append, List.length_cons, List.length_nil]; omega))
        (ih _ _ _ _ (by omega) (by simp only [List.length_append, List.length_cons, List.length_nil]; omega))

theorem apostrophe {C : Checker} (hD : C.dict.Shrinking) (hU : CaseGrowth C.U k) (w : Str) (hn : k * w.length < n) :
    EndsBy n fun f => C.spellApostrophe f w := by
  unfold spellApostrophe
  rcases h : splitOnce? ['\''] w with _ | ⟨a, b⟩
  · exact const _
  · dsimp only
    have hl := congrArg List.length (splitOnce?_append h)
    simp only [List.length_append, List.length_cons, List.length_nil] at hl
    rw [hl, Nat.mul_add, Nat.mul_add] at hn
    have h1 := lowercase_chars hU C.opts.caseHandling (a ++ ['\''])
    simp only [List.length_append, List.length_cons, List.length_nil, Nat.mul_add] at h1
    split
    · exact const _
    · refine title hU fun t ht => ?_
      refine or (word hD _ _ _ ?_) (title hU fun t' ht' => word hD _ _ _ ?_)
      · rw [List.length_append]
        unfold Checker.lowercase
        omega
      · simp only [List.length_append, List.length_cons, List.length_nil, Nat.mul_add] at ht' ⊢
        omega

theorem upper {C : Checker} (hD : C.dict.Shrinking) (hU : CaseGrowth C.U k) {w : Str} (hn : k * w.length < n) :
    EndsBy n fun f => C.spellCasingUpper f w := by
  have hp : w.length ≤ k * w.length := Nat.le_mul_of_pos_left _ hU.pos
  have hl := lowercase_chars hU C.opts.caseHandling w
  refine or (word hD _ _ _ (by omega)) <| or (apostrophe hD hU _ hn) <| or ?_ <|
    or (title hU fun t ht => map _ (word hD _ _ _ (by omega)))
      (map _ (word hD _ _ _ (by unfold Checker.lowercase; omega)))
  unfold spellUpperSharps
  split
  · exact or (sharps hD _ _ _ _ _ rfl (by unfold Checker.lowercase; simp; omega))
      (title hU fun t ht => sharps hD _ _ _ _ _ rfl (by simp; omega))
  · exact const _

theorem titleCase {C : Checker} (hD : C.dict.Shrinking) (hU : CaseGrowth C.U k) (w : Str) (hn : k * w.length < n) :
    EndsBy n fun f => C.spellCasingTitle f w := by
  have hp : w.length ≤ k * w.length := Nat.le_mul_of_pos_left _ hU.pos
  have hl := lowercase_chars hU C.opts.caseHandling w
  exact or (word hD _ _ _ (by omega)) (map _ (word hD _ _ _ (by unfold Checker.lowercase; omega)))

theorem asIs {C : Checker} (hD : C.dict.Shrinking) (hU : CaseGrowth C.U k) (w : Str) (b : Bool)
    (hn : k * w.length < n) (hs : C.checkLowerAsTitle = true ∨ C.checkLowerAsUpper = true → k * (k * w.length) < n) :
    EndsBy n fun f => C.spellCasingAsIs f w b := by
  have hp : w.length ≤ k * w.length := Nat.le_mul_of_pos_left _ hU.pos
  refine or (word hD _ _ _ (by omega)) (or ?_ ?_)
  · split
    · rename_i h
      simp only [Bool.and_eq_true] at h
      have := hs (.inl h.1)
      exact title hU fun t ht => titleCase hD hU _ (by have := Nat.mul_le_mul_left k ht; omega)
    · exact const _
  · split
    · rename_i h
      have := hs (.inr h)
      exact upper hD hU (by
        have := Nat.mul_le_mul_left k (uppercase_chars hU C.opts.caseHandling w); omega)
    · exact const _

theorem casing {C : Checker} (hD : C.dict.Shrinking) (hU : CaseGrowth C.U k) (w : Str)
    (hn : k * w.length < n) (hs : C.checkLowerAsTitle = true ∨ C.checkLowerAsUpper = true → k * (k * w.length) < n) :
    EndsBy n fun f => C.spellCasing f w := by
  unfold spellCasing
  cases hc : classifyCasing C.U w with
  | none => exact asIs hD hU _ _ hn hs
  | camel => exact asIs hD hU _ _ hn hs
  | pascal => exact asIs hD hU _ _ hn hs
  | all => exact upper hD hU hn
  | init => exact titleCase hD hU _ hn

theorem any {α : Type} {g : α → Nat → Run Bool} : ∀ {l : List α}, (∀ a ∈ l, EndsBy n (g a)) →
    EndsBy n fun f => anyRun (fun a => g a f) l :=
  fun h f hf => anyRun_never fun a ha => h a ha f hf

/-- The words BREAK makes are not longer. -/
theorem «break» {C : Checker} {g : Str → Nat → Run Bool} {m : Nat} (h : ∀ w : Str, w.length ≤ m → EndsBy n (g w))
    (w : Str) (hw : w.length ≤ m) : EndsBy n fun f => C.breakLoops (fun w => g w f) w := by
  unfold breakLoops
  refine bind (k := fun b f => _) (any fun pat _ => ?_) fun b => ?_
  · split
    · rename_i rest hr
      have := congrArg List.length (stripPrefix?_iff.1 hr)
      rw [List.length_append] at this
      exact h _ (by omega)
    · exact const _
  cases b
  swap
  · exact const _
  refine bind (k := fun b f => _) (any fun pat _ => ?_) fun b => ?_
  · split
    · rename_i rest hr
      have := congrArg List.length (stripSuffix?_iff.1 hr)
      rw [List.length_append] at this
      exact h _ (by omega)
    · exact const _
  cases b
  swap
  · exact const _
  refine any fun pat _ => ?_
  split
  · rename_i a b hr
    have := congrArg List.length (splitOnce?_append hr)
    simp only [List.length_append] at this
    split
    · exact const _
    · refine bind (h _ (by omega)) (k := fun b f => _) fun b => ?_
      cases b
      · exact const _
      · exact h _ (by omega)
  · exact const _

theorem spell {C : Checker} (hD : C.dict.Shrinking) (hU : CaseGrowth C.U k) {m : Nat} (hn : k * m < n)
    (hs : C.checkLowerAsTitle = true ∨ C.checkLowerAsUpper = true → k * (k * m) < n) : ∀ (d : Nat)
    (w : Str), w.length ≤ m → EndsBy n fun f => C.doSpellBreak f d w := by
  have hc : ∀ w : Str, w.length ≤ m → EndsBy n fun f => C.spellCasing f w := by
    intro w hw
    have h1 := Nat.mul_le_mul_left k hw
    have h2 := Nat.mul_le_mul_left k h1
    exact casing hD hU w (by omega) fun h => by have := hs h; omega
  intro d
  induction d with
  | zero =>
    intro w hw
    refine bind (hc w hw) (k := fun o f => match o with
      | some flags => (pure (C.goodFlags flags) : Run Bool)
      | none => pure false) fun o => ?_
    cases o <;> exact const _
  | succ d ih =>
    intro w hw
    refine bind (hc w hw) (k := fun o f => match o with
      | some flags => (pure (C.goodFlags flags) : Run Bool)
      | none => C.breakLoops (C.doSpellBreak f d) w) fun o => ?_
    cases o
    · exact «break» ih w hw
    · exact const _

end EndsBy

theorem trimEndMatches_length (c : Char) (w : Str) : (trimEndMatches c w).length ≤ w.length := by
  unfold trimEndMatches
  rw [List.length_reverse]
  exact (List.dropWhile_sublist _).length_le.trans (by simp)

theorem eraseChars_length (w : Str) (l : List Char) : (eraseChars w l).length ≤ w.length := by
  unfold eraseChars
  split
  · exact Nat.le_refl _
  · exact List.length_filter_le ..

theorem check_endsBy {C : Checker} (hD : C.dict.Shrinking) (hU : CaseGrowth C.U k) {n : Nat} (word : Str)
    (hn : k * (C.dict.aff.inputConversions.convert word).length < n)
    (hs : C.checkLowerAsTitle = true ∨ C.checkLowerAsUpper = true →
      k * (k * (C.dict.aff.inputConversions.convert word).length) < n) : EndsBy n fun f => C.check f word := by
  unfold Checker.check
  by_cases h : byteLen word > maxWordLen
  · simp only [if_pos h]; exact EndsBy.const _
  · simp only [if_neg h]
    unfold checkConverted
    change k * (C.aff.inputConversions.convert word).length < n at hn
    change _ → k * (k * (C.aff.inputConversions.convert word).length) < n at hs
    generalize C.aff.inputConversions.convert word = w at hn hs
    cases w.isEmpty
    swap
    · exact EndsBy.const _
    have hl := eraseChars_length (trimEndMatches '.' w) C.aff.ignoreChars
    have hl' := trimEndMatches_length '.' w
    generalize trimEndMatches '.' w = t at hl hl'
    dsimp only
    generalize (byteLen t != byteLen w) = a
    simp only [Bool.false_eq_true, if_false]
    cases isNumber t
    swap
    · exact EndsBy.const _
    simp only [Bool.false_eq_true, if_false]
    refine EndsBy.bind (EndsBy.spell hD hU hn hs 9 _ (by omega)) (k := fun b f => _) fun b => ?_
    cases b
    · cases a
      · exact EndsBy.const _
      · exact EndsBy.spell hD hU hn hs 9 _ (Nat.le_refl _)
    · exact EndsBy.const _

end Checker
end Spellbook
