import Verif.Proof.SuggestSafe
import Verif.Proof.SuggestAll
/-!
# The suggester comes to an end
-/

namespace Spellbook
open Spec Run

/-- From some amount of fuel on the computation comes to the same end, with a result or a panic. -/
def Still {α : Type} (g : Nat → Run α) : Prop := ∃ r N, r ≠ .error .fuel ∧ ∀ f, N ≤ f → g f = r

namespace Still
variable {α β : Type}

theorem const {r : Run α} (h : r ≠ .error .fuel) : Still fun _ => r := ⟨r, 0, h, fun _ _ => rfl⟩
theorem ok (a : α) : Still fun _ => (.ok a : Run α) := const (by simp)
theorem pure (a : α) : Still fun _ => (Pure.pure a : Run α) := ok a

theorem bind {g : Nat → Run α} {k : Nat → α → Run β} (h : Still g) (h' : ∀ a, Still fun f => k f a) :
    Still fun f => g f >>= k f := by
  obtain ⟨r, N, hr, h⟩ := h
  cases r with
  | error e =>
    refine ⟨.error e, N, by simpa using hr, fun f hf => ?_⟩
    dsimp only
    rw [h f hf]; rfl
  | ok a =>
    obtain ⟨r, N', hr, h'⟩ := h' a
    refine ⟨r, max N N', hr, fun f hf => ?_⟩
    dsimp only
    rw [h f (by omega)]
    exact h' f (by omega)

theorem map {g : Nat → Run α} (k : α → β) (h : Still g) : Still fun f => (g f).map k := by
  obtain ⟨r, N, hr, h⟩ := h
  refine ⟨r.map k, N, ?_, fun f hf => by dsimp only; rw [h f hf]⟩
  cases r with
  | error e => simpa [Except.map] using hr
  | ok a => simp [Except.map]

theorem foldlM {k : Nat → β → α → Run β} : ∀ {l : List α} {b : β}, (∀ b, ∀ a ∈ l, Still fun f => k f b a) →
    Still fun f => l.foldlM (k f) b
  | [], b, _ => by simp only [List.foldlM_nil]; exact pure b
  | a :: l, b, h => by
    simp only [List.foldlM_cons]
    exact bind (h b a (by simp)) fun b' => foldlM fun b a ha => h b a (by simp [ha])

theorem mapM {k : Nat → α → Run β} : ∀ {l : List α}, (∀ a ∈ l, Still fun f => k f a) →
    Still fun f => l.mapM (k f)
  | [], _ => by simp only [List.mapM_nil]; exact pure _
  | a :: l, h => by
    simp only [List.mapM_cons]
    exact bind (h a (by simp)) fun b => bind (mapM fun a ha => h a (by simp [ha])) fun r => pure _

theorem of_ends {g : Nat → Run α} (h : Checker.Ends g) (hle : ∀ {f f' : Nat}, f ≤ f' → Run.Le (g f) (g f')) :
    Still g := by
  obtain ⟨N, hN⟩ := h
  refine ⟨g N, N, hN N (Nat.le_refl _), fun f hf => ?_⟩
  rcases hle hf with h | h
  · exact absurd h (hN N (Nat.le_refl _))
  · exact h.symm

theorem check {C : Checker} (hD : C.dict.Shrinking) (w : Str) : Still fun f => C.check f w :=
  of_ends (Checker.Ends.check hD w) fun hf => Checker.check_le C hf w

theorem word {C : Checker} (hD : C.dict.Shrinking) (w : Str) (fc : Forceucase) (hh : HiddenHomonym) :
    Still fun f => C.checkWord f w fc hh :=
  of_ends (Checker.Ends.word hD w fc hh) fun hf => Checker.checkWord_le C hf w fc hh

theorem compound {C : Checker} (hD : C.dict.Shrinking) (m : Mode) (w : Str) (fc : Forceucase) :
    Still fun f => C.checkCompound f m w fc :=
  of_ends ⟨w.length + 1, fun f hf => by
    obtain ⟨r, hr⟩ := Checker.checkCompound_ok hD (fuel := f) m w fc (by omega)
    simp [Never, hr]⟩ fun hf => Checker.checkCompound_le C hf m w fc

theorem ofOption {o : Option α} : Still fun _ => Run.ofOption o := by
  cases o with
  | none => exact const (by simp [Run.ofOption])
  | some a => exact ok a

end Still

/-! ## Similarity -/

namespace Checker
variable {C : Checker} {H : Heaps}

theorem charsStr_nf (s : Str) : Never .fuel (charsStr s) := by
  unfold charsStr; split <;> simp [Never]

theorem rescore_nf (word : Str) : ∀ gs, Never .fuel (C.rescore word gs)
  | [] => .ok _
  | g :: gs => by
    unfold rescore
    refine .bind (charsStr_nf _) fun lower => ?_
    dsimp only
    split
    · exact .pure _
    · refine .bind ?_ fun sc => .bind (rescore_nf word gs) fun _ => .pure _
      unfold newScore
      dsimp only
      split
      · simp [Never]
      · exact .ok _

theorem ngramSuggest_nf (word : Str) (out : List Str) : Never .fuel (C.ngramSuggest H word out) := by
  unfold ngramSuggest
  refine .bind (charsStr_nf _) fun w => .bind ?_ fun roots => .bind ?_ fun gs =>
    .bind (rescore_nf _ _) fun gs => .pure _
  · refine .foldlM _ fun rs e _ => ?_
    unfold offerRoot
    split
    · exact .ok _
    · exact .bind (.bind (charsStr_nf _) fun _ => .bind (charsStr_nf _) fun _ => .pure _) fun _ => .pure _
  · refine .foldlM _ fun gs r _ => .bind (expandStem_no_fuel _ _ _) fun forms => .foldlM _ fun gs t _ => ?_
    unfold offerGuess
    refine .bind (.bind (charsStr_nf _) fun _ => .pure _) fun sc => ?_
    split <;> exact .pure _

end Checker

namespace Suggester
variable {S : Suggester}

theorem titlecase_still {C : Checker} (w : Str) : Still fun _ => C.titlecase w := by
  unfold Checker.titlecase
  split
  · exact .ok _
  · exact .const (by simp)

theorem addIfCorrect_still (hD : S.C.dict.Shrinking) (t : Str) (out : List Str) :
    Still fun f => S.addIfCorrect f t out := by
  unfold addIfCorrect
  refine .bind (.word hD _ _ _) fun r => ?_
  cases r with
  | none => exact .pure _
  | some F => dsimp only; split; · exact .pure _
              split <;> exact .pure _

theorem addAll_still (hD : S.C.dict.Shrinking) (texts out : List Str) : Still fun f => S.addAll f texts out :=
  .foldlM fun _ _ _ => .bind (addIfCorrect_still hD _ _) fun _ => .pure _

theorem allParts_still (hD : S.C.dict.Shrinking) : ∀ ps, Still fun f => S.allParts f ps
  | [] => .ok _
  | p :: ps => by
    unfold allParts
    refine .bind (.word hD _ _ _) fun r => ?_
    cases r with
    | none => exact .pure _
    | some F => exact allParts_still hD ps

theorem tryRep_still (hD : S.C.dict.Shrinking) (t : Str) (out : List Str) :
    Still fun f => S.tryRep f t out := by
  unfold tryRep
  refine .bind (addIfCorrect_still hD _ _) fun r => ?_
  dsimp only
  split
  · exact .pure _
  split
  · refine .bind (allParts_still hD _) fun b => ?_
    split <;> exact .pure _
  · exact .pure _

theorem maxAttempts_still (w : Str) : Still fun _ => S.maxAttempts w := by
  refine .const ?_
  unfold maxAttempts
  dsimp only
  generalize (if S.C.opts.complexPrefixes = true then _ else _ : Nat) = cost
  split
  · split <;> simp
  · simp

theorem free_still (hD : S.C.dict.Shrinking) (e : Edit) (w : Str) (out : List Str) :
    Still fun f => S.free f e w out :=
  .bind .ofOption fun _ => addAll_still hD _ _

theorem limited_still (hD : S.C.dict.Shrinking) (e : Edit) (w : Str) (out : List Str) :
    Still fun f => S.limited f e w out :=
  .bind (maxAttempts_still w) fun _ => .bind .ofOption fun _ => addAll_still hD _ _

theorem suggestLow_still (hD : S.C.dict.Shrinking) (w : Str) (out : List Str) :
    Still fun f => S.suggestLow f w out := by
  unfold suggestLow
  dsimp only
  refine .bind (.bind (addIfCorrect_still hD _ _) fun _ => .pure _) fun o1 => ?_
  refine .bind (.bind .ofOption fun _ => .foldlM fun _ _ _ => tryRep_still hD _ _) fun o2 => ?_
  refine .bind (.bind (maxAttempts_still w) fun _ => .bind .ofOption fun _ => addAll_still hD _ _) fun o3 => ?_
  refine .bind ?_ fun hq => .bind ?_ fun _ => .pure _
  · unfold highQuality
    split
    · exact .ok _
    split
    · exact .ok _
    · exact .map _ (.word hD _ _ _)
  · exact .bind (free_still hD _ _ _) fun _ => .bind (limited_still hD _ _ _) fun _ =>
      .bind (free_still hD _ _ _) fun _ => .bind (free_still hD _ _ _) fun _ =>
      .bind (limited_still hD _ _ _) fun _ => .bind (limited_still hD _ _ _) fun _ =>
      .bind (limited_still hD _ _ _) fun _ => .bind (free_still hD _ _ _) fun _ => .pure _

theorem lowThenFront_still (hD : S.C.dict.Shrinking) (w : Str) (hq : Bool) (out : List Str) :
    Still fun f => S.lowThenFront f w hq out :=
  .bind (suggestLow_still hD _ _) fun _ => .bind (.check hD _) fun _ => .pure _

theorem titleSecond_still (w : Str) : ∀ rest done, Still fun _ => S.titleSecond w done rest
  | [], done => .ok _
  | s :: rest, done => by
    unfold titleSecond
    split
    · exact titleSecond_still w _ _
    · split
      · exact titleSecond_still w _ _
      · exact .bind .ofOption fun _ => titleSecond_still w _ _

theorem mixedCase_still (hD : S.C.dict.Shrinking) (pascal : Bool) (w : Str) (out : List Str) :
    Still fun f => S.mixedCase f pascal w out := by
  unfold mixedCase
  refine .bind (suggestLow_still hD _ _) fun _ => ?_
  dsimp only
  refine .bind ?_ fun _ => .bind (lowThenFront_still hD _ _ _) fun _ => .bind ?_ fun _ =>
    .bind (titleSecond_still _ _ _) fun _ => .pure _
  · unfold pascalLower
    split
    · exact .bind .ofOption fun _ => lowThenFront_still hD _ _ _
    · exact .ok _
  · unfold pascalTitle
    split
    · exact .bind (titlecase_still _) fun _ => lowThenFront_still hD _ _ _
    · exact .ok _

theorem allCaps_still (hD : S.C.dict.Shrinking) (w : Str) (out : List Str) :
    Still fun f => S.allCaps f w out := by
  unfold allCaps
  dsimp only
  refine .bind ?_ fun _ => .bind (suggestLow_still hD _ _) fun _ => .bind (titlecase_still _) fun _ =>
    .bind (suggestLow_still hD _ _) fun _ => .pure _
  unfold keepLower
  split
  · exact .bind (.check hD _) fun _ => .pure _
  · exact .ok _

theorem initCase_still (hD : S.C.dict.Shrinking) (w : Str) (out : List Str) :
    Still fun f => S.initCase f w out :=
  .bind (suggestLow_still hD _ _) fun _ => .bind (suggestLow_still hD _ _) fun _ => .pure _

theorem ngramPart_still (casing : Casing) (w : Str) (hq : Bool) (out : List Str) :
    Still fun _ => S.ngramPart casing w hq out := by
  unfold ngramPart
  split
  · exact .bind (.const (Checker.ngramSuggest_nf _ _)) fun _ => .pure _
  · exact .ok _

theorem dashes_still (hD : S.C.dict.Shrinking) {rec' : Nat → Str → List Str → Run (List Str)} {w : Str}
    (hrec : '-' ∈ w → ∀ part, '-' ∉ part → Still fun f => rec' f part []) (out : List Str) :
    Still fun f => S.dashes f (rec' f) w out := by
  unfold dashes
  split
  · rename_i h
    have hd : '-' ∈ w := by
      simp only [Bool.and_eq_true] at h; simpa using h.1
    refine .foldlM fun o p hp => ?_
    obtain ⟨pre, part, post⟩ := p
    have hno := (mem_dashPieces.mp hp).noDash
    unfold dashPart
    refine .bind (.check hD _) fun b => ?_
    split
    · exact .pure _
    · refine .bind (hrec hd part hno) fun found => .foldlM fun o s _ => ?_
      unfold dashCandidate
      refine .bind (.word hD _ _ _) fun r => ?_
      cases r <;> exact .pure _
  · exact .ok _

theorem recheck_still (hD : S.C.dict.Shrinking) (s : Str) : Still fun f => S.recheck f s := by
  unfold recheck
  split
  · exact .pure _
  · refine .bind (.check hD _) fun b => ?_
    split
    · exact .pure _
    · refine .bind (.check hD _) fun b => ?_
      split
      · exact .pure _
      · refine .bind (titlecase_still _) fun t => .bind (.check hD _) fun b => ?_
        split <;> exact .pure _

theorem recheckAll_still (hD : S.C.dict.Shrinking) : ∀ out, Still fun f => S.recheckAll f out
  | [] => .ok _
  | s :: rest => by
    unfold recheckAll
    exact .bind (recheck_still hD s) fun _ => .bind (recheckAll_still hD rest) fun _ => .pure _

theorem finish_still (hD : S.C.dict.Shrinking) (casing : Casing) (out : List Str) :
    Still fun f => S.finish f casing out := by
  unfold finish
  refine .bind ?_ fun _ => .bind ?_ fun _ => .bind .ofOption fun _ => .pure _
  · unfold capitalise
    split
    · exact .mapM fun s _ => .ofOption
    · exact .ok _
  · unfold retained
    split
    · exact recheckAll_still hD _
    · exact .ok _

theorem afterCasing_still (hD : S.C.dict.Shrinking) {rec' : Nat → Str → List Str → Run (List Str)} {w : Str}
    (hrec : '-' ∈ w → ∀ part, '-' ∉ part → Still fun f => rec' f part []) (casing : Casing)
    (r : Bool × List Str) : Still fun f => S.afterCasing f (rec' f) casing w r :=
  .bind (ngramPart_still _ _ _ _) fun _ => .bind (dashes_still hD hrec _) fun _ => finish_still hD _ _

theorem suggestConverted_still (hD : S.C.dict.Shrinking) {rec' : Nat → Str → List Str → Run (List Str)}
    {w : Str} (hrec : '-' ∈ w → ∀ part, '-' ∉ part → Still fun f => rec' f part []) (out : List Str) :
    Still fun f => S.suggestConverted f (rec' f) w out := by
  unfold suggestConverted
  split
  · refine .bind ?_ fun b => ?_
    · unfold forceTitle
      split
      · exact .map _ (.compound hD _ _ _)
      · exact .ok _
    split
    · exact .bind (titlecase_still _) fun _ => .pure _
    · exact .bind (suggestLow_still hD _ _) fun _ => afterCasing_still hD hrec _ _
  · exact .bind (initCase_still hD _ _) fun _ => afterCasing_still hD hrec _ _
  · exact .bind (mixedCase_still hD _ _ _) fun _ => afterCasing_still hD hrec _ _
  · exact .bind (mixedCase_still hD _ _ _) fun _ => afterCasing_still hD hrec _ _
  · exact .bind (allCaps_still hD _ _) fun _ => afterCasing_still hD hrec _ _

/-- If the conversion of the input adds no dash, two levels are enough. -/
theorem suggestImpl_still (hD : S.C.dict.Shrinking)
    (hI : ∀ w, '-' ∉ w → '-' ∉ S.C.aff.inputConversions.convert w) (depth : Nat) (w : Str) (out : List Str) :
    Still fun f => S.suggestImpl f (depth + 2) w out := by
  have base : ∀ depth part out, '-' ∉ part → Still fun f => S.suggestImpl f (depth + 1) part out := by
    intro depth part out hp
    unfold suggestImpl
    split
    · exact .ok _
    · exact suggestConverted_still hD (fun h => absurd h (hI _ hp)) out
  unfold suggestImpl
  split
  · exact .ok _
  · exact suggestConverted_still hD (fun _ part hp => base depth part [] hp) out

theorem suggest_still (hD : S.C.dict.Shrinking)
    (hI : ∀ w, '-' ∉ w → '-' ∉ S.C.aff.inputConversions.convert w) (depth : Nat) (w : Str) (out : List Str) :
    Still fun f => S.suggest f (depth + 2) w out := by
  unfold suggest
  dsimp only
  split
  · exact .ok _
  · exact suggestImpl_still hD hI depth w _

/-- A text converted with replacements without dashes. -/
theorem _root_.Spellbook.Spec.Converts.noDash {lines : List (Str × Str)} (hl : ∀ r ∈ lines, '-' ∉ r.2) {w out : Str}
    (h : Converts lines w out) (hw : '-' ∉ w) : '-' ∉ out := by
  induction h with
  | done => simp
  | copy _ _ ih =>
    simp only [List.mem_cons, not_or] at hw ⊢
    exact ⟨hw.1, ih hw.2⟩
  | replace hm _ _ _ ih =>
    simp only [List.mem_append, not_or] at hw ⊢
    exact ⟨hl _ hm, ih hw.2⟩

end Suggester
end Spellbook
