import Verif.Model.DebugSuggest
import Verif.Proof.Debug
import Verif.Proof.SuggestBytes
import Verif.Proof.SuggestSafe
/-!
# The suggester in debug builds and release builds

`suggest` of a debug build does what that of a release build does, or an assertion of the checker fails.
-/

namespace Spellbook.Debug

variable {α β : Type} {A : Assertion → Prop}

theorem Agrees.foldlM {f : β → α → Dbg β} {g : β → α → Run β} :
    ∀ {l : List α} {b : β}, (∀ b a, a ∈ l → Agrees A (f b a) (g b a)) → Agrees A (l.foldlM f b) (l.foldlM g b)
  | [], _, _ => .inl rfl
  | a :: l, b, h => by
    simp only [List.foldlM_cons]
    exact (h b a List.mem_cons_self).bind fun b' _ => foldlM fun b a ha => h b a (List.mem_cons_of_mem _ ha)

variable {S : Suggester}

section
variable (hA : Allows S.C A) (hm : 0 < S.C.opts.minChars) (fuel : Nat)
include hA hm

theorem addIfCorrect_agrees (w : Str) (out : List Str) :
    Agrees A (addIfCorrect S fuel w out) (Bytes.addIfCorrect S fuel w out) := by
  refine (checkWord_agrees hA hm fuel w _ _).bind fun r _ => ?_
  cases r with
  | none => exact .inl rfl
  | some F => exact .ite (.pure _) (.ite (.pure _) (.pure _))

theorem addAll_agrees (texts out : List Str) :
    Agrees A (addAll S fuel texts out) (Bytes.addAll S fuel texts out) :=
  .foldlM fun _ _ _ => (addIfCorrect_agrees hA hm fuel _ _).bind fun _ _ => .pure _

theorem uppercaseSuggest_agrees (w : Str) (out : List Str) :
    Agrees A (uppercaseSuggest S fuel w out) (Bytes.uppercaseSuggest S fuel w out) :=
  (addIfCorrect_agrees hA hm fuel _ _).bind fun _ _ => .pure _

theorem allParts_agrees : ∀ parts : List Str, Agrees A (allParts S fuel parts) (Bytes.allParts S fuel parts)
  | [] => .inl rfl
  | p :: ps => by
    refine (checkWord_agrees hA hm fuel p _ _).bind fun r _ => ?_
    cases r with
    | none => exact .inl rfl
    | some F => exact allParts_agrees ps

theorem tryRep_agrees (w : Str) (out : List Str) :
    Agrees A (tryRep S fuel w out) (Bytes.tryRep S fuel w out) := by
  refine (addIfCorrect_agrees hA hm fuel w out).bind fun r _ => ?_
  obtain ⟨added, out'⟩ := r
  refine .ite (.pure _) ((Agrees.lift _).bind fun p _ => ?_)
  cases p with
  | none => exact .inl rfl
  | some parts => exact (allParts_agrees hA hm fuel parts).bind fun b _ => .ite (.pure _) (.pure _)

theorem repSuggest_agrees (w : Str) (out : List Str) :
    Agrees A (repSuggest S fuel w out) (Bytes.repSuggest S fuel w out) :=
  (Agrees.lift _).bind fun _ _ => .foldlM fun _ _ _ => tryRep_agrees hA hm fuel _ _

theorem mapSuggest_agrees (w : Str) (out : List Str) :
    Agrees A (mapSuggest S fuel w out) (Bytes.mapSuggest S fuel w out) :=
  (Agrees.lift _).bind fun _ _ => (Agrees.lift _).bind fun _ _ => addAll_agrees hA hm fuel _ _

theorem free_agrees (e : Edit) (w : Str) (out : List Str) :
    Agrees A (free S fuel e w out) (Bytes.free S fuel e w out) :=
  (Agrees.lift _).bind fun _ _ => addAll_agrees hA hm fuel _ _

theorem limited_agrees (e : Edit) (w : Str) (out : List Str) :
    Agrees A (limited S fuel e w out) (Bytes.limited S fuel e w out) :=
  (Agrees.lift _).bind fun _ _ => (Agrees.lift _).bind fun _ _ => addAll_agrees hA hm fuel _ _

theorem highQuality_agrees (w : Str) (n m : Nat) :
    Agrees A (highQuality S fuel w n m) (Bytes.highQuality S fuel w n m) :=
  .ite (.ok _) (.ite (.ok _) ((checkWord_agrees hA hm fuel w _ _).map _))

end

/-- The byte between two texts joined by a space. -/
theorem space_at (a b : Str) : (utf8 (a ++ [' '] ++ b))[byteLen a]? = some 0x20 := by
  simp only [utf8_append]
  rw [List.append_assoc]
  show (utf8 a ++ (utf8 [' '] ++ utf8 b))[(utf8 a).length]? = _
  rw [List.getElem?_append_right (Nat.le_refl _), Nat.sub_self]
  rfl

theorem twoWordsAt_agrees (hA : Allows S.C A) (w : Str) (out : List Str) (n idx : Nat) :
    Agrees A (twoWordsAt S w out n idx) (Bytes.twoWordsAt S w out n idx) := by
  refine (Agrees.lift _).bind fun word1 h1 => ?_
  have hidx : byteLen word1 = idx := sliceTo?_size (need_ok h1)
  refine (checkSimpleWord_agrees .skip (hA.tame _ _)).step ?_
  refine .ite (.pure _) ((Agrees.lift _).bind fun word2 _ => ?_)
  refine (checkSimpleWord_agrees .skip (hA.tame _ _)).step ?_
  refine .ite (.pure _) (.ite ?_ (.pure _))
  refine (Agrees.lift _).bind fun hyphen hh => ?_
  have hh := need_ok hh
  rw [List.getLast?_concat, Option.some.injEq] at hh
  subst hh hidx
  refine Agrees.step (a := ()) (assert_agrees (.inr ?_)) ((Agrees.lift _).bind fun _ _ => .pure _)
  rw [space_at]; rfl

theorem present {w : Str} (hw : w ≠ []) : Agrees A (assert .wordPresent (w ≠ [])) (.ok ()) :=
  assert_agrees (.inr (decide_eq_true hw))

theorem twoWordsSuggest_agrees (hA : Allows S.C A) {w : Str} (hw : w ≠ []) (out : List Str) :
    Agrees A (twoWordsSuggest S w out) (Bytes.twoWordsSuggest S w out) :=
  (present hw).step (.ite (.ok _) (.foldlM fun _ _ _ => twoWordsAt_agrees hA w _ _ _))

section
variable (hA : Allows S.C A) (hm : 0 < S.C.opts.minChars) (fuel : Nat)
include hA hm

theorem suggestEdits_agrees {w : Str} (hw : w ≠ []) (out : List Str) :
    Agrees A (suggestEdits S fuel w out) (Bytes.suggestEdits S fuel w out) := by
  refine (present hw).step ((free_agrees hA hm fuel _ _ _).bind fun _ _ => ?_)
  refine (present hw).step ((limited_agrees hA hm fuel _ _ _).bind fun _ _ => ?_)
  refine (free_agrees hA hm fuel _ _ _).bind fun _ _ => (free_agrees hA hm fuel _ _ _).bind fun _ _ => ?_
  refine (limited_agrees hA hm fuel _ _ _).bind fun _ _ => ?_
  refine (present hw).step ((limited_agrees hA hm fuel _ _ _).bind fun _ _ => ?_)
  refine (limited_agrees hA hm fuel _ _ _).bind fun _ _ => (free_agrees hA hm fuel _ _ _).bind fun _ _ => ?_
  exact twoWordsSuggest_agrees hA hw _

theorem suggestLow_agrees {w : Str} (hw : w ≠ []) (out : List Str) :
    Agrees A (suggestLow S fuel w out) (Bytes.suggestLow S fuel w out) :=
  (uppercaseSuggest_agrees hA hm fuel _ _).bind fun _ _ => (repSuggest_agrees hA hm fuel _ _).bind fun _ _ =>
  (mapSuggest_agrees hA hm fuel _ _).bind fun _ _ => (highQuality_agrees hA hm fuel _ _ _).bind fun _ _ =>
  (suggestEdits_agrees hA hm fuel hw _).bind fun _ _ => .pure _

theorem lowThenFront_agrees {w : Str} (hw : w ≠ []) (hq : Bool) (out : List Str) :
    Agrees A (lowThenFront S fuel w hq out) (Bytes.lowThenFront S fuel w hq out) :=
  (suggestLow_agrees hA hm fuel hw _).bind fun _ _ => (check_agrees hA hm fuel w).bind fun _ _ => .pure _

theorem keepLower_agrees (lower : Str) (out : List Str) :
    Agrees A (keepLower S fuel lower out) (Bytes.keepLower S fuel lower out) :=
  .ite ((check_agrees hA hm fuel _).bind fun _ _ => .pure _) (.ok _)

theorem dashCandidate_agrees (pre post : Str) (out : List Str) (s : Str) :
    Agrees A (dashCandidate S fuel pre post out s) (Bytes.dashCandidate S fuel pre post out s) := by
  refine (checkWord_agrees hA hm fuel _ _ _).bind fun r _ => ?_
  cases r <;> exact .pure _

theorem dashPart_agrees {r : Str → List Str → Dbg (List Str)} {r' : Str → List Str → Run (List Str)}
    (hr : ∀ w out, Agrees A (r w out) (r' w out)) (out : List Str) :
    ∀ p, Agrees A (dashPart S fuel r out p) (Bytes.dashPart S fuel r' out p)
  | (pre, part, post) => (check_agrees hA hm fuel part).bind fun _ _ =>
    .ite (.pure _) ((hr part []).bind fun _ _ => .foldlM fun _ _ _ => dashCandidate_agrees hA hm fuel _ _ _ _)

theorem dashes_agrees {r : Str → List Str → Dbg (List Str)} {r' : Str → List Str → Run (List Str)}
    (hr : ∀ w out, Agrees A (r w out) (r' w out)) (w : Str) (out : List Str) :
    Agrees A (dashes S fuel r w out) (Bytes.dashes S fuel r' w out) :=
  .ite ((Agrees.lift _).bind fun _ _ => .foldlM fun _ _ _ => dashPart_agrees hA hm fuel hr _ _) (.ok _)

theorem recheck_agrees (s : Str) : Agrees A (recheck S fuel s) (Bytes.recheck S fuel s) :=
  .ite (.pure _) ((check_agrees hA hm fuel s).bind fun _ _ => .ite (.pure _)
    ((check_agrees hA hm fuel _).bind fun _ _ => .ite (.pure _)
      ((Agrees.lift _).bind fun _ _ => (check_agrees hA hm fuel _).bind fun _ _ => .ite (.pure _) (.pure _))))

theorem recheckAll_agrees : ∀ out : List Str, Agrees A (recheckAll S fuel out) (Bytes.recheckAll S fuel out)
  | [] => .inl rfl
  | s :: rest => (recheck_agrees hA hm fuel s).bind fun _ _ => (recheckAll_agrees rest).bind fun _ _ => .pure _

theorem retained_agrees (c : Casing) (out : List Str) :
    Agrees A (retained S fuel c out) (Bytes.retained S fuel c out) :=
  .ite (recheckAll_agrees hA hm fuel out) (.ok _)

theorem finish_agrees (c : Casing) (out : List Str) :
    Agrees A (finish S fuel c out) (Bytes.finish S fuel c out) :=
  (Agrees.lift _).bind fun _ _ => (retained_agrees hA hm fuel c _).bind fun _ _ =>
  (Agrees.lift _).bind fun _ _ => .lift _

theorem afterCasing_agrees {r : Str → List Str → Dbg (List Str)} {r' : Str → List Str → Run (List Str)}
    (hr : ∀ w out, Agrees A (r w out) (r' w out)) (c : Casing) (w : Str) (q : Bool × List Str) :
    Agrees A (afterCasing S fuel r c w q) (Bytes.afterCasing S fuel r' c w q) :=
  (Agrees.lift _).bind fun _ _ => (dashes_agrees hA hm fuel hr w _).bind fun _ _ => finish_agrees hA hm fuel c _

theorem forceTitle_agrees (w : Str) : Agrees A (forceTitle S fuel w) (Bytes.forceTitle S fuel w) :=
  .ite ((checkCompound_agrees hA hm fuel _ _ _).map _) (.ok _)

end

theorem titlecase_present (hu : ∀ c, S.C.U.upper c ≠ []) {w t : Str} (h : S.C.titlecase w = .ok t) : t ≠ [] := by
  unfold Checker.titlecase at h
  cases w with
  | nil => cases h
  | cons c w =>
    cases h
    simp [CaseHandling.upperChar_ne hu _ _]

theorem lowerFirst_present (hl : ∀ c, S.C.U.lower c ≠ []) {h : CaseHandling} {w t : Str}
    (ht : Bytes.lowerFirstChar S.C.U h w = .ok t) : t ≠ [] := by
  rw [Bytes.lowerFirstChar_eq] at ht
  cases w with
  | nil => cases ht
  | cons c w =>
    cases ht
    simp [CaseHandling.lowerChar_ne hl _ _]

theorem lowercase_present (hl : ∀ c, S.C.U.lower c ≠ []) {w : Str} (hw : w ≠ []) : S.C.lowercase w ≠ [] :=
  CaseHandling.lowercase_ne hl _ hw

section
variable (hA : Allows S.C A) (hm : 0 < S.C.opts.minChars) (hl : ∀ c, S.C.U.lower c ≠ [])
  (hu : ∀ c, S.C.U.upper c ≠ []) (fuel : Nat)
include hA hm hl

theorem pascalLower_agrees (p : Bool) (w : Str) (r : Bool × List Str) :
    Agrees A (pascalLower S fuel p w r) (Bytes.pascalLower S fuel p w r) :=
  .ite ((Agrees.lift _).bind fun _ h => lowThenFront_agrees hA hm fuel (lowerFirst_present hl h) _ _) (.ok _)

theorem initCase_agrees {w : Str} (hw : w ≠ []) (out : List Str) :
    Agrees A (initCase S fuel w out) (Bytes.initCase S fuel w out) :=
  (suggestLow_agrees hA hm fuel hw _).bind fun _ _ =>
  (suggestLow_agrees hA hm fuel (lowercase_present hl hw) _).bind fun _ _ => .pure _

include hu

omit hl in
theorem pascalTitle_agrees (p : Bool) (w : Str) (r : Bool × List Str) :
    Agrees A (pascalTitle S fuel p w r) (Bytes.pascalTitle S fuel p w r) :=
  .ite ((Agrees.lift _).bind fun _ h => lowThenFront_agrees hA hm fuel (titlecase_present hu h) _ _) (.ok _)

theorem mixedCase_agrees (p : Bool) {w : Str} (hw : w ≠ []) (out : List Str) :
    Agrees A (mixedCase S fuel p w out) (Bytes.mixedCase S fuel p w out) :=
  (suggestLow_agrees hA hm fuel hw _).bind fun _ _ => (Agrees.lift _).bind fun _ _ =>
  (pascalLower_agrees hA hm hl fuel p w _).bind fun _ _ =>
  (lowThenFront_agrees hA hm fuel (lowercase_present hl hw) _ _).bind fun _ _ =>
  (pascalTitle_agrees hA hm hu fuel p w _).bind fun _ _ => (Agrees.lift _).bind fun _ _ => .pure _

theorem allCaps_agrees {w : Str} (hw : w ≠ []) (out : List Str) :
    Agrees A (allCaps S fuel w out) (Bytes.allCaps S fuel w out) :=
  (keepLower_agrees hA hm fuel _ _).bind fun _ _ =>
  (suggestLow_agrees hA hm fuel (lowercase_present hl hw) _).bind fun _ _ => (Agrees.lift _).bind fun _ h =>
  (suggestLow_agrees hA hm fuel (titlecase_present hu h) _).bind fun _ _ => .pure _

theorem suggestConverted_agrees {r : Str → List Str → Dbg (List Str)} {r' : Str → List Str → Run (List Str)}
    (hr : ∀ w out, Agrees A (r w out) (r' w out)) {w : Str} (hw : w ≠ []) (out : List Str) :
    Agrees A (suggestConverted S fuel r w out) (Bytes.suggestConverted S fuel r' w out) := by
  unfold suggestConverted Bytes.suggestConverted
  generalize classifyCasing S.C.U w = c
  cases c
  · refine (forceTitle_agrees hA hm fuel w).bind fun _ _ => .ite ((Agrees.lift _).bind fun _ _ => .pure _) ?_
    exact (suggestLow_agrees hA hm fuel hw _).bind fun _ _ => afterCasing_agrees hA hm fuel hr _ _ _
  · exact (initCase_agrees hA hm hl fuel hw _).bind fun _ _ => afterCasing_agrees hA hm fuel hr _ _ _
  · exact (allCaps_agrees hA hm hl hu fuel hw _).bind fun _ _ => afterCasing_agrees hA hm fuel hr _ _ _
  · exact (mixedCase_agrees hA hm hl hu fuel _ hw _).bind fun _ _ => afterCasing_agrees hA hm fuel hr _ _ _
  · exact (mixedCase_agrees hA hm hl hu fuel _ hw _).bind fun _ _ => afterCasing_agrees hA hm fuel hr _ _ _

theorem suggestImpl_agrees (hi : ∀ w, w ≠ [] → S.C.aff.inputConversions.convert w ≠ []) :
    ∀ (depth : Nat) (w : Str) (out : List Str),
      Agrees A (suggestImpl S fuel depth w out) (Bytes.suggestImpl S fuel depth w out)
  | 0, _, _ => .inl rfl
  | depth + 1, w, out => by
    unfold suggestImpl Bytes.suggestImpl
    by_cases hw : w = []
    · rw [if_pos hw, if_pos hw]; exact .inl rfl
    · rw [if_neg hw, if_neg hw]
      refine (Agrees.lift _).bind fun v hv => ?_
      rw [Bytes.convert_eq] at hv
      cases hv
      exact suggestConverted_agrees hA hm hl hu fuel (suggestImpl_agrees hi depth) (hi w hw) out

theorem suggest_agrees (hi : ∀ w, w ≠ [] → S.C.aff.inputConversions.convert w ≠ []) (depth : Nat) (w : Str)
    (out : List Str) : Agrees A (suggest S fuel depth w out) (Bytes.suggest S fuel depth w out) :=
  .ite (.ok _) (suggestImpl_agrees hA hm hl hu fuel hi depth w _)

end

end Spellbook.Debug
