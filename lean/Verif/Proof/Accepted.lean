import Verif.Proof.Check
import Verif.Proof.Total
import Verif.Spec.Suggest
/-! # What may be suggested is accepted: lookups with other settings find the same -/

namespace Spellbook

open Spec

/-- Two searches find the same, or the first one finds something for which `P` holds. -/
def Sooner {α : Type} (P : α → Prop) (x y : Option α) : Prop := x = y ∨ ∃ a, x = some a ∧ P a

namespace Sooner
variable {α β : Type} {P : α → Prop} {Q : β → Prop}

theorem rfl' (x : Option α) : Sooner P x x := .inl rfl

theorem guard {b : Bool} {x y : Option α} (h : Sooner P x y) :
    Sooner P (if b then none else x) (if b then none else y) := by
  cases b
  · simpa using h
  · exact .inl rfl

theorem find {l : List β} {f g : β → Option α} (h : ∀ b ∈ l, Sooner P (f b) (g b)) :
    Sooner P (l.findSome? f) (l.findSome? g) := by
  induction l with
  | nil => exact .inl rfl
  | cons b l ih =>
    rw [List.findSome?_cons, List.findSome?_cons]
    have hb := h b (List.mem_cons_self ..)
    have ih := ih fun c hc => h c (List.mem_cons_of_mem _ hc)
    rcases hb with hb | ⟨a, h1, h2⟩
    · rw [hb]
      cases g b with
      | none => exact ih
      | some a => exact .inl rfl
    · rw [h1]; exact .inr ⟨a, rfl, h2⟩

theorem or {x y x' y' : Option α} (h : Sooner P x y) (h' : Sooner P x' y') : Sooner P (x.or x') (y.or y') := by
  rcases h with rfl | ⟨a, rfl, h2⟩
  · cases x with
    | none => simpa using h'
    | some a => exact .inl rfl
  · exact .inr ⟨a, rfl, h2⟩

theorem map {x y : Option α} (f : α → β) (h : Sooner P x y) (hf : ∀ a, P a → Q (f a)) :
    Sooner Q (x.map f) (y.map f) := by
  rcases h with rfl | ⟨a, rfl, h2⟩
  · exact .inl rfl
  · exact .inr ⟨f a, rfl, hf a h2⟩

end Sooner

namespace Checker

/-- The flags are those of an entry which is a hidden homonym. -/
def HiddenEntry (C : Checker) (F : FlagSet) : Prop :=
  hiddenHomonymFlag ∈ F.elems ∧ ∃ stem, (stem, F) ∈ C.dict.words.slots

/-- The same for a form. -/
abbrev HiddenForm (C : Checker) (f : AffixForm) : Prop := C.HiddenEntry f.flags

variable {C : Checker}

theorem hiddenEntry {w : Str} {e : Str × FlagSet} (he : e ∈ C.entries w) (h : e.2.contains hiddenHomonymFlag = true) :
    C.HiddenEntry e.2 :=
  ⟨FlagSet.contains_iff.1 h, e.1, (mem_entries.1 he).1⟩

/-- A test of an entry which only hidden homonyms do not pass. -/
theorem hidden_test {α : Type} {P : α → Prop} {F : FlagSet} {x : Option α}
    (h : F.contains hiddenHomonymFlag = true → ∀ a, x = some a → P a) :
    Sooner P (if HiddenHomonym.accept.skips && F.contains hiddenHomonymFlag then none else x)
      (if HiddenHomonym.skip.skips && F.contains hiddenHomonymFlag then none else x) := by
  rw [show HiddenHomonym.accept.skips = false from rfl, show HiddenHomonym.skip.skips = true from rfl]
  rw [Bool.false_and, Bool.true_and, if_neg (by simp)]
  cases hF : F.contains hiddenHomonymFlag with
  | false => exact .inl rfl
  | true =>
    cases x with
    | none => exact .inl rfl
    | some a => exact .inr ⟨a, rfl, h hF a rfl⟩

theorem full_test {F : FlagSet} {x : Option AffixForm}
    (h : F.contains hiddenHomonymFlag = true → ∀ a, x = some a → C.HiddenForm a) :
    Sooner C.HiddenForm (if !C.fullEntryOk .accept F then none else x)
      (if !C.fullEntryOk .skip F then none else x) := by
  unfold fullEntryOk
  cases hasFlag F C.opts.onlyInCompoundFlag with
  | true => exact .inl rfl
  | false =>
    cases hF : F.contains hiddenHomonymFlag with
    | false => exact .inl rfl
    | true =>
      cases x with
      | none => exact .inl rfl
      | some a => exact .inr ⟨a, rfl, h hF a rfl⟩

theorem stripOnly_sooner (k : Kind) (m : Mode) (w : Str) :
    Sooner C.HiddenForm (C.stripOnly k m w .accept) (C.stripOnly k m w .skip) := by
  refine .find fun a _ => ?_
  unfold onlyAffix
  refine .guard (.guard (.guard (.guard (.find fun e he => ?_))))
  unfold onlyEntry
  refine .guard (.guard (hidden_test fun hF f hf => ?_))
  have hf : f.flags = e.2 := by
    split at hf
    · cases hf
    · cases k <;> (dsimp only at hf; cases hf; rfl)
  unfold HiddenForm
  rw [hf]
  exact hiddenEntry he hF

theorem stripComm_sooner (m : Mode) (w : Str) :
    Sooner C.HiddenForm (C.stripComm m w .accept) (C.stripComm m w .skip) := by
  refine .find fun a _ => ?_
  unfold commPrefix
  refine .guard (.guard (.guard (.find fun b _ => ?_)))
  unfold commSuffix
  refine .guard (.guard (.guard (.guard (.guard (.find fun e he => ?_)))))
  unfold commEntry
  refine .guard (.guard (hidden_test fun hF f hf => ?_))
  have hf : f.flags = e.2 := by
    split at hf
    · cases hf
    · cases hf; rfl
  unfold HiddenForm
  rw [hf]
  exact hiddenEntry he hF

theorem stripTwo_sooner (k : Kind) (w : Str) :
    Sooner C.HiddenForm (C.stripTwo k w .accept) (C.stripTwo k w .skip) := by
  refine .guard (.find fun a _ => ?_)
  unfold twoOuter
  refine .guard (.guard (.guard (.guard (.find fun b _ => ?_))))
  unfold twoInner
  refine .guard (.guard (.guard (.guard (.find fun e he => ?_))))
  unfold twoEntry
  refine .guard (full_test fun hF f hf => ?_)
  have hf : f.flags = e.2 := by cases k <;> (dsimp only at hf; cases hf; rfl)
  unfold HiddenForm
  rw [hf]
  exact hiddenEntry he hF

theorem threeForm_flags (k : Kind) (e : Str × FlagSet) (a b c : Affix) : (threeForm k e a b c).flags = e.2 := by
  cases k <;> rfl

theorem stripOneTwo_sooner (k : Kind) (w : Str) :
    Sooner C.HiddenForm (C.stripOneTwo k w .accept) (C.stripOneTwo k w .skip) := by
  refine .guard (.find fun a _ => ?_)
  unfold oneTwoFirst
  refine .guard (.guard (.guard (.find fun b _ => ?_)))
  unfold oneTwoOuter
  refine .guard (.guard (.guard (.guard (.guard (.find fun c _ => ?_)))))
  unfold oneTwoInner
  refine .guard (.guard (.guard (.guard (.find fun e he => ?_))))
  unfold oneTwoEntry
  refine .guard (.guard (full_test fun hF f hf => ?_))
  cases hf
  unfold HiddenForm
  rw [threeForm_flags]
  exact hiddenEntry he hF

theorem stripSandwich_sooner (k : Kind) (w : Str) :
    Sooner C.HiddenForm (C.stripSandwich k w .accept) (C.stripSandwich k w .skip) := by
  refine .guard (.find fun a _ => ?_)
  unfold sandwichOuter
  refine .guard (.guard (.guard (.guard (.find fun b _ => ?_))))
  unfold sandwichMid
  refine .guard (.guard (.guard (.find fun c _ => ?_)))
  unfold sandwichInner
  refine .guard (.guard (.guard (.guard (.guard (.find fun e he => ?_)))))
  unfold sandwichEntry
  refine .guard (.guard (full_test fun hF f hf => ?_))
  cases hf
  unfold HiddenForm
  rw [threeForm_flags]
  exact hiddenEntry he hF

/-- The lookup which accepts hidden homonyms finds the same as the one which skips them, or a hidden
homonym. -/
theorem checkSimpleWord_sooner (w : Str) :
    Sooner C.HiddenEntry (C.checkSimpleWord w .accept) (C.checkSimpleWord w .skip) := by
  have one {x y : Option AffixForm} (h : Sooner C.HiddenForm x y) :
      Sooner C.HiddenEntry (x.map (·.flags)) (y.map (·.flags)) := h.map _ fun _ h => h
  unfold checkSimpleWord
  refine .or (.find fun e he => ?_) (.or (one (stripOnly_sooner ..)) (.or (one (stripOnly_sooner ..))
    (.or (one (stripComm_sooner ..)) ?_)))
  · unfold directEntry
    refine .guard (.guard (hidden_test fun hF f hf => ?_))
    cases hf
    exact hiddenEntry he hF
  · split
    · exact .or (one (stripTwo_sooner ..)) (.or (one (stripOneTwo_sooner ..)) (one (stripSandwich_sooner ..)))
    · exact .or (one (stripTwo_sooner ..)) (.or (one (stripOneTwo_sooner ..)) (one (stripSandwich_sooner ..)))

/-! ## FORCEUCASE -/

theorem hasFlag_none (F : FlagSet) : hasFlag F none = false := rfl

/-- Without FORCEUCASE it makes no difference whether parts with that mark may end a compound. -/
theorem checkCompound_force (hf : C.opts.compoundForceUppercaseFlag = none) (fuel : Nat) (m : Mode) (w : Str)
    (fc fc' : Forceucase) : C.checkCompound fuel m w fc = C.checkCompound fuel m w fc' := by
  have h1 : ∀ word start i n part1, C.classicSecond word start i n fc part1 = C.classicSecond word start i n fc' part1 := by
    intro word start i n part1
    unfold classicSecond
    simp only [hf, hasFlag_none, Bool.and_false]
  have h2 : ∀ t word start i n part1, C.tripleSecond t word start i n fc part1 = C.tripleSecond t word start i n fc' part1 := by
    intro t word start i n part1
    unfold tripleSecond
    simp only [hf, hasFlag_none, Bool.and_false]
  have h3 : ∀ p t word start n part1, C.patternSecond p t word start n fc part1 = C.patternSecond p t word start n fc' part1 := by
    intro p t word start n part1
    unfold patternSecond
    simp only [hf, hasFlag_none, Bool.and_false]
  have h4 : ∀ s word start i n part1, C.simplifiedTriple s word start i n fc part1 = C.simplifiedTriple s word start i n fc' part1 := by
    intro s word start i n part1
    unfold simplifiedTriple
    simp only [h2]
  have h5 : ∀ s word start i n part1, C.tryRecursive s word start i n fc part1 = C.tryRecursive s word start i n fc' part1 := by
    intro s word start i n part1
    unfold tryRecursive
    simp only [h4]
  have h6 : ∀ s m word start i n, C.classic s m word start i n fc = C.classic s m word start i n fc' := by
    intro s m word start i n
    unfold classic
    simp only [h1, h5]
  have h7 : ∀ s p t word start j n part1, C.patternTriple s p t word start j n fc part1 = C.patternTriple s p t word start j n fc' part1 := by
    intro s p t word start j n part1
    unfold patternTriple
    simp only [h3]
  have h8 : ∀ s m word start i n, C.patternBody s m word start i n fc = C.patternBody s m word start i n fc' := by
    intro s m word start i n
    funext p
    unfold patternBody
    simp only [h3, h7]
  have h9 : ∀ fuel, C.checkCompoundImpl fc fuel = C.checkCompoundImpl fc' fuel := by
    intro fuel
    induction fuel with
    | zero => rfl
    | succ fuel ih =>
      funext m word start n
      unfold checkCompoundImpl
      rw [ih]
      congr 1
      funext i
      unfold compoundAt withPatternReplacements
      rw [h6, h8]
  have h10 : ∀ word data i, C.ruleDirect word data i fc = C.ruleDirect word data i fc' := by
    intro word data i
    unfold ruleDirect
    simp only [hf, hasFlag_none, Bool.and_false]
  have h11 : ∀ fuel, C.checkRulesImpl fc fuel = C.checkRulesImpl fc' fuel := by
    intro fuel
    induction fuel with
    | zero => rfl
    | succ fuel ih =>
      funext word data start
      unfold checkRulesImpl
      rw [ih]
      congr 1
      funext i
      unfold ruleAt
      simp only [h10]
  unfold checkCompound checkRules
  rw [h9, h11]

theorem checkWord_force (hf : C.opts.compoundForceUppercaseFlag = none) (fuel : Nat) (w : Str)
    (fc fc' : Forceucase) (hh : HiddenHomonym) : C.checkWord fuel w fc hh = C.checkWord fuel w fc' hh := by
  unfold checkWord
  rw [checkCompound_force hf fuel .atBegin w fc fc']

/-! ## `check` -/

/-- What may be suggested is found by the lookup of `check`, and is good. -/
theorem spellCasing_suggestable (hf : C.opts.compoundForceUppercaseFlag = none)
    (hh : ∀ stem F, (stem, F) ∈ C.dict.words.slots → 65535 ∈ F.elems → Good C.dict F) {fuel : Nat} {t : Str}
    (hs : Suggestable C fuel t) : ∃ F, C.spellCasing fuel t = .ok (some F) ∧ Good C.dict F := by
  obtain ⟨F, h1, hg⟩ := hs
  have skip : ∀ fc, C.checkWord fuel t fc .skip = .ok (some F) := fun fc => checkWord_force hf fuel t fc .forbidBad .skip ▸ h1
  have accept : ∃ F, (∀ fc, C.checkWord fuel t fc .accept = .ok (some F)) ∧ Good C.dict F := by
    rcases checkSimpleWord_sooner (C := C) t with h | ⟨F', h2, h3, stem, h4⟩
    · refine ⟨F, fun fc => ?_, hg⟩
      rw [← skip fc]
      unfold checkWord
      rw [h]
    · refine ⟨F', fun fc => ?_, hh stem F' h4 h3⟩
      unfold checkWord
      rw [h2]
  obtain ⟨F', h2, h3⟩ := accept
  have asIs : ∀ b, C.spellCasingAsIs fuel t b = .ok (some F') := by
    intro b
    unfold spellCasingAsIs
    rw [h2]
    rfl
  unfold spellCasing
  cases classifyCasing C.U t with
  | none => exact ⟨F', asIs _, h3⟩
  | camel => exact ⟨F', asIs _, h3⟩
  | pascal => exact ⟨F', asIs _, h3⟩
  | all =>
    refine ⟨F', ?_, h3⟩
    dsimp only
    unfold spellCasingUpper
    rw [h2]
    rfl
  | init =>
    refine ⟨F, ?_, hg⟩
    dsimp only
    unfold spellCasingTitle
    rw [skip]
    rfl

theorem trimEndMatches_byteLen {w : Str} (h : byteLen (trimEndMatches '.' w) = byteLen w) : trimEndMatches '.' w = w := by
  unfold trimEndMatches at *
  have hs : ((w.reverse.dropWhile (· == '.')).reverse) <+: w := by
    have := List.dropWhile_suffix (l := w.reverse) (· == '.')
    simpa using List.reverse_prefix.2 this
  obtain ⟨b, hb⟩ := hs
  have hl : byteLen w = byteLen ((w.reverse.dropWhile (· == '.')).reverse) + byteLen b := by
    conv_lhs => rw [← hb]
    rw [byteLen_append]
  have h0 : byteLen b = 0 := by omega
  have : b = [] := by
    cases b with
    | nil => rfl
    | cons c b =>
      rw [byteLen_cons] at h0
      have := c.utf8Size_pos
      omega
  rw [this, List.append_nil] at hb
  exact hb

/-- What may be suggested is not rejected, and accepted if it does not end in a dot. -/
theorem check_suggestable (hf : C.opts.compoundForceUppercaseFlag = none)
    (hh : ∀ stem F, (stem, F) ∈ C.dict.words.slots → 65535 ∈ F.elems → Good C.dict F) {fuel : Nat} {t : Str}
    (hs : Suggestable C fuel t) (hl : (utf8 t).length ≤ 360) (hc : C.dict.aff.inputConversions.convert t = t)
    (hi : ∀ c ∈ t, c ∉ C.dict.aff.ignoreChars) :
    ¬ Rejects C t ∧ ((∀ s, t ≠ s ++ ['.']) → Accepts C t) := by
  have break' : ∀ f, fuel ≤ f → C.spellBreak f t = .ok true := by
    intro f hle
    obtain ⟨F, h1, h2⟩ := spellCasing_suggestable hf hh hs
    unfold spellBreak
    rw [doSpellBreak_some ((spellCasing_le C hle t).ok h1), goodFlags_iff.2 h2]
  have short : ∀ f, C.check f t = C.checkConverted f t := by
    intro f
    unfold check
    rw [if_neg (by unfold byteLen maxWordLen; omega)]
    unfold Checker.aff
    rw [hc]
  constructor
  · rintro ⟨f, h⟩
    have h := (check_le C (Nat.le_max_left f fuel) t).ok h
    have hb := break' (max f fuel) (Nat.le_max_right _ _)
    rw [short] at h
    generalize max f fuel = f' at h hb
    unfold checkConverted at h
    split at h
    · cases h
    dsimp only at h
    split at h
    · cases h
    cases ha : (byteLen (trimEndMatches '.' t) != byteLen t) with
    | true =>
      rw [ha, hb] at h
      cases h3 : C.spellBreak f' (eraseChars (trimEndMatches '.' t) C.aff.ignoreChars) with
      | error e => rw [h3] at h; cases h
      | ok b => rw [h3] at h; cases b <;> cases h
    | false =>
      rw [trimEndMatches_byteLen (by simpa using ha), eraseChars_self hi, hb] at h
      cases h
  · intro hd
    refine ⟨fuel, ?_⟩
    rw [short]
    unfold checkConverted
    split
    · rfl
    dsimp only
    split
    · rfl
    rw [trimEndMatches_self hd, eraseChars_self hi, break' fuel (Nat.le_refl _)]
    rfl

end Checker
end Spellbook
