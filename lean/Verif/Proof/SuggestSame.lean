import Verif.Proof.SuggestEnds
import Verif.Proof.SameLookups
/-!
# More fuel does not change suggestions, nor does the layout of the word list
-/

namespace Spellbook
open Spec Run

/-! ## More fuel -/

namespace Run

theorem Le.foldlM {α β : Type} {f g : β → α → Run β} (h : ∀ b a, Le (f b a) (g b a)) :
    ∀ (l : List α) (b : β), Le (l.foldlM f b) (l.foldlM g b)
  | [], b => by simp only [List.foldlM_nil]; exact Le.refl _
  | a :: l, b => by
    simp only [List.foldlM_cons]
    exact (h b a).bind fun b' => Le.foldlM h l b'

end Run

namespace Suggester
variable {S : Suggester} {f f' : Nat}

theorem addIfCorrect_le (hf : f ≤ f') (t : Str) (out : List Str) :
    Le (S.addIfCorrect f t out) (S.addIfCorrect f' t out) :=
  (Checker.checkWord_le _ hf _ _ _).bind fun _ => Le.refl _

theorem addAll_le (hf : f ≤ f') (texts out : List Str) : Le (S.addAll f texts out) (S.addAll f' texts out) :=
  Le.foldlM (fun _ _ => (addIfCorrect_le hf _ _).bind fun _ => Le.refl _) _ _

theorem allParts_le (hf : f ≤ f') : ∀ ps, Le (S.allParts f ps) (S.allParts f' ps)
  | [] => Le.refl _
  | p :: ps => by
    unfold allParts
    refine (Checker.checkWord_le _ hf _ _ _).bind fun r => ?_
    cases r with
    | none => exact Le.refl _
    | some F => exact allParts_le hf ps

theorem tryRep_le (hf : f ≤ f') (t : Str) (out : List Str) : Le (S.tryRep f t out) (S.tryRep f' t out) := by
  unfold tryRep
  refine (addIfCorrect_le hf _ _).bind fun r => ?_
  dsimp only
  split
  · exact Le.refl _
  split
  · exact (allParts_le hf _).bind fun _ => Le.refl _
  · exact Le.refl _

theorem free_le (hf : f ≤ f') (e : Edit) (w : Str) (out : List Str) : Le (S.free f e w out) (S.free f' e w out) :=
  (Le.refl _).bind fun _ => addAll_le hf _ _

theorem limited_le (hf : f ≤ f') (e : Edit) (w : Str) (out : List Str) :
    Le (S.limited f e w out) (S.limited f' e w out) :=
  (Le.refl _).bind fun _ => (Le.refl _).bind fun _ => addAll_le hf _ _

theorem suggestLow_le (hf : f ≤ f') (w : Str) (out : List Str) :
    Le (S.suggestLow f w out) (S.suggestLow f' w out) := by
  unfold suggestLow
  dsimp only
  refine Le.bind ((addIfCorrect_le hf _ _).bind fun _ => Le.refl _) fun o1 => ?_
  refine Le.bind ((Le.refl _).bind fun _ => Le.foldlM (fun _ _ => tryRep_le hf _ _) _ _) fun o2 => ?_
  refine Le.bind ((Le.refl _).bind fun _ => (Le.refl _).bind fun _ => addAll_le hf _ _) fun o3 => ?_
  refine Le.bind ?_ fun hq => Le.bind ?_ fun _ => Le.refl _
  · unfold highQuality
    split
    · exact Le.refl _
    split
    · exact Le.refl _
    · exact (Checker.checkWord_le _ hf _ _ _).map _
  · exact (free_le hf _ _ _).bind fun _ => (limited_le hf _ _ _).bind fun _ =>
      (free_le hf _ _ _).bind fun _ => (free_le hf _ _ _).bind fun _ =>
      (limited_le hf _ _ _).bind fun _ => (limited_le hf _ _ _).bind fun _ =>
      (limited_le hf _ _ _).bind fun _ => (free_le hf _ _ _).bind fun _ => Le.refl _

theorem lowThenFront_le (hf : f ≤ f') (w : Str) (hq : Bool) (out : List Str) :
    Le (S.lowThenFront f w hq out) (S.lowThenFront f' w hq out) :=
  (suggestLow_le hf _ _).bind fun _ => (Checker.check_le _ hf _).bind fun _ => Le.refl _

theorem mixedCase_le (hf : f ≤ f') (pascal : Bool) (w : Str) (out : List Str) :
    Le (S.mixedCase f pascal w out) (S.mixedCase f' pascal w out) := by
  unfold mixedCase
  refine (suggestLow_le hf _ _).bind fun _ => ?_
  dsimp only
  refine Le.bind ?_ fun _ => (lowThenFront_le hf _ _ _).bind fun _ => Le.bind ?_ fun _ => Le.refl _
  · unfold pascalLower
    split
    · exact (Le.refl _).bind fun _ => lowThenFront_le hf _ _ _
    · exact Le.refl _
  · unfold pascalTitle
    split
    · exact (Le.refl _).bind fun _ => lowThenFront_le hf _ _ _
    · exact Le.refl _

theorem allCaps_le (hf : f ≤ f') (w : Str) (out : List Str) : Le (S.allCaps f w out) (S.allCaps f' w out) := by
  unfold allCaps
  dsimp only
  refine Le.bind ?_ fun _ => (suggestLow_le hf _ _).bind fun _ => (Le.refl _).bind fun _ =>
    (suggestLow_le hf _ _).bind fun _ => Le.refl _
  unfold keepLower
  split
  · exact (Checker.check_le _ hf _).bind fun _ => Le.refl _
  · exact Le.refl _

theorem initCase_le (hf : f ≤ f') (w : Str) (out : List Str) : Le (S.initCase f w out) (S.initCase f' w out) :=
  (suggestLow_le hf _ _).bind fun _ => (suggestLow_le hf _ _).bind fun _ => Le.refl _

theorem dashes_le (hf : f ≤ f') {r r' : Str → List Str → Run (List Str)} (hr : ∀ p o, Le (r p o) (r' p o))
    (w : Str) (out : List Str) : Le (S.dashes f r w out) (S.dashes f' r' w out) := by
  unfold dashes
  split
  · refine Le.foldlM (fun o p => ?_) _ _
    obtain ⟨pre, part, post⟩ := p
    unfold dashPart
    refine (Checker.check_le _ hf _).bind fun b => ?_
    split
    · exact Le.refl _
    · refine (hr _ _).bind fun found => Le.foldlM (fun o s => ?_) _ _
      exact (Checker.checkWord_le _ hf _ _ _).bind fun _ => Le.refl _
  · exact Le.refl _

theorem recheck_le (hf : f ≤ f') (s : Str) : Le (S.recheck f s) (S.recheck f' s) := by
  unfold recheck
  split
  · exact Le.refl _
  · refine (Checker.check_le _ hf _).bind fun b => ?_
    split
    · exact Le.refl _
    · refine (Checker.check_le _ hf _).bind fun b => ?_
      split
      · exact Le.refl _
      · exact (Le.refl _).bind fun t => (Checker.check_le _ hf _).bind fun b => Le.refl _

theorem recheckAll_le (hf : f ≤ f') : ∀ out, Le (S.recheckAll f out) (S.recheckAll f' out)
  | [] => Le.refl _
  | s :: rest => by
    unfold recheckAll
    exact (recheck_le hf s).bind fun _ => (recheckAll_le hf rest).bind fun _ => Le.refl _

theorem finish_le (hf : f ≤ f') (casing : Casing) (out : List Str) :
    Le (S.finish f casing out) (S.finish f' casing out) := by
  unfold finish
  refine (Le.refl _).bind fun _ => Le.bind ?_ fun _ => Le.refl _
  unfold retained
  split
  · exact recheckAll_le hf _
  · exact Le.refl _

theorem suggestConverted_le (hf : f ≤ f') {r r' : Str → List Str → Run (List Str)}
    (hr : ∀ p o, Le (r p o) (r' p o)) (w : Str) (out : List Str) :
    Le (S.suggestConverted f r w out) (S.suggestConverted f' r' w out) := by
  have after : ∀ casing x, Le (S.afterCasing f r casing w x) (S.afterCasing f' r' casing w x) :=
    fun _ _ => (Le.refl _).bind fun _ => (dashes_le hf hr _ _).bind fun _ => finish_le hf _ _
  unfold suggestConverted
  split
  · refine Le.bind ?_ fun b => ?_
    · unfold forceTitle
      split
      · exact (Checker.checkCompound_le _ hf _ _ _).map _
      · exact Le.refl _
    split
    · exact Le.refl _
    · exact (suggestLow_le hf _ _).bind fun _ => after _ _
  · exact (initCase_le hf _ _).bind fun _ => after _ _
  · exact (mixedCase_le hf _ _ _).bind fun _ => after _ _
  · exact (mixedCase_le hf _ _ _).bind fun _ => after _ _
  · exact (allCaps_le hf _ _).bind fun _ => after _ _

theorem suggestImpl_le (hf : f ≤ f') : ∀ {d d' : Nat}, d ≤ d' → ∀ (w : Str) (out : List Str),
    Le (S.suggestImpl f d w out) (S.suggestImpl f' d' w out)
  | 0, _, _, _, _ => Or.inl rfl
  | d + 1, 0, h, _, _ => absurd h (by omega)
  | d + 1, d' + 1, h, w, out => by
    unfold suggestImpl
    split
    · exact Le.refl _
    · exact suggestConverted_le hf (fun p o => suggestImpl_le hf (by omega) p o) _ _

theorem suggest_le (hf : f ≤ f') {d d' : Nat} (hd : d ≤ d') (w : Str) (out : List Str) :
    Le (S.suggest f d w out) (S.suggest f' d' w out) := by
  unfold suggest
  dsimp only
  split
  · exact Le.refl _
  · exact suggestImpl_le hf hd _ _

/-! ## Another layout of the word list -/

/-- Suggesters whose checkers agree and which try equally many edits. -/
structure Alike (S S' : Suggester) : Prop extends Checker.Alike S.C S'.C where
  attempts : S.maxAttempts = S'.maxAttempts

section Alike
variable {S' : Suggester} (h : S.Alike S')
include h

theorem same_addIfCorrect : S.addIfCorrect = S'.addIfCorrect := by
  funext
  simp only [addIfCorrect, h.checkWord, h.opts]

theorem same_addAll : S.addAll = S'.addAll := by
  funext
  simp only [addAll, same_addIfCorrect h]

theorem same_uppercaseSuggest : S.uppercaseSuggest = S'.uppercaseSuggest := by
  funext
  simp only [uppercaseSuggest, h.opts, h.U, same_addIfCorrect h]

theorem same_allParts : S.allParts = S'.allParts := by
  funext fuel l
  induction l with
  | nil => rfl
  | cons a l ih => simp only [allParts, h.checkWord, ih]

theorem same_tryRep : S.tryRep = S'.tryRep := by
  funext
  simp only [tryRep, same_addIfCorrect h, same_allParts h]

theorem same_repSuggest : S.repSuggest = S'.repSuggest := by
  funext
  simp only [repSuggest, h.breakTable, h.compoundRules, h.compoundSyllableVowels, h.compoundPatterns, h.inputConversions, h.outputConversions, h.replacements, h.similarities, h.ignoreChars, h.keyboardCloseness, h.tryChars, same_tryRep h]

theorem same_mapSuggest : S.mapSuggest = S'.mapSuggest := by
  funext
  simp only [mapSuggest, h.breakTable, h.compoundRules, h.compoundSyllableVowels, h.compoundPatterns, h.inputConversions, h.outputConversions, h.replacements, h.similarities, h.ignoreChars, h.keyboardCloseness, h.tryChars, h.attempts, same_addAll h]

theorem same_free : S.free = S'.free := by
  funext
  simp only [free, same_addAll h]

theorem same_limited : S.limited = S'.limited := by
  funext
  simp only [limited, h.attempts, same_addAll h]

theorem same_twoWordsAt : S.twoWordsAt = S'.twoWordsAt := by
  funext
  simp only [twoWordsAt, h.checkSimpleWord, h.breakTable, h.compoundRules, h.compoundSyllableVowels, h.compoundPatterns, h.inputConversions, h.outputConversions, h.replacements, h.similarities, h.ignoreChars, h.keyboardCloseness, h.tryChars]

theorem same_twoWordsSuggest : S.twoWordsSuggest = S'.twoWordsSuggest := by
  funext
  simp only [twoWordsSuggest, h.opts, same_twoWordsAt h]

theorem same_highQuality : S.highQuality = S'.highQuality := by
  funext
  simp only [highQuality, h.checkWord, h.breakTable, h.compoundRules, h.compoundSyllableVowels, h.compoundPatterns, h.inputConversions, h.outputConversions, h.replacements, h.similarities, h.ignoreChars, h.keyboardCloseness, h.tryChars]

theorem same_suggestEdits : S.suggestEdits = S'.suggestEdits := by
  funext
  simp only [suggestEdits, h.breakTable, h.compoundRules, h.compoundSyllableVowels, h.compoundPatterns, h.inputConversions, h.outputConversions, h.replacements, h.similarities, h.ignoreChars, h.keyboardCloseness, h.tryChars, h.U, same_free h, same_limited h, same_twoWordsSuggest h]

theorem same_suggestLow : S.suggestLow = S'.suggestLow := by
  funext
  simp only [suggestLow, same_uppercaseSuggest h, same_repSuggest h, same_mapSuggest h, same_highQuality h, same_suggestEdits h]

theorem same_lowThenFront : S.lowThenFront = S'.lowThenFront := by
  funext
  simp only [lowThenFront, h.check, same_suggestLow h]

theorem same_dotSpace : S.dotSpace = S'.dotSpace := by
  funext
  simp only [dotSpace, h.U]

theorem same_upperAt : S.upperAt = S'.upperAt := by
  funext
  simp only [upperAt, h.opts, h.U]

theorem same_titleSecond : S.titleSecond = S'.titleSecond := by
  funext w done l
  induction l generalizing done with
  | nil => rfl
  | cons a l ih => simp only [titleSecond, same_upperAt h, ih]

theorem same_pascalLower : S.pascalLower = S'.pascalLower := by
  funext
  simp only [pascalLower, h.opts, h.U, same_lowThenFront h]

theorem same_pascalTitle : S.pascalTitle = S'.pascalTitle := by
  funext
  simp only [pascalTitle, h.titlecase, same_lowThenFront h]

theorem same_mixedCase : S.mixedCase = S'.mixedCase := by
  funext
  simp only [mixedCase, h.lowercase, same_suggestLow h, same_lowThenFront h, same_dotSpace h, same_titleSecond h, same_pascalLower h, same_pascalTitle h]

theorem same_keepLower : S.keepLower = S'.keepLower := by
  funext
  simp only [keepLower, h.check, h.opts]

theorem same_allCaps : S.allCaps = S'.allCaps := by
  funext
  simp only [allCaps, h.lowercase, h.titlecase, h.opts, h.U, same_suggestLow h, same_keepLower h]

theorem same_initCase : S.initCase = S'.initCase := by
  funext
  simp only [initCase, h.lowercase, same_suggestLow h]

theorem same_dashCandidate : S.dashCandidate = S'.dashCandidate := by
  funext
  simp only [dashCandidate, h.checkWord, h.opts]

theorem same_dashPart : S.dashPart = S'.dashPart := by
  funext
  simp only [dashPart, h.check, same_dashCandidate h]

theorem same_dashes : S.dashes = S'.dashes := by
  funext
  simp only [dashes, same_dashPart h]

theorem same_recheck : S.recheck = S'.recheck := by
  funext
  simp only [recheck, h.check, h.lowercase, h.titlecase]

theorem same_recheckAll : S.recheckAll = S'.recheckAll := by
  funext fuel l
  induction l with
  | nil => rfl
  | cons a l ih => simp only [recheckAll, same_recheck h, ih]

theorem same_capitalise : S.capitalise = S'.capitalise := by
  funext
  simp only [capitalise, same_upperAt h]

theorem same_retained : S.retained = S'.retained := by
  funext
  simp only [retained, same_recheckAll h]

theorem same_finish : S.finish = S'.finish := by
  funext
  simp only [finish, h.breakTable, h.compoundRules, h.compoundSyllableVowels, h.compoundPatterns, h.inputConversions, h.outputConversions, h.replacements, h.similarities, h.ignoreChars, h.keyboardCloseness, h.tryChars, same_capitalise h, same_retained h]

theorem same_forceTitle : S.forceTitle = S'.forceTitle := by
  funext
  simp only [forceTitle, h.checkCompound, h.opts]

theorem same_suggestConverted (this : S.ngramPart = S'.ngramPart) :
    S.suggestConverted = S'.suggestConverted := by
  have : S.afterCasing = S'.afterCasing := by
    funext
    simp only [afterCasing, this, same_dashes h, same_finish h]
  funext
  simp only [suggestConverted, this, h.U, same_forceTitle h, h.titlecase, same_suggestLow h, same_initCase h,
    same_mixedCase h, same_allCaps h]

theorem alike_suggest (hp : S.ngramPart = S'.ngramPart) : S.suggest = S'.suggest := by
  have : S.suggestImpl = S'.suggestImpl := by
    funext fuel depth
    induction depth with
    | zero => rfl
    | succ d ih =>
      funext w out
      simp only [suggestImpl, ih, same_suggestConverted h hp, h.breakTable, h.compoundRules, h.compoundSyllableVowels, h.compoundPatterns, h.inputConversions, h.outputConversions, h.replacements, h.similarities, h.ignoreChars, h.keyboardCloseness, h.tryChars]
  funext
  simp only [suggest, this]

end Alike

theorem alike_of_same {S' : Suggester} (h : S.C.Same S'.C) : S.Alike S' :=
  ⟨h.alike, by funext; simp only [maxAttempts, h.aff', h.opts]⟩

theorem same_suggest {S' : Suggester} (h : S.C.Same S'.C) (hn : S.ngram = false) (hn' : S'.ngram = false) :
    S.suggest = S'.suggest :=
  alike_suggest (alike_of_same h) (by funext; simp [ngramPart, hn, hn'])
end Suggester
end Spellbook
