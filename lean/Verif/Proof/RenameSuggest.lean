import Verif.Proof.Rename
/-!
# Suggestions do not depend on the names of flags
-/

namespace Spellbook
open Spec
namespace Renamed

/-! ## Similar words -/

section Ngram
variable {p : Nat → Nat} {W : Writing} {C : Checker} (h : Renaming p C.aff) {H : Heaps} (hH : ByScore H)

/-- A candidate with its flags renamed. -/
abbrev rs (p : Nat → Nat) (e : MinScored (Str × FlagSet)) : MinScored (Str × FlagSet) :=
  ⟨e.score, renameEntry p e.inner⟩

include hH in
theorem offer (cap : Nat) (l : List (MinScored (Str × FlagSet))) (x : MinScored (Str × FlagSet)) :
    H.offer cap (l.map (rs p)) (rs p x) = (H.offer cap l x).map (rs p) := by
  unfold Heaps.offer
  rw [List.length_map]
  split
  · exact hH.push _ _ _
  · rw [show H.pop (l.map (rs p)) = _ from hH.pop (renameEntry p) l]
    rcases H.pop l with _ | ⟨top, rest⟩
    · rfl
    · dsimp only [Option.map_some]
      split
      · exact hH.push _ _ _
      · rfl

include h

theorem skipsForNgram (s : FlagSet) :
    (renameChecker p W C).skipsForNgram (renameFlags p s) = C.skipsForNgram s := by
  simp only [Checker.skipsForNgram, o_forbidden, contains h, o_noSuggest, o_onlyInCompound, flag h,
    hidden h]

include hH in
theorem offerRoot (w : Str) (l : List (MinScored (Str × FlagSet))) (e : Str × FlagSet) :
    (renameChecker p W C).offerRoot H w (l.map (rs p)) (renameEntry p e)
      = (C.offerRoot H w l e).map (List.map (rs p)) := by
  have e1 : (renameChecker p W C).rootScore w (renameEntry p e).1 = C.rootScore w e.1 := rfl
  rw [Checker.offerRoot, Checker.offerRoot, e_snd, skipsForNgram h, e1]
  split
  · rfl
  · cases C.rootScore w e.1 with
    | error e => rfl
    | ok n => exact congrArg Except.ok (offer hH 100 l ⟨n, e⟩)

include hH in
theorem ngramRoots (w : Str) :
    (renameChecker p W C).ngramRoots H w = (C.ngramRoots H w).map (List.map (rs p)) := by
  rw [Checker.ngramRoots, Checker.ngramRoots, iter]
  have key : ∀ (es : List (Str × FlagSet)) (l : List (MinScored (Str × FlagSet))),
      (es.map (renameEntry p)).foldlM ((renameChecker p W C).offerRoot H w) (l.map (rs p))
        = (es.foldlM (C.offerRoot H w) l).map (List.map (rs p)) := by
    intro es
    induction es with
    | nil => intro l; rfl
    | cons e es ih =>
      intro l
      rw [List.map_cons, List.foldlM_cons, List.foldlM_cons, offerRoot h hH]
      cases C.offerRoot H w l e with
      | error e => rfl
      | ok l' => exact ih l'
  exact key _ []

theorem affixFits (k : Kind) (s : FlagSet) (t : Str) (a : Affix) :
    (renameChecker p W C).affixFits k (renameFlags p s) t (renameAffix p a) = C.affixFits k s t a := by
  simp only [Checker.affixFits, a_flag, contains h, isOuterAffixValid h, isCircumfix h, a_cond]
  rfl

theorem affixesFor (k : Kind) (s : FlagSet) (t w : Str) :
    (renameChecker p W C).affixesFor k (renameFlags p s) t w
      = (C.affixesFor k s t w).map (renameAffix p) := by
  rw [Checker.affixesFor, Checker.affixesFor, index]
  refine filter_rename (fun a => ?_) _
  rw [affixFits h]
  rfl

omit h in
theorem mapM_rename {α α' β : Type} {r : α → α'} {f : α → Run β} {f' : α' → Run β}
    (hf : ∀ a, f' (r a) = f a) (l : List α) : (l.map r).mapM f' = l.mapM f := by
  induction l with
  | nil => rfl
  | cons a l ih => rw [List.map_cons, List.mapM_cons, List.mapM_cons, hf, ih]

omit h in
theorem derive (k : Kind) (a : Affix) (t : Str) :
    Checker.derive' k (renameAffix p a) t = Checker.derive' k a t := by
  cases k <;> rfl

theorem suffixForms (t : Str) (s : FlagSet) (w : Str) :
    (renameChecker p W C).suffixForms t (renameFlags p s) w = C.suffixForms t s w := by
  rw [Checker.suffixForms, Checker.suffixForms, affixesFor h]
  exact mapM_rename (fun a => by rw [derive]; rfl) _

theorem crossForms (t : Str) (s : FlagSet) (w x : Str) :
    (renameChecker p W C).crossForms t (renameFlags p s) w x = C.crossForms t s w x := by
  rw [Checker.crossForms, Checker.crossForms, affixesFor h]
  exact mapM_rename (fun a => derive .pfx a t) _

theorem prefixForms (t : Str) (s : FlagSet) (w : Str) :
    (renameChecker p W C).prefixForms t (renameFlags p s) w = C.prefixForms t s w := by
  rw [Checker.prefixForms, Checker.prefixForms, affixesFor h]
  exact mapM_rename (fun a => derive .pfx a t) _

theorem expandStem (t : Str) (s : FlagSet) (w : Str) :
    (renameChecker p W C).expandStem t (renameFlags p s) w = C.expandStem t s w := by
  simp only [Checker.expandStem, o_needAffix, flag h, renameFlags_isEmpty, suffixForms h, crossForms h,
    prefixForms h]

theorem ngramGuesses (w : Str) (l : List (MinScored (Str × FlagSet))) :
    (renameChecker p W C).ngramGuesses H w (l.map (rs p)) = C.ngramGuesses H w l := by
  rw [Checker.ngramGuesses, Checker.ngramGuesses, List.foldlM_map]
  congr 1
  funext g root
  rw [show (rs p root).inner.2 = renameFlags p root.inner.2 from rfl, expandStem h]
  rfl

omit h in
theorem rescore (w : Str) : ∀ l, (renameChecker p W C).rescore w l = C.rescore w l
  | [] => rfl
  | g :: l => by
    rw [Checker.rescore, Checker.rescore, rescore w l]
    rfl

omit h in
theorem selectGuesses (b : Bool) (old limit : Nat) : ∀ l out,
    (renameChecker p W C).selectGuesses b old limit l out = C.selectGuesses b old limit l out
  | [], _ => rfl
  | g :: l, out => by
    rw [Checker.selectGuesses, Checker.selectGuesses, selectGuesses b old limit l,
      selectGuesses b old limit l]
    rfl

include hH in
theorem ngramSuggest (w : Str) (out : List Str) :
    (renameChecker p W C).ngramSuggest H w out = C.ngramSuggest H w out := by
  rw [Checker.ngramSuggest, Checker.ngramSuggest]
  simp only [ngramRoots h hH, rescore, selectGuesses]
  congr 1
  funext w'
  cases C.ngramRoots H w' with
  | error e => rfl
  | ok l =>
    show ((renameChecker p W C).ngramGuesses H w' (l.map (rs p)) >>= _) = (C.ngramGuesses H w' l >>= _)
    rw [ngramGuesses h]
    rfl

end Ngram

/-! ## The suggester -/

section Suggester
variable {p : Nat → Nat} {W : Writing} {S : Suggester} (h : Renaming p S.C.aff)

theorem s_aff : (renameSuggester p W S).C = renameChecker p W S.C := rfl

include h

theorem maxAttempts (w : Str) : (renameSuggester p W S).maxAttempts w = S.maxAttempts w := by
  have e1 : (renameSuggester p W S).C.aff.prefixes.table.length = S.C.aff.prefixes.table.length :=
    List.length_map _
  have e2 : (renameSuggester p W S).C.aff.suffixes.table.length = S.C.aff.suffixes.table.length :=
    List.length_map _
  have e3 : (renameSuggester p W S).C.opts.allowsCompounding = S.C.opts.allowsCompounding := by
    simp only [s_aff, AffOptions.allowsCompounding, o_compound, o_begin, o_middle, o_end,
      Option.isSome_map]
  have e4 : (renameSuggester p W S).C.opts.complexPrefixes = S.C.opts.complexPrefixes := rfl
  simp only [Suggester.maxAttempts, e1, e2, e3, e4]

theorem addIfCorrect (fuel : Nat) (w : Str) (out : List Str) :
    (renameSuggester p W S).addIfCorrect fuel w out = S.addIfCorrect fuel w out := by
  have e : (renameChecker p W S.C).opts.forbidWarn = S.C.opts.forbidWarn := rfl
  rw [Suggester.addIfCorrect, Suggester.addIfCorrect, s_aff, checkWord h]
  rcases S.C.checkWord fuel w .forbidBad .skip with e | (_ | s)
  · rfl
  · rfl
  · show (if _ then _ else _) = (if _ then _ else _)
    simp only [o_forbidden, contains h, o_warn, flag h, e]

theorem addAll (fuel : Nat) (ts out : List Str) :
    (renameSuggester p W S).addAll fuel ts out = S.addAll fuel ts out := by
  simp only [Suggester.addAll, addIfCorrect h]

theorem isSome_checkWord (fuel : Nat) (w : Str) (fc : Forceucase) (hh : HiddenHomonym) :
    ((renameChecker p W S.C).checkWord fuel w fc hh).map (·.isSome)
      = (S.C.checkWord fuel w fc hh).map (·.isSome) := by
  rw [checkWord h]
  rcases S.C.checkWord fuel w fc hh with e | (_ | s) <;> rfl

theorem allParts (fuel : Nat) : ∀ ps, (renameSuggester p W S).allParts fuel ps = S.allParts fuel ps
  | [] => rfl
  | x :: ps => by
    rw [Suggester.allParts, Suggester.allParts, allParts fuel ps, s_aff, checkWord h]
    rcases S.C.checkWord fuel x .forbidBad .skip with e | (_ | s) <;> rfl

theorem tryRep (fuel : Nat) (w : Str) (out : List Str) :
    (renameSuggester p W S).tryRep fuel w out = S.tryRep fuel w out := by
  simp only [Suggester.tryRep, addIfCorrect h, allParts h]

theorem uppercaseSuggest (fuel : Nat) (w : Str) (out : List Str) :
    (renameSuggester p W S).uppercaseSuggest fuel w out = S.uppercaseSuggest fuel w out := by
  simp only [Suggester.uppercaseSuggest, addIfCorrect h]
  rfl

theorem repSuggest (fuel : Nat) (w : Str) (out : List Str) :
    (renameSuggester p W S).repSuggest fuel w out = S.repSuggest fuel w out := by
  simp only [Suggester.repSuggest, tryRep h]
  rfl

theorem mapSuggest (fuel : Nat) (w : Str) (out : List Str) :
    (renameSuggester p W S).mapSuggest fuel w out = S.mapSuggest fuel w out := by
  simp only [Suggester.mapSuggest, maxAttempts h, addAll h]
  rfl

theorem free (fuel : Nat) (e : Edit) (w : Str) (out : List Str) :
    (renameSuggester p W S).free fuel e w out = S.free fuel e w out := by
  simp only [Suggester.free, addAll h]

theorem limited (fuel : Nat) (e : Edit) (w : Str) (out : List Str) :
    (renameSuggester p W S).limited fuel e w out = S.limited fuel e w out := by
  simp only [Suggester.limited, maxAttempts h, addAll h]

theorem twoWordsAt (out : List Str) (x : Str × Str) :
    (renameSuggester p W S).twoWordsAt out x = S.twoWordsAt out x := by
  obtain ⟨a, b⟩ := x
  have e : (renameChecker p W S.C).aff.tryChars = S.C.aff.tryChars := rfl
  simp only [Suggester.twoWordsAt, s_aff, checkSimpleWord h, Option.isNone_map, e]

theorem twoWordsSuggest (w : Str) (out : List Str) :
    (renameSuggester p W S).twoWordsSuggest w out = S.twoWordsSuggest w out := by
  have e : (renameSuggester p W S).twoWordsAt = S.twoWordsAt := by
    funext out x; exact twoWordsAt h out x
  rw [Suggester.twoWordsSuggest, Suggester.twoWordsSuggest, e]
  rfl

theorem highQuality (fuel : Nat) (w : Str) (a b : Nat) :
    (renameSuggester p W S).highQuality fuel w a b = S.highQuality fuel w a b := by
  rw [Suggester.highQuality, Suggester.highQuality, s_aff, isSome_checkWord h]
  rfl

theorem suggestEdits (fuel : Nat) (w : Str) (out : List Str) :
    (renameSuggester p W S).suggestEdits fuel w out = S.suggestEdits fuel w out := by
  simp only [Suggester.suggestEdits, free h, limited h, twoWordsSuggest h]
  rfl

theorem suggestLow (fuel : Nat) (w : Str) (out : List Str) :
    (renameSuggester p W S).suggestLow fuel w out = S.suggestLow fuel w out := by
  simp only [Suggester.suggestLow, uppercaseSuggest h, repSuggest h, mapSuggest h, highQuality h,
    suggestEdits h]

theorem s_check (fuel : Nat) (w : Str) : (renameSuggester p W S).C.check fuel w = S.C.check fuel w :=
  check h fuel w

theorem lowThenFront (fuel : Nat) (w : Str) (q : Bool) (out : List Str) :
    (renameSuggester p W S).lowThenFront fuel w q out = S.lowThenFront fuel w q out := by
  simp only [Suggester.lowThenFront, suggestLow h, s_check h]

omit h in
theorem titleSecond (w : Str) : ∀ (l done : List Str),
    (renameSuggester p W S).titleSecond w done l = S.titleSecond w done l
  | [], _ => rfl
  | s :: l, done => by
    simp only [Suggester.titleSecond, titleSecond w l]
    rfl

theorem pascalLower (fuel : Nat) (b : Bool) (w : Str) (r : Bool × List Str) :
    (renameSuggester p W S).pascalLower fuel b w r = S.pascalLower fuel b w r := by
  simp only [Suggester.pascalLower, lowThenFront h]
  rfl

theorem pascalTitle (fuel : Nat) (b : Bool) (w : Str) (r : Bool × List Str) :
    (renameSuggester p W S).pascalTitle fuel b w r = S.pascalTitle fuel b w r := by
  simp only [Suggester.pascalTitle, lowThenFront h]
  rfl

theorem mixedCase (fuel : Nat) (b : Bool) (w : Str) (out : List Str) :
    (renameSuggester p W S).mixedCase fuel b w out = S.mixedCase fuel b w out := by
  simp only [Suggester.mixedCase, suggestLow h, pascalLower h, lowThenFront h, pascalTitle h,
    titleSecond]
  rfl

theorem keepLower (fuel : Nat) (w : Str) (out : List Str) :
    (renameSuggester p W S).keepLower fuel w out = S.keepLower fuel w out := by
  have e : (renameSuggester p W S).C.opts.keepCaseFlag.isSome = S.C.opts.keepCaseFlag.isSome := by
    rw [s_aff, o_keepCase, Option.isSome_map]
  simp only [Suggester.keepLower, s_check h, e]

theorem allCaps (fuel : Nat) (w : Str) (out : List Str) :
    (renameSuggester p W S).allCaps fuel w out = S.allCaps fuel w out := by
  simp only [Suggester.allCaps, keepLower h, suggestLow h]
  rfl

theorem initCase (fuel : Nat) (w : Str) (out : List Str) :
    (renameSuggester p W S).initCase fuel w out = S.initCase fuel w out := by
  simp only [Suggester.initCase, suggestLow h]
  rfl

theorem ngramPart (hH : ByScore S.H) (c : Casing) (w : Str) (q : Bool) (out : List Str) :
    (renameSuggester p W S).ngramPart c w q out = S.ngramPart c w q out := by
  have e : ∀ w out, (renameSuggester p W S).C.ngramSuggest (renameSuggester p W S).H w out
      = S.C.ngramSuggest S.H w out := ngramSuggest h hH
  simp only [Suggester.ngramPart, e]
  rfl

theorem dashCandidate (fuel : Nat) (a b : Str) (out : List Str) (s : Str) :
    (renameSuggester p W S).dashCandidate fuel a b out s = S.dashCandidate fuel a b out s := by
  rw [Suggester.dashCandidate, Suggester.dashCandidate, s_aff]
  rw [checkWord h]
  rcases S.C.checkWord fuel (a ++ s ++ b) .forbidBad .accept with e | (_ | f)
  · rfl
  · rfl
  · show Except.ok (if _ then _ else _) = Except.ok (if _ then _ else _)
    simp only [o_forbidden, contains h]

theorem dashes (fuel : Nat) (f : Str → List Str → Run (List Str)) (w : Str) (out : List Str) :
    (renameSuggester p W S).dashes fuel f w out = S.dashes fuel f w out := by
  have e : (renameSuggester p W S).dashPart fuel f = S.dashPart fuel f := by
    funext out x
    obtain ⟨a, b, c⟩ := x
    have e1 : (renameSuggester p W S).dashCandidate fuel a c = S.dashCandidate fuel a c := by
      funext out s; exact dashCandidate h fuel a c out s
    simp only [Suggester.dashPart, s_check h, e1]
  rw [Suggester.dashes, Suggester.dashes, e]

theorem recheck (fuel : Nat) (s : Str) :
    (renameSuggester p W S).recheck fuel s = S.recheck fuel s := by
  simp only [Suggester.recheck, s_check h]
  rfl

theorem recheckAll (fuel : Nat) : ∀ l, (renameSuggester p W S).recheckAll fuel l = S.recheckAll fuel l
  | [] => rfl
  | s :: l => by rw [Suggester.recheckAll, Suggester.recheckAll, recheck h, recheckAll fuel l]

theorem finish (fuel : Nat) (c : Casing) (out : List Str) :
    (renameSuggester p W S).finish fuel c out = S.finish fuel c out := by
  simp only [Suggester.finish, Suggester.retained, recheckAll h]
  rfl

theorem afterCasing (hH : ByScore S.H) (fuel : Nat) (f : Str → List Str → Run (List Str)) (c : Casing)
    (w : Str) (r : Bool × List Str) :
    (renameSuggester p W S).afterCasing fuel f c w r = S.afterCasing fuel f c w r := by
  simp only [Suggester.afterCasing, ngramPart h hH, dashes h, finish h]

theorem forceTitle (fuel : Nat) (w : Str) :
    (renameSuggester p W S).forceTitle fuel w = S.forceTitle fuel w := by
  have e : (renameSuggester p W S).C.opts.compoundForceUppercaseFlag.isSome
      = S.C.opts.compoundForceUppercaseFlag.isSome := by
    rw [s_aff, o_force, Option.isSome_map]
  rw [Suggester.forceTitle, Suggester.forceTitle, e, s_aff, checkCompound h]
  split
  · rcases S.C.checkCompound fuel .atBegin w .allowBad with e | (_ | s) <;> rfl
  · rfl

theorem suggestConverted (hH : ByScore S.H) (fuel : Nat) (f : Str → List Str → Run (List Str)) (w : Str)
    (out : List Str) :
    (renameSuggester p W S).suggestConverted fuel f w out = S.suggestConverted fuel f w out := by
  simp only [Suggester.suggestConverted, forceTitle h, afterCasing h hH, suggestLow h, initCase h,
    mixedCase h, allCaps h]
  rfl

theorem suggestImpl (hH : ByScore S.H) (fuel depth : Nat) :
    (renameSuggester p W S).suggestImpl fuel depth = S.suggestImpl fuel depth := by
  induction depth with
  | zero => rfl
  | succ d ih =>
    funext w out
    simp only [Suggester.suggestImpl, ih, suggestConverted h hH]
    rfl

theorem suggest (hH : ByScore S.H) (fuel depth : Nat) (w : Str) (out : List Str) :
    (renameSuggester p W S).suggest fuel depth w out = S.suggest fuel depth w out := by
  simp only [Suggester.suggest, suggestImpl h hH]

end Suggester
end Renamed
end Spellbook
