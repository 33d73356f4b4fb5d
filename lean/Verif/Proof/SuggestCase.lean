import Verif.Proof.SuggestAll
import Verif.Proof.Similar
import Verif.Proof.FlagText
/-!
# The suggestions for a word, by its letter case
-/

namespace Spellbook
open Spec Props

theorem titlecase_ok {C : Checker} {w t : Str} (h : C.titlecase w = .ok t) : w ≠ [] ∧ t = titleOf C w := by
  unfold Checker.titlecase at h
  cases w with
  | nil => simp [CaseHandling.titlecase] at h
  | cons c cs => simpa [CaseHandling.titlecase, titleOf, eq_comm] using h

namespace Suggester
variable {S : Suggester} {fuel : Nat}

theorem proposed {w : Str} {out : List Str} {hq : Bool} {out' : List Str}
    {rules : List (Str × Str)} (hR : ReplacementTable.from' rules = some S.C.aff.replacements)
    (h : S.suggestLow fuel w out = .ok (hq, out')) :
    ∃ p, out' = out ++ p ∧ Proposed S.C fuel w (hq = true) p := by
  obtain ⟨h2, h3⟩ := suggestLow_ok hR h
  exact ⟨_, h2, rfl, h3⟩

theorem initCase_ok {w : Str} {r : Bool × List Str}
    {rules : List (Str × Str)} (hR : ReplacementTable.from' rules = some S.C.aff.replacements)
    (h : S.initCase fuel w [] = .ok r) : ∃ g, (r.1 = true ↔ g) ∧ Spellings S.C fuel w .init g r.2 := by
  unfold initCase at h
  rw [Run.bind_eq_ok] at h
  obtain ⟨⟨q, o⟩, h1, h⟩ := h
  dsimp only at h
  rw [Run.bind_eq_ok] at h
  obtain ⟨⟨q', o'⟩, h2, h⟩ := h
  rw [Run.pure_eq_ok] at h
  subst h
  obtain ⟨p, rfl, hp⟩ := proposed hR h1
  obtain ⟨p', rfl, hp'⟩ := proposed hR h2
  exact ⟨_, by simp, .init hp hp'⟩

theorem ifCorrect {w : Str} {b : Bool} (h : S.C.check fuel w = .ok b) :
    IfCorrect S.C fuel w (if b = true then [w] else []) := by
  cases b with
  | true => exact .inl ⟨h, rfl⟩
  | false => exact .inr ⟨h, rfl⟩

theorem lowThenFront_ok {w : Str} {hq : Bool} {out : List Str} {r : Bool × List Str}
    {rules : List (Str × Str)} (hR : ReplacementTable.from' rules = some S.C.aff.replacements)
    (h : S.lowThenFront fuel w hq out = .ok r) : ∃ l q p, r = (hq || q, l ++ (out ++ p)) ∧
      Proposed S.C fuel w (q = true) p ∧ IfCorrect S.C fuel w l := by
  unfold lowThenFront at h
  rw [Run.bind_eq_ok] at h
  obtain ⟨⟨q, o⟩, h1, h⟩ := h
  dsimp only at h
  rw [Run.bind_eq_ok] at h
  obtain ⟨b, h2, h⟩ := h
  rw [Run.pure_eq_ok] at h
  subst h
  obtain ⟨p, rfl, hp⟩ := proposed hR h1
  refine ⟨_, q, p, ?_, hp, ifCorrect h2⟩
  cases b <;> rfl

theorem keepLower_ok {r : List Str} {w : Str} (h : S.keepLower fuel w [] = .ok r) :
    (S.C.opts.keepCaseFlag = none ∧ r = [] ∨
        S.C.opts.keepCaseFlag ≠ none ∧ IfCorrect S.C fuel w r) := by
  unfold keepLower at h
  split at h
  · rename_i hs
    rw [Run.bind_eq_ok] at h
    obtain ⟨b, h2, h⟩ := h
    rw [Run.pure_eq_ok] at h
    subst h
    exact .inr ⟨by simpa [Option.isSome_iff_ne_none] using hs, ifCorrect h2⟩
  · rename_i hs
    simp only [Except.ok.injEq] at h
    exact .inl ⟨by simpa [Option.isSome_iff_ne_none] using hs, h.symm⟩

theorem allCaps_ok {w : Str} {r : Bool × List Str}
    {rules : List (Str × Str)} (hR : ReplacementTable.from' rules = some S.C.aff.replacements)
    (h : S.allCaps fuel w [] = .ok r) : ∃ g, (r.1 = true ↔ g) ∧ Spellings S.C fuel w .all g r.2 := by
  unfold allCaps at h
  dsimp only at h
  rw [Run.bind_eq_ok] at h
  obtain ⟨l, h1, h⟩ := h
  rw [Run.bind_eq_ok] at h
  obtain ⟨⟨q, o⟩, h2, h⟩ := h
  dsimp only at h
  rw [Run.bind_eq_ok] at h
  obtain ⟨t, h3, h⟩ := h
  rw [Run.bind_eq_ok] at h
  obtain ⟨⟨q', o'⟩, h4, h⟩ := h
  rw [Run.pure_eq_ok] at h
  subst h
  obtain ⟨-, rfl⟩ := titlecase_ok h3
  obtain ⟨p, rfl, hp⟩ := proposed hR h2
  obtain ⟨p', rfl, hp'⟩ := proposed hR h4
  exact ⟨_, by simp, .all (keepLower_ok h1) hp hp'⟩

theorem dotSpace_ok (w : Str) (out : List Str) : ∃ d, S.dotSpace w out = d ++ out ∧ DotSpace S.C.U w d := by
  unfold dotSpace
  cases h : splitOnce? ['.'] w with
  | none =>
    refine ⟨[], rfl, .inr ⟨rfl, ?_⟩⟩
    rintro a b rfl
    have := splitOnce?_char_none.1 h
    simp at this
  | some ab =>
    obtain ⟨a, b⟩ := ab
    obtain ⟨rfl, ha⟩ := splitOnce?_char.1 h
    dsimp only
    split
    · rename_i hc
      exact ⟨[a ++ ['.', ' '] ++ b], rfl, .inl ⟨a, b, rfl, ha, hc, by simp⟩⟩
    · rename_i hc
      refine ⟨[], rfl, .inr ⟨rfl, fun a' b' he ha' => ?_⟩⟩
      have h' := splitOnce?_char.2 ⟨he, ha'⟩
      rw [h] at h'
      cases h'
      exact hc

theorem hasTail_iff {w t : Str} : hasTail w t = true ↔ t <:+ w := by
  unfold hasTail
  constructor
  · intro h
    split at h
    · cases h
    · split at h
      · rename_i tail ht
        obtain ⟨a, ha⟩ := sliceFrom?_some ht
        rw [beq_iff_eq] at h
        subst h
        exact ⟨a, ha.1.symm⟩
      · cases h
  · rintro ⟨a, rfl⟩
    have : byteLen (a ++ t) = byteLen a + byteLen t := byteLen_append a t
    rw [if_neg (by omega), this, Nat.add_sub_cancel, sliceFrom?_append]
    simp

theorem titleSecond_ok {w : Str} : ∀ {l done r : List Str}, S.titleSecond w done l = .ok r →
    ∃ ms ks, Divided S.C w l ms ks ∧ r = ms.reverse ++ done ++ ks
  | [], done, r, h => by
    simp only [titleSecond, Except.ok.injEq] at h
    exact ⟨[], [], .nil, by simp [h]⟩
  | s :: l, done, r, h => by
    unfold titleSecond at h
    split at h
    · rename_i hn
      obtain ⟨ms, ks, h1, rfl⟩ := titleSecond_ok h
      refine ⟨ms, s :: ks, .kept ?_ h1, by simp⟩
      rintro u ⟨a, c, b, rfl, -⟩
      have := splitOnce?_char_none.1 hn
      simp at this
    · rename_i a b hs
      obtain ⟨rfl, ha⟩ := splitOnce?_char.1 hs
      split at h
      · rename_i ht
        obtain ⟨ms, ks, h1, rfl⟩ := titleSecond_ok h
        refine ⟨ms, (a ++ ' ' :: b) :: ks, .kept ?_ h1, by simp⟩
        rintro u ⟨a', c, b', he, ha', hn, -⟩
        have h' := splitOnce?_char.2 ⟨he, ha'⟩
        rw [hs] at h'
        cases h'
        exact hn (hasTail_iff.1 ht)
      · rename_i ht
        rw [Run.bind_eq_ok] at h
        obtain ⟨t, h1, h⟩ := h
        obtain ⟨ms, ks, h2, rfl⟩ := titleSecond_ok h
        refine ⟨t :: ms, ks, .moved ?_ h2, by simp⟩
        unfold upperAt CaseHandling.upperCharAt at h1
        have e0 : a ++ ' ' :: b = (a ++ [' ']) ++ b := by simp
        have el : a.length + 1 = (a ++ [' ']).length := by simp
        have e : (a ++ ' ' :: b).drop (a.length + 1) = b := by rw [e0, el, List.drop_left]
        have e' : (a ++ ' ' :: b).take (a.length + 1) = a ++ [' '] := by rw [e0, el, List.take_left]
        rw [e, e'] at h1
        cases b with
        | nil => simp [Run.ofOption] at h1
        | cons c b =>
          simp only [Run.ofOption, Except.ok.injEq] at h1
          exact ⟨a, c, b, rfl, ha, fun h' => ht (hasTail_iff.2 h'), by rw [← h1]; simp⟩

theorem mixedCase_ok {w : Str} {pascal : Bool} {r : Bool × List Str}
    {rules : List (Str × Str)} (hR : ReplacementTable.from' rules = some S.C.aff.replacements)
    (h : S.mixedCase fuel pascal w [] = .ok r) :
    ∃ g, (r.1 = true ↔ g) ∧ Spellings S.C fuel w (if pascal then .pascal else .camel) g r.2 := by
  unfold mixedCase at h
  rw [Run.bind_eq_ok] at h
  obtain ⟨⟨q, o⟩, h1, h⟩ := h
  obtain ⟨p, hpe, hp⟩ := proposed hR h1
  rw [List.nil_append] at hpe
  subst hpe
  obtain ⟨d, hd, hd'⟩ := dotSpace_ok (S := S) w o
  dsimp only at h
  rw [hd, Run.bind_eq_ok] at h
  obtain ⟨r1, h2, h⟩ := h
  rw [Run.bind_eq_ok] at h
  obtain ⟨r2, h3, h⟩ := h
  rw [Run.bind_eq_ok] at h
  obtain ⟨r3, h4, h⟩ := h
  rw [Run.bind_eq_ok] at h
  obtain ⟨o', h5, h⟩ := h
  rw [Run.pure_eq_ok] at h
  subst h
  obtain ⟨ms, ks, h6, rfl⟩ := titleSecond_ok h5
  obtain ⟨l, q', p', rfl, hp', hl⟩ := lowThenFront_ok hR h3
  cases pascal with
  | false =>
    simp only [pascalLower, pascalTitle, Bool.false_eq_true, if_false, Except.ok.injEq] at h2 h4 ⊢
    subst h2 h4
    exact ⟨_, by simp, .camel hp hd' hp' hl ⟨ms, ks, by simpa using h6, by simp⟩⟩
  | true =>
    unfold pascalLower at h2
    rw [if_pos rfl, Run.bind_eq_ok] at h2
    obtain ⟨f, h7, h2⟩ := h2
    unfold pascalTitle at h4
    rw [if_pos rfl, Run.bind_eq_ok] at h4
    obtain ⟨t, h8, h4⟩ := h4
    obtain ⟨-, rfl⟩ := titlecase_ok h8
    obtain ⟨f', qf, pf, rfl, hpf, hf⟩ := lowThenFront_ok hR h2
    obtain ⟨t', qt, pt, rfl, hpt, ht⟩ := lowThenFront_ok hR h4
    refine ⟨_, ?_, .pascal hp hd' ?_ hpf hf hp' hl hpt ht ⟨ms, ks, by simpa using h6, by simp⟩⟩
    · simp [or_assoc]
    · cases hlf : S.C.opts.caseHandling.lowerFirstChar S.C.U w with
      | none => rw [hlf] at h7; cases h7
      | some x => rw [hlf] at h7; cases h7; rfl

theorem ngramPart_ok {casing : Casing} {w : Str} {hq : Bool} {out out' : List Str} (hC : S.C.dict.CondsParsed)
    {g : Prop} (hg : hq = true ↔ g) (h : S.ngramPart casing w hq out = .ok out') :
    ∃ new, out' = out ++ new ∧ SimilarWords S w casing g out new := by
  unfold ngramPart at h
  split at h
  · rename_i hc
    simp only [Bool.and_eq_true, Bool.not_eq_true'] at hc
    have e : (if casing = .none then w else S.C.lowercase w) = compared S.C w casing := by
      cases casing <;> rfl
    rw [e] at h
    dsimp only at h
    rw [Run.bind_eq_ok] at h
    obtain ⟨o, ho, h⟩ := h
    rw [Run.pure_eq_ok] at h
    obtain ⟨new, rfl, h2⟩ := C46_ngram_partial hC ho
    have hl := C44_limit_partial ho
    rw [List.take_left, List.drop_left] at h
    refine ⟨if casing = .all then new.map (upperOf S.C) else new, ?_, ?_, fun _ _ _ => ?_, ?_, ?_⟩
    · rw [← h]
      split <;> rfl
    · exact fun hn => absurd ⟨hc.1.1, fun hg' => by rw [hg.2 hg'] at hc; simp at hc, by simpa using hc.2⟩ hn
    · obtain ⟨l, h3, h4⟩ := Checker.ngramSuggest_similar hC ho
      rw [List.append_cancel_left h3]
      exact ⟨l, h4, rfl⟩
    · intro t ht
      by_cases hca : casing = .all
      · rw [if_pos hca] at ht
        obtain ⟨s, hs, rfl⟩ := List.mem_map.1 ht
        exact ⟨s, h2 s hs, by rw [if_pos hca]⟩
      · rw [if_neg hca] at ht
        exact ⟨t, h2 t ht, by rw [if_neg hca]⟩
    · intro hle
      have := hl hle
      simp only [List.length_append] at this
      have e : (if casing = .all then new.map (upperOf S.C) else new).length = new.length := by split <;> simp
      rw [e]
      omega
  · rename_i hc
    simp only [Except.ok.injEq] at h
    refine ⟨[], by simp [h], by simp, fun h1 h2 h3 => absurd ?_ hc, by simp, fun h => by simpa using h⟩
    have : hq = false := by rw [← Bool.not_eq_true, hg]; exact h2
    simp [h1, this, h3]

theorem capitalised {l r : List Str} (h : l.mapM (fun s => S.upperAt s 0) = .ok r) :
    List.Forall₂ (Capital S.C) l r := by
  induction l generalizing r with
  | nil =>
    simp only [List.mapM_nil, Run.pure_eq_ok] at h
    subst h
    exact .nil
  | cons t l ih =>
    simp only [List.mapM_cons, Run.bind_eq_ok, Run.pure_eq_ok] at h
    obtain ⟨s, h1, r', h2, rfl⟩ := h
    refine .cons ?_ (ih h2)
    unfold upperAt CaseHandling.upperCharAt at h1
    cases t with
    | nil => simp [Run.ofOption] at h1
    | cons c b =>
      simp only [List.drop_zero, List.take_zero, List.nil_append, Run.ofOption, Except.ok.injEq] at h1
      exact ⟨c, b, rfl, h1.symm⟩

theorem rechecked {s : Str} {r : Option Str} (h : S.recheck fuel s = .ok r) : Rechecked S.C fuel s r.toList := by
  unfold recheck at h
  split at h
  · rename_i hs
    rw [Run.pure_eq_ok] at h
    subst h
    exact .space (by simpa using hs)
  · rename_i hs
    have hs : ' ' ∉ s := by simpa using hs
    rw [Run.bind_eq_ok] at h
    obtain ⟨b, hb, h⟩ := h
    cases b with
    | true =>
      rw [if_pos rfl, Run.pure_eq_ok] at h
      subst h
      exact .correct hs hb
    | false =>
      rw [if_neg (by simp)] at h
      dsimp only at h
      rw [Run.bind_eq_ok] at h
      obtain ⟨b, hb', h⟩ := h
      cases b with
      | true =>
        rw [if_pos rfl, Run.pure_eq_ok] at h
        subst h
        exact .lower hs hb hb'
      | false =>
        rw [if_neg (by simp), Run.bind_eq_ok] at h
        obtain ⟨title, ht, h⟩ := h
        obtain ⟨hne, rfl⟩ := titlecase_ok ht
        rw [Run.bind_eq_ok] at h
        obtain ⟨b, hb'', h⟩ := h
        cases b with
        | true =>
          rw [if_pos rfl, Run.pure_eq_ok] at h
          subst h
          exact .title hs hne hb hb' hb''
        | false =>
          rw [if_neg (by simp), Run.pure_eq_ok] at h
          subst h
          exact .wrong hs hne hb hb' hb''

theorem recheckAll_eq : ∀ {l r : List Str}, S.recheckAll fuel l = .ok r →
    ∃ parts, List.Forall₂ (Rechecked S.C fuel) l parts ∧ r = parts.flatten
  | [], r, h => by
    simp only [recheckAll, Except.ok.injEq] at h
    exact ⟨[], .nil, by simp [← h]⟩
  | s :: l, r, h => by
    unfold recheckAll at h
    rw [Run.bind_eq_ok] at h
    obtain ⟨o, ho, h⟩ := h
    rw [Run.bind_eq_ok] at h
    obtain ⟨rest, hr, h⟩ := h
    rw [Run.pure_eq_ok] at h
    obtain ⟨parts, h1, rfl⟩ := recheckAll_eq hr
    exact ⟨o.toList :: parts, .cons (rechecked ho) h1, by simp [← h]⟩

theorem finish_eq {casing : Casing} {out r : List Str} (h : S.finish fuel casing out = .ok r) :
    ∃ l, Ending S.C fuel casing out l ∧ r = (firsts [] l).map S.C.aff.outputConversions.convert := by
  obtain ⟨o1, o2, h1, h2, h3⟩ := finish_ok h
  refine ⟨o2, ?_, h3⟩
  unfold capitalise at h1
  unfold retained at h2
  cases casing
  · simp only [reduceCtorEq, or_self, if_false, Except.ok.injEq] at h1 h2
    subst h1 h2
    exact .none
  · simp only [true_or, if_true] at h1 h2
    obtain ⟨parts, h4, rfl⟩ := recheckAll_eq h2
    exact .init (capitalised h1) h4
  · simp only [reduceCtorEq, or_self, or_true, if_false, if_true, Except.ok.injEq] at h1 h2
    subst h1
    obtain ⟨parts, h4, rfl⟩ := recheckAll_eq h2
    exact .all h4
  · simp only [reduceCtorEq, or_self, if_false, Except.ok.injEq] at h1 h2
    subst h1 h2
    exact .camel
  · simp only [reduceCtorEq, or_self, or_true, if_false, if_true, Except.ok.injEq] at h1 h2
    subst h2
    exact .pascal (capitalised h1)

/-- Everything `suggest_impl` does after ICONV, except FORCEUCASE. -/
theorem converted_ok {rec' : Str → List Str → Run (List Str)} {w : Str} {r : List Str}
    {rules : List (Str × Str)} (hR : ReplacementTable.from' rules = some S.C.aff.replacements)
    (hC : S.C.dict.CondsParsed) (hf : classifyCasing S.C.U w = .none → S.forceTitle fuel w = .ok false)
    (h : S.suggestConverted fuel rec' w [] = .ok r) :
    ∃ (good : Prop) (sp sim dash l : List Str),
      Spellings S.C fuel w (classifyCasing S.C.U w) good sp ∧
      SimilarWords S w (classifyCasing S.C.U w) good sp sim ∧
      (∀ t, t ∈ dash ↔ '-' ∈ w ∧ (∀ s ∈ sp ++ sim, '-' ∉ s) ∧
        DashFix S.C fuel (fun part s => ∃ found, rec' part [] = .ok found ∧ s ∈ found) w t) ∧
      Ending S.C fuel (classifyCasing S.C.U w) (sp ++ sim ++ dash) l ∧
      r = (firsts [] l).map S.C.aff.outputConversions.convert := by
  have main : ∀ {casing : Casing} {x : Bool × List Str} {good : Prop}, (x.1 = true ↔ good) →
      Spellings S.C fuel w casing good x.2 → S.afterCasing fuel rec' casing w x = .ok r →
      ∃ (good : Prop) (sp sim dash l : List Str),
      Spellings S.C fuel w casing good sp ∧ SimilarWords S w casing good sp sim ∧
      (∀ t, t ∈ dash ↔ '-' ∈ w ∧ (∀ s ∈ sp ++ sim, '-' ∉ s) ∧
        DashFix S.C fuel (fun part s => ∃ found, rec' part [] = .ok found ∧ s ∈ found) w t) ∧
      Ending S.C fuel casing (sp ++ sim ++ dash) l ∧
      r = (firsts [] l).map S.C.aff.outputConversions.convert := by
    intro casing x good hg hs h
    obtain ⟨a, b, h1, h2, h3⟩ := afterCasing_ok h
    obtain ⟨sim, rfl, hsim⟩ := ngramPart_ok hC hg h1
    obtain ⟨dash, rfl, hd⟩ := dashes_ok h2
    obtain ⟨l, h4, h5⟩ := finish_eq h3
    exact ⟨good, x.2, sim, dash, l, hs, hsim, hd, h4, h5⟩
  unfold suggestConverted at h
  split at h <;> rename_i hc <;> rw [hc]
  · rw [hf hc] at h
    have h : (S.suggestLow fuel w [] >>= fun x => S.afterCasing fuel rec' .none w x) = .ok r := h
    rw [Run.bind_eq_ok] at h
    obtain ⟨⟨q, o⟩, h1, h⟩ := h
    obtain ⟨p, rfl, hp⟩ := proposed hR h1
    exact main Iff.rfl (.none (by simpa using hp)) h
  · rw [Run.bind_eq_ok] at h
    obtain ⟨x, h1, h⟩ := h
    obtain ⟨g, hg, hs⟩ := initCase_ok hR h1
    exact main hg hs h
  · rw [Run.bind_eq_ok] at h
    obtain ⟨x, h1, h⟩ := h
    obtain ⟨g, hg, hs⟩ := mixedCase_ok hR h1
    exact main hg hs h
  · rw [Run.bind_eq_ok] at h
    obtain ⟨x, h1, h⟩ := h
    obtain ⟨g, hg, hs⟩ := mixedCase_ok hR h1
    exact main hg hs h
  · rw [Run.bind_eq_ok] at h
    obtain ⟨x, h1, h⟩ := h
    obtain ⟨g, hg, hs⟩ := allCaps_ok hR h1
    exact main hg hs h

end Suggester
end Spellbook
