import Verif.Proof.SuggestLow
import Verif.Props.Ngram
/-!
# The whole of `suggest`
-/

namespace Spellbook
open Spec Props

namespace Suggester
variable {S : Suggester} {fuel : Nat}

theorem dashPieces_iff : ∀ (rest pre cur : Str), '-' ∉ cur → (pre = [] ∨ ∃ p, pre = p ++ ['-']) →
    ∀ a b c, (a, b, c) ∈ dashPieces pre cur rest ↔
      DashPart (pre ++ (cur ++ rest)) a b c ∧ pre.length ≤ a.length
  | [], pre, cur, hc, hp, a, b, c => by
    simp only [dashPieces, List.mem_singleton, Prod.mk.injEq, List.append_nil]
    constructor
    · rintro ⟨rfl, rfl, rfl⟩
      exact ⟨⟨by simp, hc, hp, .inl rfl⟩, Nat.le_refl _⟩
    · rintro ⟨⟨h1, h2, h3, h4⟩, h5⟩
      rw [List.append_eq_append_iff] at h1
      rcases h1 with ⟨as, h6, h7⟩ | ⟨as, h6, h7⟩
      · have : as = [] := by
          rcases List.eq_nil_or_concat as with rfl | ⟨l, x, rfl⟩
          · rfl
          · exfalso
            rcases h3 with rfl | ⟨p, rfl⟩
            · simp at h6
            · rw [List.concat_eq_append, ← List.append_assoc] at h6
              have : x = '-' := (List.append_inj_right' h6 rfl |> fun h => by simpa using h.symm)
              exact hc (by rw [h7]; simp [this])
        subst this
        simp only [List.append_nil] at h6
        simp only [List.nil_append] at h7
        rcases h4 with rfl | ⟨q, rfl⟩
        · exact ⟨h6, by simpa using h7.symm, rfl⟩
        · exact absurd (by rw [h7]; simp) hc
      · have : as = [] := by
          rw [h6, List.length_append] at h5
          exact List.eq_nil_of_length_eq_zero (by omega)
        subst this
        simp only [List.append_nil] at h6
        simp only [List.nil_append] at h7
        rcases h4 with rfl | ⟨q, rfl⟩
        · exact ⟨h6.symm, by simpa using h7, rfl⟩
        · exact absurd (by rw [← h7]; simp) hc
  | x :: rest, pre, cur, hc, hp, a, b, c => by
    unfold dashPieces
    split
    · rename_i hx
      subst hx
      rw [List.mem_cons, dashPieces_iff rest _ _ (by simp) (.inr ⟨pre ++ cur, rfl⟩)]
      simp only [Prod.mk.injEq, List.nil_append, List.append_assoc, List.length_append]
      constructor
      · rintro (⟨rfl, rfl, rfl⟩ | ⟨h, h'⟩)
        · exact ⟨⟨rfl, hc, hp, .inr ⟨rest, rfl⟩⟩, Nat.le_refl _⟩
        · exact ⟨h, by omega⟩
      · rintro ⟨h, h'⟩
        by_cases hl : pre.length + (cur.length + ['-'].length) ≤ a.length
        · exact .inr ⟨h, hl⟩
        left
        have h1 := h.whole
        -- `a` is `pre`, possibly with some of `cur`
        have hcd : '-' ∉ cur := hc
        have : a = pre := by
          rw [List.append_eq_append_iff] at h1
          rcases h1 with ⟨as, h6, h7⟩ | ⟨as, h6, h7⟩
          · rcases List.eq_nil_or_concat as with rfl | ⟨l, y, rfl⟩
            · simpa using h6
            · exfalso
              rcases h.left with rfl | ⟨p, rfl⟩
              · simp at h6
              · rw [List.concat_eq_append] at h6 h7
                rw [← List.append_assoc] at h6
                have hy : y = '-' := (List.append_inj_right' h6 rfl |> fun h => by simpa using h.symm)
                subst hy
                have hlen : (l ++ ['-']).length ≤ cur.length := by
                  rw [h6] at hl
                  simp only [List.length_append, List.length_singleton] at hl ⊢
                  omega
                have h8 := congrArg (List.take (l ++ ['-']).length) h7
                rw [List.take_append_of_le_length hlen, List.take_left] at h8
                exact hc (List.mem_of_mem_take (by rw [h8]; simp))
          · have : as = [] := by
              rw [h6, List.length_append] at h'
              exact List.eq_nil_of_length_eq_zero (by omega)
            subst this
            simpa using h6.symm
        subst this
        have h2 : cur ++ '-' :: rest = b ++ c := List.append_cancel_left h1
        have hb : b = cur := by
          rw [List.append_eq_append_iff] at h2
          rcases h2 with ⟨as, h6, h7⟩ | ⟨as, h6, h7⟩
          · cases as with
            | nil => simpa using h6
            | cons y as =>
              exfalso
              have : y = '-' := by simp at h7; exact h7.1.symm
              exact h.noDash (by rw [h6]; simp [this])
          · rcases h.right with rfl | ⟨q, rfl⟩
            · cases as with
              | nil => simpa using h6.symm
              | cons y as => simp at h7
            · cases as with
              | nil => simpa using h6.symm
              | cons y as =>
                exfalso
                have : y = '-' := by simp at h7; exact h7.1.symm
                exact hcd (by rw [h6]; simp [this])
        subst hb
        exact ⟨rfl, rfl, (List.append_cancel_left h2).symm⟩
    · rename_i hx
      have hc' : '-' ∉ cur ++ [x] := by
        simp only [List.mem_append, List.mem_singleton, not_or]
        exact ⟨hc, fun h => hx h.symm⟩
      rw [dashPieces_iff rest _ _ hc' hp]
      simp

theorem mem_dashPieces {w a b c : Str} : (a, b, c) ∈ dashPieces [] [] w ↔ DashPart w a b c := by
  rw [dashPieces_iff w [] [] (by simp) (.inl rfl)]
  simp

theorem dashCandidate_ok {pre post s : Str} {out out' : List Str}
    (h : S.dashCandidate fuel pre post out s = .ok out') :
    (Forbidden S.C fuel (pre ++ (s ++ post)) ∧ out' = out) ∨
      (¬ Forbidden S.C fuel (pre ++ (s ++ post)) ∧ out' = out ++ [pre ++ (s ++ post)]) := by
  unfold dashCandidate at h
  simp only [List.append_assoc] at h
  rw [Run.bind_eq_ok] at h
  obtain ⟨r, h1, h⟩ := h
  unfold Forbidden
  rw [h1]
  cases r with
  | none =>
    dsimp only at h
    rw [Run.pure_eq_ok] at h
    exact .inr ⟨by simp, h.symm⟩
  | some F =>
    dsimp only at h
    rw [Run.pure_eq_ok] at h
    split at h
    · rename_i hc
      rw [FlagSet.contains_iff] at hc
      exact .inl ⟨⟨F, rfl, hc⟩, h.symm⟩
    · rename_i hc
      rw [FlagSet.contains_iff] at hc
      refine .inr ⟨?_, h.symm⟩
      rintro ⟨F', h2, h3⟩
      simp only [Except.ok.injEq, Option.some.injEq] at h2
      subst h2
      exact hc h3

theorem dashCandidates_ok {pre post : Str} : ∀ {found out out' : List Str},
    found.foldlM (S.dashCandidate fuel pre post) out = .ok out' → ∃ new, out' = out ++ new ∧
      ∀ t, t ∈ new ↔ ∃ s ∈ found, t = pre ++ (s ++ post) ∧ ¬ Forbidden S.C fuel t
  | [], out, out', h => by
    simp only [List.foldlM_nil, Run.pure_eq_ok] at h
    exact ⟨[], by simp [h]⟩
  | s :: found, out, out', h => by
    rw [List.foldlM_cons, Run.bind_eq_ok] at h
    obtain ⟨o1, h1, h2⟩ := h
    obtain ⟨new, rfl, hn⟩ := dashCandidates_ok h2
    rcases dashCandidate_ok h1 with ⟨hf, rfl⟩ | ⟨hf, rfl⟩
    · refine ⟨new, rfl, fun t => ?_⟩
      rw [hn]
      constructor
      · rintro ⟨s, hs, h⟩; exact ⟨s, by simp [hs], h⟩
      · rintro ⟨s', hs, rfl, h⟩
        rcases List.mem_cons.mp hs with rfl | hs
        · exact absurd hf h
        · exact ⟨s', hs, rfl, h⟩
    · refine ⟨(pre ++ (s ++ post)) :: new, by simp, fun t => ?_⟩
      rw [List.mem_cons, hn]
      constructor
      · rintro (rfl | ⟨s, hs, h⟩)
        · exact ⟨s, by simp, rfl, hf⟩
        · exact ⟨s, by simp [hs], h⟩
      · rintro ⟨s', hs, rfl, h⟩
        rcases List.mem_cons.mp hs with rfl | hs
        · exact .inl rfl
        · exact .inr ⟨s', hs, rfl, h⟩

theorem dashParts_ok {rec' : Str → List Str → Run (List Str)} :
    ∀ {ps : List (Str × Str × Str)} {out out' : List Str},
    ps.foldlM (S.dashPart fuel rec') out = .ok out' → ∃ new, out' = out ++ new ∧
      ∀ t, t ∈ new ↔ ∃ pre part post s, (pre, part, post) ∈ ps ∧ S.C.check fuel part = .ok false ∧
        (∃ found, rec' part [] = .ok found ∧ s ∈ found) ∧ t = pre ++ (s ++ post) ∧ ¬ Forbidden S.C fuel t
  | [], out, out', h => by
    simp only [List.foldlM_nil, Run.pure_eq_ok] at h
    exact ⟨[], by simp [h]⟩
  | (pre, part, post) :: ps, out, out', h => by
    rw [List.foldlM_cons, Run.bind_eq_ok] at h
    obtain ⟨o1, h1, h2⟩ := h
    obtain ⟨new, rfl, hn⟩ := dashParts_ok h2
    unfold dashPart at h1
    rw [Run.bind_eq_ok] at h1
    obtain ⟨b, hb, h1⟩ := h1
    cases b with
    | true =>
      rw [if_pos rfl, Run.pure_eq_ok] at h1
      subst h1
      refine ⟨new, rfl, fun t => ?_⟩
      rw [hn]
      constructor
      · rintro ⟨a, b, c, s, h, h'⟩; exact ⟨a, b, c, s, by simp [h], h'⟩
      · rintro ⟨a, b, c, s, h, h1, h'⟩
        rcases List.mem_cons.mp h with h | h
        · obtain ⟨rfl, rfl, rfl⟩ := by simpa using h
          rw [hb] at h1; cases h1
        · exact ⟨a, b, c, s, h, h1, h'⟩
    | false =>
      rw [if_neg (by simp), Run.bind_eq_ok] at h1
      obtain ⟨found, hf, h1⟩ := h1
      obtain ⟨new1, rfl, hn1⟩ := dashCandidates_ok h1
      refine ⟨new1 ++ new, by simp, fun t => ?_⟩
      rw [List.mem_append, hn, hn1]
      constructor
      · rintro (⟨s, hs, rfl, h⟩ | ⟨a, b, c, s, h, h'⟩)
        · exact ⟨pre, part, post, s, by simp, hb, ⟨found, hf, hs⟩, rfl, h⟩
        · exact ⟨a, b, c, s, by simp [h], h'⟩
      · rintro ⟨a, b, c, s, h, h1, ⟨found', hf', hs⟩, h2, h3⟩
        rcases List.mem_cons.mp h with h | h
        · obtain ⟨rfl, rfl, rfl⟩ := by simpa using h
          rw [hf] at hf'
          cases hf'
          exact .inl ⟨s, hs, h2, h3⟩
        · exact .inr ⟨a, b, c, s, h, h1, ⟨found', hf', hs⟩, h2, h3⟩

/-- The part for dashes adds exactly the words with one wrong part replaced, if there is no suggestion
with a dash. -/
theorem dashes_ok {rec' : Str → List Str → Run (List Str)} {w : Str} {out out' : List Str}
    (h : S.dashes fuel rec' w out = .ok out') : ∃ new, out' = out ++ new ∧
      ∀ t, t ∈ new ↔ '-' ∈ w ∧ (∀ s ∈ out, '-' ∉ s) ∧
        DashFix S.C fuel (fun part s => ∃ found, rec' part [] = .ok found ∧ s ∈ found) w t := by
  unfold dashes at h
  have hiff : ((w.contains '-' && !(out.any fun s => s.contains '-')) = true) ↔
      '-' ∈ w ∧ ∀ s ∈ out, '-' ∉ s := by
    simp
  split at h
  · rename_i hc
    rw [hiff] at hc
    obtain ⟨new, rfl, hn⟩ := dashParts_ok h
    refine ⟨new, rfl, fun t => ?_⟩
    rw [hn]
    simp only [mem_dashPieces, DashFix]
    exact ⟨fun h => ⟨hc.1, hc.2, h⟩, fun h => h.2.2⟩
  · rename_i hc
    rw [hiff] at hc
    simp only [Except.ok.injEq] at h
    subst h
    refine ⟨[], by simp, fun t => ?_⟩
    simp only [List.not_mem_nil, false_iff]
    rintro ⟨h1, h2, -⟩
    exact hc ⟨h1, h2⟩

/-! ## The end -/

theorem finish_ok {casing : Casing} {out r : List Str} (h : S.finish fuel casing out = .ok r) :
    ∃ o1 o2, S.capitalise casing out = .ok o1 ∧ S.retained fuel casing o1 = .ok o2 ∧
      r = (firsts [] o2).map S.C.aff.outputConversions.convert := by
  unfold finish at h
  rw [Run.bind_eq_ok] at h
  obtain ⟨o1, h1, h⟩ := h
  rw [Run.bind_eq_ok] at h
  obtain ⟨o2, h2, h⟩ := h
  rw [deduplicate?_eq, ofOption_some, Run.bind_eq_ok] at h
  obtain ⟨o3, h3, h⟩ := h
  simp only [Except.ok.injEq] at h3
  subst h3
  rw [Run.pure_eq_ok] at h
  exact ⟨o1, o2, h1, h2, h.symm⟩

theorem recheck_ok {s : Str} {r : Option Str} (h : S.recheck fuel s = .ok r) : ∀ t, r = some t →
    (' ' ∈ t ∨ S.C.check fuel t = .ok true) ∧
      (t = s ∨ t = S.C.lowercase s ∨ S.C.titlecase s = .ok t) := by
  unfold recheck at h
  rintro t rfl
  split at h
  · rename_i hs
    simp only [Run.pure_eq_ok, Option.some.injEq] at h
    subst h
    exact ⟨.inl (by simpa using hs), .inl rfl⟩
  · rw [Run.bind_eq_ok] at h
    obtain ⟨b, hb, h⟩ := h
    cases b with
    | true =>
      simp only [if_true, Run.pure_eq_ok, Option.some.injEq] at h
      subst h
      exact ⟨.inr hb, .inl rfl⟩
    | false =>
      rw [if_neg (by simp)] at h
      dsimp only at h
      rw [Run.bind_eq_ok] at h
      obtain ⟨b, hb, h⟩ := h
      cases b with
      | true =>
        simp only [if_true, Run.pure_eq_ok, Option.some.injEq] at h
        subst h
        exact ⟨.inr hb, .inr (.inl rfl)⟩
      | false =>
        rw [if_neg (by simp), Run.bind_eq_ok] at h
        obtain ⟨title, ht, h⟩ := h
        rw [Run.bind_eq_ok] at h
        obtain ⟨b, hb, h⟩ := h
        cases b with
        | true =>
          simp only [if_true, Run.pure_eq_ok, Option.some.injEq] at h
          subst h
          exact ⟨.inr hb, .inr (.inr ht)⟩
        | false => simp [Run.pure_eq_ok] at h

theorem recheckAll_ok : ∀ {out r : List Str}, S.recheckAll fuel out = .ok r → ∀ t ∈ r,
    (' ' ∈ t ∨ S.C.check fuel t = .ok true) ∧
      ∃ s ∈ out, t = s ∨ t = S.C.lowercase s ∨ S.C.titlecase s = .ok t
  | [], r, h, t, ht => by
    simp only [recheckAll, Except.ok.injEq] at h
    subst h
    simp at ht
  | s :: out, r, h, t, ht => by
    unfold recheckAll at h
    rw [Run.bind_eq_ok] at h
    obtain ⟨o, ho, h⟩ := h
    rw [Run.bind_eq_ok] at h
    obtain ⟨rest, hr, h⟩ := h
    rw [Run.pure_eq_ok] at h
    subst h
    rcases List.mem_append.mp ht with ht | ht
    · have := recheck_ok ho t (by simpa using ht)
      exact ⟨this.1, s, by simp, this.2⟩
    · have := recheckAll_ok hr t ht
      exact ⟨this.1, this.2.imp fun s' h => ⟨by simp [h.1], h.2⟩⟩

theorem afterCasing_ok {rec' : Str → List Str → Run (List Str)} {casing : Casing} {w : Str}
    {r : Bool × List Str} {out : List Str} (h : S.afterCasing fuel rec' casing w r = .ok out) :
    ∃ a b, S.ngramPart casing w r.1 r.2 = .ok a ∧ S.dashes fuel rec' w a = .ok b ∧
      S.finish fuel casing b = .ok out := by
  unfold afterCasing at h
  rw [Run.bind_eq_ok] at h
  obtain ⟨a, h1, h⟩ := h
  rw [Run.bind_eq_ok] at h
  obtain ⟨b, h2, h⟩ := h
  exact ⟨a, b, h1, h2, h⟩

/-- Either the title case under FORCEUCASE, or what `finish` makes of some texts. -/
theorem suggestConverted_ok {rec' : Str → List Str → Run (List Str)} {w : Str} {r : List Str}
    (h : S.suggestConverted fuel rec' w [] = .ok r) :
    (classifyCasing S.C.U w = .none ∧ S.forceTitle fuel w = .ok true ∧ ∃ t, S.C.titlecase w = .ok t ∧ r = [t]) ∨
    ∃ b, S.finish fuel (classifyCasing S.C.U w) b = .ok r := by
  unfold suggestConverted at h
  split at h
  · rename_i hc
    rw [Run.bind_eq_ok] at h
    obtain ⟨f, hf, h⟩ := h
    cases f with
    | true =>
      rw [if_pos rfl, Run.bind_eq_ok] at h
      obtain ⟨t, ht, h⟩ := h
      rw [Run.pure_eq_ok] at h
      exact .inl ⟨hc, hf, t, ht, by simpa using h.symm⟩
    | false =>
      rw [if_neg (by simp), Run.bind_eq_ok] at h
      obtain ⟨x, -, h⟩ := h
      obtain ⟨-, b, -, -, h⟩ := afterCasing_ok h
      exact .inr ⟨b, by rwa [hc]⟩
  all_goals
    rename_i hc
    rw [Run.bind_eq_ok] at h
    obtain ⟨x, -, h⟩ := h
    obtain ⟨-, b, -, -, h⟩ := afterCasing_ok h
    exact .inr ⟨b, by rwa [hc]⟩

theorem suggestImpl_ok {depth : Nat} {w : Str} {r : List Str} (h : S.suggestImpl fuel depth w [] = .ok r) :
    (w = [] ∧ r = []) ∨ ∃ d, depth = d + 1 ∧ w ≠ [] ∧
      S.suggestConverted fuel (S.suggestImpl fuel d) (S.C.aff.inputConversions.convert w) [] = .ok r := by
  cases depth with
  | zero => simp [suggestImpl] at h
  | succ d =>
    unfold suggestImpl at h
    split at h
    · rename_i hw
      simp only [Except.ok.injEq] at h
      exact .inl ⟨hw, h.symm⟩
    · rename_i hw
      exact .inr ⟨d, rfl, hw, h⟩

theorem ngramPart_none {w : Str} {hq : Bool} {out out' : List Str} (hC : S.C.dict.CondsParsed)
    (h : S.ngramPart .none w hq out = .ok out') : ∃ new, out' = out ++ new ∧
      ∀ t ∈ new, S.ngram = true ∧ Lookalike S.C w t := by
  unfold ngramPart at h
  split at h
  · rename_i hc
    simp only [Bool.and_eq_true] at hc
    rw [if_pos rfl] at h
    dsimp only at h
    rw [Run.bind_eq_ok] at h
    obtain ⟨o, ho, h⟩ := h
    rw [if_neg (by simp), Run.pure_eq_ok] at h
    subst h
    obtain ⟨new, h1, h2⟩ := C46_ngram_partial hC ho
    exact ⟨new, h1, fun t ht => ⟨hc.1.1, h2 t ht⟩⟩
  · simp only [Except.ok.injEq] at h
    exact ⟨[], by simp [h], by simp⟩

/-- The suggestions for a word in lower case. -/
theorem lower_ok {rec' : Str → List Str → Run (List Str)} {w : Str} {r : List Str}
    {rules : List (Str × Str)} (hR : ReplacementTable.from' rules = some S.C.aff.replacements)
    (hC : S.C.dict.CondsParsed)
    (hw : classifyCasing S.C.U w = .none) (hf : S.forceTitle fuel w = .ok false)
    (h : S.suggestConverted fuel rec' w [] = .ok r) :
    ∃ lo new dash, S.suggestLow fuel w [] = .ok lo ∧ (∀ t ∈ lo.2, Proposal S.C fuel w t) ∧
      (∀ t ∈ new, S.ngram = true ∧ Lookalike S.C w t) ∧
      (∀ t, t ∈ dash ↔ '-' ∈ w ∧ (∀ s ∈ lo.2 ++ new, '-' ∉ s) ∧
        DashFix S.C fuel (fun part s => ∃ found, rec' part [] = .ok found ∧ s ∈ found) w t) ∧
      r = (firsts [] (lo.2 ++ new ++ dash)).map S.C.aff.outputConversions.convert := by
  unfold suggestConverted at h
  rw [hw] at h
  dsimp only at h
  rw [hf] at h
  have h : (S.suggestLow fuel w [] >>= fun x => S.afterCasing fuel rec' .none w x) = .ok r := h
  rw [Run.bind_eq_ok] at h
  obtain ⟨lo, hlo, h⟩ := h
  obtain ⟨a, b, h1, h2, h3⟩ := afterCasing_ok h
  obtain ⟨nl, hl1, hl2⟩ := low_sound hR hlo
  rw [List.nil_append] at hl1
  obtain ⟨new, rfl, hn⟩ := ngramPart_none hC h1
  obtain ⟨dash, rfl, hd⟩ := dashes_ok h2
  obtain ⟨o1, o2, h4, h5, h6⟩ := finish_ok h3
  simp only [capitalise, retained, Except.ok.injEq, reduceCtorEq, or_self, if_false] at h4 h5
  subst h4 h5
  exact ⟨lo, new, dash, hlo, by rw [hl1]; exact hl2, hn, hd, h6⟩

end Suggester
end Spellbook
