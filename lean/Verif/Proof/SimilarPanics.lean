import Verif.Proof.Similar
import Verif.Proof.Select
/-!
# When the search for similar words panics
-/

namespace Spellbook
open Spec Run

namespace Checker
variable {C : Checker} {H : Heaps}

theorem okThen {α β : Type} (a : α) (g : α → Run β) : ((.ok a : Run α) >>= g) = g a := rfl

theorem lcs_self (w : Str) : lcsLength w w = w.length := by
  obtain ⟨⟨s, h1, h2, h3⟩, h4⟩ := lcsLength_ok w w
  have := h4 w (List.Sublist.refl _) (List.Sublist.refl _)
  have := h1.length_le
  omega

theorem charsStr_cases (s : Str) : charsStr s = .ok s ∨ (charsStr s = .error .panic ∧ TooLong s) := by
  unfold charsStr TooLong
  split
  · exact .inl rfl
  · rename_i h
    exact .inr ⟨rfl, by have : (utf8 s).length = byteLen s := rfl; omega⟩

theorem never_not {α : Type} {e : Stop} {r : Run α} (h : r = .error e) (hn : Never e r) : False := hn h

theorem ngramRoots_panics {w : Str} (h : C.ngramRoots H w = .error .panic) :
    ∃ e, Listed C e ∧ (TooLong e.1 ∨ TooLong (lowerOf C e.1)) := by
  by_contra hn
  refine never_not h (Run.Never.foldlM _ fun rs e he => ?_)
  have he' : e ∈ C.dict.words.slots := (Bag.iter_perm C.L C.dict.words).mem_iff.mp he
  unfold offerRoot
  split
  · exact .ok _
  · rename_i hs
    have hl : Listed C e := by
      have := listed_filter (C := C) [e] (by simpa using he')
      have hs' : C.skipsForNgram e.2 = false := by simpa using hs
      by_contra hl
      simp [hs', hl] at this
    refine .bind ?_ fun _ => .pure _
    unfold rootScore
    rcases charsStr_cases e.1 with h1 | ⟨-, h1⟩
    · rw [h1]
      rcases charsStr_cases (C.lowercase e.1) with h2 | ⟨-, h2⟩
      · rw [okThen, h2]
        exact .pure _
      · exact absurd ⟨e, hl, .inr h2⟩ hn
    · exact absurd ⟨e, hl, .inl h1⟩ hn

theorem ngramGuesses_panics (hC : C.dict.CondsParsed) {w : Str} {roots : List (MinScored (Str × FlagSet))}
    (h : C.ngramGuesses H w roots = .error .panic) : ∃ r ∈ roots,
      (∃ s p mid mid', Candidate C.dict .sfx w r.inner.2 s ∧ CondHolds .sfx s r.inner.1 ∧ Applies .sfx s r.inner.1 mid ∧
        s.crossproduct = true ∧ Candidate C.dict .pfx w r.inner.2 p ∧ CondHolds .pfx p mid ∧ Applies .pfx p mid mid' ∧
        ¬ ∃ form, Applies .pfx p r.inner.1 form) ∨
      ∃ t, Expansion C.dict w r.inner.1 r.inner.2 t ∧ TooLong t := by
  by_contra hn
  refine never_not h (Run.Never.foldlM _ fun gs r hr => ?_)
  have : ∃ fs, C.expandStem r.inner.1 r.inner.2 w = .ok fs := by
    rw [expandStem_ok_iff hC]
    intro s p mid mid' h1 h2 h3 h4 h5 h6 h7
    by_contra h8
    exact hn ⟨r, hr, .inl ⟨s, p, mid, mid', h1, h2, h3, h4, h5, h6, h7, h8⟩⟩
  obtain ⟨fs, hf⟩ := this
  rw [hf, okThen]
  refine Run.Never.foldlM _ fun gs t ht => ?_
  unfold offerGuess guessScore
  rcases charsStr_cases t with h1 | ⟨-, h1⟩
  · rw [h1]
    refine .bind (.pure _) fun _ => ?_
    split
    · exact .pure _
    · exact .pure _
  · exact absurd ⟨r, hr, .inr ⟨t, (mem_expandStem hC hf t).1 ht, h1⟩⟩ hn

theorem rescore_panics {w : Str} : ∀ {gs : List (MinScored Str)}, C.rescore w gs = .error .panic →
    ∃ before g after, gs = before ++ g :: after ∧ (∀ x ∈ before, lowerOf C x.inner ≠ w) ∧
      (TooLong (lowerOf C g.inner) ∨ (lowerOf C g.inner ≠ w ∧ 10 < C.opts.maxDiffFactor))
  | [], h => by simp [rescore] at h
  | g :: gs, h => by
    unfold rescore at h
    rcases charsStr_cases (C.lowercase g.inner) with h1 | ⟨-, h1⟩
    · rw [h1, okThen] at h
      dsimp only at h
      split at h
      · cases h
      · rename_i hne
        have hw : lowerOf C g.inner ≠ w := by
          intro e
          refine hne ?_
          have e' : C.lowercase g.inner = w := e
          rw [e']
          exact ⟨rfl, (lcs_self w).symm⟩
        by_cases hd : 10 < C.opts.maxDiffFactor
        · exact ⟨[], g, gs, rfl, by simp, .inr ⟨hw, hd⟩⟩
        · have : ∃ n, C.newScore w (C.lowercase g.inner) (lcsLength w (C.lowercase g.inner)) = .ok n := by
            unfold newScore
            dsimp only
            rw [if_neg hd]
            exact ⟨_, rfl⟩
          obtain ⟨n, hn⟩ := this
          rw [hn, okThen] at h
          cases hr : C.rescore w gs with
          | ok gs' =>
            rw [hr] at h
            cases h
          | error e =>
            rw [hr] at h
            cases h
            obtain ⟨b, g', a, rfl, h2, h3⟩ := rescore_panics hr
            refine ⟨g :: b, g', a, rfl, ?_, h3⟩
            simp only [List.mem_cons, forall_eq_or_imp]
            exact ⟨hw, h2⟩
    · exact ⟨[], g, gs, rfl, by simp, .inl h1⟩

theorem ngramSuggest_panics (hC : C.dict.CondsParsed) {w : Str} {out : List Str}
    (h : C.ngramSuggest H w out = .error .panic) : SimilarityPanics C w := by
  unfold ngramSuggest at h
  rcases charsStr_cases w with h1 | ⟨-, h1⟩
  swap
  · exact .word h1
  rw [h1, okThen] at h
  cases hr : C.ngramRoots H w with
  | error e =>
    rw [hr] at h
    cases h
    obtain ⟨e, he, hl⟩ := ngramRoots_panics hr
    exact .stem he hl
  | ok roots =>
    rw [hr, okThen] at h
    have hroots : BestRoots C w roots := by
      obtain ⟨entries, r1, r2, r3⟩ := roots_foldlM (bestOf_nil 100) hr
      refine ⟨entries, ?_, fun x hx => rootScore_ok (r2 x hx), by simpa using r3⟩
      rw [r1]
      refine ((Bag.iter_perm C.L C.dict.words).filter _).trans (.of_eq ?_)
      exact listed_filter _ fun _ h => h
    cases hg : C.ngramGuesses H w roots with
    | error e =>
      rw [hg] at h
      cases h
      obtain ⟨r, hr, ⟨s, p, mid, mid', a1, a2, a3, a4, a5, a6, a7, a8⟩ | ⟨t, h2, h3⟩⟩ := ngramGuesses_panics hC hg
      · exact .cross hroots hr a1 a2 a3 a4 a5 a6 a7 a8
      · exact .form hroots hr h2 h3
    | ok guesses =>
      rw [hg, okThen] at h
      obtain ⟨forms, scored, g1, g2, g3, g4⟩ := guesses_foldlM (bestOf_nil 200) hg
      have hforms : BestForms C w roots (H.sort guesses) :=
        ⟨forms, scored, guesses, g1.imp fun _ _ h => expandStem_forms hC h, g2, fun x hx => guessScore_ok (g3 x hx),
          by rw [threshold_eq] at g4; simpa using g4, H.sort_perm _, H.sort_sorted _⟩
      cases hs : C.rescore w (H.sort guesses) with
      | ok gs =>
        rw [hs] at h
        cases h
      | error e =>
        rw [hs] at h
        cases h
        obtain ⟨b, g, a, e, h2, h3⟩ := rescore_panics hs
        rw [e] at hforms
        exact .score hroots hforms h2 h3

theorem foldlM_all {α β : Type} {f : β → α → Run β} : ∀ {l : List α} {b r : β}, l.foldlM f b = .ok r →
    ∀ a ∈ l, ∃ b' r', f b' a = .ok r'
  | [], _, _, _, a, ha => by simp at ha
  | x :: l, b, r, h, a, ha => by
    rw [List.foldlM_cons, Run.bind_eq_ok] at h
    obtain ⟨b', h1, h2⟩ := h
    rcases List.mem_cons.1 ha with rfl | ha
    · exact ⟨b, b', h1⟩
    · exact foldlM_all h2 a ha

theorem charsStr_short {s t : Str} (h : charsStr s = .ok t) : ¬ TooLong s := by
  unfold charsStr at h
  unfold TooLong
  split at h
  · have : (utf8 s).length = byteLen s := rfl
    omega
  · cases h

theorem ngramSuggest_short {w : Str} {out r : List Str} (h : C.ngramSuggest H w out = .ok r) :
    ¬ TooLong w ∧ ∀ e, Listed C e → ¬ TooLong e.1 ∧ ¬ TooLong (lowerOf C e.1) := by
  unfold ngramSuggest at h
  rw [Run.bind_eq_ok] at h
  obtain ⟨w', hw, h⟩ := h
  refine ⟨charsStr_short hw, fun e he => ?_⟩
  rw [Run.bind_eq_ok] at h
  obtain ⟨roots, hr, -⟩ := h
  have hm : e ∈ C.dict.words.iter C.L := (Bag.iter_perm C.L C.dict.words).mem_iff.mpr he.1
  obtain ⟨b, r', h⟩ := foldlM_all hr e hm
  unfold offerRoot at h
  have hs : C.skipsForNgram e.2 = false := by
    have := listed_filter (C := C) [e] (by simpa using he.1)
    by_contra hs
    simp [hs, he] at this
  rw [hs, if_neg (by simp), Run.bind_eq_ok] at h
  obtain ⟨n, h, -⟩ := h
  unfold rootScore at h
  rw [Run.bind_eq_ok] at h
  obtain ⟨s, hs, h⟩ := h
  obtain rfl := charsStr_eq hs
  dsimp only at h
  rw [Run.bind_eq_ok] at h
  obtain ⟨l, hl, -⟩ := h
  exact ⟨charsStr_short hs, charsStr_short hl⟩

end Checker
end Spellbook
