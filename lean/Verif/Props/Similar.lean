import Verif.Proof.Similar
import Verif.Props.Suggest
/-!
# Suggestions by similarity, exactly (C60)
-/

namespace Spellbook.Props
open Spec

/-- **C60**: whatever the heaps and sorts do with equal scores, the suggestions by similarity are the choice
from the best forms of the best entries, by the scores of the specification. -/
theorem C60_exact {U : Unicode} {C : Checker} (hD : Reachable U C.dict) {H : Heaps} {w : Str} {out out' : List Str}
    (h : C.ngramSuggest H w out = .ok out') : ∃ new, out' = out ++ new ∧ BySimilarity C w out new :=
  Checker.ngramSuggest_similar (wellMade_reachable hD).condsParsed h

/-- The scores, measures and threshold on their own, for all texts. -/
theorem C60_measures (n : Nat) (a b : Str) :
    ngramSimilarity n a b = likeness n a b ∧ ngramLongerWorse n a b = (likeness n a b : Int) - longer a b ∧
    ngramAnyMismatch n a b = similarity n a b ∧ ngramAnyMismatchWeighted n a b = weighted n a b ∧
    Checker.ngramThreshold a = threshold a :=
  ⟨likeness_eq n a b, longerWorse_eq n a b, similarity_eq n a b, weighted_eq n a b, threshold_eq a⟩

/-- The score of an entry. -/
theorem C60_root_score {C : Checker} {w stem : Str} {n : Int} (h : C.rootScore w stem = .ok n) :
    RootScore C w stem n := Checker.rootScore_ok h

/-- The first score of a form. -/
theorem C60_form_score {C : Checker} {w form : Str} {n : Int} (h : C.guessScore w form = .ok n) :
    FormScore C w form n := Checker.guessScore_ok h

theorem commonPrefix_unique {a b : Str} {m n : Nat} (h : CommonPrefix a b m) (h' : CommonPrefix a b n) : m = n := by
  obtain ⟨⟨p, p1, p2, rfl⟩, hm⟩ := h
  obtain ⟨⟨q, q1, q2, rfl⟩, hn⟩ := h'
  have := hm q q1 q2
  have := hn p p1 p2
  omega

theorem commonStart_unique {C : Checker} {a b : Str} {m n : Nat} (h : CommonStart C a b m)
    (h' : CommonStart C a b n) : m = n := by
  rcases h with ⟨l, ls, r, rs, k, rfl, rfl, h1, h2, rfl⟩ | ⟨rfl, h⟩
  · rcases h' with ⟨l', ls', r', rs', k', e1, e2, h3, h4, rfl⟩ | ⟨rfl, h'⟩
    · rw [List.cons.injEq] at e1 e2
      obtain ⟨rfl, rfl⟩ := e1
      obtain ⟨rfl, rfl⟩ := e2
      rw [commonPrefix_unique h2 h4]
    · exact absurd h1 (h' _ _ _ _ rfl rfl)
  · rcases h' with ⟨l', ls', r', rs', k', e1, e2, h3, h4, rfl⟩ | ⟨rfl, h'⟩
    · exact absurd h3 (h _ _ _ _ e1 e2)
    · rfl

/-- Each score is determined by the word and the text. -/
theorem C60_scores_determined {C : Checker} {w t : Str} {m n : Int} :
    (RootScore C w t m → RootScore C w t n → m = n) ∧ (FormScore C w t m → FormScore C w t n → m = n) ∧
    (SecondScore C w t m → SecondScore C w t n → m = n) := by
  refine ⟨?_, ?_, ?_⟩
  · rintro ⟨k, h1, rfl⟩ ⟨k', h2, rfl⟩
    rw [commonStart_unique h1 h2]
  · rintro ⟨k, h1, rfl⟩ ⟨k', h2, rfl⟩
    rw [commonStart_unique h1 h2]
  · rintro ⟨a, b, c, d, e, h1, h2, h3, h4, h5, rfl⟩ ⟨a', b', c', d', e', k1, k2, k3, k4, k5, rfl⟩
    have e1 : a = a' := h1.unique k1
    have e2 : b = b' := commonStart_unique h2 k2
    have e3 : c = c' := by omega
    have e4 : d = d' := by
      rcases h4 with ⟨rfl, h4⟩ | ⟨rfl, h4⟩ <;> rcases k4 with ⟨rfl, k4⟩ | ⟨rfl, k4⟩ <;>
        first | rfl | exact absurd h4 k4 | exact absurd k4 h4
    have e5 : e = e' := by omega
    rw [e1, e2, e3, e4, e5]

theorem unrelated_sublist : ∀ (l old : List Str), (unrelated old l).Sublist l
  | [], _ => by simp [unrelated]
  | t :: l, old => by
    unfold unrelated
    split
    · exact (unrelated_sublist l old).trans (List.sublist_cons_self _ _)
    · exact (unrelated_sublist l _).cons_cons t

/-- **C60**: a suggestion which is not a good form (a score above 1000 if there is such a form, else -100 at
least) is the only suggestion by similarity, has the highest score below -100, and is not made under
ONLYMAXDIFF. -/
theorem C60_bad_alone {C : Checker} {old : List Str} {l : List (MinScored Str)} {t : Str}
    (ht : t ∈ chosen C old l) (hb : t ∉ goodForms l) :
    chosen C old l = [t] ∧ (badForms l).head? = some t ∧ C.opts.onlyMaxDiff = false := by
  have hc : ∃ n, chosen C old l = (allChosen C old l).take n := by
    unfold chosen
    split
    · exact ⟨(allChosen C old l).length, by simp⟩
    · exact ⟨_, rfl⟩
  obtain ⟨n, hn⟩ := hc
  have ht' : t ∈ allChosen C old l := List.mem_of_mem_take (hn ▸ ht)
  unfold allChosen at ht'
  split at ht'
  · rename_i h
    have hs := unrelated_sublist ((badForms l).take 1) old
    cases hbl : badForms l with
    | nil => rw [hbl] at ht'; simp [unrelated] at ht'
    | cons b bs =>
      rw [hbl] at ht' hs
      simp only [List.take_succ_cons, List.take_zero] at ht' hs
      obtain rfl : t = b := by simpa using hs.subset ht'
      have e : unrelated old [t] = [t] := by
        have := hs.length_le
        cases hu : unrelated old [t] with
        | nil => rw [hu] at ht'; simp at ht'
        | cons x xs =>
          rw [hu] at hs this ht'
          have : xs = [] := by simpa using this
          subst this
          rw [List.mem_singleton.1 ht']
      refine ⟨?_, rfl, h.2.2⟩
      rw [hn] at ht ⊢
      unfold allChosen at ht ⊢
      rw [if_pos h, hbl] at ht ⊢
      simp only [List.take_succ_cons, List.take_zero, e] at ht ⊢
      cases n with
      | zero => simp at ht
      | succ n => simp
  · exact absurd ((unrelated_sublist _ _).subset ht') hb

/-- A dictionary and a word for which a form of an entry is suggested. -/
example : ∃ C, loadChecker "SFX A Y 1\nSFX A y ies y\n" "2\nbody/A\nbar\n" = some C ∧ Reachable .sample C.dict ∧
    C.ngramSuggest .sample "boddyies".toList [] = .ok ["bodies".toList] := by
  obtain ⟨C, h1, h2⟩ := of_load (aff := "SFX A Y 1\nSFX A y ies y\n") (dic := "2\nbody/A\nbar\n") (L := .default)
    (p := fun C => decide (C.ngramSuggest .sample "boddyies".toList [] = .ok ["bodies".toList])) (by decide +kernel)
  exact ⟨C, h1, (loadChecker_reachable h1).1, of_decide_eq_true h2⟩

/-! Some values. -/

example : likeness 3 "adventure".toList "advance".toList = 9 := by decide +kernel
example : starred "abcdefgh".toList 1 = "a*cde*gh".toList := by decide
example : threshold "exmaple".toList = 10 := by decide +kernel
example : weighted 2 "abc".toList "abd".toList = 2 - 1 - 1 + 1 - 1 - 1 := by decide +kernel
example : similarity 4 "word".toList "ward".toList = 4 := by decide +kernel
example : unrelated ["ab".toList] ["cab".toList, "ba".toList, "bab".toList, "bb".toList] =
  ["ba".toList, "bb".toList] := by decide

/-- Five forms: a good one contains an earlier suggestion, one is taken, bad ones are not; if the good one
is missing, the best bad one is taken, unless ONLYMAXDIFF is set. -/
example (C : Checker) (h : C.opts.maxNgramSuggestions = 4) (h' : C.opts.onlyMaxDiff = false) :
    chosen C ["ab".toList] [⟨20, "cab".toList⟩, ⟨10, "ba".toList⟩, ⟨-900, "xy".toList⟩, ⟨-910, "xz".toList⟩] =
      ["ba".toList] ∧
    chosen C ["ab".toList] [⟨20, "cab".toList⟩, ⟨-900, "xy".toList⟩, ⟨-910, "xz".toList⟩] = ["xy".toList] := by
  have : min 4 (16 - (["ab".toList] : List Str).length) = 4 := by decide
  constructor
  · unfold chosen allChosen
    rw [if_neg (by decide), h, h', this, if_neg (by decide)]
    decide
  · unfold chosen allChosen
    rw [if_neg (by decide), h, h', this, if_pos ⟨by decide, by decide, rfl⟩]
    decide

end Spellbook.Props
