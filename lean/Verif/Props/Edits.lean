import Verif.Proof.Edits
/-!
# The edits of the suggester (C41)

Every theorem says which texts a method of `src/suggester.rs` passes to the word lookup, in terms of
ways to cut the word into pieces. `e.run w n` are the texts which the method tries on the word `w`
with a limit of `n` attempts; `none` would stand for a panic or for a buffer which is not valid UTF-8.
-/

namespace Spellbook.Props
open Spec
open scoped Edit

/-! ## Changes of bytes -/

/-- C41: swapping two neighbours byte by byte is swapping the characters; the result is valid
UTF-8, and the second character now stands at the index which is returned. -/
theorem C41_swap_adjacent (a b : Str) (c d : Char) :
    swapAdjacent? (a ++ c :: d :: b) (byteLen a) c d
      = some (a ++ d :: c :: b, byteLen (a ++ [d])) := by
  rw [swapAdjacent?_eq]; simp

/-- C41: the same for two characters at a distance, of any widths. -/
theorem C41_swap_distant (a m b : Str) (c d : Char) :
    swapDistant? (a ++ c :: (m ++ d :: b)) (byteLen a) c (byteLen (a ++ c :: m)) d
      = some (a ++ d :: (m ++ c :: b), byteLen (a ++ d :: m)) := by
  have := swapDistant?_eq a m b c d
  simpa [Nat.add_assoc] using this

/-- C41: the same for the replacement of a character. -/
theorem C41_replace_char (a b : Str) (c d : Char) :
    replaceCharAt? (a ++ c :: b) (byteLen a) c d = some (a ++ d :: b) :=
  replaceCharAt?_eq a b c d

/-- An example with characters of one, two, three and four bytes. -/
example : swapDistant? "aé€🦀z".toList 1 'é' 6 '🦀' = some ("a🦀€éz".toList, 8) := by decide +kernel

/-! ## The methods -/

/-- C41: the texts with two neighbouring characters swapped, and, for words of four or five
characters, the texts with two pairs of neighbours swapped. -/
theorem C41_adjacent_swap (w : Str) (n : Nat) :
    (adjacentSwapEdits w).run w n = some (neighboursSwapped w ++ pairsSwapped w) ∧ ∀ t, t ∈ (neighboursSwapped w ++ pairsSwapped w) ↔
      (∃ a x y b, w = a ++ x :: y :: b ∧ t = a ++ y :: x :: b) ∨
      (∃ a b c d, w = [a, b, c, d] ∧ t = [b, a, d, c]) ∨
      (∃ a b c d e, w = [a, b, c, d, e] ∧ (t = [b, a, c, e, d] ∨ t = [a, c, b, e, d])) := by
  refine ⟨(adjacentSwap_free w).run n, fun t => ?_⟩
  rw [List.mem_append]
  refine or_congr ?_ ?_
  · simp only [neighboursSwapped, List.mem_map, Prod.exists]
    constructor
    · rintro ⟨a, x, y, b, h, rfl⟩; exact ⟨a, x, y, b, mem_pairs.1 h, rfl⟩
    · rintro ⟨a, x, y, b, h, rfl⟩; exact ⟨a, x, y, b, mem_pairs.2 h, rfl⟩
  · match w with
    | [] => simp [pairsSwapped]
    | [_] => simp [pairsSwapped]
    | [_, _] => simp [pairsSwapped]
    | [_, _, _] => simp [pairsSwapped]
    | [a, b, c, d] =>
      simp only [pairsSwapped, List.mem_singleton]
      constructor
      · rintro rfl; exact .inl ⟨a, b, c, d, rfl, rfl⟩
      · rintro (⟨_, _, _, _, h, rfl⟩ | ⟨_, _, _, _, _, h, _⟩)
        · simp only [List.cons.injEq, and_true] at h
          obtain ⟨rfl, rfl, rfl, rfl⟩ := h; rfl
        · simp at h
    | [a, b, c, d, e] =>
      simp only [pairsSwapped, List.mem_cons, List.not_mem_nil, or_false]
      constructor
      · intro h; exact .inr ⟨a, b, c, d, e, rfl, h⟩
      · rintro (⟨_, _, _, _, h, rfl⟩ | ⟨_, _, _, _, _, h, h2⟩)
        · simp at h
        · simp only [List.cons.injEq, and_true] at h
          obtain ⟨rfl, rfl, rfl, rfl, rfl⟩ := h; exact h2
    | _ :: _ :: _ :: _ :: _ :: _ :: _ => simp [pairsSwapped]

example : (adjacentSwapEdits "ahev".toList).run "ahev".toList 0
    = some (["haev", "aehv", "ahve", "have"].map String.toList) := by decide +kernel

/-- C41: the first `n` of the texts with any two characters swapped. -/
theorem C41_distant_swap (w : Str) (n : Nat) :
    (distantSwapEdits w).run w n = some ((swapped w).take n) ∧ ∀ t, t ∈ (swapped w) ↔
      ∃ a x m y b, w = a ++ x :: (m ++ y :: b) ∧ t = a ++ y :: (m ++ x :: b) := by
  refine ⟨(distantSwap_budgeted w).run n, fun t => ?_⟩
  simp only [swapped, List.mem_flatMap, List.mem_map, Prod.exists]
  constructor
  · rintro ⟨a, x, r, h, m, y, b, h2, rfl⟩
    have := mem_splits.1 h2
    subst this
    exact ⟨a, x, m, y, b, mem_splits.1 h, rfl⟩
  · rintro ⟨a, x, m, y, b, h, rfl⟩
    exact ⟨a, x, m ++ y :: b, mem_splits.2 h, m, y, b, mem_splits.2 rfl, rfl⟩

example : (distantSwapEdits "wrold".toList).run "wrold".toList 3
    = some (["rwold", "orwld", "lrowd"].map String.toList) := by decide +kernel

/-- A character and a key beside it on the keyboard. -/
theorem mem_keysBeside {kb : Str} {c k : Char} :
    k ∈ keysBeside kb c ↔ k ≠ '|' ∧ ([k, c] <:+: kb ∨ [c, k] <:+: kb) := by
  simp only [keysBeside, List.mem_flatMap, List.mem_filter, Prod.exists, List.mem_append,
    Option.mem_toList, Option.filter_eq_some_iff, decide_eq_true_eq]
  constructor
  · rintro ⟨p, d, q, ⟨h, rfl⟩, ⟨h1, h2⟩ | ⟨h1, h2⟩⟩
    · refine ⟨h2, .inl ?_⟩
      obtain ⟨p', rfl⟩ := List.getLast?_eq_some_iff.1 h1
      exact ⟨p', q, by rw [mem_splits.1 h]; simp⟩
    · refine ⟨h2, .inr ?_⟩
      cases q with
      | nil => simp at h1
      | cons e q =>
        simp only [List.head?_cons, Option.some.injEq] at h1
        subst h1
        exact ⟨p, q, by rw [mem_splits.1 h]; simp⟩
  · rintro ⟨hk, ⟨p, q, h⟩ | ⟨p, q, h⟩⟩
    · exact ⟨p ++ [k], c, q, ⟨mem_splits.2 (by rw [← h]; simp), rfl⟩, .inl ⟨by simp, hk⟩⟩
    · exact ⟨p, c, k :: q, ⟨mem_splits.2 (by rw [← h]; simp), rfl⟩, .inr ⟨by simp, hk⟩⟩

/-- C41: the texts with one character upper-cased, where this changes it, or replaced by a key beside
it in a row of the keyboard. -/
theorem C41_keyboard (U : Unicode) (kb w : Str) (n : Nat) :
    (keyboardEdits U kb w).run w n = some (mistyped U kb w) ∧ ∀ t, t ∈ (mistyped U kb w) ↔
      ∃ a c b, w = a ++ c :: b ∧
        ((U.upper c ≠ [c] ∧ t = a ++ (U.upper c ++ b)) ∨
         (∃ k, k ≠ '|' ∧ ([k, c] <:+: kb ∨ [c, k] <:+: kb) ∧ t = a ++ k :: b)) := by
  refine ⟨(keyboard_free U kb w).run n, fun t => ?_⟩
  simp only [mistyped, List.mem_flatMap, Prod.exists, List.mem_append, List.mem_map, mem_keysBeside]
  constructor
  · rintro ⟨a, c, b, h, h2⟩
    refine ⟨a, c, b, mem_splits.1 h, ?_⟩
    rcases h2 with h2 | ⟨k, ⟨h3, h4⟩, rfl⟩
    · left
      by_cases hu : U.upper c ≠ [c]
      · rw [if_pos hu] at h2; exact ⟨hu, by simpa using h2⟩
      · rw [if_neg hu] at h2; simp at h2
    · exact .inr ⟨k, h3, h4, rfl⟩
  · rintro ⟨a, c, b, h, h2⟩
    refine ⟨a, c, b, mem_splits.2 h, ?_⟩
    rcases h2 with ⟨hu, rfl⟩ | ⟨k, h3, h4, rfl⟩
    · left; rw [if_pos hu]; simp
    · exact .inr ⟨k, ⟨h3, h4⟩, rfl⟩

example : (keyboardEdits Unicode.sample "qwe|asd".toList "wa".toList).run "wa".toList 0
    = some (["Wa", "qa", "ea", "wA", "ws"].map String.toList) := by decide +kernel

/-- C41: the texts with one character dropped. -/
theorem C41_extra_char (w : Str) (n : Nat) :
    (extraCharEdits w).run w n = some (dropped w) ∧ ∀ t, t ∈ (dropped w) ↔ ∃ a c b, w = a ++ c :: b ∧ t = a ++ b := by
  refine ⟨extraChar_run w n, fun t => ?_⟩
  simp only [dropped, List.mem_map, Prod.exists]
  constructor
  · rintro ⟨a, c, b, h, rfl⟩; exact ⟨a, c, b, mem_splits.1 h, rfl⟩
  · rintro ⟨a, c, b, h, rfl⟩; exact ⟨a, c, b, mem_splits.2 h, rfl⟩

example : (extraCharEdits "abé".toList).run "abé".toList 0
    = some (["bé", "aé", "ab"].map String.toList) := by decide +kernel

/-- C41: the first `n` of the texts with a character of the TRY alphabet inserted anywhere. -/
theorem C41_forgotten_char (alphabet w : Str) (n : Nat) :
    (forgottenCharEdits alphabet w).run w n = some ((inserted alphabet w).take n) ∧ ∀ t, t ∈ (inserted alphabet w) ↔
      ∃ c ∈ alphabet, ∃ a b, w = a ++ b ∧ t = a ++ c :: b := by
  refine ⟨(forgottenChar_budgeted alphabet w).run n, fun t => ?_⟩
  simp only [inserted, List.mem_flatMap, List.mem_map, Prod.exists]
  constructor
  · rintro ⟨c, hc, a, b, h, rfl⟩; exact ⟨c, hc, a, b, mem_cuts.1 h, rfl⟩
  · rintro ⟨c, hc, a, b, h, rfl⟩; exact ⟨c, hc, a, b, mem_cuts.2 h, rfl⟩

example : (forgottenCharEdits "xé".toList "ab".toList).run "ab".toList 5
    = some (["xab", "axb", "abx", "éab", "aéb"].map String.toList) := by decide +kernel

/-- C41: the first `n` of the texts with one character moved over two or more others, to the right
or to the left. -/
theorem C41_move_char (w : Str) (n : Nat) :
    (moveCharEdits w).run w n = some ((movedRight w ++ movedLeft w).take n) ∧ ∀ t, t ∈ (movedRight w ++ movedLeft w) ↔
      ∃ a x m b, 2 ≤ m.length ∧
        ((w = a ++ x :: (m ++ b) ∧ t = a ++ (m ++ x :: b)) ∨
         (w = a ++ (m ++ x :: b) ∧ t = a ++ x :: (m ++ b))) := by
  refine ⟨(moveChar_budgeted w).run n, fun t => ?_⟩
  simp only [List.mem_append, movedRight, movedLeft, List.mem_flatMap, List.mem_map, Prod.exists,
    List.mem_reverse]
  constructor
  · rintro (⟨a, x, y, r, h, m, c, b, h2, rfl⟩ | ⟨p, y, x, b, h, a, c, m, h2, rfl⟩)
    · refine ⟨a, x, y :: (m ++ [c]), b, by simp, .inl ⟨?_, by simp⟩⟩
      rw [mem_pairs.1 h, mem_splits.1 h2]; simp
    · refine ⟨a, x, c :: (m ++ [y]), b, by simp, .inr ⟨?_, by simp⟩⟩
      rw [mem_pairs.1 h, mem_splits.1 h2]; simp
  · rintro ⟨a, x, m, b, hm, ⟨hw, rfl⟩ | ⟨hw, rfl⟩⟩
    · left
      match m, hm with
      | y :: z :: m, _ =>
        obtain ⟨m', c, hc⟩ : ∃ m' c, z :: m = m' ++ [c] :=
          ⟨(z :: m).dropLast, (z :: m).getLast (by simp), (List.dropLast_concat_getLast _).symm⟩
        rw [hc] at hw ⊢
        exact ⟨a, x, y, m' ++ c :: b, mem_pairs.2 (by rw [hw]; simp), m', c, b, mem_splits.2 rfl, by simp⟩
    · right
      match m, hm with
      | c :: z :: m, _ =>
        obtain ⟨m', y, hy⟩ : ∃ m' y, z :: m = m' ++ [y] :=
          ⟨(z :: m).dropLast, (z :: m).getLast (by simp), (List.dropLast_concat_getLast _).symm⟩
        rw [hy] at hw ⊢
        exact ⟨a ++ c :: m', y, x, b, mem_pairs.2 (by rw [hw]; simp), a, c, m', mem_splits.2 rfl, by simp⟩

example : (moveCharEdits "éabc".toList).run "éabc".toList 100
    = some (["abéc", "abcé", "ébca", "écab", "céab", "béac"].map String.toList) := by decide +kernel

/-- C41: the first `n` of the texts with one character replaced by another one of the TRY
alphabet. -/
theorem C41_wrong_char (alphabet w : Str) (n : Nat) :
    (wrongCharEdits alphabet w).run w n = some ((replaced alphabet w).take n) ∧ ∀ t, t ∈ (replaced alphabet w) ↔
      ∃ c ∈ alphabet, ∃ a d b, w = a ++ d :: b ∧ c ≠ d ∧ t = a ++ c :: b := by
  refine ⟨(wrongChar_budgeted alphabet w).run n, fun t => ?_⟩
  simp only [replaced, List.mem_flatMap, List.mem_map, List.mem_filter, Prod.exists, decide_eq_true_eq]
  constructor
  · rintro ⟨c, hc, a, d, b, ⟨h, hd⟩, rfl⟩; exact ⟨c, hc, a, d, b, mem_splits.1 h, hd, rfl⟩
  · rintro ⟨c, hc, a, d, b, h, hd, rfl⟩; exact ⟨c, hc, a, d, b, ⟨mem_splits.2 h, hd⟩, rfl⟩

example : (wrongCharEdits "aé".toList "ab".toList).run "ab".toList 9
    = some (["aa", "éb", "aé"].map String.toList) := by decide +kernel

/-- C41, the part that holds for `doubled_two_chars_suggest`: the texts with the last two characters
of a pattern `xyxyx` dropped, where the pattern is *not at the end of the word*. What is missing:
patterns at the end of the word, see `C41_doubled_chars_negation`. -/
theorem C41_doubled_chars_partial (w : Str) (n : Nat) :
    (doubledCharsEdits w).run w n = some (undoubled w) ∧ ∀ t, t ∈ (undoubled w) ↔
      ∃ a x y b, w = a ++ ([x, y, x, y, x] ++ b) ∧ b ≠ [] ∧ t = a ++ ([x, y, x] ++ b) := by
  refine ⟨doubled_run w n, fun t => ?_⟩
  simp only [undoubled, List.mem_flatMap, Prod.exists]
  constructor
  · rintro ⟨a, x, r, h, h2⟩
    have hw := mem_splits.1 h
    match r, h2 with
    | y :: x2 :: y2 :: x3 :: z :: b, h2 =>
      dsimp only at h2
      by_cases hc : x = x2 ∧ y = y2 ∧ x = x3
      · rw [if_pos hc] at h2
        obtain ⟨rfl, rfl, rfl⟩ := hc
        exact ⟨a, x, y, z :: b, by simp [hw], by simp, by simpa using h2⟩
      · rw [if_neg hc] at h2; simp at h2
    | [], h2 => simp at h2
    | [_], h2 => simp at h2
    | [_, _], h2 => simp at h2
    | [_, _, _], h2 => simp at h2
    | [_, _, _, _], h2 => simp at h2
  · rintro ⟨a, x, y, b, hw, hb, rfl⟩
    cases b with
    | nil => exact absurd rfl hb
    | cons z b => exact ⟨a, x, y :: x :: y :: x :: z :: b, mem_splits.2 (by simpa using hw), by simp⟩

example : (doubledCharsEdits "vacacation".toList).run "vacacation".toList 0
    = some ["vacation".toList] := by decide +kernel

/-- C41 is false for `doubled_two_chars_suggest` at the end of a word: the loop (889) looks at the
window only when there is a next character, so of the pattern `anana` in "bananana" the last
occurrence is not seen, and nothing is tried for "banana". -/
theorem C41_doubled_chars_negation :
    ¬ ∀ (w : Str) (n : Nat) (L : List Str), (doubledCharsEdits w).run w n = some L →
      ∀ a x y b, w = a ++ ([x, y, x, y, x] ++ b) → a ++ ([x, y, x] ++ b) ∈ L := by
  intro h
  have := h "banana".toList 0 [] (by decide +kernel) ['b'] 'a' 'n' [] (by decide)
  simp at this

/-- C41: after every method which reuses its buffer, the buffer is the word again, unless the method
was ended by its limit. -/
theorem C41_buffer (U : Unicode) (kb alphabet w : Str) :
    ∀ e ∈ [adjacentSwapEdits w, distantSwapEdits w, keyboardEdits U kb w,
      forgottenCharEdits alphabet w, moveCharEdits w, wrongCharEdits alphabet w],
    ∀ n L p, e { buf := w, left := n } = some (L, some p) → p.buf = w := by
  have free : ∀ {L e}, Free w L e → ∀ n M p, e { buf := w, left := n } = some (M, some p) → p.buf = w := by
    intro L e h n M p he
    rw [h n] at he
    simp only [Option.some.injEq, Prod.mk.injEq] at he
    rw [← he.2]
  have budgeted : ∀ {L e}, Budgeted w L e →
      ∀ n M p, e { buf := w, left := n } = some (M, some p) → p.buf = w := by
    intro L e h n M p he
    rw [h n] at he
    by_cases hl : L.length ≤ n
    · rw [if_pos hl] at he
      simp only [Option.some.injEq, Prod.mk.injEq] at he
      rw [← he.2]
    · rw [if_neg hl] at he; simp at he
  intro e he
  simp only [List.mem_cons, List.not_mem_nil, or_false] at he
  rcases he with rfl | rfl | rfl | rfl | rfl | rfl
  · exact free (adjacentSwap_free w)
  · exact budgeted (distantSwap_budgeted w)
  · exact free (keyboard_free U kb w)
  · exact budgeted (forgottenChar_budgeted alphabet w)
  · exact budgeted (moveChar_budgeted w)
  · exact budgeted (wrongChar_budgeted alphabet w)

/-! ## REP and MAP -/

/-- C41: the positions of the matches of a text: each is an occurrence, they do not overlap, and every
occurrence begins within a listed one. -/
theorem C41_match_indices (w pat : Str) (hp : pat ≠ []) :
    (∀ i ∈ matchIndices w pat, pat <+: w.drop i) ∧
    (matchIndices w pat).Pairwise (fun i j => i + pat.length ≤ j) ∧
    ∀ i, pat <+: w.drop i → ∃ j ∈ matchIndices w pat, j ≤ i ∧ i < j + pat.length :=
  ⟨fun _ hi => (matchIndices_sound hi).2, matchIndicesFrom_apart hp _ _ _,
    fun i h => matchIndicesFrom_cover hp w 0 0 i (by omega) (by simpa using h)⟩

example : matchIndices "ababa".toList "aba".toList = [0] := by decide +kernel

/-- C41: the texts of REP: the replacement of the whole word, of its start, of its end, and of one
match anywhere. -/
theorem C41_rep (R : ReplacementTable) (w : Str) (n : Nat) {rules : List (Str × Str)}
    (hR : ReplacementTable.from' rules = some R) :
    (repEdits R w).run w n = some (reworded R.whole R.start R.stop R.anywhere w) ∧ ∀ t, t ∈ (reworded R.whole R.start R.stop R.anywhere w) ↔
      (w, t) ∈ R.whole ∨
      (∃ f r b, (f, r) ∈ R.start ∧ w = f ++ b ∧ t = r ++ b) ∨
      (∃ f r a, (f, r) ∈ R.stop ∧ w = a ++ f ∧ t = a ++ r) ∨
      (∃ f r a b, (f, r) ∈ R.anywhere ∧ w = a ++ (f ++ b) ∧ a.length ∈ matchIndices w f ∧
        t = a ++ (r ++ b)) := by
  obtain ⟨h1, h2⟩ : R.wholeLast ≤ R.startLast ∧ R.startLast ≤ R.endLast := by
    unfold ReplacementTable.from' at hR
    simp only [Option.bind_eq_bind, Option.bind_eq_some_iff, Option.pure_def, Option.some.injEq] at hR
    obtain ⟨acc, _, rfl⟩ := hR
    simp
  refine ⟨rep_run w h1 h2 n, fun t => ?_⟩
  simp only [reworded, List.mem_append, List.mem_map, List.mem_flatMap, List.mem_filter, Prod.exists,
    decide_eq_true_eq, or_assoc]
  refine or_congr ?_ (or_congr ?_ (or_congr ?_ ?_))
  · constructor
    · rintro ⟨a, b, ⟨h, rfl⟩, rfl⟩; exact h
    · intro h; exact ⟨w, t, ⟨h, rfl⟩, rfl⟩
  · constructor
    · rintro ⟨f, r, h, ht⟩
      by_cases hf : f <+: w
      · rw [if_pos hf] at ht
        obtain ⟨b, rfl⟩ := hf
        exact ⟨f, r, b, h, rfl, by simpa using ht⟩
      · rw [if_neg hf] at ht; simp at ht
    · rintro ⟨f, r, b, h, rfl, rfl⟩
      refine ⟨f, r, h, ?_⟩
      rw [if_pos (List.prefix_append f b)]; simp
  · constructor
    · rintro ⟨f, r, h, ht⟩
      by_cases hf : f <:+ w
      · rw [if_pos hf] at ht
        obtain ⟨a, rfl⟩ := hf
        exact ⟨f, r, a, h, rfl, by simpa using ht⟩
      · rw [if_neg hf] at ht; simp at ht
    · rintro ⟨f, r, a, h, rfl, rfl⟩
      refine ⟨f, r, h, ?_⟩
      rw [if_pos (List.suffix_append a f)]; simp
  · constructor
    · rintro ⟨f, r, h, i, hi, rfl⟩
      obtain ⟨hl, b, hb⟩ := matchIndices_sound hi
      have hd : w.drop (i + f.length) = b := by rw [← List.drop_drop, ← hb, List.drop_left]
      refine ⟨f, r, w.take i, b, h, by rw [hb, List.take_append_drop], ?_, by rw [hd]⟩
      rw [List.length_take, Nat.min_eq_left hl]; exact hi
    · rintro ⟨f, r, a, b, h, hw, hi, rfl⟩
      refine ⟨f, r, h, a.length, hi, ?_⟩
      have e1 : w.take a.length = a := by rw [hw, List.take_left]
      have e2 : w.drop (a.length + f.length) = b := by
        rw [hw, ← List.drop_drop, List.drop_left, List.drop_left]
      rw [e1, e2]

/-- The texts of REP for a table with a rule of each kind. -/
example : (ReplacementTable.from' (["^alot$", "^ph", "shun$", "ff"].zipWith
      (fun a b => (a.toList, b.toList)) ["a lot", "f", "tion", "f"])).bind (fun R =>
        (repEdits R "phoffashun".toList).run "phoffashun".toList 0)
      = some (["foffashun", "phoffation", "phofashun"].map String.toList) := by decide +kernel

/-- C41: the texts of MAP are first `n` texts of a list whose members are the word with pieces
replaced by similar ones, from left to right. -/
theorem C41_map (sims : List SimilarityGroup) (w : Str) (n : Nat) :
    mapTexts sims w n = some ((similarTexts sims (n + 1) w).take n) ∧ ∀ t ∈ (similarTexts sims (n + 1) w), Similar sims w t := by
  refine ⟨mapTexts_eq sims w n, ?_⟩
  generalize n + 1 = m
  clear n
  induction m generalizing w with
  | zero => simp [similarTexts]
  | succ m ih =>
    intro t ht
    simp only [similarTexts, List.mem_flatMap, Prod.exists] at ht
    obtain ⟨a, c, b, hs, g, hg, ht⟩ := ht
    have hw := mem_splits.1 hs
    have put : ∀ {a p q r : Str}, w = a ++ (p ++ r) → p ∈ members g → q ∈ members g →
        t ∈ (a ++ (q ++ r)) :: (similarTexts sims m r).map (fun t => a ++ (q ++ t)) →
        Similar sims w t := by
      intro a p q r hw hp hq ht
      rw [List.mem_cons, List.mem_map] at ht
      rcases ht with rfl | ⟨t', ht', rfl⟩
      · rw [hw]; exact .last hg hp hq
      · rw [hw]; exact .more hg hp hq (ih r _ ht')
    by_cases hc : c ∈ g.chars
    · rw [if_pos hc, List.mem_append, List.mem_flatMap, List.mem_flatMap] at ht
      rcases ht with ⟨d, hd, ht⟩ | ⟨s, hs, ht⟩
      · by_cases hdc : d = c
        · rw [if_pos hdc] at ht; simp at ht
        · rw [if_neg hdc] at ht
          exact put (p := [c]) (by simpa using hw) (by simp [members, hc]) (by simp [members, hd]) ht
      · exact put (p := [c]) (by simpa using hw) (by simp [members, hc]) (by simp [members, hs]) ht
    · rw [if_neg hc, List.mem_flatMap] at ht
      obtain ⟨⟨str, k⟩, hk, ht⟩ := ht
      have hstr : str ∈ g.strings := List.fst_mem_of_mem_zipIdx hk
      dsimp only at ht
      cases hf : firstOccurrence str (c :: b) with
      | none => rw [hf] at ht; simp at ht
      | some mr =>
        obtain ⟨x, r⟩ := mr
        rw [hf] at ht
        have hcb : c :: b = x ++ (str ++ r) := splitOnce?_append (by rw [splitOnce?_first]; exact hf)
        have hw2 : w = (a ++ x) ++ (str ++ r) := by rw [hw, hcb]; simp
        dsimp only at ht
        rw [List.mem_append, List.mem_flatMap, List.mem_flatMap] at ht
        rcases ht with ⟨d, hd, ht⟩ | ⟨⟨s, k'⟩, hs, ht⟩
        · exact put hw2 (by simp [members, hstr]) (by simp [members, hd]) ht
        · have hs' : s ∈ g.strings := List.fst_mem_of_mem_zipIdx hs
          dsimp only at ht
          by_cases hkk : k' = k
          · rw [if_pos hkk] at ht; simp at ht
          · rw [if_neg hkk] at ht
            exact put hw2 (by simp [members, hstr]) (by simp [members, hs']) ht

example : mapTexts [{ chars := "sß".toList, strings := ["ss".toList] }] "mass".toList 6
    = some (["mas", "maß", "mas", "maß", "maßs", "maßß"].map String.toList) := by decide +kernel

/-- C41: when the groups of MAP have characters only and attempts are left, MAP tries exactly the
other texts which have at each place the character of the word or a character similar to it. -/
theorem C41_map_chars (sims : List SimilarityGroup) (hs : ∀ g ∈ sims, g.strings = []) (w : Str)
    (n : Nat) (hn : w.length ≤ n) :
    mapTexts sims w n = some ((similarTexts sims (n + 1) w).take n) ∧
    ∀ t, t ∈ similarTexts sims (n + 1) w ↔
      t ≠ w ∧ List.Forall₂ (fun c d => c = d ∨ ∃ g ∈ sims, c ∈ g.chars ∧ d ∈ g.chars) w t := by
  refine ⟨mapTexts_eq sims w n, ?_⟩
  have hn' : w.length ≤ n + 1 := by omega
  generalize n + 1 = m at hn' ⊢
  clear hn n
  have refl : ∀ a : Str, List.Forall₂ (fun c d => c = d ∨ ∃ g ∈ sims, c ∈ g.chars ∧ d ∈ g.chars) a a := by
    intro a
    induction a with
    | nil => exact .nil
    | cons c a ih => exact .cons (.inl rfl) ih
  have app : ∀ {a b b' : Str}, List.Forall₂ (fun c d => c = d ∨ ∃ g ∈ sims, c ∈ g.chars ∧ d ∈ g.chars) b b' →
      List.Forall₂ (fun c d => c = d ∨ ∃ g ∈ sims, c ∈ g.chars ∧ d ∈ g.chars) (a ++ b) (a ++ b') := by
    intro a b b' h
    induction a with
    | nil => exact h
    | cons c a ih => exact .cons (.inl rfl) ih
  -- a member of the list
  have mem : ∀ m (w t : Str), t ∈ similarTexts sims (m + 1) w ↔
      ∃ a c b d, w = a ++ c :: b ∧ d ≠ c ∧ (∃ g ∈ sims, c ∈ g.chars ∧ d ∈ g.chars) ∧
        (t = a ++ d :: b ∨ ∃ t' ∈ similarTexts sims m b, t = a ++ d :: t') := by
    intro m w t
    simp only [similarTexts, List.mem_flatMap, Prod.exists]
    constructor
    · rintro ⟨a, c, b, h, g, hg, ht⟩
      by_cases hc : c ∈ g.chars
      · rw [if_pos hc, hs g hg, List.flatMap_nil, List.append_nil, List.mem_flatMap] at ht
        obtain ⟨d, hd, ht⟩ := ht
        by_cases hdc : d = c
        · rw [if_pos hdc] at ht; simp at ht
        · rw [if_neg hdc, List.mem_cons, List.mem_map] at ht
          refine ⟨a, c, b, d, mem_splits.1 h, hdc, ⟨g, hg, hc, hd⟩, ?_⟩
          rcases ht with rfl | ⟨t', h', rfl⟩
          · exact .inl rfl
          · exact .inr ⟨t', h', rfl⟩
      · rw [if_neg hc, hs g hg] at ht; simp at ht
    · rintro ⟨a, c, b, d, h, hdc, ⟨g, hg, hc, hd⟩, ht⟩
      refine ⟨a, c, b, mem_splits.2 h, g, hg, ?_⟩
      rw [if_pos hc, List.mem_append, List.mem_flatMap]
      refine .inl ⟨d, hd, ?_⟩
      rw [if_neg hdc, List.mem_cons, List.mem_map]
      rcases ht with rfl | ⟨t', h', rfl⟩
      · exact .inl rfl
      · exact .inr ⟨t', h', rfl⟩
  induction m generalizing w with
  | zero =>
    have : w = [] := List.length_eq_zero_iff.1 (by omega)
    subst this
    intro t
    simp only [similarTexts, List.not_mem_nil, false_iff, not_and]
    intro h1 h2
    cases h2
    exact h1 rfl
  | succ m ih =>
    intro t
    rw [mem]
    constructor
    · rintro ⟨a, c, b, d, rfl, hdc, hg, ht⟩
      refine ⟨?_, ?_⟩
      · rcases ht with rfl | ⟨t', _, rfl⟩ <;> simp [hdc]
      · rcases ht with rfl | ⟨t', ht', rfl⟩
        · exact app (.cons (.inr hg) (refl b))
        · exact app (.cons (.inr hg) ((ih b (by simp at hn'; omega) t').1 ht').2)
    · rintro ⟨hne, hf⟩
      -- the first place where the texts differ
      obtain ⟨a, c, b, d, b', rfl, rfl, hdc, hg, hb⟩ : ∃ a c b d b', w = a ++ c :: b ∧
          t = a ++ d :: b' ∧ d ≠ c ∧ (∃ g ∈ sims, c ∈ g.chars ∧ d ∈ g.chars) ∧
          List.Forall₂ (fun c d => c = d ∨ ∃ g ∈ sims, c ∈ g.chars ∧ d ∈ g.chars) b b' := by
        clear hn' ih mem
        induction hf with
        | nil => exact absurd rfl hne
        | @cons x y l l' hxy hl ih2 =>
          by_cases h : y = x
          · subst h
            obtain ⟨a, c, b, d, b', rfl, rfl, h3, h4, h5⟩ := ih2 (by intro e; exact hne (by rw [e]))
            exact ⟨y :: a, c, b, d, b', rfl, rfl, h3, h4, h5⟩
          · exact ⟨[], x, l, y, l', rfl, rfl, h, hxy.resolve_left (fun e => h e.symm), hl⟩
      refine ⟨a, c, b, d, rfl, hdc, hg, ?_⟩
      by_cases hbb : b' = b
      · left; rw [hbb]
      · right
        exact ⟨b', (ih b (by simp at hn'; omega) b').2 ⟨hbb, hb⟩, rfl⟩

example : mapTexts [{ chars := "oö".toList, strings := [] }] "foo".toList 9
    = some (["föo", "föö", "foö"].map String.toList) := by decide +kernel

end Spellbook.Props
