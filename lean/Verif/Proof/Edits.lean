import Mathlib.Data.List.Induction
import Verif.Spec.Edits
import Verif.Proof.EditBytes
/-!
# What the edit methods try
-/

namespace Spellbook
open Spec
open scoped Edit

/-! ## Cutting a word -/

theorem mem_splitsFrom {p w a b : Str} {c : Char} :
    (a, c, b) ∈ splitsFrom p w ↔ ∃ m, a = p ++ m ∧ w = m ++ c :: b := by
  induction w generalizing p with
  | nil => simp [splitsFrom]
  | cons d w ih =>
    simp only [splitsFrom, List.mem_cons, Prod.mk.injEq, ih]
    constructor
    · rintro (⟨rfl, rfl, rfl⟩ | ⟨m, rfl, rfl⟩)
      · exact ⟨[], by simp, rfl⟩
      · exact ⟨d :: m, by simp, rfl⟩
    · rintro ⟨m, rfl, h⟩
      cases m with
      | nil => left; simp at h; simp [h]
      | cons e m =>
        right
        simp only [List.cons_append, List.cons.injEq] at h
        exact ⟨m, by simp [h.1], h.2⟩

theorem mem_splits {w a b : Str} {c : Char} : (a, c, b) ∈ splits w ↔ w = a ++ c :: b := by
  unfold splits
  rw [mem_splitsFrom]
  constructor
  · rintro ⟨m, rfl, rfl⟩; simp
  · rintro rfl; exact ⟨a, by simp, rfl⟩

theorem splitsFrom_map {p w : Str} :
    splitsFrom p w = (splits w).map fun s => (p ++ s.1, s.2.1, s.2.2) := by
  have gen : ∀ (w q p : Str), splitsFrom (p ++ q) w
      = (splitsFrom q w).map fun s => (p ++ s.1, s.2.1, s.2.2) := by
    intro w
    induction w with
    | nil => intro q p; rfl
    | cons c w ih =>
      intro q p
      simp only [splitsFrom, List.map_cons]
      rw [List.append_assoc, ih]
  have := gen w [] p
  simpa [splits] using this

theorem splits_cons (c : Char) (w : Str) :
    splits (c :: w) = ([], c, w) :: (splits w).map fun s => (c :: s.1, s.2.1, s.2.2) := by
  unfold splits
  rw [splitsFrom, splitsFrom_map]
  rfl

theorem length_splits (w : Str) : (splits w).length = w.length := by
  induction w with
  | nil => rfl
  | cons c w ih => simp [splits_cons, ih]

theorem splits_append (w v : Str) :
    splits (w ++ v) = (splits w).map (fun s => (s.1, s.2.1, s.2.2 ++ v)) ++
      (splits v).map fun s => (w ++ s.1, s.2.1, s.2.2) := by
  induction w with
  | nil => simp [splits, splitsFrom]
  | cons c w ih => simp [splits_cons, ih, Function.comp_def]

theorem mem_cuts {w a b : Str} : (a, b) ∈ cuts w ↔ w = a ++ b := by
  unfold cuts
  simp only [List.mem_append, List.mem_map, List.mem_singleton, Prod.mk.injEq, Prod.exists]
  constructor
  · rintro (⟨x, c, y, h, rfl, rfl⟩ | ⟨rfl, rfl⟩)
    · exact mem_splits.1 h
    · simp
  · intro h
    cases b with
    | nil => right; simp at h; simp [h]
    | cons c b => left; exact ⟨a, c, b, mem_splits.2 h, rfl, rfl⟩

theorem charIndices_eq (w : Str) : ∀ n,
    charIndices n w = (splits w).map fun s => (n + byteLen s.1, s.2.1) := by
  induction w with
  | nil => intro n; rfl
  | cons c w ih =>
    intro n
    rw [charIndices, splits_cons, ih]
    simp [Function.comp_def, Nat.add_assoc]

theorem charIndices_zero (w : Str) :
    charIndices 0 w = (splits w).map fun s => (byteLen s.1, s.2.1) := by
  rw [charIndices_eq]; simp

theorem charBytes_splits (w : Str) : ∀ n, charBytes n w = (splits w).map fun s => n + byteLen s.1 := by
  induction w with
  | nil => intro n; rfl
  | cons c w ih =>
    intro n
    rw [charBytes, splits_cons, ih]
    simp [Function.comp_def, Nat.add_assoc]

/-! ## Sequences of attempts -/

/-- An edit without limit which tries `L` and leaves the buffer as it was. -/
def Free (w : Str) (L : List Str) (e : Edit) : Prop :=
  ∀ left, e { buf := w, left } = some (L, some { buf := w, left })

/-- An edit which tries `L` as long as attempts are left and leaves the buffer as it was. -/
def Budgeted (w : Str) (L : List Str) (e : Edit) : Prop :=
  ∀ left, e { buf := w, left } = some (L.take left,
    if L.length ≤ left then some { buf := w, left := left - L.length } else none)

theorem Free.skip (w : Str) : Free w [] Edit.skip := fun _ => rfl

theorem Free.restored (w : Str) : Free w [] (Edit.restored w) := fun _ => if_pos rfl

theorem Budgeted.restored (w : Str) : Budgeted w [] (Edit.restored w) := fun _ => by
  simp [Edit.restored]

theorem Budgeted.skip (w : Str) : Budgeted w [] Edit.skip := fun _ => by simp [Edit.skip]

theorem Free.andThen {w : Str} {L M : List Str} {a b : Edit} (ha : Free w L a) (hb : Free w M b) :
    Free w (L ++ M) (a ;; b) := by
  intro left
  simp only [Edit.andThen, ha left, hb left]

theorem Budgeted.andThen {w : Str} {L M : List Str} {a b : Edit} (ha : Budgeted w L a)
    (hb : Budgeted w M b) : Budgeted w (L ++ M) (a ;; b) := by
  intro left
  simp only [Edit.andThen, ha left]
  by_cases h : L.length ≤ left
  · simp only [if_pos h, hb (left - L.length)]
    rw [List.take_append, List.length_append]
    by_cases h2 : M.length ≤ left - L.length
    · rw [if_pos h2, if_pos (by omega), Nat.sub_sub]
    · rw [if_neg h2, if_neg (by omega)]
  · simp only [if_neg h, List.length_append]
    have : left - L.length = 0 := by omega
    rw [if_neg (by omega), List.take_append, this]
    simp

/-- The assertion holds if the buffer is as it was. -/
theorem Free.thenRestored {w : Str} {L : List Str} {e : Edit} (h : Free w L e) :
    Free w L (e ;; Edit.restored w) := by
  have := h.andThen (Free.restored w)
  rwa [List.append_nil] at this

theorem Budgeted.thenRestored {w : Str} {L : List Str} {e : Edit} (h : Budgeted w L e) :
    Budgeted w L (e ;; Edit.restored w) := by
  have := h.andThen (Budgeted.restored w)
  rwa [List.append_nil] at this

theorem Free.forEach {α : Type} {w : Str} {f : α → Edit} {L : α → List Str} {l : List α}
    (h : ∀ x ∈ l, Free w (L x) (f x)) : Free w (l.flatMap L) (Edit.forEach f l) := by
  induction l with
  | nil => exact Free.skip w
  | cons x l ih =>
    exact (h x (by simp)).andThen (ih fun y hy => h y (by simp [hy]))

theorem Budgeted.forEach {α : Type} {w : Str} {f : α → Edit} {L : α → List Str} {l : List α}
    (h : ∀ x ∈ l, Budgeted w (L x) (f x)) : Budgeted w (l.flatMap L) (Edit.forEach f l) := by
  induction l with
  | nil => exact Budgeted.skip w
  | cons x l ih =>
    exact (h x (by simp)).andThen (ih fun y hy => h y (by simp [hy]))

theorem forEach_map {α β : Type} (f : β → Edit) (g : α → β) (l : List α) :
    Edit.forEach f (l.map g) = Edit.forEach (fun x => f (g x)) l := by
  induction l with
  | nil => rfl
  | cons x l ih => simp only [List.map_cons, Edit.forEach, ih]

theorem Free.run {w : Str} {L : List Str} {e : Edit} (h : Free w L e) (n : Nat) :
    e.run w n = some L := by simp [Edit.run, h n]

theorem Budgeted.run {w : Str} {L : List Str} {e : Edit} (h : Budgeted w L e) (n : Nat) :
    e.run w n = some (L.take n) := by simp [Edit.run, h n]

theorem restored_eq (w : Str) (left : Nat) :
    Edit.restored w { buf := w, left } = some ([], some { buf := w, left }) := if_pos rfl

/-- Change, try, change back, and assert that the buffer is as it was. -/
theorem Free.onceRestored {w t : Str} {f g : Str → Option Str} (hf : f w = some t) (hg : g t = some w) :
    Free w [t] (Edit.change f ;; Edit.attempt ;; Edit.change g ;; Edit.restored w) := by
  intro left
  simp [Edit.andThen, Edit.change, Edit.attempt, hf, hg, restored_eq]

/-- Change, try, change back. -/
theorem Free.once {w t : Str} {f g : Str → Option Str} (hf : f w = some t) (hg : g t = some w) :
    Free w [t] (Edit.change f ;; Edit.attempt ;; Edit.change g) := by
  intro left
  simp [Edit.andThen, Edit.change, Edit.attempt, hf, hg]

theorem Budgeted.spend {w : Str} {L : List Str} {e : Edit} {t : Str} (hL : L = [t])
    (h : Free w L e) : Budgeted w L (Edit.spend Edit.skip e) := by
  intro left
  subst hL
  unfold Edit.spend
  cases left with
  | zero => simp [Edit.andThen, Edit.skip, Edit.stop]
  | succ n => simp [h n]

theorem Free.ite {w : Str} {L M : List Str} {a b : Edit} {p : Prop} [Decidable p]
    (ha : p → Free w L a) (hb : ¬ p → Free w M b) :
    Free w (if p then L else M) (if p then a else b) := by
  by_cases h : p
  · rw [if_pos h, if_pos h]; exact ha h
  · rw [if_neg h, if_neg h]; exact hb h

/-! ## The methods -/

theorem mem_pairs {w a b : Str} {x y : Char} : (a, x, y, b) ∈ pairs w ↔ w = a ++ x :: y :: b := by
  unfold pairs
  rw [List.mem_flatMap]
  constructor
  · rintro ⟨⟨p, c, q⟩, hs, h⟩
    cases q with
    | nil => simp at h
    | cons d q =>
      simp only [List.mem_singleton, Prod.mk.injEq] at h
      obtain ⟨rfl, rfl, rfl, rfl⟩ := h
      exact mem_splits.1 hs
  · intro h
    exact ⟨(a, x, y :: b), mem_splits.2 h, by simp⟩

theorem pairs_cons (c : Char) (w : Str) :
    pairs (c :: w) = (match w with | y :: b => [([], c, y, b)] | [] => []) ++
      (pairs w).map fun (a, x, y, b) => (c :: a, x, y, b) := by
  unfold pairs
  rw [splits_cons, List.flatMap_cons, List.flatMap_map, List.map_flatMap]
  congr 1
  congr 1
  funext s
  cases s.2.2 <;> rfl

theorem neighbours_charIndices (w : Str) : ∀ n, neighbours (charIndices n w)
    = (pairs w).map fun (a, x, y, _) => ((n + byteLen a, x), (n + byteLen a + x.utf8Size, y)) := by
  induction w with
  | nil => intro n; rfl
  | cons c w ih =>
    intro n
    rw [pairs_cons]
    cases w with
    | nil => rfl
    | cons d w =>
      have := ih (n + c.utf8Size)
      simp only [neighbours, charIndices, List.tail_cons, List.zip_cons_cons] at this ⊢
      rw [this]
      simp [Function.comp_def, Nat.add_assoc, Nat.add_left_comm, Nat.add_comm]

theorem neighbours_reverse {α : Type} (l : List α) :
    neighbours l.reverse = (neighbours l).reverse.map fun p => (p.2, p.1) := by
  induction l with
  | nil => rfl
  | cons a l ih =>
    cases l with
    | nil => rfl
    | cons b l =>
      have h1 : neighbours (a :: b :: l) = (a, b) :: neighbours (b :: l) := rfl
      rw [h1, List.reverse_cons, List.reverse_cons (a := (a, b)), List.map_append, ← ih]
      have h2 : ∀ (m : List α) (x y : α), neighbours (m ++ [x] ++ [y])
          = neighbours (m ++ [x]) ++ [(x, y)] := by
        intro m
        induction m with
        | nil => intro x y; rfl
        | cons z m ihm =>
          intro x y
          cases m with
          | nil => rfl
          | cons u m =>
            have := ihm x y
            simp only [neighbours, List.cons_append, List.tail_cons, List.zip_cons_cons] at this ⊢
            rw [this]
      rw [List.reverse_cons, h2]
      rfl

theorem swapAdj_once (a b : Str) (x y : Char) :
    Free (a ++ x :: y :: b) [a ++ y :: x :: b]
      (Edit.swapAdj (byteLen a) x y ;; Edit.attempt ;; Edit.swapAdj (byteLen a) y x ;;
        Edit.restored (a ++ x :: y :: b)) :=
  Free.onceRestored (by rw [swapAdjacent?_eq]; rfl) (by rw [swapAdjacent?_eq]; rfl)

/-- A change of the buffer, from one text to another. -/
def Moves (e : Edit) (s t : Str) : Prop := ∀ left, e { buf := s, left } = some ([], some { buf := t, left })

theorem swapAdj_moves (a b : Str) (x y : Char) :
    Moves (Edit.swapAdj (byteLen a) x y) (a ++ x :: y :: b) (a ++ y :: x :: b) := by
  intro left
  simp [Edit.swapAdj, Edit.change, swapAdjacent?_eq]

theorem adjacentExtra_free (w : Str) : Free w (pairsSwapped w) (adjacentExtra w) := by
  match w with
  | [] => exact Free.skip _
  | [_] => exact Free.skip _
  | [_, _] => exact Free.skip _
  | [_, _, _] => exact Free.skip _
  | [a, b, c, d] =>
    intro left
    have h1 : ∀ x y z t : Char, Moves (Edit.swapAdj 0 x y) [x, y, z, t] [y, x, z, t] :=
      fun x y z t => swapAdj_moves [] [z, t] x y
    have h2 : ∀ x y z t : Char, Moves (Edit.swapAdj (x.utf8Size + y.utf8Size) z t)
        [x, y, z, t] [x, y, t, z] := by
      intro x y z t
      have := swapAdj_moves [x, y] [] z t
      simpa using this
    have h3 : Moves (Edit.swapAdj (a.utf8Size + b.utf8Size) c d) [b, a, c, d] [b, a, d, c] := by
      have := h2 b a c d; rwa [Nat.add_comm] at this
    simp only [adjacentExtra, charIndices, Nat.zero_add, pairsSwapped, Edit.andThen, Edit.attempt,
      h1 a b c d left, h3 left, h1 b a d c left, h2 a b d c left, restored_eq, List.nil_append, List.append_nil]
  | [a, b, c, d, e] =>
    intro left
    have h1 : ∀ x y z t u : Char, Moves (Edit.swapAdj 0 x y) [x, y, z, t, u] [y, x, z, t, u] :=
      fun x y z t u => swapAdj_moves [] [z, t, u] x y
    have h2 : ∀ x y z t u : Char, Moves (Edit.swapAdj (x.utf8Size + y.utf8Size + z.utf8Size) t u)
        [x, y, z, t, u] [x, y, z, u, t] := by
      intro x y z t u
      have := swapAdj_moves [x, y, z] [] t u
      simpa [Nat.add_assoc] using this
    have h3 : ∀ x y z t u : Char, Moves (Edit.swapAdj x.utf8Size y z) [x, y, z, t, u] [x, z, y, t, u] := by
      intro x y z t u
      have := swapAdj_moves [x] [t, u] y z
      simpa using this
    have h4 : Moves (Edit.swapAdj (a.utf8Size + b.utf8Size + c.utf8Size) d e) [b, a, c, d, e]
        [b, a, c, e, d] := by
      have := h2 b a c d e; rwa [Nat.add_comm b.utf8Size] at this
    simp only [adjacentExtra, charIndices, Nat.zero_add, pairsSwapped, Edit.andThen, Edit.attempt,
      h1 a b c d e left, h4 left, h1 b a c e d left, h3 a b c e d left, h3 a c b e d left,
      h2 a b c e d left, restored_eq, List.nil_append, List.append_nil, List.cons_append]
  | _ :: _ :: _ :: _ :: _ :: _ :: _ => exact Free.skip _

theorem flatMap_singleton' {α β : Type} (f : α → β) (l : List α) : l.flatMap (fun x => [f x]) = l.map f := by
  induction l with
  | nil => rfl
  | cons a l ih => simp [List.flatMap_cons, ih]

theorem adjacentSwap_free (w : Str) :
    Free w (neighboursSwapped w ++ pairsSwapped w) (adjacentSwapEdits w) := by
  unfold adjacentSwapEdits
  refine Free.andThen ?_ (adjacentExtra_free w)
  rw [neighbours_charIndices, forEach_map, neighboursSwapped, ← flatMap_singleton']
  refine Free.forEach ?_
  rintro ⟨a, x, y, b⟩ h
  rw [mem_pairs.1 h]
  simp only [Nat.zero_add]
  exact swapAdj_once a b x y

theorem distantSwap_budgeted (w : Str) : Budgeted w (swapped w) (distantSwapEdits w) := by
  unfold distantSwapEdits swapped
  rw [charIndices_zero, forEach_map]
  refine Budgeted.forEach ?_
  rintro ⟨a, x, b⟩ h
  have hw := mem_splits.1 h
  dsimp only
  have e : sliceFrom? w (byteLen a) = some (x :: b) := by rw [hw, sliceFrom?_append]
  intro left
  simp only [e]
  revert left
  show Budgeted w _ (distantSwapFrom w (byteLen a) x (x :: b))
  unfold distantSwapFrom
  rw [charIndices, List.drop_one, List.tail_cons, charIndices_eq, forEach_map, ← flatMap_singleton']
  refine Budgeted.forEach ?_
  rintro ⟨m, y, r⟩ h2
  have hb := mem_splits.1 h2
  dsimp only
  refine Budgeted.spend rfl ?_
  intro left
  have e1 := swapDistant?_eq a m r x y
  have e2 := swapDistant?_eq a m r y x
  have eidx : 0 + x.utf8Size + byteLen m + byteLen a = byteLen a + x.utf8Size + byteLen m := by omega
  rw [hw, hb, eidx]
  simp only [Edit.changeIdx, e1, Edit.andThen, Edit.attempt, Edit.change, e2, Option.map_some,
    List.append_nil, restored_eq]

theorem replaceKey_free (a b : Str) (c k : Char) :
    Free (a ++ c :: b) [a ++ k :: b] (replaceKey (byteLen a) c k) := by
  intro left
  simp [replaceKey, Edit.andThen, Edit.change, Edit.attempt, removeAt?_eq, insertAt?_eq]

theorem matchIndicesFrom_char (c : Char) : ∀ (s : Str) (pos : Nat),
    matchIndicesFrom [c] 0 pos s
      = ((splits s).filter fun t => t.2.1 = c).map fun t => pos + t.1.length := by
  intro s
  induction s with
  | nil => intro pos; rfl
  | cons d s ih =>
    intro pos
    rw [splits_cons, matchIndicesFrom]
    by_cases h : d = c
    · subst h
      simp only [startsWith, List.isPrefixOf, BEq.rfl, Bool.true_and, if_true, List.length_singleton,
        Nat.sub_self, ih, List.filter_cons, decide_true, List.map_cons, List.length_nil, Nat.add_zero]
      simp [List.filter_map, Function.comp_def, Nat.add_comm, Nat.add_left_comm]
    · have : (c == d) = false := by simp [Ne.symm h]
      simp only [startsWith, List.isPrefixOf, this, Bool.false_and, Bool.false_eq_true, if_false, ih,
        List.filter_cons, h, decide_false]
      simp [List.filter_map, Function.comp_def, Nat.add_comm, Nat.add_left_comm]

theorem matchBytes_char (kb : Str) (c : Char) : matchBytes kb [c]
    = ((splits kb).filter fun t => t.2.1 = c).map fun t => byteLen t.1 := by
  unfold matchBytes matchIndices
  rw [matchIndicesFrom_char, List.map_map]
  apply List.map_congr_left
  rintro ⟨a, d, b⟩ h
  have := mem_splits.1 (List.mem_filter.1 h).1
  simp [this]

theorem keyboardMatch_free (kb a b : Str) (c : Char) {p q : Str} (h : kb = p ++ c :: q) :
    Free (a ++ c :: b)
      (((p.getLast?.filter (· ≠ '|')).toList ++ (q.head?.filter (· ≠ '|')).toList).map
        fun k => a ++ k :: b) (keyboardMatch kb (a ++ c :: b) (byteLen a) c (byteLen p)) := by
  have e1 : sliceTo? kb (byteLen p) = some p := by rw [h, sliceTo?_append]
  have e2 : sliceFrom? kb (byteLen p + c.utf8Size) = some q := by
    have : kb = (p ++ [c]) ++ q := by simp [h]
    have hl : byteLen p + c.utf8Size = byteLen (p ++ [c]) := by simp
    rw [this, hl, sliceFrom?_append]
  unfold keyboardMatch
  rw [e1, e2]
  dsimp only
  rw [List.map_append]
  intro left
  refine Free.andThen ?_ ?_ left
  · cases hx : p.getLast?.filter (fun x => decide (x ≠ '|')) with
    | none => exact Free.skip _
    | some k => exact (replaceKey_free a b c k).thenRestored
  · cases hx : q.head?.filter (fun x => decide (x ≠ '|')) with
    | none => exact Free.skip _
    | some k => exact (replaceKey_free a b c k).thenRestored

theorem keyboardUpper_free (U : Unicode) (a b : Str) (c : Char) :
    Free (a ++ c :: b) (if U.upper c ≠ [c] then [a ++ (U.upper c ++ b)] else [])
      (keyboardUpper U (a ++ c :: b) (byteLen a) c) := by
  unfold keyboardUpper hasUpper
  by_cases h : U.upper c = [c]
  · rw [if_neg (by simp [h]), if_neg (by simp [h])]; exact Free.skip _
  · rw [if_pos h, if_pos (by simp [h])]
    apply Free.onceRestored
    · simp [sliceTo?_append, sliceFrom?_append]
    · simp [sliceTo?_append, sliceFrom?_append]

theorem keyboard_free (U : Unicode) (kb w : Str) : Free w (mistyped U kb w) (keyboardEdits U kb w) := by
  unfold keyboardEdits mistyped
  rw [charIndices_zero, forEach_map]
  refine Free.forEach ?_
  rintro ⟨a, c, b⟩ h
  rw [mem_splits.1 h]
  dsimp only
  refine Free.andThen (keyboardUpper_free U a b c) ?_
  rw [matchBytes_char, forEach_map]
  unfold keysBeside
  rw [List.map_flatMap]
  refine Free.forEach ?_
  rintro ⟨p, d, q⟩ h2
  have h4 := List.mem_filter.1 h2
  have h3 : d = c := by simpa using h4.2
  subst h3
  exact keyboardMatch_free kb a b d (mem_splits.1 h4.1)

theorem forgottenChar_budgeted (al w : Str) : Budgeted w (inserted al w) (forgottenCharEdits al w) := by
  unfold forgottenCharEdits inserted
  refine Budgeted.forEach ?_
  intro c _
  have hc : charBytes 0 w ++ [byteLen w] = (cuts w).map fun s => byteLen s.1 := by
    simp [cuts, charBytes_splits, Function.comp_def]
  rw [hc, forEach_map, ← flatMap_singleton']
  refine Budgeted.forEach ?_
  rintro ⟨a, b⟩ h
  rw [mem_cuts.1 h]
  refine Budgeted.spend rfl ?_
  exact Free.once (by rw [insertAt?_eq]) (by rw [removeAt?_eq])

theorem wrongChar_budgeted (al w : Str) : Budgeted w (replaced al w) (wrongCharEdits al w) := by
  unfold wrongCharEdits replaced
  refine Budgeted.forEach ?_
  intro c _
  rw [charIndices_zero, forEach_map]
  have : ((splits w).filter fun s => decide (c ≠ s.2.1)).map (fun s => s.1 ++ c :: s.2.2)
      = (splits w).flatMap fun s => if c = s.2.1 then [] else [s.1 ++ c :: s.2.2] := by
    induction splits w with
    | nil => rfl
    | cons s l ih =>
      rw [List.flatMap_cons, ← ih, List.filter_cons]
      by_cases h : c = s.2.1 <;> simp [h]
  rw [this]
  refine Budgeted.forEach ?_
  rintro ⟨a, d, b⟩ h
  rw [mem_splits.1 h]
  dsimp only
  by_cases hd : c = d
  · rw [if_pos hd, if_pos hd]; exact Budgeted.skip _
  · rw [if_neg hd, if_neg hd]
    exact Budgeted.spend rfl (replaceKey_free a b d c)

/-- Edits which do not leave the buffer as it was, but do not read it either. -/
theorem extraChar_run (w : Str) (n : Nat) : (extraCharEdits w).run w n = some (dropped w) := by
  unfold extraCharEdits dropped
  rw [charIndices_zero, forEach_map]
  have : ∀ (l : List (Str × Char × Str)), (∀ s ∈ l, s ∈ splits w) → ∀ p : Pad,
      ∃ q, Edit.forEach (fun s : Str × Char × Str =>
        Edit.change (fun _ => removeAt? w (byteLen s.1)) ;; Edit.attempt) l p
        = some (l.map fun s => s.1 ++ s.2.2, some q) := by
    intro l
    induction l with
    | nil => intro _ p; exact ⟨p, rfl⟩
    | cons s l ih =>
      intro hl p
      obtain ⟨a, c, b⟩ := s
      have hw := mem_splits.1 (hl (a, c, b) (by simp))
      obtain ⟨q, hq⟩ := ih (fun s hs => hl s (by simp [hs])) { p with buf := a ++ b }
      refine ⟨q, ?_⟩
      have e : removeAt? w (byteLen a) = some (a ++ b) := by rw [hw, removeAt?_eq]
      simp only [Edit.forEach, Edit.andThen, Edit.change, Edit.attempt, e, Option.map_some,
        List.nil_append, hq, List.map_cons, List.singleton_append]
  obtain ⟨q, hq⟩ := this (splits w) (fun _ h => h) { buf := w, left := n }
  simp only [Edit.run, hq, Option.map_some]

/-! ## Moving a character -/

theorem moveRight_eq (a : Str) (x : Char) (idx2 : Nat) : ∀ (rest m : Str) (n left : Nat),
    n + idx2 = byteLen a + byteLen m + x.utf8Size →
    moveRight (a ++ x :: (m ++ rest)) (byteLen a) idx2 x (byteLen a + byteLen m) (charIndices n rest)
        { buf := a ++ (m ++ x :: rest), left }
      = some (((splits rest).map fun s => a ++ (m ++ (s.1 ++ s.2.1 :: x :: s.2.2))).take left,
          if rest.length ≤ left then
            some { buf := a ++ (m ++ (rest ++ [x])), left := left - rest.length } else none) := by
  intro rest
  induction rest with
  | nil => intro m n left _; simp [charIndices, moveRight, Edit.skip, splits, splitsFrom]
  | cons c rest ih =>
    intro m n left hn
    rw [charIndices, moveRight]
    unfold Edit.spend
    cases left with
    | zero =>
      have := rotateRightAt?_eq a m (c :: rest) x
      rw [← hn] at this
      simp [Edit.andThen, Edit.change, Edit.stop, this, restored_eq]
    | succ left =>
      have e := swapAdjacent?_eq (a ++ m) rest x c
      rw [byteLen_append, List.append_assoc, List.append_assoc] at e
      have i := ih (m ++ [c]) (n + c.utf8Size) left (by simp; omega)
      have hb : a ++ (m ++ [c] ++ x :: rest) = a ++ (m ++ c :: x :: rest) := by simp
      have hc : byteLen a + byteLen (m ++ [c]) = byteLen a + byteLen m + c.utf8Size := by
        simp [Nat.add_assoc]
      rw [hb, hc, show a ++ x :: (m ++ [c] ++ rest) = a ++ x :: (m ++ c :: rest) by simp] at i
      simp only [Nat.add_one_ne_zero, if_false, Edit.changeIdx, e, Nat.add_sub_cancel, Edit.andThen,
        Edit.attempt, i, splits_cons, List.map_cons, List.nil_append, List.take_succ_cons,
        List.length_cons, Nat.add_le_add_iff_right, Nat.add_sub_add_right, List.singleton_append,
        List.map_map, Function.comp_def, List.append_assoc, List.cons_append]

theorem moveForward_budgeted (w : Str) : Budgeted w (movedRight w) (moveForward w) := by
  unfold moveForward movedRight
  refine Budgeted.thenRestored ?_
  rw [neighbours_charIndices, forEach_map]
  refine Budgeted.forEach ?_
  rintro ⟨a, x, y, b⟩ h
  have hw := mem_pairs.1 h
  dsimp only
  have e : sliceFrom? w (0 + byteLen a + x.utf8Size) = some (y :: b) := by
    have : w = (a ++ [x]) ++ y :: b := by simp [hw]
    have hl : 0 + byteLen a + x.utf8Size = byteLen (a ++ [x]) := by simp
    rw [hl, this, sliceFrom?_append]
  intro left
  simp only [e]
  have sw := swapAdjacent?_eq a b x y
  have mr := moveRight_eq a x (byteLen a + x.utf8Size) b [y] y.utf8Size left (by simp; omega)
  have hlen : byteLen a + byteLen [y] = byteLen a + y.utf8Size := by simp
  rw [hlen] at mr
  simp only [Nat.zero_add] at *
  simp only [Edit.andThen, Edit.changeIdx, hw, sw, charIndices, List.drop_one, List.tail_cons,
    Nat.zero_add, List.singleton_append] at mr ⊢
  rw [mr]
  by_cases hl : b.length ≤ left
  · have rr := rotateRightAt?_eq a (y :: b) [] x
    have hb : byteLen (a ++ y :: (b ++ [x])) = byteLen a + byteLen (y :: b) + x.utf8Size := by
      simp; omega
    simp only [List.cons_append, List.append_nil] at rr
    simp only [if_pos hl, Edit.change, hb, rr]
    simp [hl, length_splits, restored_eq]
  · simp [hl, length_splits]

theorem charIndices_append (a b : Str) : ∀ n,
    charIndices n (a ++ b) = charIndices n a ++ charIndices (n + byteLen a) b := by
  induction a with
  | nil => intro n; simp [charIndices]
  | cons c a ih => intro n; simp [charIndices, ih, Nat.add_assoc]

theorem moveLeft_eq (x y : Char) (b : Str) : ∀ (p m : Str) (left : Nat),
    Edit.forEach (moveLeftStep (p ++ (m ++ x :: y :: b)) (byteLen p + byteLen m + x.utf8Size + y.utf8Size) y)
        (charIndices 0 p).reverse
        { buf := p ++ y :: (m ++ x :: b), left }
      = some (((splits p).reverse.map fun s => s.1 ++ y :: s.2.1 :: (s.2.2 ++ (m ++ x :: b))).take left,
          if p.length ≤ left then
            some { buf := y :: (p ++ (m ++ x :: b)), left := left - p.length } else none) := by
  intro p
  induction p using List.reverseRecOn with
  | nil => intro m left; simp [charIndices, Edit.forEach, Edit.skip, splits, splitsFrom]
  | append_singleton p c ih =>
    intro m left
    rw [charIndices_append, List.reverse_append]
    simp only [charIndices, Nat.zero_add, List.reverse_cons, List.reverse_nil, List.nil_append,
      List.singleton_append, Edit.forEach]
    have hs : (splits (p ++ [c])).reverse
        = (p, c, []) :: ((splits p).reverse.map fun s => (s.1, s.2.1, s.2.2 ++ [c])) := by
      rw [splits_append, List.reverse_append]
      simp [splits, splitsFrom]
    rw [hs, Edit.andThen]
    rw [moveLeftStep, Edit.spend]
    cases left with
    | zero =>
      have := rotateLeftAt?_eq (p ++ [c]) (m ++ [x]) b y
      have h1 : byteLen (p ++ [c]) + byteLen m + x.utf8Size + y.utf8Size
          = byteLen (p ++ [c]) + byteLen (m ++ [x]) + y.utf8Size := by simp; omega
      have h2 : byteLen p + c.utf8Size = byteLen (p ++ [c]) := by simp
      have h3 : p ++ [c] ++ y :: (m ++ [x] ++ b) = p ++ [c] ++ y :: (m ++ x :: b) := by simp
      rw [h3] at this
      have h4 : p ++ [c] ++ (m ++ [x] ++ y :: b) = p ++ [c] ++ (m ++ x :: y :: b) := by simp
      rw [h4] at this
      simp only [if_true, Edit.andThen, Edit.change, h1, h2, this, Option.map_some, Edit.stop, restored_eq]
      simp
    | succ left =>
      have e : Moves (Edit.swapAdj (byteLen p) c y) (p ++ [c] ++ y :: (m ++ x :: b))
          (p ++ y :: c :: (m ++ x :: b)) := by
        have := swapAdj_moves p (m ++ x :: b) c y
        simpa using this
      have i := ih (c :: m) left
      have h1 : byteLen p + byteLen (c :: m) + x.utf8Size + y.utf8Size
          = byteLen (p ++ [c]) + byteLen m + x.utf8Size + y.utf8Size := by simp; omega
      rw [h1] at i
      simp only [Nat.add_one_ne_zero, if_false, Nat.add_sub_cancel, Edit.andThen, Edit.attempt,
        e left, List.nil_append]
      simp only [List.cons_append] at i
      rw [show p ++ [c] ++ (m ++ x :: y :: b) = p ++ c :: (m ++ x :: y :: b) by simp, i]
      simp [Function.comp_def]

theorem moveBackward_budgeted (w : Str) : Budgeted w (movedLeft w) (moveBackward w) := by
  unfold moveBackward movedLeft
  refine Budgeted.thenRestored ?_
  rw [neighbours_reverse, neighbours_charIndices, ← List.map_reverse, List.map_map, forEach_map]
  refine Budgeted.forEach ?_
  rintro ⟨a, x, y, b⟩ h
  have hw := mem_pairs.1 (List.mem_reverse.1 h)
  dsimp only [Function.comp]
  have e : sliceTo? w (0 + byteLen a) = some a := by
    rw [hw, Nat.zero_add, sliceTo?_append]
  intro left
  simp only [e]
  have sw := swapAdj_moves a b x y left
  have ml := moveLeft_eq x y b a [] left
  have h1 : 0 + byteLen a + x.utf8Size + y.utf8Size
      = byteLen a + byteLen [] + x.utf8Size + y.utf8Size := by simp
  simp only [List.nil_append] at ml
  rw [hw, Edit.andThen, Nat.zero_add, sw]
  simp only [List.nil_append]
  rw [Edit.andThen]
  rw [Nat.zero_add] at h1
  rw [h1, ml]
  by_cases hl : a.length ≤ left
  · have rr := rotateLeftAt?_eq [] (a ++ [x]) b y
    have hb : byteLen [] + byteLen (a ++ [x]) + y.utf8Size
        = byteLen a + byteLen [] + x.utf8Size + y.utf8Size := by simp
    rw [hb, byteLen_nil] at rr
    simp only [List.nil_append, List.append_assoc, List.singleton_append] at rr
    simp only [if_pos hl, Edit.andThen, Edit.change, byteLen_nil, rr]
    simp [hl, length_splits, restored_eq]
  · simp [hl, length_splits]

theorem moveChar_budgeted (w : Str) :
    Budgeted w (movedRight w ++ movedLeft w) (moveCharEdits w) :=
  Budgeted.andThen (moveForward_budgeted w) (moveBackward_budgeted w)

/-! ## Doubled pairs -/

/-- An edit which tries `L` whatever the buffer is, and goes on. -/
def Blind (L : List Str) (e : Edit) : Prop := ∀ p, ∃ q, e p = some (L, some q)

theorem Blind.andThen {L M : List Str} {a b : Edit} (ha : Blind L a) (hb : Blind M b) :
    Blind (L ++ M) (a ;; b) := by
  intro p
  obtain ⟨q, hq⟩ := ha p
  obtain ⟨r, hr⟩ := hb q
  exact ⟨r, by simp only [Edit.andThen, hq, hr]⟩

theorem Blind.skip : Blind [] Edit.skip := fun p => ⟨p, rfl⟩

theorem Blind.run {L : List Str} {e : Edit} (h : Blind L e) (w : Str) (n : Nat) :
    e.run w n = some L := by
  obtain ⟨q, hq⟩ := h { buf := w, left := n }
  simp [Edit.run, hq]

theorem doubledLoop_blind (w : Str) : ∀ (r a : Str) (x0 x1 x2 x3 x4 : Char) (n : Nat),
    w = a ++ x0 :: x1 :: x2 :: x3 :: x4 :: r → n = byteLen a →
    Blind ((splitsFrom a (x0 :: x1 :: x2 :: x3 :: x4 :: r)).flatMap fun s =>
        match s.2.2 with
        | y :: x2 :: y2 :: x3 :: z :: b =>
          if s.2.1 = x2 ∧ y = y2 ∧ s.2.1 = x3 then [s.1 ++ (s.2.1 :: y :: x2 :: z :: b)] else []
        | _ => [])
      (doubledLoop w (charIndices n [x0, x1, x2, x3, x4])
        (charIndices (n + byteLen [x0, x1, x2, x3, x4]) r)) := by
  intro r
  induction r with
  | nil =>
    intro a x0 x1 x2 x3 x4 n _ _
    simp only [splitsFrom, charIndices, doubledLoop, List.flatMap_cons, List.flatMap_nil,
      List.append_nil]
    exact Blind.skip
  | cons z r ih =>
    intro a x0 x1 x2 x3 x4 n hw hn
    rw [splitsFrom, List.flatMap_cons]
    have i := ih (a ++ [x0]) x1 x2 x3 x4 z (n + x0.utf8Size) (by simp [hw]) (by simp [hn])
    simp only [charIndices] at i ⊢
    rw [doubledLoop]
    refine Blind.andThen ?_ ?_
    · dsimp only
      by_cases h : x0 = x2 ∧ x1 = x3 ∧ x0 = x4
      · rw [if_pos h, if_pos h]
        intro p
        have e : replaceRange? w (n + x0.utf8Size + x1.utf8Size + x2.utf8Size)
            (n + byteLen [x0, x1, x2, x3, x4]) [] = some (a ++ (x0 :: x1 :: x2 :: z :: r)) := by
          have := replaceRange?_eq (a ++ [x0, x1, x2]) [x3, x4] (z :: r) []
          have h1 : byteLen (a ++ [x0, x1, x2]) = n + x0.utf8Size + x1.utf8Size + x2.utf8Size := by
            simp [hn, Nat.add_assoc]
          have h2 : byteLen (a ++ [x0, x1, x2]) + byteLen [x3, x4]
              = n + byteLen [x0, x1, x2, x3, x4] := by simp [hn, Nat.add_assoc]
          have h3 : w = a ++ [x0, x1, x2] ++ ([x3, x4] ++ z :: r) := by simp [hw]
          rw [h2, h1, ← h3] at this
          rw [this]; simp
        exact ⟨{ p with buf := a ++ (x0 :: x1 :: x2 :: z :: r) }, by
          simp only [Edit.andThen, Edit.change, Edit.attempt, e, Option.map_some, List.nil_append]⟩
      · rw [if_neg h, if_neg h]; exact Blind.skip
    · have : n + x0.utf8Size + byteLen [x1, x2, x3, x4, z]
          = n + byteLen [x0, x1, x2, x3, x4] + z.utf8Size := by simp; omega
      rw [this] at i
      have h5 : n + byteLen [x0, x1, x2, x3, x4] = n + x0.utf8Size + x1.utf8Size + x2.utf8Size
          + x3.utf8Size + x4.utf8Size := by simp; omega
      rw [h5] at i ⊢
      exact i

theorem doubled_run (w : Str) (n : Nat) : (doubledCharsEdits w).run w n = some (undoubled w) := by
  unfold doubledCharsEdits undoubled
  match w with
  | x0 :: x1 :: x2 :: x3 :: x4 :: r =>
    have := doubledLoop_blind _ r [] x0 x1 x2 x3 x4 0 rfl rfl
    have h5 : 0 + byteLen [x0, x1, x2, x3, x4] = 0 + x0.utf8Size + x1.utf8Size + x2.utf8Size
        + x3.utf8Size + x4.utf8Size := by simp; omega
    rw [h5] at this
    exact Blind.run this _ _
  | [] => rfl
  | [_] => rfl
  | [_, _] => rfl
  | [_, _, _] => rfl
  | [_, _, _, _] => rfl

/-! ## Replacements -/

theorem matchIndicesFrom_sound {pat : Str} : ∀ (s : Str) (skip pos i : Nat),
    i ∈ matchIndicesFrom pat skip pos s → pos ≤ i ∧ i ≤ pos + s.length ∧ pat <+: s.drop (i - pos) := by
  intro s
  induction s with
  | nil =>
    intro skip pos i h
    rw [matchIndicesFrom] at h
    cases pat with
    | nil => simp at h; subst h; simp
    | cons c p => simp at h
  | cons c s ih =>
    intro skip pos i h
    have next : ∀ k, i ∈ matchIndicesFrom pat k (pos + 1) s →
        pos ≤ i ∧ i ≤ pos + (c :: s).length ∧ pat <+: (c :: s).drop (i - pos) := by
      intro k h
      obtain ⟨h1, h2, h3⟩ := ih k (pos + 1) i h
      refine ⟨by omega, by simp; omega, ?_⟩
      have : i - pos = (i - (pos + 1)) + 1 := by omega
      rw [this, List.drop_succ_cons]; exact h3
    cases skip with
    | zero =>
      rw [matchIndicesFrom] at h
      by_cases hp : startsWith (c :: s) pat = true
      · rw [if_pos hp, List.mem_cons] at h
        rcases h with rfl | h
        · refine ⟨Nat.le_refl _, by simp, ?_⟩
          rw [Nat.sub_self, List.drop_zero]
          exact List.isPrefixOf_iff_prefix.1 hp
        · exact next _ h
      · rw [if_neg hp] at h; exact next _ h
    | succ k => rw [matchIndicesFrom] at h; exact next _ h

theorem matchIndices_sound {pat w : Str} {i : Nat} (h : i ∈ matchIndices w pat) :
    i ≤ w.length ∧ pat <+: w.drop i := by
  obtain ⟨_, h2, h3⟩ := matchIndicesFrom_sound w 0 0 i h
  exact ⟨by omega, by simpa using h3⟩

theorem matchIndicesFrom_first {pat : Str} (hp : pat ≠ []) : ∀ (s : Str) (skip pos i : Nat),
    i ∈ matchIndicesFrom pat skip pos s → pos + skip ≤ i := by
  intro s
  induction s with
  | nil =>
    intro skip pos i h
    rw [matchIndicesFrom] at h
    cases pat with
    | nil => exact absurd rfl hp
    | cons c p => simp at h
  | cons c s ih =>
    intro skip pos i h
    cases skip with
    | zero =>
      rw [matchIndicesFrom] at h
      split at h
      · rw [List.mem_cons] at h
        rcases h with rfl | h
        · omega
        · have := ih _ _ _ h; omega
      · have := ih _ _ _ h; omega
    | succ k => rw [matchIndicesFrom] at h; have := ih _ _ _ h; omega

theorem matchIndicesFrom_apart {pat : Str} (hp : pat ≠ []) : ∀ (s : Str) (skip pos : Nat),
    (matchIndicesFrom pat skip pos s).Pairwise fun i j => i + pat.length ≤ j := by
  intro s
  have hl : 0 < pat.length := List.length_pos_iff.2 hp
  induction s with
  | nil =>
    intro skip pos
    rw [matchIndicesFrom]
    split <;> simp
  | cons c s ih =>
    intro skip pos
    cases skip with
    | zero =>
      rw [matchIndicesFrom]
      split
      · refine List.Pairwise.cons ?_ (ih _ _)
        intro j hj
        have := matchIndicesFrom_first hp _ _ _ _ hj
        omega
      · exact ih _ _
    | succ k => rw [matchIndicesFrom]; exact ih _ _

theorem matchIndicesFrom_cover {pat : Str} (hp : pat ≠ []) : ∀ (s : Str) (skip pos i : Nat),
    pos + skip ≤ i → pat <+: s.drop (i - pos) →
    ∃ j ∈ matchIndicesFrom pat skip pos s, j ≤ i ∧ i < j + pat.length := by
  intro s
  have hl : 0 < pat.length := List.length_pos_iff.2 hp
  induction s with
  | nil =>
    intro skip pos i _ h
    rw [List.drop_nil, List.prefix_nil] at h
    exact absurd h hp
  | cons c s ih =>
    intro skip pos i h1 h2
    have hd : pos + 1 ≤ i → pat <+: s.drop (i - (pos + 1)) := by
      intro h
      rw [show i - pos = (i - (pos + 1)) + 1 by omega, List.drop_succ_cons] at h2
      exact h2
    cases skip with
    | zero =>
      rw [matchIndicesFrom]
      by_cases hs : startsWith (c :: s) pat = true
      · rw [if_pos hs]
        by_cases hi : i < pos + pat.length
        · exact ⟨pos, by simp, by omega, hi⟩
        · obtain ⟨j, hj, h⟩ := ih (pat.length - 1) (pos + 1) i (by omega) (hd (by omega))
          exact ⟨j, by simp [hj], h⟩
      · rw [if_neg hs]
        have : i ≠ pos := by
          rintro rfl
          rw [Nat.sub_self, List.drop_zero] at h2
          exact hs (List.isPrefixOf_iff_prefix.2 h2)
        exact ih 0 (pos + 1) i (by omega) (hd (by omega))
    | succ k =>
      rw [matchIndicesFrom]
      exact ih k (pos + 1) i (by omega) (hd (by omega))

theorem startsWith_iff_prefix {w f : Str} : startsWith w f = true ↔ f <+: w := List.isPrefixOf_iff_prefix

theorem endsWith_iff_suffix {w f : Str} : endsWith w f = true ↔ f <:+ w := List.isSuffixOf_iff_suffix

theorem rep_run {R : ReplacementTable} (w : Str) (h1 : R.wholeLast ≤ R.startLast)
    (h2 : R.startLast ≤ R.endLast) (n : Nat) :
    (repEdits R w).run w n = some (reworded R.whole R.start R.stop R.anywhere w) := by
  unfold repEdits reworded
  have hw : Free w ((R.whole.filter fun r => decide (w = r.1)).map fun r => r.2)
      (Edit.forEach (fun (x : Str × Str) =>
        if w = x.1 then (Edit.change (fun _ => some x.2) ;; Edit.attempt ;;
          Edit.change fun _ => some w) else Edit.skip) R.whole) := by
    have : ((R.whole.filter fun r => decide (w = r.1)).map fun r => r.2)
        = R.whole.flatMap fun r => if w = r.1 then [r.2] else [] := by
      induction R.whole with
      | nil => rfl
      | cons r l ih =>
        rw [List.flatMap_cons, ← ih, List.filter_cons]
        by_cases h : w = r.1 <;> simp [h]
    rw [this]
    refine Free.forEach ?_
    intro r _
    exact Free.ite (fun _ => Free.once rfl rfl) fun _ => Free.skip _
  by_cases ho : R.hasOnlyWhole = true
  · have hlen : R.wholeLast = R.table.length := by simpa [ReplacementTable.hasOnlyWhole] using ho
    have e1 : R.start = [] := by
      unfold ReplacementTable.start; rw [List.drop_eq_nil_iff, List.length_take]; omega
    have e2 : R.stop = [] := by
      unfold ReplacementTable.stop; rw [List.drop_eq_nil_iff, List.length_take]; omega
    have e3 : R.anywhere = [] := by
      unfold ReplacementTable.anywhere; rw [List.drop_eq_nil_iff]; omega
    rw [if_pos ho, e1, e2, e3]
    have := hw n
    simp only [Edit.run, Edit.andThen, this, Edit.stop, List.flatMap_nil, List.append_nil,
      Option.map_some]
  · rw [if_neg ho]
    refine Free.run ?_ n
    rw [List.append_assoc, List.append_assoc]
    refine Free.andThen hw (Free.andThen ?_ (Free.andThen (L := []) (Free.restored w) (Free.andThen ?_
      (Free.andThen (L := []) (Free.restored w) (Free.thenRestored ?_)))))
    · refine Free.forEach ?_
      rintro ⟨f, t⟩ _
      dsimp only
      by_cases hf : f <+: w
      · rw [if_pos hf, if_pos (startsWith_iff_prefix.2 hf)]
        obtain ⟨b, rfl⟩ := hf
        rw [List.drop_left]
        apply Free.once
        · have := replaceRange?_eq [] f b t; simpa using this
        · have := replaceRange?_eq [] t b f; simpa using this
      · rw [if_neg hf, if_neg (fun h => hf (startsWith_iff_prefix.1 h))]
        exact Free.skip _
    · refine Free.forEach ?_
      rintro ⟨f, t⟩ _
      dsimp only
      by_cases hf : f <:+ w
      · rw [if_pos hf, if_pos (endsWith_iff_suffix.2 hf)]
        obtain ⟨a, rfl⟩ := hf
        have e1 : byteLen (a ++ f) - byteLen f = byteLen a := by simp
        have e2 : (a ++ f).take ((a ++ f).length - f.length) = a := by simp
        rw [e1, e2]
        apply Free.once
        · have := replaceRange?_eq a f [] t; simpa using this
        · have := replaceRange?_eq a t [] f; simpa using this
      · rw [if_neg hf, if_neg (fun h => hf (endsWith_iff_suffix.1 h))]
        exact Free.skip _
    · refine Free.forEach ?_
      rintro ⟨f, t⟩ _
      dsimp only
      unfold matchBytes
      rw [forEach_map, ← flatMap_singleton']
      refine Free.forEach ?_
      intro i hi
      obtain ⟨_, b, hb⟩ := matchIndices_sound hi
      have hww : w = w.take i ++ (f ++ b) := by rw [hb, List.take_append_drop]
      have hd : w.drop (i + f.length) = b := by
        rw [← List.drop_drop, ← hb, List.drop_left]
      rw [hd]
      generalize w.take i = a at *
      subst hww
      apply Free.once
      · rw [replaceRange?_eq]
      · rw [replaceRange?_eq]

/-! ## Similar pieces -/

/-- An edit which tries the first texts of `L` as long as attempts are left; when it goes on, the
buffer is as it was. -/
def Tries (w : Str) (L : List Str) (e : Edit) : Prop :=
  ∀ left, ∃ r, e { buf := w, left } = some (L.take left, r) ∧ (r = none → left ≤ L.length) ∧
    ∀ p, r = some p → p = { buf := w, left := left - L.length }

theorem Tries.skip (w : Str) : Tries w [] Edit.skip := fun left =>
  ⟨some { buf := w, left }, by simp [Edit.skip], by simp, by rintro p ⟨⟩; rfl⟩

theorem Tries.andThen {w : Str} {L M : List Str} {a b : Edit} (ha : Tries w L a) (hb : Tries w M b) :
    Tries w (L ++ M) (a ;; b) := by
  intro left
  obtain ⟨r, h1, h2, h3⟩ := ha left
  cases r with
  | none =>
    refine ⟨none, ?_, fun _ => ?_, by simp⟩
    · have : left - L.length = 0 := by have := h2 rfl; omega
      simp [Edit.andThen, h1, List.take_append, this]
    · have := h2 rfl; simp; omega
  | some p =>
    have hp := h3 p rfl
    subst hp
    obtain ⟨r, g1, g2, g3⟩ := hb (left - L.length)
    refine ⟨r, ?_, ?_, ?_⟩
    · simp [Edit.andThen, h1, g1, List.take_append]
    · intro hr; have := g2 hr; simp; omega
    · intro p hp; rw [g3 p hp]; simp [Nat.sub_sub]

theorem Tries.forEach {α : Type} {w : Str} {f : α → Edit} {L : α → List Str} {l : List α}
    (h : ∀ x ∈ l, Tries w (L x) (f x)) : Tries w (l.flatMap L) (Edit.forEach f l) := by
  induction l with
  | nil => exact Tries.skip w
  | cons x l ih =>
    rw [List.flatMap_cons]
    exact Tries.andThen (h x (by simp)) (ih fun y hy => h y (by simp [hy]))

theorem mapReplace_tries {rec' : Str → Nat → Nat → Option (List Str × Nat)}
    {there back : Str → Option Str} {next : Nat} {w t : Str} {M : List Str}
    (ht : there w = some t) (hb : back t = some w)
    (hr : ∀ left, rec' t next left = some (M.take left, left - M.length)) :
    Tries w (t :: M) (mapReplace rec' w there back next) := by
  intro left
  unfold mapReplace Edit.spend
  cases left with
  | zero => exact ⟨none, by simp [Edit.andThen, Edit.skip, Edit.stop], by simp, by simp⟩
  | succ left =>
    refine ⟨some { buf := w, left := left - M.length }, ?_, by simp, ?_⟩
    · simp [Edit.andThen, Edit.change, Edit.attempt, mapCall, ht, hb, hr, restored_eq]
    · rintro p ⟨⟩; simp

theorem cuts_cons (c : Char) (w : Str) :
    cuts (c :: w) = ([], c :: w) :: (cuts w).map fun s => (c :: s.1, s.2) := by
  unfold cuts
  rw [splits_cons]
  simp [Function.comp_def]

theorem splitOnce?_first (pat w : Str) : splitOnce? pat w = firstOccurrence pat w := by
  unfold firstOccurrence
  induction w with
  | nil => cases pat <;> rfl
  | cons c w ih =>
    rw [splitOnce?, cuts_cons, List.find?_cons]
    by_cases h : pat.isPrefixOf (c :: w) = true
    · simp [h]
    · rw [if_neg h, ih, List.find?_map]
      have : pat.isPrefixOf (c :: w) = false := by cases hx : pat.isPrefixOf (c :: w) <;> simp_all
      simp only [this, Function.comp_def, Option.map_map]

theorem splitOnce?_append {pat w a b : Str} (h : splitOnce? pat w = some (a, b)) :
    w = a ++ (pat ++ b) := by
  rw [splitOnce?_first, firstOccurrence, Option.map_eq_some_iff] at h
  obtain ⟨⟨x, y⟩, h1, h2⟩ := h
  simp only [Prod.mk.injEq] at h2
  obtain ⟨rfl, rfl⟩ := h2
  have hq := List.find?_some h1
  have hp := List.isPrefixOf_iff_prefix.1 hq
  obtain ⟨r, hr⟩ := hp
  rw [mem_cuts.1 (List.mem_of_find?_eq_some h1)]
  dsimp only at hr ⊢
  rw [← hr, List.drop_left]

theorem mapImpl_eq (sims : List SimilarityGroup) : ∀ (n : Nat) (p w : Str) (left : Nat),
    mapImpl sims n (p ++ w) (byteLen p) left
      = some (((similarTexts sims n w).map fun t => p ++ t).take left,
          left - (similarTexts sims n w).length) := by
  intro n
  induction n with
  | zero => intro p w left; simp [mapImpl, similarTexts]
  | succ n ih =>
    intro p w left
    rw [mapImpl, sliceFrom?_append]
    simp only [Option.bind_eq_bind, Option.bind_some]
    have main : Tries (p ++ w) ((similarTexts sims (n + 1) w).map fun t => p ++ t)
        (Edit.forEach (fun (t : Nat × Char) =>
          Edit.forEach (mapGroup (mapImpl sims n) (p ++ w) t.1 t.2) sims) (charIndices (byteLen p) w)) := by
      rw [charIndices_eq, forEach_map, similarTexts, List.map_flatMap]
      refine Tries.forEach ?_
      rintro ⟨a, c, b⟩ hs
      have hw := mem_splits.1 hs
      dsimp only
      rw [List.map_flatMap]
      refine Tries.forEach ?_
      intro g _
      have hidx : byteLen p + byteLen a = byteLen (p ++ a) := by simp
      have put : ∀ (a' m q r : Str), p ++ w = (p ++ a') ++ (m ++ r) →
          Tries (p ++ w) (((a' ++ (q ++ r)) :: (similarTexts sims n r).map fun t => a' ++ (q ++ t)).map
            fun t => p ++ t)
            (mapReplace (mapImpl sims n) (p ++ w)
              (replaceRange? · (byteLen (p ++ a')) (byteLen (p ++ a') + byteLen m) q)
              (replaceRange? · (byteLen (p ++ a')) (byteLen (p ++ a') + byteLen q) m)
              (byteLen (p ++ a') + byteLen q)) := by
        intro a' m q r he
        rw [List.map_cons]
        apply mapReplace_tries
        · rw [he, replaceRange?_eq]; simp
        · rw [he]
          have := replaceRange?_eq (p ++ a') q r m
          rw [← this]; simp
        · intro left
          have := ih ((p ++ a') ++ q) r left
          rw [byteLen_append] at this
          rw [show p ++ (a' ++ (q ++ r)) = p ++ a' ++ q ++ r by simp, this]
          simp [Function.comp_def]
      unfold mapGroup
      by_cases hc : c ∈ g.chars
      · rw [if_pos hc, if_pos (by simpa using hc), List.map_append]
        refine Tries.andThen ?_ ?_
        · rw [List.map_flatMap]
          refine Tries.forEach ?_
          intro d _
          by_cases hd : d = c
          · rw [if_pos hd, if_pos hd]; exact Tries.skip _
          · rw [if_neg hd, if_neg hd, List.map_cons, hidx]
            apply mapReplace_tries
            · have := replaceCharAt?_eq (p ++ a) b c d
              rw [hw, ← List.append_assoc, this]; simp
            · have := replaceCharAt?_eq (p ++ a) b d c
              rw [show p ++ (a ++ ([d] ++ b)) = p ++ a ++ d :: b by simp, this, hw]; simp
            · intro left
              have := ih ((p ++ a) ++ [d]) b left
              rw [byteLen_append (p ++ a)] at this
              rw [show p ++ (a ++ ([d] ++ b)) = p ++ a ++ [d] ++ b by simp,
                show d.utf8Size = byteLen [d] by simp, this]
              simp [Function.comp_def]
        · rw [List.map_flatMap]
          refine Tries.forEach ?_
          intro q _
          have := put a [c] q b (by simp [hw])
          rw [hidx, show c.utf8Size = byteLen [c] by simp]
          exact this
      · rw [if_neg hc, if_neg (by simpa using hc), List.map_flatMap]
        refine Tries.forEach ?_
        rintro ⟨str, k⟩ _
        have hf : findFrom? (p ++ w) (byteLen p + byteLen a) str
            = some ((firstOccurrence str (c :: b)).map fun x => byteLen x.1 + byteLen (p ++ a)) := by
          unfold findFrom?
          rw [hidx, hw, ← List.append_assoc, sliceFrom?_append, ← splitOnce?_first]
          rfl
        dsimp only
        rw [hf]
        cases hfo : firstOccurrence str (c :: b) with
        | none => exact Tries.skip _
        | some mr =>
          obtain ⟨m, r⟩ := mr
          have he : p ++ w = (p ++ (a ++ m)) ++ (str ++ r) := by
            have hcb : c :: b = m ++ (str ++ r) :=
              splitOnce?_append (by rw [splitOnce?_first]; exact hfo)
            rw [hw, hcb]; simp
          have hi : byteLen m + byteLen (p ++ a) = byteLen (p ++ (a ++ m)) := by simp; omega
          simp only [Option.map_some]
          rw [hi, List.map_append]
          refine Tries.andThen ?_ ?_
          · rw [List.map_flatMap]
            refine Tries.forEach ?_
            intro d _
            have := put (a ++ m) str [d] r he
            rw [show d.utf8Size = byteLen [d] by simp]
            exact this
          · rw [List.map_flatMap]
            refine Tries.forEach ?_
            rintro ⟨q, k'⟩ _
            dsimp only
            by_cases hk : k' = k
            · rw [if_pos hk, if_pos hk]; exact Tries.skip _
            · rw [if_neg hk, if_neg hk]; exact put (a ++ m) str q r he
    obtain ⟨r, h1, h2, h3⟩ := main left
    rw [h1]
    simp only [Option.bind_some, Option.pure_def, Option.some.injEq, Prod.mk.injEq, true_and]
    cases r with
    | none => have := h2 rfl; simp at this ⊢; omega
    | some q => rw [h3 q rfl]; simp

theorem mapTexts_eq (sims : List SimilarityGroup) (w : Str) (n : Nat) :
    mapTexts sims w n = some ((similarTexts sims (n + 1) w).take n) := by
  have := mapImpl_eq sims (n + 1) [] w n
  simp only [List.nil_append, byteLen_nil, List.map_id'] at this
  simp [mapTexts, this]

end Spellbook
