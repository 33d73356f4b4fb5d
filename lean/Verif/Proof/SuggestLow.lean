import Verif.Proof.Suggest
import Mathlib.Algebra.BigOperators.Group.List.Basic
import Mathlib.Tactic.Ring
import Mathlib.Tactic.Tauto
/-!
# What `suggest_low` proposes, and what it does not miss
-/

namespace Spellbook
open Spec Props

theorem smallEdit_iff {C : Checker} {w t : Str} : SmallEdit C w t ↔
    t = C.opts.caseHandling.uppercase C.U w ∨ t ∈ neighboursSwapped w ++ pairsSwapped w ∨
    t ∈ mistyped C.U C.aff.keyboardCloseness w ∨ t ∈ dropped w ∨ t ∈ undoubled w := by
  rw [(C41_adjacent_swap w 0).2, (C41_keyboard _ _ w 0).2, (C41_extra_char w 0).2,
    (C41_doubled_chars_partial w 0).2]
  constructor
  · intro h
    cases h with
    | upper => exact .inl rfl
    | swap h => exact .inr (.inl (.inl ⟨_, _, _, _, h, rfl⟩))
    | swap4 h => exact .inr (.inl (.inr (.inl ⟨_, _, _, _, h, rfl⟩)))
    | swap5 h => exact .inr (.inl (.inr (.inr ⟨_, _, _, _, _, h, .inl rfl⟩)))
    | swap5' h => exact .inr (.inl (.inr (.inr ⟨_, _, _, _, _, h, .inr rfl⟩)))
    | shift h h' => exact .inr (.inr (.inl ⟨_, _, _, h, .inl ⟨h', rfl⟩⟩))
    | key h h1 h2 => exact .inr (.inr (.inl ⟨_, _, _, h, .inr ⟨_, h1, h2, rfl⟩⟩))
    | extra h => exact .inr (.inr (.inr (.inl ⟨_, _, _, h, rfl⟩)))
    | doubled h h' => exact .inr (.inr (.inr (.inr ⟨_, _, _, _, h, h', rfl⟩)))
  · rintro (rfl | (⟨a, x, y, b, h, rfl⟩ | ⟨a, b, c, d, h, rfl⟩ | ⟨a, b, c, d, e, h, rfl | rfl⟩) |
      ⟨a, c, b, h, ⟨h', rfl⟩ | ⟨k, h1, h2, rfl⟩⟩ | ⟨a, c, b, h, rfl⟩ | ⟨a, x, y, b, h, h', rfl⟩)
    · exact .upper
    · exact .swap h
    · exact .swap4 h
    · exact .swap5 h
    · exact .swap5' h
    · exact .shift h h'
    · exact .key h h1 h2
    · exact .extra h
    · exact .doubled h h'

theorem longEdit_iff {C : Checker} {w t : Str} : LongEdit C w t ↔
    t ∈ swapped w ∨ t ∈ inserted C.aff.tryChars w ∨ t ∈ movedRight w ++ movedLeft w ∨
    t ∈ replaced C.aff.tryChars w := by
  rw [(C41_distant_swap w 0).2, (C41_forgotten_char _ w 0).2, (C41_move_char w 0).2,
    (C41_wrong_char _ w 0).2]
  constructor
  · intro h
    cases h with
    | swapAny h => exact .inl ⟨_, _, _, _, _, h, rfl⟩
    | forgotten h h' => exact .inr (.inl ⟨_, h', _, _, h, rfl⟩)
    | wrong h h1 h2 => exact .inr (.inr (.inr ⟨_, h1, _, _, _, h, h2, rfl⟩))
    | right h h' => exact .inr (.inr (.inl ⟨_, _, _, _, h', .inl ⟨h, rfl⟩⟩))
    | left h h' => exact .inr (.inr (.inl ⟨_, _, _, _, h', .inr ⟨h, rfl⟩⟩))
  · rintro (⟨a, x, m, y, b, h, rfl⟩ | ⟨c, hc, a, b, h, rfl⟩ | ⟨a, x, m, b, hm, ⟨h, rfl⟩ | ⟨h, rfl⟩⟩ |
      ⟨c, hc, a, d, b, h, hcd, rfl⟩)
    · exact .swapAny h
    · exact .forgotten h hc
    · exact .right h hm
    · exact .left h hm
    · exact .wrong h hc hcd

/-! ## How many edits there are -/

theorem splitsFrom_length : ∀ (w pre : Str), (splitsFrom pre w).length = w.length
  | [], _ => rfl
  | _ :: w, pre => by rw [splitsFrom, List.length_cons, splitsFrom_length w]; rfl

theorem splits_length (w : Str) : (splits w).length = w.length := splitsFrom_length w []

theorem sum_le {α : Type} {l : List α} {f : α → Nat} {n : Nat} (h : ∀ a ∈ l, f a ≤ n) :
    (l.map f).sum ≤ l.length * n := by
  induction l with
  | nil => simp
  | cons a l ih =>
    have h1 := h a (by simp)
    have h2 := ih fun b hb => h b (by simp [hb])
    simp only [List.map_cons, List.sum_cons, List.length_cons, Nat.add_mul]
    omega

theorem swapped_length (w : Str) : (swapped w).length ≤ w.length * w.length := by
  unfold swapped
  rw [List.length_flatMap]
  refine (sum_le (n := w.length) ?_).trans (by rw [splits_length])
  rintro ⟨a, c, b⟩ h
  have := mem_splits.1 h
  simp only [List.length_map, splits_length]
  rw [this]; simp; omega

theorem inserted_length (al w : Str) : (inserted al w).length = al.length * (w.length + 1) := by
  unfold inserted
  rw [List.length_flatMap]
  have : ∀ c ∈ al, ((cuts w).map fun s => s.1 ++ c :: s.2).length = w.length + 1 := by
    intro c _; simp [cuts, splits_length]
  rw [List.map_congr_left this]
  simp

theorem replaced_length (al w : Str) : (replaced al w).length ≤ al.length * w.length := by
  unfold replaced
  rw [List.length_flatMap]
  refine sum_le fun c _ => ?_
  rw [List.length_map]
  exact (List.length_filter_le _ _).trans (by rw [splits_length])

theorem mem_pairs_length {w a : Str} {x y : Char} {b : Str} (h : (a, x, y, b) ∈ pairs w) :
    a.length + b.length ≤ w.length := by
  unfold pairs at h
  rw [List.mem_flatMap] at h
  obtain ⟨⟨a', c, r⟩, h1, h2⟩ := h
  have := mem_splits.1 h1
  cases r with
  | nil => simp at h2
  | cons y' r =>
    simp only [List.mem_singleton, Prod.mk.injEq] at h2
    obtain ⟨rfl, -, -, rfl⟩ := h2
    rw [this]; simp; omega

theorem pairs_length (w : Str) : (pairs w).length ≤ w.length := by
  unfold pairs
  rw [List.length_flatMap]
  refine (sum_le (n := 1) ?_).trans (by rw [splits_length]; simp)
  rintro ⟨a, c, r⟩ _
  cases r <;> simp

theorem moved_length (w : Str) : (movedRight w ++ movedLeft w).length ≤ w.length * w.length := by
  unfold movedRight movedLeft
  rw [List.length_append, List.length_flatMap, List.length_flatMap, List.map_reverse, List.sum_reverse,
    ← List.sum_map_add]
  refine (sum_le (n := w.length) ?_).trans (Nat.mul_le_mul_right _ (pairs_length w))
  rintro ⟨a, x, y, b⟩ h
  have := mem_pairs_length h
  simp only [List.length_map, List.length_reverse, splits_length]
  omega

namespace Suggester
variable {S : Suggester} {fuel : Nat}

/-- Whatever `suggest_low` adds is a proposal. -/
theorem proposals_sound {C : Checker} {w : Str} {n : Nat} {rules : List (Str × Str)}
    (hR : ReplacementTable.from' rules = some C.aff.replacements) {t : Str} (ht : t ∈ proposals C fuel n w) :
    Proposal C fuel w t := by
  have map := (C41_map C.aff.similarities w n).2
  simp only [proposals, goodProposals, List.mem_append, mem_suggestables, List.mem_singleton, mem_splitWords,
    mem_repWords hR, or_assoc] at ht
  unfold Proposal
  rw [smallEdit_iff, longEdit_iff]
  simp only [List.mem_append]
  have tk : ∀ {l : List Str}, t ∈ l.take n → t ∈ l := fun h => List.mem_of_mem_take h
  rcases ht with ⟨h, h'⟩ | h | ⟨h, h'⟩ | ⟨h, h'⟩ | ⟨h, h'⟩ | ⟨h, h'⟩ | ⟨h, h'⟩ | ⟨h, h'⟩ | ⟨h, h'⟩ |
    ⟨h, h'⟩ | ⟨h, h'⟩ | h
  · exact .inl ⟨h', .inl (.inl h)⟩
  · rcases h with ⟨h4, h5 | h5⟩
    · exact .inl ⟨h5, .inr (.inr (.inr h4))⟩
    · exact .inr (.inl ⟨h4, h5⟩)
  · exact .inl ⟨h', .inr (.inr (.inl (map t (tk h))))⟩
  · exact .inl ⟨h', .inl (.inr (.inl h))⟩
  · exact .inl ⟨h', .inr (.inl (.inl (tk h)))⟩
  · exact .inl ⟨h', .inl (.inr (.inr (.inl h)))⟩
  · exact .inl ⟨h', .inl (.inr (.inr (.inr (.inl h))))⟩
  · exact .inl ⟨h', .inr (.inl (.inr (.inl (tk h))))⟩
  · exact .inl ⟨h', .inr (.inl (.inr (.inr (.inl (by simpa using tk h)))))⟩
  · exact .inl ⟨h', .inr (.inl (.inr (.inr (.inr (tk h)))))⟩
  · exact .inl ⟨h', .inl (.inr (.inr (.inr (.inr h))))⟩
  · exact .inr (.inr h)

theorem low_sound {w : Str} {out : List Str} {r : Bool × List Str} {rules : List (Str × Str)}
    (hR : ReplacementTable.from' rules = some S.C.aff.replacements)
    (h : S.suggestLow fuel w out = .ok r) : ∃ new, r.2 = out ++ new ∧ ∀ t ∈ new, Proposal S.C fuel w t := by
  obtain ⟨h1, -⟩ := suggestLow_ok hR h
  exact ⟨_, h1, fun t => proposals_sound hR⟩

/-- What `suggest_low` finds. -/
theorem proposals_complete {C : Checker} {w : Str} {n : Nat} {rules : List (Str × Str)}
    (hR : ReplacementTable.from' rules = some C.aff.replacements) (t : Str) :
    (SmallEdit C w t → Suggestable C fuel t → t ∈ proposals C fuel n w) ∧
    (Replaced C w t → Suggestable C fuel t ∨ SpacedWords C fuel t → t ∈ proposals C fuel n w) ∧
    (TwoWords C w t → t ∈ proposals C fuel n w) ∧
    ((w.length + C.aff.tryChars.length) * (w.length + 1) ≤ n →
      LongEdit C w t → Suggestable C fuel t → t ∈ proposals C fuel n w) := by
  rw [smallEdit_iff, longEdit_iff]
  simp only [proposals, goodProposals, List.mem_append, mem_suggestables, List.mem_singleton, mem_splitWords,
    mem_repWords hR, upperOf]
  refine ⟨?_, ?_, ?_, ?_⟩
  · rintro h hs
    tauto
  · intro h hs
    simp [h, hs]
  · intro h
    simp [h]
  · intro hle h hs
    have e1 : (w.length + C.aff.tryChars.length) * (w.length + 1) =
        w.length * w.length + w.length + C.aff.tryChars.length * w.length + C.aff.tryChars.length := by
      ring
    rw [List.take_of_length_le (l := swapped w) (by have := swapped_length w; omega),
      List.take_of_length_le (l := inserted _ w) (by
        rw [inserted_length, Nat.mul_add]; omega),
      List.take_of_length_le (l := movedRight w ++ movedLeft w) (by have := moved_length w; omega),
      List.take_of_length_le (l := replaced _ w) (by
        have := replaced_length C.aff.tryChars w; omega)]
    rcases h with h | h | h | h
    · simp [h, hs]
    · simp [h, hs]
    · have h : t ∈ movedRight w ∨ t ∈ movedLeft w := by simpa using h
      simp [h, hs]
    · simp [h, hs]

theorem low_complete {w : Str} {out : List Str} {r : Bool × List Str} {rules : List (Str × Str)}
    (hR : ReplacementTable.from' rules = some S.C.aff.replacements)
    (h : S.suggestLow fuel w out = .ok r) (t : Str) :
    (SmallEdit S.C w t → Suggestable S.C fuel t → t ∈ r.2) ∧
    (Replaced S.C w t → Suggestable S.C fuel t ∨ SpacedWords S.C fuel t → t ∈ r.2) ∧
    (TwoWords S.C w t → t ∈ r.2) ∧
    ((w.length + S.C.aff.tryChars.length) * (w.length + 1) ≤ editBudget S.C w →
      LongEdit S.C w t → Suggestable S.C fuel t → t ∈ r.2) := by
  obtain ⟨h1, -⟩ := suggestLow_ok hR h
  have hc := proposals_complete (fuel := fuel) (w := w) (n := editBudget S.C w) hR t
  rw [h1]
  simp only [List.mem_append]
  refine ⟨fun a b => .inr (hc.1 a b), fun a b => .inr (hc.2.1 a b), fun a => .inr (hc.2.2.1 a), ?_⟩
  intro hle a b
  exact .inr (hc.2.2.2 hle a b)

theorem sum_le_mul {α : Type} {l : List α} {f g : α → Nat} {k : Nat} (h : ∀ x ∈ l, f x ≤ g x * k) :
    (l.map f).sum ≤ (l.map g).sum * k := by
  induction l with
  | nil => simp
  | cons x l ih =>
    rw [List.map_cons, List.map_cons, List.sum_cons, List.sum_cons, Nat.add_mul]
    exact Nat.add_le_add (h x (by simp)) (ih fun y hy => h y (by simp [hy]))

/-- For groups of letters there are at most as many similar texts as there are choices of a letter at each place. -/
theorem similarTexts_length {sims : List SimilarityGroup} (hs : ∀ g ∈ sims, g.strings = []) : ∀ (n : Nat) (w : Str),
    (similarTexts sims n w).length + 1 ≤ (w.map fun c => 1 + otherLetters sims c).prod := by
  have pos : ∀ w : Str, 1 ≤ (w.map fun c => 1 + otherLetters sims c).prod := by
    intro w
    induction w with
    | nil => simp
    | cons c w ih => rw [List.map_cons, List.prod_cons]; exact Nat.mul_pos (by omega) ih
  intro n
  induction n with
  | zero => intro w; simpa [similarTexts] using pos w
  | succ n ih =>
    intro w
    have walk : ∀ (F : Str × Char × Str → List Str),
        (∀ a c b, (F (a, c, b)).length ≤ otherLetters sims c * ((similarTexts sims n b).length + 1)) → ∀ (w p : Str),
        ((splitsFrom p w).flatMap F).length + 1 ≤ (w.map fun c => 1 + otherLetters sims c).prod := by
      intro F hF w
      induction w with
      | nil => intro p; simp [splitsFrom]
      | cons c w ihw =>
        intro p
        have h1 := ihw (p ++ [c])
        have h2 := (hF p c w).trans (Nat.mul_le_mul_left _ (ih w))
        rw [splitsFrom, List.flatMap_cons, List.length_append, List.map_cons, List.prod_cons, Nat.add_mul, Nat.one_mul]
        omega
    rw [similarTexts, splits]
    refine walk _ (fun a c b => ?_) w []
    dsimp only
    rw [List.length_flatMap, otherLetters]
    refine sum_le_mul fun g hg => ?_
    rw [hs g hg]
    by_cases hc : c ∈ g.chars
    · rw [if_pos hc, if_pos hc, List.flatMap_nil, List.append_nil, List.length_flatMap]
      generalize g.chars = l
      induction l with
      | nil => simp
      | cons d l ihl =>
        rw [List.map_cons, List.sum_cons]
        by_cases hd : d = c
        · rw [if_pos hd, List.filter_cons_of_neg (by simpa using hd)]
          simpa using ihl
        · rw [if_neg hd, List.filter_cons_of_pos (by simpa using hd), List.length_cons, List.length_cons, List.length_map,
            Nat.add_mul, Nat.one_mul, Nat.add_comm]
          exact Nat.add_le_add_right ihl _
    · rw [if_neg hc, if_neg hc]
      simp

theorem proposals_similar {C : Checker} {w t : Str} {n : Nat} (h : SimilarLetters C.aff.similarities n w t)
    (hs : Suggestable C fuel t) : t ∈ proposals C fuel n w := by
  obtain ⟨h1, h2, h3, h4, h5⟩ := h
  have hm := ((C41_map_chars _ h1 w n h2).2 t).2 ⟨h4, h5⟩
  have hl := similarTexts_length h1 (n + 1) w
  simp only [proposals, goodProposals, List.mem_append, mem_suggestables]
  rw [List.take_of_length_le (l := similarTexts _ _ _) (by omega)]
  simp [hm, hs]

theorem low_similar {w t : Str} {out : List Str} {r : Bool × List Str} {rules : List (Str × Str)}
    (hR : ReplacementTable.from' rules = some S.C.aff.replacements) (h : S.suggestLow fuel w out = .ok r)
    (ht : SimilarLetters S.C.aff.similarities (editBudget S.C w) w t) (hs : Suggestable S.C fuel t) : t ∈ r.2 := by
  obtain ⟨h1, -⟩ := suggestLow_ok hR h
  rw [h1]
  exact List.mem_append_right _ (proposals_similar ht hs)

end Suggester
end Spellbook
