import Verif.Proof.AffReads
import Verif.Proof.Layout
/-!
# An affix file is a list of blocks

What a directive does is determined by its block of lines, and reading a text that is fine up to some line goes on
from the settings made so far.
-/

namespace Spellbook
open Spec

variable {U : Unicode}

theorem isComment_keyed {line : Str} {key : String} {args : List Str} (h : splitWhitespace U line = key.toList :: args)
    (hk : key ∈ knownKeys) : isComment U line = false := by
  have head : ∀ l : Str, (trimStart U l).head? = (splitWhitespace U l).head?.bind List.head? := by
    intro l
    rw [splitWhitespace]
    unfold trimStart
    cases l.dropWhile U.isWs <;> simp
  have first : ∀ k ∈ knownKeys, (k.toList.head? == some '#') = false := by decide +kernel
  unfold isComment
  rw [head, h]
  exact first key hk

theorem rows_keyed {key : String} {head rows : List Str} {cx cx' : Cx} (h : Rows U key head cx rows cx') :
    ∀ l ∈ rows, ∃ args, splitWhitespace U l = key.toList :: args := by
  induction h with
  | nil => simp
  | cons h1 _ _ ih =>
    intro l hl
    rcases List.mem_cons.1 hl with rfl | hl
    · exact ⟨_, h1⟩
    · exact ih l hl

/-- Every row of a block starts with the name of the directive. -/
theorem effect_keyed {key : String} {args rows : List Str} {cx cx' : Cx} (h : Effect U key args cx rows cx') :
    ∀ l ∈ rows, ∃ args, splitWhitespace U l = key.toList :: args := by
  cases h with
  | table _ _ _ h => exact rows_keyed h
  | affixes _ _ _ _ _ _ h => exact rows_keyed h
  | _ => simp

theorem isNumeral_unique {w : Str} {m n : Nat} (hm : IsNumeral w m) (hn : IsNumeral w n) : m = n := by
  have a := (parseUInt_ok (max := m + n)).2 ⟨hm, Nat.le_add_right _ _⟩
  have b := (parseUInt_ok (max := m + n)).2 ⟨hn, Nat.le_add_left _ _⟩
  rw [a] at b
  exact (Except.ok.injEq .. ▸ b : m = n)

/-- The number of rows of a block is told by the first line. -/
theorem effect_length {key : String} {args rows rows' : List Str} {cx c c' : Cx} (h : Effect U key args cx rows c)
    (h' : Effect U key args cx rows' c') : rows.length = rows'.length := by
  rcases effect_cases h with ⟨hc, h⟩ | ⟨hc, h⟩ | ⟨hc, h⟩ | ⟨hc, h⟩ | ⟨hc, h⟩ | ⟨hc, h⟩ | ⟨hc, h⟩ | ⟨hc, h⟩ |
    ⟨hc, h⟩ | ⟨hc, h⟩ | ⟨hc, h⟩ <;>
  rcases effect_cases h' with ⟨hd, h'⟩ | ⟨hd, h'⟩ | ⟨hd, h'⟩ | ⟨hd, h'⟩ | ⟨hd, h'⟩ | ⟨hd, h'⟩ | ⟨hd, h'⟩ | ⟨hd, h'⟩ |
    ⟨hd, h'⟩ | ⟨hd, h'⟩ | ⟨hd, h'⟩ <;>
  first
  | exact absurd (hc.symm.trans hd) (by decide)
  | rw [h.1, h'.1]
  | skip
  · obtain ⟨w, ws, rfl, h1, h2, -⟩ := h
    obtain ⟨w', ws', h3, h4, h5, -⟩ := h'
    simp only [List.cons.injEq] at h3
    obtain ⟨rfl, rfl⟩ := h3
    exact isNumeral_unique h1 h4
  · obtain ⟨_, _, w, ws, _, rfl, -, -, -, h1, h2, -⟩ := h
    obtain ⟨_, _, w', ws', _, h3, -, -, -, h4, h5, -⟩ := h'
    simp only [List.cons.injEq] at h3
    obtain ⟨rfl, rfl, rfl, rfl⟩ := h3
    exact isNumeral_unique h1 h4

/-- A block has one effect. -/
theorem effect_unique {key : String} {args rows : List Str} {cx c c' : Cx} (h : Effect U key args cx rows c)
    (h' : Effect U key args cx rows c') : c = c' := by
  have hk := effect_known h
  obtain ⟨d, hd⟩ := Option.isSome_iff_exists.1 (findDirective_known key hk)
  obtain ⟨key', -, he, hf⟩ := findDirective_some (U := U) hd
  rw [String.toList_inj] at he
  subst he
  have hp : pend U ((0, []) :: rows.map fun l => (0, l)) = rows := by
    unfold pend
    rw [List.tail_cons, List.filter_eq_self.2, List.map_map]
    · simp
    · intro l hl
      obtain ⟨r, hr, rfl⟩ := List.mem_map.1 hl
      obtain ⟨_, h1⟩ := effect_keyed h r hr
      rw [isComment_keyed h1 hk]
      rfl
  have use : ∀ c, Effect U key args cx rows c → ∃ t, d U cx ⟨(0, []) :: rows.map fun l => (0, l), some args, .aff⟩
      = .ok (c, t) := by
    intro c hc
    obtain ⟨t, ht, -⟩ := (hf cx c ⟨(0, []) :: rows.map fun l => (0, l), some args, .aff⟩ args _ rfl).2
      ⟨rows, hc, by rw [hp], rfl⟩
    exact ⟨t, ht⟩
  obtain ⟨t, ht⟩ := use c h
  obtain ⟨t', ht'⟩ := use c' h'
  rw [ht] at ht'
  exact (Prod.mk.injEq .. ▸ (Except.ok.injEq .. ▸ ht') : c = c' ∧ _).1

theorem Spec.Reads.append {a b : List Str} {cx c c' : Cx} (h1 : Reads U cx a c) (h2 : Reads U c b c') :
    Reads U cx (a ++ b) c' := by
  induction h1 with
  | done => exact h2
  | ignored hi _ ih => exact .ignored hi (ih h2)
  | directive hl he _ ih =>
    rw [List.cons_append, List.append_assoc]
    exact .directive hl he (ih h2)

/-- The block at the beginning of a text. -/
theorem Spec.Reads.block {line : Str} {key : String} {args rows rest : List Str} {cx c c' : Cx}
    (h : Reads U cx (line :: (rows ++ rest)) c') (hl : splitWhitespace U line = key.toList :: args)
    (he : Effect U key args cx rows c) : Reads U c rest c' := by
  generalize hX : line :: (rows ++ rest) = X at h
  cases h with
  | done => cases hX
  | ignored hi h => cases hX; exact absurd rfl (hi _ _ hl _ (effect_known he))
  | @directive _ line' key' args' rows' c₁ rest' _ h1 h2 h3 =>
    simp only [List.cons.injEq] at hX
    obtain ⟨rfl, hX⟩ := hX
    rw [hl] at h1
    simp only [List.cons.injEq, String.toList_inj] at h1
    obtain ⟨rfl, rfl⟩ := h1
    obtain ⟨rfl, rfl⟩ := List.append_inj hX (effect_length he h2)
    rw [effect_unique he h2]
    exact h3

/-- If the first part of a text is fine, reading goes on behind it. -/
theorem Spec.Reads.split {a b : List Str} {cx c c' : Cx} (h1 : Reads U cx a c) (h2 : Reads U cx (a ++ b) c') :
    Reads U c b c' := by
  induction h1 with
  | done => exact h2
  | @ignored _ line rest _ hi _ ih =>
    generalize hX : line :: rest ++ b = X at h2
    rw [List.cons_append] at hX
    cases h2 with
    | done => cases hX
    | ignored _ h => cases hX; exact ih h
    | directive h1 h2 =>
      rw [(List.cons.inj hX).1] at hi
      exact absurd rfl (hi _ _ h1 _ (effect_known h2))
  | directive hl he _ ih =>
    rw [List.cons_append, List.append_assoc] at h2
    exact ih (h2.block hl he)

end Spellbook
