import Verif.Proof.BlockOrder
import Verif.Props.Suggest
/-!
# C95 The order of the blocks of an affix file does not matter

The manual of the affix format names no order for the directives. The parser reads them one after the other; it keeps
the blocks of each directive in order, and FLAG and AF tell how to read the flags in the blocks below them. Nothing else
depends on the order.
-/

namespace Spellbook
namespace Props
open Spec

/-- **C95**: two affix files with the same blocks, in which the blocks of each directive come in the same order, make
the same dictionary. FLAG and AF stay at the beginning, in the common part `head`. -/
theorem C95_order {U : Unicode} {S : Sorts} {aff aff' dic : Str} {head : List Str} {blocks blocks' : List Block}
    {c₁ : Cx} (h : HasLines U aff (head ++ (blocks.map Block.lines).flatten))
    (h' : HasLines U aff' (head ++ (blocks'.map Block.lines).flatten)) (hh : Reads U {} head c₁)
    (hw : ∀ b ∈ blocks, b.WellCut U) (hk : ∀ b ∈ blocks, b.key ∉ ["FLAG", "AF"])
    (hs : ∀ key, blocks.filter (·.key = key) = blocks'.filter (·.key = key)) (D : Dict) :
    parse U S aff dic = .ok D ↔ parse U S aff' dic = .ok D := by
  have hm : ∀ b ∈ blocks', b ∈ blocks := by
    intro b hm
    have : b ∈ blocks'.filter (·.key = b.key) := List.mem_filter.2 ⟨hm, by simp⟩
    rw [← hs] at this
    exact (List.mem_filter.1 this).1
  obtain ⟨l, hl, e⟩ := h
  obtain ⟨l', hl', e'⟩ := h'
  rw [content_iff.1 hl] at e
  rw [content_iff.1 hl'] at e'
  constructor
  · intro hp
    obtain ⟨cx, hc, -, hd, -, hA⟩ := parse_ok_inv hp
    rw [parseAff_iff, e] at hc
    refine parse_ok (parseAff_iff.2 ?_) hd (hA _)
    rw [e']
    exact Blocks.reads_order hw hk hs hh hc
  · intro hp
    obtain ⟨cx, hc, -, hd, -, hA⟩ := parse_ok_inv hp
    rw [parseAff_iff, e'] at hc
    refine parse_ok (parseAff_iff.2 ?_) hd (hA _)
    rw [e]
    exact Blocks.reads_order (fun b h => hw b (hm b h)) (fun b h => hk b (hm b h)) (fun key => (hs key).symm) hh hc

/-- **C95** (the last one counts): a block of a directive with one value can be left out if a block of the same
directive follows, and no FLAG or AF comes between them. -/
theorem C95_last {U : Unicode} {S : Sorts} {aff aff' dic : Str} {before between after : List Block} {b b' : Block}
    (h : HasLines U aff ((before ++ b :: (between ++ b' :: after)).map Block.lines).flatten)
    (h' : HasLines U aff' ((before ++ (between ++ b' :: after)).map Block.lines).flatten)
    (hw : ∀ a ∈ before ++ b :: (between ++ b' :: after), a.WellCut U) (hbb : b.key = b'.key)
    (hv : b.key ∉ "FLAG" :: "PFX" :: "SFX" :: tableKeys) (hk : ∀ a ∈ between, a.key ∉ ["FLAG", "AF"]) {D : Dict}
    (hp : parse U S aff dic = .ok D) : parse U S aff' dic = .ok D := by
  obtain ⟨l, hl, e⟩ := h
  obtain ⟨l', hl', e'⟩ := h'
  rw [content_iff.1 hl] at e
  rw [content_iff.1 hl'] at e'
  simp only [List.mem_cons, not_or] at hv
  obtain ⟨cx, hc, -, hd, -, hA⟩ := parse_ok_inv hp
  rw [parseAff_iff, e] at hc
  refine parse_ok (parseAff_iff.2 ?_) hd (hA _)
  rw [e']
  exact Blocks.reads_last hw hbb hv.2.2.2 (by simpa using ⟨hv.2.1, hv.2.2.1⟩) hv.1 hk hc

/-! ## Examples -/

/-- Some blocks. -/
def orderFlag : Block := ⟨"FLAG", "FLAG num".toList, ["num".toList], []⟩
@[inherit_doc orderFlag]
def orderTry : Block := ⟨"TRY", "TRY ob".toList, ["ob".toList], []⟩
@[inherit_doc orderFlag]
def orderTry' : Block := ⟨"TRY", "TRY fu".toList, ["fu".toList], []⟩
@[inherit_doc orderFlag]
def orderRep : Block := ⟨"REP", "REP 1".toList, ["1".toList], ["REP u o".toList]⟩
@[inherit_doc orderFlag]
def orderSfx : Block :=
  ⟨"SFX", "SFX 1 Y 1".toList, ["1".toList, "Y".toList, "1".toList], ["SFX 1 0 s .".toList]⟩

theorem isNumeral_one : IsNumeral ['1'] 1 := (parseUInt_ok (max := 1)).1 (by decide +kernel) |>.1

theorem order_wellCut : ∀ b ∈ [orderTry, orderTry', orderRep, orderSfx], b.WellCut .sample := by
  simp only [List.forall_mem_cons]
  refine ⟨⟨by decide, by decide +kernel, fun h => absurd h (by decide), fun h => absurd h (by decide), fun _ _ => rfl⟩,
    ⟨by decide, by decide +kernel, fun h => absurd h (by decide), fun h => absurd h (by decide), fun _ _ => rfl⟩,
    ⟨by decide, by decide +kernel, fun _ w hw => ?_, fun h => absurd h (by decide), fun h => absurd (by decide) h⟩,
    ⟨by decide, by decide +kernel, fun h => absurd h (by decide), fun _ w hw => ?_, fun _ h => absurd (by decide) h⟩,
    by simp⟩
  · cases hw; exact isNumeral_one
  · cases hw; exact isNumeral_one

/-- The blocks in one order and in another one; flags are numbers in both. -/
def orderAff : String := "FLAG num\nTRY ob\nREP 1\nREP u o\nTRY fu\nSFX 1 Y 1\nSFX 1 0 s .\n"
@[inherit_doc orderAff]
def orderAff' : String := "FLAG num\nSFX 1 Y 1\nSFX 1 0 s .\nTRY ob\n# a comment\nTRY fu\nREP 1\nREP u o\n"

theorem order_lines : HasLines .sample orderAff.toList
    (["FLAG num".toList] ++ ([orderTry, orderRep, orderTry', orderSfx].map Block.lines).flatten) :=
  ⟨contentLines .sample orderAff.toList, content_iff.2 rfl, by decide +kernel⟩

theorem order_lines' : HasLines .sample orderAff'.toList
    (["FLAG num".toList] ++ ([orderSfx, orderTry, orderTry', orderRep].map Block.lines).flatten) :=
  ⟨contentLines .sample orderAff'.toList, content_iff.2 rfl, by decide +kernel⟩

theorem order_head : Reads .sample {} ["FLAG num".toList] { flagType := .numeric } :=
  .directive (rows := []) (key := "FLAG") (args := ["num".toList]) (by decide +kernel) (.flagType .num) .done

theorem order_same (key : String) : [orderTry, orderRep, orderTry', orderSfx].filter (·.key = key) =
    [orderSfx, orderTry, orderTry', orderRep].filter (·.key = key) := by
  have h1 : orderTry.key = "TRY" := rfl
  have h2 : orderTry'.key = "TRY" := rfl
  have h3 : orderRep.key = "REP" := rfl
  have h4 : orderSfx.key = "SFX" := rfl
  simp only [List.filter_cons, h1, h2, h3, h4, List.filter_nil, decide_eq_true_eq]
  by_cases e1 : "TRY" = key
  · subst e1; simp
  · by_cases e2 : "REP" = key
    · subst e2; simp
    · simp only [if_neg e1, if_neg e2]

/-- The theorem speaks about texts with tables and affixes. -/
theorem order_example (S : Sorts) (dic : Str) (D : Dict) :
    parse .sample S orderAff.toList dic = .ok D ↔ parse .sample S orderAff'.toList dic = .ok D :=
  C95_order order_lines order_lines' order_head
    (fun b hb => order_wellCut b (by simp only [List.mem_cons, List.not_mem_nil, or_false] at hb ⊢; tauto)) (by decide)
    order_same D

/-- Such a text makes a dictionary which uses all blocks. -/
example : ∃ C C' : Checker, loadChecker orderAff "1\nfoo/1\n" = some C ∧ loadChecker orderAff' "1\nfoo/1\n" = some C' ∧
    C.dict = C'.dict ∧ C'.check 9 "foos".toList = .ok true ∧
    (editsOnly C').suggest 9 1 "fuo".toList [] = .ok ["foo".toList] := by
  obtain ⟨C, h1, h2⟩ := of_load (aff := orderAff) (dic := "1\nfoo/1\n") (L := .default)
    (p := fun C => true) (by decide +kernel)
  obtain ⟨C', h3, h4⟩ := of_load (aff := orderAff') (dic := "1\nfoo/1\n") (L := .default)
    (p := fun C => decide (C.check 9 "foos".toList = .ok true) &&
      decide ((editsOnly C).suggest 9 1 "fuo".toList [] = .ok ["foo".toList])) (by decide +kernel)
  simp only [Bool.and_eq_true, decide_eq_true_eq] at h4
  refine ⟨C, C', h1, h3, ?_, h4.1, h4.2⟩
  unfold loadChecker at h1 h3
  split at h1
  · rename_i D hD
    simp only [Option.some.injEq] at h1
    rw [order_example] at hD
    rw [hD] at h3
    simp only [Option.some.injEq] at h3
    rw [← h1, ← h3]
  · cases h1

/-- A text with two values for TRY can do without the first one. -/
theorem last_example (S : Sorts) (dic : Str) (D : Dict) (h : parse .sample S orderAff.toList dic = .ok D) :
    parse .sample S "FLAG num\nREP 1\nREP u o\nTRY fu\nSFX 1 Y 1\nSFX 1 0 s .\n".toList dic = .ok D := by
  refine C95_last (before := [orderFlag]) (b := orderTry) (between := [orderRep]) (b' := orderTry') (after := [orderSfx])
    order_lines ⟨contentLines .sample _, content_iff.2 rfl, by decide +kernel⟩ ?_ rfl (by decide) (by decide) h
  have h1 : orderFlag.WellCut .sample :=
    ⟨by decide, by decide +kernel, fun h => absurd h (by decide), fun h => absurd h (by decide), fun _ _ => rfl⟩
  have h2 := order_wellCut
  simp only [List.forall_mem_cons, List.cons_append, List.nil_append] at h2 ⊢
  tauto

/-- **C95** (the exception): FLAG and AF tell how to read what is below them. -/
theorem C95_flags_first : ∃ C C' A A' : Checker, loadChecker "FLAG num\nKEEPCASE 65\n" "1\nfoo/65\n" = some C ∧
    loadChecker "KEEPCASE 65\nFLAG num\n" "1\nfoo/65\n" = some C' ∧
    C.check 9 "Foo".toList = .ok false ∧ C'.check 9 "Foo".toList = .ok true ∧
    loadChecker "AF 1\nAF T\nSFX S Y 1\nSFX S 0 s/1 .\nSFX T Y 1\nSFX T 0 t .\n" "1\nfoo/S\n" = some A ∧
    loadChecker "SFX S Y 1\nSFX S 0 s/1 .\nSFX T Y 1\nSFX T 0 t .\nAF 1\nAF T\n" "1\nfoo/S\n" = some A' ∧
    A.check 9 "foost".toList = .ok true ∧ A'.check 9 "foost".toList = .ok false := by
  obtain ⟨C, h1, h2⟩ := of_load (aff := "FLAG num\nKEEPCASE 65\n") (dic := "1\nfoo/65\n") (L := .default)
    (p := fun C => decide (C.check 9 "Foo".toList = .ok false)) (by decide +kernel)
  obtain ⟨C', h3, h4⟩ := of_load (aff := "KEEPCASE 65\nFLAG num\n") (dic := "1\nfoo/65\n") (L := .default)
    (p := fun C => decide (C.check 9 "Foo".toList = .ok true)) (by decide +kernel)
  obtain ⟨A, h5, h6⟩ := of_load (aff := "AF 1\nAF T\nSFX S Y 1\nSFX S 0 s/1 .\nSFX T Y 1\nSFX T 0 t .\n")
    (dic := "1\nfoo/S\n") (L := .default)
    (p := fun C => decide (C.check 9 "foost".toList = .ok true)) (by decide +kernel)
  obtain ⟨A', h7, h8⟩ := of_load (aff := "SFX S Y 1\nSFX S 0 s/1 .\nSFX T Y 1\nSFX T 0 t .\nAF 1\nAF T\n")
    (dic := "1\nfoo/S\n") (L := .default)
    (p := fun C => decide (C.check 9 "foost".toList = .ok false)) (by decide +kernel)
  simp only [decide_eq_true_eq] at h2 h4 h6 h8
  exact ⟨C, C', A, A', h1, h3, h2, h4, h5, h7, h6, h8⟩

end Props
end Spellbook
