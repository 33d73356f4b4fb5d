import Verif.Spec.Repeat
import Verif.Proof.Order
import Verif.Proof.SuggestSame
import Verif.Proof.Unused
/-!
# Repeated entries and repeated affix rules
-/

namespace Spellbook
open Spec
namespace Repeat

theorem findSome_erase {α β : Type} [BEq α] [LawfulBEq α] {f : α → Option β} : ∀ (n : Nat) (l : List α), l.length ≤ n →
    l.eraseDups.findSome? f = l.findSome? f
  | _, [], _ => rfl
  | n + 1, a :: l, h => by
    rw [List.eraseDups_cons, List.findSome?_cons, List.findSome?_cons]
    cases hf : f a with
    | some b => rfl
    | none =>
      rw [findSome_erase n _ (Nat.le_trans (List.length_filter_le ..) (by simpa using h))]
      refine Unused.findSome_filter (fun _ _ _ => rfl) fun b _ hb => ?_
      have : b = a := by simpa using hb
      rw [this, hf]

theorem findSome_congr {α β : Type} [BEq α] [LawfulBEq α] {l l' : List α} (h : l.eraseDups = l'.eraseDups)
    (f : α → Option β) : l.findSome? f = l'.findSome? f := by
  rw [← findSome_erase _ l (Nat.le_refl _), h, findSome_erase _ l' (Nat.le_refl _)]

theorem findSome_filter {α β : Type} (p : α → Bool) (f : α → Option β) (l : List α) :
    (l.filter p).findSome? f = l.findSome? fun a => if p a = true then f a else none :=
  Unused.findSome_filter (fun a _ h => by rw [if_pos h]) fun a _ h => by rw [if_neg (by rw [h]; decide)]

theorem mem_erase {α : Type} [BEq α] [LawfulBEq α] {l l' : List α} (h : l.eraseDups = l'.eraseDups) {a : α}
    (ha : a ∈ l) : a ∈ l' := by
  rw [← List.mem_eraseDups] at ha ⊢
  rwa [← h]

theorem findSome_const {α β : Type} {l l' : List α} (h : ∀ a, a ∈ l ↔ a ∈ l') (hc : ∀ a ∈ l, ∀ b ∈ l, a = b)
    (f : α → Option β) : l.findSome? f = l'.findSome? f := by
  have key : ∀ {m : List α} {a : α}, a ∈ m → (∀ b ∈ m, b = a) → m.findSome? f = f a := by
    intro m a ha hm
    cases hf : f a with
    | none => exact List.findSome?_eq_none_iff.2 fun b hb => by rw [hm b hb, hf]
    | some r =>
      cases m with
      | nil => cases ha
      | cons b m => rw [List.findSome?_cons, hm b (.head _), hf]
  cases l with
  | nil =>
    cases l' with
    | nil => rfl
    | cons b _ => cases (h b).2 (.head _)
  | cons a l =>
    rw [key (.head _) fun b hb => hc b hb a (.head _)]
    exact (key ((h a).1 (.head _)) fun b hb => hc b ((h b).2 hb) a (.head _)).symm

variable {D D' : Dict}

theorem table (h : SameOnce D D') (k : Kind) {C C' : Checker} (e : C.dict = D) (e' : C'.dict = D') :
    (C.index k).table.eraseDups = (C'.index k).table.eraseDups := by
  subst e e'
  cases k with
  | pfx => exact h.prefixes
  | sfx => exact h.suffixes

theorem allFlags {k : Kind} {idx idx' : AffixIndex k} (h : idx.table.eraseDups = idx'.table.eraseDups) :
    idx.allFlags = idx'.allFlags := by
  refine FlagSet.ext fun f => ?_
  rw [Bool.eq_iff_iff, Unused.mem_allFlags, Unused.mem_allFlags]
  exact ⟨fun ⟨a, ha, hf⟩ => ⟨a, mem_erase h ha, hf⟩, fun ⟨a, ha, hf⟩ => ⟨a, mem_erase h.symm ha, hf⟩⟩

theorem alike {C C' : Checker} (hU : C.U = C'.U) (h : SameOnce C.dict C'.dict) (hn : NoConflict C.dict)
    (h1 : C.checkLowerAsTitle = C'.checkLowerAsTitle) (h2 : C.checkLowerAsUpper = C'.checkLowerAsUpper) :
    Checker.Alike C C' where
  toSameForms := by
    have hs := h.settings
    refine Checker.SameTries.forms
      { U := hU, opts := ?_, breakTable := ?_, compoundRules := ?_, compoundSyllableVowels := ?_, compoundPatterns := ?_,
        inputConversions := ?_, outputConversions := ?_, replacements := ?_, similarities := ?_, ignoreChars := ?_,
        keyboardCloseness := ?_, tryChars := ?_, found := ?_, tried := ?_, allFlags := ?_ }
    case refine_13 =>
      intro β w f
      refine findSome_const (fun e => ?_) (fun a ha b hb => ?_) f
      · rw [Checker.entries, Checker.entries, Bag.mem_get, Bag.mem_get, h.words]
      · obtain ⟨a1, a2⟩ := a
        obtain ⟨b1, b2⟩ := b
        obtain ⟨m1, rfl⟩ := Bag.mem_get.1 ha
        obtain ⟨m2, rfl⟩ := Bag.mem_get.1 hb
        rw [hn _ _ _ m1 m2]
    case refine_14 =>
      intro β k w f
      rw [Checker.affixesOf, Checker.affixesOf, AffixIndex.affixesOf_eq, AffixIndex.affixesOf_eq, findSome_filter,
        findSome_filter]
      exact findSome_congr (table h k rfl rfl) _
    case refine_15 => exact fun k => allFlags (table h k rfl rfl)
    all_goals
      simp only [Checker.opts, Checker.aff]
      rw [hs]
  lowerAsTitle := h1
  lowerAsUpper := h2

end Repeat
end Spellbook
