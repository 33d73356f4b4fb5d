import Verif.Proof.ByteOrder
import Verif.Props.Rename
import Verif.Props.Growth
/-!
# C88 The byte order of the machine does not matter

With `FLAG long` the two bytes of a flag are read as a number in the byte order of the machine
(`u16::from_ne_bytes`, `src/aff/parser.rs` 1088, 1135, 1453). The numbers differ, the answers do not.
-/

namespace Spellbook
namespace Props
open Spec

/-- The texts are such that the byte order does not matter: no NUL characters, and `FLAG long` in front of the
flags, if it is used. -/
abbrev Portable (U : Unicode) (aff dic : Str) : Prop :=
  LongFirst U aff ∧ Char.ofNat 0 ∉ aff ∧ Char.ofNat 0 ∉ dic ∨ NoLong U aff

/-- **C88**: a pair of texts is loaded on the big-endian machine if it is on the little-endian one, and is refused
with the same error in the same line otherwise. -/
theorem C88_load {U : Unicode} {S : Sorts} (hS : ByAppending S) {aff dic : Str} (h : Portable U aff dic) :
    (∃ D D', parse (withOrder U .little) S aff dic = .ok D ∧ parse (withOrder U .big) S aff dic = .ok D' ∧
      BothHold U D D') ∨
    ∃ e, parse (withOrder U .little) S aff dic = .error e ∧ parse (withOrder U .big) S aff dic = .error e := by
  have key : ∃ f : Dict → Dict, parse (withOrder U .big) S aff dic = (parse (withOrder U .little) S aff dic).map f := by
    rcases h with ⟨h1, h2, h3⟩ | h
    · exact ⟨_, Orders.parse_swap hS h1 h2 h3⟩
    · refine ⟨id, ?_⟩
      rw [Orders.parse_plain h]
      cases parse (withOrder U .little) S aff dic <;> rfl
  obtain ⟨f, hf⟩ := key
  cases hp : parse (withOrder U .little) S aff dic with
  | ok D =>
    rw [hp] at hf
    exact .inl ⟨D, f D, rfl, hf, .loaded hS h hp hf⟩
  | error e =>
    rw [hp] at hf
    exact .inr ⟨e, rfl, hf⟩

/-- **C88**: what is in memory differs in the bytes of the flags only. -/
theorem C88_memory {U : Unicode} {D D' : Dict} (h : BothHold U D D') :
    (D.aff.flagType = .long .little ∧ D' = swapDict D) ∨ D' = D :=
  (Orders.both h).imp_right fun h => h.2

/-- **C88**: a line is added on both machines, or refused on both with the same error. -/
theorem C88_add {U : Unicode} {D D' : Dict} (h : BothHold U D D') {line : Str} (hl : Char.ofNat 0 ∉ line) :
    (∃ E E', D.add (withOrder U .little) line = .ok E ∧ D'.add (withOrder U .big) line = .ok E' ∧ BothHold U E E') ∨
    ∃ e, D.add (withOrder U .little) line = .error e ∧ D'.add (withOrder U .big) line = .error e := by
  have key : ∃ f : Dict → Dict, D'.add (withOrder U .big) line = (D.add (withOrder U .little) line).map f := by
    rcases Orders.both h with ⟨h1, rfl⟩ | ⟨h1, rfl⟩
    · exact ⟨_, Orders.add_swap h1 hl⟩
    · refine ⟨id, ?_⟩
      rw [Orders.add_plain]
      cases D'.add (withOrder U .little) line <;> rfl
  obtain ⟨f, hf⟩ := key
  cases hp : D.add (withOrder U .little) line with
  | ok E =>
    rw [hp] at hf
    exact .inl ⟨E, f E, rfl, hf, .added h hl hp hf⟩
  | error e =>
    rw [hp] at hf
    exact .inr ⟨e, rfl, hf⟩

/-- **C88**: `remove_stem` reports the same on both machines. -/
theorem C88_remove {U : Unicode} {D D' : Dict} (h : BothHold U D D') (L : Layout) (stem : Str) :
    (D'.removeStem L stem).1 = (D.removeStem L stem).1 := by
  rcases Orders.both h with ⟨-, rfl⟩ | ⟨-, rfl⟩
  · rw [Orders.remove_swap]
  · rfl

/-- **C88**: `check` gives the same answer on both machines. -/
theorem C88_check {U : Unicode} {D D' : Dict} (h : BothHold U D D') (L : Layout) (title upper : Bool) (fuel : Nat)
    (word : Str) :
    (Checker.mk (withOrder U .big) L D' title upper).check fuel word =
      (Checker.mk (withOrder U .little) L D title upper).check fuel word := by
  have e := Orders.check_order ⟨withOrder U .little, L, D', title, upper⟩ .big fuel word
  refine Eq.trans e ?_
  rcases Orders.both h with ⟨-, rfl⟩ | ⟨-, rfl⟩
  · exact C87_check (C := ⟨withOrder U .little, L, D, title, upper⟩) (Orders.swap_renaming _) (swapWriting D.aff) fuel word
  · rfl

/-- **C88**: `suggest` gives the same suggestions on both machines. -/
theorem C88_suggest {U : Unicode} {D D' : Dict} (h : BothHold U D D') (L : Layout) (title upper : Bool) {H : Heaps}
    (hH : ByScore H) (ngram : Bool) (fuel depth : Nat) (word : Str) (out : List Str) :
    (Suggester.mk (Checker.mk (withOrder U .big) L D' title upper) H ngram).suggest fuel depth word out =
      (Suggester.mk (Checker.mk (withOrder U .little) L D title upper) H ngram).suggest fuel depth word out := by
  have e := Orders.suggest_order ⟨⟨withOrder U .little, L, D', title, upper⟩, H, ngram⟩ .big fuel depth word out
  refine Eq.trans e ?_
  rcases Orders.both h with ⟨-, rfl⟩ | ⟨-, rfl⟩
  · exact C87_suggest (S := ⟨⟨withOrder U .little, L, D, title, upper⟩, H, ngram⟩) (Orders.swap_renaming _) hH
      (swapWriting D.aff) fuel depth word out
  · rfl

/-! ## Examples -/

/-- A test for `LongFirst`: the number of lines in front of `FLAG long` is given. -/
def longFirst (U : Unicode) (aff : Str) (n : Nat) : Bool :=
  let lines := contentLines U aff
  let first := fun l : Nat × Str => (splitWhitespace U l.2).head?
  (lines.take n).all (fun l => ("FLAG" :: flagReaders).all fun k => first l != some k.toList) &&
  (match lines.drop n with
    | [] => false
    | l :: rest => (splitWhitespace U l.2).take 2 == ["FLAG".toList, "long".toList] &&
      rest.all fun l => first l != some "FLAG".toList)

theorem lineOf_iff {U : Unicode} {l : Str} {k : String} : LineOf U l k ↔ (splitWhitespace U l).head? = some k.toList := by
  unfold LineOf
  cases splitWhitespace U l <;> simp

theorem longFirst_sound {U : Unicode} {aff : Str} {n : Nat} (h : longFirst U aff n = true) : LongFirst U aff := by
  unfold longFirst at h
  simp only [Bool.and_eq_true] at h
  obtain ⟨h1, h2⟩ := h
  cases hd : (contentLines U aff).drop n with
  | nil => rw [hd] at h2; cases h2
  | cons l rest =>
    rw [hd] at h2
    simp only [Bool.and_eq_true, beq_iff_eq, List.all_eq_true, bne_iff_ne, ne_eq] at h1 h2
    refine ⟨(contentLines U aff).take n, l, rest, content_iff.2 ?_, ?_, ?_, ?_⟩
    · rw [← hd, List.take_append_drop]
    · intro x hx
      refine ⟨fun h => h1 x hx "FLAG" (by simp) (lineOf_iff.1 h), fun k hk h => ?_⟩
      exact h1 x hx k (by simp [hk]) (lineOf_iff.1 h)
    · have h3 := h2.1
      cases hs : splitWhitespace U l.2 with
      | nil => rw [hs] at h3; simp at h3
      | cons a t =>
        cases t with
        | nil => rw [hs] at h3; simp at h3
        | cons b t =>
          rw [hs] at h3
          simp only [List.take_succ_cons, List.take_zero, List.cons.injEq, and_true] at h3
          exact ⟨t, by rw [h3.1, h3.2]⟩
    · intro x hx h
      exact h2.2 x hx (lineOf_iff.1 h)

/-- The dictionaries which the two machines load. -/
def loadBoth (aff dic : String) : Option (Dict × Dict) :=
  match parse (withOrder .sample .little) .default aff.toList dic.toList,
    parse (withOrder .sample .big) .default aff.toList dic.toList with
  | .ok D, .ok D' => some (D, D')
  | _, _ => none

theorem of_both {aff dic : String} {p : Dict → Dict → Bool}
    (h : ((loadBoth aff dic).any fun x => p x.1 x.2) = true) : ∃ D D',
    parse (withOrder .sample .little) .default aff.toList dic.toList = .ok D ∧
    parse (withOrder .sample .big) .default aff.toList dic.toList = .ok D' ∧ p D D' = true := by
  unfold loadBoth at h
  split at h
  · rename_i D D' h1 h2
    exact ⟨D, D', h1, h2, h⟩
  · cases h

abbrev machine (o : ByteOrder) (D : Dict) : Checker := { U := withOrder .sample o, L := .default, dict := D }

/-- A dictionary with affixes and compounds: the numbers of the flags differ, the answers do not. -/
example : ∃ D D', BothHold .sample D D' ∧ D ≠ D' ∧
    D.aff.options.compoundFlag = some 25923 ∧ D'.aff.options.compoundFlag = some 17253 ∧
    (machine .little D).check 9 "cats".toList = .ok true ∧ (machine .big D').check 9 "cats".toList = .ok true ∧
    (machine .big D').check 9 "catfoo".toList = .ok true ∧ (machine .big D').check 9 "foos".toList = .ok false := by
  obtain ⟨D, D', h1, h2, h⟩ := of_both
    (aff := "SET UTF-8\n# flags\nFLAG long\nCOMPOUNDMIN 1\nCOMPOUNDFLAG Ce\nSFX Ab Y 1\nSFX Ab 0 s .\n")
    (dic := "2\ncat/AbCe\nfoo/Ce\n") (p := fun D D' =>
      decide (D.aff.options.compoundFlag = some 25923) && decide (D'.aff.options.compoundFlag = some 17253) &&
      decide ((machine .little D).check 9 "cats".toList = .ok true) &&
      decide ((machine .big D').check 9 "cats".toList = .ok true) &&
      decide ((machine .big D').check 9 "catfoo".toList = .ok true) &&
      decide ((machine .big D').check 9 "foos".toList = .ok false)) (by decide +kernel)
  simp only [Bool.and_eq_true, decide_eq_true_eq] at h
  obtain ⟨⟨⟨⟨⟨c1, c2⟩, a1⟩, a2⟩, a3⟩, a4⟩ := h
  refine ⟨D, D', .loaded Orders.default_byAppending (.inl ⟨longFirst_sound (n := 1) (by decide +kernel),
    by decide +kernel, by decide +kernel⟩) h1 h2, fun e => ?_, c1, c2, a1, a2, a3, a4⟩
  rw [e, c2] at c1
  simp at c1

/-- **C88** (`FLAG long` in front of the flags): a flag that is named before, as a number, is another one on the other
machine. -/
theorem C88_order_needed : ∃ (aff dic : Str) (D D' : Dict), Char.ofNat 0 ∉ aff ∧ Char.ofNat 0 ∉ dic ∧
    parse (withOrder .sample .little) .default aff dic = .ok D ∧
    parse (withOrder .sample .big) .default aff dic = .ok D' ∧
    (machine .little D).check 9 "foofoo".toList = .ok true ∧ (machine .big D').check 9 "foofoo".toList = .ok false := by
  obtain ⟨D, D', h1, h2, h⟩ := of_both (aff := "FLAG num\nCOMPOUNDFLAG 16961\nFLAG long\n") (dic := "1\nfoo/AB\n")
    (p := fun D D' => decide ((machine .little D).check 9 "foofoo".toList = .ok true) &&
      decide ((machine .big D').check 9 "foofoo".toList = .ok false)) (by decide +kernel)
  simp only [Bool.and_eq_true, decide_eq_true_eq] at h
  exact ⟨_, _, D, D', by decide +kernel, by decide +kernel, h1, h2, h.1, h.2⟩

/-- **C88** (no NUL characters): with COMPOUNDSYLLABLE the flag `I` has a meaning; a file can name it as `I` and NUL on
the little-endian machine only. -/
theorem C88_nul_needed : ∃ (aff dic : Str) (D D' : Dict), LongFirst .sample aff ∧ Char.ofNat 0 ∉ aff ∧
    parse (withOrder .sample .little) .default aff dic = .ok D ∧
    parse (withOrder .sample .big) .default aff dic = .ok D' ∧
    (machine .little D).check 9 "foobar".toList = .ok true ∧ (machine .big D').check 9 "foobar".toList = .ok false := by
  obtain ⟨D, D', h1, h2, h⟩ := of_both
    (aff := "FLAG long\nCOMPOUNDFLAG Ce\nCOMPOUNDWORDMAX 1\nCOMPOUNDSYLLABLE 2 aeiou\n")
    (dic := "2\nfoo/Ce\nbar/CeI\x00\n")
    (p := fun D D' => decide ((machine .little D).check 9 "foobar".toList = .ok true) &&
      decide ((machine .big D').check 9 "foobar".toList = .ok false)) (by decide +kernel)
  simp only [Bool.and_eq_true, decide_eq_true_eq] at h
  exact ⟨_, _, D, D', longFirst_sound (n := 0) (by decide +kernel), by decide +kernel, h1, h2, h.1, h.2⟩

end Props
end Spellbook
