import Verif.Proof.NgramBytes
import Verif.Props.Suggest
/-!
# C64 The byte offsets of suggestions by similarity

`Bytes.CharsStr` is a text with the byte offsets of its characters as 16-bit numbers; its methods slice the
text by `unsafe` code, and a slice which is not made of whole characters is an error in the model.
-/

namespace Spellbook.Props
open Spec

/-- **C64**: `CharsStr::new` refuses exactly the texts of more than 65535 bytes. -/
theorem C64_refused (s : Str) : Bytes.CharsStr.new s = .error .panic ↔ 65535 < (utf8 s).length := by
  unfold Bytes.CharsStr.new
  rw [← length_utf8]
  split
  · constructor
    · intro h; cases h
    · omega
  · exact ⟨fun _ => by omega, fun _ => rfl⟩

/-- **C64**: of every other text it finds all the characters: their number, each of them, and each part of
the text by the number of characters before it and in it. -/
theorem C64_characters {s : Str} {c : Bytes.CharsStr} (h : Bytes.CharsStr.new s = .ok c) :
    c.inner = s ∧ c.lenChars = s.length ∧ (c.isEmpty = true ↔ s = []) ∧
    c.charIter = .ok (s.map fun x => [x]) ∧
    (∀ front x back, s = front ++ x :: back → c.charAt front.length = .ok [x]) ∧
    ∀ front part back, s = front ++ part ++ back →
      c.charSlice front.length (front.length + part.length) = .ok part := by
  obtain ⟨hs, rfl⟩ : Bytes.Short s ∧ Bytes.ofStr s = c := by
    unfold Bytes.CharsStr.new at h
    split at h
    · next hs => exact ⟨hs, Except.ok.inj h⟩
    · cases h
  refine ⟨rfl, Bytes.lenChars_ofStr s, ?_, Bytes.charIter_eq hs, ?_, ?_⟩
  · rw [Bytes.isEmpty_ofStr, List.isEmpty_iff]
  · rintro front x back rfl
    rw [Bytes.charAt_eq hs (by simp)]
    simp
  · rintro front part back rfl
    rw [Bytes.charSlice_eq hs (Nat.le_add_right ..) (by simp)]
    rw [slice, ← List.length_append, List.take_left, List.drop_left]

/-- **C64**: suggestions by similarity computed with the offsets are those computed on lists of characters,
for every dictionary, word, heap and list of earlier suggestions; no index is out of bounds and no slice
inside a character, as `Checker.ngramSuggest` has no indices. -/
theorem C64_suggest (C : Checker) (H : Heaps) (word : Str) (out : List Str) :
    Bytes.ngramSuggest C H word out = C.ngramSuggest H word out :=
  Bytes.ngramSuggest_eq C H word out

/-- A text with characters of one to four bytes. -/
example : ∃ c, Bytes.CharsStr.new "aé€🦀".toList = .ok c ∧ c.charIndices = [0, 1, 3, 6, 10] ∧
    c.charSlice 1 3 = .ok "é€".toList ∧ c.charAt 3 = .ok "🦀".toList ∧ c.charAt 4 = .error .panic :=
  ⟨_, rfl, by decide +kernel⟩

example : 65535 < (utf8 (List.replicate 65536 'a')).length := by
  rw [length_utf8, byteLen_replicate]; decide

/-- Suggestions with two-byte letters. -/
example : ∃ C : Checker, Reachable .sample C.dict ∧
    Bytes.ngramSuggest C .sample "éxàmplé".toList [] = .ok ["éxàmple".toList] := by
  obtain ⟨C, h1, h2⟩ := of_load (aff := "") (dic := "3\néxàmple\nbar\nßü\n") (L := .default) (p := fun C =>
    Bytes.ngramSuggest C .sample "éxàmplé".toList [] = .ok ["éxàmple".toList]) (by decide +kernel)
  exact ⟨C, (loadChecker_reachable h1).1, of_decide_eq_true h2⟩

end Spellbook.Props
