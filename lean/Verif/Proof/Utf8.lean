import Verif.Model.Str

/-!
# UTF-8 facts used everywhere: byte-wise matching is character-wise matching
-/

namespace Spellbook

@[simp] theorem utf8_nil : utf8 [] = [] := rfl

@[simp] theorem utf8_cons (c : Char) (s : Str) : utf8 (c :: s) = String.utf8EncodeChar c ++ utf8 s := rfl

@[simp] theorem utf8_append (a b : Str) : utf8 (a ++ b) = utf8 a ++ utf8 b := by
  simp [utf8]

@[simp] theorem byteLen_nil : byteLen [] = 0 := rfl

@[simp] theorem byteLen_cons (c : Char) (s : Str) : byteLen (c :: s) = c.utf8Size + byteLen s := by
  simp [byteLen]

@[simp] theorem byteLen_append (a b : Str) : byteLen (a ++ b) = byteLen a + byteLen b := by
  simp [byteLen]

theorem length_le_byteLen (s : Str) : s.length ≤ byteLen s := by
  induction s with
  | nil => simp
  | cons c s ih => have := c.utf8Size_pos; simp; omega

theorem byteLen_le_four_mul (s : Str) : byteLen s ≤ 4 * s.length := by
  induction s with
  | nil => simp
  | cons c s ih => have := c.utf8Size_le_four; simp; omega

@[simp] theorem utf8_eq_nil {s : Str} : utf8 s = [] ↔ s = [] := by
  cases s with
  | nil => simp
  | cons c s => simp

@[simp] theorem byteLen_eq_zero {s : Str} : byteLen s = 0 ↔ s = [] := by
  simp [byteLen]

/-- The first character of a UTF-8 byte sequence is determined by the bytes. -/
theorem utf8Encode_append_inj {c d : Char} {s t : List UInt8}
    (h : String.utf8EncodeChar c ++ s = String.utf8EncodeChar d ++ t) : c = d ∧ s = t := by
  have hc := ByteArray.utf8DecodeChar?_utf8EncodeChar_append (c := c) (b := s.toByteArray)
  have hd := ByteArray.utf8DecodeChar?_utf8EncodeChar_append (c := d) (b := t.toByteArray)
  rw [← List.toByteArray_append] at hc hd
  rw [h, hd] at hc
  have hcd : c = d := (Option.some.inj hc).symm
  subst hcd
  exact ⟨rfl, List.append_cancel_left h⟩

theorem utf8_prefix_iff {a w : Str} : utf8 a <+: utf8 w ↔ a <+: w := by
  constructor
  · intro h
    induction a generalizing w with
    | nil => exact List.nil_prefix
    | cons c a ih =>
      cases w with
      | nil =>
        simp [List.prefix_nil] at h
      | cons d w =>
        obtain ⟨t, ht⟩ := h
        simp only [utf8_cons, List.append_assoc] at ht
        obtain ⟨rfl, h2⟩ := utf8Encode_append_inj ht
        exact (List.cons_prefix_cons).2 ⟨rfl, ih ⟨t, h2⟩⟩
  · rintro ⟨t, rfl⟩
    simp

theorem utf8_inj {a b : Str} : utf8 a = utf8 b ↔ a = b := by
  constructor
  · intro h
    have h1 : a <+: b := utf8_prefix_iff.1 (by rw [h]; exact List.prefix_refl _)
    have h2 : b <+: a := utf8_prefix_iff.1 (by rw [h]; exact List.prefix_refl _)
    exact List.IsPrefix.eq_of_length_le h1 h2.length_le
  · rintro rfl; rfl

/-- Cutting UTF-8 bytes in front of a first byte (or at the end) is cutting between characters. -/
theorem utf8_split {w : Str} {t b : List UInt8} (h : utf8 w = t ++ b)
    (hb : ∀ x xs, b = x :: xs → x.IsUTF8FirstByte) :
    ∃ w1 w2, w = w1 ++ w2 ∧ utf8 w1 = t ∧ utf8 w2 = b := by
  induction w generalizing t with
  | nil =>
    simp at h
    exact ⟨[], [], by simp, by simp [h.1], by simp [h.2]⟩
  | cons c w ih =>
    by_cases ht : t = []
    · subst ht
      exact ⟨[], c :: w, rfl, rfl, by simpa using h⟩
    rw [utf8_cons] at h
    rcases List.append_eq_append_iff.1 h with ⟨a', ha, hb'⟩ | ⟨c', hc, hd⟩
    · obtain ⟨w1, w2, rfl, h1, h2⟩ := ih (t := a') hb'
      exact ⟨c :: w1, w2, rfl, by simp [ha, h1], h2⟩
    · -- `enc c = t ++ c'`, `b = c' ++ utf8 w`
      cases c' with
      | nil =>
        refine ⟨[c], w, rfl, by simpa using hc, by simpa using hd.symm⟩
      | cons x xs =>
        exfalso
        have hx := hb x (xs ++ utf8 w) (by simpa using hd)
        have hlen : t.length < (String.utf8EncodeChar c).length := by rw [hc]; simp
        have hget : (String.utf8EncodeChar c)[t.length]'hlen = x := by
          simp [hc]
        rw [← hget] at hx
        have := UInt8.isUTF8FirstByte_getElem_utf8EncodeChar.1 hx
        exact ht (List.length_eq_zero_iff.1 this)

theorem utf8_head_firstByte {a : Str} {x : UInt8} {xs : List UInt8} (h : utf8 a = x :: xs) :
    x.IsUTF8FirstByte := by
  cases a with
  | nil => simp at h
  | cons c a =>
    have h0 := UInt8.isUTF8FirstByte_getElem_zero_utf8EncodeChar (c := c)
    have h1 : (String.utf8EncodeChar c)[0]? = some x := by
      have hp := c.utf8Size_pos
      have : (utf8 (c :: a))[0]? = some x := by rw [h]; rfl
      rwa [utf8_cons, List.getElem?_append_left (by simpa using hp)] at this
    obtain ⟨_, h2⟩ := List.getElem?_eq_some_iff.1 h1
    rwa [h2] at h0

theorem utf8_suffix_iff {a w : Str} : utf8 a <:+ utf8 w ↔ a <:+ w := by
  constructor
  · rintro ⟨t, ht⟩
    obtain ⟨w1, w2, rfl, _, h2⟩ := utf8_split ht.symm (fun x xs h => utf8_head_firstByte h)
    rw [utf8_inj] at h2
    exact ⟨w1, by rw [h2]⟩
  · rintro ⟨t, rfl⟩
    exact ⟨utf8 t, by simp⟩

end Spellbook
