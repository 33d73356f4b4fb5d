import Verif.Model.Edits
import Verif.Proof.Utf8
import Verif.Proof.Words
/-!
# The byte level edits are edits of characters
-/

namespace Spellbook

theorem fromUtf8?_utf8 (s : Str) : fromUtf8? (utf8 s) = some s := by
  induction s with
  | nil => rw [utf8_nil, fromUtf8?.eq_def]
  | cons c s ih =>
    obtain ⟨x, xs, hx⟩ : ∃ x xs, utf8 (c :: s) = x :: xs := by
      cases h : utf8 (c :: s) with
      | nil => exact absurd (utf8_eq_nil.1 h) (by simp)
      | cons x xs => exact ⟨x, xs, rfl⟩
    have hd : ByteArray.utf8DecodeChar? ⟨(utf8 (c :: s)).toArray⟩ 0 = some c := by
      have := ByteArray.utf8DecodeChar?_utf8EncodeChar_append (b := ⟨(utf8 s).toArray⟩) (c := c)
      rw [← this]
      congr 1
      rw [utf8_cons]
      apply ByteArray.ext
      simp
    rw [hx, fromUtf8?.eq_def]
    rw [hx] at hd
    simp only [hd]
    rw [← hx, utf8_cons, List.drop_left' (by simp), ih]
    rfl

theorem utf8_of_fromUtf8? : ∀ {b : List UInt8} {s : Str}, fromUtf8? b = some s → utf8 s = b := by
  intro b
  induction h : b.length using Nat.strongRecOn generalizing b with
  | _ n ih =>
    intro s hs
    cases b with
    | nil => rw [fromUtf8?.eq_def] at hs; cases hs; rfl
    | cons x xs =>
      rw [fromUtf8?.eq_def] at hs
      simp only at hs
      split at hs
      · cases hs
      · rename_i c hc
        obtain ⟨t, ht, rfl⟩ := Option.map_eq_some_iff.1 hs
        have hpos := c.utf8Size_pos
        have := ih _ (by simp only [List.length_drop, List.length_cons] at *; omega) rfl ht
        obtain ⟨l, hl⟩ := ByteArray.exists_of_utf8DecodeChar?_eq_some hc
        have hl' : x :: xs = String.utf8EncodeChar c ++ l.data.toList := by
          have := congrArg (fun a : ByteArray => a.data.toList) hl
          simpa using this
        rw [utf8_cons, this, hl', List.drop_left' (by simp)]

theorem onRange?_append {lo hi : Nat} {f : List UInt8 → Option (List UInt8)} {a m b : List UInt8}
    (hlo : lo = a.length) (hhi : hi = a.length + m.length) :
    onRange? lo hi f (a ++ (m ++ b)) = (f m).map fun m' => a ++ (m' ++ b) := by
  subst hlo hhi
  unfold onRange?
  rw [if_pos (by simp only [List.length_append]; omega)]
  have h1 : List.drop a.length (List.take (a.length + m.length) (a ++ (m ++ b))) = m := by
    rw [← List.append_assoc, List.take_left' (by simp), List.drop_left]
  have h2 : List.take a.length (a ++ (m ++ b)) = a := List.take_left
  have h3 : List.drop (a.length + m.length) (a ++ (m ++ b)) = b := by
    rw [← List.append_assoc, List.drop_left' (by simp)]
  rw [h1, h2, h3]
  cases f m <;> simp

theorem encodeInto?_of_length {c : Char} {l r : List UInt8} (h : l.length = c.utf8Size) :
    encodeInto? c (l ++ r) = some (String.utf8EncodeChar c ++ r) := by
  unfold encodeInto?
  rw [if_pos (by simp only [List.length_append]; omega), ← h, List.drop_left]

theorem encodeInto?_of_length' {c : Char} {l : List UInt8} (h : l.length = c.utf8Size) :
    encodeInto? c l = some (String.utf8EncodeChar c) := by
  have := encodeInto?_of_length (r := []) h
  simpa using this

@[simp] theorem utf8_singleton (c : Char) : utf8 [c] = String.utf8EncodeChar c := by simp [utf8]

theorem length_utf8 (s : Str) : (utf8 s).length = byteLen s := rfl

theorem charAtIs_append (a : Str) (c : Char) (b : Str) :
    charAtIs (a ++ c :: b) (byteLen a) c = true := by
  simp [charAtIs, sliceFrom?_append]

theorem exists_split {l : List UInt8} {n : Nat} (h : n ≤ l.length) :
    ∃ x y, l = x ++ y ∧ x.length = n :=
  ⟨l.take n, l.drop n, (List.take_append_drop n l).symm, by simp [h]⟩

theorem swapAdjacent?_eq (a b : Str) (c1 c2 : Char) :
    swapAdjacent? (a ++ c1 :: c2 :: b) (byteLen a) c1 c2
      = some (a ++ c2 :: c1 :: b, byteLen a + c2.utf8Size) := by
  obtain ⟨x, y, hxy, hx⟩ := exists_split
    (l := String.utf8EncodeChar c1 ++ String.utf8EncodeChar c2) (n := c2.utf8Size) (by simp)
  have hy : y.length = c1.utf8Size := by
    have := congrArg List.length hxy
    simp only [List.length_append, String.length_utf8EncodeChar] at this
    omega
  have hb : utf8 (a ++ c1 :: c2 :: b) = utf8 a ++ (x ++ (y ++ utf8 b)) := by
    rw [utf8_append, utf8_cons, utf8_cons, ← List.append_assoc (String.utf8EncodeChar c1), hxy,
      List.append_assoc]
  unfold swapAdjacent?
  rw [charAtIs_append, sliceFrom?_append]
  simp only [Option.bind_some, List.getElem?_cons_succ, List.getElem?_cons_zero, BEq.rfl, guard,
    if_true, Option.pure_def, Option.bind_eq_bind]
  rw [hb, onRange?_append (by rw [length_utf8]) (by rw [length_utf8, hx]),
    encodeInto?_of_length' hx]
  simp only [Option.map_some, Option.bind_some]
  rw [← List.append_assoc (utf8 a), onRange?_append (by simp [length_utf8])
    (by simp [length_utf8, hy]), encodeInto?_of_length' hy]
  simp only [Option.map_some, Option.bind_some]
  have : utf8 a ++ String.utf8EncodeChar c2 ++ (String.utf8EncodeChar c1 ++ utf8 b)
      = utf8 (a ++ c2 :: c1 :: b) := by simp
  rw [this, fromUtf8?_utf8]
  rfl

theorem rotateRight?_append (x y : List UInt8) :
    rotateRight? y.length (x ++ y) = some (y ++ x) := by
  unfold rotateRight?
  rw [if_pos (by simp), List.length_append, Nat.add_sub_cancel, List.drop_left, List.take_left]

theorem rotateLeft?_append (x y : List UInt8) :
    rotateLeft? x.length (x ++ y) = some (y ++ x) := by
  unfold rotateLeft?
  rw [if_pos (by simp), List.drop_left, List.take_left]

theorem swapDistant?_eq (a m b : Str) (c1 c2 : Char) :
    swapDistant? (a ++ c1 :: (m ++ c2 :: b)) (byteLen a) c1 (byteLen a + c1.utf8Size + byteLen m) c2
      = some (a ++ c2 :: (m ++ c1 :: b), byteLen a + c2.utf8Size + byteLen m) := by
  have hp1 := c1.utf8Size_pos
  have hp2 := c2.utf8Size_pos
  have hb : utf8 (a ++ c1 :: (m ++ c2 :: b)) = utf8 a ++ (String.utf8EncodeChar c1 ++ (utf8 m ++
      (String.utf8EncodeChar c2 ++ utf8 b))) := by simp
  have hout : fromUtf8? (utf8 a ++ (String.utf8EncodeChar c2 ++ (utf8 m ++
      (String.utf8EncodeChar c1 ++ utf8 b)))) = some (a ++ c2 :: (m ++ c1 :: b)) := by
    rw [← fromUtf8?_utf8]; congr 1; simp
  unfold swapDistant?
  rw [hb]
  have hne : (decide (byteLen a ≠ byteLen a + c1.utf8Size + byteLen m)) = true := by
    simp only [decide_eq_true_eq]; omega
  simp only [guard, Option.pure_def, Option.bind_eq_bind]
  rw [if_pos (by omega)]
  simp only [Option.bind_some]
  rcases Nat.lt_trichotomy c1.utf8Size c2.utf8Size with hlt | heq | hgt
  · rw [if_neg (by omega), if_pos hlt]
    obtain ⟨p, q, hpq, hp⟩ := exists_split (l := String.utf8EncodeChar c2) (n := c1.utf8Size)
      (by simp; omega)
    have hq : q.length = c2.utf8Size - c1.utf8Size := by
      have := congrArg List.length hpq
      simp only [List.length_append, String.length_utf8EncodeChar] at this
      omega
    have e1 : utf8 a ++ (String.utf8EncodeChar c1 ++ (utf8 m ++
        (String.utf8EncodeChar c2 ++ utf8 b)))
        = utf8 a ++ ((String.utf8EncodeChar c1 ++ (utf8 m ++ p) ++ q) ++ utf8 b) := by
      rw [hpq]; simp
    rw [e1, onRange?_append (by rw [length_utf8])
      (by simp only [List.length_append, length_utf8, String.length_utf8EncodeChar]; omega), ← hq,
      rotateRight?_append]
    simp only [Option.map_some, Option.bind_some]
    have e2 : utf8 a ++ (q ++ (String.utf8EncodeChar c1 ++ (utf8 m ++ p)) ++ utf8 b)
        = utf8 a ++ ((q ++ String.utf8EncodeChar c1) ++ (utf8 m ++ (p ++ utf8 b))) := by simp
    rw [e2, onRange?_append (by rw [length_utf8])
      (by simp only [List.length_append, length_utf8, String.length_utf8EncodeChar]; omega),
      encodeInto?_of_length'
      (by simp only [List.length_append, String.length_utf8EncodeChar]; omega)]
    simp only [Option.map_some, Option.bind_some]
    have e3 : utf8 a ++ (String.utf8EncodeChar c2 ++ (utf8 m ++ (p ++ utf8 b)))
        = (utf8 a ++ (String.utf8EncodeChar c2 ++ utf8 m)) ++ (p ++ utf8 b) := by simp
    rw [e3, onRange?_append
      (by simp only [List.length_append, length_utf8, String.length_utf8EncodeChar]; omega)
      (by simp only [List.length_append, length_utf8, String.length_utf8EncodeChar]; omega),
      encodeInto?_of_length' hp]
    simp only [Option.map_some, Option.bind_some]
    rw [List.append_assoc, List.append_assoc, hout]
    simp only [Option.bind_some, Option.some.injEq, Prod.mk.injEq, true_and]
    omega
  · rw [if_pos heq]
    have : swapRanges? (byteLen a) (byteLen a + c1.utf8Size + byteLen m) c1.utf8Size
        (utf8 a ++ (String.utf8EncodeChar c1 ++ (utf8 m ++ (String.utf8EncodeChar c2 ++ utf8 b))))
        = some (utf8 a ++ (String.utf8EncodeChar c2 ++ (utf8 m ++
          (String.utf8EncodeChar c1 ++ utf8 b)))) := by
      unfold swapRanges?
      rw [if_pos (by
        simp only [List.length_append, length_utf8, String.length_utf8EncodeChar]; omega)]
      have t1 : List.take (byteLen a) (utf8 a ++ (String.utf8EncodeChar c1 ++ (utf8 m ++
          (String.utf8EncodeChar c2 ++ utf8 b)))) = utf8 a := List.take_left' rfl
      have t2 : List.drop (byteLen a + c1.utf8Size + byteLen m) (utf8 a ++
          (String.utf8EncodeChar c1 ++ (utf8 m ++ (String.utf8EncodeChar c2 ++ utf8 b))))
          = String.utf8EncodeChar c2 ++ utf8 b := by
        rw [← List.append_assoc, ← List.append_assoc, List.drop_left' (by
          simp only [List.length_append, length_utf8, String.length_utf8EncodeChar])]
      have t3 : List.take (byteLen a + c1.utf8Size + byteLen m) (utf8 a ++
          (String.utf8EncodeChar c1 ++ (utf8 m ++ (String.utf8EncodeChar c2 ++ utf8 b))))
          = utf8 a ++ String.utf8EncodeChar c1 ++ utf8 m := by
        rw [← List.append_assoc, ← List.append_assoc, List.take_left' (by
          simp only [List.length_append, length_utf8, String.length_utf8EncodeChar])]
      have t4 : List.drop (byteLen a) (utf8 a ++ (String.utf8EncodeChar c1 ++ (utf8 m ++
          (String.utf8EncodeChar c2 ++ utf8 b)))) = String.utf8EncodeChar c1 ++ (utf8 m ++
          (String.utf8EncodeChar c2 ++ utf8 b)) := List.drop_left' rfl
      have t5 : List.drop (byteLen a + c1.utf8Size + byteLen m + c1.utf8Size) (utf8 a ++
          (String.utf8EncodeChar c1 ++ (utf8 m ++ (String.utf8EncodeChar c2 ++ utf8 b))))
          = utf8 b := by
        rw [← List.append_assoc, ← List.append_assoc, ← List.append_assoc, List.drop_left' (by
          simp only [List.length_append, length_utf8, String.length_utf8EncodeChar]; omega)]
      rw [t1, t2, t3, t4, t5, List.take_left' (by simp [heq]), List.take_left' (by simp),
        List.drop_left' (by simp [length_utf8])]
      simp
    rw [this]
    simp only [Option.bind_some]
    rw [hout, heq]
    rfl
  · rw [if_neg (by omega), if_neg (by omega)]
    obtain ⟨p, q, hpq, hp⟩ := exists_split (l := String.utf8EncodeChar c1)
      (n := c1.utf8Size - c2.utf8Size) (by simp)
    have hq : q.length = c2.utf8Size := by
      have := congrArg List.length hpq
      simp only [List.length_append, String.length_utf8EncodeChar] at this
      omega
    rw [if_pos (by omega)]
    simp only [Option.bind_some]
    have e1 : utf8 a ++ (String.utf8EncodeChar c1 ++ (utf8 m ++
        (String.utf8EncodeChar c2 ++ utf8 b)))
        = utf8 a ++ ((p ++ (q ++ (utf8 m ++ String.utf8EncodeChar c2))) ++ utf8 b) := by
      rw [hpq]; simp
    rw [e1, onRange?_append (by rw [length_utf8])
      (by simp only [List.length_append, length_utf8, String.length_utf8EncodeChar]; omega), ← hp,
      rotateLeft?_append]
    simp only [Option.map_some, Option.bind_some]
    have e2 : utf8 a ++ (q ++ (utf8 m ++ String.utf8EncodeChar c2) ++ p ++ utf8 b)
        = utf8 a ++ (q ++ (utf8 m ++ ((String.utf8EncodeChar c2 ++ p) ++ utf8 b))) := by simp
    rw [e2, onRange?_append (by rw [length_utf8]) (by rw [length_utf8]; omega),
      encodeInto?_of_length' hq]
    simp only [Option.map_some, Option.bind_some]
    have e3 : utf8 a ++ (String.utf8EncodeChar c2 ++ (utf8 m ++
        ((String.utf8EncodeChar c2 ++ p) ++ utf8 b)))
        = (utf8 a ++ (String.utf8EncodeChar c2 ++ utf8 m)) ++
          ((String.utf8EncodeChar c2 ++ p) ++ utf8 b) := by simp
    rw [e3, onRange?_append
      (by simp only [List.length_append, length_utf8, String.length_utf8EncodeChar]; omega)
      (by simp only [List.length_append, length_utf8, String.length_utf8EncodeChar]; omega),
      encodeInto?_of_length'
      (by simp only [List.length_append, String.length_utf8EncodeChar]; omega)]
    simp only [Option.map_some, Option.bind_some]
    rw [List.append_assoc, List.append_assoc, hout]
    simp only [Option.bind_some, Option.some.injEq, Prod.mk.injEq, true_and]
    omega

theorem onFrom?_append {lo : Nat} {f : List UInt8 → Option (List UInt8)} {a m : List UInt8}
    (hlo : lo = a.length) : onFrom? lo f (a ++ m) = (f m).map fun m' => a ++ m' := by
  unfold onFrom?
  have := onRange?_append (lo := lo) (hi := (a ++ m).length) (f := f) (a := a) (m := m) (b := [])
    hlo (by simp)
  simpa using this

theorem overwriteChar?_eq (a b : Str) (c1 c2 : Char) :
    overwriteChar? (a ++ c1 :: b) (byteLen a) c1 c2 = some (a ++ c2 :: b) := by
  have hp1 := c1.utf8Size_pos
  have hb : utf8 (a ++ c1 :: b) = utf8 a ++ (String.utf8EncodeChar c1 ++ utf8 b) := by simp
  have hout : fromUtf8? (utf8 a ++ (String.utf8EncodeChar c2 ++ utf8 b)) = some (a ++ c2 :: b) := by
    rw [← fromUtf8?_utf8]; congr 1; simp
  unfold overwriteChar?
  simp only [Option.bind_eq_bind]
  rcases Nat.lt_trichotomy c1.utf8Size c2.utf8Size with hlt | heq | hgt
  · rw [if_neg (by omega), if_pos hlt, hb, List.append_assoc, List.append_assoc, onFrom?_append
      (by rw [length_utf8])]
    have hr : (List.replicate (c2.utf8Size - c1.utf8Size) (0 : UInt8)).length
        = c2.utf8Size - c1.utf8Size := by simp
    generalize hg : List.replicate (c2.utf8Size - c1.utf8Size) (0 : UInt8) = z at hr
    rw [← List.append_assoc, ← hr, rotateRight?_append]
    simp only [Option.map_some, Option.bind_some]
    rw [onFrom?_append (by rw [length_utf8]), ← List.append_assoc, encodeInto?_of_length (by
      simp only [List.length_append, String.length_utf8EncodeChar]; omega)]
    simp only [Option.map_some, Option.bind_some]
    exact hout
  · rw [if_pos heq, hb, onFrom?_append (by rw [length_utf8]), encodeInto?_of_length (by simp [heq])]
    exact hout
  · rw [if_neg (by omega), if_neg (by omega)]
    obtain ⟨p, q, hpq, hp⟩ := exists_split (l := String.utf8EncodeChar c1)
      (n := c1.utf8Size - c2.utf8Size) (by simp)
    have hq : q.length = c2.utf8Size := by
      have := congrArg List.length hpq
      simp only [List.length_append, String.length_utf8EncodeChar] at this
      omega
    rw [hb, onFrom?_append (by rw [length_utf8]), hpq, List.append_assoc, ← hp, rotateLeft?_append]
    simp only [Option.map_some, Option.bind_some]
    rw [onFrom?_append (by rw [length_utf8]), List.append_assoc, encodeInto?_of_length hq]
    simp only [Option.map_some, Option.bind_some]
    have e : utf8 a ++ (String.utf8EncodeChar c2 ++ (utf8 b ++ p))
        = (utf8 a ++ (String.utf8EncodeChar c2 ++ utf8 b)) ++ p := by simp
    rw [e, List.take_left' (by
      simp only [List.length_append, length_utf8, String.length_utf8EncodeChar, byteLen_append,
        byteLen_cons]; omega)]
    exact hout

theorem replaceCharAt?_eq (a b : Str) (c1 c2 : Char) :
    replaceCharAt? (a ++ c1 :: b) (byteLen a) c1 c2 = some (a ++ c2 :: b) := by
  have hp1 := c1.utf8Size_pos
  have h : byteLen a < byteLen (a ++ c1 :: b) := by simp only [byteLen_append, byteLen_cons]; omega
  simp only [replaceCharAt?, overwriteChar?_eq, charAtIs_append, guard, h, if_true, Option.pure_def,
    Option.bind_eq_bind, Option.bind_some]

theorem removeAt?_eq (a b : Str) (c : Char) : removeAt? (a ++ c :: b) (byteLen a) = some (a ++ b) := by
  simp [removeAt?, sliceFrom?_append, sliceTo?_append]

theorem insertAt?_eq (a b : Str) (c : Char) :
    insertAt? (a ++ b) (byteLen a) c = some (a ++ c :: b) := by
  simp [insertAt?, sliceFrom?_append, sliceTo?_append]

theorem replaceRange?_eq (a m b t : Str) :
    replaceRange? (a ++ (m ++ b)) (byteLen a) (byteLen a + byteLen m) t = some (a ++ (t ++ b)) := by
  unfold replaceRange?
  have : sliceFrom? (a ++ (m ++ b)) (byteLen a + byteLen m) = some b := by
    rw [← List.append_assoc, ← byteLen_append]; exact sliceFrom?_append _ _
  rw [if_pos (by omega), sliceTo?_append, this]
  simp

theorem rotateRightAt?_eq (a m b : Str) (c : Char) :
    rotateRightAt? (byteLen a) (byteLen a + byteLen m + c.utf8Size) c.utf8Size (a ++ (m ++ c :: b))
      = some (a ++ c :: (m ++ b)) := by
  unfold rotateRightAt?
  have : utf8 (a ++ (m ++ c :: b)) = utf8 a ++ ((utf8 m ++ String.utf8EncodeChar c) ++ utf8 b) := by
    simp
  rw [this, onRange?_append (by rw [length_utf8]) (by
    simp only [List.length_append, length_utf8, String.length_utf8EncodeChar]; omega)]
  have hl : c.utf8Size = (String.utf8EncodeChar c).length := by simp
  rw [hl, rotateRight?_append]
  simp only [Option.map_some, Option.bind_eq_bind, Option.bind_some]
  rw [← fromUtf8?_utf8]; congr 1; simp

theorem rotateLeftAt?_eq (a m b : Str) (c : Char) :
    rotateLeftAt? (byteLen a) (byteLen a + byteLen m + c.utf8Size) c.utf8Size (a ++ c :: (m ++ b))
      = some (a ++ (m ++ c :: b)) := by
  unfold rotateLeftAt?
  have : utf8 (a ++ c :: (m ++ b)) = utf8 a ++ ((String.utf8EncodeChar c ++ utf8 m) ++ utf8 b) := by
    simp
  rw [this, onRange?_append (by rw [length_utf8]) (by
    simp only [List.length_append, length_utf8, String.length_utf8EncodeChar]; omega)]
  have hl : c.utf8Size = (String.utf8EncodeChar c).length := by simp
  rw [hl, rotateLeft?_append]
  simp only [Option.map_some, Option.bind_eq_bind, Option.bind_some]
  rw [← fromUtf8?_utf8]; congr 1; simp

end Spellbook
