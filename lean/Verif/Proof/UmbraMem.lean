import Verif.Spec.UmbraMem
import Mathlib.Data.List.Forall2
import Mathlib.Data.List.Perm.Basic
import Mathlib.Data.List.Nodup
/-!
# Memory safety of `UmbraSlice`: lemmas for C62
-/

namespace Spellbook.Mem
open Spec

/-! ## Bytes -/

theorem little_encode_length : ∀ n x, (littleEndian n x).length = n
  | 0, _ => rfl
  | n + 1, x => by simp [littleEndian, little_encode_length n]

theorem little_encode_lt : ∀ {n x b}, b ∈ littleEndian n x → b < 256
  | 0, _, _, h => by simp [littleEndian] at h
  | n + 1, x, b, h => by
    rcases List.mem_cons.1 h with rfl | h
    · exact Nat.mod_lt _ (by decide)
    · exact little_encode_lt h

theorem little_decode_encode : ∀ {n x}, x < 256 ^ n → ofLittleEndian (littleEndian n x) = x
  | 0, x, h => by simp at h; subst h; rfl
  | n + 1, x, h => by
    simp only [littleEndian, ofLittleEndian]
    rw [little_decode_encode (n := n) (by
      rw [Nat.pow_succ] at h; exact Nat.div_lt_of_lt_mul (by omega))]
    omega

theorem little_decode_inj : ∀ {x y : List Nat}, x.length = y.length → (∀ b ∈ x, b < 256) → (∀ b ∈ y, b < 256) →
    ofLittleEndian x = ofLittleEndian y → x = y
  | [], [], _, _, _, _ => rfl
  | [], _ :: _, h, _, _, _ => by simp at h
  | _ :: _, [], h, _, _, _ => by simp at h
  | a :: x, b :: y, h, hx, hy, hd => by
    simp only [List.mem_cons, forall_eq_or_imp] at hx hy
    simp only [ofLittleEndian] at hd
    obtain rfl : a = b := by omega
    rw [little_decode_inj (by simpa using h) hx.2 hy.2 (by omega)]

section
variable {t : Target}

theorem encode_length (n x : Nat) : (t.encode n x).length = n := by
  unfold Target.encode
  split <;> simp [little_encode_length]

theorem encode_lt {n x b : Nat} (h : b ∈ t.encode n x) : b < 256 := by
  unfold Target.encode at h
  split at h
  · exact little_encode_lt (List.mem_reverse.1 h)
  · exact little_encode_lt h

theorem decode_encode {n x : Nat} (h : x < 256 ^ n) : t.decode (t.encode n x) = x := by
  unfold Target.decode Target.encode
  split
  · rw [List.reverse_reverse, little_decode_encode h]
  · exact little_decode_encode h

theorem decode_inj {x y : List Nat} (hl : x.length = y.length) (hx : ∀ b ∈ x, b < 256) (hy : ∀ b ∈ y, b < 256)
    (h : t.decode x = t.decode y) : x = y := by
  unfold Target.decode at h
  split at h
  · exact List.reverse_injective (little_decode_inj (by simpa using hl) (by simpa using hx) (by simpa using hy) h)
  · exact little_decode_inj hl hx hy h

theorem encode_inj {n x y : Nat} (hx : x < 256 ^ n) (hy : y < 256 ^ n) (h : t.encode n x = t.encode n y) : x = y := by
  rw [← decode_encode (t := t) hx, h, decode_encode hy]

end

section
variable {t : Target}

theorem bytes_length (s : List Nat) : (t.bytes s).length = s.length * t.elem := by
  induction s with
  | nil => simp [Target.bytes]
  | cons x s ih =>
    unfold Target.bytes at *
    rw [List.flatMap_cons, List.length_append, ih, encode_length, List.length_cons]
    rw [Nat.add_mul]; omega

theorem bytes_append (a b : List Nat) : t.bytes (a ++ b) = t.bytes a ++ t.bytes b := by
  simp [Target.bytes]

theorem bytes_lt {s : List Nat} : ∀ b ∈ t.bytes s, b < 256 := by
  intro b hb
  obtain ⟨x, -, hx⟩ := List.mem_flatMap.1 hb
  exact encode_lt hx

theorem elems_bytes {s : List Nat} (hs : ∀ x ∈ s, x < 256 ^ t.elem) (rest : List Nat) :
    t.elems s.length (t.bytes s ++ rest) = s := by
  induction s with
  | nil => rfl
  | cons x s ih =>
    simp only [List.mem_cons, forall_eq_or_imp] at hs
    rw [List.length_cons, Target.elems]
    have : t.bytes (x :: s) ++ rest = t.encode t.elem x ++ (t.bytes s ++ rest) := by
      simp [Target.bytes]
    rw [this, List.take_left' (encode_length _ _), List.drop_left' (encode_length _ _), decode_encode hs.1, ih hs.2]

theorem elems_bytes' {s : List Nat} (hs : ∀ x ∈ s, x < 256 ^ t.elem) : t.elems s.length (t.bytes s) = s := by
  simpa using elems_bytes hs []

theorem bytes_inj {s s' : List Nat} (hs : ∀ x ∈ s, x < 256 ^ t.elem) (hs' : ∀ x ∈ s', x < 256 ^ t.elem)
    (hl : s.length = s'.length) (h : t.bytes s = t.bytes s') : s = s' := by
  rw [← elems_bytes' hs, h, hl, elems_bytes' hs']

theorem bytes_take (s : List Nat) {n : Nat} (hn : n ≤ s.length) :
    t.bytes (s.take n) = (t.bytes s).take (n * t.elem) := by
  have h := bytes_append (t := t) (s.take n) (s.drop n)
  rw [List.take_append_drop] at h
  rw [h, List.take_left']
  rw [bytes_length, List.length_take, Nat.min_eq_left hn]

theorem bytes_drop (s : List Nat) {n : Nat} (hn : n ≤ s.length) :
    t.bytes (s.drop n) = (t.bytes s).drop (n * t.elem) := by
  have h := bytes_append (t := t) (s.take n) (s.drop n)
  rw [List.take_append_drop] at h
  rw [h, List.drop_left']
  rw [bytes_length, List.length_take, Nat.min_eq_left hn]

/-- What is used of a target. -/
structure Facts (t : Target) : Prop where
  word : 2 + t.prefixLen * t.elem = t.word
  suffix : t.suffixLen * t.elem = t.word
  inline : t.inlineLen = t.prefixLen + t.suffixLen
  elem : 0 < t.elem
  small : 65535 * t.elem < 256 ^ t.word / 2
  pos : 2 ≤ t.word

theorem facts (h : GoodTarget t) : Facts t := by
  obtain ⟨w, e, g⟩ := t
  obtain ⟨h1, h2⟩ := h
  simp only at h1 h2
  rcases h1 with rfl | rfl <;> rcases h2 with rfl | rfl <;> cases g <;> constructor <;> decide

end

theorem initialised_some (l : List Nat) : initialised (l.map some) = .ok l := by
  unfold initialised
  rw [if_pos (by simp)]
  simp [Function.comp_def]

/-! ## Memory -/

theorem at?_of_mem {h : Heap} (hn : (h.map (·.1)).Nodup) {a : Nat} {b : List Cell} (hm : (a, b) ∈ h) :
    h.at? a = some b := by
  unfold Heap.at?
  induction h with
  | nil => simp at hm
  | cons x h ih =>
    rw [List.map_cons, List.nodup_cons] at hn
    rcases List.mem_cons.1 hm with rfl | hm
    · simp
    · have : x.1 ≠ a := by
        rintro rfl
        exact hn.1 (List.mem_map.2 ⟨_, hm, rfl⟩)
      rw [List.find?_cons_of_neg (by simpa using this)]
      exact ih hn.2 hm

/-- The bytes of a slice stored inline: the elements, filled up with zeros. -/
def padded (t : Target) (s : List Nat) : List Nat :=
  t.bytes s ++ List.replicate (t.inlineLen * t.elem - s.length * t.elem) 0

/-- A slice stored inline. -/
def inlineForm (t : Target) (s : List Nat) : Slice :=
  { len := s.length, pre := ((padded t s).take (t.prefixLen * t.elem)).map some
    trailing := ((padded t s).drop (t.prefixLen * t.elem)).map some }

/-- A slice stored in the block at an address. -/
def heapForm (t : Target) (s : List Nat) (a : Nat) : Slice :=
  { len := s.length, pre := (t.bytes (s.take t.prefixLen)).map some, trailing := (t.encode t.word a).map some }

/-- The slice with these contents, and the memory it owns. -/
inductive Rep (t : Target) : Option Slice → Option (List Nat) × Heap → Prop
  | dropped : Rep t none (none, [])
  | inline {s} (short : s.length ≤ t.inlineLen) (typed : ∀ x ∈ s, x < 256 ^ t.elem) :
      Rep t (some (inlineForm t s)) (some s, [])
  | heap {s a} (long : t.inlineLen < s.length) (max : s.length ≤ 65535) (typed : ∀ x ∈ s, x < 256 ^ t.elem)
      (fits : a < 256 ^ t.word) :
      Rep t (some (heapForm t s a)) (some s, [(a, (t.bytes s).map some)])

/-- The variables hold these contents, and memory is what they own, without overlap. -/
structure Inv (t : Target) (vars : Vars) (sp : List (Option (List Nat) × Heap)) (h : Heap) : Prop where
  rep : List.Forall₂ (Rep t) vars sp
  owned : h.Perm (sp.map (·.2)).flatten
  nodup : (h.map (·.1)).Nodup

theorem padded_length {t : Target} (ht : Facts t) {s : List Nat} (hs : s.length ≤ t.inlineLen) :
    (padded t s).length = t.prefixLen * t.elem + t.word := by
  unfold padded
  rw [List.length_append, bytes_length, List.length_replicate]
  have h1 : s.length * t.elem ≤ t.inlineLen * t.elem := Nat.mul_le_mul_right _ hs
  have h2 : t.inlineLen * t.elem = t.prefixLen * t.elem + t.word := by
    rw [ht.inline, Nat.add_mul, ht.suffix]
  omega

theorem padded_lt {t : Target} {s : List Nat} : ∀ b ∈ padded t s, b < 256 := by
  intro b hb
  rcases List.mem_append.1 hb with hb | hb
  · exact bytes_lt b hb
  · rw [List.eq_of_mem_replicate hb]; decide

/-! ## Reading -/

section
variable {t : Target} {vars : Vars} {sp : List (Option (List Nat) × Heap)} {h : Heap}

theorem owned_at {s : Option (List Nat)} {own : Heap} (hi : Inv t vars sp h)
    (hm : (s, own) ∈ sp) {a : Nat} {b : List Cell} (hb : (a, b) ∈ own) : h.at? a = some b := by
  refine at?_of_mem hi.nodup (hi.owned.mem_iff.2 ?_)
  rw [List.mem_flatten]
  exact ⟨own, List.mem_map.2 ⟨_, hm, rfl⟩, hb⟩

theorem load_eq {a off n : Nat} {bs : List Nat} (ha : h.at? a = some (bs.map some)) (hn : off + n ≤ bs.length) :
    load a off n h = .ok ((bs.drop off).take n, h) := by
  unfold load
  rw [ha]
  dsimp only
  rw [if_pos (by simpa using hn), ← List.map_drop, ← List.map_take, initialised_some]
  rfl

theorem ptr_heapForm {s : List Nat} {a : Nat} (ha : a < 256 ^ t.word) : (heapForm t s a).ptr t = .ok a := by
  unfold Slice.ptr heapForm
  dsimp only
  rw [initialised_some]
  change Except.ok (t.decode _) = _
  rw [decode_encode ha]

theorem image_inlineForm (s : List Nat) :
    (inlineForm t s).image t = (t.encode 2 s.length ++ padded t s).map some := by
  unfold Slice.image inlineForm
  dsimp only
  rw [List.append_assoc, ← List.map_append, List.take_append_drop, List.map_append]

theorem asSlice_inline (ht : Facts t) {s : List Nat} (hs : s.length ≤ t.inlineLen) (hx : ∀ x ∈ s, x < 256 ^ t.elem) :
    (inlineForm t s).asSlice t h = .ok (s, h) := by
  unfold Slice.asSlice
  rw [if_pos (show (inlineForm t s).len ≤ _ from hs)]
  have : (inlineForm t s).inlineSlice t = .ok s := by
    unfold Slice.inlineSlice
    rw [image_inlineForm]
    have h1 : (inlineForm t s).len = s.length := rfl
    have h2 := padded_length ht hs
    have h3 : s.length * t.elem ≤ t.inlineLen * t.elem := Nat.mul_le_mul_right _ hs
    have h4 : t.inlineLen * t.elem = t.prefixLen * t.elem + t.word := by
      rw [ht.inline, Nat.add_mul, ht.suffix]
    rw [h1, if_pos (by rw [List.length_map, List.length_append, encode_length]; omega), ← List.map_drop,
      ← List.map_take, List.drop_left' (encode_length _ _), initialised_some]
    change Except.ok (t.elems _ _) = _
    unfold padded
    rw [List.take_left' (bytes_length s), elems_bytes' hx]
  rw [this]
  rfl

theorem asSlice_heap {s : List Nat} {a : Nat} (hs : t.inlineLen < s.length) (hx : ∀ x ∈ s, x < 256 ^ t.elem)
    (ha : a < 256 ^ t.word) (hh : h.at? a = some ((t.bytes s).map some)) :
    (heapForm t s a).asSlice t h = .ok (s, h) := by
  unfold Slice.asSlice
  rw [if_neg (show ¬ (heapForm t s a).len ≤ _ from Nat.not_le.2 hs), ptr_heapForm ha]
  change (load a 0 (s.length * t.elem) h >>= _) = _
  rw [load_eq hh (by rw [bytes_length]; omega)]
  change Except.ok (t.elems s.length _, h) = _
  rw [List.drop_zero, List.take_of_length_le (Nat.le_of_eq (bytes_length s)), elems_bytes' hx]

/-- `as_slice` returns the contents. -/
theorem asSlice_rep (ht : Facts t) (hi : Inv t vars sp h) {u : Slice} {s : List Nat} {own : Heap}
    (hm : (some s, own) ∈ sp) (hr : Rep t (some u) (some s, own)) : u.asSlice t h = .ok (s, h) := by
  cases hr with
  | inline short typed => exact asSlice_inline ht short typed
  | heap long max typed fits => exact asSlice_heap long typed fits (owned_at hi hm (by simp))

/-! ## Comparing -/

theorem word_image {len : Nat} {pre rest : List Nat} (ht : Facts t) (hp : pre.length = t.prefixLen * t.elem)
    {u : Slice} (h1 : (u.image t) = (t.encode 2 len ++ pre ++ rest).map some) :
    initialised ((u.image t).take t.word) = .ok (t.encode 2 len ++ pre) := by
  rw [h1, ← List.map_take, List.take_left', initialised_some]
  rw [List.length_append, encode_length, hp, ht.word]

theorem image_heapForm (s : List Nat) (a : Nat) :
    (heapForm t s a).image t = (t.encode 2 s.length ++ t.bytes (s.take t.prefixLen) ++ t.encode t.word a).map some := by
  simp [Slice.image, heapForm]

theorem Rep.word (ht : Facts t) {u : Slice} {s : List Nat} {own : Heap} (hr : Rep t (some u) (some s, own)) :
    u.len = s.length ∧ s.length ≤ 65535 ∧ (∀ x ∈ s, x < 256 ^ t.elem) ∧ ∃ pre : List Nat,
      pre.length = t.prefixLen * t.elem ∧ (∀ b ∈ pre, b < 256) ∧
      initialised ((u.image t).take t.word) = .ok (t.encode 2 s.length ++ pre) ∧
      (s.length ≤ t.inlineLen → pre = (padded t s).take (t.prefixLen * t.elem)) ∧
      (t.inlineLen < s.length → pre = t.bytes (s.take t.prefixLen)) := by
  cases hr with
  | inline short typed =>
    have h1 := padded_length ht short
    refine ⟨rfl, ?_, typed, (padded t s).take (t.prefixLen * t.elem), by rw [List.length_take]; omega,
      fun b hb => padded_lt b (List.mem_of_mem_take hb), word_image (rest := (padded t s).drop (t.prefixLen * t.elem)) ht
        (by rw [List.length_take]; omega) ?_, fun _ => rfl, fun hl => by omega⟩
    · have := ht.inline
      have h2 : t.inlineLen < 65536 := Nat.mod_lt _ (by decide)
      omega
    · rw [image_inlineForm, List.append_assoc, List.take_append_drop]
  | heap long max typed fits =>
    have hl : (t.bytes (s.take t.prefixLen)).length = t.prefixLen * t.elem := by
      rw [bytes_length, List.length_take, Nat.min_eq_left]
      have := ht.inline
      omega
    exact ⟨rfl, max, typed, _, hl, bytes_lt, word_image ht hl (image_heapForm _ _), fun h => by omega, fun _ => rfl⟩

/-- `eq` compares the contents. -/
theorem eq_rep (ht : Facts t) (hi : Inv t vars sp h) {u v : Slice} {s s' : List Nat} {own own' : Heap}
    (hm : (some s, own) ∈ sp) (hr : Rep t (some u) (some s, own)) (hm' : (some s', own') ∈ sp)
    (hr' : Rep t (some v) (some s', own')) : u.eq t v h = .ok (decide (s = s'), h) := by
  obtain ⟨hl, hs, hx, pre, p1, p2, p3, p4, p5⟩ := hr.word ht
  obtain ⟨hl', hs', hx', pre', q1, q2, q3, q4, q5⟩ := hr'.word ht
  unfold Slice.eq
  rw [p3, q3]
  change (if t.decode (t.encode 2 s.length ++ pre) ≠ t.decode (t.encode 2 s'.length ++ pre') then
    (pure false : Mem Bool) else _) h = _
  have hw : t.decode (t.encode 2 s.length ++ pre) = t.decode (t.encode 2 s'.length ++ pre') ↔
      s.length = s'.length ∧ pre = pre' := by
    constructor
    · intro hd
      have hd := decode_inj (by simp [encode_length, p1, q1])
        (by intro b hb; rcases List.mem_append.1 hb with hb | hb; exacts [encode_lt hb, p2 b hb])
        (by intro b hb; rcases List.mem_append.1 hb with hb | hb; exacts [encode_lt hb, q2 b hb]) hd
      obtain ⟨h1, h2⟩ := List.append_inj hd (by simp [encode_length])
      exact ⟨encode_inj (n := 2) (show s.length < 65536 by omega) (show s'.length < 65536 by omega) h1, h2⟩
    · rintro ⟨h1, h2⟩; rw [h1, h2]
  by_cases hlen : s.length = s'.length ∧ pre = pre'
  swap
  · rw [if_pos (by rw [ne_eq, hw]; exact hlen)]
    change Except.ok (false, h) = _
    congr 2
    symm
    rw [decide_eq_false_iff_not]
    rintro rfl
    apply hlen
    refine ⟨rfl, ?_⟩
    by_cases hc : s.length ≤ t.inlineLen
    · rw [p4 hc, q4 hc]
    · rw [p5 (by omega), q5 (by omega)]
  rw [if_neg (by rw [ne_eq, not_not, hw]; exact hlen)]
  rw [hl]
  by_cases hc : s.length ≤ t.inlineLen
  · rw [if_pos hc]
    have e1 : u = inlineForm t s := by
      cases hr with
      | inline => rfl
      | heap long => omega
    have e2 : v = inlineForm t s' := by
      cases hr' with
      | inline => rfl
      | heap long => omega
    subst e1 e2
    have i1 : ∀ s : List Nat, initialised (inlineForm t s).trailing = .ok ((padded t s).drop (t.prefixLen * t.elem)) :=
      fun s => initialised_some _
    rw [i1, i1]
    change Except.ok (decide (t.decode _ = t.decode _), h) = _
    congr 2
    rw [decide_eq_decide]
    constructor
    · intro hd
      have hd := decode_inj (by rw [List.length_drop, List.length_drop, padded_length ht hc,
        padded_length ht (by omega)]) (fun b hb => padded_lt b (List.mem_of_mem_drop hb))
        (fun b hb => padded_lt b (List.mem_of_mem_drop hb)) hd
      have hp : padded t s = padded t s' := by
        rw [← List.take_append_drop (t.prefixLen * t.elem) (padded t s), hd, ← p4 hc, hlen.2, q4 (by omega),
          List.take_append_drop]
      unfold padded at hp
      exact bytes_inj hx hx' hlen.1 (List.append_inj hp (by rw [bytes_length, bytes_length, hlen.1])).1
    · rintro rfl; rfl
  · rw [if_neg hc]
    have hP := ht.inline
    cases hr with
    | inline short => omega
    | @heap _ a long max typed fits =>
    cases hr' with
    | inline short => omega
    | @heap _ b long' max' typed' fits' =>
    rw [if_neg (by omega), ptr_heapForm fits, ptr_heapForm fits']
    change (load a (t.prefixLen * t.elem) ((s.length - t.prefixLen) * t.elem) h >>= fun x =>
      load b (t.prefixLen * t.elem) ((s.length - t.prefixLen) * t.elem) x.2 >>= _) = _
    have e : t.prefixLen * t.elem + (s.length - t.prefixLen) * t.elem = s.length * t.elem := by
      rw [← Nat.add_mul]; congr 1; omega
    rw [load_eq (bs := t.bytes s) (owned_at hi hm (by simp)) (by rw [bytes_length]; omega)]
    change (load b _ _ h >>= _) = _
    rw [load_eq (bs := t.bytes s') (owned_at hi hm' (by simp)) (by rw [bytes_length, ← hlen.1]; omega)]
    change Except.ok (decide (_ = _), h) = _
    congr 2
    rw [decide_eq_decide]
    have f : ∀ s : List Nat, t.prefixLen ≤ s.length →
        ((t.bytes s).drop (t.prefixLen * t.elem)).take ((s.length - t.prefixLen) * t.elem) = t.bytes (s.drop t.prefixLen) := by
      intro s hs
      rw [← bytes_drop s hs, List.take_of_length_le]
      rw [bytes_length, List.length_drop]
      exact Nat.le_refl _
    rw [f s (by omega), hlen.1, f s' (by omega)]
    constructor
    · intro hd
      have h1 : s.drop t.prefixLen = s'.drop t.prefixLen :=
        bytes_inj (fun x hm => hx x (List.mem_of_mem_drop hm)) (fun x hm => hx' x (List.mem_of_mem_drop hm))
          (by rw [List.length_drop, List.length_drop, hlen.1]) hd
      have h2 : s.take t.prefixLen = s'.take t.prefixLen := by
        have := hlen.2
        rw [p5 long, q5 long'] at this
        exact bytes_inj (fun x hm => hx x (List.mem_of_mem_take hm)) (fun x hm => hx' x (List.mem_of_mem_take hm))
          (by rw [List.length_take, List.length_take, hlen.1]) this
      rw [← List.take_append_drop t.prefixLen s, h1, h2, List.take_append_drop]
    · rintro rfl; rfl

/-! ## Allocating -/

/-- `copy_slice` makes a new block with the contents, unless the allocator refuses. -/
theorem copySlice_eq (ht : Facts t) {A : Allocator} (hA : GoodAllocator t A) {s : List Nat} (h0 : 0 < s.length)
    (hs : s.length ≤ 65535) :
    copySlice t A s h = match A h (s.length * t.elem) with
      | none => .error .abort
      | some a => .ok (a, (a, (t.bytes s).map some) :: h) := by
  have he := ht.elem
  have hsm := ht.small
  have h1 : s.length * t.elem ≤ 65535 * t.elem := Nat.mul_le_mul_right _ hs
  have h2 : 0 < s.length * t.elem := Nat.mul_pos h0 he
  unfold copySlice Target.layout
  rw [if_pos (by omega)]
  change (alloc A (s.length * t.elem) h >>= _) = _
  unfold alloc
  rw [if_neg (by omega)]
  cases ha : A h (s.length * t.elem) with
  | none => rfl
  | some a =>
    change (store a (t.bytes s) ((a, List.replicate (s.length * t.elem) none) :: h) >>= _) = _
    unfold store
    have h3 : Heap.at? ((a, List.replicate (s.length * t.elem) none) :: h) a =
        some (List.replicate (s.length * t.elem) none) := by simp [Heap.at?]
    rw [h3]
    dsimp only
    have h4 : (t.bytes s).length = (List.replicate (s.length * t.elem) (none : Cell)).length := by
      rw [bytes_length, List.length_replicate]
    rw [if_pos (Nat.le_of_eq h4)]
    change Except.ok (a, _) = _
    congr 2
    rw [List.map_cons, if_pos (by simp), List.drop_of_length_le (Nat.le_of_eq h4.symm), List.append_nil]
    change _ :: _ = _
    congr 1
    refine (List.map_congr_left fun b hb => ?_).trans (List.map_id _)
    rw [if_neg (by simpa using (hA _ _ _ ha).1 b hb)]
    rfl

theorem copyTo_eq {this : List Cell} {n : Nat} {src : List Nat} (h1 : n * t.elem ≤ this.length) (h2 : src.length = n) :
    copyTo t this n src = .ok ((t.bytes src).map some ++ this.drop (n * t.elem)) := if_pos ⟨h1, h2⟩

theorem zeroed_eq (n : Nat) : zeroed t n = (List.replicate (n * t.elem) 0).map some := by simp [zeroed]

/-- `try_from` makes the slice with the contents. -/
theorem tryFrom_eq (ht : Facts t) {A : Allocator} (hA : GoodAllocator t A) {s : List Nat} :
    tryFrom t A s h = if 65535 < s.length then .ok (none, h)
      else if s.length ≤ t.inlineLen then .ok (some (inlineForm t s), h)
      else match A h (s.length * t.elem) with
        | none => .error .abort
        | some a => .ok (some (heapForm t s a), (a, (t.bytes s).map some) :: h) := by
  unfold tryFrom
  by_cases h0 : 65535 < s.length
  · rw [if_pos h0, if_pos h0]; rfl
  rw [if_neg h0, if_neg h0]
  change (if s.length % 65536 ≤ t.inlineLen then _ else _ : Mem (Option Slice)) h = _
  rw [Nat.mod_eq_of_lt (by omega)]
  have hi := ht.inline
  by_cases h1 : s.length ≤ t.inlineLen
  · rw [if_pos h1, if_pos h1]
    have hz : t.inlineLen * t.elem = t.prefixLen * t.elem + t.suffixLen * t.elem := by rw [hi, Nat.add_mul]
    by_cases h2 : s.length ≤ t.prefixLen
    · rw [if_pos h2]
      have h3 : s.length * t.elem ≤ t.prefixLen * t.elem := Nat.mul_le_mul_right _ h2
      rw [copyTo_eq (by rw [zeroed_eq, List.length_map, List.length_replicate]; exact h3) rfl]
      change Except.ok (some _, h) = _
      congr 3
      unfold inlineForm padded
      rw [zeroed_eq, zeroed_eq, ← List.map_drop, ← List.map_append, List.drop_replicate]
      congr 2
      · rw [List.take_append, bytes_length, List.take_of_length_le (by rw [bytes_length]; exact h3),
          List.take_replicate]
        congr 2
        omega
      · rw [List.drop_append, bytes_length, List.drop_of_length_le (by rw [bytes_length]; exact h3),
          List.drop_replicate, List.nil_append]
        congr 1
        omega
    · rw [if_neg h2]
      have h3 : t.prefixLen * t.elem ≤ s.length * t.elem := Nat.mul_le_mul_right _ (by omega)
      have h4 : (s.length - t.prefixLen) * t.elem ≤ t.suffixLen * t.elem := Nat.mul_le_mul_right _ (by omega)
      have h5 : (s.length - t.prefixLen) * t.elem = s.length * t.elem - t.prefixLen * t.elem := Nat.sub_mul _ _ _
      rw [copyTo_eq (by simp [zeroed_eq]) (by rw [List.length_take]; omega),
        copyTo_eq (by rw [zeroed_eq, List.length_map, List.length_replicate]; exact h4) (by rw [List.length_drop])]
      change Except.ok (some _, h) = _
      congr 3
      unfold inlineForm padded
      rw [zeroed_eq, zeroed_eq, ← List.map_drop, ← List.map_drop, ← List.map_append, ← List.map_append,
        List.drop_replicate, List.drop_replicate, bytes_take _ (by omega), bytes_drop _ (by omega)]
      congr 2
      · rw [List.take_append, bytes_length, Nat.sub_self, Nat.sub_eq_zero_of_le h3, List.take_zero]
        simp
      · rw [List.drop_append, bytes_length, Nat.sub_eq_zero_of_le h3, List.drop_zero]
        congr 2
        omega
  · rw [if_neg h1, if_neg h1]
    rw [copyTo_eq (by simp [zeroed_eq]) (by rw [List.length_take]; omega)]
    change (copySlice t A s h >>= _) = _
    rw [copySlice_eq ht hA (by omega) (by omega)]
    cases A h (s.length * t.elem) with
    | none => rfl
    | some a =>
      change Except.ok (some _, _) = _
      simp [heapForm, zeroed_eq]

/-! ## Programs -/

theorem forall₂_getElem? {α β : Type} {R : α → β → Prop} : ∀ {l : List α} {l' : List β}, List.Forall₂ R l l' →
    ∀ i : Nat, (l[i]? = none ∧ l'[i]? = none) ∨ ∃ a b, l[i]? = some a ∧ l'[i]? = some b ∧ R a b
  | _, _, .nil, i => .inl (by simp)
  | _, _, .cons h hs, 0 => .inr ⟨_, _, by simp, by simp, h⟩
  | _, _, .cons h hs, i + 1 => by simpa using forall₂_getElem? hs i

theorem forall₂_set {α β : Type} {R : α → β → Prop} {a : α} {b : β} (hr : R a b) :
    ∀ {l : List α} {l' : List β}, List.Forall₂ R l l' → ∀ i : Nat, List.Forall₂ R (l.set i a) (l'.set i b)
  | _, _, .nil, i => by simp
  | _, _, .cons h hs, 0 => .cons hr hs
  | _, _, .cons h hs, i + 1 => .cons h (forall₂_set hr hs i)

theorem flatten_set {α : Type} {x : α × Heap} (y : α × Heap) : ∀ {sp : List (α × Heap)} {i : Nat}, sp[i]? = some x →
    ∃ a b, (sp.map (·.2)).flatten = a ++ x.2 ++ b ∧ ((sp.set i y).map (·.2)).flatten = a ++ y.2 ++ b
  | [], i, h => by simp at h
  | z :: sp, 0, h => by
    simp only [List.getElem?_cons_zero, Option.some.injEq] at h
    subst h
    exact ⟨[], (sp.map (·.2)).flatten, by simp, by simp⟩
  | z :: sp, i + 1, h => by
    obtain ⟨a, b, h1, h2⟩ := flatten_set y (sp := sp) (i := i) (by simpa using h)
    exact ⟨z.2 ++ a, b, by simp [h1], by
      rw [List.set_cons_succ, List.map_cons, List.flatten_cons, h2]; simp⟩

/-- A new variable. -/
theorem Inv.push (hi : Inv t vars sp h) {u : Option Slice} {s : Option (List Nat)} {own : Heap}
    (hr : Rep t u (s, own)) (hn : ((own ++ h).map (·.1)).Nodup) :
    Inv t (vars ++ [u]) (sp ++ [(s, own)]) (own ++ h) where
  rep := List.rel_append hi.rep (.cons hr .nil)
  owned := by
    rw [List.map_append, List.flatten_append]
    simp only [List.map_cons, List.map_nil, List.flatten_cons, List.flatten_nil, List.append_nil]
    exact (List.perm_append_comm).trans (hi.owned.append_right own)
  nodup := hn

theorem Inv.push_heap (hi : Inv t vars sp h) {A : Allocator} (hA : GoodAllocator t A) {s : List Nat} {a : Nat}
    (long : t.inlineLen < s.length) (max : s.length ≤ 65535) (typed : ∀ x ∈ s, x < 256 ^ t.elem) {n : Nat}
    (ha : A h n = some a) :
    Inv t (vars ++ [some (heapForm t s a)]) (sp ++ [(some s, [(a, (t.bytes s).map some)])])
      ((a, (t.bytes s).map some) :: h) := by
  refine hi.push (.heap long max typed (hA _ _ _ ha).2) ?_
  simp only [List.cons_append, List.nil_append, List.map_cons, List.nodup_cons]
  refine ⟨fun hm => ?_, hi.nodup⟩
  obtain ⟨b, hb, hb'⟩ := List.mem_map.1 hm
  exact (hA _ _ _ ha).1 b hb hb'

/-- A dropped variable. -/
theorem Inv.drop (ht : Facts t) (hi : Inv t vars sp h) {i : Nat} {u : Slice} {s : List Nat} {own : Heap}
    (hs : sp[i]? = some (some s, own)) (hr : Rep t (some u) (some s, own)) :
    ∃ h', u.drop t h = .ok ((), h') ∧ Inv t (vars.set i none) (sp.set i (none, [])) h' := by
  obtain ⟨a, b, h1, h2⟩ := flatten_set (none, []) hs
  have hrep := forall₂_set (R := Rep t) .dropped hi.rep i
  have how := hi.owned
  rw [h1] at how
  unfold Slice.drop
  cases hr with
  | inline short typed =>
    rw [if_neg (show ¬ (inlineForm t s).len > t.inlineLen from Nat.not_lt.2 short)]
    refine ⟨h, rfl, hrep, ?_, hi.nodup⟩
    rw [h2]
    simpa using how
  | @heap _ x long max typed fits =>
    rw [if_pos (show (heapForm t s x).len > t.inlineLen from long), ptr_heapForm fits]
    have h3 : (heapForm t s x).len = s.length := rfl
    have h4 : s.length * t.elem ≤ 65535 * t.elem := Nat.mul_le_mul_right _ max
    have h5 := ht.small
    rw [h3]
    unfold Target.layout
    rw [if_pos (by omega)]
    change ∃ h', dealloc x (s.length * t.elem) h = _ ∧ _
    unfold dealloc
    rw [owned_at hi (List.mem_of_getElem? hs) (a := x) (b := (t.bytes s).map some) (by simp)]
    dsimp only
    rw [if_pos (by rw [List.length_map, bytes_length])]
    refine ⟨_, rfl, hrep, ?_, ?_⟩
    · rw [h2]
      unfold Heap.free
      refine (how.filter _).trans ?_
      have hn : ((a ++ [(x, (t.bytes s).map some)] ++ b).map (·.1)).Nodup := (how.map _).nodup_iff.1 hi.nodup
      simp only [List.append_assoc, List.cons_append, List.nil_append, List.map_append, List.map_cons] at hn ⊢
      rw [List.nodup_middle, List.nodup_cons] at hn
      rw [List.filter_append, List.filter_cons_of_neg (by simp), List.filter_eq_self.2, List.filter_eq_self.2]
      · intro y hy
        have : y.1 ≠ x := fun e => hn.1 (List.mem_append.2 (.inr (List.mem_map.2 ⟨y, hy, e⟩)))
        simpa using this
      · intro y hy
        have : y.1 ≠ x := fun e => hn.1 (List.mem_append.2 (.inl (List.mem_map.2 ⟨y, hy, e⟩)))
        simpa using this
    · unfold Heap.free
      exact hi.nodup.sublist ((List.filter_sublist).map _)

/-- What an operation does, if memory is as it should be. -/
def StepOk (t : Target) (A : Allocator) (sp : List (Option (List Nat) × Heap)) (op : Op) :
    Except Fault ((Vars × Seen) × Heap) → Prop
  | .ok ((vars', seen), h') => ∃ sp', Inv t vars' sp' h' ∧ (sp'.map (·.1), seen) = sliceStep (sp.map (·.1)) op
  | .error f => f = .abort ∧ ∃ h n, A h n = none

theorem inlineForm_nil (ht : Facts t) : inlineForm t [] = empty t := by
  have hz : t.inlineLen * t.elem = t.prefixLen * t.elem + t.suffixLen * t.elem := by rw [ht.inline, Nat.add_mul]
  unfold inlineForm empty padded
  simp only [Target.bytes, List.flatMap_nil, List.nil_append, List.length_nil, Nat.zero_mul, Nat.sub_zero,
    zeroed_eq, List.take_replicate, List.drop_replicate]
  congr 3 <;> omega

/-- `clone` copies the contents. -/
theorem clone_rep (ht : Facts t) {A : Allocator} (hA : GoodAllocator t A) (hi : Inv t vars sp h) {u : Slice}
    {s : List Nat} {own : Heap} (hm : (some s, own) ∈ sp) (hr : Rep t (some u) (some s, own)) :
    (s.length ≤ t.inlineLen ∧ (∀ x ∈ s, x < 256 ^ t.elem) ∧ u.clone t A h = .ok (inlineForm t s, h)) ∨
    (t.inlineLen < s.length ∧ s.length ≤ 65535 ∧ (∀ x ∈ s, x < 256 ^ t.elem) ∧
      u.clone t A h = match A h (s.length * t.elem) with
        | none => .error .abort
        | some a => .ok (heapForm t s a, (a, (t.bytes s).map some) :: h)) := by
  have has := asSlice_rep ht hi hm hr
  cases hr with
  | inline short typed =>
    refine .inl ⟨short, typed, ?_⟩
    unfold Slice.clone
    rw [if_pos (show (inlineForm t s).len ≤ t.inlineLen from short)]
    rfl
  | @heap _ x long max typed fits =>
    refine .inr ⟨long, max, typed, ?_⟩
    unfold Slice.clone
    rw [if_neg (show ¬ (heapForm t s x).len ≤ t.inlineLen from Nat.not_le.2 long)]
    change ((heapForm t s x).asSlice t h >>= _) = _
    rw [has]
    change (copySlice t A s h >>= _) = _
    rw [copySlice_eq ht hA (by omega) max]
    cases A h (s.length * t.elem) <;> rfl

theorem Rep.dead {s : Option (List Nat)} {own : Heap} (hr : Rep t none (s, own)) : s = none := by
  cases hr; rfl

theorem Rep.live {u : Slice} {s : Option (List Nat)} {own : Heap} (hr : Rep t (some u) (s, own)) :
    ∃ s', s = some s' := by
  cases hr <;> exact ⟨_, rfl⟩

theorem step_ok (ht : Facts t) {A : Allocator} (hA : GoodAllocator t A) (hi : Inv t vars sp h) {op : Op}
    (ho : Typed t op) : StepOk t A sp op (step t A vars op h) := by
  have hget : ∀ i : Nat, (sp.map (·.1))[i]? = (sp[i]?).map (·.1) := fun i => by simp
  cases op with
  | create s =>
    change StepOk t A sp _ (tryFrom t A s h >>= _)
    rw [tryFrom_eq ht hA]
    by_cases h0 : 65535 < s.length
    · rw [if_pos h0]
      exact ⟨sp, hi, by simp [sliceStep, h0]⟩
    rw [if_neg h0]
    by_cases h1 : s.length ≤ t.inlineLen
    · rw [if_pos h1]
      exact ⟨_, hi.push (own := []) (.inline h1 ho) hi.nodup, by simp [sliceStep, h0]⟩
    · rw [if_neg h1]
      cases ha : A h (s.length * t.elem) with
      | none => exact ⟨rfl, _, _, ha⟩
      | some a => exact ⟨_, hi.push_heap hA (by omega) (by omega) ho ha, by simp [sliceStep, h0]⟩
  | default =>
    have hr : Rep t (some (empty t)) (some [], []) := by
      rw [← inlineForm_nil ht]
      exact .inline (Nat.zero_le _) (by simp)
    exact ⟨_, hi.push (own := []) hr hi.nodup, by simp [sliceStep]⟩
  | clone i =>
    rcases forall₂_getElem? hi.rep i with ⟨h1, h2⟩ | ⟨u, ⟨s, own⟩, h1, h2, hr⟩
    · unfold step
      dsimp only
      rw [h1]
      exact ⟨sp, hi, by simp [sliceStep, h2]⟩
    cases u with
    | none =>
      obtain rfl := hr.dead
      unfold step
      dsimp only
      rw [h1]
      exact ⟨sp, hi, by simp [sliceStep, h2]⟩
    | some u =>
      obtain ⟨s, rfl⟩ := hr.live
      unfold step
      dsimp only
      rw [h1]
      change StepOk t A sp _ (u.clone t A h >>= _)
      rcases clone_rep ht hA hi (List.mem_of_getElem? h2) hr with ⟨a1, a2, a3⟩ | ⟨a1, a2, a3, a4⟩
      · rw [a3]
        exact ⟨_, hi.push (own := []) (.inline a1 a2) hi.nodup, by simp [sliceStep, h2]⟩
      · rw [a4]
        cases ha : A h (s.length * t.elem) with
        | none => exact ⟨rfl, _, _, ha⟩
        | some a => exact ⟨_, hi.push_heap hA a1 a2 a3 ha, by simp [sliceStep, h2]⟩
  | drop i =>
    rcases forall₂_getElem? hi.rep i with ⟨h1, h2⟩ | ⟨u, ⟨s, own⟩, h1, h2, hr⟩
    · unfold step
      dsimp only
      rw [h1]
      exact ⟨sp, hi, by simp [sliceStep, h2]⟩
    cases u with
    | none =>
      obtain rfl := hr.dead
      unfold step
      dsimp only
      rw [h1]
      exact ⟨sp, hi, by simp [sliceStep, h2]⟩
    | some u =>
      obtain ⟨s, rfl⟩ := hr.live
      unfold step
      dsimp only
      rw [h1]
      change StepOk t A sp _ (u.drop t h >>= _)
      obtain ⟨h', a1, a2⟩ := hi.drop ht h2 hr
      rw [a1]
      exact ⟨_, a2, by simp [sliceStep, h2, List.map_set]⟩
  | read i =>
    rcases forall₂_getElem? hi.rep i with ⟨h1, h2⟩ | ⟨u, ⟨s, own⟩, h1, h2, hr⟩
    · unfold step
      dsimp only
      rw [h1]
      exact ⟨sp, hi, by simp [sliceStep, h2]⟩
    cases u with
    | none =>
      obtain rfl := hr.dead
      unfold step
      dsimp only
      rw [h1]
      exact ⟨sp, hi, by simp [sliceStep, h2]⟩
    | some u =>
      obtain ⟨s, rfl⟩ := hr.live
      unfold step
      dsimp only
      rw [h1]
      change StepOk t A sp _ (u.asSlice t h >>= _)
      rw [asSlice_rep ht hi (List.mem_of_getElem? h2) hr]
      exact ⟨sp, hi, by simp [sliceStep, h2]⟩
  | eq i j =>
    rcases forall₂_getElem? hi.rep i with ⟨h1, h2⟩ | ⟨u, ⟨s, own⟩, h1, h2, hr⟩
    · unfold step
      dsimp only
      rw [h1]
      exact ⟨sp, hi, by simp [sliceStep, h2]⟩
    cases u with
    | none =>
      obtain rfl := hr.dead
      unfold step
      dsimp only
      rw [h1]
      exact ⟨sp, hi, by simp [sliceStep, h2]⟩
    | some u =>
    obtain ⟨s, rfl⟩ := hr.live
    rcases forall₂_getElem? hi.rep j with ⟨k1, k2⟩ | ⟨v, ⟨s', own'⟩, k1, k2, kr⟩
    · unfold step
      dsimp only
      rw [h1, k1]
      exact ⟨sp, hi, by simp [sliceStep, h2, k2]⟩
    cases v with
    | none =>
      obtain rfl := kr.dead
      unfold step
      dsimp only
      rw [h1, k1]
      exact ⟨sp, hi, by simp [sliceStep, h2, k2]⟩
    | some v =>
      obtain ⟨s', rfl⟩ := kr.live
      unfold step
      dsimp only
      rw [h1, k1]
      change StepOk t A sp _ (u.eq t v h >>= _)
      rw [eq_rep ht hi (List.mem_of_getElem? h2) hr (List.mem_of_getElem? k2) kr]
      exact ⟨sp, hi, by simp [sliceStep, h2, k2]⟩

/-- What a program does, if memory is as it should be. -/
theorem run_ok (ht : Facts t) {A : Allocator} (hA : GoodAllocator t A) : ∀ (ops : List Op) {vars : Vars}
    {sp : List (Option (List Nat) × Heap)} {h : Heap}, Inv t vars sp h → (∀ op ∈ ops, Typed t op) →
    match run t A vars ops h with
    | .ok ((vars', seen), h') => ∃ sp', Inv t vars' sp' h' ∧ (sp'.map (·.1), seen) = sliceRun (sp.map (·.1)) ops
    | .error f => f = .abort ∧ ∃ h n, A h n = none
  | [], vars, sp, h, hi, _ => ⟨sp, hi, rfl⟩
  | op :: ops, vars, sp, h, hi, ho => by
    simp only [List.mem_cons, forall_eq_or_imp] at ho
    have h1 := step_ok ht hA hi ho.1
    have h2 : run t A vars (op :: ops) h =
        (step t A vars op h).bind fun r => (run t A r.1.1 ops r.2).bind fun q =>
          .ok ((q.1.1, r.1.2 :: q.1.2), q.2) := by
      rfl
    rw [h2]
    cases hr : step t A vars op h with
    | error f => rw [hr] at h1; exact h1
    | ok r =>
      obtain ⟨⟨vars', seen⟩, h'⟩ := r
      rw [hr] at h1
      obtain ⟨sp', hi', hs⟩ := h1
      have h3 := run_ok ht hA ops hi' ho.2
      simp only [Except.bind]
      cases hq : run t A vars' ops h' with
      | error f => rw [hq] at h3; exact h3
      | ok q =>
        obtain ⟨⟨vars'', seen'⟩, h''⟩ := q
        rw [hq] at h3
        obtain ⟨sp'', hi'', hs'⟩ := h3
        refine ⟨sp'', hi'', ?_⟩
        rw [sliceRun, ← hs]
        dsimp only
        rw [← hs']

/-- The memory which variables own. -/
theorem Inv.blocks (hi : Inv t vars sp h) : (h.map (·.2)).Perm (Spec.blocks t (sp.map (·.1))) := by
  refine (hi.owned.map _).trans (List.Perm.of_eq ?_)
  have := hi.rep
  clear hi
  induction this with
  | nil => rfl
  | cons hr _ ih =>
    cases hr with
    | dropped => simpa [Spec.blocks] using ih
    | inline short typed =>
      simp only [List.map_cons, List.flatten_cons, List.nil_append, ih]
      simp [Spec.blocks, Nat.not_lt.2 short]
    | heap long max typed fits =>
      simp only [List.map_cons, List.flatten_cons, List.map_append, ih]
      simp [Spec.blocks, long]

end

end Spellbook.Mem
