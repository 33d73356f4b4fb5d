import Verif.Model.Conversion
import Verif.Proof.AffixIndex
import Verif.Proof.Tables
import Mathlib.Data.Nat.Bitwise

namespace Spellbook

/-! ## The byte set -/

namespace ByteSet

theorem byte_split (b : UInt8) : b.toNat >>> 6 = b.toNat / 64 ∧ b.toNat &&& 63 = b.toNat % 64 := by
  constructor
  · rw [Nat.shiftRight_eq_div_pow]
  · exact Nat.and_two_pow_sub_one_eq_mod b.toNat 6

theorem and_shift_ne_zero (x k : Nat) : (x &&& (1 <<< k) != 0) = x.testBit k := by
  rw [Nat.one_shiftLeft]
  have h : x &&& 2 ^ k = (x.testBit k).toNat * 2 ^ k := Nat.and_two_pow x k
  rw [h]
  cases x.testBit k <;> simp

theorem contains_insert {s : ByteSet} (hs : s.length = 4) (b c : UInt8) :
    (s.insert b).contains c = true ↔ c = b ∨ s.contains c = true := by
  unfold insert contains
  rw [and_shift_ne_zero, and_shift_ne_zero]
  obtain ⟨hb1, hb2⟩ := byte_split b
  obtain ⟨hc1, hc2⟩ := byte_split c
  rw [hb1, hb2, hc1, hc2]
  have hblt : b.toNat < 256 := b.toNat_lt
  have hclt : c.toNat < 256 := c.toNat_lt
  have heq : c = b ↔ c.toNat = b.toNat := by
    rw [UInt8.toNat_inj]
  rw [heq]
  by_cases h : b.toNat / 64 = c.toNat / 64
  · rw [h, List.getD_eq_getElem?_getD, List.getElem?_set_self (by rw [hs]; omega), Option.getD_some,
      Nat.testBit_or, Nat.one_shiftLeft, Nat.testBit_two_pow, Bool.or_eq_true, decide_eq_true_eq]
    constructor
    · rintro (h' | h')
      · exact .inr h'
      · exact .inl (by omega)
    · rintro (h' | h')
      · exact .inr (by omega)
      · exact .inl h'
  · rw [List.getD_eq_getElem?_getD, List.getElem?_set_ne h, ← List.getD_eq_getElem?_getD]
    constructor
    · exact .inr
    · rintro (h' | h')
      · omega
      · exact h'

theorem length_insert (s : ByteSet) (b : UInt8) : (s.insert b).length = s.length := by simp [insert]

theorem contains_default (c : UInt8) : ByteSet.default.contains c = false := by
  unfold contains
  rw [and_shift_ne_zero]
  have : ∀ i, (ByteSet.default).getD i 0 = 0 := by
    intro i
    match i with
    | 0 | 1 | 2 | 3 => rfl
    | n + 4 => rfl
  rw [this]; simp

end ByteSet

namespace ConversionTable
variable (t : ConversionTable)

theorem startBytes_fold (l : List Conversion) (s : ByteSet) (hs : s.length = 4) (b : UInt8) :
    (l.foldl startStep s).contains b = true ↔
      (∃ c ∈ l, (utf8 c.src).head? = some b) ∨ s.contains b = true := by
  induction l generalizing s with
  | nil => simp
  | cons c l ih =>
    rw [List.foldl_cons]
    cases h : (utf8 c.src).head? with
    | none =>
      have : startStep s c = s := by unfold startStep; rw [h]
      rw [this, ih _ hs]; simp [h]
    | some x =>
      have : startStep s c = s.insert x := by unfold startStep; rw [h]
      rw [this, ih _ (by rw [ByteSet.length_insert]; exact hs), ByteSet.contains_insert hs]
      simp only [List.mem_cons, exists_eq_or_imp, h, Option.some.injEq]
      constructor
      · rintro (h | h | h)
        · exact .inl (.inr h)
        · exact .inl (.inl h.symm)
        · exact .inr h
      · rintro ((h | h) | h)
        · exact .inr (.inl h.symm)
        · exact .inl h
        · exact .inr (.inr h)

theorem contains_startBytes (b : UInt8) :
    t.startBytes.contains b = true ↔ ∃ c ∈ t.inner, (utf8 c.src).head? = some b := by
  unfold startBytes
  rw [startBytes_fold t.inner ByteSet.default rfl b, ByteSet.contains_default]
  simp

/-- A conversion with a non-empty pattern applies at the start of `tail`. -/
def Fits (c : Conversion) (tail : Str) : Prop := c.src ≠ [] ∧ matchesAt c tail = true

theorem matchesAt_prefix {c : Conversion} {tail : Str} (h : matchesAt c tail = true) : c.src <+: tail := by
  unfold matchesAt at h
  split at h
  · rw [beq_iff_eq] at h; rw [h]
  · exact List.isPrefixOf_iff_prefix.1 h

theorem Fits.head {c : Conversion} {tail : Str} (h : Fits c tail) :
    ∃ b, (utf8 c.src).head? = some b ∧ (utf8 tail).head? = some b := by
  obtain ⟨h1, h2⟩ := h
  obtain ⟨r, rfl⟩ := matchesAt_prefix h2
  cases hs : utf8 c.src with
  | nil => exact absurd (utf8_eq_nil.1 hs) h1
  | cons b bs => exact ⟨b, by simp, by simp [hs]⟩

theorem scanRun_spec (first : UInt8) (tail : Str) (l : List Conversion) (best : Option Conversion)
    (hb : ∀ b, best = some b → matchesAt b tail = true) :
    ∀ r, scanRun first tail l best = r →
      (∀ c, r = some c → (c ∈ l.takeWhile (fun c => (utf8 c.src).head? = some first) ∨ best = some c) ∧
        matchesAt c tail = true) ∧
      (∀ c, c ∈ l.takeWhile (fun c => (utf8 c.src).head? = some first) ∨ best = some c →
        matchesAt c tail = true → ∃ r', r = some r' ∧ byteLen c.src ≤ byteLen r'.src) := by
  induction l generalizing best with
  | nil =>
    intro r hr
    rw [scanRun] at hr
    subst hr
    refine ⟨fun c hc => ⟨.inr hc, hb c hc⟩, fun c hc _ => ?_⟩
    rcases hc with hc | hc
    · simp at hc
    · exact ⟨c, hc, Nat.le_refl _⟩
  | cons d l ih =>
    intro r hr
    rw [scanRun] at hr
    by_cases hf : (utf8 d.src).head? = some first
    · rw [if_neg (by simpa using hf)] at hr
      rw [List.takeWhile_cons, if_pos (by simpa using hf)]
      split at hr
      · rename_i hc
        simp only [Bool.and_eq_true] at hc
        obtain ⟨ih1, ih2⟩ := ih (some d) (by rintro b hb'; obtain rfl := Option.some.inj hb'; exact hc.1) r hr
        refine ⟨fun c hc' => ?_, fun c hc' hm => ?_⟩
        · obtain ⟨h1, h2⟩ := ih1 c hc'
          refine ⟨.inl ?_, h2⟩
          rcases h1 with h1 | h1
          · exact List.mem_cons_of_mem _ h1
          · obtain rfl := Option.some.inj h1; exact List.mem_cons_self
        · rcases hc' with hc' | hc'
          · rcases List.mem_cons.1 hc' with rfl | hc'
            · exact ih2 _ (.inr rfl) hm
            · exact ih2 _ (.inl hc') hm
          · obtain ⟨r', hr', hle⟩ := ih2 d (.inr rfl) hc.1
            have := hc.2
            rw [hc'] at this
            simp only [longer, decide_eq_true_eq] at this
            exact ⟨r', hr', by omega⟩
      · rename_i hc
        obtain ⟨ih1, ih2⟩ := ih best hb r hr
        refine ⟨fun c hc' => ?_, fun c hc' hm => ?_⟩
        · obtain ⟨h1, h2⟩ := ih1 c hc'
          refine ⟨?_, h2⟩
          rcases h1 with h1 | h1
          · exact .inl (List.mem_cons_of_mem _ h1)
          · exact .inr h1
        · rcases hc' with hc' | hc'
          · rcases List.mem_cons.1 hc' with rfl | hc'
            · rw [hm] at hc
              cases hbe : best with
              | none => rw [hbe] at hc; simp [longer] at hc
              | some b =>
                rw [hbe] at hc
                simp only [longer, Bool.true_and, decide_eq_true_eq] at hc
                obtain ⟨r', hr', hle⟩ := ih2 b (.inr hbe) (hb b hbe)
                exact ⟨r', hr', by omega⟩
            · exact ih2 _ (.inl hc') hm
          · exact ih2 _ (.inr hc') hm
    · rw [if_pos (by simpa using hf)] at hr
      subst hr
      rw [List.takeWhile_cons, if_neg (by simpa using hf)]
      refine ⟨fun c hc => ⟨.inr hc, hb c hc⟩, fun c hc _ => ?_⟩
      rcases hc with hc | hc
      · simp at hc
      · exact ⟨c, hc, Nat.le_refl _⟩

theorem head_le_of_bytesLe {a b : List UInt8} (h : bytesLe a b = true) {y : UInt8} (hy : b.head? = some y) :
    a = [] ∨ ∃ x, a.head? = some x ∧ x ≤ y := by
  cases a with
  | nil => exact .inl rfl
  | cons x xs =>
    right
    cases b with
    | nil => simp [bytesLe] at h
    | cons z zs =>
      simp at hy; subst hy
      refine ⟨x, rfl, ?_⟩
      rw [bytesLe] at h
      split at h
      · rename_i hlt; exact UInt8.le_of_lt hlt
      · split at h
        · rename_i he; rw [he]; exact UInt8.le_refl _
        · simp at h

theorem firstBelow_antitone (first : UInt8) :
    t.inner.Pairwise fun x y => firstBelow first y = true → firstBelow first x = true := by
  refine t.sorted.imp ?_
  intro a b hab hb
  unfold firstBelow at *
  cases ha : (utf8 a.src).head? with
  | none => rfl
  | some x =>
    cases hbb : (utf8 b.src).head? with
    | none =>
      have : utf8 b.src = [] := by cases h : utf8 b.src <;> simp_all
      rw [this] at hab
      cases h : utf8 a.src with
      | nil => rw [h] at ha; simp at ha
      | cons z zs => rw [h] at hab; simp [bytesLe] at hab
    | some y =>
      rw [hbb] at hb
      rcases head_le_of_bytesLe hab hbb with h | ⟨x', hx', hle⟩
      · rw [h] at ha; simp at ha
      · rw [ha] at hx'; obtain rfl := Option.some.inj hx'
        simp only [decide_eq_true_eq] at hb ⊢
        exact UInt8.lt_of_le_of_lt hle hb

/-- The run `match_at` scans holds exactly the conversions with the given first byte. -/
theorem run_eq (first : UInt8) :
    (t.inner.drop (partitionPoint (firstBelow first) t.inner)).takeWhile
        (fun c => decide ((utf8 c.src).head? = some first))
      = t.inner.filter fun c => decide ((utf8 c.src).head? = some first) := by
  rw [drop_partitionPoint (firstBelow_antitone t first)]
  rw [(antitone_takeWhile (p := fun c : Conversion => decide ((utf8 c.src).head? = some first)) ?_).1]
  · rw [List.filter_filter]
    apply List.filter_congr
    intro c _
    unfold firstBelow
    cases h : (utf8 c.src).head? with
    | none => simp
    | some x =>
      by_cases hx : x = first
      · subst hx; simp
      · simp [hx]
  · have hs := t.sorted.sublist (List.filter_sublist (p := fun x => !firstBelow first x))
    rw [List.pairwise_iff_forall_sublist] at hs ⊢
    intro a b hab hb
    have hm : a ∈ t.inner.filter (fun x => !firstBelow first x) := hab.subset (by simp)
    rw [List.mem_filter] at hm
    rw [decide_eq_true_eq] at hb ⊢
    rcases head_le_of_bytesLe (hs hab) hb with h | ⟨x, hx, hle⟩
    · have h2 := hm.2; unfold firstBelow at h2; rw [h] at h2; simp at h2
    · have h2 := hm.2
      unfold firstBelow at h2
      rw [hx] at h2 ⊢
      simp only [Bool.not_eq_true', decide_eq_false_iff_not] at h2
      congr 1
      exact UInt8.le_antisymm hle (UInt8.not_lt.1 h2)

theorem matchAt_some {tail : Str} {c : Conversion} (h : t.matchAt tail = some c) :
    c ∈ t.inner ∧ Fits c tail ∧ ∀ c' ∈ t.inner, Fits c' tail → c'.src.length ≤ c.src.length := by
  unfold matchAt at h
  cases hf : (utf8 tail).head? with
  | none => rw [hf] at h; simp at h
  | some first =>
    rw [hf] at h
    simp only at h
    obtain ⟨h1, h2⟩ := scanRun_spec first tail _ none (by simp) _ h
    obtain ⟨h3, h4⟩ := h1 c rfl
    rw [run_eq] at h3 h2
    have h3 := h3.resolve_right (by simp)
    rw [List.mem_filter, decide_eq_true_eq] at h3
    have hne : c.src ≠ [] := by intro he; rw [he] at h3; simp at h3
    refine ⟨h3.1, ⟨hne, h4⟩, fun c' hc' hfit => ?_⟩
    obtain ⟨b, hb1, hb2⟩ := hfit.head
    rw [hf] at hb2; obtain rfl := Option.some.inj hb2
    obtain ⟨r', hr', hle⟩ := h2 c' (.inl (by rw [List.mem_filter, decide_eq_true_eq]; exact ⟨hc', hb1⟩)) hfit.2
    obtain rfl := Option.some.inj hr'
    -- both patterns are prefixes of `tail`, so byte lengths and character lengths agree in order
    obtain ⟨r1, e1⟩ := matchesAt_prefix hfit.2
    obtain ⟨r2, e2⟩ := matchesAt_prefix h4
    by_contra hlt
    have hp : c.src <+: c'.src :=
      List.prefix_of_prefix_length_le ⟨r2, e2⟩ ⟨r1, e1⟩ (by omega)
    obtain ⟨r, hr⟩ := hp
    have := congrArg byteLen hr
    rw [byteLen_append] at this
    have h0 : byteLen r = 0 := by omega
    rw [byteLen_eq_zero] at h0
    have := congrArg List.length hr
    rw [h0] at this
    simp at this
    omega

theorem matchAt_none {tail : Str} (h : t.matchAt tail = none) : ∀ c ∈ t.inner, ¬ Fits c tail := by
  intro c hc hfit
  obtain ⟨b, hb1, hb2⟩ := hfit.head
  unfold matchAt at h
  rw [hb2] at h
  simp only at h
  obtain ⟨_, h2⟩ := scanRun_spec b tail _ none (by simp) _ h
  rw [run_eq] at h2
  obtain ⟨r', hr', _⟩ := h2 c (.inl (by rw [List.mem_filter, decide_eq_true_eq]; exact ⟨hc, hb1⟩)) hfit.2
  simp at hr'

theorem convApplies_iff {line : Str × Str} {tail pat : Str} :
    Spec.ConvApplies line tail pat ↔ Fits (Conversion.ofPair line) tail ∧ pat = (Conversion.ofPair line).src := by
  unfold Spec.ConvApplies Fits Conversion.ofPair matchesAt
  cases h : stripSuffix? line.1 ['_'] with
  | some src =>
    rw [stripSuffix?_iff] at h
    simp only [↓reduceIte, beq_iff_eq]
    constructor
    · rintro ⟨h1, ⟨h2, h3⟩ | ⟨h2, _⟩⟩
      · rw [h] at h2
        have := List.append_cancel_right h2
        exact ⟨⟨by rwa [this], by rw [this]; exact h3⟩, this.symm⟩
      · exact absurd ⟨src, h⟩ h2
    · rintro ⟨⟨h1, h2⟩, rfl⟩
      exact ⟨h1, .inl ⟨h, h2⟩⟩
  | none =>
    rw [stripSuffix?_none] at h
    simp only [Bool.false_eq_true, ↓reduceIte, startsWith, List.isPrefixOf_iff_prefix]
    constructor
    · rintro ⟨h1, ⟨h2, h3⟩ | ⟨_, h2, h3⟩⟩
      · exact absurd h2 (h pat)
      · exact ⟨⟨by rwa [h2], by rwa [h2]⟩, h2.symm⟩
    · rintro ⟨⟨h1, h2⟩, rfl⟩
      exact ⟨h1, .inr ⟨fun ⟨p, hp⟩ => h p hp, rfl, h2⟩⟩

/-- The table holds the given conversion lines. -/
def Holds (t : ConversionTable) (lines : List (Str × Str)) : Prop :=
  t.inner.Perm (lines.map Conversion.ofPair)

theorem convertLoop_spec {lines : List (Str × Str)} (ht : t.Holds lines) :
    ∀ (fuel : Nat) (done w : Str), w.length < fuel →
      ∃ out, convertLoop t fuel done w = some (done ++ out) ∧ Spec.Converts lines w out := by
  intro fuel
  induction fuel with
  | zero => intro _ _ h; omega
  | succ fuel ih =>
    intro done w hlen
    cases w with
    | nil => exact ⟨[], by simp [convertLoop], .done⟩
    | cons ch rest =>
      rw [convertLoop]
      cases hm : t.matchAt (ch :: rest) with
      | none =>
        obtain ⟨out, h1, h2⟩ := ih (done ++ [ch]) rest (by simp at hlen; omega)
        refine ⟨ch :: out, by simp [h1], .copy ?_ h2⟩
        intro line hl pat happ
        rw [convApplies_iff] at happ
        exact matchAt_none t hm _ (ht.mem_iff.2 (List.mem_map_of_mem hl)) happ.1
      | some c =>
        obtain ⟨hc, hfit, hmax⟩ := matchAt_some t hm
        obtain ⟨r, hr⟩ := matchesAt_prefix hfit.2
        have hlen' : c.src.length + r.length = rest.length + 1 := by
          have := congrArg List.length hr; simpa using this
        have hpos : 0 < c.src.length := List.length_pos_iff.2 hfit.1
        simp only
        rw [← hr, List.drop_left]
        obtain ⟨out, h1, h2⟩ := ih (done ++ c.dst) r (by simp at hlen; omega)
        obtain ⟨line, hl, hle⟩ := List.mem_map.1 (ht.mem_iff.1 hc)
        have hdst : c.dst = line.2 := by
          rw [← hle]; unfold Conversion.ofPair; split <;> rfl
        refine ⟨c.dst ++ out, by simp [h1], ?_⟩
        rw [hdst]
        refine .replace hl ?_ ?_ h2
        · rw [convApplies_iff, hle, hr]; exact ⟨hfit, rfl⟩
        · intro line' hl' pat' happ
          rw [convApplies_iff, hr] at happ
          rw [happ.2]
          exact hmax _ (ht.mem_iff.2 (List.mem_map_of_mem hl')) happ.1

theorem converts_self {lines : List (Str × Str)} : ∀ {w : Str},
    (∀ (a b : Str), w = a ++ b → ∀ line ∈ lines, ∀ pat, ¬ Spec.ConvApplies line b pat) →
    Spec.Converts lines w w := by
  intro w
  induction w with
  | nil => intro _; exact .done
  | cons c w ih =>
    intro h
    refine .copy (h [] _ rfl) (ih fun a b hab => h (c :: a) b (by simp [hab]))

theorem isAscii_append {a b : Str} (h : isAscii (a ++ b) = true) : isAscii a = true ∧ isAscii b = true := by
  unfold isAscii at *
  rw [utf8_append, List.all_append, Bool.and_eq_true] at h
  exact h

theorem convert?_spec {lines : List (Str × Str)} (ht : t.Holds lines) (w : Str) :
    ∃ out, t.convert? w = some out ∧ Spec.Converts lines w out := by
  unfold convert?
  split
  · rename_i h
    refine ⟨w, rfl, converts_self fun a b _ line hl pat happ => ?_⟩
    rw [List.isEmpty_iff] at h
    have := ht.mem_iff.2 (List.mem_map_of_mem (f := Conversion.ofPair) hl)
    rw [h] at this; simp at this
  · split
    · rename_i h
      rw [Bool.and_eq_true] at h
      refine ⟨w, rfl, converts_self fun a b hab line hl pat happ => ?_⟩
      rw [convApplies_iff] at happ
      obtain ⟨r, hr⟩ := matchesAt_prefix happ.1.2
      have hmem := ht.mem_iff.2 (List.mem_map_of_mem (f := Conversion.ofPair) hl)
      have h1 := h.1
      unfold allNonAscii at h1
      rw [Bool.and_eq_true, List.all_eq_true] at h1
      have := h1.2 _ hmem
      have h2 := h.2
      rw [hab, ← hr] at h2
      rw [(isAscii_append (isAscii_append h2).2).1] at this
      simp at this
    · split
      · rename_i h
        refine ⟨w, rfl, converts_self fun a b hab line hl pat happ => ?_⟩
        rw [convApplies_iff] at happ
        obtain ⟨x, hx1, hx2⟩ := happ.1.head
        have hmem := ht.mem_iff.2 (List.mem_map_of_mem (f := Conversion.ofPair) hl)
        have hcon := (contains_startBytes t x).2 ⟨_, hmem, hx1⟩
        simp only [Bool.not_eq_true', List.any_eq_false] at h
        refine h x ?_ hcon
        rw [hab, utf8_append]
        exact List.mem_append_right _ (List.mem_of_mem_head? hx2)
      · obtain ⟨out, h1, h2⟩ := convertLoop_spec t ht (w.length + 1) [] w (by omega)
        exact ⟨out, by simpa using h1, h2⟩

theorem convertLoop_isSome : ∀ (fuel : Nat) (done w : Str), w.length < fuel →
    (convertLoop t fuel done w).isSome = true := by
  intro fuel
  induction fuel with
  | zero => intro _ _ h; omega
  | succ fuel ih =>
    intro done w hlen
    cases w with
    | nil => simp [convertLoop]
    | cons ch rest =>
      rw [convertLoop]
      simp at hlen
      cases hm : t.matchAt (ch :: rest) with
      | none => exact ih _ _ (by omega)
      | some c =>
        obtain ⟨_, hfit, _⟩ := matchAt_some t hm
        have hpos : 0 < c.src.length := List.length_pos_iff.2 hfit.1
        exact ih _ _ (by simp; omega)

/-- The conversion of any word terminates. -/
theorem convert?_isSome (w : Str) : (t.convert? w).isSome = true := by
  unfold convert?
  split
  · rfl
  · split
    · rfl
    · split
      · rfl
      · exact convertLoop_isSome t _ _ _ (by omega)

theorem convert?_eq (w : Str) : t.convert? w = some (t.convert w) := by
  obtain ⟨x, hx⟩ := Option.isSome_iff_exists.1 (convert?_isSome t w)
  rw [convert, hx]; rfl

theorem empty_convert (w : Str) : ConversionTable.empty.convert w = w := rfl

theorem insertConv_perm (c : Conversion) (l : List Conversion) : (insertConv c l).Perm (c :: l) := by
  induction l with
  | nil => exact List.Perm.refl _
  | cons d l ih =>
    rw [insertConv]
    split
    · exact List.Perm.refl _
    · exact (List.Perm.cons d ih).trans (List.Perm.swap _ _ _)

theorem sortConv_perm (l : List Conversion) : (sortConv l).Perm l := by
  induction l with
  | nil => exact List.Perm.refl _
  | cons c l ih => exact (insertConv_perm c _).trans (ih.cons c)

theorem insertConv_sorted (c : Conversion) (l : List Conversion)
    (h : l.Pairwise fun a b => bytesLe (utf8 a.src) (utf8 b.src)) :
    (insertConv c l).Pairwise fun a b => bytesLe (utf8 a.src) (utf8 b.src) := by
  induction l with
  | nil => simp [insertConv]
  | cons d l ih =>
    rw [insertConv]
    rw [List.pairwise_cons] at h
    split
    · rename_i hle
      rw [List.pairwise_cons]
      refine ⟨?_, List.pairwise_cons.2 h⟩
      intro x hx
      rcases List.mem_cons.1 hx with rfl | hx
      · exact hle
      · exact bytesLe_trans hle (h.1 x hx)
    · rename_i hle
      rw [List.pairwise_cons]
      refine ⟨?_, ih h.2⟩
      intro x hx
      rcases List.mem_cons.1 ((insertConv_perm c l).mem_iff.1 hx) with rfl | hx
      · exact (bytesLe_total _ _).resolve_left hle
      · exact h.1 x hx

theorem sortConv_sorted (l : List Conversion) :
    (sortConv l).Pairwise fun a b => bytesLe (utf8 a.src) (utf8 b.src) := by
  induction l with
  | nil => exact List.Pairwise.nil
  | cons c l ih => exact insertConv_sorted c _ ih

/-- The table of the given lines (one of the possible arrangements). -/
def ofLines (lines : List (Str × Str)) : ConversionTable :=
  ⟨sortConv (lines.map Conversion.ofPair), sortConv_sorted _⟩

theorem ofLines_holds (lines : List (Str × Str)) : (ofLines lines).Holds lines := sortConv_perm _

end ConversionTable
end Spellbook
