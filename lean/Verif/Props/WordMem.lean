import Verif.Proof.WordMem
import Verif.Props.UmbraMem
/-!
# C86 The word list in memory

A program makes word lists, inserts, looks up, removes, iterates, copies and drops in any order. In memory
(`Mem.wordRun`) the texts and flags are `UmbraSlice`s, found through hashes of the texts read back from them. It sees
what a program on plain lists of pairs sees (`Spec.wordRunSpec`).
-/

namespace Spellbook.Props
open Spec Mem

/-! ## From the hash bag to plain lists -/

/-- A word list and its plain list. -/
inductive SameVar : Option (Bag FlagSet) → Option (List (Str × List Nat)) → Prop
  | dropped : SameVar none none
  | list {b : Bag FlagSet} {es : List (Str × List Nat)} (h : List.Forall₂ SameText (b.slots.map shown) es) :
      SameVar (some b) (some es)

theorem sameEntry_ofList {stem : Str} {flags : List Nat} : SameText (shown (stem, FlagSet.ofList flags)) (stem, flags) :=
  ⟨rfl, (FlagSet.ofList flags).sorted, fun _ => mem_dedupNat.trans mem_sortNat⟩

theorem filter_same {key : Str} : ∀ {xs : List (Str × FlagSet)} {es : List (Str × List Nat)},
    List.Forall₂ SameText (xs.map shown) es →
    List.Forall₂ SameText ((xs.filter fun e => e.1 == key).map shown) (es.filter fun e => e.1 = key)
  | [], _, h => by cases h; exact .nil
  | x :: xs, _, h => by
    obtain _ | ⟨h1, h2⟩ := h
    rename_i e es
    have ih := filter_same (key := key) h2
    have hk : x.1 = e.1 := h1.1
    by_cases hx : x.1 = key
    · rw [List.filter_cons_of_pos (by simpa using hx), List.filter_cons_of_pos (by simpa using hk ▸ hx)]
      exact .cons h1 ih
    · rw [List.filter_cons_of_neg (by simpa using hx), List.filter_cons_of_neg (by simpa using hk ▸ hx)]
      exact ih

theorem forbidden_same {flag : Nat} {x : Str × FlagSet} {e : Str × List Nat} (h : SameText (shown x) e) :
    SameText (shown (x.1, forbidden flag x.2)) (e.1, flag :: e.2) := by
  refine ⟨h.1, (forbidden flag x.2).sorted, fun f => ?_⟩
  have h3 := h.2.2
  simp only [shown] at h3 ⊢
  rw [List.mem_cons, ← h3]
  unfold forbidden
  split
  · change f ∈ dedupNat (sortNat (x.2.elems ++ [flag])) ↔ _
    rw [mem_dedupNat, mem_sortNat, List.mem_append, List.mem_singleton]
    exact or_comm
  · rename_i hc
    have hc : flag ∈ x.2.elems := FlagSet.contains_iff.1 (by simpa using hc)
    constructor
    · exact .inr
    · rintro (rfl | hm)
      · exact hc
      · exact hm

theorem remove_same {key : Str} {flag : Nat} : ∀ {xs : List (Str × FlagSet)} {es : List (Str × List Nat)},
    List.Forall₂ SameText (xs.map shown) es →
    List.Forall₂ SameText ((xs.map (Bag.upd key (forbidden flag))).map shown)
      (es.map fun e => if e.1 = key then (e.1, flag :: e.2) else e)
  | [], _, h => by cases h; exact .nil
  | x :: xs, _, h => by
    obtain _ | ⟨h1, h2⟩ := h
    rename_i e es
    refine .cons ?_ (remove_same h2)
    have hk : x.1 = e.1 := h1.1
    unfold Bag.upd
    dsimp only
    by_cases hx : x.1 = key
    · rw [if_pos hx, if_pos (hk ▸ hx)]
      exact forbidden_same h1
    · rw [if_neg hx, if_neg (hk ▸ hx)]
      exact h1

theorem any_same {key : Str} {flag : Nat} : ∀ {xs : List (Str × FlagSet)} {es : List (Str × List Nat)},
    List.Forall₂ SameText (xs.map shown) es →
    (xs.any fun e => e.1 == key && !e.2.contains flag) = es.any fun e => decide (e.1 = key ∧ flag ∉ e.2)
  | [], _, h => by cases h; rfl
  | x :: xs, _, h => by
    obtain _ | ⟨h1, h2⟩ := h
    rename_i e es
    rw [List.any_cons, List.any_cons, any_same h2]
    congr 1
    have hk : x.1 = e.1 := h1.1
    have hf : x.2.contains flag = true ↔ flag ∈ e.2 := FlagSet.contains_iff.trans (h1.2.2 flag)
    rw [Bool.eq_iff_iff, Bool.and_eq_true, beq_iff_eq, decide_eq_true_eq, hk, ← hf, Bool.not_eq_true, Bool.not_eq_true']

theorem bagStep_same (L : Layout) {bs : List (Option (Bag FlagSet))} {ls : Lists} (h : List.Forall₂ SameVar bs ls)
    (op : WordOp) : List.Forall₂ SameVar (bagStep L bs op).1 (wordStepSpec ls op).1 ∧
      Sees (bagStep L bs op).2 (wordStepSpec ls op).2 := by
  have hc : ∀ i : Nat, ((∀ b, bs[i]? ≠ some (some b)) ∧ ∀ l, ls[i]? ≠ some (some l)) ∨
      ∃ b l, bs[i]? = some (some b) ∧ ls[i]? = some (some l) ∧ List.Forall₂ SameText (b.slots.map shown) l := by
    intro i
    rcases forall₂_getElem? h i with ⟨h1, h2⟩ | ⟨b, l, h1, h2, hr⟩
    · exact .inl ⟨fun _ => by simp [h1], fun _ => by simp [h2]⟩
    · cases hr with
      | dropped => exact .inl ⟨fun _ => by simp [h1], fun _ => by simp [h2]⟩
      | list hr => exact .inr ⟨_, _, h1, h2, hr⟩
  cases op with
  | new => exact ⟨List.rel_append h (.cons (.list .nil) .nil), .done⟩
  | insert i stem flags =>
    unfold bagStep wordStepSpec
    dsimp only
    rcases hc i with ⟨h1, h2⟩ | ⟨b, l, h1, h2, hr⟩
    · split
      · exact absurd ‹_› (h1 _)
      · split
        · exact absurd ‹_› (h2 _)
        · exact ⟨h, .done⟩
    · rw [h1, h2]
      refine ⟨forall₂_set (.list ?_) h i, .done⟩
      unfold Bag.insert
      rw [List.map_append]
      exact List.rel_append hr (.cons sameEntry_ofList .nil)
  | find i key =>
    unfold bagStep wordStepSpec
    dsimp only
    rcases hc i with ⟨h1, h2⟩ | ⟨b, l, h1, h2, hr⟩
    · split
      · exact absurd ‹_› (h1 _)
      · split
        · exact absurd ‹_› (h2 _)
        · exact ⟨h, .done⟩
    · rw [h1, h2]
      exact ⟨h, .entries ((Bag.get_perm L b key).map shown) (filter_same hr)⟩
  | iter i =>
    unfold bagStep wordStepSpec
    dsimp only
    rcases hc i with ⟨h1, h2⟩ | ⟨b, l, h1, h2, hr⟩
    · split
      · exact absurd ‹_› (h1 _)
      · split
        · exact absurd ‹_› (h2 _)
        · exact ⟨h, .done⟩
    · rw [h1, h2]
      exact ⟨h, .entries ((Bag.iter_perm L b).map shown) hr⟩
  | len i =>
    unfold bagStep wordStepSpec
    dsimp only
    rcases hc i with ⟨h1, h2⟩ | ⟨b, l, h1, h2, hr⟩
    · split
      · exact absurd ‹_› (h1 _)
      · split
        · exact absurd ‹_› (h2 _)
        · exact ⟨h, .done⟩
    · rw [h1, h2]
      refine ⟨h, ?_⟩
      dsimp only
      rw [← hr.length_eq, List.length_map]
      exact .count
  | remove i key flag =>
    unfold bagStep wordStepSpec
    dsimp only
    rcases hc i with ⟨h1, h2⟩ | ⟨b, l, h1, h2, hr⟩
    · split
      · exact absurd ‹_› (h1 _)
      · split
        · exact absurd ‹_› (h2 _)
        · exact ⟨h, .done⟩
    · rw [h1, h2]
      dsimp only
      constructor
      · refine forall₂_set (.list ?_) h i
        rw [Bag.updateAll_slots]
        exact remove_same hr
      · have e : ((b.get L key).any fun e => !e.2.contains flag) =
            b.slots.any fun e => e.1 == key && !e.2.contains flag := by
          rw [(Bag.get_perm L b key).any_eq, List.any_filter]
        rw [e, any_same hr]
        exact .removed
  | clone i =>
    unfold bagStep wordStepSpec
    dsimp only
    rcases hc i with ⟨h1, h2⟩ | ⟨b, l, h1, h2, hr⟩
    · split
      · exact absurd ‹_› (h1 _)
      · split
        · exact absurd ‹_› (h2 _)
        · exact ⟨h, .done⟩
    · rw [h1, h2]
      exact ⟨List.rel_append h (.cons (.list hr) .nil), .done⟩
  | drop i =>
    unfold bagStep wordStepSpec
    dsimp only
    rcases hc i with ⟨h1, h2⟩ | ⟨b, l, h1, h2, hr⟩
    · split
      · exact absurd ‹_› (h1 _)
      · split
        · exact absurd ‹_› (h2 _)
        · exact ⟨h, .done⟩
    · rw [h1, h2]
      exact ⟨forall₂_set .dropped h i, .done⟩

theorem bagRun_same (L : Layout) (ops : List WordOp) : ∀ {bs : List (Option (Bag FlagSet))} {ls : Lists},
    List.Forall₂ SameVar bs ls → List.Forall₂ SameVar (bagRun L bs ops).1 (wordRunSpec ls ops).1 ∧
      List.Forall₂ Sees (bagRun L bs ops).2 (wordRunSpec ls ops).2 := by
  induction ops with
  | nil => intro bs ls h; exact ⟨h, .nil⟩
  | cons op ops ih =>
    intro bs ls h
    have h1 := bagStep_same L h op
    have h2 := ih h1.1
    exact ⟨h2.1, .cons h1.2 h2.2⟩

/-! ## How much memory -/

theorem own_length {t : Target} {u : Slice} {s : List Nat} {own : Heap} (hr : Rep t (some u) (some s, own)) :
    own.length = if t.inlineLen < s.length then 1 else 0 := by
  cases hr with
  | inline short => rw [if_neg (by omega)]; rfl
  | heap long => rw [if_pos long]; rfl

/-- The blocks for one entry. -/
def entryBlocks (M : Machine) (e : Str × List Nat) : Nat :=
  (if M.texts.inlineLen < (utf8 e.1).length then 1 else 0) + (if M.flags.inlineLen < e.2.dedup.length then 1 else 0)

theorem table_length {M : Machine} {table : Table} {sp : List ((Str × FlagSet) × Heap)}
    (hr : List.Forall₂ (EntryRep M) table sp) : ∀ {es : List (Str × List Nat)},
    List.Forall₂ SameText ((sp.map (·.1)).map shown) es → (owns sp).length = (es.map (entryBlocks M)).sum := by
  induction hr with
  | nil => intro es h; cases h; rfl
  | @cons e x table sp he _ ih =>
    intro es h
    obtain _ | ⟨h1, h2⟩ := h
    rename_i y ys
    obtain ⟨⟨o, o', hx, r1, r2⟩, -⟩ := he
    rw [owns_cons, hx, List.length_append, List.length_append, ih h2, own_length r1, own_length r2, textBytes_length,
      List.map_cons, List.sum_cons]
    have hk : x.1.1 = y.1 := h1.1
    have hl : x.1.2.elems.length = y.2.dedup.length := by
      refine List.Perm.length_eq ?_
      rw [List.perm_ext_iff_of_nodup (x.1.2.sorted.imp (fun h => Nat.ne_of_lt h)) (List.nodup_dedup _)]
      intro f
      rw [List.mem_dedup]
      exact h1.2.2 f
    rw [hk, hl]
    rfl

theorem vars_length {M : Machine} {vars : List (Option Table)} {sp : List (Option (Bag FlagSet) × Heap)}
    (hr : List.Forall₂ (VarRep M) vars sp) : ∀ {ls : Lists}, List.Forall₂ SameVar (sp.map (·.1)) ls →
    (owns sp).length = blockCount M ls := by
  induction hr with
  | nil => intro ls h; cases h; rfl
  | @cons u x vars sp he _ ih =>
    intro ls h
    obtain _ | ⟨h1, h2⟩ := h
    rename_i l ls
    rw [owns_cons, List.length_append, ih h2]
    cases he with
    | dropped =>
      cases h1
      simp [blockCount]
    | table hr =>
      obtain _ | h1 := h1
      rename_i l
      have := table_length hr h1
      dsimp only
      rw [this]
      simp only [blockCount, List.filterMap_cons, id, List.flatten_cons, List.map_append, List.sum_append]
      rfl

/-! ## C86 -/

/-- **C86**: for every machine, allocator, hasher and program, nothing is undefined behaviour and nothing panics; the
only way to stop is an allocator which refuses. -/
theorem C86_no_undefined_behaviour {M : Machine} (hM : GoodMachine M) {A : Allocator} (hA : GoodMemory M A) (L : Layout)
    (ops : List WordOp) (ho : ∀ op ∈ ops, WordTyped op) {f : Fault} (h : wordRun M A L [] ops [] = .error f) :
    f = .abort ∧ ∃ heap size, A heap size = none := by
  have := wordRun_does (usable hM hA) L ops (sp := []) (h := []) ⟨.nil, .nil, .nil⟩ ho
  unfold Does at this
  rw [h] at this
  exact this

/-- **C86**: the program sees what it would see on lists of pairs: lookups find exactly the entries inserted with this
text, with their flags. At its end memory consists of one block for each text and each flag set which does not fit
inline, at different addresses. -/
theorem C86_program {M : Machine} (hM : GoodMachine M) {A : Allocator} (hA : GoodMemory M A) (L : Layout)
    (ops : List WordOp) (ho : ∀ op ∈ ops, WordTyped op) {vars : List (Option Table)} {seen : List WordSeen}
    {heap : Heap} (h : wordRun M A L [] ops [] = .ok ((vars, seen), heap)) :
    List.Forall₂ Sees seen (wordRunSpec [] ops).2 ∧ heap.length = blockCount M (wordRunSpec [] ops).1 ∧
      (heap.map (·.1)).Nodup := by
  have := wordRun_does (usable hM hA) L ops (sp := []) (h := []) ⟨.nil, .nil, .nil⟩ ho
  unfold Does at this
  rw [h] at this
  obtain ⟨sp, hi, hs⟩ := this
  rw [List.map_nil] at hs
  obtain ⟨h1, h2⟩ := bagRun_same L ops (bs := []) (ls := []) .nil
  rw [← hs] at h1 h2
  exact ⟨h2, by rw [hi.owned.length_eq, vars_length hi.rep h1], hi.nodup⟩

/-- **C86** (no leak): if every word list was dropped, no memory is left. -/
theorem C86_no_leak {M : Machine} (hM : GoodMachine M) {A : Allocator} (hA : GoodMemory M A) (L : Layout)
    (ops : List WordOp) (ho : ∀ op ∈ ops, WordTyped op) {vars : List (Option Table)} {seen : List WordSeen}
    {heap : Heap} (h : wordRun M A L [] ops [] = .ok ((vars, seen), heap))
    (hd : ∀ v ∈ (wordRunSpec [] ops).1, v = none) : heap = [] := by
  have h1 := (C86_program hM hA L ops ho h).2.1
  have h2 : (wordRunSpec [] ops).1.filterMap id = [] := by
    rw [List.filterMap_eq_nil_iff]
    exact hd
  rw [blockCount, h2] at h1
  exact List.length_eq_zero_iff.1 h1

/-- **C86**: what it sees, orders included, is what the operations of the model used everywhere else (`Bag`) give. -/
theorem C86_bag {M : Machine} (hM : GoodMachine M) {A : Allocator} (hA : GoodMemory M A) (L : Layout)
    (ops : List WordOp) (ho : ∀ op ∈ ops, WordTyped op) {vars : List (Option Table)} {seen : List WordSeen}
    {heap : Heap} (h : wordRun M A L [] ops [] = .ok ((vars, seen), heap)) : seen = (bagRun L [] ops).2 := by
  have := wordRun_does (usable hM hA) L ops (sp := []) (h := []) ⟨.nil, .nil, .nil⟩ ho
  unfold Does at this
  rw [h] at this
  obtain ⟨sp, hi, hs⟩ := this
  rw [List.map_nil] at hs
  rw [← hs]

/-- A program with a text of 3 and a text of 18 bytes. -/
def sampleWords : List WordOp :=
  [.new, .insert 0 "été".toList [7, 3, 7], .insert 0 "Straßenbahnwagen".toList [1, 2, 3, 4, 5, 6, 7, 8],
   .insert 0 "été".toList [], .find 0 "été".toList, .find 0 "Straßenbahnwagen".toList, .clone 0,
   .remove 0 "été".toList 9, .remove 0 "été".toList 9, .find 0 "été".toList, .find 1 "été".toList, .len 1,
   .find 0 "et".toList, .drop 0, .iter 1]

/-- It meets the hypotheses, on a 32-bit machine whose numbers start with the most significant byte, and runs to its
end; the copy keeps two blocks. -/
example : GoodMachine ⟨4, true⟩ ∧ GoodMemory ⟨4, true⟩ (nextFree ⟨4, 1, true⟩) ∧ (∀ op ∈ sampleWords, WordTyped op) ∧
    ((wordRun ⟨4, true⟩ (nextFree ⟨4, 1, true⟩) .reversed [] sampleWords []).map fun r => (r.1.2, r.2.map (·.1))) =
      .ok ([.done, .done, .done, .done, .entries [("été".toList, []), ("été".toList, [3, 7])],
        .entries [("Straßenbahnwagen".toList, [1, 2, 3, 4, 5, 6, 7, 8])], .done, .removed true, .removed false,
        .entries [("été".toList, [9]), ("été".toList, [3, 7, 9])],
        .entries [("été".toList, []), ("été".toList, [3, 7])], .count 3, .entries [], .done,
        .entries [("été".toList, []), ("Straßenbahnwagen".toList, [1, 2, 3, 4, 5, 6, 7, 8]), ("été".toList, [3, 7])]],
        [4, 3]) := by
  refine ⟨.inl rfl, nextFree_good ⟨4, 1, true⟩, ?_, by decide +kernel⟩
  intro op hm
  simp only [sampleWords, List.mem_cons, List.not_mem_nil, or_false] at hm
  rcases hm with rfl | rfl | rfl | rfl | rfl | rfl | rfl | rfl | rfl | rfl | rfl | rfl | rfl | rfl | rfl <;>
    first
      | exact trivial
      | exact ⟨by decide +kernel, by decide⟩

end Spellbook.Props
