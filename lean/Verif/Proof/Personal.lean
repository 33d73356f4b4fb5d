import Verif.Spec.Personal
import Verif.Proof.Order
/-!
# Proofs about personal dictionaries
-/

namespace Spellbook
open Spec

variable {U : Unicode}

theorem add_inv {D D' : Dict} {line : Str} (h : D.add U line = .ok D') : ∃ e,
    parseDicLine U line D.aff.flagType D.aff.flagAliases D.aff.ignoreChars = .ok e ∧
    D'.aff = D.aff ∧ D'.words.slots = D.words.slots ++ [e] := by
  unfold Dict.add at h
  split at h
  · cases h
  · rename_i stem F hp
    cases h
    exact ⟨_, hp, rfl, rfl⟩

theorem addsAll_inv {D D' : Dict} {lines : List Str} (h : AddsAll U D lines D') : D'.aff = D.aff ∧ ∃ own,
    List.Forall₂ (fun l e => parseDicLine U l D.aff.flagType D.aff.flagAliases D.aff.ignoreChars = .ok e) lines own ∧
    D'.words.slots = D.words.slots ++ own := by
  induction h with
  | done => exact ⟨rfl, [], .nil, by simp⟩
  | next h _ ih =>
    obtain ⟨e, h1, h2, h3⟩ := add_inv h
    obtain ⟨h4, own, h5, h6⟩ := ih
    rw [h2] at h5
    exact ⟨h4.trans h2, e :: own, .cons h1 h5, by rw [h6, h3]; simp⟩

theorem titlecase_some_of_twin {cx : Cx} {stem : Str} {F : FlagSet} (h : HasTwin U cx.options.forbiddenWordFlag stem F) :
    ∃ title, cx.options.caseHandling.titlecase U stem = some title := by
  cases stem with
  | nil => exact absurd rfl (hasTwin_ne_nil h)
  | cons c r => exact ⟨_, rfl⟩

/-- The entries of the lines: their own ones and the twins. -/
theorem entries_own {cx : Cx} {A : AffData} {lines : List Str} {own : List (Str × FlagSet)} (hm : MadeFrom cx A)
    (hl : ∀ l ∈ lines, EntryLine U l)
    (ho : List.Forall₂ (fun l e => parseDicLine U l A.flagType A.flagAliases A.ignoreChars = .ok e) lines own) :
    ∃ ess twins, List.Forall₂ (EntriesOf U cx) lines ess ∧ ess.flatten.Perm (own ++ twins) ∧
      ∀ t, t ∈ twins ↔ ∃ l ∈ lines, TwinOf U A l t := by
  induction ho with
  | nil => exact ⟨[], [], .nil, by simp, by simp⟩
  | @cons l e lines own h1 h2 ih =>
    obtain ⟨ess, twins, h3, h4, h5⟩ := ih fun l hl' => hl l (by simp [hl'])
    obtain ⟨h6, h7⟩ := hl l (by simp)
    obtain ⟨stem, F⟩ := e
    have hmean := parseDicLine_ok.1 h1
    have hmean' := hmean
    rw [hm.flagType, hm.aliases, hm.ignore] at hmean'
    by_cases ht : HasTwin U A.options.forbiddenWordFlag stem F
    · have ht' := ht
      rw [hm.options] at ht'
      obtain ⟨title, h8⟩ := titlecase_some_of_twin ht'
      have hG : ∀ f, (F.withFlag hiddenHomonymFlag).contains f = true ↔ F.contains f = true ∨ f = 65535 :=
        fun f => contains_hidden
      refine ⟨_ :: ess, (title, F.withFlag hiddenHomonymFlag) :: twins,
        .cons (.twin h6 h7 hmean' ht' h8 hG) h3, ?_, fun t => ?_⟩
      · simp only [List.flatten_cons, List.cons_append, List.nil_append]
        refine (List.Perm.swap _ _ _).trans (.cons _ ?_)
        exact (List.Perm.cons _ h4).trans List.perm_middle.symm
      · rw [List.mem_cons, h5]
        constructor
        · rintro (rfl | ⟨l', h9, h10⟩)
          · exact ⟨l, by simp, stem, F, hmean, ht, by rw [hm.options]; exact h8, hG⟩
          · exact ⟨l', by simp [h9], h10⟩
        · rintro ⟨l', h9, h10⟩
          rcases List.mem_cons.1 h9 with rfl | h9
          · obtain ⟨stem', F', h11, h12, h13, h14⟩ := h10
            have := (parseDicLine_ok.2 h11).symm.trans h1
            rw [Except.ok.injEq, Prod.mk.injEq] at this
            obtain ⟨rfl, rfl⟩ := this
            rw [hm.options] at h12 h13
            rw [hm.flagType, hm.aliases, hm.ignore] at h11
            have := entriesOf_unique (EntriesOf.twin h6 h7 hmean' ht' h8 hG) (.twin h6 h7 h11 h12 h13 h14)
            exact .inl (List.cons.inj this).1.symm
          · exact .inr ⟨l', h9, h10⟩
    · have ht' := ht
      rw [hm.options] at ht'
      refine ⟨_ :: ess, twins, .cons (.plain h6 h7 hmean' ht') h3, ?_, fun t => ?_⟩
      · simp only [List.flatten_cons, List.cons_append, List.nil_append]
        exact .cons _ h4
      · rw [h5]
        constructor
        · rintro ⟨l', h9, h10⟩; exact ⟨l', by simp [h9], h10⟩
        · rintro ⟨l', h9, h10⟩
          rcases List.mem_cons.1 h9 with rfl | h9
          · obtain ⟨stem', F', h11, h12, -⟩ := h10
            have := (parseDicLine_ok.2 h11).symm.trans h1
            rw [Except.ok.injEq, Prod.mk.injEq] at this
            obtain ⟨rfl, rfl⟩ := this
            exact absurd h12 ht
          · exact ⟨l', h9, h10⟩

theorem entries_map {cx : Cx} {lines : List Str} {ess : List (List (Str × FlagSet))}
    {e : Str → List (Str × FlagSet)} (h : List.Forall₂ (EntriesOf U cx) lines ess)
    (he : ∀ l ∈ lines, EntriesOf U cx l (e l)) : lines.map e = ess := by
  induction h with
  | nil => rfl
  | cons h1 _ ih =>
    rw [List.map_cons, ih fun l hl => he l (by simp [hl]), entriesOf_unique h1 (he _ (by simp))]

theorem mem_forall₂ {α β : Type} {R : α → β → Prop} {l : List α} {m : List β} (h : List.Forall₂ R l m) {a : α}
    (ha : a ∈ l) : ∃ b, R a b := by
  induction h with
  | nil => cases ha
  | cons h1 _ ih =>
    rcases List.mem_cons.1 ha with rfl | ha
    · exact ⟨_, h1⟩
    · exact ih ha

/-- Loading the text with the lines among its lines. -/
theorem parse_personal {S : Sorts} {aff dic dic' : Str} {D D₁ : Dict} {first first' : Nat × Str}
    {rest rest' : List (Nat × Str)} {lines : List Str} (h : parse U S aff dic = .ok D)
    (h1 : Content U dic (first :: rest)) (h2 : Content U dic' (first' :: rest')) (ha : Announces U first'.2)
    (hp : (rest'.map (·.2)).Perm (rest.map (·.2) ++ lines)) (hl : ∀ l ∈ lines, EntryLine U l)
    (ht : ∀ l ∈ lines, ∀ t, TwinOf U D.aff l t → byteLen t.1 ≤ 65535) (hadd : AddsAll U D lines D₁) :
    ∃ D₂ twins, parse U S aff dic' = .ok D₂ ∧ D₂.aff = D₁.aff ∧ D₂.words.slots.Perm (D₁.words.slots ++ twins) ∧
      ∀ t, t ∈ twins ↔ ∃ l ∈ lines, TwinOf U D.aff l t := by
  classical
  obtain ⟨cx, hc, -, hd, hm, hA⟩ := parse_ok_inv h
  have ha1 : Announces U first.2 := by
    rcases parse_cases (U := U) S aff dic with ⟨_, D', h', hd, -⟩ | ⟨e, h', -⟩ | ⟨_, e, h', -⟩ | ⟨_, _, h', -⟩ <;>
      rw [h] at h' <;> simp at h'
    obtain ⟨_, f, r, _, -, -, hf, hg, -⟩ := hd
    have := (content_iff.1 hf).trans (content_iff.1 h1).symm
    rw [(List.cons.inj this).1] at hg
    exact hg
  rw [parseDic_content h1 ha1] at hd
  have hall := fold_ok_inv hd
  obtain ⟨haff, own, ho, hs⟩ := addsAll_inv hadd
  obtain ⟨ess, twins, he1, he2, he3⟩ := entries_own hm hl ho
  have hfine : ∀ l ∈ lines, (∃ es, EntriesOf U cx l es) ∧ ¬ TwinTooLong U cx l := by
    intro l hl'
    refine ⟨?_, ?_⟩
    · exact mem_forall₂ he1 hl'
    · rw [twinTooLong_iff (hl l hl').1]
      rintro ⟨-, stem, F, title, h3, h4, h5, h6⟩
      have := ht l hl' (title, F.withFlag hiddenHomonymFlag) ⟨stem, F, by
        rw [hm.flagType, hm.aliases, hm.ignore]; exact parseDicLine_ok.1 h3, by rw [hm.options]; exact h4,
        by rw [hm.options]; exact h5, fun f => contains_hidden⟩
      simp only at this
      omega
  have hex : ∀ t : Str, ∃ es, (t ∈ rest.map (·.2) ∨ t ∈ lines) → EntriesOf U cx t es ∧ ¬ TwinTooLong U cx t := by
    intro t
    by_cases ht : t ∈ rest.map (·.2) ∨ t ∈ lines
    · rcases ht with ht | ht
      · obtain ⟨l, hl, rfl⟩ := List.mem_map.1 ht
        obtain ⟨⟨es, h3⟩, h4⟩ := hall l hl
        exact ⟨es, fun _ => ⟨h3, h4⟩⟩
      · obtain ⟨⟨es, h3⟩, h4⟩ := hfine t ht
        exact ⟨es, fun _ => ⟨h3, h4⟩⟩
    · exact ⟨[], fun h => absurd h ht⟩
  choose e he using hex
  have hf : ∀ r : List (Nat × Str), (∀ l ∈ r, l.2 ∈ rest.map (·.2) ∨ l.2 ∈ lines) →
      r.foldlM (stepAt U cx) Bag.empty = .ok ⟨((r.map (·.2)).map e).flatten⟩ := by
    intro r hr
    have := fold_entries (U := U) (cx := cx) (rest := r) (ess := (r.map (·.2)).map e) (words := Bag.empty) ?_ ?_
    · rw [this]; rfl
    · rw [List.map_map, List.forall₂_map_right_iff, List.forall₂_same]
      exact fun l hl => (he l.2 (hr l hl)).1
    · exact fun l hl => (he l.2 (hr l hl)).2
  have hd' := hf rest fun l hl => .inl (List.mem_map.2 ⟨l, hl, rfl⟩)
  rw [hd, Except.ok.injEq] at hd'
  have hd2 := hf rest' fun l hl =>
    List.mem_append.1 (hp.mem_iff.1 (List.mem_map.2 ⟨l, hl, rfl⟩))
  refine ⟨⟨⟨_⟩, D.aff⟩, twins, parse_ok hc ((parseDic_content h2 ha).trans hd2) (hA _), haff.symm, ?_, he3⟩
  rw [hs, hd']
  refine ((hp.map e).flatten).trans ?_
  rw [List.map_append, List.flatten_append, List.append_assoc,
    entries_map he1 fun l hl => (he l (.inr hl)).1]
  exact (List.Perm.append_left _ he2)

/-- A line which `add` refuses. -/
theorem parse_refused {S : Sorts} {aff dic dic' : Str} {D D' : Dict} {first' : Nat × Str}
    {rest' : List (Nat × Str)} {line : Str} {e : FlagError} (h : parse U S aff dic = .ok D)
    (h2 : Content U dic' (first' :: rest')) (hl : EntryLine U line) (hm : line ∈ rest'.map (·.2))
    (he : D.add U line = .error e) : parse U S aff dic' ≠ .ok D' := by
  intro h'
  obtain ⟨cx, hc, -, -, hmade, -⟩ := parse_ok_inv h
  obtain ⟨cx', hc', -, hd, -, -⟩ := parse_ok_inv h'
  rw [hc, Except.ok.injEq] at hc'
  subst hc'
  have ha1 : Announces U first'.2 := by
    rcases parse_cases (U := U) S aff dic' with ⟨_, D', h'', hd, -⟩ | ⟨e, h'', -⟩ | ⟨_, e, h'', -⟩ | ⟨_, _, h'', -⟩ <;>
      rw [h'] at h'' <;> simp at h''
    obtain ⟨_, f, r, _, -, -, hf, hg, -⟩ := hd
    have := (content_iff.1 hf).trans (content_iff.1 h2).symm
    rw [(List.cons.inj this).1] at hg
    exact hg
  rw [parseDic_content h2 ha1] at hd
  obtain ⟨l, hl', rfl⟩ := List.mem_map.1 hm
  obtain ⟨⟨es, h3⟩, -⟩ := fold_ok_inv hd l hl'
  have hp : parseDicLine U l.2 cx.flagType cx.flagAliases cx.ignoreChars = .error e := by
    rw [← hmade.flagType, ← hmade.aliases, ← hmade.ignore]
    unfold Dict.add at he
    split at he
    · rename_i hq; cases he; exact hq
    · cases he
  refine badLine_not_entries (kind := if 65535 < byteLen l.2 then .wordTooLong else .malformedFlag e) ?_ h3
  refine ⟨l.2, hl.1, hl.2, ?_⟩
  by_cases hlen : 65535 < byteLen l.2
  · exact .inl ⟨hlen, if_pos hlen⟩
  · exact .inr ⟨by omega, e, parseDicLine_error.1 hp, if_neg hlen⟩

end Spellbook
