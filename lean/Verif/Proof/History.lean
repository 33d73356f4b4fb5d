import Verif.Spec.History
import Verif.Proof.Parse
import Verif.Proof.HashBag
import Verif.Proof.SameLookups
/-!
# Proofs about changing a dictionary
-/

namespace Spellbook
open Spec

namespace Dict

theorem forbid_contains {D : Dict} {F : FlagSet} {f : Nat} : (D.forbid F).contains f = true ↔
    F.contains f = true ∨ f = D.aff.options.forbiddenWordFlag := by
  unfold forbid
  split
  · rw [FlagSet.contains_withFlag]
    exact or_comm
  · rename_i h
    constructor
    · exact .inl
    · rintro (h' | rfl)
      · exact h'
      · simpa using h

theorem forbid_forbid {D : Dict} {F : FlagSet} : D.forbid (D.forbid F) = D.forbid F := by
  have h : (D.forbid F).contains D.aff.options.forbiddenWordFlag = true := forbid_contains.2 (.inr rfl)
  generalize D.forbid F = G at h
  unfold forbid
  rw [if_neg (by simp [h])]

theorem removeStem_slots (L : Layout) (D : Dict) (s : Str) :
    (D.removeStem L s).2.words.slots = D.words.slots.map (Bag.upd s D.forbid) :=
  Bag.updateAll_slots L D.words s D.forbid

theorem removeStem_aff (L : Layout) (D : Dict) (s : Str) : (D.removeStem L s).2.aff = D.aff := rfl

theorem removeStem_true {L : Layout} {D : Dict} {s : Str} : (D.removeStem L s).1 = true ↔
    ∃ F, (s, F) ∈ D.words.slots ∧ F.contains D.aff.options.forbiddenWordFlag = false := by
  unfold removeStem
  simp only [List.any_eq_true, Bool.not_eq_true']
  constructor
  · rintro ⟨⟨k, F⟩, h1, h2⟩
    obtain ⟨h3, rfl⟩ := Bag.mem_get.1 h1
    exact ⟨F, h3, h2⟩
  · rintro ⟨F, h1, h2⟩
    exact ⟨(s, F), Bag.mem_get.2 ⟨h1, rfl⟩, h2⟩

theorem mem_removeStem {L : Layout} {D : Dict} {s k : Str} {G : FlagSet} :
    (k, G) ∈ (D.removeStem L s).2.words.slots ↔
      ∃ F, (k, F) ∈ D.words.slots ∧ G = if k = s then D.forbid F else F := by
  rw [removeStem_slots, List.mem_map]
  constructor
  · rintro ⟨⟨k', F⟩, h1, h2⟩
    unfold Bag.upd at h2
    dsimp only at h2
    split at h2
    · rename_i hk
      simp only [Prod.mk.injEq] at h2
      obtain ⟨rfl, rfl⟩ := h2
      exact ⟨F, h1, by rw [if_pos hk]⟩
    · rename_i hk
      simp only [Prod.mk.injEq] at h2
      obtain ⟨rfl, rfl⟩ := h2
      exact ⟨_, h1, by rw [if_neg hk]⟩
  · rintro ⟨F, h1, rfl⟩
    refine ⟨(k, F), h1, ?_⟩
    unfold Bag.upd
    dsimp only
    split <;> rfl

end Dict

/-! ### Lookups without conflicting entries -/

theorem perm_eq_of_const {α : Type} {l l' : List α} (hp : l.Perm l') (h : ∀ a ∈ l, ∀ b ∈ l, a = b) : l = l' := by
  cases l with
  | nil => exact hp.nil_eq
  | cons a l =>
    have h1 : a :: l = List.replicate (a :: l).length a :=
      List.eq_replicate_iff.2 ⟨rfl, fun b hb => h b hb a (by simp)⟩
    have h2 : l' = List.replicate (a :: l).length a :=
      List.eq_replicate_iff.2 ⟨hp.length_eq.symm, fun b hb => h b (hp.mem_iff.2 hb) a (by simp)⟩
    rw [h1, h2]

theorem get_layout {b b' : Bag FlagSet} (hp : b.slots.Perm b'.slots)
    (hn : ∀ stem F G, (stem, F) ∈ b.slots → (stem, G) ∈ b.slots → F = G) (L L' : Layout) (k : Str) :
    b.get L k = b'.get L' k := by
  refine perm_eq_of_const (((Bag.get_perm L b k).trans (hp.filter _)).trans (Bag.get_perm L' b' k).symm) ?_
  rintro ⟨k1, F⟩ h1 ⟨k2, G⟩ h2
  obtain ⟨m1, rfl⟩ := Bag.mem_get.1 h1
  obtain ⟨m2, rfl⟩ := Bag.mem_get.1 h2
  rw [hn _ _ _ m1 m2]

theorem same_of_noConflict {C C' : Checker} (hU : C.U = C'.U) (ha : C.dict.aff = C'.dict.aff)
    (h1 : C.checkLowerAsTitle = C'.checkLowerAsTitle) (h2 : C.checkLowerAsUpper = C'.checkLowerAsUpper)
    (hp : C.dict.words.slots.Perm C'.dict.words.slots) (hn : NoConflict C.dict) : C.Same C' := by
  refine ⟨⟨hU, ha, ?_⟩, h1, h2⟩
  funext k
  exact get_layout hp hn _ _ _

/-! ### Reachable dictionaries -/

theorem parseDicLine_valid {U : Unicode} {line : Str} {ty : FlagType} {al : List FlagSet} {ig : List Char}
    {stem : Str} {F : FlagSet} (hal : ∀ G ∈ al, G.AllValid)
    (h : parseDicLine U line ty al ig = .ok (stem, F)) : F.AllValid := by
  have he : FlagSet.empty.AllValid := by
    intro f hf
    rw [FlagSet.contains_iff] at hf
    cases hf
  unfold parseDicLine at h
  split at h
  · cases h
  · dsimp only at h
    split at h
    · cases h; exact he
    · split at h
      · obtain ⟨G, h1, h2⟩ := except_map_ok.1 h
        cases h2
        exact decodeFlagset_valid hal h1
      · split at h
        · cases h; exact he
        · split at h
          · cases h; exact he
          · obtain ⟨G, h1, h2⟩ := except_map_ok.1 h
            cases h2
            exact decodeFlagset_valid hal h1

/-- What holds of every dictionary a program can hold. -/
structure WellMade (D : Dict) : Prop where
  prefixes : ∀ a ∈ D.aff.prefixes.table, AffixOk a
  suffixes : ∀ a ∈ D.aff.suffixes.table, AffixOk a
  opts : OptsOk D.aff.options
  aliases : ∀ F ∈ D.aff.flagAliases, F.AllValid
  entries : ∀ e ∈ D.words.slots, e.2.AllValid ∧ byteLen e.1 ≤ 65535
  reps : ∃ lines : List (Str × Str), ReplacementTable.from' lines = some D.aff.replacements ∧
    ∀ r ∈ lines, r.1 ≠ [] ∧ r.2 ≠ []
  breaks : ∃ lines, BreakTable.new lines = some D.aff.breakTable ∧ ∀ b ∈ lines, b ≠ []
  inConv : ∃ lines, SameConversions D.aff.inputConversions lines ∧ ∀ r ∈ lines, r.2 ≠ []
  sims : ∀ g ∈ D.aff.similarities, ∀ s ∈ g.strings, 2 ≤ s.length

theorem wellMade_loaded {U : Unicode} {S : Sorts} {aff dic : Str} {D : Dict} (h : parse U S aff dic = .ok D) :
    WellMade D := by
  obtain ⟨cx, h1, hok, h3, hm, -⟩ := parse_ok_inv h
  have aff_ok : ∀ (l : List Affix) (t : List Affix), SameAffixes cx.ignoreChars t l → (∀ a ∈ l, AffixOk a) →
      ∀ a ∈ t, AffixOk a := by
    intro l t ht hl a ha
    obtain ⟨b, hb, rfl⟩ := List.mem_map.1 (ht.mem_iff.1 ha)
    exact ⟨(hl b hb).flag, (hl b hb).flags, (hl b hb).cond⟩
  refine ⟨aff_ok _ _ hm.prefixes hok.prefixes, aff_ok _ _ hm.suffixes hok.suffixes, hm.options ▸ hok.opts,
    hm.aliases ▸ hok.aliases, ?_, ⟨_, hm.replacements, hok.reps⟩, ⟨_, hm.breaks, hok.breaks⟩,
    ⟨_, hm.input, fun r hr => (hok.inConv r hr).2⟩, hm.similarities ▸ hok.sims⟩
  intro e he
  rcases parseDic_cases (U := U) cx dic with ⟨first, rest, ess, -, -, h4, h5, h6⟩ | ⟨_, _, -, h6⟩ | ⟨_, _, -, -, h6⟩ |
    ⟨_, -, -, h6⟩ <;> rw [h3] at h6 <;> simp only [reduceCtorEq, Except.ok.injEq] at h6
  rw [h6, List.mem_flatten] at he
  obtain ⟨es, h7, h8⟩ := he
  obtain ⟨i, hi, rfl⟩ := List.getElem_of_mem h7
  have hl := h4.length_eq
  have hes := h4.get (i := i) (by omega) hi
  have hno := h5 _ (List.getElem_mem (l := rest) (n := i) (by omega))
  simp only [List.get_eq_getElem] at hes
  generalize ess[i] = es at hes h8
  cases hes with
  | skipped => cases h8
  | plain _ _ hp =>
    rw [List.mem_singleton] at h8
    subst h8
    replace hp := parseDicLine_ok.2 hp
    have := parseDicLine_short hp
    exact ⟨parseDicLine_valid hok.aliases hp, by dsimp only; omega⟩
  | twin ht hsk hp htw htitle hG =>
    simp only [List.mem_cons, List.not_mem_nil, or_false] at h8
    rcases h8 with rfl | rfl
    · constructor
      · intro f hf
        rcases (hG f).1 hf with hf | rfl
        · exact parseDicLine_valid hok.aliases (parseDicLine_ok.2 hp) f hf
        · exact ⟨by omega, by omega⟩
      · refine Nat.le_of_not_lt fun hgt => hno ⟨_, _, _, _, ht, hsk, hp, htw, htitle, hgt⟩
    · replace hp := parseDicLine_ok.2 hp
      have := parseDicLine_short hp
      exact ⟨parseDicLine_valid hok.aliases hp, by dsimp only; omega⟩

theorem wellMade_reachable {U : Unicode} {D : Dict} (h : Reachable U D) : WellMade D := by
  induction h with
  | loaded h => exact wellMade_loaded h
  | @added D line D' _ h ih =>
    unfold Dict.add at h
    cases hp : parseDicLine U line D.aff.flagType D.aff.flagAliases D.aff.ignoreChars with
    | error e => rw [hp] at h; cases h
    | ok r =>
      obtain ⟨stem, F⟩ := r
      rw [hp] at h
      cases h
      refine ⟨ih.prefixes, ih.suffixes, ih.opts, ih.aliases, ?_, ih.reps, ih.breaks, ih.inConv, ih.sims⟩
      intro e he
      rcases List.mem_append.1 he with he | he
      · exact ih.entries e he
      · rw [List.mem_singleton] at he
        subst he
        have := parseDicLine_short hp
        exact ⟨parseDicLine_valid ih.aliases hp, by dsimp only; omega⟩
  | @removed D L s _ ih =>
    refine ⟨ih.prefixes, ih.suffixes, ih.opts, ih.aliases, ?_, ih.reps, ih.breaks, ih.inConv, ih.sims⟩
    rintro ⟨k, G⟩ he
    obtain ⟨F, hF, rfl⟩ := Dict.mem_removeStem.1 he
    have := ih.entries _ hF
    refine ⟨?_, this.2⟩
    dsimp only
    split
    · intro f hf
      rcases Dict.forbid_contains.1 hf with hf | rfl
      · exact this.1 f hf
      · exact ih.opts.flags _ (by simp [AffOptions.allFlags])
    · exact this.1

theorem WellMade.condsParsed {D : Dict} (h : WellMade D) : D.CondsParsed := by
  intro k a ha
  cases k with
  | pfx => exact (h.prefixes a ha).cond
  | sfx => exact (h.suffixes a ha).cond

theorem WellMade.minChars_pos {D : Dict} (h : WellMade D) : 0 < D.aff.options.minChars := by
  unfold AffOptions.minChars
  cases hm : D.aff.options.compoundMinLength with
  | none => simp
  | some n => simpa using h.opts.min n hm

end Spellbook
