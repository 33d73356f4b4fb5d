import Verif.Proof.Select
import Verif.Proof.SuggestSafe
/-!
# The search for similar words does not panic
-/

namespace Spellbook
open Spec Run

/-- What keeps the search for similar words from panicking. -/
structure Checker.Tame (C : Checker) : Prop where
  conds : C.dict.CondsParsed
  diff : C.opts.maxDiffFactor ≤ 10
  /-- No stem and no form is too long, and no form is empty. -/
  stems : ∀ e ∈ C.dict.words.slots, byteLen e.1 ≤ 65535 ∧ byteLen (C.lowercase e.1) ≤ 65535
  forms : ∀ e ∈ C.dict.words.slots, ∀ word form, Expansion C.dict word e.1 e.2 form →
    form ≠ [] ∧ byteLen form ≤ 65535 ∧ byteLen (C.lowercase form) ≤ 65535
  /-- A prefix which fits a form with a suffix can be put in front of the stem alone. -/
  cross : ∀ e ∈ C.dict.words.slots, ∀ word s p mid mid', Candidate C.dict .sfx word e.2 s →
    CondHolds .sfx s e.1 → Applies .sfx s e.1 mid → s.crossproduct = true →
    Candidate C.dict .pfx word e.2 p → CondHolds .pfx p mid → Applies .pfx p mid mid' →
    (p.strip.getD []) <+: e.1

namespace Checker
variable {C : Checker} {H : Heaps}

theorem charsStr_ok {s : Str} (h : byteLen s ≤ 65535) : charsStr s = .ok s := by
  unfold charsStr; rw [if_pos h]

theorem offer_mem {α : Type} {cap : Nat} {heap : List (MinScored α)} {x y : MinScored α}
    (h : y ∈ H.offer cap heap x) : y = x ∨ y ∈ heap := by
  unfold Heaps.offer at h
  split at h
  · exact List.mem_cons.mp ((H.push_perm _ _).mem_iff.mp h)
  · split at h
    · rename_i top rest hp
      split at h
      · rcases List.mem_cons.mp ((H.push_perm _ _).mem_iff.mp h) with h | h
        · exact .inl h
        · exact .inr ((H.pop_some _ _ _ hp).1.mem_iff.mpr (List.mem_cons_of_mem _ h))
      · exact .inr h
    · exact .inr h

theorem ngramRoots_safe (hC : C.Tame) (word : Str) :
    Safe (C.ngramRoots H word) fun rs => ∀ r ∈ rs, r.inner ∈ C.dict.words.slots := by
  refine .foldlM (by simp) fun rs e he hr => ?_
  have he : e ∈ C.dict.words.slots := (Bag.iter_perm C.L C.dict.words).mem_iff.mp he
  unfold offerRoot
  split
  · exact .ok hr
  · refine .bind (P := fun _ => True) ?_ fun sc _ => .pure fun r hm => ?_
    · unfold rootScore
      rw [charsStr_ok (hC.stems e he).1]
      refine .bind (P := fun s => s = e.1) rfl ?_
      rintro _ rfl
      rw [charsStr_ok (hC.stems e he).2]
      trivial
    · rcases offer_mem hm with rfl | hm
      · exact he
      · exact hr r hm

/-- A text which may be a guess. -/
def Guessable (C : Checker) (t : Str) : Prop :=
  t ≠ [] ∧ byteLen t ≤ 65535 ∧ byteLen (C.lowercase t) ≤ 65535

theorem expandStem_safe (hC : C.Tame) (word : Str) {e : Str × FlagSet} (he : e ∈ C.dict.words.slots) :
    Safe (C.expandStem e.1 e.2 word) fun fs => ∀ t ∈ fs, C.Guessable t := by
  have : ∃ r, C.expandStem e.1 e.2 word = .ok r := by
    rw [expandStem_ok_iff hC.conds]
    intro s p mid mid' h1 h2 h3 h4 h5 h6 h7
    obtain ⟨rest, hr⟩ := hC.cross e he word s p mid mid' h1 h2 h3 h4 h5 h6 h7
    exact ⟨p.add ++ rest, rest, hr.symm, rfl⟩
  obtain ⟨fs, hf⟩ := this
  rw [hf]
  exact fun t ht => hC.forms e he word t ((mem_expandStem hC.conds hf t).mp ht)

theorem ngramGuesses_safe (hC : C.Tame) (word : Str) {roots : List (MinScored (Str × FlagSet))}
    (hr : ∀ r ∈ roots, r.inner ∈ C.dict.words.slots) :
    Safe (C.ngramGuesses H word roots) fun gs => ∀ g ∈ gs, C.Guessable g.inner := by
  refine .foldlM (by simp) fun gs r hm hg => ?_
  refine .bind (expandStem_safe hC word (hr r hm)) fun forms hf => ?_
  refine .foldlM hg fun gs t ht hg => ?_
  unfold offerGuess guessScore
  rw [charsStr_ok (hf t ht).2.1]
  refine .bind (P := fun _ => True) (by trivial) fun sc _ => ?_
  split
  · exact .pure hg
  · refine .pure fun g hm => ?_
    rcases offer_mem hm with rfl | hm
    · exact hf t ht
    · exact hg g hm

theorem rescore_safe (hC : C.Tame) (word : Str) : ∀ {gs : List (MinScored Str)}, (∀ g ∈ gs, C.Guessable g.inner) →
    Safe (C.rescore word gs) fun gs => ∀ g ∈ gs, C.Guessable g.inner
  | [], h => h
  | g :: gs, h => by
    unfold rescore
    have hg := h g (by simp)
    have hgs : ∀ g ∈ gs, C.Guessable g.inner := fun x hx => h x (by simp [hx])
    rw [charsStr_ok hg.2.2]
    refine .bind (P := fun s => s = C.lowercase g.inner) rfl ?_
    rintro _ rfl
    dsimp only
    split
    · refine .pure fun x hx => ?_
      rcases List.mem_cons.mp hx with rfl | hx
      · exact hg
      · exact hgs x hx
    · refine .bind (P := fun _ => True) ?_ fun sc _ => .bind (rescore_safe hC word hgs) fun rest hr => .pure ?_
      · unfold newScore
        dsimp only
        rw [if_neg (by have := hC.diff; omega)]
        trivial
      · intro x hx
        rcases List.mem_cons.mp hx with rfl | hx
        · exact hg
        · exact hr x hx

theorem ngramSuggest_safe (hC : C.Tame) {word : Str} (hw : byteLen word ≤ 65535) {out : List Str}
    (hout : Full out) : Safe (C.ngramSuggest H word out) Full := by
  unfold ngramSuggest
  rw [charsStr_ok hw]
  refine .bind (P := fun s => s = word) rfl ?_
  rintro _ rfl
  refine .bind (ngramRoots_safe hC _) fun roots hr => .bind (ngramGuesses_safe hC _ hr) fun gs hg => ?_
  refine .bind (rescore_safe hC _ fun g h => hg g ((H.sort_perm gs).mem_iff.mp h)) fun gs hg => .pure ?_
  obtain ⟨new, h1, h2, -, -⟩ := select_new (C := C)
    (b := (H.sort gs).head?.any fun g => decide (g.score > 1000)) (old := out.length)
    (limit := min maxSuggestions (out.length + C.opts.maxNgramSuggestions)) (H.sort gs) out
  rw [h1]
  refine hout.append fun t ht => ?_
  obtain ⟨g, hm, rfl⟩ := List.mem_map.mp (h2.subset ht)
  exact (hg g ((H.sort_perm gs).mem_iff.mp hm)).1

end Checker
end Spellbook
