import Verif.Proof.SuggestCase
import Verif.Props.Suggest
/-!
# Suggestions for words of every letter case (C59)
-/

namespace Spellbook.Props
open Spec Run

theorem correction_more {C : Checker} {f f' : Nat} (hf : f ≤ f') {w t : Str} (h : Correction C f w t) :
    Correction C f' w t :=
  h.imp (fun h => ⟨h.1, suggestable_more hf h.2⟩)
    (Or.imp (fun h => ⟨h.1, h.2.imp (suggestable_more hf) (spacedWords_more hf)⟩)
      (Or.imp_right (Or.imp (fun h => ⟨h.1, h.2.1, suggestable_more hf h.2.2⟩)
        fun h => ⟨h.1, suggestable_more hf h.2⟩)))

theorem correction_mem {S : Suggester} {rules : List (Str × Str)}
    (hR : ReplacementTable.from' rules = some S.C.aff.replacements) {fuel : Nat} {w t : Str} {g : Prop}
    {l : List Str} (hl : Proposed S.C fuel w g l) (h : Correction S.C fuel w t) : t ∈ l := by
  obtain ⟨rfl, -⟩ := hl
  have hc := Suggester.proposals_complete (fuel := fuel) (w := w) (n := editBudget S.C w) hR t
  rcases h with h | h | h | h | h
  · exact hc.1 h.1 h.2
  · exact hc.2.1 h.1 h.2
  · exact hc.2.2.1 h
  · exact hc.2.2.2 h.1 h.2.1 h.2.2
  · exact Suggester.proposals_similar h.1 h.2

/-- The structure of the suggestions for a word of any letter case. -/
theorem suggests_cased {U : Unicode} {S : Suggester} (hD : Reachable U S.C.dict) {word w : Str} {out r : List Str}
    (h : Suggests S word out r) (hne : word ≠ []) (hlen : (utf8 word).length ≤ 360)
    (hw : S.C.aff.inputConversions.convert word = w)
    (hf : classifyCasing S.C.U w = .none → ¬ LacksCapital S.C w) : ∃ N d, ∀ fuel, N ≤ fuel →
    ∃ (good : Prop) (sp sim dash l : List Str),
      Spellings S.C fuel w (classifyCasing S.C.U w) good sp ∧
      SimilarWords S w (classifyCasing S.C.U w) good sp sim ∧
      (∀ t, t ∈ dash ↔ '-' ∈ w ∧ (∀ s ∈ sp ++ sim, '-' ∉ s) ∧
        DashFix S.C fuel (fun part s => ∃ found, S.suggestImpl fuel d part [] = .ok found ∧ s ∈ found) w t) ∧
      Ending S.C fuel (classifyCasing S.C.U w) (sp ++ sim ++ dash) l ∧
      r = (firsts [] l).map S.C.aff.outputConversions.convert := by
  subst hw
  obtain ⟨rules, hr, -⟩ := (wellMade_reachable hD).reps
  rcases suggests_inv h with ⟨-, h | h⟩ | ⟨-, -, N, d, h⟩
  · exact absurd h hne
  · omega
  · refine ⟨N, d, fun fuel hfl => ?_⟩
    have hs := h fuel hfl
    refine Suggester.converted_ok hr (wellMade_reachable hD).condsParsed (fun hc => ?_) hs
    have := hs
    unfold Suggester.suggestConverted at this
    rw [hc] at this
    dsimp only at this
    rw [Run.bind_eq_ok] at this
    obtain ⟨b, hb, -⟩ := this
    rwa [forceTitle_false (hf hc) hb] at hb

/-- **C59**: for a word of any letter case (after ICONV; except a compound that lacks a capital, C57) the
suggestions are made in these steps: the proposals for the spellings of its letter case; if similarity is on
and none of these is of high quality, similar words; for words with a dash, if no suggestion has one, the texts
with one wrong part corrected; a capital first letter for words with a capital first letter; a second lookup
for words with an initial capital or in capitals; then duplicates are removed, and OCONV is applied. -/
theorem C59_exact {U : Unicode} {S : Suggester} (hD : Reachable U S.C.dict) {word w : Str} {out r : List Str}
    (h : Suggests S word out r) (hne : word ≠ []) (hlen : (utf8 word).length ≤ 360)
    (hw : S.C.aff.inputConversions.convert word = w) {casing : Casing} (hc : classifyCasing S.C.U w = casing)
    (hf : casing = .none → ¬ LacksCapital S.C w) : ∃ (fuel depth : Nat) (good : Prop) (sp sim dash l : List Str),
      Spellings S.C fuel w casing good sp ∧ SimilarWords S w casing good sp sim ∧
      (∀ t, t ∈ dash ↔ '-' ∈ w ∧ (∀ s ∈ sp ++ sim, '-' ∉ s) ∧
        DashFix S.C fuel (fun part s => ∃ found, S.suggestImpl fuel depth part [] = .ok found ∧ s ∈ found) w t) ∧
      Ending S.C fuel casing (sp ++ sim ++ dash) l ∧
      r = (firsts [] l).map S.C.aff.outputConversions.convert := by
  subst hc
  obtain ⟨N, d, h⟩ := suggests_cased hD h hne hlen hw hf
  exact ⟨N, d, h N (Nat.le_refl _)⟩

theorem forall₂_mem {α β : Type} {R : α → β → Prop} {l : List α} {l' : List β} (h : List.Forall₂ R l l')
    {a : α} (ha : a ∈ l) : ∃ b ∈ l', R a b := by
  induction h with
  | nil => simp at ha
  | cons hab _ ih =>
    rcases List.mem_cons.1 ha with rfl | ha
    · exact ⟨_, List.mem_cons_self .., hab⟩
    · obtain ⟨b, hb, h⟩ := ih ha
      exact ⟨b, List.mem_cons_of_mem _ hb, h⟩

theorem rechecked_stays {C : Checker} {fuel : Nat} {t : Str} {p : List Str} (h : Rechecked C fuel t p)
    (ht : ' ' ∈ t ∨ C.check fuel t = .ok true) : p = [t] := by
  cases h with
  | space => rfl
  | correct => rfl
  | lower h1 h2 _ => rcases ht with h | h
                     · exact absurd h h1
                     · rw [h] at h2; cases h2
  | title h1 _ h2 _ => rcases ht with h | h
                       · exact absurd h h1
                       · rw [h] at h2; cases h2
  | wrong h1 _ h2 _ => rcases ht with h | h
                       · exact absurd h h1
                       · rw [h] at h2; cases h2

theorem rechecked_all_stays {C : Checker} {fuel : Nat} {l : List Str} {parts : List (List Str)}
    (h : List.Forall₂ (Rechecked C fuel) l parts) {t : Str} (hm : t ∈ l)
    (ht : ' ' ∈ t ∨ C.check fuel t = .ok true) : t ∈ parts.flatten := by
  obtain ⟨p, hp, h⟩ := forall₂_mem h hm
  rw [rechecked_stays h ht] at hp
  exact List.mem_flatten.2 ⟨_, hp, by simp⟩

theorem capital_unique {C : Checker} {t s s' : Str} (h : Capital C t s) (h' : Capital C t s') : s = s' := by
  obtain ⟨c, b, rfl, rfl⟩ := h
  obtain ⟨c', b', he, rfl⟩ := h'
  cases he
  rfl

/-- **C59** (initial capital): a correction of the word, or of the word in lower case, is suggested with a
capital, if it is then a text accepted by `check` or has a space. -/
theorem C59_init_found {U : Unicode} {S : Suggester} (hD : Reachable U S.C.dict) {word w : Str} {out r : List Str}
    (h : Suggests S word out r) (hne : word ≠ []) (hlen : (utf8 word).length ≤ 360)
    (hw : S.C.aff.inputConversions.convert word = w) (hc : classifyCasing S.C.U w = .init) {t s : Str} {fuel : Nat}
    (ht : Correction S.C fuel w t ∨ Correction S.C fuel (lowerOf S.C w) t) (hs : Capital S.C t s)
    (hok : ' ' ∈ s ∨ Accepts S.C s) : S.C.aff.outputConversions.convert s ∈ r := by
  obtain ⟨N, d, h⟩ := suggests_cased hD h hne hlen hw (by simp [hc])
  rw [hc] at h
  obtain ⟨rules, hr, -⟩ := (wellMade_reachable hD).reps
  obtain ⟨f', hf'⟩ : ∃ f', ' ' ∈ s ∨ S.C.check f' s = .ok true := by
    rcases hok with h | ⟨f', h⟩
    · exact ⟨0, .inl h⟩
    · exact ⟨f', .inr h⟩
  obtain ⟨good, sp, sim, dash, l, h1, -, -, h4, rfl⟩ := h (max N (max fuel f')) (Nat.le_max_left _ _)
  have m1 : fuel ≤ max N (max fuel f') := by omega
  have m2 : f' ≤ max N (max fuel f') := by omega
  have hf' := hf'.imp_right fun h => (Checker.check_le S.C m2 s).ok h
  refine List.mem_map_of_mem (mem_firsts.mpr ⟨?_, by simp⟩)
  cases h1 with
  | init hp hp' =>
    cases h4 with
    | init h5 h6 =>
      have hm : t ∈ _ ++ _ := List.mem_append.2 (ht.imp (fun h => correction_mem hr hp (correction_more m1 h))
        fun h => correction_mem hr hp' (correction_more m1 h))
      obtain ⟨s', hs', h7⟩ := forall₂_mem h5 (a := t) (by rw [List.append_assoc]; exact List.mem_append_left _ hm)
      rw [capital_unique h7 hs] at hs'
      exact rechecked_all_stays h6 hs' hf'

/-- **C59** (capitals): for a word in capitals, a correction of the word in lower case or with an initial
capital is suggested in capitals, if it is then a text accepted by `check` or has a space. -/
theorem C59_all_found {U : Unicode} {S : Suggester} (hD : Reachable U S.C.dict) {word w : Str} {out r : List Str}
    (h : Suggests S word out r) (hne : word ≠ []) (hlen : (utf8 word).length ≤ 360)
    (hw : S.C.aff.inputConversions.convert word = w) (hc : classifyCasing S.C.U w = .all) {t : Str} {fuel : Nat}
    (ht : Correction S.C fuel (lowerOf S.C w) t ∨ Correction S.C fuel (titleOf S.C (lowerOf S.C w)) t)
    (hok : ' ' ∈ upperOf S.C t ∨ Accepts S.C (upperOf S.C t)) :
    S.C.aff.outputConversions.convert (upperOf S.C t) ∈ r := by
  obtain ⟨N, d, h⟩ := suggests_cased hD h hne hlen hw (by simp [hc])
  rw [hc] at h
  obtain ⟨rules, hr, -⟩ := (wellMade_reachable hD).reps
  obtain ⟨f', hf'⟩ : ∃ f', ' ' ∈ upperOf S.C t ∨ S.C.check f' (upperOf S.C t) = .ok true := by
    rcases hok with h | ⟨f', h⟩
    · exact ⟨0, .inl h⟩
    · exact ⟨f', .inr h⟩
  obtain ⟨good, sp, sim, dash, l, h1, -, -, h4, rfl⟩ := h (max N (max fuel f')) (Nat.le_max_left _ _)
  have m1 : fuel ≤ max N (max fuel f') := by omega
  have m2 : f' ≤ max N (max fuel f') := by omega
  have hf' := hf'.imp_right fun h => (Checker.check_le S.C m2 _).ok h
  refine List.mem_map_of_mem (mem_firsts.mpr ⟨?_, by simp⟩)
  cases h1 with
  | @all lw g p g' p' _ hp hp' =>
    cases h4 with
    | all h6 =>
      have hm : t ∈ p ++ p' := List.mem_append.2 (ht.imp (fun h => correction_mem hr hp (correction_more m1 h))
        fun h => correction_mem hr hp' (correction_more m1 h))
      refine rechecked_all_stays h6 ?_ hf'
      rw [List.append_assoc]
      refine List.mem_append_left _ (List.mem_map_of_mem ?_)
      rw [List.append_assoc]
      exact List.mem_append_right _ hm

theorem divided_mem {C : Checker} {w : Str} {l ms ks : List Str} (h : Divided C w l ms ks) {t : Str} (ht : t ∈ l)
    (hs : ' ' ∉ t) : t ∈ ks := by
  induction h with
  | nil => simp at ht
  | moved h1 _ ih =>
    rcases List.mem_cons.1 ht with rfl | ht
    · obtain ⟨a, c, b, rfl, -⟩ := h1
      simp at hs
    · exact ih ht
  | kept _ _ ih =>
    rcases List.mem_cons.1 ht with rfl | ht
    · exact List.mem_cons_self ..
    · exact List.mem_cons_of_mem _ (ih ht)

theorem secondFirst_mem {C : Checker} {w : Str} {l l' : List Str} (h : SecondFirst C w l l') {t : Str} (ht : t ∈ l)
    (hs : ' ' ∉ t) : t ∈ l' := by
  obtain ⟨ms, ks, h1, rfl⟩ := h
  exact List.mem_append_right _ (divided_mem h1 ht hs)

theorem ifCorrect_mem {C : Checker} {f : Nat} {w : Str} {l : List Str} (h : IfCorrect C f w l)
    (hc : C.check f w = .ok true) : w ∈ l := by
  rcases h with ⟨-, rfl⟩ | ⟨h, -⟩
  · simp
  · rw [h] at hc; cases hc

/-- **C59** (inner capitals): for a word with inner capitals and a small first letter, every correction of the
word or of the word in lower case without a space is suggested, and so is the word in lower case, if it is
accepted by `check`. -/
theorem C59_camel_found {U : Unicode} {S : Suggester} (hD : Reachable U S.C.dict) {word w : Str} {out r : List Str}
    (h : Suggests S word out r) (hne : word ≠ []) (hlen : (utf8 word).length ≤ 360)
    (hw : S.C.aff.inputConversions.convert word = w) (hc : classifyCasing S.C.U w = .camel) {t : Str} {fuel : Nat}
    (ht : Correction S.C fuel w t ∨ Correction S.C fuel (lowerOf S.C w) t ∨
      t = lowerOf S.C w ∧ S.C.check fuel t = .ok true)
    (hs : ' ' ∉ t) : S.C.aff.outputConversions.convert t ∈ r := by
  obtain ⟨N, d, h⟩ := suggests_cased hD h hne hlen hw (by simp [hc])
  rw [hc] at h
  obtain ⟨rules, hr, -⟩ := (wellMade_reachable hD).reps
  obtain ⟨good, sp, sim, dash, l, h1, -, -, h4, rfl⟩ := h (max N fuel) (Nat.le_max_left _ _)
  have m1 : fuel ≤ max N fuel := by omega
  refine List.mem_map_of_mem (mem_firsts.mpr ⟨?_, by simp⟩)
  cases h4
  cases h1 with
  | @camel dd g p lw g' p' r hp hd hp' hl h5 =>
    have hm : t ∈ lw ++ dd ++ p ++ p' := by
      simp only [List.mem_append]
      rcases ht with h | h | ⟨rfl, h⟩
      · exact .inl (.inr (correction_mem hr hp (correction_more m1 h)))
      · exact .inr (correction_mem hr hp' (correction_more m1 h))
      · exact .inl (.inl (.inl (ifCorrect_mem hl ((Checker.check_le S.C m1 _).ok h))))
    rw [List.append_assoc]
    exact List.mem_append_left _ (secondFirst_mem h5 hm hs)

/-- **C59** (inner capitals and a capital first letter): every correction, without a space, of the word as it
is, with a small first letter, in lower case, or with an initial capital only, is suggested with a capital
first letter; so are these spellings themselves, if accepted by `check`. -/
theorem C59_pascal_found {U : Unicode} {S : Suggester} (hD : Reachable U S.C.dict) {word w : Str} {out r : List Str}
    (h : Suggests S word out r) (hne : word ≠ []) (hlen : (utf8 word).length ≤ 360)
    (hw : S.C.aff.inputConversions.convert word = w) (hc : classifyCasing S.C.U w = .pascal) {c : Char} {cs : Str}
    (hcs : w = c :: cs) {v t s : Str} {fuel : Nat}
    (hv : v = S.C.opts.caseHandling.lowerChar S.C.U c ++ cs ∨ v = lowerOf S.C w ∨ v = titleOf S.C w)
    (ht : Correction S.C fuel w t ∨ Correction S.C fuel v t ∨ t = v ∧ S.C.check fuel t = .ok true)
    (hs : ' ' ∉ t) (hcap : Capital S.C t s) : S.C.aff.outputConversions.convert s ∈ r := by
  obtain ⟨N, d, h⟩ := suggests_cased hD h hne hlen hw (by simp [hc])
  rw [hc] at h
  obtain ⟨rules, hr, -⟩ := (wellMade_reachable hD).reps
  obtain ⟨good, sp, sim, dash, l, h1, -, -, h4, rfl⟩ := h (max N fuel) (Nat.le_max_left _ _)
  have m1 : fuel ≤ max N fuel := by omega
  refine List.mem_map_of_mem (mem_firsts.mpr ⟨?_, by simp⟩)
  cases h4 with
  | pascal h6 =>
  cases h1 with
  | @pascal dd g p f f' gf pf lw g' p' tt gt pt r hp hd hf hpf hfl hp' hl hpt htl h5 =>
    subst hcs
    simp only [CaseHandling.lowerFirstChar, Option.some.injEq] at hf
    rw [hf] at hv
    have hm : t ∈ tt ++ lw ++ f' ++ dd ++ p ++ pf ++ p' ++ pt := by
      have hch : ∀ {v}, S.C.check fuel v = .ok true → S.C.check (max N fuel) v = .ok true :=
        fun h => (Checker.check_le S.C m1 _).ok h
      simp only [List.mem_append]
      rcases ht with h | h | ⟨rfl, h⟩
      · have := correction_mem hr hp (correction_more m1 h)
        simp [this]
      · rcases hv with rfl | rfl | rfl
        · have := correction_mem hr hpf (correction_more m1 h)
          simp [this]
        · have := correction_mem hr hp' (correction_more m1 h)
          simp [this]
        · have := correction_mem hr hpt (correction_more m1 h)
          simp [this]
      · rcases hv with rfl | rfl | rfl
        · have := ifCorrect_mem hfl (hch h)
          simp [this]
        · have := ifCorrect_mem hl (hch h)
          simp [this]
        · have := ifCorrect_mem htl (hch h)
          simp [this]
    have hm := secondFirst_mem h5 hm hs
    obtain ⟨s', hs', h7⟩ := forall₂_mem h6 (a := t) (by rw [List.append_assoc]; exact List.mem_append_left _ hm)
    rwa [capital_unique h7 hcap] at hs'

/-- For every letter case there is a word with suggestions: a correction in the case of the word; and the
second half of a split word gets back its capital. -/
example : ∃ C, loadChecker "TRY abc\nREP 1\nREP f ph\n" "3\nphone\nfoo\nbar\n" = some C ∧
    Reachable .sample C.dict ∧
    Suggests (editsOnly C) "Fone".toList [] ["Phone".toList] ∧
    classifyCasing C.U (C.aff.inputConversions.convert "Fone".toList) = .init ∧
    Suggests (editsOnly C) "FONE".toList [] ["PHONE".toList] ∧
    classifyCasing C.U (C.aff.inputConversions.convert "FONE".toList) = .all ∧
    Suggests (editsOnly C) "fOne".toList [] ["phone".toList] ∧
    classifyCasing C.U (C.aff.inputConversions.convert "fOne".toList) = .camel ∧
    Suggests (editsOnly C) "FoNe".toList [] ["Phone".toList] ∧
    classifyCasing C.U (C.aff.inputConversions.convert "FoNe".toList) = .pascal ∧
    Suggests (editsOnly C) "fooBar".toList [] ["foo Bar".toList, "foo-bar".toList] ∧
    lowerOf C "fOne".toList = "fone".toList ∧ Correction C 1 "fone".toList "phone".toList ∧
    Capital C "phone".toList "Phone".toList ∧ Accepts C "Phone".toList ∧
    upperOf C "phone".toList = "PHONE".toList ∧ Accepts C "PHONE".toList := by
  obtain ⟨C, h1, h2⟩ := of_load (aff := "TRY abc\nREP 1\nREP f ph\n") (dic := "3\nphone\nfoo\nbar\n")
    (L := .default) (p := fun C =>
      decide ((editsOnly C).suggest 1 2 "Fone".toList [] = .ok ["Phone".toList]) &&
      decide (classifyCasing C.U (C.aff.inputConversions.convert "Fone".toList) = .init) &&
      decide ((editsOnly C).suggest 1 2 "FONE".toList [] = .ok ["PHONE".toList]) &&
      decide (classifyCasing C.U (C.aff.inputConversions.convert "FONE".toList) = .all) &&
      decide ((editsOnly C).suggest 1 2 "fOne".toList [] = .ok ["phone".toList]) &&
      decide (classifyCasing C.U (C.aff.inputConversions.convert "fOne".toList) = .camel) &&
      decide ((editsOnly C).suggest 1 2 "FoNe".toList [] = .ok ["Phone".toList]) &&
      decide (classifyCasing C.U (C.aff.inputConversions.convert "FoNe".toList) = .pascal) &&
      decide ((editsOnly C).suggest 1 2 "fooBar".toList [] = .ok ["foo Bar".toList, "foo-bar".toList]) &&
      decide (lowerOf C "fOne".toList = "fone".toList) &&
      decide (upperOf C "phone".toList = "PHONE".toList) &&
      decide (C.opts.caseHandling.upperChar C.U 'p' = ['P']) &&
      decide (C.check 1 "Phone".toList = .ok true) && decide (C.check 1 "PHONE".toList = .ok true) &&
      decide (("f".toList, "ph".toList) ∈ C.aff.replacements.anywhere ∧ 0 ∈ matchIndices "fone".toList "f".toList) &&
      decide (C.checkWord 1 "phone".toList .forbidBad .skip = .ok (some (FlagSet.ofList []))) &&
      decide (C.opts.forbiddenWordFlag ∉ (FlagSet.ofList []).elems) && decide (C.opts.forbidWarn = false))
    (by decide +kernel)
  simp only [Bool.and_eq_true, decide_eq_true_eq] at h2
  obtain ⟨⟨⟨⟨⟨⟨⟨⟨⟨⟨⟨⟨⟨⟨⟨⟨⟨a1, a2⟩, a3⟩, a4⟩, a5⟩, a6⟩, a7⟩, a8⟩, a9⟩, b1⟩, b2⟩, b3⟩, b4⟩, b5⟩, b6⟩, b7⟩, b8⟩, b9⟩ := h2
  exact ⟨C, h1, (loadChecker_reachable h1).1, ⟨1, 2, a1⟩, a2, ⟨1, 2, a3⟩, a4, ⟨1, 2, a5⟩, a6, ⟨1, 2, a7⟩, a8,
    ⟨1, 2, a9⟩, b1, .inr (.inl
      ⟨.inr (.inr (.inr ⟨"f".toList, "ph".toList, [], "one".toList, b6.1, by decide, b6.2, by decide⟩)),
        .inl ⟨_, b7, b8, fun h => by rw [b9] at h; exact absurd h.1 (by simp)⟩⟩),
    ⟨'p', "hone".toList, rfl, by rw [b3]; rfl⟩, ⟨1, b4⟩, b2, ⟨1, b5⟩⟩

end Spellbook.Props
