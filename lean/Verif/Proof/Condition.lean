import Verif.Model.Affix
import Verif.Spec.Condition
import Verif.Proof.AffixIndex
import Verif.Spec.Affix

namespace Spellbook
open Spec

namespace Condition

theorem scanClass_closed {ch : Char} {cs p : Str} {f : Bool} (h : ']' ∉ cs) :
    scanClass ch (cs ++ ']' :: p) f = (f || cs.contains ch, p) := by
  induction cs generalizing f with
  | nil => simp [scanClass]
  | cons c cs ih =>
    simp only [List.mem_cons, not_or] at h
    have hc : c ≠ ']' := fun e => h.1 e.symm
    simp only [List.cons_append, scanClass, hc, ↓reduceIte]
    rw [ih h.2]
    by_cases hcc : c = ch
    · subst hcc; simp
    · have : ¬ ch = c := fun e => hcc e.symm
      simp [hcc, this]

theorem takeCaret_of_head {cs p : Str} (hne : cs ≠ []) (h : cs.head? ≠ some '^') :
    takeCaret (cs ++ p) = (false, cs ++ p) := by
  cases cs with
  | nil => exact absurd rfl hne
  | cons c cs =>
    simp only [List.head?_cons, ne_eq, Option.some.injEq] at h
    unfold takeCaret
    split
    · rename_i heq; simp at heq; exact absurd heq.1 h
    · rfl

theorem takeCaret_caret {p : Str} : takeCaret ('^' :: p) = (true, p) := rfl

/-- The matcher on the text of a condition. -/
theorem matchLoop_render {es : List CondElem} (hwf : ∀ e ∈ es, e.WellFormed) {w : Str} :
    matchLoop (renderCond es) w = true ↔ MatchesStart es w := by
  induction es generalizing w with
  | nil =>
    simp only [renderCond, List.flatMap_nil, matchLoop, true_iff]
    exact ⟨[], w, by simp, by simp⟩
  | cons e es ih =>
    have hwf' := fun e he => hwf e (List.mem_cons_of_mem _ he)
    have he := hwf e (by simp)
    cases w with
    | nil =>
      have h1 : ¬ MatchesStart (e :: es) [] := by
        rintro ⟨u, v, h, hf⟩
        have : u = [] := by
          have := congrArg List.length h; simp at this
          exact List.length_eq_zero_iff.1 (by omega)
        subst this
        cases hf
      have h2 : ∃ c s, renderCond (e :: es) = c :: s := by
        cases e <;> simp [renderCond, CondElem.render]
      obtain ⟨c, s, h2⟩ := h2
      simp [h2, matchLoop, h1]
    | cons x w =>
      have hstep : MatchesStart (e :: es) (x :: w) ↔ e.Matches x ∧ MatchesStart es w := by
        constructor
        · rintro ⟨u, v, h, hf⟩
          cases hf with
          | cons h1 h2 =>
            simp only [List.cons_append, List.cons.injEq] at h
            obtain ⟨rfl, rfl⟩ := h
            exact ⟨h1, _, _, rfl, h2⟩
        · rintro ⟨h1, u, v, rfl, hf⟩
          exact ⟨x :: u, v, rfl, List.Forall₂.cons h1 hf⟩
      rw [hstep, ← ih hwf']
      cases e with
      | lit c =>
        obtain ⟨h1, h2, h3⟩ := he
        have : renderCond (CondElem.lit c :: es) = c :: renderCond es := rfl
        rw [this, matchLoop]
        simp only [h1, h2, ↓reduceIte, CondElem.Matches, ne_eq]
        by_cases hcx : c = x
        · subst hcx; simp
        · have : ¬ x = c := fun e => hcx e.symm
          simp [hcx, this]
      | any =>
        have : renderCond (CondElem.any :: es) = '.' :: renderCond es := rfl
        rw [this, matchLoop]
        simp [CondElem.Matches]
      | oneOf cs =>
        obtain ⟨h1, h2, h3⟩ := he
        have : renderCond (CondElem.oneOf cs :: es) = '[' :: (cs ++ ']' :: renderCond es) := by
          simp [renderCond, CondElem.render]
        rw [this, matchLoop]
        simp only [takeCaret_of_head h1 h3, scanClass_closed h2]
        by_cases hx : x ∈ cs <;> simp [hx, CondElem.Matches]
      | noneOf cs =>
        obtain ⟨h1, h2⟩ := he
        have : renderCond (CondElem.noneOf cs :: es) = '[' :: ('^' :: cs ++ ']' :: renderCond es) := by
          simp [renderCond, CondElem.render]
        rw [this, matchLoop]
        simp only [List.cons_append, takeCaret_caret, scanClass_closed h2]
        by_cases hx : x ∈ cs <;> simp [hx, CondElem.Matches]

/-! ### The parser -/

theorem scanChars_eq {scan : Str} {chars : Nat} :
    scanChars scan chars =
      match scan.dropWhile fun c => c ≠ '[' && c ≠ ']' with
      | [] => .ok (chars + (scan.takeWhile fun c => c ≠ '[' && c ≠ ']').length)
      | b :: scan1 =>
        if b = ']' then .error .unopenedCharacterClass
        else if scan1.isEmpty then .error .unclosedCharacterClass
        else
          match (takeCaret scan1).2.dropWhile (· ≠ ']') with
          | [] => .error .unclosedCharacterClass
          | _ :: scan3 =>
            if ((takeCaret scan1).2.takeWhile (· ≠ ']')).isEmpty then .error .emptyCharacterClass
            else scanChars scan3 (chars + (scan.takeWhile fun c => c ≠ '[' && c ≠ ']').length + 1) := by
  rw [scanChars]
  split
  · rename_i h; rw [h]
  · rename_i b s1 h
    simp only [h]
    split
    · rfl
    · split
      · rfl
      · split <;> simp_all

theorem dropWhile_head {p : Char → Bool} {l : Str} {b : Char} {r : Str} (h : l.dropWhile p = b :: r) :
    p b = false := by
  induction l with
  | nil => simp at h
  | cons a l ih =>
    rw [List.dropWhile_cons] at h
    split at h
    · exact ih h
    · rename_i hp
      simp only [List.cons.injEq] at h
      rw [← h.1]; simpa using hp

theorem of_mem_takeWhile {p : Char → Bool} {l : Str} {b : Char} (h : b ∈ l.takeWhile p) : p b = true := by
  induction l with
  | nil => simp at h
  | cons a l ih =>
    rw [List.takeWhile_cons] at h
    split at h
    · rename_i hp
      rcases List.mem_cons.1 h with rfl | h
      · exact hp
      · exact ih h
    · simp at h

theorem scanChars_cons {c : Char} {s : Str} {n : Nat} (h1 : c ≠ '[') (h2 : c ≠ ']') :
    scanChars (c :: s) n = scanChars s (n + 1) := by
  have hp : (c ≠ '[' && c ≠ ']') = true := by simp [h1, h2]
  have hd : (c :: s).dropWhile (fun c => c ≠ '[' && c ≠ ']') = s.dropWhile (fun c => c ≠ '[' && c ≠ ']') := by
    rw [List.dropWhile_cons, if_pos hp]
  have ht : ((c :: s).takeWhile (fun c => c ≠ '[' && c ≠ ']')).length
      = (s.takeWhile (fun c => c ≠ '[' && c ≠ ']')).length + 1 := by
    rw [List.takeWhile_cons, if_pos hp]; simp
  rw [scanChars_eq, scanChars_eq (scan := s), hd, ht]
  rw [show n + ((s.takeWhile (fun c => c ≠ '[' && c ≠ ']')).length + 1)
    = n + 1 + (s.takeWhile (fun c => c ≠ '[' && c ≠ ']')).length by omega]

theorem takeWhile_ne_append {cs p : Str} (h : ']' ∉ cs) :
    (cs ++ ']' :: p).takeWhile (· ≠ ']') = cs ∧ (cs ++ ']' :: p).dropWhile (· ≠ ']') = ']' :: p := by
  have h' : ∀ c ∈ cs, (decide (c ≠ ']')) = true := by
    intro c hc; simp; rintro rfl; exact h hc
  constructor
  · rw [List.takeWhile_append_of_pos h']; simp
  · rw [List.dropWhile_append_of_pos h']; simp

theorem scanChars_bracket {s : Str} {n : Nat} :
    scanChars ('[' :: s) n =
      if s.isEmpty then .error .unclosedCharacterClass
      else
        match (takeCaret s).2.dropWhile (· ≠ ']') with
        | [] => .error .unclosedCharacterClass
        | _ :: s3 =>
          if ((takeCaret s).2.takeWhile (· ≠ ']')).isEmpty then .error .emptyCharacterClass
          else scanChars s3 (n + 1) := by
  have hd : ('[' :: s).dropWhile (fun c => c ≠ '[' && c ≠ ']') = '[' :: s := by simp
  have ht : ('[' :: s).takeWhile (fun c => c ≠ '[' && c ≠ ']') = [] := by simp
  rw [scanChars_eq, hd, ht]
  simp only [Char.reduceEq, ↓reduceIte, List.length_nil, Nat.add_zero]

theorem scanChars_nil {n : Nat} : scanChars [] n = .ok n := by rw [scanChars]; simp

theorem scanChars_close {s : Str} {n : Nat} :
    scanChars (']' :: s) n = .error .unopenedCharacterClass := by
  have hd : (']' :: s).dropWhile (fun c => c ≠ '[' && c ≠ ']') = ']' :: s := by simp
  rw [scanChars_eq, hd]
  simp

theorem scanChars_render {es : List CondElem} (hwf : ∀ e ∈ es, e.WellFormed) {n : Nat} :
    scanChars (renderCond es) n = .ok (n + es.length) := by
  induction es generalizing n with
  | nil => simp [renderCond, scanChars_nil]
  | cons e es ih =>
    have hwf' := fun e he => hwf e (List.mem_cons_of_mem _ he)
    have he := hwf e (by simp)
    have hn : n + (e :: es).length = n + 1 + es.length := by simp; omega
    rw [hn, ← ih hwf']
    cases e with
    | lit c =>
      exact scanChars_cons he.2.1 he.2.2
    | any => exact scanChars_cons (by decide) (by decide)
    | oneOf cs =>
      obtain ⟨h1, h2, h3⟩ := he
      have : renderCond (CondElem.oneOf cs :: es) = '[' :: (cs ++ ']' :: renderCond es) := by
        simp [renderCond, CondElem.render]
      rw [this, scanChars_bracket, takeCaret_of_head h1 h3]
      simp only [(takeWhile_ne_append h2).1, (takeWhile_ne_append h2).2]
      simp [h1]
    | noneOf cs =>
      obtain ⟨h1, h2⟩ := he
      have : renderCond (CondElem.noneOf cs :: es) = '[' :: ('^' :: cs ++ ']' :: renderCond es) := by
        simp [renderCond, CondElem.render]
      rw [this, scanChars_bracket]
      simp only [List.cons_append, takeCaret_caret, (takeWhile_ne_append h2).1,
        (takeWhile_ne_append h2).2]
      simp [h1]

theorem exists_of_scanChars : ∀ {s : Str} {n m : Nat}, scanChars s n = .ok m →
    ∃ es, IsCondition s es := by
  intro s
  induction hl : s.length using Nat.strongRecOn generalizing s with
  | ind l ih =>
    intro n m h
    cases s with
    | nil => exact ⟨[], by simp, rfl⟩
    | cons c s =>
      simp only [List.length_cons] at hl
      by_cases h1 : c = '['
      · subst h1
        rw [scanChars_bracket] at h
        split at h
        · simp at h
        · rename_i hne
          generalize hcut : (takeCaret s).2 = s2 at h
          split at h
          · simp at h
          · rename_i b s3 hd
            have hb : b = ']' := by
              simpa using dropWhile_head hd
            subst hb
            split at h
            · simp at h
            · rename_i hne2
              have hs2 : s2 = s2.takeWhile (· ≠ ']') ++ ']' :: s3 := by
                conv => lhs; rw [← List.takeWhile_append_dropWhile (p := (· ≠ ']')) (l := s2)]
                rw [hd]
              have hmem : ']' ∉ s2.takeWhile (· ≠ ']') := by
                intro hm
                have := of_mem_takeWhile hm
                simp at this
              generalize hcs : s2.takeWhile (· ≠ ']') = cs at *
              have hlen2 : s2.length ≤ s.length := by rw [← hcut]; exact takeCaret_length s
              have hlen3 : s3.length < s2.length := by rw [hs2]; simp; omega
              obtain ⟨es, hes, hr⟩ := ih s3.length (by omega) rfl h
              have hcsne : cs ≠ [] := by rintro rfl; simp at hne2
              rcases hcaret : takeCaret s with ⟨neg, s2'⟩
              rw [hcaret] at hcut
              dsimp only at hcut
              subst hcut
              cases neg with
              | true =>
                have hs : s = '^' :: s2' := by
                  unfold takeCaret at hcaret
                  split at hcaret <;> simp_all
                refine ⟨.noneOf cs :: es, ?_, ?_⟩
                · intro e he
                  rcases List.mem_cons.1 he with rfl | he
                  · exact ⟨hcsne, hmem⟩
                  · exact hes e he
                · rw [hs, hs2, ← hr]; simp [renderCond, CondElem.render]
              | false =>
                have hs : s = s2' ∧ s.head? ≠ some '^' := by
                  unfold takeCaret at hcaret
                  split at hcaret
                  · simp at hcaret
                  · rename_i hx
                    simp only [Prod.mk.injEq, true_and] at hcaret
                    refine ⟨hcaret, ?_⟩
                    intro hh
                    cases s with
                    | nil => simp at hh
                    | cons a s =>
                      simp only [List.head?_cons, Option.some.injEq] at hh
                      subst hh
                      exact hx s rfl
                refine ⟨.oneOf cs :: es, ?_, ?_⟩
                · intro e he
                  rcases List.mem_cons.1 he with rfl | he
                  · refine ⟨hcsne, hmem, ?_⟩
                    have := hs.2
                    rw [hs.1, hs2] at this
                    cases cs with
                    | nil => exact absurd rfl hcsne
                    | cons a cs => simpa using this
                  · exact hes e he
                · rw [hs.1, hs2, ← hr]; simp [renderCond, CondElem.render]
      · by_cases h2 : c = ']'
        · subst h2; rw [scanChars_close] at h; simp at h
        · rw [scanChars_cons h1 h2] at h
          obtain ⟨es, hes, hr⟩ := ih s.length (by omega) rfl h
          by_cases h3 : c = '.'
          · subst h3
            refine ⟨.any :: es, ?_, ?_⟩
            · intro e he
              rcases List.mem_cons.1 he with rfl | he
              · trivial
              · exact hes e he
            · rw [← hr]; rfl
          · refine ⟨.lit c :: es, ?_, ?_⟩
            · intro e he
              rcases List.mem_cons.1 he with rfl | he
              · exact ⟨h3, h1, h2⟩
              · exact hes e he
            · rw [← hr]; rfl

/-- The parser accepts exactly the texts of conditions. -/
theorem parse_ok_iff {s : Str} {c : Condition} :
    parse s = .ok c ↔ ∃ es, IsCondition s es ∧
      c = { pattern := s, chars := es.length, isLiteral := !(s.contains '.' || s.contains '[') } := by
  constructor
  · intro h
    unfold parse at h
    cases hs : scanChars s 0 with
    | error e => rw [hs] at h; cases h
    | ok n =>
      rw [hs] at h
      obtain ⟨es, hes⟩ := exists_of_scanChars hs
      refine ⟨es, hes, ?_⟩
      have := scanChars_render hes.1 (n := 0)
      rw [hes.2, hs] at this
      simp only [Except.ok.injEq] at this
      cases h
      simp [this]
  · rintro ⟨es, hes, rfl⟩
    unfold parse
    have := scanChars_render hes.1 (n := 0)
    rw [hes.2] at this
    rw [this]
    simp [pure, Except.pure, bind, Except.bind]

/-- The elements of a condition are determined by its text, as far as matching goes. -/
theorem matches'_iff {s : Str} {es : List CondElem} (h : IsCondition s es) {c : Condition}
    (hc : c.pattern = s) {w : Str} : c.matches' w = true ↔ MatchesStart es w := by
  rw [matches', hc, ← h.2]
  exact matchLoop_render h.1

theorem literal_elems {es : List CondElem} (hwf : ∀ e ∈ es, e.WellFormed)
    (h1 : '.' ∉ renderCond es) (h2 : '[' ∉ renderCond es) :
    es = (renderCond es).map CondElem.lit := by
  induction es with
  | nil => rfl
  | cons e es ih =>
    have hr : renderCond (e :: es) = e.render ++ renderCond es := rfl
    rw [hr] at h1 h2 ⊢
    simp only [List.mem_append, not_or] at h1 h2
    have := ih (fun e he => hwf e (List.mem_cons_of_mem _ he)) h1.2 h2.2
    cases e with
    | lit c =>
      simp only [CondElem.render, List.cons_append, List.nil_append, List.map_cons, List.cons.injEq,
        true_and]
      exact this
    | any => simp [CondElem.render] at h1
    | oneOf cs => simp [CondElem.render] at h2
    | noneOf cs => simp [CondElem.render] at h2

theorem forall₂_lit {s u : Str} : List.Forall₂ CondElem.Matches (s.map CondElem.lit) u ↔ u = s := by
  induction s generalizing u with
  | nil => simp
  | cons c s ih =>
    cases u with
    | nil => simp
    | cons x u => simp [ih, CondElem.Matches]

end Condition

theorem _root_.Spellbook.Spec.MatchesStart.length {es : List CondElem} {w : Str} (h : MatchesStart es w) :
    es.length ≤ w.length := by
  obtain ⟨u, v, rfl, hf⟩ := h
  rw [hf.length_eq]; simp

theorem _root_.Spellbook.Spec.MatchesEnd.length {es : List CondElem} {w : Str} (h : MatchesEnd es w) :
    es.length ≤ w.length := by
  obtain ⟨u, v, rfl, hf⟩ := h
  rw [hf.length_eq]; simp

namespace Affix
open Condition

/-- Prefix conditions, all three paths. -/
theorem prefixConditionMatches_iff {a : Affix} {s : Str} {c : Condition} {es : List CondElem}
    (hp : Condition.parse s = .ok c) (ha : a.condition = some c) (hes : IsCondition s es) {w : Str} :
    a.prefixConditionMatches w = true ↔ MatchesStart es w := by
  obtain ⟨es', hes', rfl⟩ := parse_ok_iff.1 hp
  have hl : es'.length = es.length := by
    have h1 := scanChars_render hes'.1 (n := 0)
    have h2 := scanChars_render hes.1 (n := 0)
    rw [hes'.2] at h1; rw [hes.2, h1] at h2
    simpa using h2
  simp only [prefixConditionMatches, ha]
  split
  · rename_i hlt
    simp only [Bool.false_eq_true, false_iff]
    intro h
    have := h.length
    have := length_le_byteLen w
    omega
  · split
    · rename_i hlit
      simp only [Bool.not_eq_true', Bool.or_eq_false_iff] at hlit
      have h1 : '.' ∉ renderCond es := by rw [hes.2]; simpa using hlit.1
      have h2 : '[' ∉ renderCond es := by rw [hes.2]; simpa using hlit.2
      have := literal_elems hes.1 h1 h2
      rw [this, hes.2, startsWith, List.isPrefixOf_iff_prefix]
      constructor
      · rintro ⟨v, rfl⟩; exact ⟨s, v, rfl, forall₂_lit.2 rfl⟩
      · rintro ⟨u, v, rfl, hf⟩; rw [forall₂_lit.1 hf]; exact List.prefix_append _ _
    · exact matches'_iff hes rfl

/-- Suffix conditions, all three paths. -/
theorem suffixConditionMatches_iff {a : Affix} {s : Str} {c : Condition} {es : List CondElem}
    (hp : Condition.parse s = .ok c) (ha : a.condition = some c) (hes : IsCondition s es) {w : Str} :
    a.suffixConditionMatches w = true ↔ MatchesEnd es w := by
  obtain ⟨es', hes', rfl⟩ := parse_ok_iff.1 hp
  have hl : es'.length = es.length := by
    have h1 := scanChars_render hes'.1 (n := 0)
    have h2 := scanChars_render hes.1 (n := 0)
    rw [hes'.2] at h1; rw [hes.2, h1] at h2
    simpa using h2
  simp only [suffixConditionMatches, ha]
  split
  · rename_i hlt
    simp only [Bool.false_eq_true, false_iff]
    intro h
    have := h.length
    have := length_le_byteLen w
    omega
  · split
    · rename_i hlit
      simp only [Bool.not_eq_true', Bool.or_eq_false_iff] at hlit
      have h1 : '.' ∉ renderCond es := by rw [hes.2]; simpa using hlit.1
      have h2 : '[' ∉ renderCond es := by rw [hes.2]; simpa using hlit.2
      have := literal_elems hes.1 h1 h2
      rw [this, hes.2, endsWith, List.isSuffixOf_iff_suffix]
      constructor
      · rintro ⟨v, rfl⟩; exact ⟨v, s, rfl, forall₂_lit.2 rfl⟩
      · rintro ⟨u, v, rfl, hf⟩; rw [forall₂_lit.1 hf]; exact List.suffix_append _ _
    · split
      · rename_i hlt
        simp only [Bool.false_eq_true, false_iff]
        intro h
        have := h.length
        simp at hlt
        omega
      · rename_i hge
        simp only [List.length_reverse, List.length_take] at hge
        rw [matches'_iff hes rfl, hl]
        have htail : (w.reverse.take es.length).reverse = w.drop (w.length - es.length) := by
          rw [List.take_reverse]; simp
        have hlen : (w.drop (w.length - es.length)).length = es.length := by
          simp; omega
        rw [htail]
        constructor
        · rintro ⟨u, v, h, hf⟩
          have hv : v = [] := by
            have h3 := congrArg List.length h
            rw [hlen, List.length_append, ← hf.length_eq] at h3
            exact List.length_eq_zero_iff.1 (by omega)
          subst hv
          refine ⟨w.take (w.length - es.length), w.drop (w.length - es.length), by simp, ?_⟩
          rw [h]; simpa using hf
        · rintro ⟨u, v, rfl, hf⟩
          have : (u ++ v).length - es.length = u.length := by simp [hf.length_eq]
          rw [this]
          exact ⟨v, [], by simp, hf⟩

/-! ### Applying and removing affixes -/

theorem stemConcat_eq {inline a b : List UInt8} (h : inline.length = stemInlineCap) :
    stemConcat inline a b = some (a ++ b) := by
  unfold stemConcat
  dsimp only
  split
  · rename_i hle
    have h0 : a.length ≤ inline.length := by omega
    have h1 : (a ++ inline.drop a.length).take a.length = a := by simp
    have h2 : a.length + b.length ≤ (a ++ inline.drop a.length).length := by simp; omega
    simp only [copyAt, h0, ↓reduceIte, List.take_zero, List.nil_append, Nat.zero_add,
      Option.bind_eq_bind, Option.bind_some, h2, h1, Option.pure_def, Option.some.injEq]
    rw [List.take_append_of_le_length (by simp), List.take_of_length_le (by simp)]
  · rfl

/-- The rule of an affix, as a relation between stem and word. -/
def Applies (k : Kind) (a : Affix) (stem word : Str) : Prop :=
  match k with
  | .pfx => PrefixApplies (a.strip.getD []) a.add stem word
  | .sfx => SuffixApplies (a.strip.getD []) a.add stem word

theorem toDerived_iff {k : Kind} {a : Affix} {stem word : Str} :
    a.toDerived k stem = some word ↔ a.Applies k stem word := by
  cases k with
  | pfx =>
    cases hst : a.strip with
    | none =>
      simp only [toDerived, Applies, PrefixApplies, hst, Option.getD_none]
      constructor
      · intro h; cases h; exact ⟨stem, rfl, rfl⟩
      · rintro ⟨r, rfl, rfl⟩; rfl
    | some strip =>
      simp only [toDerived, Applies, PrefixApplies, hst, Option.getD_some, stripPrefix?,
        List.isPrefixOf_iff_prefix]
      constructor
      · intro h
        split at h
        · rename_i hp
          obtain ⟨t, rfl⟩ := hp
          simp at h
          exact ⟨t, rfl, h.symm⟩
        · simp at h
      · rintro ⟨r, rfl, rfl⟩; simp
  | sfx =>
    cases hst : a.strip with
    | none =>
      simp only [toDerived, Applies, SuffixApplies, hst, Option.getD_none]
      constructor
      · intro h; cases h; exact ⟨stem, by simp, rfl⟩
      · rintro ⟨r, rfl, rfl⟩; simp
    | some strip =>
      simp only [toDerived, Applies, SuffixApplies, hst, Option.getD_some, stripSuffix?,
        List.isSuffixOf_iff_suffix]
      constructor
      · intro h
        split at h
        · rename_i hp
          obtain ⟨t, rfl⟩ := hp
          simp at h
          exact ⟨t, rfl, h.symm⟩
        · simp at h
      · rintro ⟨r, rfl, rfl⟩; simp

theorem Applies.addMatches {k : Kind} {a : Affix} {stem word : Str} (h : a.Applies k stem word) :
    a.addMatches k word = true := by
  cases k with
  | pfx => obtain ⟨r, _, rfl⟩ := h; simp [Affix.addMatches, List.isPrefixOf_iff_prefix]
  | sfx => obtain ⟨r, _, rfl⟩ := h; simp [Affix.addMatches, List.isSuffixOf_iff_suffix]

theorem toStem_of_applies {k : Kind} {a : Affix} {stem word : Str} (h : a.Applies k stem word) :
    a.toStem k word = stem := by
  cases k with
  | pfx => obtain ⟨r, rfl, rfl⟩ := h; simp [toStem]
  | sfx => obtain ⟨r, rfl, rfl⟩ := h; simp [toStem]

theorem applies_toStem {k : Kind} {a : Affix} {word : Str} (h : a.addMatches k word = true) :
    a.Applies k (a.toStem k word) word := by
  cases k with
  | pfx =>
    simp only [Affix.addMatches, List.isPrefixOf_iff_prefix] at h
    obtain ⟨r, rfl⟩ := h
    exact ⟨r, by simp [toStem], rfl⟩
  | sfx =>
    simp only [Affix.addMatches, List.isSuffixOf_iff_suffix] at h
    obtain ⟨r, rfl⟩ := h
    exact ⟨r, by simp [toStem], rfl⟩

end Affix
end Spellbook
