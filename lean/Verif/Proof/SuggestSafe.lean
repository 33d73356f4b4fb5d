import Verif.Proof.SuggestLow
import Verif.Proof.Outcome
import Verif.Proof.History
/-!
# The suggester does not panic
-/

namespace Spellbook
open Spec Props Run

namespace Run
variable {α β : Type}

/-- No panic, and every result satisfies `P`. -/
def Safe (x : Run α) (P : α → Prop) : Prop :=
  match x with
  | .ok a => P a
  | .error e => e ≠ .panic

theorem Safe.pure {P : α → Prop} {a : α} (h : P a) : Safe (Pure.pure a) P := h
theorem Safe.ok {P : α → Prop} {a : α} (h : P a) : Safe (.ok a) P := h

theorem Safe.bind {x : Run α} {f : α → Run β} {P : α → Prop} {Q : β → Prop} (h : Safe x P)
    (h' : ∀ a, P a → Safe (f a) Q) : Safe (x >>= f) Q := by
  cases x with
  | ok a => exact h' a h
  | error e => exact h

theorem Safe.mono {x : Run α} {P Q : α → Prop} (h : Safe x P) (hPQ : ∀ a, P a → Q a) : Safe x Q := by
  cases x with
  | ok a => exact hPQ a h
  | error e => exact h

theorem Safe.never {x : Run α} {P : α → Prop} (h : Safe x P) : Never .panic x := by
  cases x with
  | ok a => simp [Never]
  | error e => simpa [Never, Safe] using h

/-- Without a panic, a property of the results is enough. -/
theorem Safe.of {x : Run α} {P : α → Prop} (h : Never .panic x) (hP : ∀ a, x = .ok a → P a) : Safe x P := by
  cases x with
  | ok a => exact hP a rfl
  | error e => simpa [Never, Safe] using h

theorem Safe.map {x : Run α} {f : α → β} {P : α → Prop} {Q : β → Prop} (h : Safe x P)
    (h' : ∀ a, P a → Q (f a)) : Safe (Except.map f x) Q := by
  cases x with
  | ok a => exact h' a h
  | error e => exact h

theorem Safe.foldlM {P : β → Prop} {f : β → α → Run β} : ∀ {l : List α} {b : β}, P b →
    (∀ b, ∀ a ∈ l, P b → Safe (f b a) P) → Safe (l.foldlM f b) P
  | [], b, hb, _ => hb
  | a :: l, b, hb, h => by
    rw [List.foldlM_cons]
    exact .bind (h b a (by simp) hb) fun b' hb' => .foldlM hb' fun b a ha => h b a (by simp [ha])

theorem Safe.mapM {P : β → Prop} {f : α → Run β} : ∀ {l : List α},
    (∀ a ∈ l, Safe (f a) P) → Safe (l.mapM f) fun r => ∀ b ∈ r, P b
  | [], _ => by rw [List.mapM_nil]; exact .pure (by simp)
  | a :: l, h => by
    rw [List.mapM_cons]
    refine .bind (h a (by simp)) fun b hb => .bind (.mapM fun a ha => h a (by simp [ha])) fun r hr => .pure ?_
    intro c hc
    rcases List.mem_cons.mp hc with rfl | hc
    · exact hb
    · exact hr c hc

end Run

/-- No text is empty. -/
def Full (out : List Str) : Prop := ∀ t ∈ out, t ≠ []

theorem Full.append {a b : List Str} (ha : Full a) (hb : Full b) : Full (a ++ b) := by
  intro t ht
  rcases List.mem_append.mp ht with h | h
  · exact ha t h
  · exact hb t h

theorem Full.cons {a : Str} {b : List Str} (ha : a ≠ []) (hb : Full b) : Full (a :: b) := by
  intro t ht
  rcases List.mem_cons.mp ht with rfl | h
  · exact ha
  · exact hb t h

theorem Full.nil : Full [] := by simp [Full]
theorem Full.take {a : List Str} (n : Nat) (h : Full a) : Full (a.take n) :=
  fun t ht => h t (List.mem_of_mem_take ht)
theorem Full.drop {a : List Str} (n : Nat) (h : Full a) : Full (a.drop n) :=
  fun t ht => h t (List.mem_of_mem_drop ht)

theorem Full.map {a : List Str} {f : Str → Str} (h : Full a) (hf : ∀ t, t ≠ [] → f t ≠ []) : Full (a.map f) := by
  intro t ht
  obtain ⟨s, hs, rfl⟩ := List.mem_map.mp ht
  exact hf s (h s hs)

/-! ## Letter case of texts which are not empty -/

theorem Unicode.lowerStr_ne {U : Unicode} (hU : ∀ c, U.lower c ≠ []) {w : Str} (hw : w ≠ []) :
    U.lowerStr w ≠ [] := by
  cases w with
  | nil => exact absurd rfl hw
  | cons c w =>
    unfold Unicode.lowerStr Unicode.lowerStrFrom
    intro h
    rw [List.append_eq_nil_iff] at h
    have := h.1
    split at this
    · split at this <;> simp at this
    · exact hU c this

theorem replaceChar_ne {w : Str} {c : Char} {r : Str} (hw : w ≠ []) (hr : r ≠ []) : replaceChar w c r ≠ [] := by
  cases w with
  | nil => exact absurd rfl hw
  | cons x w =>
    unfold replaceChar
    rw [List.flatMap_cons]
    intro h
    rw [List.append_eq_nil_iff] at h
    have := h.1
    split at this
    · exact hr this
    · simp at this

theorem CaseHandling.lowercase_ne {U : Unicode} (hU : ∀ c, U.lower c ≠ []) (h : CaseHandling) {w : Str}
    (hw : w ≠ []) : h.lowercase U w ≠ [] := by
  cases h with
  | standard => exact Unicode.lowerStr_ne hU hw
  | turkic => exact Unicode.lowerStr_ne hU (replaceChar_ne (replaceChar_ne hw (by simp)) (by simp))

theorem Unicode.upperStr_ne {U : Unicode} (hU : ∀ c, U.upper c ≠ []) {w : Str} (hw : w ≠ []) :
    U.upperStr w ≠ [] := by
  cases w with
  | nil => exact absurd rfl hw
  | cons c w => simp [Unicode.upperStr, hU c]

theorem CaseHandling.uppercase_ne {U : Unicode} (hU : ∀ c, U.upper c ≠ []) (h : CaseHandling) {w : Str}
    (hw : w ≠ []) : h.uppercase U w ≠ [] := by
  cases h with
  | standard => exact Unicode.upperStr_ne hU hw
  | turkic => exact Unicode.upperStr_ne hU (replaceChar_ne (replaceChar_ne hw (by simp)) (by simp))

theorem CaseHandling.upperChar_ne {U : Unicode} (hU : ∀ c, U.upper c ≠ []) (h : CaseHandling) (c : Char) :
    h.upperChar U c ≠ [] := by
  unfold upperChar
  cases h with
  | standard => exact hU c
  | turkic => dsimp only; split; · simp
              split; · simp
              exact hU c

theorem CaseHandling.lowerChar_ne {U : Unicode} (hU : ∀ c, U.lower c ≠ []) (h : CaseHandling) (c : Char) :
    h.lowerChar U c ≠ [] := by
  unfold lowerChar
  cases h with
  | standard => exact hU c
  | turkic => dsimp only; split; · simp
              split; · simp
              exact hU c

theorem Converts.ne_nil {lines : List (Str × Str)} (hl : ∀ r ∈ lines, r.2 ≠ []) {w out : Str}
    (h : Converts lines w out) (hw : w ≠ []) : out ≠ [] := by
  cases h with
  | done => exact absurd rfl hw
  | copy => simp
  | replace hm => simp [hl _ hm]

namespace Suggester

/-- What keeps the suggester from panicking on the words in `B`, which ICONV turns into words in `B'`. -/
structure Calm (S : Suggester) (B B' : Str → Prop) : Prop where
  asTitle : S.C.checkLowerAsTitle = false
  asUpper : S.C.checkLowerAsUpper = false
  reps : ∃ rules, ReplacementTable.from' rules = some S.C.aff.replacements
  iconv : ∀ w, w ≠ [] → B w → S.C.aff.inputConversions.convert w ≠ [] ∧ B' (S.C.aff.inputConversions.convert w)
  parts : ∀ w, B' w → '-' ∈ w → ∀ part, part <:+: w → '-' ∉ part → B part
  lower : ∀ c, S.C.U.lower c ≠ []
  upper : ∀ c, S.C.U.upper c ≠ []
  empty : ∀ fuel, ¬ Suggestable S.C fuel []
  ngram : S.ngram = true → ∀ w, w ≠ [] → B' w → ∀ out, Full out →
    Safe (S.C.ngramSuggest S.H w out) Full ∧ Safe (S.C.ngramSuggest S.H (S.C.lowercase w) out) Full

variable {S : Suggester} {fuel : Nat} {B B' : Str → Prop}

theorem Calm.check (hS : S.Calm B B') (w : Str) : Never .panic (S.C.check fuel w) :=
  Checker.check_np (fun w => ⟨by simp [hS.asTitle], by simp [hS.asUpper]⟩) w

theorem addIfCorrect_np (t : Str) (out : List Str) : Never .panic (S.addIfCorrect fuel t out) := by
  unfold addIfCorrect
  refine .bind (Checker.checkWord_np _ _ _ _ _) fun r => ?_
  cases r with
  | none => exact .pure _
  | some F => dsimp only; split; · exact .pure _
              split <;> exact .pure _

theorem addIfCorrect_safe (hS : S.Calm B B') {t : Str} {out : List Str} (hout : Full out) :
    Safe (S.addIfCorrect fuel t out) fun r => Full r.2 := by
  refine .of (addIfCorrect_np t out) ?_
  rintro ⟨b, out'⟩ h
  rcases addIfCorrect_ok h with ⟨hs, -, rfl⟩ | ⟨-, -, rfl⟩
  · refine hout.append ?_
    rintro _ hm
    rw [List.mem_singleton] at hm
    subst hm
    rintro rfl
    exact hS.empty fuel hs
  · exact hout

theorem addAll_safe (hS : S.Calm B B') {texts out : List Str} (hout : Full out) :
    Safe (S.addAll fuel texts out) Full :=
  .foldlM hout fun _ _ _ hb => .bind (addIfCorrect_safe hS hb) fun _ hr => .pure hr

theorem allParts_np : ∀ ps, Never .panic (S.allParts fuel ps)
  | [] => .ok _
  | p :: ps => by
    unfold allParts
    refine .bind (Checker.checkWord_np _ _ _ _ _) fun r => ?_
    cases r with
    | none => exact .pure _
    | some F => exact allParts_np ps

theorem tryRep_np (t : Str) (out : List Str) : Never .panic (S.tryRep fuel t out) := by
  unfold tryRep
  refine .bind (addIfCorrect_np t out) fun r => ?_
  dsimp only
  split
  · exact .pure _
  split
  · refine .bind (allParts_np _) fun b => ?_
    split <;> exact .pure _
  · exact .pure _

theorem tryRep_safe (hS : S.Calm B B') {t : Str} {out : List Str} (hout : Full out) :
    Safe (S.tryRep fuel t out) Full := by
  refine .of (tryRep_np t out) fun out' h => ?_
  rcases tryRep_ok h with ⟨hs, rfl⟩ | ⟨-, rfl⟩
  · refine hout.append ?_
    rintro _ hm
    rw [List.mem_singleton] at hm
    subst hm
    rintro rfl
    rcases hs with hs | ⟨parts, last, hne, ht, -, -⟩
    · exact hS.empty fuel hs
    · cases parts with
      | nil => exact hne rfl
      | cons p ps => simp at ht
  · exact hout

theorem maxAttempts_ok {w : Str} (hw : w ≠ []) : ∃ n, S.maxAttempts w = .ok n := by
  have : byteLen w ≠ 0 := by
    cases w with
    | nil => exact absurd rfl hw
    | cons c w => rw [byteLen_cons]; have := c.utf8Size_pos; omega
  unfold maxAttempts
  dsimp only
  rw [if_neg this]
  generalize (if S.C.opts.complexPrefixes = true then _ else _ : Nat) = cost
  split
  · exact ⟨_, rfl⟩
  · exact ⟨_, rfl⟩

theorem twoWords_full (w : Str) {out : List Str} (hout : Full out) : Full (S.twoWordsSuggest w out) := by
  rw [twoWordsSuggest_eq]
  refine hout.append fun t ht => ?_
  obtain ⟨-, a, b, -, -, -, -, rfl | ⟨rfl, -⟩⟩ := mem_splitWords.mp ht <;> simp

theorem free_safe (hS : S.Calm B B') {e : Edit} {w : Str} {texts out : List Str} (he : e.run w 0 = some texts)
    (hout : Full out) : Safe (S.free fuel e w out) Full := by
  unfold free
  rw [he, ofOption_some]
  exact addAll_safe hS hout

theorem limited_safe (hS : S.Calm B B') {e : Edit} {w : Str} (hw : w ≠ []) {texts : Nat → List Str} {out : List Str}
    (he : ∀ n, e.run w n = some (texts n)) (hout : Full out) : Safe (S.limited fuel e w out) Full := by
  unfold limited
  obtain ⟨n, hn⟩ := maxAttempts_ok (S := S) hw
  rw [hn]
  show Safe (Run.ofOption (e.run w n) >>= fun texts => S.addAll fuel texts out) Full
  rw [he, ofOption_some]
  exact addAll_safe hS hout

theorem suggestEdits_safe (hS : S.Calm B B') {w : Str} (hw : w ≠ []) {out : List Str} (hout : Full out) :
    Safe (S.suggestEdits fuel w out) Full := by
  unfold suggestEdits
  refine .bind (free_safe hS (C41_adjacent_swap w 0).1 hout) fun _ h => ?_
  refine .bind (limited_safe hS hw (fun n => (C41_distant_swap w n).1) h) fun _ h => ?_
  refine .bind (free_safe hS (C41_keyboard _ _ w 0).1 h) fun _ h => ?_
  refine .bind (free_safe hS (C41_extra_char w 0).1 h) fun _ h => ?_
  refine .bind (limited_safe hS hw (fun n => (C41_forgotten_char _ w n).1) h) fun _ h => ?_
  refine .bind (limited_safe hS hw (fun n => (C41_move_char w n).1) h) fun _ h => ?_
  refine .bind (limited_safe hS hw (fun n => (C41_wrong_char _ w n).1) h) fun _ h => ?_
  refine .bind (free_safe hS (C41_doubled_chars_partial w 0).1 h) fun _ h => ?_
  exact .pure (twoWords_full w h)

theorem suggestLow_safe (hS : S.Calm B B') {w : Str} (hw : w ≠ []) {out : List Str} (hout : Full out) :
    Safe (S.suggestLow fuel w out) fun r => Full r.2 := by
  unfold suggestLow
  dsimp only
  refine .bind (.bind (addIfCorrect_safe hS hout) fun _ h => .pure h) fun o1 h1 => ?_
  refine .bind (P := Full) ?_ fun o2 h2 => ?_
  · obtain ⟨rules, hR⟩ := hS.reps
    unfold repSuggest
    rw [(C41_rep S.C.aff.replacements w 0 hR).1, ofOption_some]
    exact .foldlM h1 fun _ _ _ hb => tryRep_safe hS hb
  refine .bind (P := Full) ?_ fun o3 h3 => ?_
  · unfold mapSuggest
    obtain ⟨n, hn⟩ := maxAttempts_ok (S := S) hw
    rw [hn]
    show Safe (Run.ofOption (mapTexts S.C.aff.similarities w n) >>= fun texts => S.addAll fuel texts o2) Full
    rw [mapTexts_eq, ofOption_some]
    exact addAll_safe hS h2
  refine .bind (P := fun _ => True) ?_ fun hq _ => ?_
  · unfold highQuality
    split
    · exact .ok trivial
    split
    · exact .ok trivial
    · exact .of (.map _ (Checker.checkWord_np _ _ _ _ _)) fun _ _ => trivial
  exact .bind (suggestEdits_safe hS hw h3) fun _ h => .pure h

/-! ## The cases -/

theorem lowThenFront_safe (hS : S.Calm B B') {w : Str} (hw : w ≠ []) (hq : Bool) {out : List Str} (hout : Full out) :
    Safe (S.lowThenFront fuel w hq out) fun r => Full r.2 := by
  unfold lowThenFront
  refine .bind (suggestLow_safe hS hw hout) fun r h => ?_
  refine .bind (.of (hS.check w) fun _ _ => trivial) fun b (_ : True) => .pure ?_
  dsimp only
  split
  · exact .cons hw h
  · exact h

theorem initCase_safe (hS : S.Calm B B') {w : Str} (hw : w ≠ []) {out : List Str} (hout : Full out) :
    Safe (S.initCase fuel w out) fun r => Full r.2 := by
  unfold initCase
  exact .bind (suggestLow_safe hS hw hout) fun r h =>
    .bind (suggestLow_safe hS (CaseHandling.lowercase_ne hS.lower _ hw) h) fun r h => .pure h

theorem titlecase_safe (hS : S.Calm B B') {w : Str} (hw : w ≠ []) : Safe (S.C.titlecase w) fun t => t ≠ [] := by
  cases w with
  | nil => exact absurd rfl hw
  | cons c w =>
    unfold Checker.titlecase CaseHandling.titlecase
    refine .ok ?_
    simp [CaseHandling.upperChar_ne hS.upper]

theorem allCaps_safe (hS : S.Calm B B') {w : Str} (hw : w ≠ []) {out : List Str} (hout : Full out) :
    Safe (S.allCaps fuel w out) fun r => Full r.2 := by
  unfold allCaps
  have hl : S.C.lowercase w ≠ [] := CaseHandling.lowercase_ne hS.lower _ hw
  dsimp only
  refine .bind (P := Full) ?_ fun o h => ?_
  · unfold keepLower
    split
    · refine .bind (.of (hS.check _) fun _ _ => trivial) fun b (_ : True) => .pure ?_
      split
      · exact .cons hl hout
      · exact hout
    · exact .ok hout
  refine .bind (suggestLow_safe hS hl h) fun r h => ?_
  refine .bind (titlecase_safe hS hl) fun t ht => ?_
  exact .bind (suggestLow_safe hS ht h) fun r h => .pure (h.map fun _ => CaseHandling.uppercase_ne hS.upper _)

theorem dotSpace_full (w : Str) {out : List Str} (hout : Full out) : Full (S.dotSpace w out) := by
  unfold dotSpace
  split
  · split
    · exact .cons (by simp) hout
    · exact hout
  · exact hout

theorem hasTail_nil (w : Str) : hasTail w [] = true := by
  unfold hasTail
  rw [if_neg (by simp), byteLen_nil, Nat.sub_zero]
  have := sliceFrom?_append w []
  rw [List.append_nil] at this
  rw [this]
  rfl

theorem titleSecond_safe (hS : S.Calm B B') (w : Str) : ∀ {rest done : List Str}, Full done → Full rest →
    Safe (S.titleSecond w done rest) Full
  | [], done, hd, _ => hd
  | s :: rest, done, hd, hr => by
    unfold titleSecond
    have hr' : Full rest := fun t ht => hr t (by simp [ht])
    have hs : s ≠ [] := hr s (by simp)
    have hd' : Full (done ++ [s]) := hd.append (.cons hs .nil)
    split
    · exact titleSecond_safe hS w hd' hr'
    · rename_i before after he
      split
      · exact titleSecond_safe hS w hd' hr'
      · rename_i ht
        have hne : after ≠ [] := by rintro rfl; exact ht (hasTail_nil w)
        have hsp := splitOnce?_append he
        obtain ⟨c, after, rfl⟩ := List.exists_cons_of_ne_nil hne
        refine .bind (P := fun t => t ≠ []) ?_ fun t ht => titleSecond_safe hS w (.cons ht hd) hr'
        unfold upperAt CaseHandling.upperCharAt
        have hdrop : s.drop (before.length + 1) = c :: after := by
          rw [hsp]; simp
        rw [hdrop]
        exact .ok (by simp [CaseHandling.upperChar_ne hS.upper])

theorem mixedCase_safe (hS : S.Calm B B') {w : Str} (hw : w ≠ []) (pascal : Bool) {out : List Str} (hout : Full out) :
    Safe (S.mixedCase fuel pascal w out) fun r => Full r.2 := by
  unfold mixedCase
  refine .bind (suggestLow_safe hS hw hout) fun r h => ?_
  dsimp only
  refine .bind (P := fun r => Full r.2) ?_ fun r h => ?_
  · unfold pascalLower
    split
    · refine .bind (P := fun t => t ≠ []) ?_ fun t ht => lowThenFront_safe hS ht _ (dotSpace_full w h)
      cases w with
      | nil => exact absurd rfl hw
      | cons c w =>
        unfold CaseHandling.lowerFirstChar
        exact .ok (by simp [CaseHandling.lowerChar_ne hS.lower])
    · exact .ok (dotSpace_full w h)
  refine .bind (lowThenFront_safe hS (CaseHandling.lowercase_ne hS.lower _ hw) _ h) fun r h => ?_
  refine .bind (P := fun r => Full r.2) ?_ fun r h => ?_
  · unfold pascalTitle
    split
    · exact .bind (titlecase_safe hS hw) fun t ht => lowThenFront_safe hS ht _ h
    · exact .ok h
  exact .bind (titleSecond_safe hS w .nil h) fun _ h => .pure h

theorem ngramPart_safe (hS : S.Calm B B') (casing : Casing) {w : Str} (hw : w ≠ []) (hB : B' w) (hq : Bool) {out : List Str}
    (hout : Full out) : Safe (S.ngramPart casing w hq out) Full := by
  unfold ngramPart
  split
  · rename_i h
    have hn : S.ngram = true := by
      simp only [Bool.and_eq_true] at h; exact h.1.1
    refine .bind (P := Full) ?_ fun o ho => .pure ?_
    · have := hS.ngram hn w hw hB out hout
      split
      · exact this.1
      · exact this.2
    · split
      · exact (ho.take _).append ((ho.drop _).map fun _ => CaseHandling.uppercase_ne hS.upper _)
      · exact ho
  · exact .ok hout

theorem dashPieces_append : ∀ (rest pre cur : Str), ∀ p ∈ dashPieces pre cur rest,
    p.1 ++ (p.2.1 ++ p.2.2) = pre ++ (cur ++ rest)
  | [], pre, cur, p, hp => by
    simp only [dashPieces, List.mem_singleton] at hp
    subst hp; rfl
  | c :: rest, pre, cur, p, hp => by
    unfold dashPieces at hp
    split at hp
    · rcases List.mem_cons.mp hp with rfl | hp
      · rfl
      · rw [dashPieces_append rest _ _ p hp]; simp
    · rw [dashPieces_append rest _ _ p hp]; simp

theorem dashPieces_ne : ∀ (rest pre cur : Str), '-' ∈ pre ∨ '-' ∈ rest →
    ∀ p ∈ dashPieces pre cur rest, p.1 ≠ [] ∨ p.2.2 ≠ []
  | [], pre, cur, h, p, hp => by
    simp only [dashPieces, List.mem_singleton] at hp
    subst hp
    rcases h with h | h
    · exact .inl (by rintro rfl; simp at h)
    · simp at h
  | c :: rest, pre, cur, h, p, hp => by
    unfold dashPieces at hp
    split at hp
    · rename_i hc
      rcases List.mem_cons.mp hp with rfl | hp
      · exact .inr (by simp)
      · exact dashPieces_ne rest _ _ (.inl (by simp [hc])) p hp
    · rename_i hc
      refine dashPieces_ne rest _ _ ?_ p hp
      rcases h with h | h
      · exact .inl h
      · rcases List.mem_cons.mp h with h | h
        · exact absurd h.symm hc
        · exact .inr h

theorem dashPieces_noDash : ∀ (rest pre cur : Str), '-' ∉ cur → ∀ p ∈ dashPieces pre cur rest, '-' ∉ p.2.1
  | [], pre, cur, h, p, hp => by
    simp only [dashPieces, List.mem_singleton] at hp
    subst hp; exact h
  | c :: rest, pre, cur, h, p, hp => by
    unfold dashPieces at hp
    split at hp
    · rcases List.mem_cons.mp hp with rfl | hp
      · exact h
      · exact dashPieces_noDash rest _ _ (by simp) p hp
    · rename_i hc
      exact dashPieces_noDash rest _ _ (by simp [h, Ne.symm hc]) p hp

theorem dashes_safe (hS : S.Calm B B') {rec' : Str → List Str → Run (List Str)}
    (hrec : ∀ part, B part → Never .panic (rec' part [])) {w : Str} (hB : B' w) {out : List Str} (hout : Full out) :
    Safe (S.dashes fuel rec' w out) Full := by
  unfold dashes
  split
  · rename_i h
    have hd : '-' ∈ w := by
      simp only [Bool.and_eq_true] at h; simpa using h.1
    refine .foldlM hout fun o p hp ho => ?_
    obtain ⟨pre, part, post⟩ := p
    have hne : pre ≠ [] ∨ post ≠ [] := dashPieces_ne w [] [] (.inr hd) _ hp
    have hpart : B part := hS.parts w hB hd part ⟨pre, post, by
      have := dashPieces_append w [] [] _ hp
      simpa using this⟩ (dashPieces_noDash w [] [] (by simp) _ hp)
    unfold dashPart
    refine .bind (.of (hS.check _) fun _ _ => trivial) fun b (_ : True) => ?_
    split
    · exact .pure ho
    · refine .bind (.of (hrec part hpart) fun _ _ => trivial) fun found (_ : True) => ?_
      refine .foldlM ho fun o s _ ho => ?_
      unfold dashCandidate
      refine .bind (.of (Checker.checkWord_np _ _ _ _ _) fun _ _ => trivial) fun r (_ : True) => ?_
      have hb : Full (o ++ [pre ++ s ++ post]) := by
        refine ho.append (.cons ?_ .nil)
        intro h
        rw [List.append_eq_nil_iff, List.append_eq_nil_iff] at h
        rcases hne with hne | hne
        · exact hne h.1.1
        · exact hne h.2
      cases r with
      | none => exact .pure hb
      | some F =>
        refine .pure ?_
        split
        · exact ho
        · exact hb
  · exact .ok hout

theorem recheck_safe (hS : S.Calm B B') {s : Str} (hs : s ≠ []) : Never .panic (S.recheck fuel s) := by
  unfold recheck
  split
  · exact .pure _
  · refine .bind (hS.check _) fun b => ?_
    split
    · exact .pure _
    · refine .bind (hS.check _) fun b => ?_
      split
      · exact .pure _
      · refine .bind (titlecase_safe hS hs).never fun t => .bind (hS.check _) fun b => ?_
        split <;> exact .pure _

theorem recheckAll_safe (hS : S.Calm B B') : ∀ {out : List Str}, Full out → Never .panic (S.recheckAll fuel out)
  | [], _ => .ok _
  | s :: rest, h => by
    unfold recheckAll
    exact .bind (recheck_safe hS (h s (by simp))) fun _ =>
      .bind (recheckAll_safe hS fun t ht => h t (by simp [ht])) fun _ => .pure _

theorem finish_safe (hS : S.Calm B B') (casing : Casing) {out : List Str} (hout : Full out) :
    Never .panic (S.finish fuel casing out) := by
  unfold finish
  refine Safe.never (P := fun _ => True) ?_
  refine .bind (P := Full) ?_ fun o h => ?_
  · unfold capitalise
    split
    · refine .mapM fun s hs => ?_
      have hs := hout s hs
      cases s with
      | nil => exact absurd rfl hs
      | cons c s =>
        unfold upperAt CaseHandling.upperCharAt
        exact .ok (by simp [CaseHandling.upperChar_ne hS.upper])
    · exact .ok hout
  refine .bind (P := fun _ => True) ?_ fun o _ => ?_
  · unfold retained
    split
    · exact .of (recheckAll_safe hS h) fun _ _ => trivial
    · exact .ok trivial
  rw [deduplicate?_eq, ofOption_some]
  exact .ok trivial

theorem afterCasing_safe (hS : S.Calm B B') {rec' : Str → List Str → Run (List Str)}
    (hrec : ∀ part, B part → Never .panic (rec' part [])) (casing : Casing) {w : Str} (hw : w ≠ []) (hB : B' w) {r : Bool × List Str}
    (hr : Full r.2) : Never .panic (S.afterCasing fuel rec' casing w r) := by
  unfold afterCasing
  refine Safe.never (P := fun _ => True) ?_
  exact .bind (ngramPart_safe hS casing hw hB _ hr) fun _ h => .bind (dashes_safe hS hrec hB h) fun _ h =>
    .of (finish_safe hS casing h) fun _ _ => trivial

theorem suggestConverted_safe (hS : S.Calm B B') {rec' : Str → List Str → Run (List Str)}
    (hrec : ∀ part, B part → Never .panic (rec' part [])) {w : Str} (hw : w ≠ []) (hB : B' w) {out : List Str} (hout : Full out) :
    Never .panic (S.suggestConverted fuel rec' w out) := by
  unfold suggestConverted
  refine Safe.never (P := fun _ => True) ?_
  split
  · refine .bind (P := fun _ => True) ?_ fun b _ => ?_
    · unfold forceTitle
      split
      · exact .of (.map _ (Checker.checkCompound_np _ _ _ _ _)) fun _ _ => trivial
      · exact .ok trivial
    split
    · exact .bind (titlecase_safe hS hw) fun _ _ => .pure trivial
    · exact .bind (suggestLow_safe hS hw hout) fun r h => .of (afterCasing_safe hS hrec _ hw hB h) fun _ _ => trivial
  · exact .bind (initCase_safe hS hw hout) fun r h => .of (afterCasing_safe hS hrec _ hw hB h) fun _ _ => trivial
  · exact .bind (mixedCase_safe hS hw _ hout) fun r h => .of (afterCasing_safe hS hrec _ hw hB h) fun _ _ => trivial
  · exact .bind (mixedCase_safe hS hw _ hout) fun r h => .of (afterCasing_safe hS hrec _ hw hB h) fun _ _ => trivial
  · exact .bind (allCaps_safe hS hw hout) fun r h => .of (afterCasing_safe hS hrec _ hw hB h) fun _ _ => trivial

theorem suggestImpl_safe (hS : S.Calm B B') : ∀ (depth : Nat) (w : Str) {out : List Str}, B w → Full out →
    Never .panic (S.suggestImpl fuel depth w out)
  | 0, w, out, _, _ => by simp [suggestImpl, Never]
  | depth + 1, w, out, hB, hout => by
    unfold suggestImpl
    split
    · exact .ok _
    · rename_i hw
      exact suggestConverted_safe hS (fun part hp => suggestImpl_safe hS depth part hp .nil) (hS.iconv w hw hB).1
        (hS.iconv w hw hB).2 hout

theorem suggest_safe (hS : S.Calm B B') (depth : Nat) (w : Str) (out : List Str)
    (hB : byteLen w ≤ maxWordLen → B w) : Never .panic (S.suggest fuel depth w out) := by
  unfold suggest
  dsimp only
  split
  · exact .ok _
  · exact suggestImpl_safe hS depth w (hB (by omega)) (by simp [Full])

end Suggester
end Spellbook
