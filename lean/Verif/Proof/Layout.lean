import Verif.Spec.Layout
import Verif.Proof.Faults
import Verif.Proof.Parse
/-!
# Proofs about the layout of texts
-/

namespace Spellbook
open Spec

variable {U : Unicode} {cx : Cx}

/-! ## The `.aff` text -/

theorem sameWords_iff {l l' : Nat × Str} : SameWords U l l' ↔ splitWhitespace U l.2 = splitWhitespace U l'.2 := by
  constructor
  · rintro ⟨ws, h, h'⟩
    rw [splitWhitespace_iff.2 h, splitWhitespace_iff.2 h']
  · intro h
    exact ⟨_, splitWhitespace_words U l.2, h ▸ splitWhitespace_words U l'.2⟩

/-- The words are the same. -/
abbrev Same (U : Unicode) (l l' : Str) : Prop := splitWhitespace U l = splitWhitespace U l'

theorem forall₂_append_left {α β : Type} {R : α → β → Prop} {a b : List α} {c : List β}
    (h : List.Forall₂ R (a ++ b) c) : ∃ c₁ c₂, c = c₁ ++ c₂ ∧ List.Forall₂ R a c₁ ∧ List.Forall₂ R b c₂ := by
  induction a generalizing c with
  | nil => exact ⟨[], c, rfl, .nil, h⟩
  | cons x a ih =>
    cases h with
    | cons h1 h2 =>
      obtain ⟨c₁, c₂, rfl, h3, h4⟩ := ih h2
      exact ⟨_ :: c₁, c₂, rfl, .cons h1 h3, h4⟩

theorem rows_same {key : String} {head : List Str} {lines lines' : List Str} {cx' : Cx}
    (h : Rows U key head cx lines cx') (hs : List.Forall₂ (Same U) lines lines') :
    Rows U key head cx lines' cx' := by
  induction h generalizing lines' with
  | nil => cases hs; exact .nil
  | cons h1 h2 _ ih =>
    cases hs with
    | cons a b => exact .cons (a ▸ h1) h2 (ih b)

theorem effect_same {key : String} {args : List Str} {rows rows' : List Str} {cx' : Cx}
    (h : Effect U key args cx rows cx') (hs : List.Forall₂ (Same U) rows rows') :
    Effect U key args cx rows' cx' := by
  have hl := hs.length_eq
  cases h with
  | flagType h1 => cases hs; exact .flagType h1
  | flag h1 h2 h3 => cases hs; exact .flag h1 h2 h3
  | switch h1 => cases hs; exact .switch h1
  | number h1 h2 h3 => cases hs; exact .number h1 h2 h3
  | ignore => cases hs; exact .ignore
  | keyboard => cases hs; exact .keyboard
  | tryChars => cases hs; exact .tryChars
  | turkic h1 => cases hs; exact .turkic h1
  | notTurkic h1 => cases hs; exact .notTurkic h1
  | syllable h1 h2 => cases hs; exact .syllable h1 h2
  | table h1 h2 h3 h4 => exact .table h1 (hl ▸ h2) (hl ▸ h3) (rows_same h4 hs)
  | affixes h1 h2 h3 h4 h5 h6 h7 => exact .affixes h1 h2 h3 h4 (hl ▸ h5) (hl ▸ h6) (rows_same h7 hs)

theorem reads_same {lines lines' : List Str} {cx' : Cx} (h : Reads U cx lines cx')
    (hs : List.Forall₂ (Same U) lines lines') : Reads U cx lines' cx' := by
  induction h generalizing lines' with
  | done => cases hs; exact .done
  | ignored h1 _ ih =>
    cases hs with
    | cons a b => exact .ignored (a ▸ h1) (ih b)
  | directive h1 h2 _ ih =>
    cases hs with
    | cons a b =>
      obtain ⟨c₁, c₂, rfl, h3, h4⟩ := forall₂_append_left b
      exact .directive (a ▸ h1) (effect_same h2 h3) (ih h4)

theorem forall₂_snd {lines lines' : List (Nat × Str)} (h : List.Forall₂ (SameWords U) lines lines') :
    List.Forall₂ (Same U) (lines.map (·.2)) (lines'.map (·.2)) := by
  induction h with
  | nil => exact .nil
  | cons h1 _ ih => exact .cons (sameWords_iff.1 h1) ih

theorem rowsFault_same {key : String} {head : List Str} {n i : Nat} {lines lines' : List (Nat × Str)}
    {number : Option Nat} {kind : ErrorKind} (h : RowsFault U key head n i cx lines number kind)
    (hs : List.Forall₂ (SameWords U) lines lines') :
    ∃ j : Nat, number = lines[j]?.map (·.1) ∧ RowsFault U key head n i cx lines' (lines'[j]?.map (·.1)) kind := by
  induction h generalizing lines' with
  | missing h1 => cases hs; exact ⟨0, rfl, .missing h1⟩
  | foreign h1 h2 =>
    cases hs with
    | cons a b => exact ⟨0, rfl, .foreign h1 (sameWords_iff.1 a ▸ h2)⟩
  | row h1 h2 h3 =>
    cases hs with
    | cons a b => exact ⟨0, rfl, .row h1 (sameWords_iff.1 a ▸ h2) h3⟩
  | next h1 h2 h3 _ ih =>
    cases hs with
    | cons a b =>
      obtain ⟨j, h4, h5⟩ := ih b
      exact ⟨j + 1, by simpa using h4, .next h1 (sameWords_iff.1 a ▸ h2) h3 (by simpa using h5)⟩

theorem readsFault_same {lines lines' : List (Nat × Str)} {number : Option Nat} {kind : ErrorKind}
    (h : ReadsFault U cx lines number kind) (hs : List.Forall₂ (SameWords U) lines lines') :
    ∃ j : Nat, number = lines[j]?.map (·.1) ∧ ReadsFault U cx lines' (lines'[j]?.map (·.1)) kind := by
  induction h generalizing lines' with
  | line h1 h2 =>
    cases hs with
    | cons a b => exact ⟨0, rfl, .line (sameWords_iff.1 a ▸ h1) h2⟩
  | rows h1 h2 h3 =>
    cases hs with
    | cons a b =>
      obtain ⟨j, h4, h5⟩ := rowsFault_same h3 b
      exact ⟨j + 1, by simpa using h4, .rows (sameWords_iff.1 a ▸ h1) h2 (by simpa using h5)⟩
  | ignored h1 _ ih =>
    cases hs with
    | cons a b =>
      obtain ⟨j, h4, h5⟩ := ih b
      exact ⟨j + 1, by simpa using h4, .ignored (sameWords_iff.1 a ▸ h1) (by simpa using h5)⟩
  | directive h1 h2 _ ih =>
    cases hs with
    | cons a b =>
      obtain ⟨c₁, c₂, rfl, h3, h4⟩ := forall₂_append_left b
      obtain ⟨j, h5, h6⟩ := ih h4
      have hl := h3.length_eq
      refine ⟨c₁.length + j + 1, ?_, ?_⟩
      · rw [← hl]
        simpa [List.getElem?_append_right] using h5
      · refine .directive (sameWords_iff.1 a ▸ h1) (effect_same h2 (forall₂_snd h3)) ?_
        simpa [List.getElem?_append_right] using h6

/-! ## The `.dic` text -/

theorem sameEntry_trim {l l' : Nat × Str} (h : SameEntry U l l') : trim U l.2 = trim U l'.2 := by
  obtain ⟨t, h1, h2⟩ := h
  rw [trim_eq h1, trim_eq h2]

theorem trimmed_same {l l' : Nat × Str} (h : SameEntry U l l') {t : Str} (ht : Trimmed U l.2 t) :
    Trimmed U l'.2 t := by
  rw [← trim_eq ht, sameEntry_trim h]
  exact trim_spec U _

theorem entriesOf_same {l l' : Nat × Str} (h : SameEntry U l l') {es : List (Str × FlagSet)}
    (he : EntriesOf U cx l.2 es) : EntriesOf U cx l'.2 es := by
  cases he with
  | skipped h1 h2 => exact .skipped (trimmed_same h h1) h2
  | plain h1 h2 h3 h4 => exact .plain (trimmed_same h h1) h2 h3 h4
  | twin h1 h2 h3 h4 h5 h6 => exact .twin (trimmed_same h h1) h2 h3 h4 h5 h6

theorem twinTooLong_same {l l' : Nat × Str} (h : SameEntry U l l') (ht : TwinTooLong U cx l.2) :
    TwinTooLong U cx l'.2 := by
  obtain ⟨t, stem, F, title, h1, h2⟩ := ht
  exact ⟨t, stem, F, title, trimmed_same h h1, h2⟩

theorem badLine_same {l l' : Nat × Str} (h : SameEntry U l l') {kind : ErrorKind}
    (hb : BadLine U cx l.2 kind) : BadLine U cx l'.2 kind := by
  obtain ⟨t, h1, h2⟩ := hb
  exact ⟨t, trimmed_same h h1, h2⟩

theorem sameEntry_symm {l l' : Nat × Str} (h : SameEntry U l l') : SameEntry U l' l := by
  obtain ⟨t, h1, h2⟩ := h
  exact ⟨t, h2, h1⟩

/-- The two results are the same; errors are at the same place. -/
inductive SameFold (lines lines' : List (Nat × Str)) :
    Except Halt (Bag FlagSet) → Except Halt (Bag FlagSet) → Prop
  | ok (w) : SameFold lines lines' (.ok w) (.ok w)
  | panic : SameFold lines lines' (.error .panic) (.error .panic)
  | dic (i : Nat) (kind) : SameFold lines lines' (.error (dicError kind (lines[i]?.map (·.1))))
      (.error (dicError kind (lines'[i]?.map (·.1))))

theorem sameFold_cons {l l' : Nat × Str} {lines lines' : List (Nat × Str)} {a b : Except Halt (Bag FlagSet)}
    (h : SameFold lines lines' a b) : SameFold (l :: lines) (l' :: lines') a b := by
  cases h with
  | ok w => exact .ok w
  | panic => exact .panic
  | dic i kind => exact .dic (i + 1) kind

theorem fold_same {lines lines' : List (Nat × Str)} (hs : List.Forall₂ (SameEntry U) lines lines')
    (hp : ∀ l ∈ lines, 0 < l.1) (hp' : ∀ l ∈ lines', 0 < l.1) (words : Bag FlagSet) :
    SameFold lines lines' (lines.foldlM (stepAt U cx) words) (lines'.foldlM (stepAt U cx) words) := by
  induction hs generalizing words with
  | nil => exact .ok words
  | @cons l l' ls ls' h1 _ ih =>
    rw [List.foldlM_cons, List.foldlM_cons]
    have hl := hp l (by simp)
    have hl' := hp' l' (by simp)
    rcases stepAt_cases U cx words l with ⟨es, h2, h3, h4⟩ | ⟨kind, h2, h3⟩ | ⟨h2, h3⟩
    · rw [h4, stepAt_entries (entriesOf_same h1 h2) fun h => h3 (twinTooLong_same (sameEntry_symm h1) h)]
      exact sameFold_cons (ih (fun l h => hp l (by simp [h])) (fun l h => hp' l (by simp [h])) _)
    · rw [h3, stepAt_bad (badLine_same h1 h2), Nat.sub_add_cancel hl, Nat.sub_add_cancel hl']
      exact .dic 0 kind
    · rw [h3, stepAt_twin (twinTooLong_same h1 h2)]
      exact .panic

theorem stepAt_skipped {words : Bag FlagSet} {l : Nat × Str} {t : Str} (h : Trimmed U l.2 t) (hs : SkippedLine t) :
    stepAt U cx words l = .ok words := by
  rw [stepAt_entries (.skipped h hs)]
  · simp
  · rintro ⟨t', -, -, -, h1, h2, -⟩
    rw [← trim_eq h, trim_eq h1] at hs
    exact h2 hs

theorem fold_filter (p : Nat × Str → Bool) (hp : ∀ l, p l = false → ∃ t, Trimmed U l.2 t ∧ SkippedLine t) (rest : List (Nat × Str))
    (words : Bag FlagSet) :
    rest.foldlM (stepAt U cx) words = (rest.filter p).foldlM (stepAt U cx) words := by
  induction rest generalizing words with
  | nil => rfl
  | cons l rest ih =>
    cases h : p l with
    | true =>
      rw [List.filter_cons_of_pos h, List.foldlM_cons, List.foldlM_cons]
      congr 1
      funext w
      exact ih w
    | false =>
      obtain ⟨t, h1, h2⟩ := hp l h
      rw [List.filter_cons_of_neg (by simp [h]), List.foldlM_cons, stepAt_skipped h1 h2]
      exact ih words

open Classical in
theorem fold_entryLines {rest lines : List (Nat × Str)} (h : EntryLines U rest lines) (hn : rest.Nodup) (words : Bag FlagSet) :
    rest.foldlM (stepAt U cx) words = lines.foldlM (stepAt U cx) words := by
  rw [fold_filter (U := U) (cx := cx) (fun l => decide (∃ t, Trimmed U l.2 t ∧ ¬ SkippedLine t))]
  · rw [← sublist_filter h.1 hn]
    intro l hl
    rw [h.2 l hl]
    simp
  · intro l hl
    have hl := of_decide_eq_false hl
    by_cases hs : SkippedLine (trim U l.2)
    · exact ⟨_, trim_spec U l.2, hs⟩
    · exact absurd ⟨_, trim_spec U l.2, hs⟩ hl

theorem parseDic_same {dic dic' : Str} {lines lines' : List (Nat × Str)} (h : SameDic U dic dic' lines lines') :
    SameFold lines lines' (parseDic U cx dic) (parseDic U cx dic') := by
  cases h with
  | empty h1 h2 =>
    rw [parseDic_eq, parseDic_eq, ← content_iff.1 h1, ← content_iff.1 h2]
    exact .dic 0 _
  | @lines first rest ls first' rest' ls' h1 h2 h3 h4 h5 h6 =>
    have hn : (first :: rest).Nodup := h1.1.nodup (numbered_nodup _)
    have hn' : (first' :: rest').Nodup := h2.1.nodup (numbered_nodup _)
    have hp : ∀ l ∈ ls, 0 < l.1 := fun l hl => numbered_pos (h1.1.subset (by simp [h4.1.subset hl]))
    have hp' : ∀ l ∈ ls', 0 < l.1 := fun l hl => numbered_pos (h2.1.subset (by simp [h5.1.subset hl]))
    rw [parseDic_eq, parseDic_eq, ← content_iff.1 h1, ← content_iff.1 h2]
    simp only [← sameWords_iff.1 h3]
    cases splitWhitespace U first.2 with
    | nil => exact .dic 0 _
    | cons w ws =>
      simp only
      cases parseUInt usizeMax w with
      | error e => exact .dic 0 _
      | ok n =>
        simp only
        rw [fold_entryLines h4 (List.nodup_cons.1 hn).2, fold_entryLines h5 (List.nodup_cons.1 hn').2]
        exact sameFold_cons (fold_same h6 hp hp' _)

/-! ## Both -/

theorem parseAff_same {aff aff' : Str} {lines lines' : List (Nat × Str)} (h : SameAff U aff aff' lines lines') :
    (∃ cx, parseAff U aff = .ok cx ∧ parseAff U aff' = .ok cx) ∨
    ∃ (i : Nat) (kind : ErrorKind), parseAff U aff = .error (.error ⟨kind, .aff, lines[i]?.map (·.1)⟩) ∧
      parseAff U aff' = .error (.error ⟨kind, .aff, lines'[i]?.map (·.1)⟩) := by
  cases hp : parseAff U aff with
  | ok cx =>
    obtain ⟨ls, h1, h2⟩ := settings_iff.1 hp
    rw [content_iff.1 h1, ← content_iff.1 h.content] at h2
    exact .inl ⟨cx, rfl, settings_iff.2 ⟨lines', h.content', reads_same h2 (forall₂_snd h.same)⟩⟩
  | error e =>
    obtain ⟨number, kind, ⟨ls, h1, h2⟩, rfl⟩ := parseAff_err.1 hp
    rw [content_iff.1 h1, ← content_iff.1 h.content] at h2
    obtain ⟨i, rfl, h3⟩ := readsFault_same h2 h.same
    exact .inr ⟨i, kind, rfl, parseAff_err.2 ⟨_, _, ⟨lines', h.content', h3⟩, rfl⟩⟩

theorem parse_same {S : Sorts} {aff aff' dic dic' : Str} {al al' dl dl' : List (Nat × Str)}
    (ha : SameAff U aff aff' al al') (hd : SameDic U dic dic' dl dl') :
    SameOutcome al al' dl dl' (parse U S aff dic) (parse U S aff' dic') := by
  rcases parseAff_same ha with ⟨cx, h1, h2⟩ | ⟨i, kind, h1, h2⟩
  · have hok := parseAff_ok U aff
    rw [h1] at hok
    obtain ⟨A, -, hA⟩ := assemble_ok S hok
    have h := parseDic_same (cx := cx) hd
    generalize e1 : parseDic U cx dic = r1 at h
    generalize e2 : parseDic U cx dic' = r2 at h
    cases h with
    | ok w => rw [parse_ok h1 e1 (hA w), parse_ok h2 e2 (hA w)]; exact .ok _
    | panic => rw [parse_dic_error h1 e1, parse_dic_error h2 e2]; exact .panic
    | dic i kind => rw [parse_dic_error h1 e1, parse_dic_error h2 e2]; exact .dic i kind
  · rw [parse_aff_error h1, parse_aff_error h2]
    exact .aff i kind

/-! ## Line by line -/

/-- Lines numbered from `n`. -/
def numberFrom (n : Nat) (ls : List Str) : List (Nat × Str) := (ls.zipIdx n).map fun p => (p.2 + 1, p.1)

theorem numberFrom_cons (n : Nat) (l : Str) (ls : List Str) :
    numberFrom n (l :: ls) = (n + 1, l) :: numberFrom (n + 1) ls := by
  simp [numberFrom, List.zipIdx_cons]

theorem numberFrom_append (n : Nat) (a b : List Str) :
    numberFrom n (a ++ b) = numberFrom n a ++ numberFrom (n + a.length) b := by
  simp [numberFrom, List.zipIdx_append]

theorem numberFrom_snd (n : Nat) (ls : List Str) : (numberFrom n ls).map (·.2) = ls := by
  induction ls generalizing n with
  | nil => rfl
  | cons l ls ih => rw [numberFrom_cons, List.map_cons, ih]

theorem contentLines_plain {text : Str} {ls : List Str} (h : PlainLines text ls) :
    contentLines U text = (numberFrom 0 ls).filter fun l => !isComment U l.2 := by
  unfold contentLines numbered numberFrom
  simp only [if_neg h.2, h.1.eq]

theorem contentLines_bom {text : Str} (h : text.head? ≠ some (Char.ofNat 0xFEFF)) :
    contentLines U (Char.ofNat 0xFEFF :: text) = contentLines U text := by
  unfold contentLines numbered
  simp only [List.head?_cons, ↓reduceIte, List.tail_cons, if_neg h]

theorem isComment_words {l l' : Str} (h : splitWhitespace U l = splitWhitespace U l') :
    isComment U l = isComment U l' := by
  have key : ∀ l : Str, (trimStart U l).head? = (splitWhitespace U l).head?.bind List.head? := by
    intro l
    rw [splitWhitespace]
    unfold trimStart
    cases l.dropWhile U.isWs <;> simp
  unfold isComment
  rw [key, key, h]

theorem wordsOf_before {a s : Str} {ws : List Str} (ha : ∀ c ∈ a, U.isWs c = true) (h : WordsOf U s ws) :
    WordsOf U (a ++ s) ws := by
  cases h with
  | nil h1 => exact .nil fun c hc => (List.mem_append.1 hc).elim (ha c) (h1 c)
  | @cons space word rest ws h1 h2 h3 h4 h5 =>
    have := WordsOf.cons (space := a ++ space) (fun c hc => (List.mem_append.1 hc).elim (ha c) (h1 c)) h2 h3 h4 h5
    simpa using this

theorem wordsOf_after {b s : Str} {ws : List Str} (hb : ∀ c ∈ b, U.isWs c = true) (h : WordsOf U s ws) :
    WordsOf U (s ++ b) ws := by
  induction h with
  | nil h1 => exact .nil fun c hc => (List.mem_append.1 hc).elim (h1 c) (hb c)
  | @cons space word rest ws h1 h2 h3 h4 h5 ih =>
    rw [List.append_assoc]
    refine WordsOf.cons h1 h2 h3 (fun c hc => ?_) ih
    cases rest with
    | nil => exact hb c (List.mem_of_mem_head? (by simpa using hc))
    | cons d r => exact h4 c hc

theorem splitWhitespace_trimmed {l t : Str} (h : Trimmed U l t) : splitWhitespace U l = splitWhitespace U t := by
  obtain ⟨a, b, rfl, h1, h2, -⟩ := h
  rw [splitWhitespace_iff]
  exact wordsOf_after h2 (wordsOf_before h1 (splitWhitespace_words U t))

theorem content_forall₂ {R : Str → Str → Prop} (hR : ∀ l l', R l l' → isComment U l = isComment U l')
    {ls ls' : List Str} (h : List.Forall₂ R ls ls') (n : Nat) :
    List.Forall₂ (fun l l' : Nat × Str => l.1 = l'.1 ∧ R l.2 l'.2)
      ((numberFrom n ls).filter fun l => !isComment U l.2) ((numberFrom n ls').filter fun l => !isComment U l.2) := by
  induction h generalizing n with
  | nil => exact .nil
  | @cons l l' ls ls' h1 _ ih =>
    rw [numberFrom_cons, numberFrom_cons, List.filter_cons, List.filter_cons, hR l l' h1]
    dsimp only
    split
    · exact .cons ⟨rfl, h1⟩ (ih _)
    · exact ih _

theorem forall₂_fst {R : Nat × Str → Nat × Str → Prop} {ls ls' : List (Nat × Str)} (h : List.Forall₂ (fun l l' : Nat × Str => l.1 = l'.1 ∧ R l l') ls ls') :
    ls.map (·.1) = ls'.map (·.1) := by
  induction h with
  | nil => rfl
  | cons h1 _ ih => rw [List.map_cons, List.map_cons, h1.1, ih]

theorem sameOutcome_eq {al al' dl dl' : List (Nat × Str)} {r r' : Except Halt Dict}
    (h : SameOutcome al al' dl dl' r r') (ha : al.map (·.1) = al'.map (·.1)) (hd : dl.map (·.1) = dl'.map (·.1)) :
    r = r' := by
  cases h with
  | ok D => rfl
  | panic => rfl
  | aff i kind => rw [← List.getElem?_map, ← List.getElem?_map, ha]
  | dic i kind => rw [← List.getElem?_map, ← List.getElem?_map, hd]

theorem sameWords_refl (l : Nat × Str) : SameWords U l l := ⟨_, splitWhitespace_words U l.2, splitWhitespace_words U l.2⟩

theorem sameEntry_refl (l : Nat × Str) : SameEntry U l l := ⟨_, trim_spec U l.2, trim_spec U l.2⟩

open Classical in
/-- The entries among lines. -/
noncomputable def entries (U : Unicode) (rest : List (Nat × Str)) : List (Nat × Str) :=
  rest.filter fun l => decide (¬ SkippedLine (trim U l.2))

open Classical in
theorem entries_entryLines (rest : List (Nat × Str)) : EntryLines U rest (entries U rest) := by
  refine ⟨List.filter_sublist, fun l hl => ?_⟩
  unfold entries
  rw [List.mem_filter]
  constructor
  · rintro ⟨-, h⟩
    exact ⟨_, trim_spec U l.2, of_decide_eq_true h⟩
  · rintro ⟨t, h1, h2⟩
    exact ⟨hl, decide_eq_true (by rwa [trim_eq h1])⟩

theorem sameAff_refl (aff : Str) : SameAff U aff aff (contentLines U aff) (contentLines U aff) :=
  ⟨content_iff.2 rfl, content_iff.2 rfl, List.forall₂_same.2 fun l _ => sameWords_refl l⟩

theorem sameDic_of_content {dic dic' : Str} {first first' : Nat × Str} {rest rest' : List (Nat × Str)}
    (h : contentLines U dic = first :: rest) (h' : contentLines U dic' = first' :: rest') (hf : SameWords U first first')
    (hr : List.Forall₂ (SameEntry U) (entries U rest) (entries U rest')) :
    SameDic U dic dic' (first :: entries U rest) (first' :: entries U rest') :=
  .lines (content_iff.2 h.symm) (content_iff.2 h'.symm) hf (entries_entryLines _) (entries_entryLines _) hr

theorem sameDic_refl (dic : Str) : ∃ dl, SameDic U dic dic dl dl := by
  cases h : contentLines U dic with
  | nil => exact ⟨[], .empty (content_iff.2 h.symm) (content_iff.2 h.symm)⟩
  | cons first rest =>
    exact ⟨_, sameDic_of_content h h (sameWords_refl _) (List.forall₂_same.2 fun l _ => sameEntry_refl l)⟩

theorem parse_affLines {S : Sorts} {aff aff' dic : Str} {ls ls' : List Str} (h : PlainLines aff ls) (h' : PlainLines aff' ls')
    (hs : List.Forall₂ (Same U) ls ls') : parse U S aff dic = parse U S aff' dic := by
  have hf := content_forall₂ (U := U) (fun l l' => isComment_words) hs 0
  obtain ⟨dl, hd⟩ := sameDic_refl (U := U) dic
  refine sameOutcome_eq (parse_same (al := contentLines U aff) (al' := contentLines U aff')
    ⟨content_iff.2 rfl, content_iff.2 rfl, ?_⟩ hd) ?_ rfl
  · rw [contentLines_plain h, contentLines_plain h']
    exact hf.imp fun l l' hh => sameWords_iff.2 hh.2
  · rw [contentLines_plain h, contentLines_plain h']
    exact forall₂_fst (R := fun l l' => Same U l.2 l'.2) hf

theorem entries_forall₂ {ls ls' : List (Nat × Str)}
    (h : List.Forall₂ (fun l l' : Nat × Str => l.1 = l'.1 ∧ SameEntry U l l') ls ls') :
    List.Forall₂ (fun l l' : Nat × Str => l.1 = l'.1 ∧ SameEntry U l l') (entries U ls) (entries U ls') := by
  unfold entries
  induction h with
  | nil => exact .nil
  | @cons l l' ls ls' h1 _ ih =>
    rw [List.filter_cons, List.filter_cons, ← sameEntry_trim h1.2]
    split
    · exact .cons h1 ih
    · exact ih

theorem parse_dicLines {S : Sorts} {aff dic dic' : Str} {ls ls' : List Str} (h : PlainLines dic ls) (h' : PlainLines dic' ls')
    (hs : List.Forall₂ (fun l l' => ∃ t, Trimmed U l t ∧ Trimmed U l' t) ls ls') :
    parse U S aff dic = parse U S aff dic' := by
  have hsw : ∀ l l' : Str, (∃ t, Trimmed U l t ∧ Trimmed U l' t) → splitWhitespace U l = splitWhitespace U l' := by
    rintro l l' ⟨t, h1, h2⟩
    rw [splitWhitespace_trimmed h1, splitWhitespace_trimmed h2]
  have hf := content_forall₂ (U := U) (fun l l' h => isComment_words (hsw l l' h)) hs 0
  rw [← contentLines_plain h, ← contentLines_plain h'] at hf
  generalize e : contentLines U dic = a at hf
  generalize e' : contentLines U dic' = b at hf
  cases hf with
  | nil => exact sameOutcome_eq (parse_same (sameAff_refl aff) (.empty (content_iff.2 e.symm) (content_iff.2 e'.symm))) rfl rfl
  | @cons first first' rest rest' h1 h2 =>
    have h3 := entries_forall₂ (U := U) (ls := rest) (ls' := rest') h2
    refine sameOutcome_eq (parse_same (sameAff_refl aff) (sameDic_of_content e e' (sameWords_iff.2 (hsw _ _ h1.2)) (h3.imp fun l l' h => h.2))) rfl ?_
    rw [List.map_cons, List.map_cons, h1.1, forall₂_fst (R := SameEntry U) h3]

/-! ## Inserted lines -/

/-- The same line, which may have moved down. -/
abbrev Moved (k : Nat) (l l' : Nat × Str) : Prop := l'.1 = lineBelow k l.1 ∧ l'.2 = l.2

theorem moved_above (f : Str → Bool) (k n : Nat) (p : List Str) (h : n + p.length ≤ k) :
    List.Forall₂ (Moved k) ((numberFrom n p).filter fun l => f l.2) ((numberFrom n p).filter fun l => f l.2) := by
  induction p generalizing n with
  | nil => exact .nil
  | cons l p ih =>
    rw [List.length_cons] at h
    rw [numberFrom_cons, List.filter_cons]
    have := ih (n + 1) (by omega)
    split
    · exact .cons ⟨by simp [lineBelow]; omega, rfl⟩ this
    · exact this

theorem moved_below (f : Str → Bool) (k n : Nat) (q : List Str) (h : k ≤ n) :
    List.Forall₂ (Moved k) ((numberFrom n q).filter fun l => f l.2)
      ((numberFrom (n + 1) q).filter fun l => f l.2) := by
  induction q generalizing n with
  | nil => exact .nil
  | cons l q ih =>
    rw [numberFrom_cons, numberFrom_cons, List.filter_cons, List.filter_cons]
    have := ih (n + 1) (by omega)
    dsimp only
    split
    · exact .cons ⟨by simp [lineBelow]; omega, rfl⟩ this
    · exact this

theorem moved_content (f : Str → Bool) (p q : List Str) {c : Str} (hc : f c = false) :
    List.Forall₂ (Moved p.length) ((numberFrom 0 (p ++ q)).filter fun l => f l.2)
      ((numberFrom 0 (p ++ c :: q)).filter fun l => f l.2) := by
  rw [numberFrom_append, numberFrom_append, List.filter_append, List.filter_append, numberFrom_cons,
    List.filter_cons_of_neg (by simp [hc])]
  exact List.rel_append (moved_above f _ 0 p (by omega)) (moved_below f _ _ q (by omega))

theorem moved_fst {k : Nat} {ls ls' : List (Nat × Str)} (h : List.Forall₂ (Moved k) ls ls') (i : Nat) :
    ls'[i]?.map (·.1) = (ls[i]?.map (·.1)).map (lineBelow k) := by
  induction h generalizing i with
  | nil => rfl
  | cons h1 _ ih =>
    cases i with
    | zero => simp [h1.1]
    | succ i => simpa using ih i

theorem moved_entries {k : Nat} {ls ls' : List (Nat × Str)} (h : List.Forall₂ (Moved k) ls ls') :
    List.Forall₂ (Moved k) (entries U ls) (entries U ls') := by
  unfold entries
  induction h with
  | nil => exact .nil
  | @cons l l' ls ls' h1 _ ih =>
    rw [List.filter_cons, List.filter_cons, h1.2]
    split
    · exact .cons h1 ih
    · exact ih

theorem moved_words {k : Nat} {l l' : Nat × Str} (h : Moved k l l') : SameWords U l l' := by
  rw [sameWords_iff, h.2]

theorem moved_entry {k : Nat} {l l' : Nat × Str} (h : Moved k l l') : SameEntry U l l' :=
  ⟨_, trim_spec U l.2, by rw [h.2]; exact trim_spec U l.2⟩

theorem sameOutcome_moved_aff {al al' dl : List (Nat × Str)} {r r' : Except Halt Dict} {k : Nat}
    (h : SameOutcome al al' dl dl r r') (hm : List.Forall₂ (Moved k) al al') : r' = movedDown .aff k r := by
  cases h with
  | ok D => rfl
  | panic => rfl
  | aff i kind => simp only [movedDown, ↓reduceIte, moved_fst hm i]
  | dic i kind => rfl

theorem sameOutcome_moved_dic {al dl dl' : List (Nat × Str)} {r r' : Except Halt Dict} {k : Nat}
    (h : SameOutcome al al dl dl' r r') (hm : List.Forall₂ (Moved k) dl dl') : r' = movedDown .dic k r := by
  cases h with
  | ok D => rfl
  | panic => rfl
  | aff i kind => rfl
  | dic i kind => simp only [movedDown, ↓reduceIte, moved_fst hm i]

theorem parse_affComment {S : Sorts} {aff aff' dic c : Str} {p q : List Str} (hc : Comment U c)
    (h : PlainLines aff (p ++ q)) (h' : PlainLines aff' (p ++ c :: q)) :
    parse U S aff' dic = movedDown .aff p.length (parse U S aff dic) := by
  have hm := moved_content (fun l => !isComment U l) p q (c := c) (by simp [isComment_iff.2 hc])
  rw [← contentLines_plain h, ← contentLines_plain h'] at hm
  obtain ⟨dl, hd⟩ := sameDic_refl (U := U) dic
  exact sameOutcome_moved_aff (parse_same ⟨content_iff.2 rfl, content_iff.2 rfl, hm.imp fun _ _ => moved_words⟩ hd) hm

theorem parse_dicMoved {S : Sorts} {aff dic dic' : Str} {k : Nat} {first first' : Nat × Str} {rest rest' : List (Nat × Str)}
    (e : contentLines U dic = first :: rest) (e' : contentLines U dic' = first' :: rest') (h : Moved k first first')
    (hr : List.Forall₂ (Moved k) (entries U rest) (entries U rest')) :
    parse U S aff dic' = movedDown .dic k (parse U S aff dic) :=
  sameOutcome_moved_dic (parse_same (sameAff_refl aff) (sameDic_of_content e e' (moved_words h)
    (hr.imp fun _ _ => moved_entry))) (.cons h hr)

theorem parse_dicComment {S : Sorts} {aff dic dic' c : Str} {p q : List Str} (hc : Comment U c)
    (h : PlainLines dic (p ++ q)) (h' : PlainLines dic' (p ++ c :: q)) :
    parse U S aff dic' = movedDown .dic p.length (parse U S aff dic) := by
  have hm := moved_content (fun l => !isComment U l) p q (c := c) (by simp [isComment_iff.2 hc])
  rw [← contentLines_plain h, ← contentLines_plain h'] at hm
  generalize e : contentLines U dic = a at hm
  generalize e' : contentLines U dic' = b at hm
  cases hm with
  | nil => exact sameOutcome_moved_dic (parse_same (sameAff_refl aff) (.empty (content_iff.2 e.symm) (content_iff.2 e'.symm))) .nil
  | cons h1 h2 => exact parse_dicMoved e e' h1 (moved_entries h2)

theorem parse_dicSkipped {S : Sorts} {aff dic dic' c t l : Str} {p q : List Str} (hc : Trimmed U c t) (hs : SkippedLine t)
    (hl : l ∈ p) (hl' : ¬ Comment U l) (h : PlainLines dic (p ++ q)) (h' : PlainLines dic' (p ++ c :: q)) :
    parse U S aff dic' = movedDown .dic p.length (parse U S aff dic) := by
  by_cases hcc : Comment U c
  · exact parse_dicComment hcc h h'
  have e := contentLines_plain (U := U) h
  have e' := contentLines_plain (U := U) h'
  have h1 := moved_above (fun l => !isComment U l) p.length 0 p (by omega)
  have h2 := moved_below (fun l => !isComment U l) p.length p.length q (by omega)
  have hne : ((numberFrom 0 p).filter fun l => !isComment U l.2) ≠ [] := by
    intro he
    rw [List.filter_eq_nil_iff] at he
    have : l ∈ (numberFrom 0 p).map (·.2) := by rw [numberFrom_snd]; exact hl
    obtain ⟨x, hx, rfl⟩ := List.mem_map.1 this
    have := he x hx
    rw [← isComment_iff] at hl'
    simp [hl'] at this
  rw [numberFrom_append, List.filter_append, Nat.zero_add] at e
  rw [numberFrom_append, List.filter_append, numberFrom_cons, Nat.zero_add,
    List.filter_cons_of_pos (by rw [← isComment_iff] at hcc; simp [hcc])] at e'
  generalize ((numberFrom 0 p).filter fun l => !isComment U l.2) = P at *
  cases P with
  | nil => exact absurd rfl hne
  | cons first rest =>
    cases h1 with
    | cons h3 h4 =>
      refine parse_dicMoved e e' h3 ?_
      have ea : ∀ a b : List (Nat × Str), entries U (a ++ b) = entries U a ++ entries U b := by
        intro a b
        unfold entries
        rw [List.filter_append]
      have ec : ∀ (n : Nat) (b : List (Nat × Str)), entries U ((n, c) :: b) = entries U b := by
        intro n b
        unfold entries
        rw [List.filter_cons_of_neg]
        simp only [trim_eq hc, hs, not_true_eq_false, decide_false, Bool.false_eq_true, not_false_eq_true]
      show List.Forall₂ _ (entries U (rest ++ _)) (entries U (rest ++ _))
      rw [ea, ea, ec]
      exact List.rel_append (moved_entries h4) (moved_entries h2)

/-- The outcome depends on the lines that are no comments only. -/
theorem parse_content {S : Sorts} {aff aff' dic dic' : Str} (ha : contentLines U aff = contentLines U aff')
    (hd : contentLines U dic = contentLines U dic') : parse U S aff dic = parse U S aff' dic' := by
  have hr := sameAff_refl (U := U) aff'
  have hsa : SameAff U aff aff' _ _ := ⟨content_iff.2 ha.symm, hr.content, hr.same⟩
  cases e : contentLines U dic' with
  | nil =>
    exact sameOutcome_eq (parse_same hsa (.empty (content_iff.2 (hd.trans e).symm) (content_iff.2 e.symm))) rfl rfl
  | cons first rest =>
    exact sameOutcome_eq (parse_same hsa (sameDic_of_content (hd.trans e) e (sameWords_refl _)
      (List.forall₂_same.2 fun l _ => sameEntry_refl l))) rfl rfl

theorem parse_bom {S : Sorts} {aff dic : Str} (h : aff.head? ≠ some (Char.ofNat 0xFEFF)) :
    parse U S (Char.ofNat 0xFEFF :: aff) dic = parse U S aff dic := parse_content (contentLines_bom h) rfl

theorem parse_bom_dic {S : Sorts} {aff dic : Str} (h : dic.head? ≠ some (Char.ofNat 0xFEFF)) :
    parse U S aff (Char.ofNat 0xFEFF :: dic) = parse U S aff dic := parse_content rfl (contentLines_bom h)

end Spellbook
