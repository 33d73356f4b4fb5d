import Verif.Proof.AffReads
import Verif.Proof.AffLocal
import Verif.Proof.Tables
import Verif.Proof.AffixIndex
import Verif.Proof.Conversion
/-!
# The whole parser: lemmas
-/

namespace Spellbook
open Spec

/-! ## Content lines -/

theorem numbered_nodup (text : Str) : (numbered text).Nodup := by
  unfold numbered
  simp only
  refine List.Nodup.of_map Prod.fst ?_
  rw [List.map_map]
  have : ((Prod.fst : Nat × Str → Nat) ∘ fun p : Str × Nat => (p.2 + 1, p.1)) = Nat.succ ∘ Prod.snd := by
    funext p; rfl
  rw [this, ← List.map_map, List.zipIdx_map_snd]
  exact (List.nodup_range' ..).map Nat.succ_injective

theorem sublist_filter {α : Type} {p : α → Bool} {l m : List α} (h : l.Sublist m) (hn : m.Nodup)
    (hp : ∀ a ∈ m, a ∈ l ↔ p a = true) : l = m.filter p := by
  induction h with
  | slnil => rfl
  | cons a h ih =>
    rename_i l m
    have ha : p a = false := by
      rw [Bool.eq_false_iff]
      intro hpa
      exact (List.nodup_cons.1 hn).1 (h.subset ((hp a (by simp)).2 hpa))
    rw [List.filter_cons_of_neg (by simp [ha])]
    exact ih (List.nodup_cons.1 hn).2 fun b hb => hp b (by simp [hb])
  | cons_cons a h ih =>
    rename_i l m
    rw [List.filter_cons_of_pos ((hp a (by simp)).1 (by simp))]
    congr 1
    refine ih (List.nodup_cons.1 hn).2 fun b hb => ?_
    rw [← hp b (by simp [hb])]
    simp only [List.mem_cons]
    have : b ≠ a := by rintro rfl; exact (List.nodup_cons.1 hn).1 hb
    simp [this]

theorem content_iff {U : Unicode} {text : Str} {lines : List (Nat × Str)} :
    Content U text lines ↔ lines = contentLines U text := by
  have hc : ∀ l : Nat × Str, (!isComment U l.2) = true ↔ ¬ Comment U l.2 := by
    intro l
    rw [← isComment_iff]; simp
  constructor
  · rintro ⟨h1, h2⟩
    exact sublist_filter h1 (numbered_nodup text) fun l hl => (h2 l hl).trans (hc l).symm
  · rintro rfl
    refine ⟨List.filter_sublist, fun l hl => ?_⟩
    unfold contentLines
    rw [List.mem_filter, hc]
    exact ⟨fun h => h.2, fun h => ⟨hl, h⟩⟩

theorem settings_iff {U : Unicode} {aff : Str} {cx : Cx} : parseAff U aff = .ok cx ↔ Settings U aff cx := by
  rw [parseAff_iff]
  constructor
  · intro h
    exact ⟨_, content_iff.2 rfl, h⟩
  · rintro ⟨l, h1, h2⟩
    rw [content_iff.1 h1] at h2
    exact h2

/-! ## Assembling -/

theorem firstTables_isSome {k : Kind} (idx : AffixIndex k) : ∃ x, firstTables k idx.table = some x := by
  have h := AffixIndex.affixesOf?_eq idx []
  unfold AffixIndex.affixesOf? at h
  cases hf : firstTables k idx.table with
  | none => rw [hf] at h; simp at h
  | some x => exact ⟨x, rfl⟩

theorem index?_eq (S : Sorts) (k : Kind) (l : List Affix) :
    S.index? k l = some ⟨S.affixes k l, S.affixes_sorted k l⟩ := by
  unfold Sorts.index?
  obtain ⟨x, hx⟩ := firstTables_isSome ⟨S.affixes k l, S.affixes_sorted k l⟩
  simp only at hx
  rw [hx]; rfl

theorem erase_eq (ignore : List Char) (l : List Affix) :
    (if ignore.isEmpty then l else l.map fun a => a.eraseIgnored ignore)
      = l.map fun a => { a with add := a.add.filter fun c => !ignore.contains c } := by
  cases ignore with
  | nil =>
    simp only [List.isEmpty_nil, if_true]
    conv_lhs => rw [← List.map_id l]
    refine List.map_congr_left fun a _ => ?_
    have : a.add.filter (fun c => !([] : List Char).contains c) = a.add := List.filter_eq_self.2 (by simp)
    rw [this]; rfl
  | cons c cs => rfl

theorem assemble_ok (S : Sorts) {cx : Cx} (hc : CxOk cx) :
    ∃ A, MadeFrom cx A ∧ ∀ words, assemble S cx words = some ⟨words, A⟩ := by
  obtain ⟨B, hB⟩ : ∃ B, BreakTable.new cx.breakPatterns = some B := by
    unfold BreakTable.new
    rw [BreakTable.newLoop_eq _ _ _ _ hc.breaks]
    exact ⟨_, rfl⟩
  obtain ⟨R, hR⟩ : ∃ R, ReplacementTable.from' cx.replacements = some R := by
    unfold ReplacementTable.from'
    rw [ReplacementTable.fromLoop_eq _ _ hc.reps]
    exact ⟨_, rfl⟩
  have he : ∃ A, ∀ words, assemble S cx words = some ⟨words, A⟩ := by
    unfold assemble
    simp only [index?_eq, hB, hR]
    exact ⟨_, fun _ => rfl⟩
  obtain ⟨A, hA⟩ := he
  refine ⟨A, ?_, hA⟩
  have h0 := hA Bag.empty
  unfold assemble at h0
  simp only [index?_eq, hB, hR, erase_eq] at h0
  have h1 := congrArg (Option.map Dict.aff) h0
  simp only [Option.map_some, Option.some.injEq] at h1
  replace h1 := Option.some.inj h1
  rw [← h1]
  exact ⟨S.affixes_perm _ _, S.affixes_perm _ _, hB, hR, rfl, S.conversions_perm _, S.conversions_perm _,
      rfl, rfl, rfl, rfl, rfl, rfl, rfl, rfl, rfl⟩

/-! ## The word list -/

variable {U : Unicode} {cx : Cx}

/-- The lines are processed one after the other; the first bad one ends it. -/
theorem fold_cases (rest : List (Nat × Str)) (words : Bag FlagSet) (hpos : ∀ l ∈ rest, 0 < l.1) :
    (∃ ess, List.Forall₂ (fun l es => EntriesOf U cx l.2 es) rest ess ∧
      (∀ l ∈ rest, ¬ TwinTooLong U cx l.2) ∧
      rest.foldlM (stepAt U cx) words = .ok ⟨words.slots ++ ess.flatten⟩) ∨
    (∃ before l after ess, rest = before ++ l :: after ∧
      List.Forall₂ (fun l es => EntriesOf U cx l.2 es) before ess ∧
      (∀ l ∈ before, ¬ TwinTooLong U cx l.2) ∧
      ((∃ kind, BadLine U cx l.2 kind ∧
        rest.foldlM (stepAt U cx) words = .error (dicError kind (some l.1))) ∨
       (TwinTooLong U cx l.2 ∧ rest.foldlM (stepAt U cx) words = .error .panic))) := by
  induction rest generalizing words with
  | nil => exact .inl ⟨[], .nil, by simp, by simp; rfl⟩
  | cons l rest ih =>
    have hl : l.1 - 1 + 1 = l.1 := by have := hpos l (by simp); omega
    rcases stepAt_cases U cx words l with ⟨es, h1, hnt, h2⟩ | ⟨kind, h1, h2⟩ | ⟨h1, h2⟩
    · rcases ih ⟨words.slots ++ es⟩ (fun l hl => hpos l (by simp [hl])) with
        ⟨ess, h3, h4, h5⟩ | ⟨before, l', after, ess, rfl, h3, h4, h5⟩
      · refine .inl ⟨es :: ess, .cons h1 h3, ?_, ?_⟩
        · intro l' hl'
          rcases List.mem_cons.1 hl' with rfl | hl'
          · exact hnt
          · exact h4 l' hl'
        · rw [List.foldlM_cons, h2]
          change List.foldlM _ _ _ = _
          rw [h5]
          simp [List.append_assoc]
      · refine .inr ⟨l :: before, l', after, es :: ess, rfl, .cons h1 h3, ?_, ?_⟩
        · intro l' hl'
          rcases List.mem_cons.1 hl' with rfl | hl'
          · exact hnt
          · exact h4 l' hl'
        · rw [List.foldlM_cons, h2]
          exact h5
    · refine .inr ⟨[], l, rest, [], rfl, .nil, by simp, .inl ⟨kind, h1, ?_⟩⟩
      rw [List.foldlM_cons, h2, hl]; rfl
    · refine .inr ⟨[], l, rest, [], rfl, .nil, by simp, .inr ⟨h1, ?_⟩⟩
      rw [List.foldlM_cons, h2]; rfl

theorem numbered_pos {text : Str} {l : Nat × Str} (h : l ∈ numbered text) : 0 < l.1 := by
  unfold numbered at h
  simp only at h
  obtain ⟨p, -, rfl⟩ := List.mem_map.1 h
  exact Nat.succ_pos _

theorem mem_contentLines {text : Str} {l : Nat × Str} (h : l ∈ contentLines U text) : l ∈ numbered text :=
  (List.mem_filter.1 h).1

theorem usize_ok {w : Str} {n : Nat} : parseUInt usizeMax w = .ok n ↔ IsNumeral w n ∧ n < 2 ^ 64 := by
  rw [parseUInt_ok]
  unfold usizeMax
  constructor <;> rintro ⟨h1, h2⟩ <;> exact ⟨h1, by omega⟩

theorem usize_error {w : Str} {e : IntError} : parseUInt usizeMax w = .error e ↔ NumberFault (2 ^ 64 - 1) w e :=
  parseUInt_error

/-- The outcomes of reading the word list. -/
theorem parseDic_cases (cx : Cx) (dic : Str) :
    (∃ first rest ess, Content U dic (first :: rest) ∧ Announces U first.2 ∧
      List.Forall₂ (fun l es => EntriesOf U cx l.2 es) rest ess ∧
      (∀ l ∈ rest, ¬ TwinTooLong U cx l.2) ∧ parseDic U cx dic = .ok ⟨ess.flatten⟩) ∨
    (∃ kind n, BadStart U dic kind n ∧ parseDic U cx dic = .error (dicError kind n)) ∨
    (∃ l kind, FineUpTo U cx dic l ∧ BadLine U cx l.2 kind ∧
      parseDic U cx dic = .error (dicError kind (some l.1))) ∨
    (∃ l, FineUpTo U cx dic l ∧ TwinTooLong U cx l.2 ∧ parseDic U cx dic = .error .panic) := by
  rw [parseDic_eq]
  cases hc : contentLines U dic with
  | nil => exact .inr (.inl ⟨_, _, .inl ⟨content_iff.2 hc.symm, rfl, rfl⟩, rfl⟩)
  | cons l rest =>
    have hcon : Content U dic (l :: rest) := content_iff.2 hc.symm
    simp only
    cases hw : splitWhitespace U l.2 with
    | nil => exact .inr (.inl ⟨_, _, .inr ⟨l, rest, hcon, rfl, .inl ⟨hw, rfl⟩⟩, rfl⟩)
    | cons w ws =>
      simp only
      cases hp : parseUInt usizeMax w with
      | error e => exact .inr (.inl ⟨_, _, .inr ⟨l, rest, hcon, rfl, .inr ⟨w, ws, e, hw, usize_error.1 hp, rfl⟩⟩, rfl⟩)
      | ok n =>
        have hann : Announces U l.2 := ⟨w, ws, n, hw, usize_ok.1 hp⟩
        simp only
        rcases fold_cases (U := U) (cx := cx) rest Bag.empty
          (fun l' hl' => numbered_pos (mem_contentLines (hc ▸ List.mem_cons_of_mem _ hl'))) with
          ⟨ess, h1, h2, h3⟩ | ⟨before, l', after, ess, rfl, h1, h2, ⟨kind, h3, h4⟩ | ⟨h3, h4⟩⟩
        · exact .inl ⟨l, rest, ess, hcon, hann, h1, h2, h3⟩
        · exact .inr (.inr (.inl ⟨l', kind, ⟨l, before, after, ess, hcon, hann, h1, h2⟩, h3, h4⟩))
        · exact .inr (.inr (.inr ⟨l', ⟨l, before, after, ess, hcon, hann, h1, h2⟩, h3, h4⟩))

theorem parse_aff_error {S : Sorts} {aff dic : Str} {h : Halt} (ha : parseAff U aff = .error h) :
    parse U S aff dic = .error h := by
  unfold parse; rw [ha]; rfl

theorem parse_dic_error {S : Sorts} {aff dic : Str} {h : Halt} (ha : parseAff U aff = .ok cx)
    (hd : parseDic U cx dic = .error h) : parse U S aff dic = .error h := by
  unfold parse; rw [ha]; show (parseDic U cx dic >>= _) = _; rw [hd]; rfl

theorem parse_ok {S : Sorts} {aff dic : Str} {words : Bag FlagSet} {A : AffData}
    (ha : parseAff U aff = .ok cx) (hd : parseDic U cx dic = .ok words)
    (hA : assemble S cx words = some ⟨words, A⟩) : parse U S aff dic = .ok ⟨words, A⟩ := by
  unfold parse; rw [ha]; show (parseDic U cx dic >>= _) = _; rw [hd]
  show (match assemble S cx words with | some d => (pure d : Except Halt Dict) | none => throw Halt.panic) = _
  rw [hA]; rfl

/-- The outcomes of `Dictionary::new`. -/
theorem parse_cases (S : Sorts) (aff dic : Str) :
    (∃ cx D, parse U S aff dic = .ok D ∧ Denotes U aff dic D ∧ Settings U aff cx ∧ CxOk cx ∧
      MadeFrom cx D.aff ∧ ∃ A, (∀ w, assemble S cx w = some ⟨w, A⟩) ∧ D.aff = A) ∨
    (∃ e, parse U S aff dic = .error (.error e) ∧ e.source = .aff ∧ parseAff U aff = .error (.error e) ∧
      (e.lineNumber = none ∨ ∃ l ∈ numbered aff, e.lineNumber = some l.1)) ∨
    (∃ cx e, parse U S aff dic = .error (.error e) ∧ e.source = .dic ∧ Settings U aff cx ∧
      (BadStart U dic e.kind e.lineNumber ∨
        ∃ l, FineUpTo U cx dic l ∧ BadLine U cx l.2 e.kind ∧ e.lineNumber = some l.1)) ∨
    (∃ cx l, parse U S aff dic = .error .panic ∧ Settings U aff cx ∧ FineUpTo U cx dic l ∧
      TwinTooLong U cx l.2) := by
  have ha := parseAff_ok U aff
  cases hp : parseAff U aff with
  | error h =>
    rw [hp] at ha
    obtain ⟨e, rfl, h1, h2⟩ := ha
    exact .inr (.inl ⟨e, parse_aff_error hp, h1, rfl, h2⟩)
  | ok cx =>
    rw [hp] at ha
    have hs := settings_iff.1 hp
    obtain ⟨A, hA1, hA2⟩ := assemble_ok S ha
    rcases parseDic_cases (U := U) cx dic with ⟨first, rest, ess, h1, h2, h3, h4, h5⟩ | ⟨kind, n, h1, h2⟩ |
      ⟨l, kind, h1, h2, h3⟩ | ⟨l, h1, h2, h3⟩
    · exact .inl ⟨cx, _, parse_ok hp h5 (hA2 _), ⟨cx, first, rest, ess, hs, hA1, h1, h2, h3, rfl⟩, hs, ha, hA1,
        A, hA2, rfl⟩
    · exact .inr (.inr (.inl ⟨cx, _, parse_dic_error hp h2, rfl, hs, .inl h1⟩))
    · exact .inr (.inr (.inl ⟨cx, _, parse_dic_error hp h3, rfl, hs, .inr ⟨l, h1, h2, rfl⟩⟩))
    · exact .inr (.inr (.inr ⟨cx, l, parse_dic_error hp h3, hs, h1, h2⟩))

theorem badLine_not_entries {line : Str} {kind : ErrorKind} {es : List (Str × FlagSet)}
    (h : BadLine U cx line kind) : ¬ EntriesOf U cx line es := by
  obtain ⟨t, h1, h2, h3⟩ := h
  have key : ∀ stem F, parseDicLine U t cx.flagType cx.flagAliases cx.ignoreChars ≠ .ok (stem, F) := by
    intro stem F hp
    rcases h3 with ⟨h3, -⟩ | ⟨-, e, h3, -⟩
    · unfold parseDicLine at hp
      rw [if_pos (show byteLen t > u16Max from h3)] at hp
      cases hp
    · rw [parseDicLine_error.2 h3] at hp; cases hp
  intro he
  cases he with
  | skipped a b => rw [← trim_eq a, trim_eq h1] at b; exact h2 b
  | plain a b c d => rw [← trim_eq a, trim_eq h1] at c; exact key _ _ (parseDicLine_ok.2 c)
  | twin a b c d e f => rw [← trim_eq a, trim_eq h1] at c; exact key _ _ (parseDicLine_ok.2 c)

theorem badLine_not_twin {line : Str} {kind : ErrorKind} (h : BadLine U cx line kind) :
    ¬ TwinTooLong U cx line := by
  intro ht
  obtain ⟨t, stem, F, title, h1, h2, h3, h4, h5, h6⟩ := ht
  exact badLine_not_entries h
    (.twin (G := F.withFlag hiddenHomonymFlag) h1 h2 h3 h4 h5 fun f => contains_hidden)

theorem badLine_unique {line : Str} {kind kind' : ErrorKind} (h : BadLine U cx line kind)
    (h' : BadLine U cx line kind') : kind = kind' := by
  obtain ⟨t, h1, h2, h3⟩ := h
  obtain ⟨t', h1', h2', h3'⟩ := h'
  obtain rfl : t = t' := (trim_eq h1).symm.trans (trim_eq h1')
  rcases h3 with ⟨h3, rfl⟩ | ⟨h3, e, h4, rfl⟩ <;> rcases h3' with ⟨h3', rfl⟩ | ⟨h3', e', h4', rfl⟩
  · rfl
  · omega
  · omega
  · have e1 := (parseDicLine_error (ig := cx.ignoreChars)).2 h4
    rw [parseDicLine_error.2 h4', Except.error.injEq] at e1; rw [e1]

theorem stepAt_entries {words : Bag FlagSet} {l : Nat × Str} {es : List (Str × FlagSet)}
    (h : EntriesOf U cx l.2 es) (ht : ¬ TwinTooLong U cx l.2) :
    stepAt U cx words l = .ok ⟨words.slots ++ es⟩ := by
  rcases stepAt_cases U cx words l with ⟨es', h1, hnt, h2⟩ | ⟨kind, h1, h2⟩ | ⟨h1, h2⟩
  · rw [entriesOf_unique h h1]; exact h2
  · exact absurd h (badLine_not_entries h1)
  · exact absurd h1 ht

theorem stepAt_bad {words : Bag FlagSet} {l : Nat × Str} {kind : ErrorKind}
    (h : BadLine U cx l.2 kind) : stepAt U cx words l = .error (dicError kind (some (l.1 - 1 + 1))) := by
  rcases stepAt_cases U cx words l with ⟨es', h1, hnt, h2⟩ | ⟨kind, h1, h2⟩ | ⟨h1, h2⟩
  · exact absurd h1 (badLine_not_entries h)
  · rw [badLine_unique h h1]; exact h2
  · exact absurd h1 (badLine_not_twin h)

theorem stepAt_twin {words : Bag FlagSet} {l : Nat × Str} (h : TwinTooLong U cx l.2) :
    stepAt U cx words l = .error .panic := by
  rcases stepAt_cases U cx words l with ⟨es', h1, hnt, h2⟩ | ⟨kind, h1, h2⟩ | ⟨h1, h2⟩
  · exact absurd h hnt
  · exact absurd h (badLine_not_twin h1)
  · exact h2

theorem fold_entries {rest : List (Nat × Str)} {ess : List (List (Str × FlagSet))} {words : Bag FlagSet}
    (h : List.Forall₂ (fun l es => EntriesOf U cx l.2 es) rest ess)
    (ht : ∀ l ∈ rest, ¬ TwinTooLong U cx l.2) :
    rest.foldlM (stepAt U cx) words = .ok ⟨words.slots ++ ess.flatten⟩ := by
  induction h generalizing words with
  | nil => simp; rfl
  | cons h1 h2 ih =>
    rw [List.foldlM_cons, stepAt_entries h1 (ht _ (by simp))]
    change List.foldlM _ _ _ = _
    rw [ih fun l hl => ht l (by simp [hl])]
    simp [List.append_assoc]

theorem parseDic_content {dic : Str} {first : Nat × Str} {rest : List (Nat × Str)}
    (h : Content U dic (first :: rest)) (ha : Announces U first.2) :
    parseDic U cx dic = rest.foldlM (stepAt U cx) Bag.empty := by
  obtain ⟨w, ws, n, h1, h2⟩ := ha
  rw [parseDic_eq, ← content_iff.1 h]
  simp only [h1, usize_ok.2 h2]

theorem foldlM_fine {before after : List (Nat × Str)} {l : Nat × Str} {ess : List (List (Str × FlagSet))}
    (h : List.Forall₂ (fun l es => EntriesOf U cx l.2 es) before ess)
    (ht : ∀ l ∈ before, ¬ TwinTooLong U cx l.2) {e : Halt}
    (hl : ∀ words, stepAt U cx words l = .error e) :
    (before ++ l :: after).foldlM (stepAt U cx) Bag.empty = .error e := by
  rw [List.foldlM_append, fold_entries h ht]
  change List.foldlM _ _ _ = _
  rw [List.foldlM_cons, hl]
  rfl

theorem parseDic_twin {dic : Str} {l : Nat × Str} (h : FineUpTo U cx dic l) (ht : TwinTooLong U cx l.2) :
    parseDic U cx dic = .error .panic := by
  obtain ⟨first, before, after, ess, h1, h2, h3, h4⟩ := h
  rw [parseDic_content h1 h2]
  exact foldlM_fine h3 h4 fun _ => stepAt_twin ht

theorem parseDic_bad {dic : Str} {l : Nat × Str} {kind : ErrorKind} (h : FineUpTo U cx dic l)
    (hb : BadLine U cx l.2 kind) : parseDic U cx dic = .error (dicError kind (some l.1)) := by
  obtain ⟨first, before, after, ess, h1, h2, h3, h4⟩ := h
  have hpos : 0 < l.1 := numbered_pos (h1.1.subset (by simp))
  rw [parseDic_content h1 h2]
  refine foldlM_fine h3 h4 fun words => ?_
  rw [stepAt_bad hb, Nat.sub_add_cancel hpos]

theorem parseDic_badStart {dic : Str} {kind : ErrorKind} {n : Option Nat} (h : BadStart U dic kind n) :
    parseDic U cx dic = .error (dicError kind n) := by
  rw [parseDic_eq]
  rcases h with ⟨h1, rfl, rfl⟩ | ⟨first, rest, h1, rfl, ⟨h2, rfl⟩ | ⟨w, ws, e, h2, h3, rfl⟩⟩
  · rw [← content_iff.1 h1]
  · rw [← content_iff.1 h1]
    simp only [h2]
  · rw [← content_iff.1 h1]
    simp only [h2, usize_error.2 h3]

theorem settings_unique {aff : Str} {cx cx' : Cx} (h : Settings U aff cx) (h' : Settings U aff cx') :
    cx = cx' := by
  rw [← settings_iff] at h h'
  rw [h] at h'
  exact Except.ok.inj h'

/-! ## Lines -/

theorem linesLoop_plain {x : Str} (h : '\n' ∉ x) : ∀ cur, linesLoop cur x = if (cur ++ x).isEmpty then [] else [cur ++ x] := by
  induction x with
  | nil => intro cur; simp [linesLoop]
  | cons c x ih =>
    intro cur
    rw [linesLoop, if_neg (by rintro rfl; simp at h), ih (fun h' => h (by simp [h']))]
    simp

theorem linesLoop_split (a b : Str) : ∀ cur, linesLoop cur (a ++ '\n' :: b)
    = linesLoop cur (a ++ ['\n']) ++ linesLoop [] b := by
  induction a with
  | nil =>
    intro cur
    simp [linesLoop]
  | cons c a ih =>
    intro cur
    rw [List.cons_append, List.cons_append, linesLoop, linesLoop]
    split
    · rw [ih]; rfl
    · rw [ih]

theorem numbered_snoc {d line : Str} (h1 : '\n' ∉ line) (h2 : line ≠ []) :
    numbered (d ++ '\n' :: line) = numbered (d ++ ['\n']) ++ [((numbered (d ++ ['\n'])).length + 1, line)] := by
  have key : ∀ e : Str, textLines (e ++ '\n' :: line) = textLines (e ++ ['\n']) ++ [line] := by
    intro e
    unfold textLines
    rw [linesLoop_split, linesLoop_plain h1]
    simp [h2]
  unfold numbered
  simp only
  have hbom : ∀ r : Str, (if (d ++ '\n' :: r).head? = some (Char.ofNat 0xFEFF) then (d ++ '\n' :: r).tail
      else d ++ '\n' :: r)
      = (if d.head? = some (Char.ofNat 0xFEFF) then d.tail else d) ++ '\n' :: r := by
    intro r
    cases d with
    | nil => simp
    | cons c d =>
      by_cases hc : (c :: d).head? = some (Char.ofNat 0xFEFF)
      · have hc' : (c :: d ++ '\n' :: r).head? = some (Char.ofNat 0xFEFF) := hc
        rw [if_pos hc, if_pos hc']; rfl
      · have hc' : ¬ (c :: d ++ '\n' :: r).head? = some (Char.ofNat 0xFEFF) := hc
        rw [if_neg hc, if_neg hc']
  rw [hbom line, hbom [], key, List.zipIdx_append]
  simp

theorem contentLines_snoc {d line : Str} (h1 : '\n' ∉ line) (h2 : line ≠ []) (h3 : ¬ Comment U line) :
    contentLines U (d ++ '\n' :: line)
      = contentLines U (d ++ ['\n']) ++ [((numbered (d ++ ['\n'])).length + 1, line)] := by
  unfold contentLines
  rw [numbered_snoc h1 h2, List.filter_append, List.filter_cons_of_pos]
  · rfl
  · rw [← isComment_iff] at h3; simp [h3]

theorem parseDic_snoc {d line : Str} {words : Bag FlagSet} (h1 : '\n' ∉ line) (h2 : line ≠ [])
    (h3 : ¬ Comment U line) (h : parseDic U cx (d ++ ['\n']) = .ok words) :
    parseDic U cx (d ++ '\n' :: line) = stepAt U cx words ((numbered (d ++ ['\n'])).length + 1, line) := by
  rw [parseDic_eq] at h ⊢
  rw [contentLines_snoc h1 h2 h3]
  cases hc : contentLines U (d ++ ['\n']) with
  | nil => rw [hc] at h; cases h
  | cons l rest =>
    rw [hc] at h
    simp only [List.cons_append] at h ⊢
    cases hw : splitWhitespace U l.2 with
    | nil => rw [hw] at h; cases h
    | cons w ws =>
      rw [hw] at h
      simp only at h ⊢
      cases hn : parseUInt usizeMax w with
      | error e => rw [hn] at h; cases h
      | ok n =>
        rw [hn] at h
        simp only at h ⊢
        rw [List.foldlM_append, h]
        change List.foldlM _ _ _ = _
        rw [List.foldlM_cons]
        cases stepAt U cx words ((numbered (d ++ ['\n'])).length + 1, line) <;> rfl

theorem parse_ok_inv {S : Sorts} {aff dic : Str} {D : Dict} (h : parse U S aff dic = .ok D) :
    ∃ cx, parseAff U aff = .ok cx ∧ CxOk cx ∧ parseDic U cx dic = .ok D.words ∧ MadeFrom cx D.aff ∧
      ∀ w, assemble S cx w = some ⟨w, D.aff⟩ := by
  have ha := parseAff_ok U aff
  cases hp : parseAff U aff with
  | error h' => rw [parse_aff_error hp] at h; cases h
  | ok cx =>
    rw [hp] at ha
    obtain ⟨A, hA1, hA2⟩ := assemble_ok S ha
    cases hd : parseDic U cx dic with
    | error h' => rw [parse_dic_error hp hd] at h; cases h
    | ok words =>
      rw [parse_ok hp hd (hA2 _), Except.ok.injEq] at h
      subst h
      exact ⟨cx, rfl, ha, hd, hA1, hA2⟩

/-! ## The length of title-case forms -/

theorem titlecase_length {h : CaseHandling} {w t : Str} (hup : ∀ c, byteLen (U.upper c) ≤ 3 * c.utf8Size)
    (hlow : ∀ c, byteLen (U.lower c) ≤ 3 * c.utf8Size) (ht : h.titlecase U w = some t) :
    byteLen t ≤ 3 * byteLen w := by
  have h1 : ∀ c, byteLen (h.upperChar U c) ≤ 3 * c.utf8Size := by
    intro c
    unfold CaseHandling.upperChar
    split
    · split
      · subst c; decide
      · split
        · subst c; decide
        · exact hup c
    · exact hup c
  have h2 : ∀ c, byteLen (h.lowerChar U c) ≤ 3 * c.utf8Size := by
    intro c
    unfold CaseHandling.lowerChar
    split
    · split
      · subst c; decide
      · split
        · subst c; decide
        · exact hlow c
    · exact hlow c
  have h3 : ∀ r : Str, byteLen (r.flatMap (h.lowerChar U)) ≤ 3 * byteLen r := by
    intro r
    induction r with
    | nil => simp
    | cons c r ih =>
      rw [List.flatMap_cons, byteLen_append, byteLen_cons]
      have := h2 c
      omega
  cases w with
  | nil => cases ht
  | cons c r =>
    cases ht
    rw [byteLen_append, byteLen_cons]
    have := h1 c
    have := h3 r
    omega

theorem trimmed_byteLen {line t : Str} (h : Trimmed U line t) : byteLen t ≤ byteLen line := by
  obtain ⟨a, b, rfl, -⟩ := h
  simp only [byteLen_append]; omega

/-- One of the ways to sort. -/
def Sorts.default : Sorts where
  affixes := sortAffixes
  conversions := ConversionTable.sortConv
  affixes_perm := sortAffixes_perm
  affixes_sorted := sortAffixes_sorted
  conversions_perm := ConversionTable.sortConv_perm
  conversions_sorted := ConversionTable.sortConv_sorted

end Spellbook
