import Verif.Spec.PartList
import Verif.Proof.Plain
import Verif.Proof.Whole
import Verif.Proof.EditBytes
import Verif.Props.Compound
/-!
# Proofs about lists of words and parts of compounds
-/

namespace Spellbook
open Spec Props

variable {U : Unicode}

/-! ## The texts -/

theorem listed_lines {lines : List Str} (hw : ∀ w ∈ lines, ∀ c ∈ w, c ∉ ['\n', '\r', '#']) :
    LinesOf (lines.flatMap (· ++ ['\n'])) lines := by
  induction lines with
  | nil => exact .nil
  | cons w ws ih =>
    have h := hw w (by simp)
    rw [List.flatMap_cons, List.append_assoc]
    refine .lf (fun hn => h _ hn (by simp)) (fun hl => ?_) (ih fun v hv => hw v (by simp [hv]))
    exact h _ (List.mem_of_getLast? hl) (by simp)

theorem listed_content {number : Str} {lines : List Str} (hn : PlainHeader U number)
    (hw : ∀ w ∈ lines, ∀ c ∈ w, c ∉ ['\n', '\r', '#']) : ∃ first rest, Content U (listText number lines) (first :: rest) ∧
      first.2 = number ∧ rest.map (·.2) = lines := by
  have h1 : numbered (listText number lines) = (number :: lines).zipIdx.map fun p => (p.2 + 1, p.1) := by
    have hl : LinesOf (listText number lines) (number :: lines) := by
      refine .lf (fun h => hn.2 _ h (by simp)) (fun hl => ?_) (listed_lines hw)
      exact hn.2 _ (List.mem_of_getLast? hl) (by simp)
    have hb : (listText number lines).head? ≠ some (Char.ofNat 0xFEFF) := by
      unfold listText
      cases number with
      | nil => simp
      | cons c s =>
        simp only [List.cons_append, List.head?_cons, ne_eq, Option.some.injEq]
        rintro rfl
        exact hn.2 (Char.ofNat 0xFEFF) (by simp) (by simp)
    unfold numbered
    simp only
    rw [if_neg hb, hl.eq]
  have hc : ∀ l ∈ number :: lines, ¬ Comment U l := by
    rintro l hl ⟨ws, rest, rfl, -, -⟩
    rcases List.mem_cons.1 hl with h | h
    · exact hn.2 '#' (h ▸ by simp) (by simp)
    · exact hw _ h '#' (by simp) (by simp)
  refine ⟨(1, number), (lines.zipIdx 1).map fun p => (p.2 + 1, p.1), ?_, rfl, ?_⟩
  · have : (1, number) :: (lines.zipIdx 1).map (fun p => (p.2 + 1, p.1)) = numbered (listText number lines) := by
      rw [h1]; rfl
    rw [this]
    refine ⟨List.Sublist.refl _, fun l hl => ⟨fun _ => ?_, fun _ => hl⟩⟩
    rw [h1] at hl
    obtain ⟨p, hp, rfl⟩ := List.mem_map.1 hl
    exact hc _ (List.fst_mem_of_mem_zipIdx hp)
  · rw [List.map_map]
    exact List.zipIdx_map_fst 1 lines

/-- The flags of a line. -/
def partFlags (x : Char) (b : Bool) : FlagSet := if b then FlagSet.ofList [x.toNat] else .empty

theorem partFlags_iff {x : Char} {b : Bool} {f : Nat} : f ∈ (partFlags x b).elems ↔ b = true ∧ f = x.toNat := by
  unfold partFlags
  cases b with
  | false => simp [FlagSet.empty, FlagSet.elems]
  | true => simp [FlagSet.mem_ofList]

open Classical in
/-- The entries of a word of the list. -/
noncomputable def partEntries (U : Unicode) (x : Char) (e : Str × Bool) : List (Str × FlagSet) :=
  if AlsoTitle U e then [(titleForm U e.1, (partFlags x e.2).withFlag hiddenHomonymFlag), (e.1, partFlags x e.2)]
  else [(e.1, partFlags x e.2)]

theorem ascii_byte {x : Char} (h : x.toNat < 128) : (utf8 [x]).map (·.toNat) = [x.toNat] := by
  have h' : x.val.toNat ≤ 127 := Nat.le_of_lt_succ h
  have : String.utf8EncodeChar x = [x.val.toUInt8] := by
    unfold String.utf8EncodeChar
    simp only [h', if_true]
    rfl
  rw [utf8_singleton, this]
  simp only [List.map_cons, List.map_nil, List.cons.injEq, and_true]
  change x.val.toNat % 256 = x.val.toNat
  omega

theorem decode_flag {x : Char} (h : LineFlag U x) :
    decodeFlagset [x] .short [] = .ok (FlagSet.ofList [x.toNat]) := by
  obtain ⟨h1, h2, -, -⟩ := h
  have : tryFlagFromU16 x.toNat = .ok x.toNat := by
    unfold tryFlagFromU16
    rw [if_neg (by omega)]
    try rw [if_neg (by omega)]
  unfold decodeFlagset parseFlags parseFlagList
  simp only [List.isEmpty_nil, or_true, if_true, List.isEmpty_cons, Bool.false_eq_true, if_false, ascii_byte h2, tryFlags,
    this]
  rfl

theorem part_dicLine {x : Char} {e : Str × Bool} (hx : LineFlag U x) (h : PlainEntry U e.1)
    (hl : (utf8 (partLine x e)).length ≤ 65535) :
    parseDicLine U (partLine x e) .short [] [] = .ok (e.1, partFlags x e.2) := by
  obtain ⟨w, b⟩ := e
  cases b with
  | false => exact plain_dicLine h
  | true =>
    change PlainEntry U w at h
    change (utf8 (w ++ ['/', x])).length ≤ 65535 at hl
    change parseDicLine U (w ++ ['/', x]) .short [] [] = .ok (w, FlagSet.ofList [x.toNat])
    have hs : ∀ i < w.length, ¬ StopsAt U (w ++ ['/', x]) i := by
      intro i hi
      have hget : (w ++ ['/', x])[i]? = some w[i] := by
        rw [List.getElem?_append_left hi, List.getElem?_eq_getElem hi]
      have hm := (h.2.2 w[i] (List.getElem_mem hi)).2
      rintro (h' | ⟨h', -⟩ | ⟨h', -⟩) <;> rw [hget, Option.some.injEq] at h' <;> rw [h'] at hm <;> simp at hm
    have hpos : 0 < w.length := List.length_pos_of_ne_nil h.1
    refine (C35_line_partial hl (n := w.length) ⟨by simp, hs, fun _ => .inr (.inl ⟨by simp, hpos, ?_⟩)⟩ ?_ _ _ _ _ _).2
      ⟨?_, ?_⟩
    · rw [List.getElem?_append_left (by omega)]
      intro hb
      exact (h.2.2 _ (List.mem_of_getElem? hb)).2 (by simp)
    · intro _ c hc
      simp at hc
      rw [← hc]
      exact hx.2.2.1
    · unfold stemText
      rw [List.take_left, unescape_plain fun hb => (h.2.2 _ hb).2 (by simp)]
      simp
    · unfold flagText
      rw [if_pos (by simp)]
      have : (w ++ ['/', x]).drop (w.length + 1) = [x] := by
        rw [List.drop_append]; simp
      rw [this]
      simp only [List.takeWhile_cons, hx.2.2.1, Bool.not_false, if_true, List.takeWhile_nil]
      exact decode_flag hx

theorem part_trimmed {x : Char} {e : Str × Bool} (hx : LineFlag U x) (h : PlainEntry U e.1) :
    Trimmed U (partLine x e) (partLine x e) := by
  obtain ⟨w, b⟩ := e
  obtain ⟨c, s, hw⟩ := List.exists_cons_of_ne_nil h.1
  change w = c :: s at hw
  refine ⟨[], [], by simp, by simp, by simp, fun d hd => ?_, fun d hd => ?_⟩
  · cases b <;> simp [partLine, hw] at hd <;> subst hd <;> exact (h.2.2 c (by rw [hw]; simp)).1
  · cases b with
    | false => exact (h.2.2 d (List.mem_of_getLast? hd)).1
    | true =>
      simp [partLine] at hd
      subst hd
      exact hx.2.2.1

theorem part_hasTwin {x : Char} {min : Option Nat} {e : Str × Bool} (hx : LineFlag U x) :
    HasTwin U (partSettings x min).options.forbiddenWordFlag e.1 (partFlags x e.2) ↔ AlsoTitle U e := by
  have hf : ¬ (partFlags x e.2).contains 65510 = true := by
    rw [FlagSet.contains_iff, partFlags_iff]
    rintro ⟨-, h⟩
    have := hx.2.1
    omega
  unfold HasTwin AlsoTitle MixedCase
  have h2 : (∃ f, (partFlags x e.2).contains f = true) ↔ e.2 = true := by
    simp only [FlagSet.contains_iff, partFlags_iff]
    exact ⟨fun ⟨f, h, _⟩ => h, fun h => ⟨_, h, rfl⟩⟩
  rw [h2]
  change _ ∧ ¬ (partFlags x e.2).contains 65510 = true ∨ _ ↔ _
  simp only [hf, Bool.false_eq_true, not_false_eq_true, and_true]

theorem part_entriesOf {x : Char} {min : Option Nat} {e : Str × Bool} (hx : LineFlag U x) (h : PlainEntry U e.1)
    (hl : (utf8 (partLine x e)).length ≤ 65535) :
    EntriesOf U (partSettings x min) (partLine x e) (partEntries U x e) := by
  have hs : ¬ SkippedLine (partLine x e) := by
    obtain ⟨c, s, hw⟩ := List.exists_cons_of_ne_nil h.1
    have hc := (h.2.2 c (by rw [hw]; simp)).2
    rintro (hn | ⟨c', rest, hr⟩)
    · unfold partLine at hn; split at hn <;> simp [hw] at hn
    · have : (partLine x e).head? = some c := by unfold partLine; split <;> simp [hw]
      rw [hr, List.head?_cons, Option.some.injEq] at this
      exact hc (by rw [← this]; simp)
  unfold partEntries
  split
  · rename_i hm
    refine .twin (part_trimmed hx h) hs (parseDicLine_ok.1 (part_dicLine hx h hl)) ((part_hasTwin hx).2 hm) ?_
      fun f => contains_hidden
    obtain ⟨c, s, hw⟩ := List.exists_cons_of_ne_nil h.1
    rw [hw]; rfl
  · rename_i hm
    exact .plain (part_trimmed hx h) hs (parseDicLine_ok.1 (part_dicLine hx h hl)) fun ht => hm ((part_hasTwin hx).1 ht)

/-- Loading a list of words and parts. -/
theorem part_parse {S : Sorts} {aff number : Str} {x : Char} {min : Option Nat} {words : List (Str × Bool)}
    (ha : Settings U aff (partSettings x min)) (hx : LineFlag U x) (hn : PlainHeader U number)
    (hw : ∀ e ∈ words, PlainEntry U e.1 ∧ (utf8 (partLine x e)).length ≤ 65535)
    (ht : ∀ e ∈ words, AlsoTitle U e → (utf8 (titleForm U e.1)).length ≤ 65535) :
    ∃ D, parse U S aff (listText number (words.map (partLine x))) = .ok D ∧ MadeFrom (partSettings x min) D.aff ∧
      D.words.slots = (words.map (partEntries U x)).flatten := by
  have hchars : ∀ l ∈ words.map (partLine x), ∀ c ∈ l, c ∉ ['\n', '\r', '#'] := by
    intro l hl c hc
    obtain ⟨e, he, rfl⟩ := List.mem_map.1 hl
    have hp := (hw e he).1
    have hcw : c ∈ e.1 ∨ c = '/' ∨ c = x := by
      unfold partLine at hc
      split at hc
      · simpa using hc
      · exact .inl hc
    rcases hcw with h | rfl | rfl
    · have := (hp.2.2 c h).2
      simp only [List.mem_cons, not_or] at this ⊢
      exact ⟨this.1, this.2.1, this.2.2.2.2.2.2.1, by simp⟩
    · decide
    · exact hx.2.2.2
  obtain ⟨first, rest, hc, rfl, hr⟩ := listed_content hn hchars
  obtain ⟨l, hc', hs⟩ := ha
  rw [content_iff.1 hc'] at hs
  have hpa : parseAff U aff = .ok (partSettings x min) := parseAff_iff.2 hs
  have hok := parseAff_ok U aff
  rw [hpa] at hok
  obtain ⟨A, hA1, hA2⟩ := assemble_ok S hok
  have hd : parseDic U (partSettings x min) (listText first.2 (words.map (partLine x))) =
      .ok ⟨(words.map (partEntries U x)).flatten⟩ := by
    rw [parseDic_content hc hn.1]
    rw [fold_entries (ess := words.map (partEntries U x))]
    · rfl
    · have : List.Forall₂ (fun l es => EntriesOf U (partSettings x min) l es) (words.map (partLine x))
          (words.map (partEntries U x)) := by
        rw [List.forall₂_map_left_iff, List.forall₂_map_right_iff, List.forall₂_same]
        exact fun e he => part_entriesOf hx (hw e he).1 (hw e he).2
      rw [← hr, List.forall₂_map_left_iff] at this
      exact this
    · rintro l hl ⟨t, stem, F, title, h1, -, h3, h4, h5, h6⟩
      have hl' : l.2 ∈ words.map (partLine x) := by rw [← hr]; exact List.mem_map.2 ⟨l, hl, rfl⟩
      obtain ⟨e, he, hel⟩ := List.mem_map.1 hl'
      rw [← hel] at h1
      have : t = partLine x e := by rw [← trim_eq h1]; exact trim_eq (part_trimmed hx (hw e he).1)
      subst this
      replace h3 := parseDicLine_ok.2 h3
      rw [show parseDicLine U (partLine x e) (partSettings x min).flagType (partSettings x min).flagAliases
        (partSettings x min).ignoreChars = _ from part_dicLine hx (hw e he).1 (hw e he).2] at h3
      cases h3
      have ht' := ht e he ((part_hasTwin hx).1 h4)
      have : titleForm U e.1 = title := by
        obtain ⟨c, s, e'⟩ := List.exists_cons_of_ne_nil (hw e he).1.1
        rw [e'] at h5 ⊢
        exact Option.some.inj h5
      rw [this] at ht'
      exact absurd ht' (by unfold byteLen at h6; omega)
  exact ⟨_, parse_ok hpa hd (hA2 _), hA1, rfl⟩

/-! ## The answers -/

section Answers
variable {C : Checker} {x : Char} {min : Option Nat} {words : List (Str × Bool)}

/-- What is known about the dictionary of such a list. -/
structure PartDict (C : Checker) (x : Char) (min : Option Nat) (words : List (Str × Bool)) : Prop where
  made : MadeFrom (partSettings x min) C.dict.aff
  slots : C.dict.words.slots = (words.map (partEntries C.U x)).flatten
  flag : LineFlag C.U x
  conds : C.dict.CondsParsed
  pos : 0 < min.getD 3

variable (h : PartDict C x min words)
include h

theorem PartDict.mem {s : Str} {F : FlagSet} : (s, F) ∈ C.dict.words.slots ↔ (∃ b, (s, b) ∈ words ∧ F = partFlags x b) ∨
    ∃ e ∈ words, AlsoTitle C.U e ∧ s = titleForm C.U e.1 ∧ F = (partFlags x e.2).withFlag hiddenHomonymFlag := by
  rw [h.slots]
  simp only [List.mem_flatten, List.mem_map]
  constructor
  · rintro ⟨_, ⟨e, he, rfl⟩, h⟩
    unfold partEntries at h
    split at h
    · rename_i hm
      simp only [List.mem_cons, Prod.mk.injEq, List.not_mem_nil, or_false] at h
      rcases h with ⟨rfl, rfl⟩ | ⟨rfl, rfl⟩
      · exact .inr ⟨e, he, hm, rfl, rfl⟩
      · exact .inl ⟨_, he, rfl⟩
    · simp only [List.mem_cons, Prod.mk.injEq, List.not_mem_nil, or_false] at h
      obtain ⟨rfl, rfl⟩ := h
      exact .inl ⟨_, he, rfl⟩
  · rintro (⟨b, hw, rfl⟩ | ⟨e, he, hm, rfl, rfl⟩)
    · refine ⟨_, ⟨(s, b), hw, rfl⟩, ?_⟩
      unfold partEntries
      split <;> simp
    · refine ⟨_, ⟨e, he, rfl⟩, ?_⟩
      unfold partEntries
      rw [if_pos hm]
      simp

theorem PartDict.options : C.dict.aff.options = { compoundFlag := some x.toNat, compoundMinLength := min } := h.made.options

theorem PartDict.elems {s : Str} {F : FlagSet} (hm : (s, F) ∈ C.dict.words.slots) {f : Nat} (hf : f ∈ F.elems) :
    f < 128 ∨ f = 65535 := by
  have hx := h.flag.2.1
  rcases h.mem.1 hm with ⟨b, -, rfl⟩ | ⟨e, -, -, -, rfl⟩
  · rw [partFlags_iff] at hf
    exact .inl (hf.2 ▸ hx)
  · rw [← FlagSet.contains_iff, contains_hidden, FlagSet.contains_iff, partFlags_iff] at hf
    rcases hf with ⟨-, rfl⟩ | rfl
    · exact .inl hx
    · exact .inr rfl

theorem PartDict.good {s : Str} {F : FlagSet} (hm : (s, F) ∈ C.dict.words.slots) :
    Good C.dict F ∧ ¬ KeepsCase C.dict F := by
  have ho := h.options
  constructor
  · constructor
    · intro hf
      have := h.elems hm hf
      rw [ho] at this
      rcases this with h | h
      · exact absurd (show 65510 < 128 from h) (by decide)
      · cases h
    · rintro ⟨-, y, hy, -⟩
      rw [ho] at hy; cases hy
  · rintro ⟨y, hy, -⟩
    rw [ho] at hy; cases hy

theorem PartDict.table (k : Kind) : tableOf C.dict k = [] := by
  cases k
  · exact List.Perm.eq_nil h.made.prefixes
  · exact List.Perm.eq_nil h.made.suffixes

theorem PartDict.noStep {k : Kind} {a : Affix} {s t : Str} : ¬ Step C.dict k a s t := fun hs => by
  have := hs.mem; rw [h.table] at this; simp at this

/-- What can be derived. -/
theorem PartDict.derives {skip : Bool} {w : Str} : (∃ stem F steps, Derives .code C.dict skip w stem F steps) ↔
    (∃ b, (w, b) ∈ words) ∨ (skip = false ∧ ∃ e ∈ words, AlsoTitle C.U e ∧ w = titleForm C.U e.1) := by
  constructor
  · rintro ⟨stem, F, steps, hd⟩
    cases hd with
    | listed e same _ =>
      subst same
      rcases h.mem.1 e.listed with ⟨b, hb, -⟩ | ⟨v, hv, hm, hs, rfl⟩
      · exact .inl ⟨b, hb⟩
      · refine .inr ⟨?_, v, hv, hm, hs⟩
        cases skip with
        | false => rfl
        | true =>
          refine absurd ?_ (e.not_hidden rfl)
          rw [← FlagSet.contains_iff]
          exact contains_hidden.2 (.inr rfl)
    | one _ hs => exact absurd hs h.noStep
    | pair _ hs => exact absurd hs h.noStep
    | two _ hs => exact absurd hs h.noStep
    | twoThenOne _ hs => exact absurd hs h.noStep
    | sandwich _ hs => exact absurd hs h.noStep
  · have ho := h.options
    have key : ∀ F, (w, F) ∈ C.dict.words.slots → (skip = true → 65535 ∉ F.elems) →
        ∃ stem F steps, Derives .code C.dict skip w stem F steps := by
      intro F h1 h2
      refine ⟨w, F, [], .listed ⟨h1, ?_, h2⟩ rfl ?_⟩ <;> rw [ho] <;> rintro ⟨y, hy, -⟩ <;> cases hy
    rintro (⟨b, hb⟩ | ⟨hk, v, hv, hm, hs⟩)
    · refine key _ (h.mem.2 (.inl ⟨b, hb, rfl⟩)) fun _ hf => ?_
      rw [partFlags_iff] at hf
      have := h.flag.2.1
      omega
    · exact key _ (h.mem.2 (.inr ⟨v, hv, hm, hs, rfl⟩)) fun ht => by rw [hk] at ht; cases ht

/-- What can be a part. -/
theorem PartDict.part {m : Mode} {t stem : Str} {F : FlagSet} {l : List (Kind × Affix)} :
    Part C.dict m t stem F l ↔ t = stem ∧ F = partFlags x true ∧ l = [] ∧ (t, true) ∈ words := by
  have ho := h.options
  constructor
  · intro hp
    cases hp with
    | listed entry visible same _ position =>
      subst same
      have hx : x.toNat ∈ F.elems := by
        rcases position with ⟨f, hf, hm⟩ | ⟨f, hf, hm⟩
        · rw [ho] at hf
          cases hf
          exact hm
        · exfalso
          unfold positionFlag at hf
          rw [ho] at hf
          cases m <;> cases hf
      rcases h.mem.1 entry with ⟨b, hb, rfl⟩ | ⟨v, hv, hm, hs, rfl⟩
      · obtain ⟨rfl, -⟩ := partFlags_iff.1 hx
        exact ⟨rfl, rfl, rfl, hb⟩
      · refine absurd ?_ visible
        rw [← FlagSet.contains_iff]
        exact contains_hidden.2 (.inr rfl)
    | one _ _ hs => exact absurd hs h.noStep
    | pair _ _ hs => exact absurd hs h.noStep
  · rintro ⟨rfl, rfl, rfl, hw⟩
    refine .listed (h.mem.2 (.inl ⟨true, hw, rfl⟩)) (fun hf => ?_) rfl ?_ (.inl ⟨x.toNat, by rw [ho], partFlags_iff.2 ⟨rfl, rfl⟩⟩)
    · rw [partFlags_iff] at hf
      have := h.flag.2.1
      omega
    · rw [ho]; rintro ⟨y, hy, -⟩; cases hy

theorem PartDict.unique : PartsUnique C.dict := by
  intro m p q hp hq ht
  obtain ⟨a1, a2, a3, -⟩ := h.part.1 hp
  obtain ⟨b1, b2, b3, -⟩ := h.part.1 hq
  exact ⟨by rw [← a1, ← b1, ht], by rw [a2, b2], by unfold Piece.Modified; rw [a3, b3]⟩

theorem PartDict.noPairs : NoPairChecks C.dict :=
  ⟨by rw [h.made.patterns]; rfl, by rw [h.options], by rw [h.made.vowels]; rfl⟩

theorem PartDict.shrinking : C.dict.Shrinking := by
  refine ⟨?_, ?_, ?_⟩
  · rw [h.options]; exact h.pos
  · rw [h.options]; intro h; cases h
  · rw [h.noPairs.patterns]; intro c h; cases h

/-- What is a compound. -/
theorem PartDict.compound {fc : Forceucase} {w : Str} :
    (∃ pieces, PlainCompound C.U C.dict fc w pieces) ↔ OfParts words (min.getD 3) w := by
  have ho := h.options
  have hmin : C.dict.aff.options.minChars = min.getD 3 := by rw [ho]; rfl
  constructor
  · rintro ⟨pieces, hw, hp⟩
    refine ⟨pieces.map Piece.text, by rw [List.length_map]; exact hp.atLeastTwo,
      hw, fun t ht => ?_⟩
    obtain ⟨p, hp', rfl⟩ := List.mem_map.1 ht
    obtain ⟨l, r, e⟩ := List.append_of_mem hp'
    exact ⟨(h.part.1 (hp.positions l p r e).part).2.2.2, by rw [← hmin]; exact hp.long p hp'⟩
  · rintro ⟨parts, h2, rfl, hw⟩
    have hat : ∀ p ∈ parts.map (fun t => (⟨t, t, partFlags x true, []⟩ : Piece)), ∀ m, PieceAt C.dict m p := by
      intro p hp m
      obtain ⟨t, ht, rfl⟩ := List.mem_map.1 hp
      refine ⟨h.part.2 ⟨rfl, rfl, rfl, (hw t ht).1⟩, fun hf => ?_⟩
      rw [partFlags_iff, ho] at hf
      have := h.flag.2.1
      have h2 : (65510 : Nat) = x.toNat := hf.2
      omega
    refine ⟨parts.map fun t => ⟨t, t, partFlags x true, []⟩, ?_, ?_⟩
    · unfold texts
      rw [List.map_map]
      simp [Function.comp_def]
    · refine ⟨by simpa using h2, fun l p r e => hat p (by rw [e]; simp) _, fun p hp => ?_, ?_, ?_, ?_, ?_, ?_, ?_, ?_⟩
      · obtain ⟨t, ht, rfl⟩ := List.mem_map.1 hp
        rw [hmin]; exact (hw t ht).2
      · rw [ho]; intro h; cases h
      · rw [ho]; intro h; cases h
      · rw [h.noPairs.patterns]; intro c h; cases h
      · rw [ho]; intro h; cases h
      · rw [ho]; intro h; cases h
      · rw [ho]; rintro - l q - ⟨y, hy, -⟩; cases hy
      · rw [ho]; rintro - m hm; cases hm

/-- The text is found, with hidden entries or without. -/
def FoundPart (C : Checker) (min : Option Nat) (words : List (Str × Bool)) (hh : HiddenHomonym) (w : Str) : Prop :=
  if hh.skips = true then WrittenSo words (min.getD 3) w else Written C.U words (min.getD 3) w

theorem PartDict.noRules {fc : Forceucase} {w : Str} {parts : List (Str × FlagSet)} :
    ¬ RuleCompound C.dict fc w parts := by
  intro hp
  obtain ⟨rule, hr, -⟩ := hp.rule
  rw [h.made.rules] at hr
  cases hr

theorem PartDict.compoundDecides {fc : Forceucase} {w : Str} :
    (CompoundDecides C.U C.dict C.choice fc w none ↔ ¬ OfParts words (min.getD 3) w) ∧
    ((∃ F, CompoundDecides C.U C.dict C.choice fc w (some F)) ↔ OfParts words (min.getD 3) w) ∧
    ∀ F, CompoundDecides C.U C.dict C.choice fc w (some F) → Good C.dict F ∧ ¬ KeepsCase C.dict F := by
  have ho := h.options
  have hm : 0 < C.dict.aff.options.minChars := by rw [ho]; exact h.pos
  obtain ⟨k1, k2⟩ := Checker.compound_iff h.conds hm fc w
  have exact := fun fuel (hf : w.length < fuel) => C49_search_exact (fuel := fuel) (fc := fc) h.conds h.unique h.noPairs hm
    (by rw [ho]) (by rw [h.made.rules]; rfl) (by rw [ho]; rfl) hf
  have only : OnlyPlain C.dict := ⟨by rw [ho], by rw [h.noPairs.patterns]; intro c h; cases h⟩
  have sound : ∀ {fuel r}, C.checkCompound fuel .atBegin w fc = .ok (some r) →
      OfParts words (min.getD 3) w ∧ Good C.dict r.flags ∧ ¬ KeepsCase C.dict r.flags := by
    intro fuel r hr
    rcases C27_plain_sound h.conds only hr with ⟨pieces, hp, hF⟩ | ⟨parts, hp, -⟩
    · refine ⟨h.compound.1 ⟨pieces, hp⟩, ?_⟩
      obtain ⟨hw, hp⟩ := hp
      cases pieces with
      | nil => cases hF
      | cons p ps =>
        simp only [List.head?_cons, Option.map_some, Option.some.injEq] at hF
        rw [← hF]
        obtain ⟨e1, e2, -, e4⟩ := h.part.1 (hp.positions [] p ps rfl).part
        exact h.good (s := p.text) (h.mem.2 (.inl ⟨true, e4, e2⟩))
    · exact absurd hp h.noRules
  obtain ⟨o, hr⟩ := Checker.checkCompound_ok h.shrinking .atBegin w fc (Nat.lt_succ_self w.length)
  refine ⟨?_, ?_, ?_⟩
  · rw [← k1]
    constructor
    · rintro ⟨fuel, hn⟩ hp
      obtain ⟨r, hs⟩ := (exact (max fuel (w.length + 1)) (by omega)).2 (h.compound.2 hp)
      have := (Checker.checkCompound_le C (Nat.le_max_left fuel (w.length + 1)) .atBegin w fc).ok hn
      rw [this] at hs
      cases hs
    · intro hn
      cases o with
      | none => exact ⟨_, hr⟩
      | some r => exact absurd (sound hr).1 hn
  · constructor
    · rintro ⟨F, hF⟩
      obtain ⟨fuel, r, hr, -⟩ := (k2 F).2 hF
      exact (sound hr).1
    · intro hp
      obtain ⟨r, hs⟩ := (exact (w.length + 1) (by omega)).2 (h.compound.2 hp)
      exact ⟨r.flags, (k2 _).1 ⟨_, r, hs, rfl⟩⟩
  · intro F hF
    obtain ⟨fuel, r, hr, rfl⟩ := (k2 F).2 hF
    exact (sound hr).2

theorem PartDict.decides (fc : Forceucase) (hh : HiddenHomonym) (w : Str) :
    (Decides C.U C.dict C.choice fc hh w none ↔ ¬ FoundPart C min words hh w) ∧
    ((∃ F, Decides C.U C.dict C.choice fc hh w (some F)) ↔ FoundPart C min words hh w) ∧
    ∀ F, Decides C.U C.dict C.choice fc hh w (some F) → Good C.dict F ∧ ¬ KeepsCase C.dict F := by
  obtain ⟨c1, c2, c3⟩ := h.compoundDecides (fc := fc) (w := w)
  have hc := Checker.choice_fits h.conds
  have hN : C.choice.simple hh w = none ↔ ¬ ∃ stem F steps, Derives .code C.dict hh.skips w stem F steps := by
    refine ⟨hc.simple_none hh w, fun hn => ?_⟩
    cases hsm : C.choice.simple hh w with
    | none => rfl
    | some F =>
      obtain ⟨stem, steps, h'⟩ := hc.simple_some _ _ _ hsm
      exact absurd ⟨_, _, _, h'⟩ hn
  rw [h.derives] at hN
  have hF : FoundPart C min words hh w ↔ ((∃ b, (w, b) ∈ words) ∨
      (hh.skips = false ∧ ∃ e ∈ words, AlsoTitle C.U e ∧ w = titleForm C.U e.1)) ∨ OfParts words (min.getD 3) w := by
    unfold FoundPart Written WrittenSo
    generalize (∃ b, (w, b) ∈ words) = A
    generalize (∃ e ∈ words, AlsoTitle C.U e ∧ w = titleForm C.U e.1) = B
    generalize OfParts words (min.getD 3) w = J
    cases hh.skips <;> simp only [if_true, if_false, Bool.false_eq_true, Bool.true_eq_false, true_and, false_and, or_false] <;> tauto
  rw [hF]
  generalize ((∃ b, (w, b) ∈ words) ∨
      (hh.skips = false ∧ ∃ e ∈ words, AlsoTitle C.U e ∧ w = titleForm C.U e.1)) = P at hN
  refine ⟨⟨?_, fun hn => ?_⟩, ⟨?_, fun hp => ?_⟩, ?_⟩
  · rintro (⟨-, hn⟩ | ⟨h1, h2⟩)
    · exact absurd rfl hn
    · rw [not_or]; exact ⟨hN.1 h1, c1.1 h2⟩
  · rw [not_or] at hn
    exact .inr ⟨hN.2 hn.1, c1.2 hn.2⟩
  · rintro ⟨F, ⟨h1, -⟩ | ⟨-, h2⟩⟩
    · exact .inl (Classical.not_not.1 fun hf => by rw [hN.2 hf] at h1; cases h1)
    · exact .inr (c2.1 ⟨F, h2⟩)
  · cases hsm : C.choice.simple hh w with
    | some F => exact ⟨F, .inl ⟨hsm, by simp⟩⟩
    | none =>
      obtain ⟨F, hF⟩ := c2.2 (hp.resolve_left (hN.1 hsm))
      exact ⟨F, .inr ⟨hsm, hF⟩⟩
  · rintro F (⟨h1, -⟩ | ⟨-, h2⟩)
    · obtain ⟨stem, steps, h'⟩ := hc.simple_some _ _ _ h1
      have hl : (stem, F) ∈ C.dict.words.slots := by
        cases h' with
        | listed e => exact e.listed
        | one e => exact e.listed
        | pair e => exact e.listed
        | two e => exact e.listed
        | twoThenOne e => exact e.listed
        | sandwich e => exact e.listed
      exact h.good hl
    · exact c3 F h2

/-! ### Letter case and dashes -/

theorem PartDict.fails (a : Attempt) : a.Fails C C.choice ↔ ¬ FoundPart C min words a.hidden a.text := by
  obtain ⟨d1, d2, d3⟩ := h.decides a.upper a.hidden a.text
  constructor
  · rintro (h | ⟨F, h, -, hk⟩)
    · exact d1.1 h
    · exact absurd hk (d3 F h).2
  · exact fun h => .inl (d1.2 h)

theorem PartDict.succeeds (a : Attempt) : (∃ F, a.Succeeds C C.choice F) ↔ FoundPart C min words a.hidden a.text := by
  obtain ⟨d1, d2, d3⟩ := h.decides a.upper a.hidden a.text
  constructor
  · rintro ⟨F, h, -⟩
    exact d2.1 ⟨F, h⟩
  · intro h
    obtain ⟨F, h⟩ := d2.2 h
    exact ⟨F, h, .inr (d3 F h).2⟩

theorem PartDict.verdict_none {w : Str} {k : Casing} (hk : HasCasing C.U w k) :
    WordVerdict C C.choice w none ↔ ∀ a ∈ attempts C w k, ¬ FoundPart C min words a.hidden a.text := by
  constructor
  · rintro ⟨k', hk', hf⟩ a ha
    rw [hasCasing_unique hk hk'] at ha
    exact (h.fails a).1 (hf a ha)
  · exact fun hf => ⟨k, hk, fun a ha => (h.fails a).2 (hf a ha)⟩

theorem PartDict.verdict_true {w : Str} {k : Casing} (hk : HasCasing C.U w k) :
    WordVerdict C C.choice w (some true) ↔ ∃ a ∈ attempts C w k, FoundPart C min words a.hidden a.text := by
  constructor
  · rintro ⟨k', before, a, after, F, hk', h1, -, h2, -⟩
    rw [hasCasing_unique hk hk', h1]
    exact ⟨a, by simp, (h.succeeds a).1 ⟨F, h2⟩⟩
  · intro hf
    obtain ⟨before, a, after, h1, h2, h3⟩ := first_in hf
    obtain ⟨F, hF⟩ := (h.succeeds a).2 h3
    refine ⟨k, before, a, after, F, hk, h1, fun y hy => (h.fails y).2 (h2 y hy), hF, ?_⟩
    simp only [true_iff]
    exact ((h.decides a.upper a.hidden a.text).2.2 F hF.1).1

theorem PartDict.titleOf (w : Str) : Spec.titleOf C w = titleForm C.U w := by
  have ho : C.opts.caseHandling = .standard := by
    unfold Checker.opts; rw [h.made.options]; rfl
  cases w with
  | nil => rfl
  | cons y s =>
    unfold Spec.titleOf titleForm
    rw [ho]
    rfl

theorem PartDict.lowerOf (w : Str) : Spec.lowerOf C w = C.U.lowerStr w := by
  have ho : C.opts.caseHandling = .standard := by
    unfold Checker.opts; rw [h.made.options]; rfl
  unfold Spec.lowerOf
  rw [ho]
  rfl

variable (h1 : C.checkLowerAsTitle = false) (h2 : C.checkLowerAsUpper = false)
include h1 h2

theorem PartDict.known {w : Str} {k : Casing} (hk : HasCasing C.U w k) :
    (∃ a ∈ attempts C w k, FoundPart C min words a.hidden a.text) ↔
      KnownBy C.U (WrittenSo words (min.getD 3)) (Written C.U words (min.getD 3)) w := by
  have hch : C.dict.aff.options.checksharps = false := by rw [h.options]
  have hacc : ∀ w, FoundPart C min words .accept w ↔ Written C.U words (min.getD 3) w := fun w => Iff.rfl
  have hskip : ∀ w, FoundPart C min words .skip w ↔ WrittenSo words (min.getD 3) w := fun w => Iff.rfl
  generalize hE : WrittenSo words (min.getD 3) = E at hskip
  generalize hY : Written C.U words (min.getD 3) = Y at hacc
  have hplain : ∀ p, (∃ a ∈ plainAttempts C w p, FoundPart C min words a.hidden a.text) ↔ Y w := by
    intro p
    unfold plainAttempts
    simp [h1, h2, hacc]
  cases k with
  | none =>
    refine (hplain false).trans ⟨.small hk, ?_⟩
    intro hw
    cases hw with
    | small _ h => exact h
    | mixed h => rcases h with h | h <;> cases hasCasing_unique hk h
    | title h => cases hasCasing_unique hk h
    | caps h => cases hasCasing_unique hk h
    | article h => cases hasCasing_unique hk h
  | camel =>
    refine (hplain false).trans ⟨.mixed (.inr hk), ?_⟩
    intro hw
    cases hw with
    | small h => cases hasCasing_unique hk h
    | mixed _ h => exact h
    | title h => cases hasCasing_unique hk h
    | caps h => cases hasCasing_unique hk h
    | article h => cases hasCasing_unique hk h
  | pascal =>
    refine (hplain true).trans ⟨.mixed (.inl hk), ?_⟩
    intro hw
    cases hw with
    | small h => cases hasCasing_unique hk h
    | mixed _ h => exact h
    | title h => cases hasCasing_unique hk h
    | caps h => cases hasCasing_unique hk h
    | article h => cases hasCasing_unique hk h
  | init =>
    have : (∃ a ∈ attempts C w .init, FoundPart C min words a.hidden a.text) ↔ E w ∨ Y (C.U.lowerStr w) := by
      unfold attempts titleAttempts
      simp [hacc, hskip, h.lowerOf]
    refine this.trans ⟨.title hk, ?_⟩
    intro hw
    cases hw with
    | small h => cases hasCasing_unique hk h
    | mixed h => rcases h with h | h <;> cases hasCasing_unique hk h
    | title _ h => exact h
    | caps h => cases hasCasing_unique hk h
    | article h => cases hasCasing_unique hk h
  | all =>
    have : (∃ a ∈ attempts C w .all, FoundPart C min words a.hidden a.text) ↔
        (∃ t ∈ articleForms C w, Y t) ∨ (Y w ∨ Y (titleForm C.U w) ∨ Y (C.U.lowerStr w)) := by
      unfold attempts capsAttempts
      simp only [hch, Bool.false_eq_true, false_and, if_false, List.append_nil, List.map_cons, List.cons_append,
        List.mem_cons, List.mem_append, List.mem_map, List.not_mem_nil, or_false]
      constructor
      · rintro ⟨a, rfl | ⟨t, ht, rfl⟩ | rfl | rfl, hf⟩ <;> rw [hacc] at hf
        · exact .inr (.inl hf)
        · exact .inl ⟨t, ht, hf⟩
        · rw [h.titleOf] at hf; exact .inr (.inr (.inl hf))
        · rw [h.lowerOf] at hf; exact .inr (.inr (.inr hf))
      · rintro (⟨t, ht, hf⟩ | hf | hf | hf)
        · exact ⟨_, .inr (.inl ⟨t, ht, rfl⟩), (hacc _).2 hf⟩
        · exact ⟨_, .inl rfl, (hacc _).2 hf⟩
        · exact ⟨_, .inr (.inr (.inl rfl)), (hacc _).2 (by rw [h.titleOf]; exact hf)⟩
        · exact ⟨_, .inr (.inr (.inr rfl)), (hacc _).2 (by rw [h.lowerOf]; exact hf)⟩
    rw [this]
    constructor
    · rintro (⟨t, ht, hf⟩ | hf)
      · unfold articleForms at ht
        split at ht
        · rename_i q b bs hd
          have hq : q = '\'' := by
            have := List.head?_dropWhile_not (fun x : Char => decide (x ≠ '\'')) w
            rw [hd] at this
            simpa using this
          subst hq
          have hw : w = w.takeWhile (fun x => decide (x ≠ '\'')) ++ '\'' :: b :: bs := by
            rw [← hd]; exact (List.takeWhile_append_dropWhile).symm
          have hna : '\'' ∉ w.takeWhile (fun x => decide (x ≠ '\'')) := by
            intro h
            have := List.mem_takeWhile_imp h
            simp at this
          simp only [List.mem_cons, List.not_mem_nil, or_false, h.lowerOf, h.titleOf] at ht
          refine .article hk hw hna (by simp) ?_
          rcases ht with rfl | rfl
          · exact .inl hf
          · exact .inr hf
        · cases ht
      · exact .caps hk hf
    · intro hw
      cases hw with
      | small h => cases hasCasing_unique hk h
      | mixed h => rcases h with h | h <;> cases hasCasing_unique hk h
      | title h => cases hasCasing_unique hk h
      | caps _ h => exact .inr h
      | @article a b _ hw hna hb hf =>
        left
        obtain ⟨y, ys, rfl⟩ := List.exists_cons_of_ne_nil hb
        have ht : w.takeWhile (fun x => decide (x ≠ '\'')) = a := by
          rw [hw, List.takeWhile_append_of_pos]
          · simp
          · intro z hz; simp; rintro rfl; exact hna hz
        have hd : w.dropWhile (fun x => decide (x ≠ '\'')) = '\'' :: y :: ys := by
          rw [hw, List.dropWhile_append_of_pos]
          · simp
          · intro z hz; simp; rintro rfl; exact hna hz
        unfold articleForms
        rw [hd]
        simp only [ht, h.lowerOf, h.titleOf]
        rcases hf with hf | hf
        · exact ⟨_, by simp, hf⟩
        · exact ⟨_, by simp, hf⟩

theorem PartDict.verdict (w : Str) :
    (WordVerdict C C.choice w none ↔ ¬ KnownBy C.U (WrittenSo words (min.getD 3)) (Written C.U words (min.getD 3)) w) ∧
    (WordVerdict C C.choice w (some true) ↔
      KnownBy C.U (WrittenSo words (min.getD 3)) (Written C.U words (min.getD 3)) w) := by
  obtain ⟨k, hk⟩ := hasCasing_exists (U := C.U) w
  rw [h.verdict_none hk, h.verdict_true hk, ← h.known h1 h2 hk]
  exact ⟨by simp, Iff.rfl⟩

end Answers

theorem dashedBy_breaks {V : Str → Option Bool → Prop} {known : Str → Prop}
    (hv : ∀ w, (V w none ↔ ¬ known w) ∧ (V w (some true) ↔ known w)) {depth : Nat} {w : Str} :
    Breaks (Cx.breakPatterns {}) V depth w ↔ DashedBy known depth w := by
  constructor
  · intro h
    induction h with
    | direct h => exact .known ((hv _).2.1 h)
    | start _ hl hb hw _ ih =>
      simp only [List.mem_cons, List.not_mem_nil, or_false] at hl
      unfold BreakLine at hb
      rcases hl with rfl | rfl | rfl <;> simp at hb
      subst hb hw
      exact .start ih
    | @stop _ _ _ pat_ _ _ hl hb hw _ ih =>
      simp only [List.mem_cons, List.not_mem_nil, or_false] at hl
      unfold BreakLine at hb
      rcases hl with rfl | rfl | rfl
      · simp at hb
      · have := congrArg List.getLast? hb.1; simp at this
      · have : pat_ = ['-'] := by
          have := congrArg List.dropLast hb.1
          simpa using this.symm
        subst this hw
        exact .stop ih
    | @middle _ _ _ _ _ b_ _ hl hb hf hne _ _ iha ihb =>
      simp only [List.mem_cons, List.not_mem_nil, or_false] at hl
      unfold BreakLine at hb
      rcases hl with rfl | rfl | rfl
      · simp at hb
      · obtain ⟨rfl, -, -⟩ := hb
        obtain ⟨rfl, hmin⟩ := hf
        rw [List.append_assoc]
        refine .middle (fun hm => ?_) hne iha ihb
        obtain ⟨x, y, rfl⟩ := List.append_of_mem hm
        have := hmin x (y ++ '-' :: b_) (by simp)
        simp at this
      · simp at hb
  · intro h
    induction h with
    | known h => exact .direct ((hv _).2.2 h)
    | @start depth w h ih =>
      by_cases hk : known ('-' :: w)
      · exact .direct ((hv _).2.2 hk)
      · exact .start ((hv _).1.2 hk) (line := ['^', '-']) (pat := ['-']) (by simp) rfl rfl ih
    | @stop depth w h ih =>
      by_cases hk : known (w ++ ['-'])
      · exact .direct ((hv _).2.2 hk)
      · exact .stop ((hv _).1.2 hk) (line := ['-', '$']) (pat := ['-']) (by simp) ⟨rfl, by simp⟩ rfl ih
    | @middle depth a b hna hb _ _ iha ihb =>
      by_cases hk : known (a ++ '-' :: b)
      · exact .direct ((hv _).2.2 hk)
      · refine .middle ((hv _).1.2 hk) (line := ['-']) (pat := ['-']) (by simp) ⟨rfl, by simp, by simp⟩ ⟨by simp, ?_⟩
          hb iha ihb
        intro a' b' h
        by_contra hlt
        have hmem : '-' ∈ a := by
          have h3 := congrArg (fun l : List Char => l[a'.length]?) h
          simp only [List.append_assoc, List.singleton_append] at h3
          rw [List.getElem?_append_left (by omega), List.getElem?_append_right (by omega)] at h3
          simp at h3
          exact List.mem_of_getElem? h3
        exact hna hmem

end Spellbook
