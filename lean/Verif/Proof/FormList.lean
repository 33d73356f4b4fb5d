import Verif.Spec.FormList
import Verif.Proof.PartList
import Verif.Spec.Sharp
/-!
# Proofs about lists of stems with affixes
-/

namespace Spellbook
open Spec Props

variable {U : Unicode}

/-! ## The texts -/

/-- The flags of a line. -/
def formFlags (e : Str × Str) : FlagSet := FlagSet.ofList (e.2.map Char.toNat)

theorem formFlags_iff {e : Str × Str} {f : Nat} : f ∈ (formFlags e).elems ↔ ∃ c ∈ e.2, c.toNat = f := by
  unfold formFlags
  rw [FlagSet.mem_ofList, List.mem_map]

open Classical in
/-- The entries of a stem of the list; `T` are the stems with a title form of their own. -/
noncomputable def formEntries (U : Unicode) (T : Str × Str → Prop) (e : Str × Str) : List (Str × FlagSet) :=
  if T e then [(titleForm U e.1, (formFlags e).withFlag hiddenHomonymFlag), (e.1, formFlags e)]
  else [(e.1, formFlags e)]

theorem ascii_bytes {s : Str} (h : ∀ c ∈ s, LineFlag U c) : (utf8 s).map (·.toNat) = s.map Char.toNat := by
  induction s with
  | nil => rfl
  | cons c s ih =>
    rw [show c :: s = [c] ++ s from rfl, utf8_append, List.map_append, ascii_byte (h c (by simp)).2.1,
      ih fun d hd => h d (by simp [hd])]
    rfl

theorem tryFlags_ascii {s : Str} (h : ∀ c ∈ s, LineFlag U c) : tryFlags (s.map Char.toNat) = .ok (s.map Char.toNat) := by
  induction s with
  | nil => rfl
  | cons c s ih =>
    obtain ⟨h1, h2, -, -⟩ := h c (by simp)
    have : tryFlagFromU16 c.toNat = .ok c.toNat := by
      unfold tryFlagFromU16
      rw [if_neg (by omega)]
      try rw [if_neg (by omega)]
    simp only [List.map_cons, tryFlags, this, ih fun d hd => h d (by simp [hd])]

theorem decode_flags {s : Str} (hs : s ≠ []) (h : ∀ c ∈ s, LineFlag U c) :
    decodeFlagset s .short [] = .ok (FlagSet.ofList (s.map Char.toNat)) := by
  unfold decodeFlagset parseFlags parseFlagList
  rw [if_pos (.inr rfl), if_neg (by simpa using hs)]
  simp only [ascii_bytes h, tryFlags_ascii h]
  rfl

theorem form_dicLine {e : Str × Str} (hx : ∀ c ∈ e.2, LineFlag U c) (h : PlainEntry U e.1)
    (hl : (utf8 (formLine e)).length ≤ 65535) :
    parseDicLine U (formLine e) .short [] [] = .ok (e.1, formFlags e) := by
  obtain ⟨w, fl⟩ := e
  by_cases hf : fl = []
  · subst hf
    exact plain_dicLine h
  · have hline : formLine (w, fl) = w ++ '/' :: fl := if_neg hf
    rw [hline] at hl ⊢
    change PlainEntry U w at h
    change ∀ c ∈ fl, LineFlag U c at hx
    have hs : ∀ i < w.length, ¬ StopsAt U (w ++ '/' :: fl) i := by
      intro i hi
      have hget : (w ++ '/' :: fl)[i]? = some w[i] := by
        rw [List.getElem?_append_left hi, List.getElem?_eq_getElem hi]
      have hm := (h.2.2 w[i] (List.getElem_mem hi)).2
      rintro (h' | ⟨h', -⟩ | ⟨h', -⟩) <;> rw [hget, Option.some.injEq] at h' <;> rw [h'] at hm <;> simp at hm
    have hpos : 0 < w.length := List.length_pos_of_ne_nil h.1
    refine (C35_line_partial hl (n := w.length) ⟨by simp, hs, fun _ => .inr (.inl ⟨by simp, hpos, ?_⟩)⟩ ?_ _ _ _ _ _).2
      ⟨?_, ?_⟩
    · rw [List.getElem?_append_left (by omega)]
      intro hb
      exact (h.2.2 _ (List.mem_of_getElem? hb)).2 (by simp)
    · intro _ c hc
      have : (w ++ '/' :: fl)[w.length + 1]? = fl[0]? := by
        rw [List.getElem?_append_right (by omega)]
        simp
      rw [this] at hc
      exact (hx c (List.mem_of_getElem? hc)).2.2.1
    · unfold stemText
      rw [List.take_left, unescape_plain fun hb => (h.2.2 _ hb).2 (by simp)]
      simp
    · unfold flagText
      rw [if_pos (by simp)]
      have : (w ++ '/' :: fl).drop (w.length + 1) = fl := by
        rw [List.drop_append]; simp
      rw [this]
      have ht : fl.takeWhile (fun c => !U.isWs c) = fl :=
        List.takeWhile_eq_self_iff.2 fun c hc => by rw [(hx c hc).2.2.1]; rfl
      rw [ht]
      exact decode_flags hf hx

theorem form_trimmed {e : Str × Str} (hx : ∀ c ∈ e.2, LineFlag U c) (h : PlainEntry U e.1) :
    Trimmed U (formLine e) (formLine e) := by
  obtain ⟨w, fl⟩ := e
  obtain ⟨c, s, hw⟩ := List.exists_cons_of_ne_nil h.1
  change w = c :: s at hw
  refine ⟨[], [], by simp, by simp, by simp, fun d hd => ?_, fun d hd => ?_⟩
  · have : d = c := by
      unfold formLine at hd
      split at hd <;> simp [hw] at hd <;> exact hd.symm
    subst this
    exact (h.2.2 d (by rw [hw]; simp)).1
  · unfold formLine at hd
    split at hd
    · exact (h.2.2 d (List.mem_of_getLast? hd)).1
    · rename_i hf
      change ¬ fl = [] at hf
      obtain ⟨y, ys, hy⟩ := List.exists_cons_of_ne_nil hf
      have : d ∈ fl := by
        have h' : fl.getLast? = some d := by
          change (w ++ '/' :: fl).getLast? = some d at hd
          rw [hy] at hd ⊢
          rw [List.getLast?_append_cons, List.getLast?_cons_cons] at hd
          exact hd
        exact List.mem_of_getLast? h'
      exact (hx d this).2.2.1

/-- Settings which do not concern the reading of the list: flags of one byte, no names for sets of flags, no IGNORE, no
language with letters of its own; `T` are the stems with a title form of their own. -/
structure ReadsPlainly (U : Unicode) (cx : Cx) (T : Str × Str → Prop) : Prop where
  flagType : cx.flagType = .short
  aliases : cx.flagAliases = []
  ignore : cx.ignoreChars = []
  twins : ∀ e : Str × Str, (∀ c ∈ e.2, LineFlag U c) →
    (HasTwin U cx.options.forbiddenWordFlag e.1 (formFlags e) ↔ T e)
  standard : cx.options.caseHandling = .standard

theorem form_hasTwin {cx : Cx} (hcx : cx.options.forbiddenWordFlag = 65510) {e : Str × Str} (hx : ∀ c ∈ e.2, LineFlag U c) :
    HasTwin U cx.options.forbiddenWordFlag e.1 (formFlags e) ↔ HasTitle U e := by
  rw [hcx]
  have hf : ¬ (formFlags e).contains 65510 = true := by
    rw [FlagSet.contains_iff, formFlags_iff]
    rintro ⟨c, hc, h⟩
    have := (hx c hc).2.1
    omega
  unfold HasTwin HasTitle MixedCase
  have h2 : (∃ f, (formFlags e).contains f = true) ↔ e.2 ≠ [] := by
    simp only [FlagSet.contains_iff, formFlags_iff]
    constructor
    · rintro ⟨f, c, hc, -⟩ hn
      rw [hn] at hc
      cases hc
    · intro hn
      obtain ⟨y, ys, hy⟩ := List.exists_cons_of_ne_nil hn
      exact ⟨_, y, by rw [hy]; simp, rfl⟩
  rw [h2]
  change _ ∧ ¬ (formFlags e).contains 65510 = true ∨ _ ↔ _
  simp only [hf, Bool.false_eq_true, not_false_eq_true, and_true]

theorem form_entriesOf {cx : Cx} {T : Str × Str → Prop} (hcx : ReadsPlainly U cx T) {e : Str × Str} (hx : ∀ c ∈ e.2, LineFlag U c)
    (h : PlainEntry U e.1) (hl : (utf8 (formLine e)).length ≤ 65535) :
    EntriesOf U cx (formLine e) (formEntries U T e) := by
  have hm' : LineMeans U cx.flagType cx.flagAliases cx.ignoreChars (formLine e) e.1 (formFlags e) := by
    rw [hcx.flagType, hcx.aliases, hcx.ignore]
    exact parseDicLine_ok.1 (form_dicLine hx h hl)
  have hs : ¬ SkippedLine (formLine e) := by
    obtain ⟨c, s, hw⟩ := List.exists_cons_of_ne_nil h.1
    have hc := (h.2.2 c (by rw [hw]; simp)).2
    rintro (hn | ⟨c', rest, hr⟩)
    · unfold formLine at hn; split at hn <;> simp [hw] at hn
    · have : (formLine e).head? = some c := by unfold formLine; split <;> simp [hw]
      rw [hr, List.head?_cons, Option.some.injEq] at this
      exact hc (by rw [← this]; simp)
  unfold formEntries
  split
  · rename_i hm
    refine .twin (form_trimmed hx h) hs hm' ((hcx.twins e hx).2 hm) ?_
      fun f => contains_hidden
    obtain ⟨c, s, hw⟩ := List.exists_cons_of_ne_nil h.1
    rw [hw, hcx.standard]; rfl
  · rename_i hm
    exact .plain (form_trimmed hx h) hs hm' fun ht => hm ((hcx.twins e hx).1 ht)

/-- Loading a list of stems with flags. -/
theorem listed_parse {So : Sorts} {aff number : Str} {cx : Cx} {T : Str × Str → Prop} (hcx : ReadsPlainly U cx T) {words : List (Str × Str)}
    (ha : Settings U aff cx) (hn : PlainHeader U number)
    (hw : ∀ e ∈ words, PlainEntry U e.1 ∧ (∀ c ∈ e.2, LineFlag U c) ∧ (utf8 (formLine e)).length ≤ 65535)
    (ht : ∀ e ∈ words, T e → (utf8 (titleForm U e.1)).length ≤ 65535) :
    ∃ D, parse U So aff (listText number (words.map formLine)) = .ok D ∧ MadeFrom cx D.aff ∧
      D.words.slots = (words.map (formEntries U T)).flatten := by
  have hchars : ∀ l ∈ words.map formLine, ∀ c ∈ l, c ∉ ['\n', '\r', '#'] := by
    intro l hl c hc
    obtain ⟨e, he, rfl⟩ := List.mem_map.1 hl
    have hp := (hw e he).1
    have hcw : c ∈ e.1 ∨ c = '/' ∨ c ∈ e.2 := by
      unfold formLine at hc
      split at hc
      · exact .inl hc
      · simpa using hc
    rcases hcw with h | rfl | h
    · have := (hp.2.2 c h).2
      simp only [List.mem_cons, not_or] at this ⊢
      exact ⟨this.1, this.2.1, this.2.2.2.2.2.2.1, by simp⟩
    · decide
    · exact ((hw e he).2.1 c h).2.2.2
  obtain ⟨first, rest, hc, rfl, hr⟩ := listed_content hn hchars
  obtain ⟨l, hc', hs⟩ := ha
  rw [content_iff.1 hc'] at hs
  have hpa : parseAff U aff = .ok cx := parseAff_iff.2 hs
  have hok := parseAff_ok U aff
  rw [hpa] at hok
  obtain ⟨A, hA1, hA2⟩ := assemble_ok So hok
  have hd : parseDic U cx (listText first.2 (words.map formLine)) =
      .ok ⟨(words.map (formEntries U T)).flatten⟩ := by
    rw [parseDic_content hc hn.1]
    rw [fold_entries (ess := words.map (formEntries U T))]
    · rfl
    · have : List.Forall₂ (fun l es => EntriesOf U cx l es) (words.map formLine)
          (words.map (formEntries U T)) := by
        rw [List.forall₂_map_left_iff, List.forall₂_map_right_iff, List.forall₂_same]
        exact fun e he => form_entriesOf hcx (hw e he).2.1 (hw e he).1 (hw e he).2.2
      rw [← hr, List.forall₂_map_left_iff] at this
      exact this
    · rintro l hl ⟨t, stem, F, title, h1, -, h3, h4, h5, h6⟩
      have hl' : l.2 ∈ words.map formLine := by rw [← hr]; exact List.mem_map.2 ⟨l, hl, rfl⟩
      obtain ⟨e, he, hel⟩ := List.mem_map.1 hl'
      rw [← hel] at h1
      have : t = formLine e := by rw [← trim_eq h1]; exact trim_eq (form_trimmed (hw e he).2.1 (hw e he).1)
      subst this
      replace h3 := parseDicLine_ok.2 h3
      rw [hcx.flagType, hcx.aliases, hcx.ignore, form_dicLine (hw e he).2.1 (hw e he).1 (hw e he).2.2] at h3
      cases h3
      have ht' := ht e he ((hcx.twins e (hw e he).2.1).1 h4)
      have : titleForm U e.1 = title := by
        obtain ⟨c, s, e'⟩ := List.exists_cons_of_ne_nil (hw e he).1.1
        rw [e', hcx.standard] at h5
        rw [e']
        exact Option.some.inj h5
      rw [this] at ht'
      exact absurd ht' (by unfold byteLen at h6; omega)
  exact ⟨_, parse_ok hpa hd (hA2 _), hA1, rfl⟩

/-- Loading a list of stems. -/
theorem form_parse {So : Sorts} {aff number : Str} {need : Option Char} {P S : List Affix} {words : List (Str × Str)}
    (ha : Settings U aff (formSettings need P S)) (hn : PlainHeader U number)
    (hw : ∀ e ∈ words, PlainEntry U e.1 ∧ (∀ c ∈ e.2, LineFlag U c) ∧ (utf8 (formLine e)).length ≤ 65535)
    (ht : ∀ e ∈ words, HasTitle U e → (utf8 (titleForm U e.1)).length ≤ 65535) :
    ∃ D, parse U So aff (listText number (words.map formLine)) = .ok D ∧ MadeFrom (formSettings need P S) D.aff ∧
      D.words.slots = (words.map (formEntries U (HasTitle U))).flatten :=
  listed_parse ⟨rfl, rfl, rfl, fun _ => form_hasTwin rfl, rfl⟩ ha hn hw ht

/-- The entries of a list. -/
theorem formEntries_mem {T : Str × Str → Prop} {words : List (Str × Str)} {s : Str} {F : FlagSet} : (s, F) ∈ (words.map (formEntries U T)).flatten ↔
    (∃ e ∈ words, s = e.1 ∧ F = formFlags e) ∨
    ∃ e ∈ words, T e ∧ s = titleForm U e.1 ∧ F = (formFlags e).withFlag hiddenHomonymFlag := by
  simp only [List.mem_flatten, List.mem_map]
  constructor
  · rintro ⟨_, ⟨e, he, rfl⟩, h⟩
    unfold formEntries at h
    split at h
    · rename_i hm
      simp only [List.mem_cons, Prod.mk.injEq, List.not_mem_nil, or_false] at h
      rcases h with ⟨rfl, rfl⟩ | ⟨rfl, rfl⟩
      · exact .inr ⟨e, he, hm, rfl, rfl⟩
      · exact .inl ⟨_, he, rfl, rfl⟩
    · simp only [List.mem_cons, Prod.mk.injEq, List.not_mem_nil, or_false] at h
      obtain ⟨rfl, rfl⟩ := h
      exact .inl ⟨_, he, rfl, rfl⟩
  · rintro (⟨e, hw, rfl, rfl⟩ | ⟨e, he, hm, rfl, rfl⟩)
    · refine ⟨_, ⟨e, hw, rfl⟩, ?_⟩
      unfold formEntries
      split <;> simp
    · refine ⟨_, ⟨e, he, rfl⟩, ?_⟩
      unfold formEntries
      rw [if_pos hm]
      simp

/-! ## The derivations -/

section Forms
variable {C : Checker} {need : Option Char} {P S : List Affix} {words : List (Str × Str)}

/-- What is known about the dictionary of such a list. -/
structure FormDict (C : Checker) (need : Option Char) (P S : List Affix) (words : List (Str × Str)) : Prop where
  made : MadeFrom (formSettings need P S) C.dict.aff
  slots : C.dict.words.slots = (words.map (formEntries C.U (HasTitle C.U))).flatten
  rules : ∀ a ∈ P ++ S, SimpleRule a
  flags : ∀ e ∈ words, ∀ c ∈ e.2, LineFlag C.U c
  conds : C.dict.CondsParsed

variable (h : FormDict C need P S words)
include h

theorem FormDict.mem {s : Str} {F : FlagSet} : (s, F) ∈ C.dict.words.slots ↔ (∃ e ∈ words, s = e.1 ∧ F = formFlags e) ∨
    ∃ e ∈ words, HasTitle C.U e ∧ s = titleForm C.U e.1 ∧ F = (formFlags e).withFlag hiddenHomonymFlag := by
  rw [h.slots]
  exact formEntries_mem

theorem FormDict.options : C.dict.aff.options = { needAffixFlag := need.map Char.toNat } := h.made.options

theorem FormDict.elems {s : Str} {F : FlagSet} (hm : (s, F) ∈ C.dict.words.slots) {f : Nat} (hf : f ∈ F.elems) :
    f < 128 ∨ f = 65535 := by
  rcases h.mem.1 hm with ⟨e, he, -, rfl⟩ | ⟨e, he, -, -, rfl⟩
  · obtain ⟨c, hc, rfl⟩ := formFlags_iff.1 hf
    exact .inl (h.flags e he c hc).2.1
  · rw [← FlagSet.contains_iff, contains_hidden, FlagSet.contains_iff, formFlags_iff] at hf
    rcases hf with ⟨c, hc, rfl⟩ | rfl
    · exact .inl (h.flags e he c hc).2.1
    · exact .inr rfl

theorem FormDict.good {s : Str} {F : FlagSet} (hm : (s, F) ∈ C.dict.words.slots) :
    Good C.dict F ∧ ¬ KeepsCase C.dict F := by
  have ho := h.options
  constructor
  · constructor
    · intro hf
      have := h.elems hm hf
      rw [ho] at this
      rcases this with h | h
      · exact absurd (show 65510 < 128 from h) (by decide)
      · cases h
    · rintro ⟨-, y, hy, -⟩
      rw [ho] at hy; cases hy
  · rintro ⟨y, hy, -⟩
    rw [ho] at hy; cases hy

theorem FormDict.pfx {a : Affix} : a ∈ tableOf C.dict .pfx ↔ a ∈ P := by
  have : (tableOf C.dict .pfx).Perm P := by
    have hp : (tableOf C.dict .pfx).Perm (P.map fun a => { a with add := a.add.filter fun c => !([] : List Char).contains c }) :=
      h.made.prefixes
    simpa using hp
  exact this.mem_iff

theorem FormDict.sfx {a : Affix} : a ∈ tableOf C.dict .sfx ↔ a ∈ S := by
  have : (tableOf C.dict .sfx).Perm S := by
    have hp : (tableOf C.dict .sfx).Perm (S.map fun a => { a with add := a.add.filter fun c => !([] : List Char).contains c }) :=
      h.made.suffixes
    simpa using hp
  exact this.mem_iff

theorem FormDict.simple {k : Kind} {a : Affix} (ha : a ∈ tableOf C.dict k) : SimpleRule a := by
  cases k with
  | pfx => exact h.rules a (List.mem_append_left _ (h.pfx.1 ha))
  | sfx => exact h.rules a (List.mem_append_right _ (h.sfx.1 ha))

theorem FormDict.noFlags {k : Kind} {a : Affix} (ha : a ∈ tableOf C.dict k) {f : Nat} : f ∉ a.flags.elems := by
  rw [(h.simple ha).2]
  simp [FlagSet.empty, FlagSet.elems]

theorem FormDict.notHas {k : Kind} {a : Affix} (ha : a ∈ tableOf C.dict k) {f : Option Nat} : ¬ Has a.flags f := by
  rintro ⟨y, -, hy⟩
  exact h.noFlags ha hy

/-- The forms made from an entry. -/
theorem FormDict.forms {skip : Bool} {w stem : Str} {F : FlagSet} {fl : Str} (hm : (stem, F) ∈ C.dict.words.slots)
    (hF : ∀ f < 256, f ∈ F.elems ↔ ∃ c ∈ fl, c.toNat = f) (hs : skip = true → 65535 ∉ F.elems)
    (hneed : ∀ c, need = some c → c.toNat < 256) :
    (∃ steps, Derives .code C.dict skip w stem F steps) ↔ Form need P S stem fl w := by
  have ho := h.options
  have huse : Usable C.dict skip stem F := ⟨hm, (by rw [ho]; rintro ⟨y, hy, -⟩; cases hy), hs⟩
  have hlic : ∀ {k a}, a ∈ tableOf C.dict k → (a.flag ∈ F.elems ↔ Licensed fl a) :=
    fun ha => hF _ (h.simple ha).1
  constructor
  · rintro ⟨steps, hd⟩
    cases hd with
    | listed e same plain =>
      subst same
      refine .bare fun c hc hcf => plain ⟨c.toNat, by rw [ho, hc]; rfl, (hF _ (hneed c hc)).2 ⟨c, hcf, rfl⟩⟩
    | @one k a e hs licence =>
      have hl := (hlic hs.mem).1 licence
      cases k with
      | pfx => exact .pfx (h.pfx.1 hs.mem) hl hs.cond hs.applies
      | sfx => exact .sfx (h.sfx.1 hs.mem) hl hs.cond hs.applies
    | @pair a b _ e h1 h2 cross full circ licence =>
      have hl : Licensed fl a ∧ Licensed fl b := by
        rcases licence with ⟨-, k1, k2 | k2⟩ | ⟨-, k1, k2 | k2⟩
        · exact absurd k2 (h.noFlags h1.mem)
        · exact ⟨(hlic h1.mem).1 k1, (hlic h2.mem).1 k2⟩
        · exact absurd k2 (h.noFlags h2.mem)
        · exact ⟨(hlic h1.mem).1 k2, (hlic h2.mem).1 k1⟩
      exact .both (h.sfx.1 h1.mem) (h.pfx.1 h2.mem) hl.1 hl.2 cross.1 cross.2 h1.cond h1.applies h2.cond h2.applies
    | two e h1 _ _ _ _ licence => exact absurd licence.2 (h.noFlags h1.mem)
    | twoThenOne e h1 _ _ _ _ _ _ licence => exact absurd licence.2.1 (h.noFlags h1.mem)
    | sandwich e h1 m2 _ _ _ _ _ _ _ licence =>
      rcases licence.2.2 with k | k
      · exact absurd k (h.noFlags h1.mem)
      · exact absurd k (h.noFlags m2)
  · intro hf
    cases hf with
    | bare hn =>
      refine ⟨_, .listed huse rfl ?_⟩
      rw [ho]
      rintro ⟨y, hy, hyF⟩
      obtain ⟨c, hc, rfl⟩ := Option.map_eq_some_iff.1 hy
      obtain ⟨d, hd, hdc⟩ := (hF _ (hneed c hc)).1 hyF
      exact hn c hc (Char.toNat_inj.1 hdc ▸ hd)
    | @pfx a _ ha hl hc happ =>
      have hm := h.pfx.2 ha
      exact ⟨_, .one (k := .pfx) huse ⟨hm, happ, hc⟩ ((hlic hm).2 hl) (h.notHas hm) (h.notHas hm) (h.notHas hm)⟩
    | @sfx a _ ha hl hc happ =>
      have hm := h.sfx.2 ha
      exact ⟨_, .one (k := .sfx) huse ⟨hm, happ, hc⟩ ((hlic hm).2 hl) (h.notHas hm) (h.notHas hm) (h.notHas hm)⟩
    | both hs hp l1 l2 c1 c2 d1 a1 d2 a2 =>
      have m1 := h.sfx.2 hs
      have m2 := h.pfx.2 hp
      exact ⟨_, .pair huse ⟨m1, a1, d1⟩ ⟨m2, a2, d2⟩ ⟨c1, c2⟩ ⟨h.notHas m1, h.notHas m2⟩
        ⟨fun k => absurd k (h.notHas m1), fun k => absurd k (h.notHas m2)⟩
        (.inl ⟨h.notHas m2, (hlic m1).2 l1, .inr ((hlic m2).2 l2)⟩)⟩

/-- What can be derived. -/
theorem FormDict.derives (hneed : ∀ c, need = some c → c.toNat < 256) {skip : Bool} {w : Str} :
    (∃ stem F steps, Derives .code C.dict skip w stem F steps) ↔
    FormedSo need P S words w ∨
      (skip = false ∧ ∃ e ∈ words, HasTitle C.U e ∧ Form need P S (titleForm C.U e.1) e.2 w) := by
  have hF1 : ∀ e : Str × Str, ∀ f < 256, f ∈ (formFlags e).elems ↔ ∃ c ∈ e.2, c.toNat = f := fun e f _ => formFlags_iff
  have hF2 : ∀ e : Str × Str, ∀ f < 256, f ∈ ((formFlags e).withFlag hiddenHomonymFlag).elems ↔ ∃ c ∈ e.2, c.toNat = f := by
    intro e f hf
    rw [← FlagSet.contains_iff, contains_hidden, FlagSet.contains_iff, formFlags_iff]
    exact or_iff_left (by omega)
  have hid : ∀ e : Str × Str, 65535 ∈ ((formFlags e).withFlag hiddenHomonymFlag).elems := by
    intro e
    rw [← FlagSet.contains_iff]
    exact contains_hidden.2 (.inr rfl)
  have hnot : ∀ e ∈ words, 65535 ∉ (formFlags e).elems := by
    intro e he hm
    obtain ⟨c, hc, h'⟩ := formFlags_iff.1 hm
    have := (h.flags e he c hc).2.1
    omega
  constructor
  · rintro ⟨stem, F, steps, hd⟩
    have hu : Usable C.dict skip stem F := by
      cases hd with
      | listed e => exact e
      | one e => exact e
      | pair e => exact e
      | two e => exact e
      | twoThenOne e => exact e
      | sandwich e => exact e
    rcases h.mem.1 hu.listed with ⟨e, he, rfl, rfl⟩ | ⟨e, he, ht, rfl, rfl⟩
    · exact .inl ⟨e, he, (h.forms hu.listed (hF1 e) hu.not_hidden hneed).1 ⟨_, hd⟩⟩
    · refine .inr ⟨?_, e, he, ht, (h.forms hu.listed (hF2 e) hu.not_hidden hneed).1 ⟨_, hd⟩⟩
      cases skip with
      | false => rfl
      | true => exact absurd (hid e) (hu.not_hidden rfl)
  · rintro (⟨e, he, hf⟩ | ⟨hk, e, he, ht, hf⟩)
    · obtain ⟨steps, hd⟩ := (h.forms (skip := skip) (h.mem.2 (.inl ⟨e, he, rfl, rfl⟩)) (hF1 e) (fun _ => hnot e he) hneed).2 hf
      exact ⟨_, _, _, hd⟩
    · obtain ⟨steps, hd⟩ := (h.forms (skip := skip) (h.mem.2 (.inr ⟨e, he, ht, rfl, rfl⟩)) (hF2 e)
        (fun k => by rw [hk] at k; cases k) hneed).2 hf
      exact ⟨_, _, _, hd⟩

theorem FormDict.shrinking : C.dict.Shrinking := by
  refine ⟨?_, ?_, ?_⟩
  · rw [h.options]; exact Nat.zero_lt_succ 2
  · rw [h.options]; intro h; cases h
  · rw [h.made.patterns]; intro c h; cases h

end Forms

/-! ## The answers -/

section Answers
variable {C : Checker} {E Y : Str → Prop}

/-- The text is found, with hidden entries or without. -/
def FoundBy (E Y : Str → Prop) (hh : HiddenHomonym) (w : Str) : Prop := if hh.skips = true then E w else Y w

/-- The checker finds the texts in `E`, and with hidden entries those in `Y`. -/
structure FindsAny (C : Checker) (E Y : Str → Prop) : Prop where
  standard : C.opts.caseHandling = .standard
  decides : ∀ fc hh w, (Decides C.U C.dict C.choice fc hh w none ↔ ¬ FoundBy E Y hh w) ∧
    ((∃ F, Decides C.U C.dict C.choice fc hh w (some F)) ↔ FoundBy E Y hh w) ∧
    ∀ F, Decides C.U C.dict C.choice fc hh w (some F) → Good C.dict F ∧ ¬ KeepsCase C.dict F

/-- The same without CHECKSHARPS. -/
structure Finds (C : Checker) (E Y : Str → Prop) : Prop extends FindsAny C E Y where
  sharps : C.dict.aff.options.checksharps = false

theorem FormDict.finds {need : Option Char} {P S : List Affix} {words : List (Str × Str)} (h : FormDict C need P S words)
    (hneed : ∀ c, need = some c → c.toNat < 256) :
    Finds C (FormedSo need P S words) (Formed C.U need P S words) := by
  have ho := h.options
  refine ⟨⟨by unfold Checker.opts; rw [h.made.options]; rfl, fun fc hh w => ?_⟩, by rw [ho]⟩
  have hn : C.dict.aff.options.allowsCompounding = false := by rw [ho]; rfl
  have hno : ∀ parts, ¬ RuleCompound C.dict fc w parts := by
    intro parts hp
    obtain ⟨rule, hr, -⟩ := hp.rule
    rw [h.made.rules] at hr
    cases hr
  have hcF : ∀ F, ¬ CompoundDecides C.U C.dict C.choice fc w (some F) := by
    rintro F (⟨h, -⟩ | ⟨-, l, p, q, h, -⟩)
    · rw [hn] at h; cases h
    · exact hno _ h
  have hcN : CompoundDecides C.U C.dict C.choice fc w none :=
    ⟨fun h => absurd h (by simp [hn]), fun ⟨parts, h, _⟩ => hno parts h⟩
  have hc := Checker.choice_fits h.conds
  have hd : (∃ stem F steps, Derives .code C.dict hh.skips w stem F steps) ↔
      FoundBy (FormedSo need P S words) (Formed C.U need P S words) hh w := by
    rw [h.derives hneed]
    unfold FoundBy Formed
    cases hh.skips <;> simp
  have hN : C.choice.simple hh w = none ↔ ¬ FoundBy (FormedSo need P S words) (Formed C.U need P S words) hh w := by
    rw [← hd]
    refine ⟨hc.simple_none hh w, fun h => ?_⟩
    cases hsm : C.choice.simple hh w with
    | none => rfl
    | some F =>
      obtain ⟨stem, steps, h'⟩ := hc.simple_some _ _ _ hsm
      exact absurd ⟨_, _, _, h'⟩ h
  refine ⟨⟨?_, fun h => .inr ⟨hN.2 h, hcN⟩⟩, ⟨?_, fun h => ?_⟩, ?_⟩
  · rintro (⟨-, h⟩ | ⟨h, -⟩)
    · exact absurd rfl h
    · exact hN.1 h
  · rintro ⟨F, ⟨h, -⟩ | ⟨-, h⟩⟩
    · exact Classical.not_not.1 fun hf => by rw [hN.2 hf] at h; cases h
    · exact absurd h (hcF F)
  · cases hsm : C.choice.simple hh w with
    | none => exact absurd h (hN.1 hsm)
    | some F => exact ⟨F, .inl ⟨hsm, by simp⟩⟩
  · rintro F (⟨h1, -⟩ | ⟨-, h1⟩)
    · obtain ⟨stem, steps, h'⟩ := hc.simple_some _ _ _ h1
      have hl : (stem, F) ∈ C.dict.words.slots := by
        cases h' with
        | listed e => exact e.listed
        | one e => exact e.listed
        | pair e => exact e.listed
        | two e => exact e.listed
        | twoThenOne e => exact e.listed
        | sandwich e => exact e.listed
      exact h.good hl
    · exact absurd h1 (hcF F)

variable (h : FindsAny C E Y)
include h

theorem FindsAny.fails (a : Attempt) : a.Fails C C.choice ↔ ¬ FoundBy E Y a.hidden a.text := by
  obtain ⟨d1, d2, d3⟩ := h.decides a.upper a.hidden a.text
  constructor
  · rintro (h | ⟨F, h, -, hk⟩)
    · exact d1.1 h
    · exact absurd hk (d3 F h).2
  · exact fun h => .inl (d1.2 h)

theorem FindsAny.succeeds (a : Attempt) : (∃ F, a.Succeeds C C.choice F) ↔ FoundBy E Y a.hidden a.text := by
  obtain ⟨d1, d2, d3⟩ := h.decides a.upper a.hidden a.text
  constructor
  · rintro ⟨F, h, -⟩
    exact d2.1 ⟨F, h⟩
  · intro h
    obtain ⟨F, h⟩ := d2.2 h
    exact ⟨F, h, .inr (d3 F h).2⟩

theorem FindsAny.verdict_none {w : Str} {k : Casing} (hk : HasCasing C.U w k) :
    WordVerdict C C.choice w none ↔ ∀ a ∈ attempts C w k, ¬ FoundBy E Y a.hidden a.text := by
  constructor
  · rintro ⟨k', hk', hf⟩ a ha
    rw [hasCasing_unique hk hk'] at ha
    exact (h.fails a).1 (hf a ha)
  · exact fun hf => ⟨k, hk, fun a ha => (h.fails a).2 (hf a ha)⟩

theorem FindsAny.verdict_true {w : Str} {k : Casing} (hk : HasCasing C.U w k) :
    WordVerdict C C.choice w (some true) ↔ ∃ a ∈ attempts C w k, FoundBy E Y a.hidden a.text := by
  constructor
  · rintro ⟨k', before, a, after, F, hk', h1, -, h2, -⟩
    rw [hasCasing_unique hk hk', h1]
    exact ⟨a, by simp, (h.succeeds a).1 ⟨F, h2⟩⟩
  · intro hf
    obtain ⟨before, a, after, h1, h2, h3⟩ := first_in hf
    obtain ⟨F, hF⟩ := (h.succeeds a).2 h3
    refine ⟨k, before, a, after, F, hk, h1, fun y hy => (h.fails y).2 (h2 y hy), hF, ?_⟩
    simp only [true_iff]
    exact ((h.decides a.upper a.hidden a.text).2.2 F hF.1).1

theorem FindsAny.titleOf (w : Str) : Spec.titleOf C w = titleForm C.U w := by
  have ho : C.opts.caseHandling = .standard := by
    exact h.standard
  cases w with
  | nil => rfl
  | cons y s =>
    unfold Spec.titleOf titleForm
    rw [ho]
    rfl

theorem FindsAny.lowerOf (w : Str) : Spec.lowerOf C w = C.U.lowerStr w := by
  have ho : C.opts.caseHandling = .standard := by
    exact h.standard
  unfold Spec.lowerOf
  rw [ho]
  rfl

omit h in
theorem mem_sharps : ∀ {n : Nat} {s t : Str}, t ∈ sharps n s ↔ Sharpened n s t := by
  intro n s t
  constructor
  · fun_induction sharps n s generalizing t with
    | case1 s => intro h; rw [List.mem_singleton.1 h]; exact .same
    | case2 k => intro h; rw [List.mem_singleton.1 h]; exact .same
    | case3 k c => intro h; rw [List.mem_singleton.1 h]; exact .same
    | case4 k c d s hcd ih1 =>
      obtain ⟨rfl, rfl⟩ := hcd
      simp only [List.mem_append, List.mem_map]
      rintro (⟨u, hu, rfl⟩ | ⟨u, hu, rfl⟩)
      · exact .sharp (ih1 hu)
      · exact .kept (ih1 hu)
    | case5 k c d s hcd ih =>
      simp only [List.mem_map]
      rintro ⟨u, hu, rfl⟩
      refine .letter (fun hp => hcd ?_) (ih hu)
      simp only [List.cons_prefix_cons] at hp
      exact ⟨hp.1.symm, hp.2.1.symm⟩
  · have hsame : ∀ n s, s ∈ sharps n s := by
      intro n s
      fun_induction sharps n s with
      | case1 s => simp
      | case2 k => simp
      | case3 k c => simp
      | case4 k c d s hcd ih1 =>
        obtain ⟨rfl, rfl⟩ := hcd
        exact List.mem_append_right _ (List.mem_map.2 ⟨s, ih1, rfl⟩)
      | case5 k c d s hcd ih => exact List.mem_map.2 ⟨_, ih, rfl⟩
    intro h
    induction h with
    | same => exact hsame _ _
    | @letter n c s t hp _ ih =>
      cases n with
      | zero =>
        unfold sharps at ih ⊢
        rw [List.mem_singleton.1 ih]; simp
      | succ n =>
        cases s with
        | nil =>
          unfold sharps at ih ⊢
          rw [List.mem_singleton.1 ih]; simp
        | cons d s =>
          unfold sharps
          rw [if_neg (by rintro ⟨rfl, rfl⟩; exact hp ⟨s, rfl⟩)]
          exact List.mem_map.2 ⟨_, ih, rfl⟩
    | sharp _ ih =>
      unfold sharps
      rw [if_pos ⟨rfl, rfl⟩]
      exact List.mem_append_left _ (List.mem_map.2 ⟨_, ih, rfl⟩)
    | kept _ ih =>
      unfold sharps
      rw [if_pos ⟨rfl, rfl⟩]
      exact List.mem_append_right _ (List.mem_map.2 ⟨_, ih, rfl⟩)

omit h in
theorem sharpened_none {n : Nat} {s t : Str} (h : Sharpened n s t) (hs : ¬ ['s', 's'] <:+: s) : t = s := by
  induction h with
  | same => rfl
  | letter _ _ ih => rw [ih fun h => hs (h.trans (List.suffix_cons _ _).isInfix)]
  | @sharp n s t _ _ => exact absurd ⟨[], s, rfl⟩ hs
  | @kept n s t _ _ => exact absurd ⟨[], s, rfl⟩ hs

variable (h1 : C.checkLowerAsTitle = false) (h2 : C.checkLowerAsUpper = false)
include h1 h2

theorem FindsAny.known {w : Str} {k : Casing} (hk : HasCasing C.U w k) :
    (∃ a ∈ attempts C w k, FoundBy E Y a.hidden a.text) ↔
      KnownBy C.U E Y w ∨ (C.dict.aff.options.checksharps = true ∧ SharpBy C.U Y w) := by
  have hacc : ∀ w, FoundBy E Y .accept w ↔ Y w := fun w => Iff.rfl
  have hskip : ∀ w, FoundBy E Y .skip w ↔ E w := fun w => Iff.rfl
  have hplain : ∀ p, (∃ a ∈ plainAttempts C w p, FoundBy E Y a.hidden a.text) ↔ Y w := by
    intro p
    unfold plainAttempts
    simp [h1, h2, hacc]
  have hns : ∀ {k}, HasCasing C.U w k → k ≠ .all → ¬ (C.dict.aff.options.checksharps = true ∧ SharpBy C.U Y w) :=
    fun hk hne h => hne (hasCasing_unique hk h.2.1)
  cases k with
  | none =>
    rw [or_iff_left (hns hk (by simp))]
    refine (hplain false).trans ⟨.small hk, ?_⟩
    intro hw
    cases hw with
    | small _ h => exact h
    | mixed h => rcases h with h | h <;> cases hasCasing_unique hk h
    | title h => cases hasCasing_unique hk h
    | caps h => cases hasCasing_unique hk h
    | article h => cases hasCasing_unique hk h
  | camel =>
    rw [or_iff_left (hns hk (by simp))]
    refine (hplain false).trans ⟨.mixed (.inr hk), ?_⟩
    intro hw
    cases hw with
    | small h => cases hasCasing_unique hk h
    | mixed _ h => exact h
    | title h => cases hasCasing_unique hk h
    | caps h => cases hasCasing_unique hk h
    | article h => cases hasCasing_unique hk h
  | pascal =>
    rw [or_iff_left (hns hk (by simp))]
    refine (hplain true).trans ⟨.mixed (.inl hk), ?_⟩
    intro hw
    cases hw with
    | small h => cases hasCasing_unique hk h
    | mixed _ h => exact h
    | title h => cases hasCasing_unique hk h
    | caps h => cases hasCasing_unique hk h
    | article h => cases hasCasing_unique hk h
  | init =>
    rw [or_iff_left (hns hk (by simp))]
    have : (∃ a ∈ attempts C w .init, FoundBy E Y a.hidden a.text) ↔ E w ∨ Y (C.U.lowerStr w) := by
      unfold attempts titleAttempts
      simp [hacc, hskip, h.lowerOf]
    refine this.trans ⟨.title hk, ?_⟩
    intro hw
    cases hw with
    | small h => cases hasCasing_unique hk h
    | mixed h => rcases h with h | h <;> cases hasCasing_unique hk h
    | title _ h => exact h
    | caps h => cases hasCasing_unique hk h
    | article h => cases hasCasing_unique hk h
  | all =>
    have hsf : ∀ x, (∃ t ∈ sharpForms x, Y t) → ∃ t, Y t ∧ Sharpened 5 x t := by
      rintro x ⟨t, ht, hf⟩
      unfold sharpForms at ht
      split at ht
      · exact ⟨t, hf, mem_sharps.1 ht⟩
      · cases ht
    have hfs : ∀ x t, Y t → Sharpened 5 x t → (∃ t ∈ sharpForms x, Y t) ∨ Y x := by
      intro x t hf ht
      by_cases hx : ['s', 's'] <:+: x
      · refine .inl ⟨t, ?_, hf⟩
        unfold sharpForms
        rw [if_pos hx]
        exact mem_sharps.2 ht
      · right
        rwa [← sharpened_none ht hx]
    have : (∃ a ∈ attempts C w .all, FoundBy E Y a.hidden a.text) ↔
        ((∃ t ∈ articleForms C w, Y t) ∨ (Y w ∨ Y (titleForm C.U w) ∨ Y (C.U.lowerStr w))) ∨
          (C.dict.aff.options.checksharps = true ∧ SharpBy C.U Y w) := by
      unfold attempts capsAttempts
      simp only [List.map_cons, List.map_append, List.cons_append, List.append_assoc,
        List.mem_cons, List.mem_append, List.mem_map, List.not_mem_nil, or_false]
      constructor
      · rintro ⟨a, rfl | ⟨t, ht, rfl⟩ | ⟨t, ht, rfl⟩ | rfl | rfl, hf⟩ <;> rw [hacc] at hf
        · exact .inl (.inr (.inl hf))
        · exact .inl (.inl ⟨t, ht, hf⟩)
        · split at ht
          · rename_i hc
            rw [h.lowerOf, h.titleOf] at ht
            refine .inr ⟨hc.1, hk, hc.2, ?_⟩
            rcases List.mem_append.1 ht with ht | ht
            · obtain ⟨t, h1, h2⟩ := hsf _ ⟨t, ht, hf⟩
              exact ⟨t, h1, .inl h2⟩
            · obtain ⟨t, h1, h2⟩ := hsf _ ⟨t, ht, hf⟩
              exact ⟨t, h1, .inr h2⟩
          · cases ht
        · rw [h.titleOf] at hf; exact .inl (.inr (.inr (.inl hf)))
        · rw [h.lowerOf] at hf; exact .inl (.inr (.inr (.inr hf)))
      · rintro ((⟨t, ht, hf⟩ | hf | hf | hf) | ⟨hc, -, hss, t, hf, ht⟩)
        · exact ⟨_, .inr (.inl ⟨t, ht, rfl⟩), (hacc _).2 hf⟩
        · exact ⟨_, .inl rfl, (hacc _).2 hf⟩
        · exact ⟨_, .inr (.inr (.inr (.inl rfl))), (hacc _).2 (by rw [h.titleOf]; exact hf)⟩
        · exact ⟨_, .inr (.inr (.inr (.inr rfl))), (hacc _).2 (by rw [h.lowerOf]; exact hf)⟩
        · rw [if_pos ⟨hc, hss⟩]
          rw [h.lowerOf, h.titleOf]
          rcases ht with ht | ht
          · rcases hfs _ t hf ht with ⟨t', h1, h2⟩ | h1
            · exact ⟨_, .inr (.inr (.inl ⟨t', List.mem_append_left _ h1, rfl⟩)), (hacc _).2 h2⟩
            · exact ⟨_, .inr (.inr (.inr (.inr rfl))), (hacc _).2 h1⟩
          · rcases hfs _ t hf ht with ⟨t', h1, h2⟩ | h1
            · exact ⟨_, .inr (.inr (.inl ⟨t', List.mem_append_right _ h1, rfl⟩)), (hacc _).2 h2⟩
            · exact ⟨_, .inr (.inr (.inr (.inl rfl))), (hacc _).2 h1⟩
    rw [this]
    refine or_congr_left ?_
    constructor
    · rintro (⟨t, ht, hf⟩ | hf)
      · unfold articleForms at ht
        split at ht
        · rename_i q b bs hd
          have hq : q = '\'' := by
            have := List.head?_dropWhile_not (fun x : Char => decide (x ≠ '\'')) w
            rw [hd] at this
            simpa using this
          subst hq
          have hw : w = w.takeWhile (fun x => decide (x ≠ '\'')) ++ '\'' :: b :: bs := by
            rw [← hd]; exact (List.takeWhile_append_dropWhile).symm
          have hna : '\'' ∉ w.takeWhile (fun x => decide (x ≠ '\'')) := by
            intro h
            have := List.mem_takeWhile_imp h
            simp at this
          simp only [List.mem_cons, List.not_mem_nil, or_false, h.lowerOf, h.titleOf] at ht
          refine .article hk hw hna (by simp) ?_
          rcases ht with rfl | rfl
          · exact .inl hf
          · exact .inr hf
        · cases ht
      · exact .caps hk hf
    · intro hw
      cases hw with
      | small h => cases hasCasing_unique hk h
      | mixed h => rcases h with h | h <;> cases hasCasing_unique hk h
      | title h => cases hasCasing_unique hk h
      | caps _ h => exact .inr h
      | @article a b _ hw hna hb hf =>
        left
        obtain ⟨y, ys, rfl⟩ := List.exists_cons_of_ne_nil hb
        have ht : w.takeWhile (fun x => decide (x ≠ '\'')) = a := by
          rw [hw, List.takeWhile_append_of_pos]
          · simp
          · intro z hz; simp; rintro rfl; exact hna hz
        have hd : w.dropWhile (fun x => decide (x ≠ '\'')) = '\'' :: y :: ys := by
          rw [hw, List.dropWhile_append_of_pos]
          · simp
          · intro z hz; simp; rintro rfl; exact hna hz
        unfold articleForms
        rw [hd]
        simp only [ht, h.lowerOf, h.titleOf]
        rcases hf with hf | hf
        · exact ⟨_, by simp, hf⟩
        · exact ⟨_, by simp, hf⟩

theorem FindsAny.verdict (w : Str) :
    (WordVerdict C C.choice w none ↔
      ¬ (KnownBy C.U E Y w ∨ (C.dict.aff.options.checksharps = true ∧ SharpBy C.U Y w))) ∧
    (WordVerdict C C.choice w (some true) ↔
      KnownBy C.U E Y w ∨ (C.dict.aff.options.checksharps = true ∧ SharpBy C.U Y w)) := by
  obtain ⟨k, hk⟩ := hasCasing_exists (U := C.U) w
  rw [h.verdict_none hk, h.verdict_true hk, ← h.known h1 h2 hk]
  exact ⟨by simp, Iff.rfl⟩

omit h h1 h2 in
theorem Finds.verdict (h : Finds C E Y) (h1 : C.checkLowerAsTitle = false) (h2 : C.checkLowerAsUpper = false) (w : Str) :
    (WordVerdict C C.choice w none ↔ ¬ KnownBy C.U E Y w) ∧
    (WordVerdict C C.choice w (some true) ↔
      KnownBy C.U E Y w) := by
  have := h.toFindsAny.verdict h1 h2 w
  simpa [h.sharps] using this

end Answers

end Spellbook
