import Verif.Spec.PlaceList
import Verif.Proof.FormList
/-!
# Proofs about lists of parts for certain places in compounds
-/

namespace Spellbook
open Spec Props

section Places
variable {C : Checker} {r : PlaceRules} {rules : List CompoundRule} {words : List (Str × Str)}

/-- What is known about the dictionary of such a list; it may also have rules for compounds. -/
structure PlaceDict (C : Checker) (r : PlaceRules) (rules : List CompoundRule) (words : List (Str × Str)) : Prop where
  made : MadeFrom { placeSettings r with compoundRules := rules } C.dict.aff
  slots : C.dict.words.slots = (words.map (formEntries C.U (HasTitle C.U))).flatten
  flags : ∀ e ∈ words, ∀ c ∈ e.2, LineFlag C.U c
  once : ∀ e ∈ words, ∀ e' ∈ words, e.1 = e'.1 → e.2 = e'.2
  only : ∀ c, r.only = some c → c.toNat < 256
  conds : C.dict.CondsParsed
  pos : 0 < r.min.getD 3

variable (h : PlaceDict C r rules words)
include h

theorem PlaceDict.mem {s : Str} {F : FlagSet} : (s, F) ∈ C.dict.words.slots ↔ (∃ e ∈ words, s = e.1 ∧ F = formFlags e) ∨
    ∃ e ∈ words, HasTitle C.U e ∧ s = titleForm C.U e.1 ∧ F = (formFlags e).withFlag hiddenHomonymFlag := by
  rw [h.slots]
  exact formEntries_mem

theorem PlaceDict.options : C.dict.aff.options = (placeSettings r).options := h.made.options

theorem PlaceDict.elems {s : Str} {F : FlagSet} (hm : (s, F) ∈ C.dict.words.slots) {f : Nat} (hf : f ∈ F.elems) :
    f < 128 ∨ f = 65535 := by
  rcases h.mem.1 hm with ⟨e, he, -, rfl⟩ | ⟨e, he, -, -, rfl⟩
  · obtain ⟨c, hc, rfl⟩ := formFlags_iff.1 hf
    exact .inl (h.flags e he c hc).2.1
  · rw [← FlagSet.contains_iff, contains_hidden, FlagSet.contains_iff, formFlags_iff] at hf
    rcases hf with ⟨c, hc, rfl⟩ | rfl
    · exact .inl (h.flags e he c hc).2.1
    · exact .inr rfl

theorem PlaceDict.notForbidden {s : Str} {F : FlagSet} (hm : (s, F) ∈ C.dict.words.slots) :
    C.dict.aff.options.forbiddenWordFlag ∉ F.elems := by
  intro hf
  have := h.elems hm hf
  rw [h.options] at this
  rcases this with h | h
  · exact absurd (show 65510 < 128 from h) (by decide)
  · cases h

theorem PlaceDict.good {s : Str} {F : FlagSet} (hm : (s, F) ∈ C.dict.words.slots) :
    Good C.dict F ∧ ¬ KeepsCase C.dict F := by
  have ho := h.options
  refine ⟨⟨h.notForbidden hm, ?_⟩, ?_⟩
  · rintro ⟨-, y, hy, -⟩
    rw [ho] at hy; cases hy
  · rintro ⟨y, hy, -⟩
    rw [ho] at hy; cases hy

theorem PlaceDict.table (k : Kind) : tableOf C.dict k = [] := by
  cases k
  · exact List.Perm.eq_nil h.made.prefixes
  · exact List.Perm.eq_nil h.made.suffixes

theorem PlaceDict.noStep {k : Kind} {a : Affix} {s t : Str} : ¬ Step C.dict k a s t := fun hs => by
  have := hs.mem; rw [h.table] at this; simp at this

theorem PlaceDict.visible {e : Str × Str} (he : e ∈ words) : 65535 ∉ (formFlags e).elems := by
  intro hm
  obtain ⟨c, hc, h'⟩ := formFlags_iff.1 hm
  have := (h.flags e he c hc).2.1
  omega

omit h in
theorem hidden_elem (e : Str × Str) : 65535 ∈ ((formFlags e).withFlag hiddenHomonymFlag).elems := by
  rw [← FlagSet.contains_iff]
  exact contains_hidden.2 (.inr rfl)

/-- Which entries may stand alone. -/
theorem PlaceDict.alone {e : Str × Str} {F : FlagSet}
    (hF : ∀ f < 256, f ∈ F.elems ↔ ∃ c ∈ e.2, c.toNat = f) :
    ¬ Has F C.dict.aff.options.onlyInCompoundFlag ↔ StandsAlone r e.2 := by
  rw [h.options]
  constructor
  · intro hn c hc hm
    exact hn ⟨c.toNat, by unfold placeSettings; rw [hc]; rfl, (hF _ (h.only c hc)).2 ⟨c, hm, rfl⟩⟩
  · rintro hs ⟨f, hf, hm⟩
    obtain ⟨c, hc, rfl⟩ := Option.map_eq_some_iff.1 (show r.only.map Char.toNat = some f from hf)
    obtain ⟨d, hd, e⟩ := (hF _ (h.only c hc)).1 hm
    rw [Char.toNat_inj.1 e] at hd
    exact hs c hc hd

/-- What can be derived. -/
theorem PlaceDict.derives {skip : Bool} {w : Str} : (∃ stem F steps, Derives .code C.dict skip w stem F steps) ↔
    (∃ e ∈ words, StandsAlone r e.2 ∧ w = e.1) ∨
      (skip = false ∧ ∃ e ∈ words, HasTitle C.U e ∧ StandsAlone r e.2 ∧ w = titleForm C.U e.1) := by
  have hF1 : ∀ e : Str × Str, ∀ f < 256, f ∈ (formFlags e).elems ↔ ∃ c ∈ e.2, c.toNat = f := fun e f _ => formFlags_iff
  have hF2 : ∀ e : Str × Str, ∀ f < 256, f ∈ ((formFlags e).withFlag hiddenHomonymFlag).elems ↔ ∃ c ∈ e.2, c.toNat = f := by
    intro e f hf
    rw [← FlagSet.contains_iff, contains_hidden, FlagSet.contains_iff, formFlags_iff]
    exact or_iff_left (by omega)
  constructor
  · rintro ⟨stem, F, steps, hd⟩
    cases hd with
    | listed e same _ =>
      subst same
      rcases h.mem.1 e.listed with ⟨v, hv, hs, rfl⟩ | ⟨v, hv, hm, hs, rfl⟩
      · exact .inl ⟨v, hv, (h.alone (hF1 v)).1 e.not_only_in_compound, hs⟩
      · refine .inr ⟨?_, v, hv, hm, (h.alone (hF2 v)).1 e.not_only_in_compound, hs⟩
        cases skip with
        | false => rfl
        | true => exact absurd (hidden_elem v) (e.not_hidden rfl)
    | one _ hs => exact absurd hs h.noStep
    | pair _ hs => exact absurd hs h.noStep
    | two _ hs => exact absurd hs h.noStep
    | twoThenOne _ hs => exact absurd hs h.noStep
    | sandwich _ hs => exact absurd hs h.noStep
  · have hneed : ∀ F, ¬ Has F C.dict.aff.options.needAffixFlag := by
      rw [h.options]; rintro F ⟨y, hy, -⟩; cases hy
    rintro (⟨v, hv, ha, rfl⟩ | ⟨rfl, v, hv, hm, ha, rfl⟩)
    · exact ⟨_, _, [], .listed ⟨h.mem.2 (.inl ⟨v, hv, rfl, rfl⟩), (h.alone (hF1 v)).2 ha, fun _ => h.visible hv⟩ rfl (hneed _)⟩
    · exact ⟨_, _, [], .listed ⟨h.mem.2 (.inr ⟨v, hv, hm, rfl, rfl⟩), (h.alone (hF2 v)).2 ha, fun hk => by cases hk⟩ rfl
        (hneed _)⟩

/-- The flag of a place. -/
def placeFlag (r : PlaceRules) : Mode → Option Char
  | .atBegin => r.first
  | .atMiddle => r.middle
  | .atEnd => r.last
  | .full => none

theorem PlaceDict.mayStand {m : Mode} {e : Str × Str} :
    MayStandAt C.dict m (formFlags e) ↔ FlagsAllow r (placeFlag r m) e.2 := by
  have key : ∀ o : Option Char, Has (formFlags e) (o.map Char.toNat) ↔ ∃ c ∈ e.2, o = some c := by
    intro o
    constructor
    · rintro ⟨f, hf, hm⟩
      obtain ⟨c, hc, rfl⟩ := Option.map_eq_some_iff.1 hf
      obtain ⟨d, hd, e⟩ := formFlags_iff.1 hm
      rw [Char.toNat_inj.1 e] at hd
      exact ⟨c, hd, hc⟩
    · rintro ⟨c, hc, rfl⟩
      exact ⟨c.toNat, rfl, formFlags_iff.2 ⟨c, hc, rfl⟩⟩
  have h1 : C.dict.aff.options.compoundFlag = r.any.map Char.toNat := by rw [h.options]; rfl
  have h2 : positionFlag C.dict m = (placeFlag r m).map Char.toNat := by
    cases m <;> unfold positionFlag placeFlag <;> rw [h.options] <;> rfl
  unfold MayStandAt FlagsAllow
  rw [h1, h2, key, key]
  constructor
  · rintro (⟨c, hc, e⟩ | ⟨c, hc, e⟩)
    · exact ⟨c, hc, .inl e⟩
    · exact ⟨c, hc, .inr e⟩
  · rintro ⟨c, hc, e | e⟩
    · exact .inl ⟨c, hc, e⟩
    · exact .inr ⟨c, hc, e⟩

/-- What can be a part. -/
theorem PlaceDict.part {m : Mode} {t stem : Str} {F : FlagSet} {l : List (Kind × Affix)} :
    Part C.dict m t stem F l ↔ ∃ e ∈ words, t = e.1 ∧ stem = e.1 ∧ F = formFlags e ∧ l = [] ∧
      FlagsAllow r (placeFlag r m) e.2 := by
  constructor
  · intro hp
    cases hp with
    | listed entry visible same _ position =>
      subst same
      rcases h.mem.1 entry with ⟨e, he, rfl, rfl⟩ | ⟨v, hv, hm, hs, rfl⟩
      · exact ⟨e, he, rfl, rfl, rfl, rfl, h.mayStand.1 position⟩
      · exact absurd (hidden_elem v) visible
    | one _ _ hs => exact absurd hs h.noStep
    | pair _ _ hs => exact absurd hs h.noStep
  · rintro ⟨e, he, rfl, rfl, rfl, rfl, ha⟩
    refine .listed (h.mem.2 (.inl ⟨e, he, rfl, rfl⟩)) (h.visible he) rfl ?_ (h.mayStand.2 ha)
    rw [h.options]; rintro ⟨y, hy, -⟩; cases hy

theorem PlaceDict.unique : PartsUnique C.dict := by
  intro m p q hp hq ht
  obtain ⟨e, he, a1, a2, a3, a4, -⟩ := h.part.1 hp
  obtain ⟨e', he', b1, b2, b3, b4, -⟩ := h.part.1 hq
  have h1 : e.1 = e'.1 := by rw [← a1, ← b1, ht]
  have h2 := h.once e he e' he' h1
  refine ⟨by rw [a2, b2, h1], ?_, by unfold Piece.Modified; rw [a4, b4]⟩
  rw [a3, b3]
  unfold formFlags
  rw [h2]

theorem PlaceDict.noPairs : NoPairChecks C.dict :=
  ⟨by rw [h.made.patterns]; rfl, by rw [h.options]; rfl, by rw [h.made.vowels]; rfl⟩

theorem PlaceDict.shrinking : C.dict.Shrinking := by
  refine ⟨?_, ?_, ?_⟩
  · rw [h.options]; exact h.pos
  · rw [h.options]; intro h; cases h
  · rw [h.noPairs.patterns]; intro c h; cases h

/-- The piece of a word of the list. -/
def placePiece (e : Str × Str) : Piece := ⟨e.1, e.1, formFlags e, []⟩

theorem PlaceDict.pieceAt {m : Mode} {p : Piece} :
    PieceAt C.dict m p ↔ ∃ e ∈ words, p = placePiece e ∧ FlagsAllow r (placeFlag r m) e.2 := by
  constructor
  · rintro ⟨hp, -⟩
    obtain ⟨e, he, a1, a2, a3, a4, a5⟩ := h.part.1 hp
    refine ⟨e, he, ?_, a5⟩
    cases p
    cases a1; cases a2; cases a3; cases a4
    rfl
  · rintro ⟨e, he, rfl, ha⟩
    exact ⟨h.part.2 ⟨e, he, rfl, rfl, rfl, rfl, ha⟩, h.notForbidden (h.mem.2 (.inl ⟨e, he, rfl, rfl⟩))⟩

omit h in
theorem texts_placePieces (parts : List (Str × Str)) : texts (parts.map placePiece) = wordsText parts := by
  unfold texts wordsText
  rw [List.map_map]
  rfl

omit h in
theorem rootBonus_none {D : Dict} (hD : D.aff.options.compoundRootFlag = none) (F : FlagSet) : rootBonus D F = 0 := by
  unfold rootBonus
  rw [if_neg]
  rw [hD]
  rintro ⟨y, hy, -⟩
  cases hy

/-- What is a compound. -/
theorem PlaceDict.compound {fc : Forceucase} {w : Str} :
    (∃ pieces, PlainCompound C.U C.dict fc w pieces) ↔ OfPlaced C.U r words w := by
  have ho := h.options
  have hmin : C.dict.aff.options.minChars = r.min.getD 3 := by rw [ho]; rfl
  have hmax : C.dict.aff.options.compoundMaxWordCount = r.max := by rw [ho]; rfl
  have hdup : C.dict.aff.options.compoundCheckDuplicate = r.dup := by rw [ho]; rfl
  have htri : C.dict.aff.options.compoundCheckTriple = r.triple := by rw [ho]; rfl
  have hcap : C.dict.aff.options.compoundCheckCase = r.capital := by rw [ho]; rfl
  have hrb : ∀ l : List Piece, (l.map fun p => rootBonus C.dict p.flags).sum = 0 := by
    intro l
    have : ∀ p : Piece, rootBonus C.dict p.flags = 0 := fun p => rootBonus_none (by rw [ho]; rfl) _
    simp [this]
  constructor
  · rintro ⟨pieces, hw, hp⟩
    have hex : ∀ p ∈ pieces, ∃ e ∈ words, p = placePiece e := by
      intro p hp'
      obtain ⟨l, rr, e⟩ := List.append_of_mem hp'
      obtain ⟨e, he, h1, -⟩ := h.pieceAt.1 (hp.positions l p rr e)
      exact ⟨e, he, h1⟩
    obtain ⟨parts, rfl, hin⟩ : ∃ parts : List (Str × Str), pieces = parts.map placePiece ∧ ∀ e ∈ parts, e ∈ words := by
      clear hw hp
      induction pieces with
      | nil => exact ⟨[], rfl, fun _ h => by cases h⟩
      | cons p ps ih =>
        obtain ⟨e, he, rfl⟩ := hex p (by simp)
        obtain ⟨parts, rfl, hin⟩ := ih fun q hq => hex q (by simp [hq])
        exact ⟨e :: parts, rfl, fun x hx => by
          rcases List.mem_cons.1 hx with rfl | hx
          · exact he
          · exact hin x hx⟩
    have hallow : ∀ before e behind, parts = before ++ e :: behind →
        FlagsAllow r (placeFlag r (positionIn .atBegin (before.map placePiece) (behind.map placePiece))) e.2 := by
      intro before e behind hpar
      obtain ⟨e', he', h1, h2⟩ := h.pieceAt.1 (hp.positions (before.map placePiece) (placePiece e) (behind.map placePiece)
        (by rw [hpar]; simp))
      have he : e ∈ words := hin e (by rw [hpar]; simp)
      rw [h.once e he e' he' (congrArg Piece.text h1)]
      exact h2
    have h2 : 2 ≤ parts.length := by simpa using hp.atLeastTwo
    refine ⟨parts, ⟨h2, hin, ?_, ?_, ?_, ?_, ?_, ?_, ?_, ?_⟩, by rw [← texts_placePieces]; exact hw⟩
    · intro e he
      rw [← hmin]
      exact hp.long (placePiece e) (List.mem_map_of_mem he)
    · intro e behind hpar
      exact hallow [] e behind hpar
    · intro before e behind hpar h1 h2
      obtain ⟨a, l, rfl⟩ := List.exists_cons_of_ne_nil h1
      obtain ⟨b, l', rfl⟩ := List.exists_cons_of_ne_nil h2
      exact hallow _ e _ hpar
    · intro before e hpar
      cases before with
      | nil => rw [hpar] at h2; simp at h2
      | cons a l => exact hallow _ e [] hpar
    · intro n hn
      have := hp.count h.noPairs.vowels n (by rw [hmax]; exact hn)
      rw [hrb] at this
      simpa using this
    · intro hd before e e' hpar he
      have he1 : e ∈ words := hin e (by rw [hpar]; simp)
      have he2 : e' ∈ words := hin e' (by rw [hpar]; simp)
      refine hp.dup (by rw [hdup]; exact hd) h.noPairs.vowels (before.map placePiece) (placePiece e) (placePiece e')
        (by rw [hpar]; simp) ⟨he, ?_, Iff.rfl⟩
      change formFlags e = formFlags e'
      unfold formFlags
      rw [h.once e he1 e' he2 he]
    · intro ht before behind hpar h1 h2
      have := hp.triple (by rw [htri]; exact ht) (before.map placePiece) (behind.map placePiece) (by rw [hpar]; simp)
        (by simpa using h1) (by simpa using h2)
      rw [texts_placePieces, texts_placePieces, List.nil_append] at this
      exact this
    · intro ht before behind hpar h1 h2
      have := hp.capital (by rw [hcap]; exact ht) (before.map placePiece) (behind.map placePiece) (by rw [hpar]; simp)
        (by simpa using h1) (by simpa using h2)
      rw [texts_placePieces, texts_placePieces, List.nil_append] at this
      exact this
  · rintro ⟨parts, hp, rfl⟩
    have split : ∀ {l rr : List Piece}, parts.map placePiece = l ++ rr →
        ∃ before behind, parts = before ++ behind ∧ l = before.map placePiece ∧ rr = behind.map placePiece := by
      intro l rr hpar
      obtain ⟨before, behind, h1, h2, h3⟩ := List.map_eq_append_iff.1 hpar
      exact ⟨before, behind, h1, h2.symm, h3.symm⟩
    refine ⟨parts.map placePiece, (texts_placePieces parts).symm, by simpa using hp.atLeastTwo, ?_, ?_, ?_, ?_, ?_, ?_, ?_, ?_, ?_⟩
    · intro l p rr hpar
      obtain ⟨before, behind, h1, rfl, h3⟩ := split hpar
      cases behind with
      | nil => cases h3
      | cons e behind =>
        simp only [List.map_cons, List.cons.injEq] at h3
        obtain ⟨rfl, rfl⟩ := h3
        refine h.pieceAt.2 ⟨e, hp.listed e (by rw [h1]; simp), rfl, ?_⟩
        cases before with
        | nil => exact hp.begins e behind h1
        | cons a l =>
          cases behind with
          | nil => exact hp.ends (a :: l) e h1
          | cons b l' => exact hp.inside (a :: l) e (b :: l') h1 (by simp) (by simp)
    · intro p hp'
      obtain ⟨e, he, rfl⟩ := List.mem_map.1 hp'
      rw [hmin]
      exact hp.long e he
    · intro ht l rr hpar h1 h2
      obtain ⟨before, behind, h3, rfl, rfl⟩ := split hpar
      rw [texts_placePieces, texts_placePieces, List.nil_append]
      exact hp.notTriple (by rw [← htri]; exact ht) before behind h3 (by simpa using h1) (by simpa using h2)
    · intro ht l rr hpar h1 h2
      obtain ⟨before, behind, h3, rfl, rfl⟩ := split hpar
      rw [texts_placePieces, texts_placePieces, List.nil_append]
      exact hp.notCapital (by rw [← hcap]; exact ht) before behind h3 (by simpa using h1) (by simpa using h2)
    · rw [h.noPairs.patterns]; intro c h; cases h
    · intro hd _ l p q hpar hdu
      obtain ⟨before, behind, h3, rfl, h4⟩ := split hpar
      match behind, h4 with
      | [e, e'], h4 =>
        simp only [List.map_cons, List.map_nil, List.cons.injEq, and_true] at h4
        obtain ⟨rfl, rfl⟩ := h4
        exact hp.notDouble (by rw [← hdup]; exact hd) before e e' h3 hdu.1
    · rw [h.noPairs.rep]; intro h; cases h
    · rw [ho]; rintro - l q - ⟨y, hy, -⟩; cases hy
    · intro _ n hn
      rw [hmax] at hn
      rw [hrb]
      have := hp.notTooMany n hn
      simpa using this

/-- What decides about compounds, if the search finds exactly those which are meant. -/
theorem PlaceDict.decides_of {K : Prop} {fc : Forceucase} {w : Str}
    (sound : ∀ {fuel res}, C.checkCompound fuel .atBegin w fc = .ok (some res) →
      K ∧ Good C.dict res.flags ∧ ¬ KeepsCase C.dict res.flags)
    (complete : K → ∀ fuel, w.length < fuel → ∃ res, C.checkCompound fuel .atBegin w fc = .ok (some res)) :
    (CompoundDecides C.U C.dict C.choice fc w none ↔ ¬ K) ∧
    ((∃ F, CompoundDecides C.U C.dict C.choice fc w (some F)) ↔ K) ∧
    ∀ F, CompoundDecides C.U C.dict C.choice fc w (some F) → Good C.dict F ∧ ¬ KeepsCase C.dict F := by
  have hm : 0 < C.dict.aff.options.minChars := by rw [h.options]; exact h.pos
  obtain ⟨k1, k2⟩ := Checker.compound_iff h.conds hm fc w
  obtain ⟨o, hr⟩ := Checker.checkCompound_ok h.shrinking .atBegin w fc (Nat.lt_succ_self w.length)
  refine ⟨?_, ?_, ?_⟩
  · rw [← k1]
    constructor
    · rintro ⟨fuel, hn⟩ hp
      obtain ⟨res, hs⟩ := complete hp (max fuel (w.length + 1)) (by omega)
      have := (Checker.checkCompound_le C (Nat.le_max_left fuel (w.length + 1)) .atBegin w fc).ok hn
      rw [this] at hs
      cases hs
    · intro hn
      cases o with
      | none => exact ⟨_, hr⟩
      | some r => exact absurd (sound hr).1 hn
  · constructor
    · rintro ⟨F, hF⟩
      obtain ⟨fuel, res, hr, -⟩ := (k2 F).2 hF
      exact (sound hr).1
    · intro hp
      obtain ⟨res, hs⟩ := complete hp (w.length + 1) (by omega)
      exact ⟨res.flags, (k2 _).1 ⟨_, res, hs, rfl⟩⟩
  · intro F hF
    obtain ⟨fuel, res, hr, rfl⟩ := (k2 F).2 hF
    exact (sound hr).2

/-- What the search finds. -/
theorem PlaceDict.sound {fuel : Nat} {fc : Forceucase} {w : Str} {res : CompoundingResult}
    (hr : C.checkCompound fuel .atBegin w fc = .ok (some res)) :
    (OfPlaced C.U r words w ∨ ∃ parts, RuleCompound C.dict fc w parts) ∧ Good C.dict res.flags ∧
      ¬ KeepsCase C.dict res.flags := by
  have only : OnlyPlain C.dict := ⟨by rw [h.options]; rfl, by rw [h.noPairs.patterns]; intro c h; cases h⟩
  rcases C27_plain_sound h.conds only hr with ⟨pieces, hp, hF⟩ | ⟨parts, hp, p, hm, hF⟩
  · refine ⟨.inl (h.compound.1 ⟨pieces, hp⟩), ?_⟩
    obtain ⟨hw, hp⟩ := hp
    cases pieces with
    | nil => cases hF
    | cons p ps =>
      simp only [List.head?_cons, Option.map_some, Option.some.injEq] at hF
      rw [← hF]
      obtain ⟨e, he, rfl, -⟩ := h.pieceAt.1 (hp.positions [] p ps rfl)
      exact h.good (s := e.1) (h.mem.2 (.inl ⟨e, he, rfl, rfl⟩))
  · rw [hF]
    exact ⟨.inr ⟨parts, hp⟩, h.good (hp.listed p hm)⟩

/-- The search finds the compounds of parts at their places. -/
theorem PlaceDict.complete {fc : Forceucase} {w : Str} (hp : OfPlaced C.U r words w) (fuel : Nat) (hf : w.length < fuel) :
    ∃ res, C.checkCompound fuel .atBegin w fc = .ok (some res) := by
  have ha : C.dict.aff.options.allowsCompounding = true := by
    obtain ⟨parts, hp, -⟩ := hp
    obtain ⟨e, l, rfl⟩ := List.exists_cons_of_ne_nil (show parts ≠ [] from fun hn => by
      have := hp.atLeastTwo; rw [hn] at this; simp at this)
    obtain ⟨c, -, hc⟩ := hp.begins e l rfl
    rw [h.options]
    unfold AffOptions.allowsCompounding placeSettings
    rcases hc with hc | hc <;> simp [hc]
  obtain ⟨pieces, hq⟩ := h.compound (fc := fc).2 hp
  exact C49_search_complete h.conds h.unique h.noPairs h.shrinking ha hq hf

/-- What is found: the words which may stand alone, and the compounds. -/
theorem PlaceDict.finds_of {K : Str → Prop}
    (hK : ∀ fc w, (CompoundDecides C.U C.dict C.choice fc w none ↔ ¬ K w) ∧
      ((∃ F, CompoundDecides C.U C.dict C.choice fc w (some F)) ↔ K w) ∧
      ∀ F, CompoundDecides C.U C.dict C.choice fc w (some F) → Good C.dict F ∧ ¬ KeepsCase C.dict F) :
    Finds C (fun w => (∃ e ∈ words, StandsAlone r e.2 ∧ w = e.1) ∨ K w)
      (fun w => ((∃ e ∈ words, StandsAlone r e.2 ∧ w = e.1) ∨ K w) ∨
        ∃ e ∈ words, HasTitle C.U e ∧ StandsAlone r e.2 ∧ w = titleForm C.U e.1) := by
  refine ⟨⟨by unfold Checker.opts; rw [h.made.options]; rfl, fun fc hh w => ?_⟩, by rw [h.options]; rfl⟩
  obtain ⟨c1, c2, c3⟩ := hK fc w
  have hc := Checker.choice_fits h.conds
  have hN : C.choice.simple hh w = none ↔ ¬ ∃ stem F steps, Derives .code C.dict hh.skips w stem F steps := by
    refine ⟨hc.simple_none hh w, fun hn => ?_⟩
    cases hsm : C.choice.simple hh w with
    | none => rfl
    | some F =>
      obtain ⟨stem, steps, h'⟩ := hc.simple_some _ _ _ hsm
      exact absurd ⟨_, _, _, h'⟩ hn
  rw [h.derives] at hN
  have hF : FoundBy (fun w => (∃ e ∈ words, StandsAlone r e.2 ∧ w = e.1) ∨ K w)
      (fun w => ((∃ e ∈ words, StandsAlone r e.2 ∧ w = e.1) ∨ K w) ∨
        ∃ e ∈ words, HasTitle C.U e ∧ StandsAlone r e.2 ∧ w = titleForm C.U e.1) hh w ↔ ((∃ e ∈ words, StandsAlone r e.2 ∧ w = e.1) ∨
      (hh.skips = false ∧ ∃ e ∈ words, HasTitle C.U e ∧ StandsAlone r e.2 ∧ w = titleForm C.U e.1)) ∨
      K w := by
    unfold FoundBy
    beta_reduce
    generalize (∃ e ∈ words, StandsAlone r e.2 ∧ w = e.1) = A
    generalize (∃ e ∈ words, HasTitle C.U e ∧ StandsAlone r e.2 ∧ w = titleForm C.U e.1) = B
    generalize K w = J
    cases hh.skips <;> simp only [if_true, if_false, Bool.false_eq_true, Bool.true_eq_false, true_and, false_and, or_false] <;> tauto
  rw [hF]
  generalize ((∃ e ∈ words, StandsAlone r e.2 ∧ w = e.1) ∨
      (hh.skips = false ∧ ∃ e ∈ words, HasTitle C.U e ∧ StandsAlone r e.2 ∧ w = titleForm C.U e.1)) = P at hN
  refine ⟨⟨?_, fun hn => ?_⟩, ⟨?_, fun hp => ?_⟩, ?_⟩
  · rintro (⟨-, hn⟩ | ⟨h1, h2⟩)
    · exact absurd rfl hn
    · rw [not_or]; exact ⟨hN.1 h1, c1.1 h2⟩
  · rw [not_or] at hn
    exact .inr ⟨hN.2 hn.1, c1.2 hn.2⟩
  · rintro ⟨F, ⟨h1, -⟩ | ⟨-, h2⟩⟩
    · exact .inl (Classical.not_not.1 fun hf => by rw [hN.2 hf] at h1; cases h1)
    · exact .inr (c2.1 ⟨F, h2⟩)
  · cases hsm : C.choice.simple hh w with
    | some F => exact ⟨F, .inl ⟨hsm, by simp⟩⟩
    | none =>
      obtain ⟨F, hF⟩ := c2.2 (hp.resolve_left (hN.1 hsm))
      exact ⟨F, .inr ⟨hsm, hF⟩⟩
  · rintro F (⟨h1, -⟩ | ⟨-, h2⟩)
    · obtain ⟨stem, steps, h'⟩ := hc.simple_some _ _ _ h1
      have hl : (stem, F) ∈ C.dict.words.slots := by
        cases h' with
        | listed e => exact e.listed
        | one e => exact e.listed
        | pair e => exact e.listed
        | two e => exact e.listed
        | twoThenOne e => exact e.listed
        | sandwich e => exact e.listed
      exact h.good hl
    · exact c3 F h2

/-- Without rules for compounds. -/
theorem PlaceDict.finds (hr : rules = []) : Finds C (PlacedSo C.U r words) (Placed C.U r words) := by
  refine h.finds_of fun fc w => h.decides_of (fun hs => ?_) (h.complete (fc := fc))
  obtain ⟨h1 | ⟨parts, hp⟩, h2⟩ := h.sound hs
  · exact ⟨h1, h2⟩
  · obtain ⟨rule, hm, -⟩ := hp.rule
    rw [h.made.rules, hr] at hm
    cases hm

end Places
end Spellbook
