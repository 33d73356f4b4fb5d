import Verif.Proof.BlockOrder
import Verif.Spec.Respell
/-!
# The spelling of flags does not matter
-/

namespace Spellbook
open Spec

namespace Respell

variable {U : Unicode} {a b : Spelling}

theorem flagOf_unique {ty : FlagType} {w : Str} {f g : Nat} (h : FlagOf ty w f) (h' : FlagOf ty w g) : f = g := by
  cases h with
  | short h =>
    cases h' with
    | short h' => rw [h] at h'; cases h'; rfl
  | long h =>
    cases h' with
    | long h' => rw [h] at h'; cases h'; rfl
  | numeric h =>
    cases h' with
    | numeric h' => exact isNumeral_unique h h'
  | utf8 h =>
    cases h' with
    | utf8 h' => rw [utf16_iff] at h h'; rw [h] at h'; cases h'; rfl

theorem slashPair_unique {w s t s' t' : Str} (h : SlashPair w s t) (h' : SlashPair w s' t') : s = s' ∧ t = t' := by
  rw [slashPair_iff] at h h'
  rw [h] at h'
  exact Prod.mk.inj h'

theorem aliasFlags_unique {ty : FlagType} {al : List FlagSet} {w : Str} {F G : FlagSet} (h : AliasFlags ty al w F)
    (h' : AliasFlags ty al w G) : F = G := by
  rw [aliasFlags_iff] at h h'
  rw [h] at h'
  exact Except.ok.inj h'

theorem ruleText_unique {ty : FlagType} {w : Str} {r s : CompoundRule} (h : RuleText ty w r)
    (hr : ∀ e ∈ r, Flag.Valid e.flag) (h' : RuleText ty w s) (hs : ∀ e ∈ s, Flag.Valid e.flag) : r = s := by
  have e := parseCompoundRule_ok.2 ⟨h, hr⟩
  rw [parseCompoundRule_ok.2 ⟨h', hs⟩] at e
  exact (Except.ok.inj e).symm

theorem optFlag_unique {ty : FlagType} {w : Str} {o p : Option Nat} (h : OptFlag ty w o) (h' : OptFlag ty w p) : o = p := by
  have e := optFlag_iff (s := ⟨[], none, .aff⟩).2 ⟨h, rfl⟩
  rw [optFlag_iff.2 ⟨h', rfl⟩] at e
  simp only [Except.ok.injEq, Prod.mk.injEq, and_true] at e
  exact e.symm

/-- The settings in the other spelling. -/
def spell (b : Spelling) (c : Cx) : Cx := { c with flagType := b.type, flagAliases := b.aliases }

/-- The settings are in this spelling. -/
structure Has (a : Spelling) (c : Cx) : Prop where
  type : c.flagType = a.type
  aliases : c.flagAliases = a.aliases

theorem row {key : String} {h h' args args' : List Str} {cx c : Cx} (hc : Has a cx) (hr : Row key h cx args c)
    (ha : RowAlike a b key h h' args args')
    (hname : key ∈ ["PFX", "SFX"] → ∃ name t name' t' cross, h = name :: cross :: t ∧ h' = name' :: cross :: t' ∧
      SameFlag a b name name') : Row key h' (spell b cx) args' (spell b c) ∧ Has a c := by
  obtain ⟨ht, hal⟩ := hc
  cases ha with
  | rule hs =>
    obtain ⟨r, hv, h1, h2⟩ := hs
    generalize hkey : "COMPOUNDRULE" = k at hr ⊢
    cases hr with
    | rule h3 h4 =>
      rw [ht] at h3
      cases ruleText_unique h1 hv h3 h4
      exact ⟨.rule h2 hv, ht, hal⟩
    | _ => exact absurd hkey (by decide)
  | pattern h1 h2 h3 h4 h5 h6 =>
    generalize hkey : "CHECKCOMPOUNDPATTERN" = k at hr ⊢
    cases hr with
    | pattern hp =>
      obtain ⟨o, ho, ho'⟩ := h3
      obtain ⟨p, hp1, hp2⟩ := h6
      obtain ⟨⟨s, f, e1, e2, e3, e4⟩, ⟨g, e5, e6⟩, e7⟩ := hp
      rw [ht] at e2 e6
      obtain ⟨rfl, rfl⟩ := slashPair_unique h1 e1
      obtain ⟨e, rfl⟩ := slashPair_unique h4 e5
      cases optFlag_unique ho e2
      cases optFlag_unique hp1 e6
      exact ⟨.pattern ⟨⟨_, _, h2, ho', e3, e4⟩, ⟨_, e ▸ h5, hp2⟩, e7⟩, ht, hal⟩
    | _ => exact absurd hkey (by decide)
  | affix hk h1 h2 h3 =>
    obtain ⟨F, hF, hF'⟩ := h3
    obtain ⟨name, t, name', t', cross, e1, e2, f, hv, e3, e4⟩ := hname hk
    cases e1
    cases e2
    cases hr with
    | pfx h4 h5 h6 =>
      rw [ht] at h4
      cases flagOf_unique e3 h4
      obtain ⟨g1, g2, g3, ⟨s, f', g4, g5, g6⟩, g7⟩ := h6
      obtain ⟨rfl, rfl⟩ := slashPair_unique h1 g4
      rw [ht, hal] at g6
      cases aliasFlags_unique hF g6
      exact ⟨.pfx e4 hv ⟨g1, g2, g3, ⟨_, _, h2, g5, hF'⟩, g7⟩, ht, hal⟩
    | sfx h4 h5 h6 =>
      rw [ht] at h4
      cases flagOf_unique e3 h4
      obtain ⟨g1, g2, g3, ⟨s, f', g4, g5, g6⟩, g7⟩ := h6
      obtain ⟨rfl, rfl⟩ := slashPair_unique h1 g4
      rw [ht, hal] at g6
      cases aliasFlags_unique hF g6
      exact ⟨.sfx e4 hv ⟨g1, g2, g3, ⟨_, _, h2, g5, hF'⟩, g7⟩, ht, hal⟩
    | _ => exact absurd hk (by decide)

theorem rows {key : String} {h h' lines lines' : List Str} {cx c : Cx} (hc : Has a cx) (hr : Rows U key h cx lines c)
    (ha : List.Forall₂ (RowLineAlike U a b key h h') lines lines')
    (hname : key ∈ ["PFX", "SFX"] → ∃ name t name' t' cross, h = name :: cross :: t ∧ h' = name' :: cross :: t' ∧
      SameFlag a b name name') : Rows U key h' (spell b cx) lines' (spell b c) ∧ Has a c := by
  induction ha generalizing cx with
  | nil => cases hr; exact ⟨.nil, hc⟩
  | cons h1 _ ih =>
    obtain ⟨args, args', e1, e2, e3⟩ := h1
    cases hr with
    | cons h2 h3 h4 =>
      rw [e1] at h2
      cases h2
      obtain ⟨r1, r2⟩ := row hc h3 e3 hname
      obtain ⟨r3, r4⟩ := ih r2 h4
      exact ⟨.cons e2 r1 r3, r4⟩

/-- Rows without flags. -/
theorem row_plain {key : String} {h args : List Str} {cx c : Cx} (hc : Has a cx) (hk : key ∉ flaggedKeys)
    (hr : Row key h cx args c) : Row key h (spell b cx) args (spell b c) ∧ Has a c := by
  obtain ⟨ht, hal⟩ := hc
  cases hr with
  | rep => exact ⟨.rep, ht, hal⟩
  | iconv => exact ⟨.iconv, ht, hal⟩
  | oconv => exact ⟨.oconv, ht, hal⟩
  | brk => exact ⟨.brk, ht, hal⟩
  | map h => exact ⟨.map h, ht, hal⟩
  | af => exact absurd (by decide) hk
  | rule => exact absurd (by decide) hk
  | pattern => exact absurd (by decide) hk
  | pfx => exact absurd (by decide) hk
  | sfx => exact absurd (by decide) hk

theorem rows_plain {key : String} {h lines : List Str} {cx c : Cx} (hc : Has a cx) (hk : key ∉ flaggedKeys)
    (hr : Rows U key h cx lines c) : Rows U key h (spell b cx) lines (spell b c) ∧ Has a c := by
  induction hr with
  | nil => exact ⟨.nil, hc⟩
  | cons h1 h2 _ ih =>
    obtain ⟨r1, r2⟩ := row_plain (b := b) hc hk h2
    obtain ⟨r3, r4⟩ := ih r2
    exact ⟨.cons h1 r1 r3, r4⟩

theorem effect_plain {key : String} {args rows : List Str} {cx c : Cx} (hc : Has a cx) (hk : key ∉ flaggedKeys)
    (he : Effect U key args cx rows c) : Effect U key args (spell b cx) rows (spell b c) ∧ Has a c := by
  obtain ⟨ht, hal⟩ := id hc
  cases he with
  | flagType => exact absurd (by decide) hk
  | flag h => exact absurd (List.mem_append_left _ (List.mem_map.2 ⟨_, h, rfl⟩)) hk
  | switch h => exact ⟨.switch h, ht, hal⟩
  | number h h1 h2 => exact ⟨.number h h1 h2, ht, hal⟩
  | ignore => exact ⟨.ignore, ht, hal⟩
  | keyboard => exact ⟨.keyboard, ht, hal⟩
  | tryChars => exact ⟨.tryChars, ht, hal⟩
  | turkic h => exact ⟨.turkic h, ht, hal⟩
  | notTurkic h => exact ⟨.notTurkic h, ht, hal⟩
  | syllable h h' => exact ⟨.syllable h h', ht, hal⟩
  | table h h1 h2 h3 =>
    by_cases hb : key = "BREAK"
    · rw [if_pos hb] at h3
      obtain ⟨r1, r2⟩ := rows_plain (b := b) (cx := { cx with breakPatterns := [] }) (a := a) ⟨ht, hal⟩ hk h3
      exact ⟨.table h h1 h2 (by rw [if_pos hb]; exact r1), r2⟩
    · rw [if_neg hb] at h3
      obtain ⟨r1, r2⟩ := rows_plain (b := b) hc hk h3
      exact ⟨.table h h1 h2 (by rw [if_neg hb]; exact r1), r2⟩
  | affixes h =>
    refine absurd ?_ hk
    simp only [List.mem_cons, List.not_mem_nil, or_false] at h
    rcases h with rfl | rfl <;> decide

theorem effect {B B' : Block} {cx c : Cx} (hc : Has a cx) (hB : BlockAlike U a b B B')
    (he : Effect U B.key B.args cx B.rows c) :
    Effect U B'.key B'.args (spell b cx) B'.rows (spell b c) ∧ Has a c := by
  obtain ⟨ht, hal⟩ := id hc
  cases hB with
  | plain hk => exact effect_plain hc hk he
  | flag hk hw =>
    obtain ⟨f, hv, h1, h2⟩ := hw
    effect_inv he class (class_flag _ hk) with ⟨-, set, h3, w, ws, g, h4, h5, h6, h7⟩
    cases h4
    rw [ht] at h5
    cases flagOf_unique h1 h5
    subst h7
    exact ⟨.flag h3 h2 hv, ht, hal⟩
  | @table key line args rows rows' hk hrows =>
    have hk' : key ∈ tableKeys := by
      simp only [List.mem_cons, List.not_mem_nil, or_false] at hk
      rcases hk with rfl | rfl <;> decide
    have hb : key ≠ "BREAK" := by rintro rfl; exact absurd hk (by decide)
    have hn : key ∉ ["PFX", "SFX"] := by
      simp only [List.mem_cons, List.not_mem_nil, or_false] at hk
      rcases hk with rfl | rfl <;> decide
    effect_inv he class (class_table _ hk') with ⟨w, ws, h1, h2, h3, h4⟩
    rw [if_neg hb] at h4
    simp only at h1 h2 h3 h4
    subst h1
    obtain ⟨r1, r2⟩ := Respell.rows hc h4 hrows (fun h => absurd h hn)
    rw [hrows.length_eq] at h2 h3
    exact ⟨.table hk' h2 h3 (by rw [if_neg hb]; exact r1), r2⟩
  | @affixes key line line' name name' args rows rows' hk hw hrows =>
    effect_inv he class (class_affix _ hk) with ⟨name, cross, w, ws, f, h1, h2, h3, h4, h5, h6, h7⟩
    obtain ⟨g, hv, h8, h9⟩ := id hw
    cases h1
    obtain ⟨r1, r2⟩ := Respell.rows hc h7 hrows (fun _ => ⟨_, _, _, _, _, rfl, rfl, hw⟩)
    rw [hrows.length_eq] at h5 h6
    exact ⟨.affixes hk h9 hv h4 h5 h6 r1, r2⟩

theorem runs {bs bs' : List Block} (hb : List.Forall₂ (BlockAlike U a b) bs bs') {cx c : Cx} (hc : Has a cx)
    (h : Blocks.Runs U cx bs c) : Blocks.Runs U (spell b cx) bs' (spell b c) ∧ Has a c := by
  induction hb generalizing cx with
  | nil => cases h; exact ⟨.nil, hc⟩
  | cons h1 _ ih =>
    cases h with
    | cons h2 h3 =>
      obtain ⟨r1, r2⟩ := effect hc h1 h2
      obtain ⟨r3, r4⟩ := ih r2 h3
      exact ⟨.cons r1 r3, r4⟩

theorem entry {cx : Cx} (hc : Has a cx) {l l' : Str} (hl : EntryAlike U a b l l') {es : List (Str × FlagSet)}
    (he : EntriesOf U cx l es) (hn : ¬ TwinTooLong U cx l) :
    EntriesOf U (spell b cx) l' es ∧ ¬ TwinTooLong U (spell b cx) l' := by
  obtain ⟨ht, hal⟩ := hc
  cases hl with
  | @skipped t h1 h2 h3 =>
    have own : ∀ {u}, Trimmed U l u → u = t := fun hu => (trim_eq hu).symm.trans (trim_eq h1)
    have own' : ∀ {u}, Trimmed U l' u → u = t := fun hu => (trim_eq hu).symm.trans (trim_eq h2)
    refine ⟨?_, fun ⟨u, _, _, _, e1, e2, _⟩ => ?_⟩
    · cases he with
      | skipped => exact .skipped h2 h3
      | plain e1 e2 => cases own e1; exact absurd h3 e2
      | twin e1 e2 => cases own e1; exact absurd h3 e2
    · cases own' e1
      exact absurd h3 e2
  | @entry t t' n n' h1 h2 h3 h4 h5 h6 h7 h8 h9 =>
    obtain ⟨F, hF, hF'⟩ := h9
    have own : ∀ {u}, Trimmed U l u → u = t := fun hu => (trim_eq hu).symm.trans (trim_eq h1)
    have own' : ∀ {u}, Trimmed U l' u → u = t' := fun hu => (trim_eq hu).symm.trans (trim_eq h2)
    have stem : stemText cx.ignoreChars t n = stemText cx.ignoreChars t' n' := by
      unfold stemText
      rw [h8]
    have mean : ∀ {s G}, LineMeans U cx.flagType cx.flagAliases cx.ignoreChars t s G →
        LineMeans U b.type b.aliases cx.ignoreChars t' s G := by
      rintro s G ⟨-, m, e1, rfl, e2⟩
      cases stemEnd_unique h6 e1
      rw [ht, hal] at e2
      cases aliasFlags_unique hF e2
      exact ⟨h5, n', h7, stem, hF'⟩
    have twin : ∀ {s G}, LineMeans U cx.flagType cx.flagAliases cx.ignoreChars t s G →
        ¬ TwinTooLong U (spell b cx) l' := by
      rintro s G hm ⟨u, s', G', title, e1, e2, e3, e4⟩
      cases own' e1
      have k1 := (parseDicLine_ok.2 (mean hm)).symm.trans (parseDicLine_ok.2 e3)
      cases k1
      exact hn ⟨t, _, _, title, h1, h3, hm, e4⟩
    cases he with
    | skipped e1 e2 => cases own e1; exact absurd e2 h3
    | plain e1 e2 e3 e4 => cases own e1; exact ⟨.plain h2 h4 (mean e3) e4, twin e3⟩
    | twin e1 e2 e3 e4 e5 e6 => cases own e1; exact ⟨.twin h2 h4 (mean e3) e4 e5 e6, twin e3⟩

theorem entries {cx : Cx} (hc : Has a cx) {rest rest' : List (Nat × Str)}
    (hl : List.Forall₂ (fun l l' => EntryAlike U a b l.2 l'.2) rest rest') {ess : List (List (Str × FlagSet))}
    (he : List.Forall₂ (fun l es => EntriesOf U cx l.2 es) rest ess) (hn : ∀ l ∈ rest, ¬ TwinTooLong U cx l.2) :
    List.Forall₂ (fun l es => EntriesOf U (spell b cx) l.2 es) rest' ess ∧
      ∀ l ∈ rest', ¬ TwinTooLong U (spell b cx) l.2 := by
  induction hl generalizing ess with
  | nil => cases he; exact ⟨.nil, by simp⟩
  | cons h1 _ ih =>
    cases he with
    | cons h2 h3 =>
      obtain ⟨r1, r2⟩ := entry hc h1 h2 (hn _ List.mem_cons_self)
      obtain ⟨r3, r4⟩ := ih h3 fun l hl => hn l (List.mem_cons_of_mem _ hl)
      exact ⟨.cons r1 r3, List.forall_mem_cons.2 ⟨r2, r4⟩⟩

theorem parseDic {cx : Cx} (hc : Has a cx) {dic dic' : Str} {first : Str} {rest rest' : List Str}
    (h : HasLines U dic (first :: rest)) (h' : HasLines U dic' (first :: rest'))
    (hl : List.Forall₂ (EntryAlike U a b) rest rest') {words : Bag FlagSet}
    (hd : Spellbook.parseDic U cx dic = .ok words) : Spellbook.parseDic U (spell b cx) dic' = .ok words := by
  obtain ⟨_ | ⟨p, l⟩, hcon, e⟩ := h
  · cases e
  obtain ⟨_ | ⟨p', l'⟩, hcon', e'⟩ := h'
  · cases e'
  rw [List.map_cons] at e e'
  obtain ⟨rfl, rfl⟩ := List.cons.inj e
  obtain ⟨e1, rfl⟩ := List.cons.inj e'
  rw [List.forall₂_map_left_iff, List.forall₂_map_right_iff] at hl
  rcases parseDic_cases (U := U) cx dic with ⟨first, rest, ess, h1, h2, h3, h4, h5⟩ | ⟨_, _, _, h⟩ | ⟨_, _, _, _, h⟩ |
    ⟨_, _, _, h⟩
  · have := (content_iff.1 hcon).trans (content_iff.1 h1).symm
    cases this
    rw [h5] at hd
    cases hd
    obtain ⟨r1, r2⟩ := entries hc hl h3 h4
    rw [parseDic_content hcon' (by rw [e1]; exact h2), fold_entries r1 r2]
    simp [Bag.empty]
  · rw [h] at hd; cases hd
  · rw [h] at hd; cases hd
  · rw [h] at hd; cases hd

theorem assemble {S : Sorts} {cx : Cx} {w : Bag FlagSet} {A : AffData} (h : Spellbook.assemble S cx w = some ⟨w, A⟩) :
    Spellbook.assemble S (spell b cx) w = some ⟨w, { A with flagType := b.type, flagAliases := b.aliases }⟩ := by
  unfold Spellbook.assemble at h ⊢
  simp only [Option.bind_eq_bind, Option.bind_eq_some_iff, Option.pure_def, Option.some.injEq, Dict.mk.injEq,
    true_and] at h ⊢
  obtain ⟨p, hp, s, hs, t, ht, r, hr, rfl⟩ := h
  exact ⟨p, hp, s, hs, t, ht, r, hr, rfl⟩

/-- Texts which differ in the spelling of flags make the same dictionary but for the spelling. -/
theorem parse {S : Sorts} {aff dic aff' dic' : Str} {D : Dict} (ht : TextsAlike U a b aff dic aff' dic')
    (h : Spellbook.parse U S aff dic = .ok D) : Spellbook.parse U S aff' dic' =
      .ok ⟨D.words, { D.aff with flagType := b.type, flagAliases := b.aliases }⟩ := by
  obtain ⟨⟨head, head', bs, bs', h1, h2, h3, h4, h5, h6, h7⟩, first, rest, rest', h8, h9, h10⟩ := ht
  obtain ⟨l, hl, e⟩ := h1
  obtain ⟨l', hl', e'⟩ := h2
  rw [content_iff.1 hl] at e
  rw [content_iff.1 hl'] at e'
  obtain ⟨cx, hc, -, hd, -, hA⟩ := parse_ok_inv h
  rw [parseAff_iff, e] at hc
  obtain ⟨r1, r2⟩ := runs h7 (cx := { flagType := a.type, flagAliases := a.aliases }) ⟨rfl, rfl⟩
    (Blocks.runs_of_reads h5 (h3.split hc))
  have hc' : parseAff U aff' = .ok (spell b cx) := by
    rw [parseAff_iff, e']
    exact h4.append (Blocks.reads_of_runs h6 r1)
  exact parse_ok hc' (parseDic r2 h8 h9 h10 hd) (assemble (hA _))

end Respell
end Spellbook
