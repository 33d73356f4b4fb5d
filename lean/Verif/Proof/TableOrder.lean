import Verif.Proof.MoreRules
import Verif.Proof.HintsText
import Verif.Spec.TableOrder
/-!
# Tables with their rows in another order
-/

namespace Spellbook
open Spec

namespace Blocks
variable {U : Unicode}

/-- The same list, up to the order if `p`. -/
structure UpTo {α : Type} (p : Prop) (l l' : List α) : Prop where
  perm : l.Perm l'
  eq : ¬ p → l = l'

theorem UpTo.refl {α : Type} {p : Prop} (l : List α) : UpTo p l l := ⟨.refl _, fun _ => rfl⟩

theorem UpTo.trans {α : Type} {p : Prop} {a b c : List α} (h : UpTo p a b) (h' : UpTo p b c) : UpTo p a c :=
  ⟨h.perm.trans h'.perm, fun hp => (h.eq hp).trans (h'.eq hp)⟩

theorem UpTo.append_right {α : Type} {p : Prop} {a b : List α} (h : UpTo p a b) (c : List α) :
    UpTo p (a ++ c) (b ++ c) := ⟨h.perm.append_right c, fun hp => by rw [h.eq hp]⟩

theorem UpTo.swap {α : Type} {p : Prop} (hp : p) (l : List α) (a b : α) : UpTo p (l ++ [a] ++ [b]) (l ++ [b] ++ [a]) := by
  refine ⟨?_, fun h => absurd hp h⟩
  rw [List.append_assoc, List.append_assoc]
  exact List.Perm.append_left l (List.Perm.swap b a [])

/-- The same settings up to the order of the rows of the tables `keys`. -/
structure Shuf (keys : List String) (c c' : Cx) : Prop where
  rest : ∃ b r p s m i o, c' = { c with
    breakPatterns := b, compoundRules := r, compoundPatterns := p, replacements := s, similarities := m,
    inputConversions := i, outputConversions := o }
  breaks : UpTo ("BREAK" ∈ keys) c.breakPatterns c'.breakPatterns
  rules : UpTo ("COMPOUNDRULE" ∈ keys) c.compoundRules c'.compoundRules
  patterns : UpTo ("CHECKCOMPOUNDPATTERN" ∈ keys) c.compoundPatterns c'.compoundPatterns
  replacements : UpTo ("REP" ∈ keys) c.replacements c'.replacements
  similarities : UpTo ("MAP" ∈ keys) c.similarities c'.similarities
  input : UpTo ("ICONV" ∈ keys) c.inputConversions c'.inputConversions
  output : UpTo ("OCONV" ∈ keys) c.outputConversions c'.outputConversions

variable {keys : List String}

theorem Shuf.refl (c : Cx) : Shuf keys c c :=
  ⟨⟨_, _, _, _, _, _, _, rfl⟩, .refl _, .refl _, .refl _, .refl _, .refl _, .refl _, .refl _⟩

theorem Shuf.trans {a b c : Cx} (h : Shuf keys a b) (h' : Shuf keys b c) : Shuf keys a c := by
  obtain ⟨⟨_, _, _, _, _, _, _, rfl⟩, h1, h2, h3, h4, h5, h6, h7⟩ := h
  obtain ⟨⟨_, _, _, _, _, _, _, rfl⟩, k1, k2, k3, k4, k5, k6, k7⟩ := h'
  exact ⟨⟨_, _, _, _, _, _, _, rfl⟩, h1.trans k1, h2.trans k2, h3.trans k3, h4.trans k4, h5.trans k5, h6.trans k6,
    h7.trans k7⟩

theorem Shuf.flags {c c' : Cx} (h : Shuf keys c c') : SameFlags c c' := by
  obtain ⟨⟨_, _, _, _, _, _, _, rfl⟩, -⟩ := h
  exact ⟨rfl, rfl⟩

/-- A row does the same to both. -/
theorem Shuf.row {key : String} {head args : List Str} {cx c x : Cx} (h : Row key head cx args c) (hs : Shuf keys cx x) :
    ∃ c', Row key head x args c' ∧ Shuf keys c c' := by
  have hf := hs.flags
  obtain ⟨⟨_, _, _, _, _, _, _, rfl⟩, h1, h2, h3, h4, h5, h6, h7⟩ := hs
  cases h with
  | rep => exact ⟨_, .rep, ⟨_, _, _, _, _, _, _, rfl⟩, h1, h2, h3, h4.append_right _, h5, h6, h7⟩
  | iconv => exact ⟨_, .iconv, ⟨_, _, _, _, _, _, _, rfl⟩, h1, h2, h3, h4, h5, h6.append_right _, h7⟩
  | oconv => exact ⟨_, .oconv, ⟨_, _, _, _, _, _, _, rfl⟩, h1, h2, h3, h4, h5, h6, h7.append_right _⟩
  | brk => exact ⟨_, .brk, ⟨_, _, _, _, _, _, _, rfl⟩, h1.append_right _, h2, h3, h4, h5, h6, h7⟩
  | af a b d => exact ⟨_, .af a b d, ⟨_, _, _, _, _, _, _, rfl⟩, h1, h2, h3, h4, h5, h6, h7⟩
  | map a => exact ⟨_, .map a, ⟨_, _, _, _, _, _, _, rfl⟩, h1, h2, h3, h4, h5.append_right _, h6, h7⟩
  | rule a b => exact ⟨_, .rule a b, ⟨_, _, _, _, _, _, _, rfl⟩, h1, h2.append_right _, h3, h4, h5, h6, h7⟩
  | pattern a =>
    exact ⟨_, .pattern ⟨a.first, a.second, a.replacement⟩, ⟨_, _, _, _, _, _, _, rfl⟩, h1, h2, h3.append_right _, h4, h5,
      h6, h7⟩
  | pfx a b r =>
    exact ⟨_, .pfx a b ⟨r.flag, r.cross, r.strip, r.add, r.condition⟩, ⟨_, _, _, _, _, _, _, rfl⟩, h1, h2, h3, h4, h5,
      h6, h7⟩
  | sfx a b r =>
    exact ⟨_, .sfx a b ⟨r.flag, r.cross, r.strip, r.add, r.condition⟩, ⟨_, _, _, _, _, _, _, rfl⟩, h1, h2, h3, h4, h5,
      h6, h7⟩

theorem Shuf.table {key : String} {head rows : List Str} {cx c : Cx} (h : Rows U key head cx rows c) :
    ∀ {x : Cx}, Shuf keys cx x → ∃ c', Rows U key head x rows c' ∧ Shuf keys c c' := by
  induction h with
  | nil => exact fun hs => ⟨_, .nil, hs⟩
  | cons hl hr _ ih =>
    intro x hs
    obtain ⟨c₁, h1, h2⟩ := Shuf.row hr hs
    obtain ⟨c₂, h3, h4⟩ := ih h2
    exact ⟨c₂, .cons hl h1 h3, h4⟩

/-- Two rows of such a table in either order. -/
theorem Shuf.swap {key : String} {head a b : List Str} {cx c₁ c₂ : Cx} (hk : key ∈ keys) (hu : ∀ k ∈ keys, k ∈ unnumbered)
    (ha : Row key head cx a c₁) (hb : Row key head c₁ b c₂) :
    ∃ d₁ d₂, Row key head cx b d₁ ∧ Row key head d₁ a d₂ ∧ Shuf keys c₂ d₂ := by
  have r : ∀ {α : Type} {p : Prop} (l : List α), UpTo p l l := fun l => .refl l
  cases ha with
  | rep =>
    generalize hkey : "REP" = k at hb ⊢
    cases hb with
    | rep => exact ⟨_, _, .rep, .rep, ⟨_, _, _, _, _, _, _, rfl⟩, r _, r _, r _, .swap hk _ _ _, r _, r _, r _⟩
    | _ => exact absurd hkey (by decide)
  | iconv =>
    generalize hkey : "ICONV" = k at hb ⊢
    cases hb with
    | iconv => exact ⟨_, _, .iconv, .iconv, ⟨_, _, _, _, _, _, _, rfl⟩, r _, r _, r _, r _, r _, .swap hk _ _ _, r _⟩
    | _ => exact absurd hkey (by decide)
  | oconv =>
    generalize hkey : "OCONV" = k at hb ⊢
    cases hb with
    | oconv => exact ⟨_, _, .oconv, .oconv, ⟨_, _, _, _, _, _, _, rfl⟩, r _, r _, r _, r _, r _, r _, .swap hk _ _ _⟩
    | _ => exact absurd hkey (by decide)
  | brk =>
    generalize hkey : "BREAK" = k at hb ⊢
    cases hb with
    | brk => exact ⟨_, _, .brk, .brk, ⟨_, _, _, _, _, _, _, rfl⟩, .swap hk _ _ _, r _, r _, r _, r _, r _, r _⟩
    | _ => exact absurd hkey (by decide)
  | map h =>
    generalize hkey : "MAP" = k at hb ⊢
    cases hb with
    | map h' => exact ⟨_, _, .map h', .map h, ⟨_, _, _, _, _, _, _, rfl⟩, r _, r _, r _, r _, .swap hk _ _ _, r _, r _⟩
    | _ => exact absurd hkey (by decide)
  | rule h h2 =>
    generalize hkey : "COMPOUNDRULE" = k at hb ⊢
    cases hb with
    | rule h' h2' =>
      exact ⟨_, _, .rule h' h2', .rule h h2, ⟨_, _, _, _, _, _, _, rfl⟩, r _, .swap hk _ _ _, r _, r _, r _, r _, r _⟩
    | _ => exact absurd hkey (by decide)
  | pattern h =>
    generalize hkey : "CHECKCOMPOUNDPATTERN" = k at hb ⊢
    cases hb with
    | pattern h' =>
      exact ⟨_, _, .pattern ⟨h'.first, h'.second, h'.replacement⟩, .pattern ⟨h.first, h.second, h.replacement⟩,
        ⟨_, _, _, _, _, _, _, rfl⟩, r _, r _, .swap hk _ _ _, r _, r _, r _, r _⟩
    | _ => exact absurd hkey (by decide)
  | af => exact absurd (hu _ hk) (by decide)
  | pfx => exact absurd (hu _ hk) (by decide)
  | sfx => exact absurd (hu _ hk) (by decide)

theorem Shuf.perm {key : String} {head rows rows' : List Str} (hk : key ∈ keys) (hu : ∀ k ∈ keys, k ∈ unnumbered) (hp : rows.Perm rows') :
    ∀ {cx c x : Cx}, Rows U key head cx rows c → Shuf keys cx x → ∃ c', Rows U key head x rows' c' ∧ Shuf keys c c' := by
  induction hp with
  | nil => exact fun h hs => Shuf.table h hs
  | cons l _ ih =>
    intro cx c x h hs
    obtain _ | ⟨hl, hr, h⟩ := h
    obtain ⟨c₁, h1, h2⟩ := Shuf.row hr hs
    obtain ⟨c₂, h3, h4⟩ := ih h h2
    exact ⟨c₂, .cons hl h1 h3, h4⟩
  | swap l l' ls =>
    intro cx c x h hs
    obtain _ | ⟨hl, hr, _ | ⟨hl', hr', h⟩⟩ := h
    obtain ⟨d₁, d₂, h1, h2, h3⟩ := Shuf.swap hk hu hr hr'
    obtain ⟨c', h4, h5⟩ := Shuf.table h h3
    obtain ⟨c'', h6, h7⟩ := Shuf.table (Rows.cons hl' h1 (.cons hl h2 h4)) hs
    exact ⟨c'', h6, h5.trans h7⟩
  | trans _ _ ih ih' =>
    intro cx c x h hs
    obtain ⟨c₁, h1, h2⟩ := ih h hs
    obtain ⟨c₂, h3, h4⟩ := ih' h1 (.refl _)
    exact ⟨c₂, h3, h2.trans h4⟩

theorem Shuf.clear {cx x : Cx} (hs : Shuf keys cx x) (key : String) :
    Shuf keys (if key = "BREAK" then { cx with breakPatterns := [] } else cx)
      (if key = "BREAK" then { x with breakPatterns := [] } else x) := by
  split
  · obtain ⟨⟨_, _, _, _, _, _, _, rfl⟩, h1, h2, h3, h4, h5, h6, h7⟩ := hs
    exact ⟨⟨_, _, _, _, _, _, _, rfl⟩, .refl _, h2, h3, h4, h5, h6, h7⟩
  · exact hs

/-- A block does the same to both, whatever the order of its rows is. -/
theorem Shuf.effect {key : String} {args rows rows' : List Str} {cx c x : Cx} (h : Effect U key args cx rows c)
    (hs : Shuf keys cx x) (hp : rows.Perm rows') (hu : ∀ k ∈ keys, k ∈ unnumbered)
    (he : key ∉ keys → rows = rows') :
    ∃ c', Effect U key args x rows' c' ∧ Shuf keys c c' := by
  have hs' := hs
  obtain ⟨⟨_, _, _, _, _, _, _, rfl⟩, h1, h2, h3, h4, h5, h6, h7⟩ := hs
  cases h with
  | table hk hn hl hr =>
    have hs2 := Shuf.clear hs' key
    by_cases hk' : key ∈ keys
    · obtain ⟨c', k1, k2⟩ := Shuf.perm hk' hu hp hr hs2
      exact ⟨c', .table hk (by rw [← hp.length_eq]; exact hn) (by rw [← hp.length_eq]; exact hl) k1, k2⟩
    · obtain ⟨c', k1, k2⟩ := Shuf.table hr hs2
      rw [← he hk']
      exact ⟨c', .table hk hn hl k1, k2⟩
  | affixes hk hf hv hc hn hl hr =>
    obtain ⟨c', k1, k2⟩ := Shuf.table hr hs'
    have hk' : key ∉ keys := by
      intro hm
      have := hu _ hm
      simp only [List.mem_cons, List.not_mem_nil, or_false] at hk
      rcases hk with rfl | rfl <;> exact absurd this (by decide)
    rw [← he hk']
    exact ⟨c', .affixes hk hf hv hc hn hl k1, k2⟩
  | flag hk a b =>
    cases List.perm_nil.1 hp.symm
    exact ⟨_, .flag hk a b, ⟨_, _, _, _, _, _, _, rfl⟩, h1, h2, h3, h4, h5, h6, h7⟩
  | switch hk =>
    cases List.perm_nil.1 hp.symm
    exact ⟨_, .switch hk, ⟨_, _, _, _, _, _, _, rfl⟩, h1, h2, h3, h4, h5, h6, h7⟩
  | number hk a b =>
    cases List.perm_nil.1 hp.symm
    exact ⟨_, .number hk a b, ⟨_, _, _, _, _, _, _, rfl⟩, h1, h2, h3, h4, h5, h6, h7⟩
  | flagType a =>
    cases List.perm_nil.1 hp.symm
    exact ⟨_, .flagType a, ⟨_, _, _, _, _, _, _, rfl⟩, h1, h2, h3, h4, h5, h6, h7⟩
  | ignore =>
    cases List.perm_nil.1 hp.symm
    exact ⟨_, .ignore, ⟨_, _, _, _, _, _, _, rfl⟩, h1, h2, h3, h4, h5, h6, h7⟩
  | keyboard =>
    cases List.perm_nil.1 hp.symm
    exact ⟨_, .keyboard, ⟨_, _, _, _, _, _, _, rfl⟩, h1, h2, h3, h4, h5, h6, h7⟩
  | tryChars =>
    cases List.perm_nil.1 hp.symm
    exact ⟨_, .tryChars, ⟨_, _, _, _, _, _, _, rfl⟩, h1, h2, h3, h4, h5, h6, h7⟩
  | turkic a =>
    cases List.perm_nil.1 hp.symm
    exact ⟨_, .turkic a, ⟨_, _, _, _, _, _, _, rfl⟩, h1, h2, h3, h4, h5, h6, h7⟩
  | notTurkic a =>
    cases List.perm_nil.1 hp.symm
    exact ⟨_, .notTurkic a, ⟨_, _, _, _, _, _, _, rfl⟩, h1, h2, h3, h4, h5, h6, h7⟩
  | syllable a b =>
    cases List.perm_nil.1 hp.symm
    exact ⟨_, .syllable a b, ⟨_, _, _, _, _, _, _, rfl⟩, h1, h2, h3, h4, h5, h6, h7⟩

theorem runs_shuffled {bs bs' : List Block} (hu : ∀ k ∈ keys, k ∈ unnumbered)
    (hb : List.Forall₂ (Block.Shuffled keys) bs bs') :
    ∀ {cx x c : Cx}, Shuf keys cx x → Runs U cx bs c → ∃ c', Runs U x bs' c' ∧ Shuf keys c c' := by
  induction hb with
  | nil =>
    intro cx x c hs h
    cases h
    exact ⟨_, .nil, hs⟩
  | cons hb _ ih =>
    intro cx x c hs h
    obtain _ | ⟨he, h⟩ := h
    obtain ⟨d, h1, h2⟩ := Shuf.effect he hs hb.rows hu hb.fixed
    obtain ⟨c', h3, h4⟩ := ih h2 h
    rw [hb.key, hb.args] at h1
    exact ⟨c', .cons h1 h3, h4⟩

/-- The word list does not depend on these tables. -/
theorem parseDic_shuffled {c c' : Cx} (h : Shuf keys c c') (dic : Str) : parseDic U c' dic = parseDic U c dic := by
  obtain ⟨⟨_, _, _, _, _, _, _, rfl⟩, -⟩ := h
  have : ∀ b r p s m i o, dicLoop U { c with
        breakPatterns := b, compoundRules := r, compoundPatterns := p, replacements := s, similarities := m,
        inputConversions := i, outputConversions := o } = dicLoop U c := by
    intro b r p s m i o
    funext fuel
    induction fuel with
    | zero => rfl
    | succ n ih =>
      funext words
      simp only [dicLoop, ih]
      rfl
  simp only [parseDic, this]

end Blocks

/-! ## Conversions -/

theorem Spec.Converts.congr {t t' : List (Str × Str)} (h : ∀ l, l ∈ t ↔ l ∈ t') {w out : Str} (hc : Converts t w out) :
    Converts t' w out := by
  induction hc with
  | done => exact .done
  | copy hn _ ih => exact .copy (fun l hl => hn l ((h l).2 hl)) ih
  | replace hl ha hm _ ih => exact .replace ((h _).1 hl) ha (fun l hl => hm l ((h l).2 hl)) ih

theorem Spec.ConvApplies.prefix {l : Str × Str} {tail pat : Str} (h : ConvApplies l tail pat) : pat <+: tail := by
  rcases h.2 with ⟨-, rfl⟩ | ⟨-, -, h⟩
  · exact List.prefix_rfl
  · exact h

/-- Without ties there is one result. -/
theorem Spec.Converts.unique {t : List (Str × Str)} (ht : NoTies t) {w a : Str} (ha : Converts t w a) :
    ∀ {b : Str}, Converts t w b → a = b := by
  induction ha with
  | done =>
    intro b hb
    generalize hw : ([] : Str) = w at hb
    cases hb with
    | done => rfl
    | copy => cases hw
    | replace hl ha => exact absurd (List.append_eq_nil_iff.1 hw.symm).1 ha.1
  | @copy c w out hn _ ih =>
    intro b hb
    generalize hw : c :: w = x at hb
    cases hb with
    | done => cases hw
    | copy _ hb =>
      cases hw
      rw [ih hb]
    | replace hl ha =>
      rw [← hw] at ha
      exact absurd ha (hn _ hl _)
  | @replace l pat w out hl ha hm _ ih =>
    intro b hb
    generalize hw : pat ++ w = x at hb
    cases hb with
    | done => exact absurd (List.append_eq_nil_iff.1 hw).1 ha.1
    | copy hn => rw [hw] at ha; exact absurd ha (hn _ hl _)
    | @replace l' pat' w' out' hl' ha' hm' hb =>
      have h1 := hm _ hl' _ (by rw [hw]; exact ha')
      have h2 := hm' _ hl _ (by rw [← hw]; exact ha)
      obtain ⟨rfl, rfl⟩ := List.append_inj hw (by omega)
      rw [ih hb, ht _ hl _ hl' _ _ ha ha']

/-- The order of the conversions. -/
theorem convert_perm {S : Sorts} {l l' : List (Str × Str)} (hp : l.Perm l') (ht : NoTies l) (w : Str) :
    (S.table l).convert w = (S.table l').convert w := by
  obtain ⟨a, h1, h2⟩ := ConversionTable.convert?_spec (t := S.table l) (lines := l) (S.conversions_perm _) w
  obtain ⟨b, h3, h4⟩ := ConversionTable.convert?_spec (t := S.table l') (lines := l') (S.conversions_perm _) w
  rw [ConversionTable.convert?_eq, Option.some.injEq] at h1 h3
  rw [h1, h3]
  exact Converts.unique ht h2 (h4.congr fun _ => hp.mem_iff.symm)

/-! ## Replacements -/

theorem from'_only {rs : List (Str × Str)} {t : ReplacementTable} (h : ReplacementTable.from' rs = some t) :
    t.wholeLast = (rs.filterMap (repEntry .whole)).length ∧ t.table.length = (rs.filterMap (repEntry .whole)).length +
      (rs.filterMap (repEntry .start)).length + (rs.filterMap (repEntry .stop)).length +
      (rs.filterMap (repEntry .anywhere)).length := by
  have hne : ∀ p ∈ rs, p.1 ≠ [] ∧ p.2 ≠ [] := by
    intro p hp
    by_contra hc
    rw [ReplacementTable.from', ReplacementTable.fromLoop_none _ _ ⟨p, hp, by tauto⟩] at h
    simp at h
  rw [ReplacementTable.from', ReplacementTable.fromLoop_eq _ _ hne] at h
  simp at h
  subst h
  simp [Nat.add_assoc]

theorem sameReplacements {l l' : List (Str × Str)} {R R' : ReplacementTable} (hp : l.Perm l')
    (h : ReplacementTable.from' l = some R) (h' : ReplacementTable.from' l' = some R') :
    Checker.SameReplacements R R' := by
  obtain ⟨a, b, c, d⟩ := ReplacementTable.from'_spec h
  obtain ⟨a', b', c', d'⟩ := ReplacementTable.from'_spec h'
  obtain ⟨e, f⟩ := from'_only h
  obtain ⟨e', f'⟩ := from'_only h'
  have key : ∀ k, (l.filterMap (repEntry k)).Perm (l'.filterMap (repEntry k)) := fun k => hp.filterMap _
  refine ⟨fun r => ?_, fun r => ?_, fun r => ?_, fun r => ?_, ?_⟩
  · rw [a, a', (key _).mem_iff]
  · rw [b, b', (key _).mem_iff]
  · rw [c, c', (key _).mem_iff]
  · rw [d, d', (key _).mem_iff]
  · rw [ReplacementTable.hasOnlyWhole, ReplacementTable.hasOnlyWhole, e, e', f, f', (key _).length_eq, (key _).length_eq,
      (key _).length_eq, (key _).length_eq]

/-! ## The check of a word -/

theorem Checker.SameWords.shuffled {keys : List String} {S : Sorts} {cx cx' : Cx} {w : Bag FlagSet} {A A' : AffData} (hs : Blocks.Shuf keys cx cx')
    (h1 : assemble S cx w = some ⟨w, A⟩) (h2 : assemble S cx' w = some ⟨w, A'⟩)
    (ht : "ICONV" ∈ keys → NoTies cx.inputConversions)
    (hp : "CHECKCOMPOUNDPATTERN" ∈ keys → ∀ p ∈ cx.compoundPatterns, p.replacement = none)
    (U : Unicode) (L : Layout) : Checker.SameWords { U, L, dict := ⟨w, A⟩ } { U, L, dict := ⟨w, A'⟩ } := by
  obtain ⟨⟨_, _, _, _, _, _, _, rfl⟩, k1, k2, k3, k4, k5, k6, k7⟩ := hs
  unfold assemble at h1 h2
  simp only [Option.bind_eq_bind, Option.bind_eq_some_iff, Option.pure_def, Option.some.injEq, Dict.mk.injEq,
    true_and] at h1 h2
  obtain ⟨p, hp1, s, hs1, b, hb, r, hr, rfl⟩ := h1
  obtain ⟨p', hp', s', hs', b', hb', r', hr', rfl⟩ := h2
  rw [hp1] at hp'
  rw [hs1] at hs'
  cases hp'
  cases hs'
  exact {
    U := rfl, entries := rfl, index := by funext k; cases k <;> rfl
    lowerAsTitle := rfl, lowerAsUpper := rfl
    compoundRules := fun _ => k2.perm.mem_iff, compoundSyllableVowels := .refl _
    compoundPatterns := fun _ => k3.perm.mem_iff
    replacing := by
      by_cases hk : "CHECKCOMPOUNDPATTERN" ∈ keys
      · have e : ∀ l : List CompoundPattern, (∀ p ∈ l, p.replacement = none) →
            l.filter (fun p => p.replacement.isSome) = [] := fun l hl =>
          List.filter_eq_nil_iff.2 fun p hm => by rw [hl p hm]; simp
        exact (e _ (hp hk)).trans (e _ fun p hm => hp hk p (k3.perm.mem_iff.2 hm)).symm
      · exact congrArg (List.filter _) (k3.eq hk)
    inputConversions := fun x => by
      by_cases hk : "ICONV" ∈ keys
      · exact convert_perm k6.perm (ht hk) x
      · exact congrArg (fun l => (S.table l).convert x) (k6.eq hk)
    ignoreChars := fun _ => Iff.rfl, replacements := fun _ => sameReplacements k4.perm hr hr'
    complexPrefixes := rfl, checksharps := rfl, forbidWarn := rfl, onlyInCompoundFlag := rfl
    circumfixFlag := rfl, forbiddenWordFlag := rfl, keepCaseFlag := rfl, needAffixFlag := rfl
    warnFlag := rfl, compoundFlag := rfl, compoundBeginFlag := rfl, compoundMiddleFlag := rfl
    compoundEndFlag := rfl, compoundMinLength := rfl, compoundMaxWordCount := rfl, compoundPermitFlag := rfl
    compoundForbidFlag := rfl, compoundRootFlag := rfl, compoundForceUppercaseFlag := rfl
    compoundCheckDuplicate := rfl, compoundCheckRep := rfl, compoundCheckCase := rfl
    compoundCheckTriple := rfl, compoundSimplifiedTriple := rfl, compoundSyllableNum := rfl
    compoundSyllableMax := rfl, caseHandling := rfl }

theorem Spec.Breaks.congr {l l' : List Str} (hl : ∀ b, b ∈ l ↔ b ∈ l') {v : Str → Option Bool → Prop} {d : Nat} {w : Str}
    (h : Breaks l v d w) : Breaks l' v d w := by
  induction h with
  | direct h => exact .direct h
  | start hv hm h1 h2 _ ih => exact .start hv ((hl _).1 hm) h1 h2 ih
  | stop hv hm h1 h2 _ ih => exact .stop hv ((hl _).1 hm) h1 h2 ih
  | middle hv hm h1 h2 h3 _ _ ih ih' => exact .middle hv ((hl _).1 hm) h1 h2 h3 ih ih'

end Spellbook
