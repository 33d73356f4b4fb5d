import Verif.Proof.Ngram
import Verif.Proof.Simple
import Verif.Proof.Edits
import Verif.Spec.Expansion
/-!
# The candidates made from a stem
-/

namespace Spellbook
open Spec

theorem Run.mem_mapM {α β : Type} {f : α → Run β} : ∀ {l : List α} {r : List β}, l.mapM f = .ok r →
    ∀ y, y ∈ r ↔ ∃ x ∈ l, f x = .ok y
  | [], r, h, y => by
    simp only [List.mapM_nil, Run.pure_eq_ok] at h
    subst h; simp
  | a :: l, r, h, y => by
    rw [List.mapM_cons, Run.bind_eq_ok] at h
    obtain ⟨b, h1, h2⟩ := h
    rw [Run.bind_eq_ok] at h2
    obtain ⟨bs, h3, h4⟩ := h2
    rw [Run.pure_eq_ok] at h4
    subst h4
    simp only [List.mem_cons, Run.mem_mapM h3 y, exists_eq_or_imp, h1, Except.ok.injEq]
    rw [eq_comm]

theorem Run.mapM_error {α β : Type} {f : α → Run β} {e : Stop} (he : ∀ x e', f x = .error e' → e' = e) :
    ∀ {l : List α}, l.mapM f = .error e ↔ ∃ x ∈ l, f x = .error e
  | [] => by simp [List.mapM_nil, pure, Except.pure]
  | a :: l => by
    have ih := Run.mapM_error he (l := l)
    rw [List.mapM_cons]
    cases ha : f a with
    | error e' =>
      obtain rfl := he a e' ha
      simp [bind, Except.bind, ha]
    | ok b =>
      have : (Except.ok b >>= fun r => do let rs ← l.mapM f; pure (r :: rs) : Run (List β)) = .error e ↔
          l.mapM f = .error e := by
        cases l.mapM f <;> simp [bind, Except.bind, pure, Except.pure]
      rw [this, ih]
      simp [ha]

namespace Checker
variable {C : Checker}

theorem affixesFor_iff (hC : C.dict.CondsParsed) {k : Kind} {F : FlagSet} {text word : Str} {a : Affix} :
    a ∈ C.affixesFor k F text word ↔ Candidate C.dict k word F a ∧ CondHolds k a text ∧
      ∃ t, Applies k a text t := by
  have hstrip : stripFits k text a = true ↔ ∃ t, Applies k a text t := by
    unfold stripFits
    cases k with
    | pfx =>
      cases hs : a.strip with
      | none => simp only [true_iff]; exact ⟨a.add ++ text, text, by simp [hs], rfl⟩
      | some s =>
        simp only [startsWith_iff_prefix, Applies, PrefixApplies, hs, Option.getD_some]
        constructor
        · rintro ⟨r, rfl⟩; exact ⟨_, r, rfl, rfl⟩
        · rintro ⟨_, r, rfl, _⟩; exact ⟨r, rfl⟩
    | sfx =>
      cases hs : a.strip with
      | none => simp only [true_iff]; exact ⟨text ++ a.add, text, by simp [hs], rfl⟩
      | some s =>
        simp only [endsWith_iff_suffix, Applies, SuffixApplies, hs, Option.getD_some]
        constructor
        · rintro ⟨r, rfl⟩; exact ⟨_, r, rfl, rfl⟩
        · rintro ⟨_, r, rfl, _⟩; exact ⟨r, rfl⟩
  have hadd : addFits k word a = true ↔ Shows k word a := by
    unfold addFits Shows
    cases k with
    | pfx =>
      simp only [Bool.or_eq_true, startsWith_iff_prefix, List.isEmpty_iff]
      exact ⟨fun h => h.elim (fun h => by simp [h]) id, Or.inr⟩
    | sfx =>
      simp only [Bool.or_eq_true, endsWith_iff_suffix, List.isEmpty_iff]
      exact ⟨fun h => h.elim (fun h => by simp [h]) id, Or.inr⟩
  have hmem : a ∈ (C.index k).table ↔ a ∈ tableOf C.dict k := by cases k <;> rfl
  unfold affixesFor affixFits
  rw [List.mem_filter, hmem]
  simp only [Bool.and_eq_true, hadd, hstrip, FlagSet.contains_iff, isOuterAffixValid_iff, isValid_full,
    Bool.not_eq_true', circ_false]
  constructor
  · rintro ⟨hm, ⟨⟨⟨⟨h1, h2, h3⟩, h4⟩, h5⟩, h6⟩, h7⟩
    exact ⟨⟨hm, h1, h2, h3, h4, h7⟩, (conditionMatches_iff hC hm).mp h6, h5⟩
  · rintro ⟨⟨hm, h1, h2, h3, h4, h7⟩, h6, h5⟩
    exact ⟨hm, ⟨⟨⟨⟨h1, h2, h3⟩, h4⟩, h5⟩, (conditionMatches_iff hC hm).mpr h6⟩, h7⟩

theorem derive'_iff {k : Kind} {a : Affix} {stem t : Str} : derive' k a stem = .ok t ↔ Applies k a stem t := by
  have : a.toDerived k stem = some t ↔ Applies k a stem t := by
    rw [Affix.toDerived_iff]; cases k <;> rfl
  rw [← this]
  unfold derive'
  cases a.toDerived k stem <;> simp

theorem mem_suffixForms (hC : C.dict.CondsParsed) {stem word : Str} {F : FlagSet}
    {r : List (Str × Bool)} (h : C.suffixForms stem F word = .ok r) (t : Str) (b : Bool) :
    (t, b) ∈ r ↔ ∃ a, Candidate C.dict .sfx word F a ∧ CondHolds .sfx a stem ∧ Applies .sfx a stem t ∧
      a.crossproduct = b := by
  rw [Run.mem_mapM h]
  simp only [affixesFor_iff hC, Run.bind_eq_ok, Run.pure_eq_ok, derive'_iff, Prod.mk.injEq]
  constructor
  · rintro ⟨a, ⟨h1, h2, _⟩, _, h3, rfl, rfl⟩; exact ⟨a, h1, h2, h3, rfl⟩
  · rintro ⟨a, h1, h2, h3, rfl⟩; exact ⟨a, ⟨h1, h2, _, h3⟩, _, h3, rfl, rfl⟩

theorem mem_prefixForms (hC : C.dict.CondsParsed) {stem word : Str} {F : FlagSet}
    {r : List Str} (h : C.prefixForms stem F word = .ok r) (t : Str) :
    t ∈ r ↔ ∃ a, Candidate C.dict .pfx word F a ∧ CondHolds .pfx a stem ∧ Applies .pfx a stem t := by
  rw [Run.mem_mapM h]
  simp only [affixesFor_iff hC, derive'_iff]
  constructor
  · rintro ⟨a, ⟨h1, h2, _⟩, h3⟩; exact ⟨a, h1, h2, h3⟩
  · rintro ⟨a, h1, h2, h3⟩; exact ⟨a, ⟨h1, h2, _, h3⟩, h3⟩

theorem mem_crossForms (hC : C.dict.CondsParsed) {stem word mid : Str} {F : FlagSet}
    {r : List Str} (h : C.crossForms stem F word mid = .ok r) (t : Str) :
    t ∈ r ↔ ∃ a, Candidate C.dict .pfx word F a ∧ CondHolds .pfx a mid ∧ (∃ m, Applies .pfx a mid m) ∧
      Applies .pfx a stem t := by
  rw [Run.mem_mapM h]
  simp only [affixesFor_iff hC, derive'_iff]
  constructor
  · rintro ⟨a, ⟨h1, h2, h4⟩, h3⟩; exact ⟨a, h1, h2, h4, h3⟩
  · rintro ⟨a, h1, h2, h4, h3⟩; exact ⟨a, ⟨h1, h2, h4⟩, h3⟩

theorem mem_expandStem (hC : C.dict.CondsParsed) {stem word : Str} {F : FlagSet}
    {r : List Str} (h : C.expandStem stem F word = .ok r) (t : Str) :
    t ∈ r ↔ Expansion C.dict word stem F t := by
  have hbare : ∀ p : Str × Bool, p ∈ (if hasFlag F C.opts.needAffixFlag then [] else [(stem, false)]) ↔
      ¬ Has F C.opts.needAffixFlag ∧ p = (stem, false) := by
    intro p
    rw [← hasFlag_iff]
    split <;> simp_all
  unfold expandStem at h
  dsimp only at h
  by_cases he : F.isEmpty
  · rw [if_pos he, Run.pure_eq_ok] at h
    subst h
    have hno : ∀ f, f ∉ F.elems := by
      have : F.elems = [] := by simpa [FlagSet.isEmpty] using he
      simp [this]
    simp only [List.mem_map, hbare]
    constructor
    · rintro ⟨p, ⟨h1, rfl⟩, rfl⟩; exact .bare h1
    · rintro (h1 | ⟨h1, -, -⟩ | ⟨h1, -, -, -, -, -, -, -⟩)
      · exact ⟨_, ⟨h1, rfl⟩, rfl⟩
      · exact absurd h1.licence (hno _)
      · exact absurd h1.licence (hno _)
  · rw [if_neg he, Run.bind_eq_ok] at h
    obtain ⟨suf, h1, h⟩ := h
    rw [Run.bind_eq_ok] at h
    obtain ⟨cross, h2, h⟩ := h
    rw [Run.bind_eq_ok] at h
    obtain ⟨pre, h3, h⟩ := h
    rw [Run.pure_eq_ok] at h
    subst h
    simp only [List.mem_append, List.mem_flatten, Run.mem_mapM h2, mem_prefixForms hC h3,
      List.mem_filter, List.mem_map, hbare]
    constructor
    · rintro ((⟨⟨t, b⟩, (⟨h4, h5⟩ | h4), rfl⟩ | ⟨l, ⟨⟨mid, b⟩, ⟨h4, rfl⟩, h6⟩, h7⟩) | ⟨a, h4, h5, h6⟩)
      · obtain ⟨rfl, rfl⟩ := Prod.mk.inj h5
        exact .bare h4
      · obtain ⟨a, h5, h6, h7, -⟩ := (mem_suffixForms hC h1 t b).mp h4
        exact .one h5 h6 h7
      · rcases h4 with ⟨_, h4⟩ | h4
        · simp at h4
        · obtain ⟨s, k1, k2, k3, k4⟩ := (mem_suffixForms hC h1 mid true).mp h4
          obtain ⟨p, m1, m2, ⟨_, m3⟩, m4⟩ := (mem_crossForms hC h6 t).mp h7
          exact .cross k1 k2 k3 k4 m1 m2 m3 m4
      · exact .one h4 h5 h6
    · rintro (h4 | @⟨k, a, _, h4, h5, h6⟩ | @⟨s, p, mid, mid', _, k1, k2, k3, k4, m1, m2, m3, m4⟩)
      · exact Or.inl (Or.inl ⟨(stem, false), Or.inl ⟨h4, rfl⟩, rfl⟩)
      · cases k with
        | sfx => exact Or.inl (Or.inl ⟨(t, a.crossproduct),
            Or.inr ((mem_suffixForms hC h1 t _).mpr ⟨a, h4, h5, h6, rfl⟩), rfl⟩)
        | pfx => exact Or.inr ⟨a, h4, h5, h6⟩
      · have hmid := (mem_suffixForms hC h1 mid true).mpr ⟨s, k1, k2, k3, k4⟩
        have hin : (mid, true) ∈ ((if hasFlag F C.opts.needAffixFlag then [] else [(stem, false)]) ++ suf).filter (·.2) := by
          rw [List.mem_filter]; exact ⟨List.mem_append.mpr (Or.inr hmid), rfl⟩
        have hex : ∃ l, C.crossForms stem F word mid = .ok l := by
          cases hcf : C.crossForms stem F word mid with
          | ok l => exact ⟨l, rfl⟩
          | error e =>
            exfalso
            have : ∀ {l : List (Str × Bool)} {r}, (mid, true) ∈ l →
                l.mapM (fun s => C.crossForms stem F word s.1) ≠ .ok r := by
              intro l
              induction l with
              | nil => simp
              | cons q l ih =>
                intro r hq hr
                rw [List.mapM_cons, Run.bind_eq_ok] at hr
                obtain ⟨_, hr1, hr2⟩ := hr
                rw [Run.bind_eq_ok] at hr2
                obtain ⟨_, hr2, -⟩ := hr2
                rcases List.mem_cons.mp hq with rfl | hq
                · simp [hcf] at hr1
                · exact ih hq hr2
            exact this hin h2
        obtain ⟨l, hl⟩ := hex
        exact Or.inl (Or.inr ⟨l, ⟨(mid, true), ⟨Or.inr hmid, rfl⟩, hl⟩,
          (mem_crossForms hC hl t).mpr ⟨p, m1, m2, ⟨_, m3⟩, m4⟩⟩)

end Checker
end Spellbook
