import Verif.Proof.Expansion
import Verif.Proof.Outcome
/-!
# The choice of the guesses
-/

namespace Spellbook
open Spec

theorem Run.mapM_ok_iff {α β : Type} {f : α → Run β} : ∀ {l : List α},
    (∃ r, l.mapM f = .ok r) ↔ ∀ x ∈ l, ∃ y, f x = .ok y
  | [] => by simp [List.mapM_nil, pure, Except.pure]
  | a :: l => by
    have ih := Run.mapM_ok_iff (f := f) (l := l)
    rw [List.mapM_cons]
    simp only [Run.bind_eq_ok, Run.pure_eq_ok, List.mem_cons, forall_eq_or_imp, ← ih]
    constructor
    · rintro ⟨r, b, h1, bs, h2, rfl⟩; exact ⟨⟨b, h1⟩, bs, h2⟩
    · rintro ⟨⟨b, h1⟩, bs, h2⟩; exact ⟨_, b, h1, bs, h2, rfl⟩

theorem Run.Never.mapM {α β : Type} {e : Stop} {f : α → Run β} : ∀ {l : List α},
    (∀ a ∈ l, Run.Never e (f a)) → Run.Never e (l.mapM f)
  | [], _ => by rw [List.mapM_nil]; exact .pure _
  | a :: l, h => by
    rw [List.mapM_cons]
    exact .bind (h a (by simp)) fun _ => .bind (.mapM fun b hb => h b (by simp [hb])) fun _ => .pure _

theorem Run.Never.foldlM {α β : Type} {e : Stop} {f : β → α → Run β} : ∀ {l : List α} (b : β),
    (∀ b, ∀ a ∈ l, Run.Never e (f b a)) → Run.Never e (l.foldlM f b)
  | [], b, _ => by rw [List.foldlM_nil]; exact .pure _
  | a :: l, b, h => by
    rw [List.foldlM_cons]
    exact .bind (h b a (by simp)) fun b' => .foldlM b' fun b a ha => h b a (by simp [ha])

theorem forall₂_right {α β : Type} {R : α → β → Prop} {l : List α} {l' : List β} (h : List.Forall₂ R l l')
    {b : β} (hb : b ∈ l') : ∃ a ∈ l, R a b := by
  induction h with
  | nil => simp at hb
  | cons h1 _ ih =>
    rcases List.mem_cons.mp hb with rfl | hb
    · exact ⟨_, List.mem_cons_self, h1⟩
    · obtain ⟨r, hr, he⟩ := ih hb
      exact ⟨r, List.mem_cons_of_mem _ hr, he⟩

namespace Checker
variable {C : Checker} {H : Heaps}

theorem suffixForms_ok (hC : C.dict.CondsParsed) (stem word : Str) (F : FlagSet) :
    ∃ r, C.suffixForms stem F word = .ok r := by
  unfold suffixForms
  rw [Run.mapM_ok_iff]
  intro a ha
  obtain ⟨_, _, t, ht⟩ := (affixesFor_iff hC).mp ha
  exact ⟨(t, a.crossproduct), by rw [Run.bind_eq_ok]; exact ⟨t, derive'_iff.mpr ht, rfl⟩⟩

theorem prefixForms_ok (hC : C.dict.CondsParsed) (stem word : Str) (F : FlagSet) :
    ∃ r, C.prefixForms stem F word = .ok r := by
  unfold prefixForms
  rw [Run.mapM_ok_iff]
  intro a ha
  obtain ⟨_, _, t, ht⟩ := (affixesFor_iff hC).mp ha
  exact ⟨t, derive'_iff.mpr ht⟩

/-- The expansion succeeds iff every prefix which fits a suffixed form also fits the stem. -/
theorem expandStem_ok_iff (hC : C.dict.CondsParsed) (stem word : Str) (F : FlagSet) :
    (∃ r, C.expandStem stem F word = .ok r) ↔
      ∀ s p mid mid', Candidate C.dict .sfx word F s → CondHolds .sfx s stem → Applies .sfx s stem mid →
        s.crossproduct = true → Candidate C.dict .pfx word F p → CondHolds .pfx p mid →
        Applies .pfx p mid mid' → ∃ form, Applies .pfx p stem form := by
  unfold expandStem
  by_cases he : F.isEmpty
  · rw [if_pos he]
    have hno : ∀ f, f ∉ F.elems := by
      have : F.elems = [] := by simpa [FlagSet.isEmpty] using he
      simp [this]
    simp only [Run.pure_eq_ok, exists_eq', true_iff]
    intro s p mid mid' h
    exact absurd h.licence (hno _)
  · rw [if_neg he]
    obtain ⟨suf, hs⟩ := suffixForms_ok hC stem word F
    obtain ⟨pre, hp⟩ := prefixForms_ok hC stem word F
    simp only [Run.bind_eq_ok, hs, hp, Run.pure_eq_ok, Except.ok.injEq, exists_eq_left']
    have hfil : ∀ q : Str × Bool, q ∈ ((if hasFlag F C.opts.needAffixFlag then [] else [(stem, false)]) ++ suf).filter (·.2)
        ↔ q ∈ suf ∧ q.2 = true := by
      intro q
      rw [List.mem_filter, List.mem_append]
      constructor
      · rintro ⟨h | h, h2⟩
        · split at h
          · simp at h
          · rw [List.mem_singleton] at h; subst h; simp at h2
        · exact ⟨h, h2⟩
      · rintro ⟨h, h2⟩; exact ⟨Or.inr h, h2⟩
    generalize (if hasFlag F C.opts.needAffixFlag = true then [] else [(stem, false)]) ++ suf = list at hfil ⊢
    have : (∃ r a, (list.filter (·.2)).mapM (fun s => C.crossForms stem F word s.1) = .ok a ∧
        list.map (·.1) ++ a.flatten ++ pre = r) ↔
        ∃ a, (list.filter (·.2)).mapM (fun s => C.crossForms stem F word s.1) = .ok a :=
      ⟨fun ⟨_, a, h, _⟩ => ⟨a, h⟩, fun ⟨a, h⟩ => ⟨_, a, h, rfl⟩⟩
    refine this.trans ?_
    rw [Run.mapM_ok_iff]
    simp only [hfil]
    constructor
    · intro h s p mid mid' k1 k2 k3 k4 m1 m2 m3
      obtain ⟨r, hr⟩ := h (mid, true) ⟨(mem_suffixForms hC hs _ _).mpr ⟨s, k1, k2, k3, k4⟩, rfl⟩
      have hm : p ∈ C.affixesFor .pfx F mid word := (affixesFor_iff hC).mpr ⟨m1, m2, _, m3⟩
      obtain ⟨y, hy⟩ := (Run.mapM_ok_iff (f := fun a => derive' .pfx a stem)).mp ⟨r, hr⟩ p hm
      exact ⟨y, derive'_iff.mp hy⟩
    · rintro h ⟨mid, b⟩ ⟨h1, rfl⟩
      obtain ⟨s, k1, k2, k3, k4⟩ := (mem_suffixForms hC hs _ _).mp h1
      unfold crossForms
      rw [Run.mapM_ok_iff]
      intro p hp
      obtain ⟨m1, m2, mid', m3⟩ := (affixesFor_iff hC).mp hp
      obtain ⟨form, hf⟩ := h s p mid mid' k1 k2 k3 k4 m1 m2 m3
      exact ⟨form, derive'_iff.mpr hf⟩

theorem derive'_no_fuel (k : Kind) (a : Affix) (stem : Str) : Run.Never .fuel (derive' k a stem) := by
  unfold derive'; cases a.toDerived k stem <;> simp [Run.Never]

theorem expandStem_no_fuel (stem word : Str) (F : FlagSet) : Run.Never .fuel (C.expandStem stem F word) := by
  unfold expandStem
  dsimp only
  split
  · exact .pure _
  · exact .bind (.mapM fun a _ => .bind (derive'_no_fuel _ a _) fun _ => .pure _) fun _ =>
      .bind (.mapM fun s _ => .mapM fun a _ => derive'_no_fuel _ a _) fun _ =>
      .bind (.mapM fun a _ => derive'_no_fuel _ a _) fun _ => .pure _

theorem rescore_inner {word : Str} : ∀ {gs gs' : List (MinScored Str)}, C.rescore word gs = .ok gs' →
    gs'.map (·.inner) = gs.map (·.inner)
  | [], gs', h => by simp only [rescore, Except.ok.injEq] at h; subst h; rfl
  | g :: gs, gs', h => by
    unfold rescore at h
    rw [Run.bind_eq_ok] at h
    obtain ⟨lower, h1, h⟩ := h
    dsimp only at h
    split at h
    · rw [Run.pure_eq_ok] at h; subst h; rfl
    · rw [Run.bind_eq_ok] at h
      obtain ⟨sc, h2, h⟩ := h
      rw [Run.bind_eq_ok] at h
      obtain ⟨rest, h3, h⟩ := h
      rw [Run.pure_eq_ok] at h
      subst h
      simp [rescore_inner h3]

theorem select_bound {b : Bool} {old limit : Nat} : ∀ (gs : List (MinScored Str)) {out : List Str},
    out.length ≤ limit → (C.selectGuesses b old limit gs out).length ≤ limit
  | [], out, h => by simpa [selectGuesses] using h
  | g :: gs, out, h => by
    unfold selectGuesses
    by_cases h1 : out.length = limit
    · rw [if_pos h1]; exact h
    · rw [if_neg h1]
      split
      · exact h
      split
      · exact h
      split
      · split
        · exact h
        · exact select_bound gs h
      · exact select_bound gs (by simp; omega)

/-- What is chosen: some of the guesses, in order, none containing an earlier suggestion. -/
theorem select_new {b : Bool} {old limit : Nat} : ∀ (gs : List (MinScored Str)) (out : List Str),
    ∃ new, C.selectGuesses b old limit gs out = out ++ new ∧ new.Sublist (gs.map (·.inner)) ∧
      (∀ s ∈ out, ∀ g ∈ new, ¬ s <:+: g) ∧ new.Pairwise (fun s g => ¬ s <:+: g)
  | [], out => ⟨[], by simp [selectGuesses]⟩
  | g :: gs, out => by
    have stop : ∃ new, out = out ++ new ∧ new.Sublist ((g :: gs).map (·.inner)) ∧
      (∀ s ∈ out, ∀ g ∈ new, ¬ s <:+: g) ∧ new.Pairwise (fun s g => ¬ s <:+: g) := ⟨[], by simp⟩
    unfold selectGuesses
    split
    · exact stop
    split
    · exact stop
    split
    · exact stop
    split
    · split
      · exact stop
      · obtain ⟨new, h1, h2, h3, h4⟩ := select_new (b := b) (old := old) (limit := limit) gs out
        exact ⟨new, h1, h2.trans (List.sublist_cons_self _ _), h3, h4⟩
    · next hany =>
      obtain ⟨new, h1, h2, h3, h4⟩ := select_new (b := b) (old := old) (limit := limit) gs (out ++ [g.inner])
      refine ⟨g.inner :: new, by simpa using h1, h2.cons_cons g.inner, ?_, ?_⟩
      · intro s hs x hx
        rcases List.mem_cons.mp hx with rfl | hx
        · intro hin
          exact hany (List.any_eq_true.mpr ⟨s, hs, containsStr_gram.mpr hin⟩)
        · exact h3 s (List.mem_append.mpr (Or.inl hs)) x hx
      · exact List.pairwise_cons.mpr ⟨fun x hx => h3 g.inner (by simp) x hx, h4⟩

/-- Where the new suggestions come from. -/
theorem ngramSuggest_new {word : Str} {out out' : List Str} (h : C.ngramSuggest H word out = .ok out') :
    ∃ new, out' = out ++ new ∧
      (∀ g ∈ new, ∃ e ∈ C.dict.words.slots, C.skipsForNgram e.2 = false ∧
        ∃ forms, C.expandStem e.1 e.2 word = .ok forms ∧ g ∈ forms) ∧
      (∀ s ∈ out, ∀ g ∈ new, ¬ s <:+: g) ∧ new.Pairwise (fun s g => ¬ s <:+: g) := by
  unfold ngramSuggest at h
  rw [Run.bind_eq_ok] at h
  obtain ⟨w, hw, h⟩ := h
  have hw : word = w := by
    unfold charsStr at hw; split at hw
    · simpa using hw
    · simp at hw
  subst hw
  rw [Run.bind_eq_ok] at h
  obtain ⟨roots, hr, h⟩ := h
  rw [Run.bind_eq_ok] at h
  obtain ⟨guesses, hg, h⟩ := h
  rw [Run.bind_eq_ok] at h
  obtain ⟨resc, hres, h⟩ := h
  dsimp only at h
  rw [Run.pure_eq_ok] at h
  obtain ⟨new, h1, h2, h3, h4⟩ := select_new (C := C)
    (b := (H.sort resc).head?.any fun g => decide (g.score > 1000)) (old := out.length)
    (limit := min maxSuggestions (out.length + C.opts.maxNgramSuggestions)) (H.sort resc) out
  refine ⟨new, by rw [← h, h1], fun g hgn => ?_, h3, h4⟩
  have hin := h2.subset hgn
  have hperm : ((H.sort resc).map (·.inner)).Perm (guesses.map (·.inner)) := by
    refine ((H.sort_perm resc).map _).trans ?_
    rw [rescore_inner hres]
    exact (H.sort_perm guesses).map _
  obtain ⟨x, hx, rfl⟩ := List.mem_map.mp (hperm.mem_iff.mp hin)
  obtain ⟨forms, scored, hf, hs, -, dropped, hp, -⟩ := guesses_foldlM (bestOf_nil 200) hg
  have hxs : x ∈ scored := by
    have := hp.mem_iff.mpr (List.mem_append.mpr (Or.inl hx))
    simp only [List.nil_append, List.mem_filter] at this
    exact this.1
  have hxf : x.inner ∈ forms.flatten := by rw [← hs]; exact List.mem_map.mpr ⟨x, hxs, rfl⟩
  obtain ⟨fs, hfs, hxfs⟩ := List.mem_flatten.mp hxf
  obtain ⟨root, hroot, he⟩ : ∃ root ∈ roots, C.expandStem root.inner.1 root.inner.2 word = .ok fs := by
    exact forall₂_right hf hfs
  obtain ⟨sc, ha, -, dr, hp', -⟩ := roots_foldlM (bestOf_nil 100) hr
  have hrs : root ∈ sc := by
    have := hp'.mem_iff.mpr (List.mem_append.mpr (Or.inl hroot))
    simpa using this
  have hre : root.inner ∈ (C.dict.words.iter C.L).filter (fun e => !C.skipsForNgram e.2) := by
    rw [← ha]; exact List.mem_map.mpr ⟨root, hrs, rfl⟩
  rw [List.mem_filter] at hre
  exact ⟨root.inner, (Bag.iter_perm C.L C.dict.words).mem_iff.mp hre.1, by simpa using hre.2, fs, he, hxfs⟩

end Checker
end Spellbook
