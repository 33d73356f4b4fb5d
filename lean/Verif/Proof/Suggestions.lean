import Verif.Spec.Suggestions
import Verif.Proof.SuggestCase
import Verif.Proof.SuggestEnds
import Verif.Props.Happens
/-!
# Proofs about the outcomes of `suggest`
-/

namespace Spellbook
open Spec Props

/-- The run with this result. -/
def Spec.Result.run {α : Type} : Result α → Run α
  | .gives a => .ok a
  | .panics => .error .panic

/-- The computation has exactly the given results, once the fuel suffices. -/
structure Does {α : Type} (g : Nat → Run α) (R : Result α → Prop) : Prop where
  mono : Checker.Mono g
  iff : ∀ o, (∃ f, g f = o.run) ↔ R o

namespace Does
variable {α β : Type}

theorem up {g : Nat → Run α} (hg : Checker.Mono g) {f f' : Nat} {o : Result α} (h : g f = o.run) (hf : f ≤ f') :
    g f' = o.run := by
  cases o with
  | gives a => exact (hg hf).ok h
  | panics => exact (hg hf).panic h

theorem congr {g : Nat → Run α} {R R' : Result α → Prop} (h : Does g R) (hR : ∀ o, R o ↔ R' o) : Does g R' :=
  ⟨h.mono, fun o => (h.iff o).trans (hR o)⟩

theorem const {r : Run α} {R : Result α → Prop} (h : ∀ o, r = o.run ↔ R o) : Does (fun _ => r) R :=
  ⟨fun _ => Run.Le.refl _, fun o => ⟨fun ⟨_, hf⟩ => (h o).1 hf, fun hR => ⟨0, (h o).2 hR⟩⟩⟩

theorem ok (a : α) : Does (fun _ => .ok a) (· = .gives a) :=
  .const fun o => by cases o <;> simp [Result.run, eq_comm]

theorem pure (a : α) : Does (fun _ => (Pure.pure a : Run α)) (· = .gives a) := ok a

theorem panic : Does (fun _ => (.error .panic : Run α)) (· = .panics) :=
  .const fun o => by cases o <;> simp [Result.run]

theorem fuel : Does (fun _ => (.error .fuel : Run α)) (fun _ => False) :=
  .const fun o => by cases o <;> simp [Result.run]

theorem bind' {g : Nat → Run α} {h : Nat → α → Run β} {R : Result α → Prop} {Q : α → Result β → Prop}
    (hg : Does g R) (hh : ∀ a, R (.gives a) → Does (fun f => h f a) (Q a)) : Does (fun f => g f >>= h f) (Then R Q) := by
  refine ⟨fun {f f'} hf => ?_, fun o => ⟨?_, ?_⟩⟩
  · rcases hg.mono hf with e | e
    · exact .inl (by rw [e]; rfl)
    · rw [e]
      cases he : g f' with
      | error e => exact .inr rfl
      | ok a => exact (hh a ((hg.iff _).1 ⟨f', he⟩)).mono hf
  · rintro ⟨f, hf⟩
    cases hgf : g f with
    | error e =>
      rw [hgf] at hf
      cases o with
      | gives b => cases hf
      | panics =>
        cases e with
        | fuel => cases hf
        | panic => exact .inl ⟨(hg.iff .panics).1 ⟨f, hgf⟩, rfl⟩
    | ok a =>
      rw [hgf] at hf
      exact .inr ⟨a, (hg.iff (.gives a)).1 ⟨f, hgf⟩, ((hh a ((hg.iff (.gives a)).1 ⟨f, hgf⟩)).iff o).1 ⟨f, hf⟩⟩
  · rintro (⟨h1, rfl⟩ | ⟨a, h1, h2⟩)
    · obtain ⟨f, hf⟩ := (hg.iff _).2 h1
      refine ⟨f, ?_⟩
      rw [hf]; rfl
    · obtain ⟨f, hf⟩ := (hg.iff _).2 h1
      obtain ⟨f', hf'⟩ := ((hh a h1).iff _).2 h2
      refine ⟨max f f', ?_⟩
      have e1 := up hg.mono hf (Nat.le_max_left f f')
      have e2 := up (hh a h1).mono hf' (Nat.le_max_right f f')
      rw [e1, ← e2]; rfl

theorem bind {g : Nat → Run α} {h : Nat → α → Run β} {R : Result α → Prop} {Q : α → Result β → Prop}
    (hg : Does g R) (hh : ∀ a, Does (fun f => h f a) (Q a)) : Does (fun f => g f >>= h f) (Then R Q) :=
  hg.bind' fun a _ => hh a

theorem then_congr {R R' : Result α → Prop} {Q Q' : α → Result β → Prop} (h1 : ∀ o, R o ↔ R' o)
    (h2 : ∀ a o, Q a o ↔ Q' a o) (o : Result β) : Then R Q o ↔ Then R' Q' o := by
  unfold Then
  simp only [h1, h2]

theorem then_gives {a : α} {Q : α → Result β → Prop} (o : Result β) : Then (· = .gives a) Q o ↔ Q a o := by
  unfold Then
  simp

theorem then_assoc {γ : Type} {R : Result α → Prop} {Q : α → Result β → Prop} {T : β → Result γ → Prop}
    (o : Result γ) : Then (Then R Q) T o ↔ Then R (fun a => Then (Q a) T) o := by
  unfold Then
  constructor
  · rintro (⟨⟨h, -⟩ | ⟨a, h1, h2⟩, rfl⟩ | ⟨b, ⟨-, h⟩ | ⟨a, h1, h2⟩, h3⟩)
    · exact .inl ⟨h, rfl⟩
    · exact .inr ⟨a, h1, .inl ⟨h2, rfl⟩⟩
    · cases h
    · exact .inr ⟨a, h1, .inr ⟨b, h2, h3⟩⟩
  · rintro (⟨h, rfl⟩ | ⟨a, h1, ⟨h2, rfl⟩ | ⟨b, h2, h3⟩⟩)
    · exact .inl ⟨.inl ⟨h, rfl⟩, rfl⟩
    · exact .inl ⟨.inr ⟨a, h1, h2⟩, rfl⟩
    · exact .inr ⟨b, .inr ⟨a, h1, h2⟩, h3⟩

end Does

namespace Suggester
variable {S : Suggester}

/-- What the code looks at. -/
noncomputable def knowledge (S : Suggester) (lines : List Str) : Knowledge where
  C := S.C
  ngram := S.ngram
  choice := S.C.choice
  lines := lines
  input := S.C.aff.inputConversions.convert
  output := S.C.aff.outputConversions.convert
  similar := fun w old =>
    match S.C.ngramSuggest S.H w old with
    | .ok out => .gives (out.drop old.length)
    | .error _ => .panics

/-- What is needed of the dictionary. -/
structure Sound (S : Suggester) (lines : List Str) : Prop where
  conds : S.C.dict.CondsParsed
  chars : 0 < S.C.dict.aff.options.minChars
  breaks : BreakTable.new lines = some S.C.dict.aff.breakTable
  reps : ∃ rules, ReplacementTable.from' rules = some S.C.aff.replacements
  input : ∀ w, w ≠ [] → S.C.aff.inputConversions.convert w ≠ []

variable {lines : List Str} (hS : S.Sound lines)
include hS

/-! ## Lookups -/

theorem does_check (t : Str) : Does (fun f => S.C.check f t) (Checked (S.knowledge lines) t) := by
  refine ⟨fun hf => Checker.check_le S.C hf t, fun o => ?_⟩
  have key := happens_check hS.conds hS.chars hS.breaks t
  cases o with
  | gives b =>
    cases b with
    | true => exact key .yes
    | false => exact key .no
  | panics => exact key .panics

theorem does_word (t : Str) (fc : Forceucase) (hh : HiddenHomonym) :
    Does (fun f => S.C.checkWord f t fc hh) fun o =>
      ∃ x, Decides S.C.U S.C.dict S.C.choice fc hh t x ∧ o = .gives x := by
  refine ⟨fun hf => Checker.checkWord_le S.C hf _ _ _, fun o => ?_⟩
  obtain ⟨h1, h2⟩ := Checker.finds_iff hS.conds hS.chars fc hh t
  cases o with
  | panics =>
    constructor
    · rintro ⟨f, hf⟩
      exact absurd hf (Checker.checkWord_np _ _ _ _ _)
    · rintro ⟨x, -, h⟩; cases h
  | gives x =>
    simp only [Result.gives.injEq, exists_eq_right']
    cases x with
    | none => exact h1
    | some F => exact h2 F

theorem does_may (t : Str) (out : List Str) : Does (fun f => S.addIfCorrect f t out) fun o =>
    ∃ b, MaySuggest (S.knowledge lines) t b ∧ o = .gives (b, if b then out ++ [t] else out) := by
  unfold addIfCorrect
  refine ((does_word hS t .forbidBad .skip).bind (Q := fun x o => ∃ b : Bool,
      (b = true ↔ ∃ F, x = some F ∧ S.C.opts.forbiddenWordFlag ∉ F.elems ∧
      ¬ (S.C.opts.forbidWarn = true ∧ Has F S.C.opts.warnFlag)) ∧ o = .gives (b, if b then out ++ [t] else out))
      fun x => ?_).congr fun o => ?_
  · have uniq : ∀ (p : Prop) (b : Bool) (_ : b = true ↔ p) (o : Result (Bool × List Str)),
        (∃ b' : Bool, (b' = true ↔ p) ∧ o = .gives (b', if b' then out ++ [t] else out)) ↔
        o = .gives (b, if b then out ++ [t] else out) := by
      intro p b hb o
      constructor
      · rintro ⟨b', hb', rfl⟩
        rw [show b' = b from Bool.eq_iff_iff.2 (hb'.trans hb.symm)]
      · exact fun h => ⟨b, hb, h⟩
    cases x with
    | none =>
      exact (Does.pure (false, out)).congr fun o => (uniq _ false (by simp) o).symm
    | some F =>
      dsimp only
      by_cases hf : S.C.opts.forbiddenWordFlag ∈ F.elems
      · simp only [if_pos (FlagSet.contains_iff.2 hf)]
        exact (Does.pure (false, out)).congr fun o => (uniq _ false (by simp [hf]) o).symm
      · simp only [if_neg (fun h => hf (FlagSet.contains_iff.1 h))]
        by_cases hw : S.C.opts.forbidWarn = true ∧ Has F S.C.opts.warnFlag
        · simp only [if_pos (show (S.C.opts.forbidWarn && hasFlag F S.C.opts.warnFlag) = true by
            rw [Bool.and_eq_true, Checker.hasFlag_iff]; exact hw)]
          exact (Does.pure (false, out)).congr fun o => (uniq _ false (by simp [hw]) o).symm
        · simp only [if_neg (show ¬ (S.C.opts.forbidWarn && hasFlag F S.C.opts.warnFlag) = true by
            rw [Bool.and_eq_true, Checker.hasFlag_iff]; exact hw)]
          exact (Does.pure (true, out ++ [t])).congr fun o => (uniq _ true ⟨fun _ => ⟨F, rfl, hf, hw⟩, fun _ => rfl⟩ o).symm
  · unfold Then MaySuggest
    constructor
    · rintro (⟨⟨x, -, h⟩, -⟩ | ⟨a, ⟨x, hx, h⟩, b, hb, rfl⟩)
      · cases h
      · cases h
        exact ⟨b, ⟨a, hx, hb⟩, rfl⟩
    · rintro ⟨b, ⟨x, hx, hb⟩, rfl⟩
      exact .inr ⟨x, ⟨x, hx, rfl⟩, b, hb, rfl⟩

/-- A loop which adds the texts that pass a test. -/
theorem does_sieve {P : Str → Bool → Prop} {g : Nat → List Str → Str → Run (List Str)}
    (hg : ∀ t out, Does (fun f => g f out t) fun o => ∃ b, P t b ∧ o = .gives (if b then out ++ [t] else out)) :
    ∀ (texts out : List Str), Does (fun f => texts.foldlM (g f) out) fun o =>
      ∃ l, Sieve P texts l ∧ o = .gives (out ++ l)
  | [], out => by
    refine (Does.pure out).congr fun o => ?_
    constructor
    · rintro rfl
      exact ⟨[], .nil, by simp⟩
    · rintro ⟨l, h, rfl⟩
      cases h
      simp
  | t :: texts, out => by
    refine ((hg t out).bind fun out => does_sieve hg texts out).congr fun o => ?_
    unfold Then
    constructor
    · rintro (⟨⟨b, -, h⟩, -⟩ | ⟨a, ⟨b, hb, h⟩, l, hl, rfl⟩)
      · cases h
      · cases h
        cases b with
        | true => exact ⟨t :: l, .keep hb hl, by simp⟩
        | false => exact ⟨l, .drop hb hl, by simp⟩
    · rintro ⟨l, hl, rfl⟩
      cases hl with
      | keep hb hl => exact .inr ⟨_, ⟨true, hb, rfl⟩, _, hl, by simp⟩
      | drop hb hl => exact .inr ⟨_, ⟨false, hb, rfl⟩, _, hl, by simp⟩

theorem does_addAll (texts out : List Str) : Does (fun f => S.addAll f texts out) fun o =>
    ∃ l, Sieve (MaySuggest (S.knowledge lines)) texts l ∧ o = .gives (out ++ l) := by
  unfold addAll
  refine does_sieve hS (fun t out => ?_) texts out
  refine ((does_may hS t out).bind (Q := fun r o => o = .gives r.2) fun r => Does.pure _).congr fun o => ?_
  unfold Then
  constructor
  · rintro (⟨⟨b, -, h⟩, -⟩ | ⟨a, ⟨b, hb, h⟩, rfl⟩)
    · cases h
    · cases h
      exact ⟨b, hb, rfl⟩
  · rintro ⟨b, hb, rfl⟩
    exact .inr ⟨_, ⟨b, hb, rfl⟩, rfl⟩

theorem does_allParts : ∀ parts : List Str, Does (fun f => S.allParts f parts) fun o =>
    ∃ b, AllWords (S.knowledge lines) parts b ∧ o = .gives b
  | [] => (Does.ok true).congr fun o => by
    constructor
    · rintro rfl
      exact ⟨true, rfl, rfl⟩
    · rintro ⟨b, rfl, rfl⟩
      rfl
  | p :: ps => by
    unfold allParts
    refine ((does_word hS p .forbidBad .skip).bind (Q := fun x o =>
      (x = none ∧ o = .gives false) ∨ (x ≠ none ∧ ∃ b, AllWords (S.knowledge lines) ps b ∧ o = .gives b))
      fun x => ?_).congr fun o => ?_
    · cases x with
      | none => exact (Does.pure false).congr fun o => by simp
      | some F => exact (does_allParts ps).congr fun o => by simp
    · unfold Then
      simp only [AllWords]
      constructor
      · rintro (⟨⟨x, -, h⟩, -⟩ | ⟨a, ⟨x, hx, h⟩, h'⟩)
        · cases h
        · cases h
          rcases h' with ⟨rfl, rfl⟩ | ⟨hn, b, hb, rfl⟩
          · exact ⟨false, .inl ⟨hx, rfl⟩, rfl⟩
          · cases a with
            | none => exact absurd rfl hn
            | some F => exact ⟨b, .inr ⟨F, hx, hb⟩, rfl⟩
      · rintro ⟨b, ⟨h, rfl⟩ | ⟨F, hF, hb⟩, rfl⟩
        · exact .inr ⟨none, ⟨_, h, rfl⟩, .inl ⟨rfl, rfl⟩⟩
        · exact .inr ⟨some F, ⟨_, hF, rfl⟩, .inr ⟨by simp, b, hb, rfl⟩⟩

omit hS in
theorem spacedParts_unique : ∀ (parts : List Str) (last : Str), ' ' ∉ last → (∀ p ∈ parts, ' ' ∉ p) →
    spacedParts [] (parts.flatMap (· ++ [' ']) ++ last) = parts
  | [], last, h, _ => by
    simpa using spacedParts_last last [] h
  | p :: parts, last, h, hp => by
    have e : (p :: parts).flatMap (· ++ [' ']) ++ last = p ++ ' ' :: (parts.flatMap (· ++ [' ']) ++ last) := by
      simp
    rw [e, spacedParts_append p [] _ (hp p (by simp)), spacedParts_unique parts last h fun q hq => hp q (by simp [hq])]
    simp

theorem does_tryRep (t : Str) (out : List Str) : Does (fun f => S.tryRep f t out) fun o =>
    ∃ b, MayReplace (S.knowledge lines) t b ∧ o = .gives (if b then out ++ [t] else out) := by
  unfold tryRep
  refine ((does_may hS t out).bind (Q := fun r o => (r.1 = true ∧ o = .gives r.2) ∨
      (r.1 = false ∧ ((' ' ∉ t ∧ o = .gives r.2) ∨ (' ' ∈ t ∧ ∃ b, AllWords (S.knowledge lines) (spacedParts [] t) b ∧
        o = .gives (if b then r.2 ++ [t] else r.2)))))
      fun r => ?_).congr fun o => ?_
  · obtain ⟨b, out⟩ := r
    cases b with
    | true => exact (Does.pure out).congr fun o => by simp
    | false =>
      by_cases hs : ' ' ∈ t
      · have : containsStr t [' '] = true := by
          rw [containsStr_iff]
          obtain ⟨a, b, rfl⟩ := List.append_of_mem hs
          exact ⟨a, b, by simp⟩
        simp only [this, Bool.false_eq_true, if_false, if_true]
        refine ((does_allParts hS (spacedParts [] t)).bind (Q := fun b o => o = .gives (if b then out ++ [t] else out))
          fun b => ?_).congr fun o => ?_
        · cases b <;> exact Does.pure _
        · unfold Then
          simp only [hs, not_true, false_and, true_and, false_or]
          constructor
          · rintro (⟨⟨b, -, h⟩, -⟩ | ⟨a, ⟨b, hb, h⟩, rfl⟩)
            · cases h
            · cases h
              exact ⟨_, hb, rfl⟩
          · rintro ⟨b, hb, rfl⟩
            exact .inr ⟨b, ⟨b, hb, rfl⟩, rfl⟩
      · have : ¬ containsStr t [' '] = true := by
          rw [containsStr_iff]
          rintro ⟨a, b, h⟩
          exact hs (by rw [h]; simp)
        simp only [this, Bool.false_eq_true, if_false]
        exact (Does.pure out).congr fun o => by simp [hs]
  · unfold Then MayReplace
    have parts : ∀ b, (' ' ∉ t ∧ b = false ∨ ∃ parts last, parts ≠ [] ∧ t = parts.flatMap (· ++ [' ']) ++ last ∧
        ' ' ∉ last ∧ (∀ p ∈ parts, ' ' ∉ p) ∧ AllWords (S.knowledge lines) parts b) ↔
        (' ' ∉ t ∧ b = false ∨ ' ' ∈ t ∧ AllWords (S.knowledge lines) (spacedParts [] t) b) := by
      intro b
      refine or_congr Iff.rfl ⟨?_, ?_⟩
      · rintro ⟨ps, last, h1, rfl, h3, h4, h5⟩
        rw [spacedParts_unique ps last h3 h4]
        refine ⟨?_, h5⟩
        cases ps with
        | nil => exact absurd rfl h1
        | cons p ps => simp
      · rintro ⟨hs, h⟩
        obtain ⟨last, h1, h2, h3⟩ := spacedParts_spec t [] (by simp)
        refine ⟨_, last, ?_, h2, h1, h3, h⟩
        intro he
        rw [he] at h2
        have e : t = last := by simpa using h2
        exact h1 (e ▸ hs)
    simp only [parts]
    constructor
    · rintro (⟨⟨b, -, h⟩, -⟩ | ⟨a, ⟨b, hb, h⟩, h'⟩)
      · cases h
      · cases h
        rcases h' with ⟨rfl, rfl⟩ | ⟨rfl, ⟨h1, rfl⟩ | ⟨h1, b, h2, rfl⟩⟩
        · exact ⟨true, .inl ⟨hb, rfl⟩, rfl⟩
        · exact ⟨false, .inr ⟨hb, .inl ⟨h1, rfl⟩⟩, rfl⟩
        · exact ⟨b, .inr ⟨hb, .inr ⟨h1, h2⟩⟩, rfl⟩
    · rintro ⟨b, ⟨h, rfl⟩ | ⟨h, ⟨h1, rfl⟩ | ⟨h1, h2⟩⟩, rfl⟩
      · exact .inr ⟨_, ⟨true, h, rfl⟩, .inl ⟨rfl, rfl⟩⟩
      · exact .inr ⟨_, ⟨false, h, rfl⟩, .inr ⟨rfl, .inl ⟨h1, rfl⟩⟩⟩
      · exact .inr ⟨_, ⟨false, h, rfl⟩, .inr ⟨rfl, .inr ⟨h1, b, h2, rfl⟩⟩⟩

/-! ## One spelling -/

omit hS in
theorem maxAttempts_iff (w : Str) : S.maxAttempts w =
    if w = [] ∧ S.C.opts.allowsCompounding = true then .error .panic else .ok (editBudget S.C w) := by
  have hb : byteLen w = 0 ↔ w = [] := byteLen_eq_zero
  cases h : S.maxAttempts w with
  | ok n =>
    rw [maxAttempts_eq h]
    rw [if_neg]
    rintro ⟨rfl, hc⟩
    unfold maxAttempts at h
    dsimp only at h
    rw [if_pos hc, if_pos (hb.2 rfl)] at h
    cases h
  | error e =>
    unfold maxAttempts at h
    dsimp only at h
    split at h
    · rename_i hc
      split at h
      · rename_i hw
        cases h
        rw [if_pos ⟨hb.1 hw, hc⟩]
      · cases h
    · cases h

theorem does_upper (w : Str) (out : List Str) : Does (fun f => S.uppercaseSuggest f w out) fun o =>
    ∃ l, Sieve (MaySuggest (S.knowledge lines)) [upperOf S.C w] l ∧ o = .gives (out ++ l) := by
  have := does_addAll hS [upperOf S.C w] out
  have e : (fun f => S.addAll f [upperOf S.C w] out) = fun f => S.uppercaseSuggest f w out := by
    funext f
    unfold addAll uppercaseSuggest
    simp only [List.foldlM_cons, List.foldlM_nil, upperOf]
    cases S.addIfCorrect f (S.C.opts.caseHandling.uppercase S.C.U w) out <;> rfl
  rwa [e] at this

theorem does_rep (w : Str) (out : List Str) : Does (fun f => S.repSuggest f w out) fun o =>
    ∃ l, Sieve (MayReplace (S.knowledge lines)) (reworded S.C.aff.replacements.whole S.C.aff.replacements.start
      S.C.aff.replacements.stop S.C.aff.replacements.anywhere w) l ∧ o = .gives (out ++ l) := by
  obtain ⟨rules, hR⟩ := hS.reps
  unfold repSuggest
  rw [(C41_rep S.C.aff.replacements w 0 hR).1, ofOption_some]
  exact does_sieve hS (fun t out => does_tryRep hS t out) _ out

theorem does_map (w : Str) (out : List Str) : Does (fun f => S.mapSuggest f w out) fun o =>
    if w = [] ∧ S.C.opts.allowsCompounding = true then o = .panics
    else ∃ l, Sieve (MaySuggest (S.knowledge lines)) ((similarTexts S.C.aff.similarities (editBudget S.C w + 1) w).take
        (editBudget S.C w)) l ∧ o = .gives (out ++ l) := by
  unfold mapSuggest
  rw [maxAttempts_iff]
  split
  · exact Does.panic
  · change Does (fun f => Run.ofOption (mapTexts S.C.aff.similarities w (editBudget S.C w)) >>= fun texts =>
      S.addAll f texts out) _
    rw [mapTexts_eq, ofOption_some]
    exact does_addAll hS _ out

theorem does_quality (w : Str) (l out : List Str) :
    Does (fun f => S.highQuality f w out.length (out ++ l).length) fun o =>
      ∃ good, Quality (S.knowledge lines) w l good ∧ o = .gives good := by
  unfold highQuality Quality
  by_cases hl : l = []
  · subst hl
    simp only [List.append_nil, ne_eq, not_true_eq_false, if_false, false_and, true_and, false_or]
    cases hs : S.C.aff.similarities with
    | nil =>
      simp only [List.isEmpty_nil, if_true]
      have hs' : (S.knowledge lines).C.dict.aff.similarities = [] := hs
      exact (Does.ok false).congr fun o => by simp [hs']
    | cons g gs =>
      simp only [List.isEmpty_cons, Bool.false_eq_true, if_false]
      have hs' : (S.knowledge lines).C.dict.aff.similarities = g :: gs := hs
      rw [hs']
      have hw := does_word hS w .allowBad .skip
      refine ((hw.bind (Q := fun x o => o = .gives x.isSome) fun x => Does.pure _).congr fun o => ?_)
      unfold Then
      constructor
      · rintro (⟨⟨x, -, h⟩, -⟩ | ⟨a, ⟨x, hx, h⟩, rfl⟩)
        · cases h
        · cases h
          exact ⟨_, .inr ⟨by simp, a, hx, by cases a <;> simp⟩, rfl⟩
      · rintro ⟨good, ⟨h, -⟩ | ⟨-, x, hx, hg⟩, rfl⟩
        · cases h
        · refine .inr ⟨x, ⟨x, hx, rfl⟩, ?_⟩
          cases x <;> cases good <;> simp at hg ⊢
  · have : 0 < l.length := List.length_pos_iff.mpr hl
    simp only [if_pos (show (out ++ l).length ≠ out.length by rw [List.length_append]; omega)]
    exact (Does.ok true).congr fun o => by simp [hl]

omit hS in
theorem addAll_append (f : Nat) (a b out : List Str) : S.addAll f (a ++ b) out =
    S.addAll f a out >>= fun out => S.addAll f b out := by
  unfold addAll
  rw [List.foldlM_append]

theorem does_edits (w : Str) (hw : ¬ (w = [] ∧ S.C.opts.allowsCompounding = true)) (out : List Str) :
    Does (fun f => S.suggestEdits f w out) fun o => ∃ e,
      Sieve (MaySuggest (S.knowledge lines)) (editsOf (S.knowledge lines) (editBudget S.C w) w) e ∧
      o = .gives (out ++ e ++ inHalves (S.knowledge lines) w) := by
  have e : (fun f => S.suggestEdits f w out) = fun f =>
      S.addAll f (editsOf (S.knowledge lines) (editBudget S.C w) w) out >>= fun out =>
        (.ok (out ++ inHalves (S.knowledge lines) w) : Run (List Str)) := by
    funext f
    have okb : ∀ {α β : Type} (a : α) (g : α → Run β), ((.ok a : Run α) >>= g) = g a := fun _ _ => rfl
    unfold suggestEdits editsOf free limited
    simp only [maxAttempts_iff, if_neg hw]
    simp only [(C41_adjacent_swap w 0).1, (C41_keyboard _ _ w 0).1, (C41_extra_char w 0).1,
      (C41_doubled_chars_partial w 0).1, (C41_distant_swap w _).1, (C41_forgotten_char _ w _).1,
      (C41_move_char w _).1, (C41_wrong_char _ w _).1, ofOption_some, okb, addAll_append, bind_assoc,
      twoWordsSuggest_eq]
    have hh : splitWords S.C w = inHalves (S.knowledge lines) w := by
      unfold splitWords inHalves
      split
      · rename_i h
        rw [if_pos (show (S.knowledge lines).C.opts.noSplitSuggestions = true from h)]
      · rename_i h
        rw [if_neg (show ¬ (S.knowledge lines).C.opts.noSplitSuggestions = true from h)]
        refine congrArg (fun g => (splits w).flatMap g) (funext fun s => ?_)
        unfold inTwo halves
        change _ = if S.C.checkSimpleWord s.1 .skip = none ∨ S.C.checkSimpleWord (s.2.1 :: s.2.2) .skip = none then [] else _
        cases S.C.checkSimpleWord s.1 .skip <;> cases S.C.checkSimpleWord (s.2.1 :: s.2.2) .skip <;> simp <;> rfl
    rw [hh]
    rfl
  rw [e]
  refine ((does_addAll hS _ out).bind fun out => Does.ok _).congr fun o => ?_
  unfold Then
  constructor
  · rintro (⟨⟨b, -, h⟩, -⟩ | ⟨a, ⟨b, hb, h⟩, rfl⟩)
    · cases h
    · cases h
      exact ⟨b, hb, rfl⟩
  · rintro ⟨b, hb, rfl⟩
    exact .inr ⟨_, ⟨b, hb, rfl⟩, rfl⟩

omit hS in
theorem ite_pos' {c p q : Prop} [Decidable c] (h : c) (hp : p) : if c then p else q := by rwa [if_pos h]

omit hS in
theorem ite_neg' {c p q : Prop} [Decidable c] (h : ¬ c) (hq : q) : if c then p else q := by rwa [if_neg h]

theorem does_low (w : Str) (out : List Str) : Does (fun f => S.suggestLow f w out)
    (Then (Low (S.knowledge lines) w) fun p o => o = .gives (p.1, out ++ p.2)) := by
  unfold suggestLow
  refine ((does_upper hS w out).bind' fun o1 h1 => (does_rep hS w o1).bind' fun o2 h2 => (does_map hS w o2).bind'
    (Q := fun o3 => Then (fun o => ∃ l, o3 = out ++ l ∧ ∃ good, Quality (S.knowledge lines) w l good ∧ o = .gives good)
      fun hq => Then (fun o => ∃ e, Sieve (MaySuggest (S.knowledge lines)) (editsOf (S.knowledge lines) (editBudget S.C w) w) e ∧
      o = .gives (o3 ++ e ++ inHalves (S.knowledge lines) w)) fun out o => o = .gives (hq, out))
    fun o3 h3 => ?_).congr fun o => ?_
  · obtain ⟨l1, -, h1⟩ := h1
    obtain ⟨l2, -, h2⟩ := h2
    cases h1
    cases h2
    have hw : ¬ (w = [] ∧ S.C.opts.allowsCompounding = true) := by
      intro h
      rw [if_pos h] at h3
      cases h3
    have : ∃ l, o3 = out ++ l := by
      rw [if_neg hw] at h3
      obtain ⟨l, -, h⟩ := h3
      cases h
      exact ⟨l1 ++ l2 ++ l, by simp⟩
    obtain ⟨l, rfl⟩ := this
    refine ((does_quality hS w l out).bind fun q => (does_edits hS w hw _).bind fun o => Does.pure _).congr fun o =>
      Does.then_congr (fun o => ?_) (fun _ _ => Iff.rfl) o
    constructor
    · exact fun h => ⟨l, rfl, h⟩
    · rintro ⟨l', h, h'⟩
      rwa [List.append_cancel_left h]
  · unfold Then Low
    constructor
    · rintro (⟨⟨l1, -, h⟩, -⟩ | ⟨o1, ⟨l1, h1, e1⟩, ⟨⟨l2, -, h⟩, -⟩ | ⟨o2, ⟨l2, h2, e2⟩, h⟩⟩)
      · cases h
      · cases h
      · cases e1
        cases e2
        rcases h with ⟨h3, rfl⟩ | ⟨o3, h3, h⟩
        · split at h3
          · rename_i hc
            exact .inl ⟨⟨l1, l2, h1, h2, ite_pos' hc rfl⟩, rfl⟩
          · obtain ⟨_, _, h⟩ := h3
            cases h
        · split at h3
          · cases h3
          · rename_i hc
            obtain ⟨l3, h3, e3⟩ := h3
            cases e3
            rcases h with ⟨⟨l, e, good, -, h⟩, -⟩ | ⟨hq, ⟨l, e, good, hg, h⟩, h'⟩
            · cases h
            · cases h
              simp only [List.append_assoc] at e
              have e := List.append_cancel_left e
              subst e
              rcases h' with ⟨⟨_, _, h⟩, -⟩ | ⟨o4, ⟨l4, h4, e4⟩, rfl⟩
              · cases h
              · cases e4
                exact .inr ⟨_, ⟨l1, l2, h1, h2, ite_neg' hc
                  ⟨l3, _, l4, h3, by simpa using hg, h4, rfl⟩⟩, by simp⟩
    · intro h
      have main : ∀ r, Low (S.knowledge lines) w r → Then (fun o =>
          ∃ l, Sieve (MaySuggest (S.knowledge lines)) [upperOf S.C w] l ∧ o = .gives (out ++ l)) (fun o1 =>
          Then (fun o => ∃ l, Sieve (MayReplace (S.knowledge lines)) (reworded S.C.aff.replacements.whole
            S.C.aff.replacements.start S.C.aff.replacements.stop S.C.aff.replacements.anywhere w) l ∧
            o = .gives (o1 ++ l)) fun o2 => Then (fun o =>
    if w = [] ∧ S.C.opts.allowsCompounding = true then o = .panics
    else ∃ l, Sieve (MaySuggest (S.knowledge lines)) ((similarTexts S.C.aff.similarities (editBudget S.C w + 1) w).take
        (editBudget S.C w)) l ∧ o = .gives (o2 ++ l)) fun o3 => Then (fun o => ∃ l, o3 = out ++ l ∧
        ∃ good, Quality (S.knowledge lines) w l good ∧ o = .gives good)
      fun hq => Then (fun o => ∃ e, Sieve (MaySuggest (S.knowledge lines)) (editsOf (S.knowledge lines) (editBudget S.C w) w) e ∧
      o = .gives (o3 ++ e ++ inHalves (S.knowledge lines) w)) fun out o => o = .gives (hq, out))
        (match r with | .gives p => .gives (p.1, out ++ p.2) | .panics => .panics) := by
        rintro r ⟨l1, l2, h1, h2, h⟩
        refine .inr ⟨_, ⟨l1, h1, rfl⟩, .inr ⟨_, ⟨l2, h2, rfl⟩, ?_⟩⟩
        split at h
        · rename_i hc
          subst h
          exact .inl ⟨ite_pos' hc rfl, rfl⟩
        · rename_i hc
          obtain ⟨l3, good, l4, h3, hq, h4, rfl⟩ := h
          refine .inr ⟨out ++ l1 ++ l2 ++ l3, ?_, .inr ⟨good, ⟨l1 ++ l2 ++ l3, ?_, good, hq, rfl⟩, ?_⟩⟩
          · exact ite_neg' hc ⟨l3, h3, rfl⟩
          · simp
          · exact .inr ⟨_, ⟨l4, h4, rfl⟩, by simp⟩
      rcases h with ⟨h, rfl⟩ | ⟨p, h, rfl⟩
      · exact main _ h
      · exact main _ h

end Suggester
end Spellbook
