import Verif.Spec.DicText
import Verif.Spec.Parser
import Verif.Proof.DicLine
import Verif.Proof.Casing
import Verif.Proof.FlagSet
/-!
# The text of the word list
-/

namespace Spellbook
open Spec

theorem isComment_iff {U : Unicode} {line : Str} : isComment U line = true ↔ Comment U line := by
  unfold isComment trimStart Comment
  constructor
  · intro h
    cases hd : line.dropWhile U.isWs with
    | nil => rw [hd] at h; simp at h
    | cons c r =>
      rw [hd] at h
      simp at h
      subst h
      obtain ⟨ws, h1, h2, h3⟩ := dropWhile_eq_iff.1 hd
      exact ⟨ws, r, h1, h3, h2⟩
  · rintro ⟨ws, r, h1, h3, h2⟩
    rw [dropWhile_eq_iff.2 ⟨ws, h1, h2, h3⟩]
    rfl

theorem dropWhile_all {α : Type} {p : α → Bool} {l : List α} (h : ∀ c ∈ l, p c = true) :
    l.dropWhile p = [] := by
  induction l with
  | nil => rfl
  | cons x l ih =>
    rw [List.dropWhile_cons, if_pos (h x (by simp))]
    exact ih fun c hc => h c (by simp [hc])

theorem dropWhile_append_all {α : Type} {p : α → Bool} {a l : List α} (h : ∀ c ∈ a, p c = true)
    (hl : ∀ c, l.head? = some c → p c = false) : (a ++ l).dropWhile p = l := by
  induction a with
  | nil =>
    cases l with
    | nil => rfl
    | cons x l => rw [List.nil_append, List.dropWhile_cons, if_neg (by simp [hl x rfl])]
  | cons x a ih =>
    rw [List.cons_append, List.dropWhile_cons, if_pos (h x (by simp))]
    exact ih fun c hc => h c (by simp [hc])

theorem trim_eq {U : Unicode} {line t : Str} (h : Trimmed U line t) : trim U line = t := by
  obtain ⟨a, b, rfl, ha, hb, h1, h2⟩ := h
  unfold trim trimStart
  cases t with
  | nil =>
    have hab : ∀ c ∈ a ++ b, U.isWs c = true := by
      intro c hc
      rcases List.mem_append.1 hc with h | h
      · exact ha c h
      · exact hb c h
    rw [List.append_nil, dropWhile_all hab]
    rfl
  | cons x t =>
    rw [List.append_assoc, dropWhile_append_all ha (by intro c hc; exact h1 c (by simpa using hc)),
      List.reverse_append, dropWhile_append_all (by simpa using hb)
        (by intro c hc; exact h2 c (by rw [List.head?_reverse] at hc; exact hc)), List.reverse_reverse]

theorem trim_spec (U : Unicode) (line : Str) : Trimmed U line (trim U line) := by
  unfold trim trimStart
  have e1 := List.takeWhile_append_dropWhile (p := U.isWs) (l := line)
  have e2 := List.takeWhile_append_dropWhile (p := U.isWs) (l := (line.dropWhile U.isWs).reverse)
  have hdw : ∀ (l : Str) c, (l.dropWhile U.isWs).head? = some c → U.isWs c = false := by
    intro l c hc
    cases hd : l.dropWhile U.isWs with
    | nil => rw [hd] at hc; simp at hc
    | cons x r =>
      obtain ⟨-, -, -, h⟩ := dropWhile_eq_iff.1 hd
      rw [hd] at hc
      simp at hc
      exact hc ▸ h
  refine ⟨line.takeWhile U.isWs, ((line.dropWhile U.isWs).reverse.takeWhile U.isWs).reverse, ?_,
    fun c hc => List.all_eq_true.1 List.all_takeWhile c hc,
    fun c hc => List.all_eq_true.1 List.all_takeWhile c (List.mem_reverse.1 hc), ?_, ?_⟩
  · rw [List.append_assoc, ← List.reverse_append, e2, List.reverse_reverse, e1]
  · intro c hc
    rw [List.head?_reverse] at hc
    -- the first character of the trimmed text is the first one of the text trimmed at the start
    have hne : (line.dropWhile U.isWs).reverse.dropWhile U.isWs ≠ [] := by
      intro h; rw [h] at hc; simp at hc
    have : (line.dropWhile U.isWs).reverse.getLast? = some c := by
      rw [← e2, List.getLast?_append, hc]; rfl
    rw [List.getLast?_reverse] at this
    exact hdw _ _ this
  · intro c hc
    rw [List.getLast?_reverse] at hc
    exact hdw _ _ hc

/-- What one numbered line does to the word list. -/
def stepRes (U : Unicode) (cx : Cx) (words : Bag FlagSet) (l : Nat × Str) : Except Halt (Bag FlagSet) :=
  (dicStep U cx words (trim U l.2) ⟨[l], none, .dic⟩).map (·.1)

theorem dicStep_eq {U : Unicode} {cx : Cx} {words : Bag FlagSet} {l : Nat × Str} {s : Lines}
    (hs : s.source = .dic) (hl : s.lines.head? = some l) :
    dicStep U cx words (trim U l.2) s = (stepRes U cx words l).map (·, s) := by
  have herr : ∀ k, s.error k = (⟨[l], none, .dic⟩ : Lines).error k := by
    intro k
    simp [Lines.error, hs, hl]
  unfold stepRes dicStep
  by_cases h1 : (trim U l.2).isEmpty = true
  · simp only [h1, ↓reduceIte]; rfl
  · simp only [h1, Bool.false_eq_true, ↓reduceIte]
    by_cases h2 : (trim U l.2).head? = some '/' ∧ byteLen (trim U l.2) > 1
    · rw [if_pos h2]; rfl
    · rw [if_neg h2]
      by_cases h3 : byteLen (trim U l.2) > u16Max
      · rw [if_pos h3]
        simp only [P.fail, herr, Except.map]
      · rw [if_neg h3]
        cases hp : parseDicLine U (trim U l.2) cx.flagType cx.flagAliases cx.ignoreChars with
        | error e =>
          show P.fail (ErrorKind.malformedFlag e) s = _
          simp only [P.fail, herr]
          rfl
        | ok r =>
          obtain ⟨stem, F⟩ := r
          show (match insertEntry U cx.options words stem F with
            | .ok words => Except.ok (words, s)
            | .error h => .error h) = Except.map (·, s) (Except.map (·.1)
              (match insertEntry U cx.options words stem F with
                | .ok words => Except.ok (words, (⟨[l], none, .dic⟩ : Lines))
                | .error h => .error h))
          cases insertEntry U cx.options words stem F <;> rfl

theorem dropWhile_filter {α : Type} (p : α → Bool) (l : List α) :
    match l.dropWhile p with
    | [] => l.filter (fun a => !p a) = []
    | a :: r => l.filter (fun a => !p a) = a :: r.filter (fun a => !p a) := by
  induction l with
  | nil => rfl
  | cons x l ih =>
    rw [List.dropWhile_cons]
    by_cases h : p x = true
    · rw [if_pos h, List.filter_cons_of_neg (by simp [h])]; exact ih
    · rw [if_neg h]
      simp only
      rw [List.filter_cons_of_pos (by simpa using h)]

theorem except_map_map {ε α β γ : Type} (f : α → β) (g : β → γ) (x : Except ε α) :
    (x.map f).map g = x.map (fun a => g (f a)) := by cases x <;> rfl

theorem P_bind_ok {α β : Type} {x : P α} {f : α → P β} {s s' : Lines} {a : α} (h : x s = .ok (a, s')) :
    (x >>= f) s = f a s' := by
  show (x s >>= fun p => f p.1 p.2) = _
  rw [h]; rfl

theorem P_bind_error {α β : Type} {x : P α} {f : α → P β} {s : Lines} {e : Halt} (h : x s = .error e) :
    (x >>= f) s = .error e := by
  show (x s >>= fun p => f p.1 p.2) = _
  rw [h]; rfl

theorem dicLoop_eq {U : Unicode} {cx : Cx} : ∀ {fuel : Nat} {words : Bag FlagSet} {s : Lines},
    s.source = .dic → s.lines.length < fuel →
    (dicLoop U cx fuel words s).map (·.1)
      = (s.lines.tail.filter fun l => !isComment U l.2).foldlM (stepRes U cx) words := by
  intro fuel
  induction fuel with
  | zero => intro _ s _ h; omega
  | succ fuel ih =>
    intro words s hs hf
    rw [dicLoop, P_bind_ok (x := P.isFinished) rfl]
    cases hl : s.lines with
    | nil =>
      rw [show s.isFinished = true by simp [Lines.isFinished, hl]]
      rfl
    | cons l ls =>
      rw [show s.isFinished = false by simp [Lines.isFinished, hl]]
      simp only [Bool.false_eq_true, ↓reduceIte, List.tail_cons]
      rw [P_bind_ok (x := P.advance U) rfl, P_bind_ok (x := get) (s := s.advance U) rfl]
      have hlen : (s.advance U).lines.length ≤ ls.length := by
        simp only [Lines.advance, Lines.settle, hl, List.tail_cons]
        exact (List.dropWhile_suffix _).length_le
      have hadv : (s.advance U).lines = ls.dropWhile fun l => isComment U l.2 := by
        simp only [Lines.advance, Lines.settle, hl, List.tail_cons]
      have hsrc : (s.advance U).source = .dic := hs
      have hfil := dropWhile_filter (fun l : Nat × Str => isComment U l.2) ls
      rw [← hadv] at hfil
      rw [hl, List.length_cons] at hf
      cases hn : (s.advance U).lines with
      | nil =>
        rw [hn] at hfil
        simp only at hfil
        have : (s.advance U).line = none := by simp [Lines.line, hn]
        rw [this]
        simp only
        rw [ih hsrc (by omega), hfil, hn]
        rfl
      | cons m ms =>
        rw [hn] at hfil
        simp only at hfil
        have : (s.advance U).line = some m.2 := by simp [Lines.line, hn]
        rw [this]
        simp only
        have hstep := dicStep_eq (U := U) (cx := cx) (words := words) (l := m) hsrc (by rw [hn]; rfl)
        rw [hfil, List.foldlM_cons]
        cases hr : stepRes U cx words m with
        | error e =>
          rw [hr] at hstep
          rw [P_bind_error hstep]
          rfl
        | ok w =>
          rw [hr] at hstep
          rw [P_bind_ok hstep, ih hsrc (by omega), hn]
          rfl

theorem enumerate_zipIdx {α : Type} (l : List α) (n : Nat) :
    Lines.enumerate n l = (l.zipIdx n).map fun p => (p.2, p.1) := by
  induction l generalizing n with
  | nil => rfl
  | cons a l ih => rw [Lines.enumerate, ih, List.zipIdx_cons, List.map_cons]

theorem bom_eq (text : Str) : (stripPrefix? text [Char.ofNat 0xFEFF]).getD text
    = if text.head? = some (Char.ofNat 0xFEFF) then text.tail else text := by
  cases text with
  | nil => rfl
  | cons c r =>
    unfold stripPrefix?
    by_cases h : c = Char.ofNat 0xFEFF
    · simp [h, List.isPrefixOf]
    · have h' : Char.ofNat 0xFEFF ≠ c := fun e => h e.symm
      simp [h, h', List.isPrefixOf]

/-- The numbered lines the reader sees, counted from 1. -/
theorem numbered_eq (text : Str) : numbered text
    = (Lines.enumerate 0 (textLines ((stripPrefix? text [Char.ofNat 0xFEFF]).getD text))).map
        fun l => (l.1 + 1, l.2) := by
  unfold numbered
  simp only [bom_eq, enumerate_zipIdx, List.map_map]
  rfl

/-- `stepRes` on a line numbered from 1. -/
def stepAt (U : Unicode) (cx : Cx) (words : Bag FlagSet) (l : Nat × Str) : Except Halt (Bag FlagSet) :=
  stepRes U cx words (l.1 - 1, l.2)

/-- The lines that are no comments. -/
def contentLines (U : Unicode) (text : Str) : List (Nat × Str) :=
  (numbered text).filter fun l => !isComment U l.2

/-- An error of the word list. -/
def dicError (kind : ErrorKind) (n : Option Nat) : Halt :=
  .error { kind, source := .dic, lineNumber := n }

theorem foldlM_map {ε α β γ : Type} (f : α → β) (g : γ → β → Except ε γ) (l : List α) (c : γ) :
    (l.map f).foldlM g c = l.foldlM (fun c a => g c (f a)) c := by
  induction l generalizing c with
  | nil => rfl
  | cons a l ih =>
    rw [List.map_cons, List.foldlM_cons, List.foldlM_cons]
    congr 1
    funext c
    exact ih c

theorem parseDic_eq (U : Unicode) (cx : Cx) (dic : Str) : parseDic U cx dic =
    match contentLines U dic with
    | [] => .error (dicError (.mismatchedArity 1 0) none)
    | l :: rest =>
      match splitWhitespace U l.2 with
      | [] => .error (dicError (.mismatchedArity 1 0) (some l.1))
      | w :: _ =>
        match parseUInt usizeMax w with
        | .error e => .error (dicError (.malformedNumber e) (some l.1))
        | .ok _ => rest.foldlM (stepAt U cx) Bag.empty := by
  unfold parseDic contentLines
  rw [numbered_eq]
  generalize hal : Lines.enumerate 0 (textLines ((stripPrefix? dic [Char.ofNat 0xFEFF]).getD dic)) = all
  have hnew : Lines.new U dic .dic = Lines.settle U all .dic := by
    unfold Lines.new; rw [← hal]
  rw [hnew]
  have hfil := dropWhile_filter (fun l : Nat × Str => isComment U l.2) all
  have hmf : (all.map fun l => (l.1 + 1, l.2)).filter (fun l : Nat × Str => !isComment U l.2)
      = (all.filter fun l => !isComment U l.2).map fun l => (l.1 + 1, l.2) := by
    rw [List.filter_map]; rfl
  rw [hmf]
  cases hd : all.dropWhile fun l => isComment U l.2 with
  | nil =>
    rw [hd] at hfil
    simp only at hfil
    rw [hfil]
    have hs : Lines.settle U all .dic = ⟨[], none, .dic⟩ := by simp [Lines.settle, hd]
    rw [hs]
    rfl
  | cons l ls =>
    rw [hd] at hfil
    simp only at hfil
    rw [hfil]
    have hs : Lines.settle U all .dic = ⟨l :: ls, some (splitWhitespace U l.2), .dic⟩ := by
      simp [Lines.settle, hd]
    rw [hs]
    simp only [List.map_cons]
    cases hw : splitWhitespace U l.2 with
    | nil => rfl
    | cons w ws =>
      simp only
      cases hp : parseUInt usizeMax w with
      | error e =>
        have : P.count ⟨l :: ls, some (w :: ws), .dic⟩
            = .error (dicError (.malformedNumber e) (some (l.1 + 1))) := by
          show P.lift ErrorKind.malformedNumber (parseUInt usizeMax w) _ = _
          rw [hp]; rfl
        rw [P_bind_error this]
      | ok n =>
        have : P.count ⟨l :: ls, some (w :: ws), .dic⟩ = .ok (n, ⟨l :: ls, some ws, .dic⟩) := by
          show P.lift ErrorKind.malformedNumber (parseUInt usizeMax w) _ = _
          rw [hp]; rfl
        rw [P_bind_ok this]
        have := dicLoop_eq (U := U) (cx := cx) (fuel := (l :: ls).length + 1) (words := Bag.empty)
          (s := ⟨l :: ls, some ws, .dic⟩) rfl (Nat.lt_succ_self _)
        simp only [List.tail_cons] at this
        rw [foldlM_map]
        simp only [stepAt, Nat.add_sub_cancel, Prod.eta]
        rw [show (fun c (a : Nat × Str) => stepRes U cx c a) = stepRes U cx from rfl, ← this]
        cases dicLoop U cx ((l :: ls).length + 1) Bag.empty ⟨l :: ls, some ws, .dic⟩ <;> rfl

/-! ## What a line does -/

theorem needsTwin_iff {U : Unicode} {o : AffOptions} {stem : Str} {F : FlagSet} :
    needsTwin U o stem F = true ↔ HasTwin U o.forbiddenWordFlag stem F := by
  unfold needsTwin HasTwin
  rw [← classifyCasing_iff, ← classifyCasing_iff, ← classifyCasing_iff]
  have hF : F.isEmpty = false ↔ ∃ f, F.contains f = true := by
    unfold FlagSet.isEmpty
    rw [Bool.eq_false_iff, ne_eq, List.isEmpty_iff]
    constructor
    · intro h
      obtain ⟨f, hf⟩ := List.exists_mem_of_ne_nil _ h
      exact ⟨f, FlagSet.contains_iff.2 hf⟩
    · rintro ⟨f, hf⟩ h
      rw [FlagSet.contains_iff, h] at hf
      simp at hf
  simp only [Bool.or_eq_true, Bool.and_eq_true, Bool.not_eq_true', beq_iff_eq, hF, Bool.not_eq_true]

theorem skipped_iff {t : Str} :
    (t.isEmpty = true ∨ (t.head? = some '/' ∧ byteLen t > 1)) ↔ SkippedLine t := by
  unfold SkippedLine
  cases t with
  | nil => simp
  | cons c r =>
    simp only [List.isEmpty_cons, Bool.false_eq_true, List.head?_cons, Option.some.injEq, false_or,
      reduceCtorEq, List.cons.injEq]
    have e1 : ('/' : Char).utf8Size = 1 := by decide
    cases r with
    | nil =>
      simp only [byteLen_cons, byteLen_nil]
      constructor
      · rintro ⟨rfl, h⟩; omega
      · rintro ⟨_, _, _, h⟩; simp at h
    | cons d r =>
      have := Char.utf8Size_pos d
      simp only [byteLen_cons]
      constructor
      · rintro ⟨rfl, -⟩; exact ⟨d, r, rfl, rfl⟩
      · rintro ⟨_, _, rfl, -⟩; exact ⟨rfl, by omega⟩

theorem hasTwin_ne_nil {U : Unicode} {f : Nat} {stem : Str} {F : FlagSet} (h : HasTwin U f stem F) :
    stem ≠ [] := by
  rintro rfl
  rcases h with ⟨h | h, -⟩ | ⟨h, -⟩
  · obtain ⟨⟨c, hc, -⟩, -⟩ := h; simp at hc
  · obtain ⟨⟨c, hc, -⟩, -⟩ := h; simp at hc
  · obtain ⟨⟨c, hc, -⟩, -⟩ := h; simp at hc

theorem contains_hidden {F : FlagSet} {f : Nat} :
    (F.withFlag hiddenHomonymFlag).contains f = true ↔ F.contains f = true ∨ f = 65535 := by
  rw [FlagSet.contains_withFlag, or_comm]; rfl

theorem entriesOf_unique {U : Unicode} {cx : Cx} {line : Str} {l l' : List (Str × FlagSet)}
    (h : EntriesOf U cx line l) (h' : EntriesOf U cx line l') : l = l' := by
  cases h with
  | skipped a b =>
    cases h' with
    | skipped a' b' => rfl
    | plain a' b' c' d' => rw [← trim_eq a'] at b'; rw [← trim_eq a] at b; exact absurd b b'
    | twin a' b' c' d' e' f' => rw [← trim_eq a'] at b'; rw [← trim_eq a] at b; exact absurd b b'
  | plain a b c d =>
    cases h' with
    | skipped a' b' => rw [← trim_eq a'] at b'; rw [← trim_eq a] at b; exact absurd b' b
    | plain a' b' c' d' =>
      rw [← trim_eq a'] at c'; rw [← trim_eq a] at c
      replace c := parseDicLine_ok.2 c; replace c' := parseDicLine_ok.2 c'
      rw [c] at c'; cases c'; rfl
    | twin a' b' c' d' e' f' =>
      rw [← trim_eq a'] at c'; rw [← trim_eq a] at c
      replace c := parseDicLine_ok.2 c; replace c' := parseDicLine_ok.2 c'
      rw [c] at c'; cases c'; exact absurd d' d
  | twin a b c d e f =>
    cases h' with
    | skipped a' b' => rw [← trim_eq a'] at b'; rw [← trim_eq a] at b; exact absurd b' b
    | plain a' b' c' d' =>
      rw [← trim_eq a'] at c'; rw [← trim_eq a] at c
      replace c := parseDicLine_ok.2 c; replace c' := parseDicLine_ok.2 c'
      rw [c] at c'; cases c'; exact absurd d d'
    | twin a' b' c' d' e' f' =>
      rw [← trim_eq a'] at c'; rw [← trim_eq a] at c
      replace c := parseDicLine_ok.2 c; replace c' := parseDicLine_ok.2 c'
      rw [c] at c'; cases c'
      rw [e] at e'; cases e'
      have : ∀ G G' : FlagSet, (∀ x, G.contains x = true ↔ G'.contains x = true) → G = G' :=
        fun G G' h => FlagSet.ext fun x => Bool.eq_iff_iff.2 (h x)
      rw [this _ _ fun x => (f x).trans (f' x).symm]

theorem insertStem_ok {words : Bag FlagSet} {stem : Str} {F : FlagSet} (h : byteLen stem ≤ 65535) :
    insertStem words stem F = .ok (words.insert stem F) := by
  unfold insertStem u16Max
  rw [if_neg (by omega)]

theorem twinTooLong_iff {U : Unicode} {cx : Cx} {line t : Str} (ht : Trimmed U line t) :
    TwinTooLong U cx line ↔ ¬ SkippedLine t ∧ ∃ stem F title,
      parseDicLine U t cx.flagType cx.flagAliases cx.ignoreChars = .ok (stem, F) ∧
      HasTwin U cx.options.forbiddenWordFlag stem F ∧
      cx.options.caseHandling.titlecase U stem = some title ∧ 65535 < byteLen title := by
  constructor
  · rintro ⟨t', stem, F, title, h1, h2, h3⟩
    obtain rfl : t' = t := (trim_eq h1).symm.trans (trim_eq ht)
    exact ⟨h2, stem, F, title, parseDicLine_ok.2 h3.1, h3.2⟩
  · rintro ⟨h2, stem, F, title, h3⟩
    exact ⟨t, stem, F, title, ht, h2, parseDicLine_ok.1 h3.1, h3.2⟩

/-- The three outcomes of a line. -/
theorem stepAt_cases (U : Unicode) (cx : Cx) (words : Bag FlagSet) (l : Nat × Str) :
    (∃ es, EntriesOf U cx l.2 es ∧ ¬ TwinTooLong U cx l.2 ∧
      stepAt U cx words l = .ok ⟨words.slots ++ es⟩) ∨
    (∃ kind, BadLine U cx l.2 kind ∧ stepAt U cx words l = .error (dicError kind (some (l.1 - 1 + 1)))) ∨
    (TwinTooLong U cx l.2 ∧ stepAt U cx words l = .error .panic) := by
  have ht := trim_spec U l.2
  unfold stepAt stepRes dicStep
  generalize hte : trim U l.2 = t at *
  simp only
  by_cases h1 : t.isEmpty = true
  · left
    rw [if_pos h1]
    exact ⟨[], .skipped ht (skipped_iff.1 (.inl h1)),
      fun h => ((twinTooLong_iff ht).1 h).1 (skipped_iff.1 (.inl h1)), by simp [pure, StateT.pure, Except.pure, Except.map]⟩
  · rw [if_neg h1]
    by_cases h2 : t.head? = some '/' ∧ byteLen t > 1
    · left
      rw [if_pos h2]
      exact ⟨[], .skipped ht (skipped_iff.1 (.inr h2)),
        fun h => ((twinTooLong_iff ht).1 h).1 (skipped_iff.1 (.inr h2)), by simp [pure, StateT.pure, Except.pure, Except.map]⟩
    · rw [if_neg h2]
      have hskip : ¬ SkippedLine t := fun h => by
        rcases skipped_iff.2 h with h | h
        · exact h1 h
        · exact h2 h
      by_cases h3 : byteLen t > u16Max
      · right; left
        rw [if_pos h3]
        exact ⟨_, ⟨t, ht, hskip, .inl ⟨h3, rfl⟩⟩, rfl⟩
      · rw [if_neg h3]
        cases hp : parseDicLine U t cx.flagType cx.flagAliases cx.ignoreChars with
        | error e =>
          right; left
          exact ⟨_, ⟨t, ht, hskip, .inr ⟨by unfold u16Max at h3; omega, e, parseDicLine_error.1 hp, rfl⟩⟩, rfl⟩
        | ok r =>
          obtain ⟨stem, F⟩ := r
          have hshort := parseDicLine_short hp
          have hgoal : ∀ r, insertEntry U cx.options words stem F = r →
              Except.map (fun x : Bag FlagSet × Lines => x.1)
                (((P.lift ErrorKind.malformedFlag (Except.ok (stem, F)) >>= fun x : Str × FlagSet =>
                  (fun s =>
                      match insertEntry U cx.options words x.1 x.2 with
                      | .ok words => .ok (words, s)
                      | .error h => .error h : P (Bag FlagSet)))) ⟨[(l.1 - 1, l.2)], none, .dic⟩) = r := by
            intro r hr
            rw [P_bind_ok (x := P.lift ErrorKind.malformedFlag (Except.ok (stem, F))) rfl]
            simp only [hr]
            cases r <;> rfl
          by_cases htw : needsTwin U cx.options stem F = true
          · have htw' := needsTwin_iff.1 htw
            obtain ⟨title, htitle⟩ : ∃ title, cx.options.caseHandling.titlecase U stem = some title := by
              cases stem with
              | nil => exact absurd rfl (hasTwin_ne_nil htw')
              | cons c r => exact ⟨_, rfl⟩
            by_cases hlong : 65535 < byteLen title
            · right; right
              refine ⟨⟨t, stem, F, title, ht, hskip, parseDicLine_ok.1 hp, htw', htitle, hlong⟩, hgoal _ ?_⟩
              unfold insertEntry
              rw [if_pos htw, htitle]
              simp only [insertStem, u16Max, hlong, gt_iff_lt, ↓reduceIte]
              rfl
            · left
              refine ⟨[(title, F.withFlag hiddenHomonymFlag), (stem, F)],
                .twin ht hskip (parseDicLine_ok.1 hp) htw' htitle (fun f => contains_hidden), fun h => ?_, hgoal _ ?_⟩
              · obtain ⟨-, stem', F', title', h1, h2, h3, h4⟩ := (twinTooLong_iff ht).1 h
                rw [hp, Except.ok.injEq, Prod.mk.injEq] at h1
                obtain ⟨rfl, rfl⟩ := h1
                rw [htitle, Option.some.injEq] at h3
                exact hlong (h3 ▸ h4)
              unfold insertEntry
              rw [if_pos htw, htitle]
              simp only [insertStem_ok (words := words) (stem := title) (F := F.withFlag hiddenHomonymFlag)
                (by omega)]
              show insertStem (words.insert title (F.withFlag hiddenHomonymFlag)) stem F = _
              rw [insertStem_ok (by omega)]
              simp [Bag.insert]
          · left
            refine ⟨[(stem, F)], .plain ht hskip (parseDicLine_ok.1 hp) (fun h => htw (needsTwin_iff.2 h)), fun h => ?_, hgoal _ ?_⟩
            · obtain ⟨-, stem', F', title', h1, h2, h3, h4⟩ := (twinTooLong_iff ht).1 h
              rw [hp, Except.ok.injEq, Prod.mk.injEq] at h1
              obtain ⟨rfl, rfl⟩ := h1
              exact htw (needsTwin_iff.2 h2)
            unfold insertEntry
            rw [if_neg htw, insertStem_ok (by omega)]
            rfl

end Spellbook
