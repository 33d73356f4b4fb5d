import Verif.Proof.DicText
import Verif.Proof.RuleText
import Verif.Proof.AffixIndex
import Verif.Proof.Tables
import Verif.Proof.Condition
/-!
# The parser of the `.aff` file: its errors, its panics, what it establishes
-/

namespace Spellbook
open Spec

/-! ## A logic for parser steps -/

/-- The reader is within the given lines of the given file, and the words it holds are not empty. -/
structure Reading (all : List (Nat × Str)) (src : Source) (s : Lines) : Prop where
  lines : s.lines <:+ all
  source : s.source = src
  words : ∀ ws, s.words = some ws → ∀ w ∈ ws, w ≠ []

/-- The parser stopped with an error (no panic, no lack of fuel) that names the file and one of the
given lines, or no line. -/
def Located (all : List (Nat × Str)) (src : Source) (h : Halt) : Prop :=
  ∃ e, h = .error e ∧ e.source = src ∧
    (e.lineNumber = none ∨ ∃ l ∈ all, e.lineNumber = some (l.1 + 1))

/-- From a reader within the lines, a step ends within the lines with a result of the given kind, or
with a located error. -/
def Tri (all : List (Nat × Str)) (src : Source) {α : Type} (x : P α) (Q : α → Prop) : Prop :=
  ∀ s, Reading all src s →
    match x s with
    | .ok (a, s') => Reading all src s' ∧ Q a
    | .error h => Located all src h

section
variable {all : List (Nat × Str)} {src : Source} {α β σ : Type}

theorem located_error {s : Lines} (hs : Reading all src s) (k : ErrorKind) :
    Located all src (.error (s.error k)) := by
  refine ⟨_, rfl, hs.source, ?_⟩
  simp only [Lines.error]
  cases h : s.lines with
  | nil => left; rfl
  | cons l ls =>
    right
    exact ⟨l, hs.lines.subset (by rw [h]; simp), rfl⟩

theorem tri_pure {a : α} {Q : α → Prop} (h : Q a) : Tri all src (pure a) Q := fun _ hs => ⟨hs, h⟩

theorem tri_bind {x : P α} {f : α → P β} {Q : α → Prop} {R : β → Prop} (hx : Tri all src x Q)
    (hf : ∀ a, Q a → Tri all src (f a) R) : Tri all src (x >>= f) R := by
  intro s hs
  have h := hx s hs
  cases he : x s with
  | error e => rw [P_bind_error he]; rw [he] at h; exact h
  | ok p =>
    obtain ⟨a, s'⟩ := p
    rw [P_bind_ok he]
    rw [he] at h
    exact hf a h.2 s' h.1

theorem tri_fail {k : ErrorKind} {Q : α → Prop} : Tri all src (P.fail k) Q :=
  fun _ hs => located_error hs k

theorem tri_lift {ε : Type} {k : ε → ErrorKind} {x : Except ε α} {Q : α → Prop}
    (h : ∀ a, x = .ok a → Q a) : Tri all src (P.lift k x) Q := by
  unfold P.lift
  cases x with
  | ok a => exact tri_pure (h a rfl)
  | error e => exact tri_fail

theorem tri_weaken {x : P α} {Q R : α → Prop} (h : Tri all src x Q) (hw : ∀ a, Q a → R a) :
    Tri all src x R := by
  intro s hs
  have := h s hs
  revert this
  cases x s with
  | error e => exact id
  | ok p => exact fun h => ⟨h.1, hw _ h.2⟩

theorem tri_takeWords : Tri all src P.takeWords fun o => ∀ ws, o = some ws → ∀ w ∈ ws, w ≠ [] :=
  fun _ hs => ⟨⟨hs.lines, hs.source, by simp⟩, hs.words⟩

theorem tri_nextWord : Tri all src P.nextWord fun o => ∀ w, o = some w → w ≠ [] := by
  intro s hs
  have hw := hs.words
  unfold P.nextWord Lines.nextWord
  split
  · rename_i w ws h
    split at h
    · cases h
      rename_i w ws h0
      exact ⟨⟨hs.lines, hs.source, fun l hl v hv => hw _ h0 v (by cases hl; simp [hv])⟩,
        fun v hv => by cases hv; exact hw _ h0 _ (by simp)⟩
    · cases h
      exact ⟨⟨hs.lines, hs.source, by simp⟩, by simp⟩
  · simp_all

theorem splitWhitespace_ne_nil {U : Unicode} (s : Str) : ∀ w ∈ splitWhitespace U s, w ≠ [] := by
  fun_induction splitWhitespace U s with
  | case1 => simp
  | case2 s c rest h ih =>
    intro w hw
    rcases List.mem_cons.1 hw with rfl | hw
    · simp
    · exact ih w hw

theorem reading_settle {U : Unicode} {l : List (Nat × Str)} (h : l <:+ all) :
    Reading all src (Lines.settle U l src) := by
  refine ⟨(List.dropWhile_suffix _).trans h, rfl, ?_⟩
  intro ws hws w hw
  simp only [Lines.settle, Option.map_eq_some_iff] at hws
  obtain ⟨a, -, rfl⟩ := hws
  exact splitWhitespace_ne_nil _ w hw

theorem tri_advance {U : Unicode} : Tri all src (P.advance U) fun _ => True := by
  intro s hs
  refine ⟨?_, trivial⟩
  have := reading_settle (src := src) (U := U) ((List.tail_suffix s.lines).trans hs.lines)
  unfold Lines.advance
  rw [hs.source]
  exact this

theorem tri_isFinished : Tri all src P.isFinished fun _ => True := fun _ hs => ⟨hs, trivial⟩

theorem tri_takeOneWord : Tri all src P.takeOneWord fun w => w ≠ [] := by
  intro s hs
  have hw := hs.words
  unfold P.takeOneWord
  split
  · rename_i a s' h
    split at h
    · cases h
      rename_i ws h0
      exact ⟨⟨hs.lines, hs.source, fun l hl v hv => hw _ h0 v (by cases hl; simp [hv])⟩,
        hw _ h0 _ (by simp)⟩
    · simp at h
  · rename_i h
    split at h
    · simp at h
    · cases h; exact located_error hs _

theorem tri_flagOf {ty : FlagType} {s : Str} (h : s ≠ []) : Tri all src (P.flagOf ty s) Flag.Valid := by
  unfold P.flagOf
  have h0 := parseFlag?_isSome (ty := ty).2 h
  cases hp : parseFlag? ty s with
  | none => rw [hp] at h0; simp at h0
  | some r => exact tri_lift fun f hf => (parseFlag?_ok.1 (hf ▸ hp)).2

theorem tri_flag {ty : FlagType} : Tri all src (P.flag ty) Flag.Valid :=
  tri_bind tri_takeOneWord fun _ h => tri_flagOf h

theorem tri_count : Tri all src P.count fun _ => True :=
  tri_bind tri_takeOneWord fun _ _ => tri_lift fun _ _ => trivial

theorem tri_short : Tri all src P.short fun _ => True :=
  tri_bind tri_takeOneWord fun _ _ => tri_lift fun _ _ => trivial

theorem tri_ite {c : Prop} [Decidable c] {x y : P α} {Q : α → Prop} (h1 : c → Tri all src x Q)
    (h2 : ¬ c → Tri all src y Q) : Tri all src (if c then x else y) Q := by
  split
  · exact h1 ‹_›
  · exact h2 ‹_›

theorem tri_row {U : Unicode} {key : Str} {n i : Nat} :
    Tri all src (P.row U key n i) fun ws => ∀ w ∈ ws, w ≠ [] := by
  unfold P.row
  refine tri_bind tri_advance fun _ _ => tri_bind tri_isFinished fun b _ => ?_
  have rest : Tri all src (do
      let w ← P.nextWord
      if w ≠ some key then P.fail (.mismatchedRowCount n i)
      match ← P.takeWords with
      | some words => pure words
      | none => P.fail (.mismatchedArity 1 0)) fun ws : List Str => ∀ w ∈ ws, w ≠ [] := by
    refine tri_bind tri_nextWord fun w _ => ?_
    have last : Tri all src (do
        match ← P.takeWords with
        | some words => pure words
        | none => P.fail (.mismatchedArity 1 0)) fun ws : List Str => ∀ w ∈ ws, w ≠ [] := by
      refine tri_bind tri_takeWords fun o ho => ?_
      cases o with
      | none => exact tri_fail
      | some ws => exact tri_pure (ho ws rfl)
    exact tri_ite (fun _ => tri_bind (Q := fun _ => True) tri_fail fun _ _ => last) fun _ => last
  exact tri_ite (fun _ => tri_bind (Q := fun _ => True) tri_fail fun _ _ => rest) fun _ => rest

theorem tri_rows {U : Unicode} {key : Str} {expected : Nat} {f : σ → List Str → P σ} {C : σ → Prop}
    (hf : ∀ cx words, C cx → (∀ w ∈ words, w ≠ []) → Tri all src (f cx words) C) :
    ∀ (n i : Nat) (cx : σ), C cx → Tri all src (P.rows U key expected f n i cx) C := by
  intro n
  induction n with
  | zero => intro i cx h; exact tri_pure h
  | succ n ih =>
    intro i cx h
    exact tri_bind tri_row fun words hw => tri_bind (hf cx words h hw) fun cx h => ih (i + 1) cx h

theorem tri_table1 {U : Unicode} {key : Str} {f : σ → Str → Except ErrorKind σ} {C : σ → Prop}
    (hf : ∀ cx w cx', C cx → w ≠ [] → f cx w = .ok cx' → C cx') {cx : σ} (h : C cx) :
    Tri all src (P.table1 U key f cx) C := by
  unfold P.table1
  refine tri_bind tri_count fun n _ => tri_rows ?_ n 1 cx h
  intro cx words hc hw
  cases words with
  | nil => exact tri_fail
  | cons w ws => exact tri_lift fun cx' h => hf cx w cx' hc (hw w (by simp)) h

theorem tri_table2 {U : Unicode} {key : Str} {f : σ → Str → Str → Except ErrorKind σ} {C : σ → Prop}
    (hf : ∀ cx w v cx', C cx → w ≠ [] → v ≠ [] → f cx w v = .ok cx' → C cx') {cx : σ} (h : C cx) :
    Tri all src (P.table2 U key f cx) C := by
  unfold P.table2
  refine tri_bind tri_count fun n _ => tri_rows ?_ n 1 cx h
  intro cx words hc hw
  match words with
  | [] => exact tri_fail
  | [_] => exact tri_fail
  | w :: v :: ws => exact tri_lift fun cx' h => hf cx w v cx' hc (hw w (by simp)) (hw v (by simp)) h

theorem tri_affixRow {flagStr : Str} {f : σ → Option Str → Str → Option Str → Str → Except ErrorKind σ}
    {C : σ → Prop} (hf : ∀ cx a b c d cx', C cx → f cx a b c d = .ok cx' → C cx')
    {cx : σ} (h : C cx) (words : List Str) : Tri all src (P.affixRow flagStr f cx words) C := by
  unfold P.affixRow
  refine tri_ite (fun _ => tri_fail) fun _ => ?_
  split
  · exact tri_fail
  · exact tri_fail
  · exact tri_lift fun cx' h' => hf _ _ _ _ _ _ h h'

theorem tri_affixTable {U : Unicode} {key : Str} {ty : FlagType}
    {f : Nat → Bool → σ → Option Str → Str → Option Str → Str → Except ErrorKind σ} {C : σ → Prop}
    (hf : ∀ fl x cx a b c d cx', Flag.Valid fl → C cx → f fl x cx a b c d = .ok cx' → C cx')
    {cx : σ} (h : C cx) : Tri all src (P.affixTable U key ty f cx) C := by
  unfold P.affixTable
  refine tri_bind tri_takeWords fun o ho => ?_
  match o with
  | none => exact tri_fail
  | some [] => exact tri_fail
  | some (flagStr :: words) =>
    refine tri_bind (tri_flagOf (ho _ rfl flagStr (by simp))) fun fl hfl => ?_
    match words with
    | [] => exact tri_fail
    | cross :: words =>
      have rest : Tri all src (match words with
          | [] => P.fail (.mismatchedArity 3 2)
          | cnt :: _ => do
            let n ← P.lift .malformedNumber (parseUInt usizeMax cnt)
            P.rows U key n (P.affixRow flagStr (f fl (cross = ['Y']))) n 1 cx) C := by
        match words with
        | [] => exact tri_fail
        | cnt :: _ =>
          refine tri_bind (Q := fun _ => True) (tri_lift fun _ _ => trivial) fun n _ => ?_
          refine tri_rows ?_ n 1 cx h
          intro cx words hc _
          exact tri_affixRow (fun cx a b c d cx' hc h => hf fl _ cx a b c d cx' hfl hc h) hc words
      exact tri_ite (fun _ => tri_bind (Q := fun _ => True) tri_fail fun _ _ => rest) fun _ => rest

end

/-! ## What the directives establish -/

/-- All flags of a set are within 1–65535. -/
def FlagSet.AllValid (F : FlagSet) : Prop := ∀ f, F.contains f = true → Flag.Valid f

/-- An affix as the parser builds it. -/
structure AffixOk (a : Affix) : Prop where
  flag : Flag.Valid a.flag
  flags : a.flags.AllValid
  cond : ∀ c, a.condition = some c → Condition.parse c.pattern = .ok c

/-- The flags among the options. -/
def AffOptions.allFlags (o : AffOptions) : List Nat :=
  [some o.forbiddenWordFlag, o.onlyInCompoundFlag, o.circumfixFlag, o.keepCaseFlag, o.needAffixFlag,
    o.warnFlag, o.compoundFlag, o.compoundBeginFlag, o.compoundMiddleFlag, o.compoundEndFlag,
    o.compoundPermitFlag, o.compoundForbidFlag, o.compoundRootFlag, o.compoundForceUppercaseFlag,
    o.noSuggestFlag, o.substandardFlag].filterMap id

/-- Options as the parser builds them. -/
structure OptsOk (o : AffOptions) : Prop where
  flags : ∀ f ∈ o.allFlags, Flag.Valid f
  min : ∀ n, o.compoundMinLength = some n → 0 < n
  maxWords : ∀ n, o.compoundMaxWordCount = some n → 0 < n
  syllables : ∀ n, o.compoundSyllableMax = some n → 0 < n
  diff : o.maxDiffFactor ≤ 10

/-- The scratch pad as the parser leaves it. -/
structure CxOk (cx : Cx) : Prop where
  opts : OptsOk cx.options
  aliases : ∀ F ∈ cx.flagAliases, F.AllValid
  prefixes : ∀ a ∈ cx.prefixes, AffixOk a
  suffixes : ∀ a ∈ cx.suffixes, AffixOk a
  breaks : ∀ b ∈ cx.breakPatterns, b ≠ []
  reps : ∀ r ∈ cx.replacements, r.1 ≠ [] ∧ r.2 ≠ []
  inConv : ∀ r ∈ cx.inputConversions, r.1 ≠ [] ∧ r.2 ≠ []
  outConv : ∀ r ∈ cx.outputConversions, r.1 ≠ [] ∧ r.2 ≠ []
  sims : ∀ g ∈ cx.similarities, ∀ s ∈ g.strings, 2 ≤ s.length

theorem parseFlags_valid {ty : FlagType} {s : Str} {F : FlagSet} (h : parseFlags ty s = .ok F) :
    F.AllValid := by
  obtain ⟨l, -, hv, rfl⟩ := parseFlags_ok.1 h
  intro f hf
  exact hv f (FlagSet.contains_ofList.1 hf)

theorem decodeFlagset_valid {ty : FlagType} {s : Str} {al : List FlagSet} {F : FlagSet}
    (hal : ∀ G ∈ al, G.AllValid) (h : decodeFlagset s ty al = .ok F) : F.AllValid := by
  unfold decodeFlagset at h
  split at h
  · exact parseFlags_valid h
  · split at h
    · rename_i i hi
      obtain ⟨-, -, h1, h2⟩ := aliasIndex?_some.1 hi
      cases h
      have : al.getD (i - 1) FlagSet.empty = al[i - 1]'(by omega) := by
        rw [List.getD_eq_getElem?_getD, List.getElem?_eq_getElem (by omega)]; rfl
      rw [this]
      exact hal _ (List.getElem_mem _)
    · exact parseFlags_valid h

theorem condition_parse_pattern {s : Str} {c : Condition} (h : Condition.parse s = .ok c) :
    Condition.parse c.pattern = .ok c := by
  have : c.pattern = s := by
    unfold Condition.parse at h
    cases hc : Condition.scanChars s 0 with
    | error e => rw [hc] at h; cases h
    | ok n => rw [hc] at h; cases h; rfl
  rw [this]; exact h

theorem affixNew_ok {flag : Nat} {x : Bool} {strip : Option Str} {add : Str} {cond : Option Str}
    {flags : FlagSet} {a : Affix} (h : Affix.new flag x strip add cond flags = .ok a) :
    a.flag = flag ∧ a.crossproduct = x ∧ a.strip = strip ∧ a.add = add ∧ a.flags = flags ∧
      (match cond with
        | none => a.condition = none
        | some s => ∃ c, Condition.parse s = .ok c ∧ a.condition = some c) := by
  unfold Affix.new at h
  cases cond with
  | none => cases h; exact ⟨rfl, rfl, rfl, rfl, rfl, rfl⟩
  | some s =>
    cases hc : Condition.parse s with
    | error e => simp only [hc] at h; cases h
    | ok c => simp only [hc] at h; cases h; exact ⟨rfl, rfl, rfl, rfl, rfl, c, hc, rfl⟩

theorem makeAffix_ok {ty : FlagType} {al : List FlagSet} {flag : Nat} {x : Bool} {strip : Option Str}
    {add : Str} {cond : Option Str} {flagset : Str} {a : Affix} (hal : ∀ G ∈ al, G.AllValid)
    (hf : Flag.Valid flag) (h : makeAffix ty al flag x strip add cond flagset = .ok a) : AffixOk a := by
  unfold makeAffix at h
  split at h
  · simp at h
  · rename_i F hF
    split at h
    · simp at h
    · rename_i b hb
      cases h
      obtain ⟨h1, -, -, -, h2, h3⟩ := affixNew_ok hb
      refine ⟨h1 ▸ hf, h2 ▸ decodeFlagset_valid hal hF, ?_⟩
      intro c hc
      cases cond with
      | none => rw [h3] at hc; simp at hc
      | some s =>
        obtain ⟨c', h4, h5⟩ := h3
        rw [h5] at hc
        cases hc
        exact condition_parse_pattern h4

theorem mem_snoc {α : Type} {l : List α} {a : α} {Q : α → Prop} (h : ∀ x ∈ l, Q x) (ha : Q a) :
    ∀ x ∈ l ++ [a], Q x := by
  intro x hx
  rcases List.mem_append.1 hx with h' | h'
  · exact h x h'
  · simp at h'; exact h' ▸ ha

theorem replaceChar_ne_nil {s t : Str} {c : Char} (hs : s ≠ []) (ht : t ≠ []) : replaceChar s c t ≠ [] := by
  unfold replaceChar
  cases s with
  | nil => exact absurd rfl hs
  | cons x s =>
    rw [List.flatMap_cons]
    split <;> simp [ht]

/-- A directive which keeps the scratch pad in order. -/
def DirOk (d : Directive) : Prop :=
  ∀ all src U cx, CxOk cx → Tri all src (d U cx) CxOk

theorem flagDirective_ok {set : AffOptions → Nat → AffOptions}
    (h : ∀ o f, OptsOk o → Flag.Valid f → OptsOk (set o f)) : DirOk (flagDirective set) := by
  intro all src U cx hc
  exact tri_bind tri_flag fun f hf => tri_pure
    ⟨h _ _ hc.opts hf, hc.aliases, hc.prefixes, hc.suffixes, hc.breaks, hc.reps, hc.inConv, hc.outConv, hc.sims⟩

theorem boolDirective_ok {set : AffOptions → Bool → AffOptions}
    (h : ∀ o b, OptsOk o → OptsOk (set o b)) : DirOk (boolDirective set) := by
  intro all src U cx hc
  exact tri_bind (Q := fun _ => True) (tri_pure trivial) fun b _ => tri_pure
    ⟨h _ _ hc.opts, hc.aliases, hc.prefixes, hc.suffixes, hc.breaks, hc.reps, hc.inConv, hc.outConv, hc.sims⟩

theorem shortDirective_ok {set : AffOptions → Nat → AffOptions}
    (h : ∀ o n, OptsOk o → OptsOk (set o n)) : DirOk (shortDirective set) := by
  intro all src U cx hc
  exact tri_bind tri_short fun n _ => tri_pure
    ⟨h _ _ hc.opts, hc.aliases, hc.prefixes, hc.suffixes, hc.breaks, hc.reps, hc.inConv, hc.outConv, hc.sims⟩

theorem wordDirective_ok {set : Cx → Str → Cx} (h : ∀ cx w, CxOk cx → CxOk (set cx w)) :
    DirOk (wordDirective set) := by
  intro all src U cx hc
  exact tri_bind tri_takeOneWord fun w _ => tri_pure (h _ _ hc)

theorem flagTypeDirective_ok : DirOk flagTypeDirective := by
  intro all src U cx hc
  have h : ∀ ty, CxOk { cx with flagType := ty } := fun ty =>
    ⟨hc.opts, hc.aliases, hc.prefixes, hc.suffixes, hc.breaks, hc.reps, hc.inConv, hc.outConv, hc.sims⟩
  refine tri_bind tri_takeOneWord fun w _ => ?_
  exact tri_ite (fun _ => tri_pure (h _)) fun _ => tri_ite (fun _ => tri_pure (h _)) fun _ =>
    tri_ite (fun _ => tri_pure (h _)) fun _ => tri_fail

theorem breakDirective_ok : DirOk breakDirective := by
  intro all src U cx hc
  refine tri_table1 (C := CxOk) ?_
    ⟨hc.opts, hc.aliases, hc.prefixes, hc.suffixes, by simp, hc.reps, hc.inConv, hc.outConv, hc.sims⟩
  intro cx w cx' hc hw h
  cases h
  exact ⟨hc.opts, hc.aliases, hc.prefixes, hc.suffixes, mem_snoc hc.breaks hw, hc.reps, hc.inConv, hc.outConv, hc.sims⟩

theorem nonZero_pos {n m : Nat} (h : nonZero n = some m) : 0 < m := by
  unfold nonZero at h
  split at h
  · simp at h
  · cases h; omega

theorem syllableDirective_ok : DirOk syllableDirective := by
  intro all src U cx hc
  refine tri_bind tri_takeWords fun o _ => ?_
  match o with
  | none => exact tri_fail
  | some [] => exact tri_fail
  | some [_] => exact tri_fail
  | some (mx :: vowels :: _) =>
    refine tri_bind (Q := fun _ => True) (tri_lift fun _ _ => trivial) fun n _ => tri_pure
      ⟨⟨hc.opts.flags, hc.opts.min, hc.opts.maxWords, fun m hm => nonZero_pos hm, hc.opts.diff⟩,
        hc.aliases, hc.prefixes, hc.suffixes, hc.breaks, hc.reps, hc.inConv, hc.outConv, hc.sims⟩

theorem aliasDirective_ok : DirOk aliasDirective := by
  intro all src U cx hc
  refine tri_table1 (C := CxOk) ?_ hc
  intro cx w cx' hc hw h
  split at h
  · rename_i F hF
    cases h
    exact ⟨hc.opts, mem_snoc hc.aliases (parseFlags_valid hF), hc.prefixes, hc.suffixes, hc.breaks, hc.reps, hc.inConv, hc.outConv, hc.sims⟩
  · simp at h

theorem prefixDirective_ok : DirOk prefixDirective := by
  intro all src U cx hc
  refine tri_affixTable (C := CxOk) ?_ hc
  intro fl x cx a b c d cx' hfl hc h
  split at h
  · rename_i A hA
    cases h
    exact ⟨hc.opts, hc.aliases, mem_snoc hc.prefixes (makeAffix_ok hc.aliases hfl hA), hc.suffixes, hc.breaks, hc.reps, hc.inConv, hc.outConv, hc.sims⟩
  · simp at h

theorem suffixDirective_ok : DirOk suffixDirective := by
  intro all src U cx hc
  refine tri_affixTable (C := CxOk) ?_ hc
  intro fl x cx a b c d cx' hfl hc h
  split at h
  · rename_i A hA
    cases h
    exact ⟨hc.opts, hc.aliases, hc.prefixes, mem_snoc hc.suffixes (makeAffix_ok hc.aliases hfl hA), hc.breaks, hc.reps, hc.inConv, hc.outConv, hc.sims⟩
  · simp at h

theorem ruleDirective_ok : DirOk ruleDirective := by
  intro all src U cx hc
  refine tri_table1 (C := CxOk) ?_ hc
  intro cx w cx' hc hw h
  split at h
  · cases h
    exact ⟨hc.opts, hc.aliases, hc.prefixes, hc.suffixes, hc.breaks, hc.reps, hc.inConv, hc.outConv, hc.sims⟩
  · simp at h

theorem tri_optFlag {all : List (Nat × Str)} {src : Source} {ty : FlagType} {s : Str} :
    Tri all src (optFlag ty s) fun _ => True := by
  unfold optFlag
  refine tri_ite (fun _ => tri_pure trivial) fun h => ?_
  exact tri_bind (tri_flagOf (by simpa using h)) fun _ _ => tri_pure trivial

theorem patternDirective_ok : DirOk patternDirective := by
  intro all src U cx hc
  refine tri_bind tri_count fun n _ => tri_rows (C := CxOk) ?_ n 1 cx hc
  intro cx words hc _
  match words with
  | [] => exact tri_fail
  | [_] => exact tri_fail
  | a :: b :: more =>
    exact tri_bind tri_optFlag fun _ _ => tri_bind tri_optFlag fun _ _ => tri_pure
      ⟨hc.opts, hc.aliases, hc.prefixes, hc.suffixes, hc.breaks, hc.reps, hc.inConv, hc.outConv, hc.sims⟩

theorem repDirective_ok : DirOk fun U cx => P.table2 U "REP".toList (fun (cx : Cx) a b =>
    .ok { cx with replacements := cx.replacements ++ [(a, replaceChar b '_' [' '])] }) cx := by
  intro all src U cx hc
  refine tri_table2 (C := CxOk) ?_ hc
  intro cx w v cx' hc hw hv h
  cases h
  exact ⟨hc.opts, hc.aliases, hc.prefixes, hc.suffixes, hc.breaks,
    mem_snoc hc.reps ⟨hw, replaceChar_ne_nil hv (by simp)⟩, hc.inConv, hc.outConv, hc.sims⟩

theorem iconvDirective_ok : DirOk fun U cx => P.table2 U "ICONV".toList (fun (cx : Cx) a b =>
    .ok { cx with inputConversions := cx.inputConversions ++ [(a, b)] }) cx := by
  intro all src U cx hc
  refine tri_table2 (C := CxOk) ?_ hc
  intro cx w v cx' hc hw hv h
  cases h
  exact ⟨hc.opts, hc.aliases, hc.prefixes, hc.suffixes, hc.breaks, hc.reps,
    mem_snoc hc.inConv ⟨hw, hv⟩, hc.outConv, hc.sims⟩

theorem oconvDirective_ok : DirOk fun U cx => P.table2 U "OCONV".toList (fun (cx : Cx) a b =>
    .ok { cx with outputConversions := cx.outputConversions ++ [(a, b)] }) cx := by
  intro all src U cx hc
  refine tri_table2 (C := CxOk) ?_ hc
  intro cx w v cx' hc hw hv h
  cases h
  exact ⟨hc.opts, hc.aliases, hc.prefixes, hc.suffixes, hc.breaks, hc.reps, hc.inConv,
    mem_snoc hc.outConv ⟨hw, hv⟩, hc.sims⟩

/-- The texts of a MAP group have two characters or more. -/
theorem mapText_long {s : Str} {g : SimilarityGroup} (h : MapText s g) {t : Str} (ht : t ∈ g.strings) : 2 ≤ t.length := by
  induction h with
  | plain => cases ht
  | unclosed => cases ht
  | char _ _ _ _ ih => exact ih ht
  | string _ _ hl _ ih =>
    rcases List.mem_cons.1 ht with rfl | ht
    · exact hl
    · exact ih ht

theorem mapDirective_ok : DirOk fun U cx => P.table1 U "MAP".toList (fun (cx : Cx) s =>
    .ok { cx with similarities := cx.similarities ++ [SimilarityGroup.ofText s] }) cx := by
  intro all src U cx hc
  refine tri_table1 (C := CxOk) ?_ hc
  intro cx w cx' hc hw h
  cases h
  exact ⟨hc.opts, hc.aliases, hc.prefixes, hc.suffixes, hc.breaks, hc.reps, hc.inConv, hc.outConv, mem_snoc hc.sims fun s hs => mapText_long (ofText_text _) hs⟩

theorem setFlag_ok {o o' : AffOptions} {f : Nat} (h : OptsOk o) (hf : Flag.Valid f)
    (h1 : ∀ g ∈ o'.allFlags, g ∈ o.allFlags ∨ g = f)
    (h2 : o'.compoundMinLength = o.compoundMinLength)
    (h3 : o'.compoundMaxWordCount = o.compoundMaxWordCount)
    (h4 : o'.compoundSyllableMax = o.compoundSyllableMax)
    (h5 : o'.maxDiffFactor = o.maxDiffFactor) : OptsOk o' :=
  ⟨fun g hg => (h1 g hg).elim (h.flags g) fun e => e ▸ hf, h2 ▸ h.min, h3 ▸ h.maxWords, h4 ▸ h.syllables,
    h5 ▸ h.diff⟩

theorem affParsers_ok : ∀ p ∈ affParsers, DirOk p.2 := by
  unfold affParsers
  have flagCase : ∀ (set : AffOptions → Nat → AffOptions),
      (∀ o f g, g ∈ (set o f).allFlags → g ∈ o.allFlags ∨ g = f) →
      (∀ o f, (set o f).compoundMinLength = o.compoundMinLength) →
      (∀ o f, (set o f).compoundMaxWordCount = o.compoundMaxWordCount) →
      (∀ o f, (set o f).compoundSyllableMax = o.compoundSyllableMax) →
      (∀ o f, (set o f).maxDiffFactor = o.maxDiffFactor) → DirOk (flagDirective set) := by
    intro set h1 h2 h3 h4 h5
    exact flagDirective_ok fun o f ho hf =>
      setFlag_ok ho hf (h1 o f) (h2 o f) (h3 o f) (h4 o f) (h5 o f)
  have boolCase : ∀ (set : AffOptions → Bool → AffOptions),
      (∀ o f, (set o f).allFlags = o.allFlags) →
      (∀ o f, (set o f).compoundMinLength = o.compoundMinLength) →
      (∀ o f, (set o f).compoundMaxWordCount = o.compoundMaxWordCount) →
      (∀ o f, (set o f).compoundSyllableMax = o.compoundSyllableMax) →
      (∀ o f, (set o f).maxDiffFactor = o.maxDiffFactor) → DirOk (boolDirective set) := by
    intro set h1 h2 h3 h4 h5
    exact boolDirective_ok fun o f ho =>
      ⟨h1 o f ▸ ho.flags, h2 o f ▸ ho.min, h3 o f ▸ ho.maxWords, h4 o f ▸ ho.syllables,
        h5 o f ▸ ho.diff⟩
  have mem : ∀ (o : AffOptions) (g : Nat), g ∈ o.allFlags ↔
      o.forbiddenWordFlag = g ∨ o.onlyInCompoundFlag = some g ∨ o.circumfixFlag = some g ∨
      o.keepCaseFlag = some g ∨ o.needAffixFlag = some g ∨ o.warnFlag = some g ∨
      o.compoundFlag = some g ∨ o.compoundBeginFlag = some g ∨ o.compoundMiddleFlag = some g ∨
      o.compoundEndFlag = some g ∨ o.compoundPermitFlag = some g ∨ o.compoundForbidFlag = some g ∨
      o.compoundRootFlag = some g ∨ o.compoundForceUppercaseFlag = some g ∨
      o.noSuggestFlag = some g ∨ o.substandardFlag = some g := by
    intro o g
    simp [AffOptions.allFlags, List.mem_filterMap, eq_comm]
  simp only [List.forall_mem_cons, List.not_mem_nil, false_implies, implies_true, and_true]
  refine ⟨flagTypeDirective_ok, ?_, ?_, ?_, ?_, ?_, ?_, ?_, ?_, ?_, ?_, ?_, ?_, ?_, ?_, ?_, ?_,
    ?_, ?_, ?_, ?_, ?_, ?_, ?_, ?_, ?_, ?_, ?_, ?_, ?_, ?_, ?_, ?_, ?_, ?_, ?_, ?_, ?_, ?_, ?_,
    repDirective_ok, iconvDirective_ok, oconvDirective_ok, breakDirective_ok, syllableDirective_ok,
    aliasDirective_ok, prefixDirective_ok, suffixDirective_ok, ruleDirective_ok, patternDirective_ok,
    mapDirective_ok⟩
  case refine_1 | refine_2 | refine_3 | refine_4 | refine_5 | refine_6 | refine_7 | refine_8 | refine_9
    | refine_10 | refine_11 | refine_12 | refine_13 | refine_14 | refine_15 | refine_16 =>
    refine flagCase _ ?_ (fun _ _ => rfl) (fun _ _ => rfl) (fun _ _ => rfl) (fun _ _ => rfl)
    intro o f g
    rw [mem, mem]
    dsimp only
    rintro (h | h | h | h | h | h | h | h | h | h | h | h | h | h | h | h) <;>
      first
        | exact .inr (Option.some.inj h).symm
        | exact .inr (Eq.symm h)
        | exact .inl (by simp only [h, true_or, or_true])
  case refine_17 | refine_18 | refine_19 | refine_20 | refine_21 | refine_22 | refine_23 | refine_24
    | refine_25 | refine_26 | refine_27 | refine_28 | refine_29 | refine_30 =>
    exact boolCase _ (fun _ _ => rfl) (fun _ _ => rfl) (fun _ _ => rfl) (fun _ _ => rfl) (fun _ _ => rfl)
  case refine_31 =>
    exact shortDirective_ok fun o n h => ⟨h.flags, fun m hm => nonZero_pos hm, h.maxWords, h.syllables, h.diff⟩
  case refine_32 =>
    exact shortDirective_ok fun o n h => ⟨h.flags, h.min, fun m hm => nonZero_pos hm, h.syllables, h.diff⟩
  case refine_33 =>
    exact shortDirective_ok fun o n h => ⟨h.flags, h.min, h.maxWords, h.syllables, h.diff⟩
  case refine_34 =>
    exact shortDirective_ok fun o n h => ⟨h.flags, h.min, h.maxWords, h.syllables, h.diff⟩
  case refine_35 =>
    exact shortDirective_ok fun o n h => ⟨h.flags, h.min, h.maxWords, h.syllables, by
      show (if n > 10 then 5 else n) ≤ 10
      split <;> omega⟩
  case refine_36 | refine_37 | refine_38 =>
    exact wordDirective_ok fun cx w hc =>
      ⟨hc.opts, hc.aliases, hc.prefixes, hc.suffixes, hc.breaks, hc.reps, hc.inConv, hc.outConv, hc.sims⟩
  case refine_39 =>
    exact wordDirective_ok fun cx w hc =>
      ⟨⟨hc.opts.flags, hc.opts.min, hc.opts.maxWords, hc.opts.syllables, hc.opts.diff⟩, hc.aliases,
        hc.prefixes, hc.suffixes, hc.breaks, hc.reps, hc.inConv, hc.outConv, hc.sims⟩

theorem findDirective_ok {key : Str} {d : Directive} (h : findDirective key = some d) : DirOk d := by
  unfold findDirective at h
  simp only [Option.map_eq_some_iff] at h
  obtain ⟨p, hp, rfl⟩ := h
  exact affParsers_ok p (List.mem_of_find?_eq_some hp)

theorem cxDefault_ok : CxOk {} := by
  refine ⟨⟨?_, by simp, by simp, by simp, by decide⟩, by simp, by simp, by simp, by simp, by simp, by simp,
    by simp, by simp⟩
  intro f hf
  simp [AffOptions.allFlags] at hf
  subst hf
  decide

theorem affStep_ok {all : List (Nat × Str)} {src : Source} {U : Unicode} {cx : Cx} (hc : CxOk cx) :
    Tri all src (affStep U cx) CxOk := by
  refine tri_bind tri_nextWord fun w _ => ?_
  cases hd : w.bind findDirective with
  | none => exact tri_pure hc
  | some d =>
    cases w with
    | none => simp at hd
    | some key => exact findDirective_ok hd all src U cx hc

theorem affLoop_ok {U : Unicode} {all : List (Nat × Str)} {src : Source} :
    ∀ (fuel : Nat) (cx : Cx) (s : Lines), CxOk cx → Reading all src s → s.lines.length < fuel →
    match affLoop U fuel cx s with
    | .ok (cx', s') => Reading all src s' ∧ CxOk cx' ∧ s'.lines = []
    | .error h => Located all src h := by
  intro fuel
  induction fuel with
  | zero => intro cx s _ _ h; omega
  | succ fuel ih =>
    intro cx s hc hs hf
    rw [affLoop, P_bind_ok (x := P.isFinished) rfl]
    by_cases hl : s.lines = []
    · rw [show s.isFinished = true by simp [Lines.isFinished, hl]]
      exact ⟨hs, hc, hl⟩
    · rw [show s.isFinished = false by simpa [Lines.isFinished] using hl]
      simp only [Bool.false_eq_true, ↓reduceIte]
      have h1 := affStep_ok (U := U) (all := s.lines) (src := src) hc s
        ⟨List.suffix_refl _, hs.source, hs.words⟩
      cases he : affStep U cx s with
      | error e =>
        rw [P_bind_error he]
        rw [he] at h1
        obtain ⟨er, rfl, h2, h3⟩ := h1
        refine ⟨er, rfl, h2, h3.imp id ?_⟩
        rintro ⟨l, hl, h⟩
        exact ⟨l, hs.lines.subset hl, h⟩
      | ok p =>
        obtain ⟨cx', s'⟩ := p
        rw [P_bind_ok he]
        rw [he] at h1
        obtain ⟨hr, hc'⟩ := h1
        rw [P_bind_ok (x := P.advance U) rfl]
        have hr' : Reading all src s' := ⟨hr.lines.trans hs.lines, hr.source, hr.words⟩
        have hadv := (tri_advance (all := all) (src := src) (U := U) s' hr').1
        refine ih cx' _ hc' hadv ?_
        have l1 : (s'.advance U).lines.length ≤ s'.lines.tail.length := by
          simp only [Lines.advance, Lines.settle]
          exact (List.dropWhile_suffix _).length_le
        have l2 := hr.lines.length_le
        have l3 : 0 < s.lines.length := List.length_pos_iff.2 hl
        simp only [List.length_tail] at l1
        omega

theorem parseAff_ok (U : Unicode) (aff : Str) :
    match parseAff U aff with
    | .ok cx => CxOk cx
    | .error h => ∃ e, h = .error e ∧ e.source = .aff ∧
        (e.lineNumber = none ∨ ∃ l ∈ numbered aff, e.lineNumber = some l.1) := by
  unfold parseAff
  simp only
  have hs : Reading (Lines.enumerate 0 (textLines ((stripPrefix? aff [Char.ofNat 0xFEFF]).getD aff))) .aff
      (Lines.new U aff .aff) := reading_settle (List.suffix_refl _)
  have := affLoop_ok (U := U) ((Lines.new U aff .aff).lines.length + 1) {} _ cxDefault_ok hs
    (Nat.lt_succ_self _)
  revert this
  cases affLoop U ((Lines.new U aff .aff).lines.length + 1) {} (Lines.new U aff .aff) with
  | ok p => exact fun h => h.2.1
  | error e =>
    rintro ⟨er, rfl, h2, h3⟩
    refine ⟨er, rfl, h2, h3.imp id ?_⟩
    rintro ⟨l, hl, h⟩
    refine ⟨(l.1 + 1, l.2), ?_, h⟩
    rw [numbered_eq]
    exact List.mem_map.2 ⟨l, hl, rfl⟩

end Spellbook
