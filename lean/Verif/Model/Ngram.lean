import Verif.Model.Check
/-!
# Suggestions by similarity

Models `src/suggester/ngram.rs` 50–730. `CharsStr` (478–566) is a text with the byte offsets of its
characters; here it is the text itself, and only its assertion on the length is kept (`NgramBytes.lean`
models the offsets; C64 shows that the results are the same). Scores are
unbounded integers instead of `isize`. `BinaryHeap` and `sort_unstable` are a parameter (`Heaps`):
which of several entries with the same score comes first is not fixed by their contracts.
-/

namespace Spellbook

/-- A text usable as `CharsStr`: `CharsStr::new` (`src/suggester/ngram.rs` 497–512) panics above 65535 bytes. -/
def charsStr (s : Str) : Run Str := if byteLen s ≤ 65535 then .ok s else .error .panic

/-! ## Metrics -/

/-- `index_of_mismatch` (`src/suggester/ngram.rs` 589–594). -/
def indexOfMismatch : Str → Str → Option Nat
  | [], _ => none
  | _ :: _, [] => some 0
  | l :: ls, r :: rs => if r = l then (indexOfMismatch ls rs).map (· + 1) else some 0

/-- `left_common_substring_length` (`src/suggester/ngram.rs` 568–587). -/
def leftCommon (U : Unicode) (h : CaseHandling) (left right : Str) : Nat :=
  match left, right with
  | l :: ls, r :: rs =>
    if l ≠ r ∧ h.isCharEqLowercase U l r = false then 0
    else ((indexOfMismatch ls rs).map (· + 1)).getD left.length
  | _, _ => 0

/-- The k-grams of a text: `left.char_slice(i..i + k)` for `i in 0..=left.len_chars() - k`.
`src/suggester/ngram.rs` 616, 690. -/
def kgrams (left : Str) (k : Nat) : List Str :=
  (List.range (left.length - k + 1)).map fun i => slice left i (i + k)

/-- `k_score` of `ngram_similarity` (`src/suggester/ngram.rs` 614–620). -/
def kScore (left right : Str) (k : Nat) : Nat := ((kgrams left k).filter (containsStr right ·)).length

/-- The loop over `k` of `ngram_similarity` (`src/suggester/ngram.rs` 613–625). -/
def ngramLoop (left right : Str) : List Nat → Int
  | [] => 0
  | k :: ks =>
    let s := kScore left right k
    s + if s < 2 then 0 else ngramLoop left right ks

/-- `ngram_similarity` (`src/suggester/ngram.rs` 609–628). -/
def ngramSimilarity (n : Nat) (left right : Str) : Int :=
  ngramLoop left right (List.range' 1 (min n left.length))

/-- `ngram_similarity_longer_worse` (`src/suggester/ngram.rs` 596–606). -/
def ngramLongerWorse (n : Nat) (left right : Str) : Int :=
  if right.isEmpty then 0
  else
    let score := ngramSimilarity n left right
    let d : Int := ((right.length : Int) - left.length) - 2
    if d > 0 then score - d else score

/-- `ngram_similarity_any_mismatch` (`src/suggester/ngram.rs` 630–640). -/
def ngramAnyMismatch (n : Nat) (left right : Str) : Int :=
  if right.isEmpty then 0
  else
    let score := ngramSimilarity n left right
    let d : Int := (((right.length : Int) - left.length).natAbs : Int) - 2
    if d > 0 then score - d else score

/-- The inner loop of `longest_common_subsequence_length` (`src/suggester/ngram.rs` 654–664): the new row and its last
entry. -/
def lcsRow (l : Char) : (row1Prev row2Prev : Nat) → Str → List Nat → List Nat × Nat
  | row1Prev, row2Prev, r :: rs, row1Current :: st =>
    let row2Current := if l = r then row1Prev + 1 else max row1Current row2Prev
    let (st, last) := lcsRow l row1Current row2Current rs st
    (row2Current :: st, last)
  | _, row2Prev, _, _ => ([], row2Prev)

/-- The outer loop (`src/suggester/ngram.rs` 652–666). -/
def lcsLoop (right : Str) : Str → List Nat → Nat → Nat
  | [], _, row1Prev => row1Prev
  | l :: ls, st, _ => lcsLoop right ls (lcsRow l 0 0 right st).1 (lcsRow l 0 0 right st).2

/-- `longest_common_subsequence_length` (`src/suggester/ngram.rs` 643–669). -/
def lcsLength (left right : Str) : Nat := lcsLoop right left (List.replicate right.length 0) 0

/-- The part of one k-gram in `k_score` of `ngram_similarity_weighted` (`src/suggester/ngram.rs` 691–698). -/
def weight (left right : Str) (k i : Nat) : Int :=
  if containsStr right (slice left i (i + k)) then 1
  else -1 - (if i = 0 ∨ i = left.length - k then 1 else 0)

/-- `ngram_similarity_weighted` (`src/suggester/ngram.rs` 683–704). -/
def ngramWeighted (n : Nat) (left right : Str) : Int :=
  ((List.range' 1 (min n left.length)).map fun k =>
    ((List.range (left.length - k + 1)).map (weight left right k)).sum).sum

/-- `ngram_similarity_any_mismatch_weighted` (`src/suggester/ngram.rs` 671–681). -/
def ngramAnyMismatchWeighted (n : Nat) (left right : Str) : Int :=
  if right.isEmpty then 0
  else
    let score := ngramWeighted n left right
    let d : Int := (((right.length : Int) - left.length).natAbs : Int) - 2
    if d > 0 then score - d else score

/-- The loop of `count_eq_at_same_pos` (`src/suggester/ngram.rs` 718–727): were the two differing characters swapped? -/
def swapLoop : Option (Char × Char) → List (Char × Char) → Bool
  | _, [] => false
  | first, (l, r) :: rest =>
    if l ≠ r then
      match first with
      | some (l1, r1) => l1 == r && r1 == l
      | none => swapLoop (some (l, r)) rest
    else swapLoop first rest

/-- `count_eq_at_same_pos` (`src/suggester/ngram.rs` 706–730). -/
def countEqAtSamePos (left right : Str) : Nat × Bool :=
  let n := min left.length right.length
  let count := ((left.zip right).filter fun (l, r) => l = r).length
  (count, if left.length = right.length ∧ n - count = 2 then swapLoop none (left.zip right) else false)

/-! ## Heaps -/

/-- `struct MinScored` (`src/suggester/ngram.rs` 53–57). -/
structure MinScored (α : Type) where
  score : Int
  inner : α
deriving DecidableEq

/-- `BinaryHeap<MinScored<T>>` and `sort_unstable` on `MinScored`, whose order (`src/suggester/ngram.rs` 59–69) is by descending score.
A heap is the list of its entries in the order of its `IntoIter`. `peek` is the first part of
`pop`. -/
structure Heaps where
  push : {α : Type} → List (MinScored α) → MinScored α → List (MinScored α)
  push_perm : ∀ {α : Type} (h : List (MinScored α)) (x : MinScored α), (push h x).Perm (x :: h)
  pop : {α : Type} → List (MinScored α) → Option (MinScored α × List (MinScored α))
  pop_none : ∀ {α : Type} (h : List (MinScored α)), pop h = none ↔ h = []
  pop_some : ∀ {α : Type} (h r : List (MinScored α)) (x : MinScored α), pop h = some (x, r) →
    h.Perm (x :: r) ∧ ∀ y ∈ r, x.score ≤ y.score
  sort : {α : Type} → List (MinScored α) → List (MinScored α)
  sort_perm : ∀ {α : Type} (h : List (MinScored α)), (sort h).Perm h
  sort_sorted : ∀ {α : Type} (h : List (MinScored α)),
    (sort h).Pairwise fun a b => b.score ≤ a.score

/-- Insertion by descending score. Part of the model only, for `src/suggester/ngram.rs` 80–117. -/
def insertScored {α : Type} (x : MinScored α) : List (MinScored α) → List (MinScored α)
  | [] => [x]
  | y :: ys => if y.score ≤ x.score then x :: y :: ys else y :: insertScored x ys

/-- A heap as an unordered list, to evaluate examples.
Part of the model only, for `src/suggester/ngram.rs` 80–117. -/
def popScored {α : Type} : List (MinScored α) → Option (MinScored α × List (MinScored α))
  | [] => none
  | x :: xs =>
    match popScored xs with
    | none => some (x, [])
    | some (y, ys) => if y.score < x.score then some (y, x :: ys) else some (x, y :: ys)

theorem insertScored_perm {α : Type} (x : MinScored α) (l : List (MinScored α)) :
    (insertScored x l).Perm (x :: l) := by
  induction l with
  | nil => exact .refl _
  | cons y ys ih =>
    simp only [insertScored]
    split
    · exact .refl _
    · exact (ih.cons y).trans (.swap x y ys)

theorem insertScored_sorted {α : Type} (x : MinScored α) {l : List (MinScored α)}
    (h : l.Pairwise fun a b => b.score ≤ a.score) :
    (insertScored x l).Pairwise fun a b => b.score ≤ a.score := by
  induction l with
  | nil => exact List.pairwise_singleton _ _
  | cons y ys ih =>
    rw [List.pairwise_cons] at h
    simp only [insertScored]
    split
    · next hle =>
      refine List.pairwise_cons.mpr ⟨fun z hz => ?_, List.pairwise_cons.mpr h⟩
      rcases List.mem_cons.mp hz with rfl | hz
      · exact hle
      · exact Int.le_trans (h.1 z hz) hle
    · next hle =>
      refine List.pairwise_cons.mpr ⟨fun z hz => ?_, ih h.2⟩
      rcases List.mem_cons.mp ((insertScored_perm x ys).mem_iff.mp hz) with rfl | hz
      · omega
      · exact h.1 z hz

theorem popScored_spec {α : Type} (h : List (MinScored α)) :
    (popScored h = none ↔ h = []) ∧ ∀ x r, popScored h = some (x, r) →
      h.Perm (x :: r) ∧ ∀ y ∈ r, x.score ≤ y.score := by
  induction h with
  | nil => simp [popScored]
  | cons x xs ih =>
    simp only [popScored]
    cases hp : popScored xs with
    | none =>
      obtain rfl := ih.1.mp hp
      simp
    | some yr =>
      obtain ⟨y, ys⟩ := yr
      obtain ⟨h1, h2⟩ := ih.2 y ys hp
      dsimp only
      split
      · next hlt =>
        refine ⟨by simp, fun z r hz => ?_⟩
        obtain ⟨rfl, rfl⟩ := Prod.mk.inj (Option.some.inj hz)
        refine ⟨(h1.cons x).trans (.swap _ _ _), fun w hw => ?_⟩
        rcases List.mem_cons.mp hw with rfl | hw
        · omega
        · exact h2 w hw
      · next hlt =>
        refine ⟨by simp, fun z r hz => ?_⟩
        obtain ⟨rfl, rfl⟩ := Prod.mk.inj (Option.some.inj hz)
        refine ⟨h1.cons x, fun w hw => ?_⟩
        rcases List.mem_cons.mp hw with rfl | hw
        · omega
        · have := h2 w hw; omega

/-- A heap as an unordered list, to evaluate examples.
Part of the model only, for `src/suggester/ngram.rs` 80–117. -/
def Heaps.sample : Heaps where
  push h x := h ++ [x]
  push_perm h x := List.perm_append_singleton x h
  pop h := popScored h
  pop_none h := (popScored_spec h).1
  pop_some h r x := (popScored_spec h).2 x r
  sort h := h.foldr insertScored []
  sort_perm h := by
    induction h with
    | nil => exact .refl _
    | cons x xs ih => exact (insertScored_perm x _).trans (ih.cons x)
  sort_sorted h := by
    induction h with
    | nil => exact List.Pairwise.nil
    | cons x xs ih => exact insertScored_sorted x ih

/-- One candidate for a heap of bounded size (`src/suggester/ngram.rs` 105–116, 180–189). -/
def Heaps.offer {α : Type} (H : Heaps) (cap : Nat) (heap : List (MinScored α)) (x : MinScored α) :
    List (MinScored α) :=
  if heap.length ≠ cap then H.push heap x
  else
    match H.pop heap with
    | some (top, rest) => if x.score > top.score then H.push rest x else heap
    | none => heap

namespace Checker

/-! ## Roots -/

/-- The stems which are skipped (`src/suggester/ngram.rs` 82–88). -/
def skipsForNgram (C : Checker) (flags : FlagSet) : Bool :=
  flags.contains C.opts.forbiddenWordFlag || hasFlag flags C.opts.noSuggestFlag
    || hasFlag flags C.opts.onlyInCompoundFlag || flags.contains hiddenHomonymFlag

/-- The score of a stem (`src/suggester/ngram.rs` 89–103). -/
def rootScore (C : Checker) (word stem : Str) : Run Int := do
  let stem ← charsStr stem
  let score : Int := leftCommon C.U C.opts.caseHandling word stem
  let lower ← charsStr (C.lowercase stem)
  pure (score + ngramLongerWorse 3 word lower)

/-- The body of the loop over the word list (`src/suggester/ngram.rs` 81–117). -/
def offerRoot (C : Checker) (H : Heaps) (word : Str) (roots : List (MinScored (Str × FlagSet)))
    (entry : Str × FlagSet) : Run (List (MinScored (Str × FlagSet))) :=
  if C.skipsForNgram entry.2 then .ok roots
  else do
    let score ← C.rootScore word entry.1
    pure (H.offer 100 roots { score, inner := entry })

/-- The best roots (`src/suggester/ngram.rs` 75–117). -/
def ngramRoots (C : Checker) (H : Heaps) (word : Str) : Run (List (MinScored (Str × FlagSet))) :=
  (C.dict.words.iter C.L).foldlM (C.offerRoot H word) []

/-! ## Threshold -/

/-- Every fourth character replaced by a star (`src/suggester/ngram.rs` 127–132). -/
def star : Nat → Str → Str
  | _, [] => []
  | i, c :: cs => (if i % 4 = 0 then '*' else c) :: star (i + 1) cs

/-- The threshold (`src/suggester/ngram.rs` 121–137). The offsets of `CharsStr` end with the length of the text. -/
def ngramThreshold (word : Str) : Int :=
  (((List.range (word.length + 1)).drop 1).take 3 |>.map fun k =>
    ngramAnyMismatch word.length word (word.take k ++ star 0 (word.drop k))).sum.tdiv 3

/-! ## Expansion -/

/-- `to_derived`; panics if the stem does not have the text to strip. `src/suggester/ngram.rs` 347, 386, 418. -/
def derive' (k : Kind) (a : Affix) (stem : Str) : Run Str :=
  match a.toDerived k stem with
  | some t => .ok t
  | none => .error .panic

/-- The text has the text which the affix strips (`src/suggester/ngram.rs` 333–339, 372–378, 404–410). -/
def stripFits (k : Kind) (text : Str) (a : Affix) : Bool :=
  match a.strip with
  | none => true
  | some s => match k with
    | .pfx => startsWith text s
    | .sfx => endsWith text s

/-- The conditions on an affix, except the condition on its text in the word (`src/suggester/ngram.rs` 321–342, 363–381,
395–413); `text` is the text it would be applied to. -/
def affixFits (C : Checker) (k : Kind) (flags : FlagSet) (text : Str) (a : Affix) : Bool :=
  flags.contains a.flag && C.isOuterAffixValid k .full a && !C.isCircumfix a
    && stripFits k text a && a.conditionMatches k text

/-- The word has the text the affix adds (`src/suggester/ngram.rs` 343–345, 382–384, 414–416). -/
def addFits (k : Kind) (word : Str) (a : Affix) : Bool :=
  a.add.isEmpty || (match k with
    | .pfx => startsWith word a.add
    | .sfx => endsWith word a.add)

/-- The affixes of one kind that fit. `src/suggester/ngram.rs` 317–346, 391–417. -/
def affixesFor (C : Checker) (k : Kind) (flags : FlagSet) (text word : Str) : List Affix :=
  (C.index k).table.filter fun a => C.affixFits k flags text a && addFits k word a

/-- The forms with a suffix and their `crossproduct` (`src/suggester/ngram.rs` 317–350). -/
def suffixForms (C : Checker) (stem : Str) (flags : FlagSet) (word : Str) : Run (List (Str × Bool)) :=
  (C.affixesFor .sfx flags stem word).mapM fun a => do pure (← derive' .sfx a stem, a.crossproduct)

/-- The second stage (`src/suggester/ngram.rs` 352–389): a prefix which fits the *suffixed* stem is applied to the *bare*
stem. -/
def crossForms (C : Checker) (stem : Str) (flags : FlagSet) (word : Str) (suffixed : Str) :
    Run (List Str) :=
  (C.affixesFor .pfx flags suffixed word).mapM fun a => derive' .pfx a stem

/-- The forms with a prefix (`src/suggester/ngram.rs` 391–420). -/
def prefixForms (C : Checker) (stem : Str) (flags : FlagSet) (word : Str) : Run (List Str) :=
  (C.affixesFor .pfx flags stem word).mapM fun a => derive' .pfx a stem

/-- `expand_stem_for_ngram` (`src/suggester/ngram.rs` 294–421). -/
def expandStem (C : Checker) (stem : Str) (flags : FlagSet) (word : Str) : Run (List Str) := do
  let bare : List (Str × Bool) := if hasFlag flags C.opts.needAffixFlag then [] else [(stem, false)]
  if flags.isEmpty then pure (bare.map (·.1))
  else do
    let list := bare ++ (← C.suffixForms stem flags word)
    let cross ← (list.filter (·.2)).mapM fun s => C.crossForms stem flags word s.1
    let pre ← C.prefixForms stem flags word
    pure (list.map (·.1) ++ cross.flatten ++ pre)

/-! ## Guesses -/

/-- The score of a form (`src/suggester/ngram.rs` 161–174). -/
def guessScore (C : Checker) (word form : Str) : Run Int := do
  let form ← charsStr form
  let score : Int := leftCommon C.U C.opts.caseHandling word form
  pure (score + ngramAnyMismatch word.length word (C.lowercase form))

/-- The body of the loop over the forms (`src/suggester/ngram.rs` 160–190). -/
def offerGuess (C : Checker) (H : Heaps) (word : Str) (threshold : Int)
    (guesses : List (MinScored Str)) (form : Str) : Run (List (MinScored Str)) := do
  let score ← C.guessScore word form
  if score < threshold then pure guesses
  else pure (H.offer 200 guesses { score, inner := form })

/-- The best guesses (`src/suggester/ngram.rs` 142–191). -/
def ngramGuesses (C : Checker) (H : Heaps) (word : Str) (roots : List (MinScored (Str × FlagSet))) :
    Run (List (MinScored Str)) :=
  roots.foldlM (fun guesses root => do
    let forms ← C.expandStem root.inner.1 root.inner.2 word
    forms.foldlM (C.offerGuess H word (ngramThreshold word)) guesses) []

/-- The new score of a guess (`src/suggester/ngram.rs` 222–251). `10 - max_diff_factor` overflows above 10; this is a panic
here, as in a build with overflow checks. -/
def newScore (C : Checker) (word lower : Str) (lcs : Nat) : Run Int :=
  let ngram2 := ngramAnyMismatchWeighted 2 word lower + ngramAnyMismatchWeighted 2 lower word
  let ngram4 := ngramAnyMismatch 4 word lower
  let left := leftCommon C.U C.opts.caseHandling word lower
  let (same, swapped) := countEqAtSamePos word lower
  if 10 < C.opts.maxDiffFactor then .error .panic
  else
    let score : Int := 2 * lcs
    let score := score - (((word.length : Int) - lower.length).natAbs : Int)
    let score := score + left + ngram2 + ngram4
    let score := if same ≠ 0 then score + 1 else score
    let score := if swapped then score + 10 else score
    .ok (if 5 * ngram2 < (((word.length + lower.length) * (10 - C.opts.maxDiffFactor) : Nat) : Int) then
      score - 1000 else score)

/-- The loop which gives new scores (`src/suggester/ngram.rs` 207–252); an exact match ends it. -/
def rescore (C : Checker) (word : Str) : List (MinScored Str) → Run (List (MinScored Str))
  | [] => .ok []
  | g :: gs => do
    let lower ← charsStr (C.lowercase g.inner)
    let lcs := lcsLength word lower
    if word.length = lower.length ∧ word.length = lcs then pure ({ g with score := g.score + 2000 } :: gs)
    else do
      let score ← C.newScore word lower lcs
      pure ({ g with score } :: (← C.rescore word gs))

/-! ## Selection -/

/-- `MAX_SUGGESTIONS` (`src/aff.rs` 71). -/
def maxSuggestions : Nat := 16

/-- The last loop (`src/suggester/ngram.rs` 265–291). -/
def selectGuesses (C : Checker) (selective : Bool) (old limit : Nat) :
    List (MinScored Str) → List Str → List Str
  | [], out => out
  | g :: gs, out =>
    if out.length = limit then out
    else if selective ∧ g.score ≤ 1000 then out
    else if g.score < -100 ∧ (old ≠ out.length ∨ C.opts.onlyMaxDiff) then out
    else if out.any fun sug => containsStr g.inner sug then
      if g.score < -100 then out else C.selectGuesses selective old limit gs out
    else C.selectGuesses selective old limit gs (out ++ [g.inner])

/-- `ngram_suggest` (`src/suggester/ngram.rs` 72–292). -/
def ngramSuggest (C : Checker) (H : Heaps) (word : Str) (out : List Str) : Run (List Str) := do
  let word ← charsStr word
  let roots ← C.ngramRoots H word
  let guesses ← C.ngramGuesses H word roots
  let guesses ← C.rescore word (H.sort guesses)
  let guesses := H.sort guesses
  let selective := guesses.head?.any fun g => g.score > 1000
  let limit := min maxSuggestions (out.length + C.opts.maxNgramSuggestions)
  pure (C.selectGuesses selective out.length limit guesses out)

end Checker
end Spellbook
