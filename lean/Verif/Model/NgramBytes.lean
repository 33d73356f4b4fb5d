import Verif.Model.Ngram
import Verif.Model.CheckBytes
/-!
# Suggestions by similarity with byte offsets

`Ngram.lean` uses texts as lists of characters. The code (`src/suggester/ngram.rs`) keeps the byte offsets
of the characters as `u16`s beside the text (`CharsStr`) and slices the text at them with `unsafe` code.
This file models that: the same functions once more, on `CharsStr`. An index out of bounds is the panic it
is in Rust, `get_unchecked` with a range which is not a range of whole characters (undefined behaviour) is
a panic too.

`Proof/NgramBytes.lean` shows that every function here equals its counterpart.
-/

namespace Spellbook.Bytes

/-- `struct CharsStr` (`src/suggester/ngram.rs` 477–481). The offsets are `u16`s. -/
structure CharsStr where
  inner : Str
  charIndices : List UInt16

namespace CharsStr

/-- `CharsStr::new` (`src/suggester/ngram.rs` 497–512). The memory of `slab` is reused, its contents are not. -/
def new (s : Str) : Run CharsStr :=
  if byteLen s ≤ 65535 then
    .ok { inner := s
          charIndices := (Spellbook.charIndices 0 s).map (fun (i, _) => UInt16.ofNat i) ++ [UInt16.ofNat (byteLen s)] }
  else .error .panic

/-- `CharsStr::len_chars` (`src/suggester/ngram.rs` 514–517). -/
def lenChars (c : CharsStr) : Nat := c.charIndices.length - 1

/-- `CharsStr::is_empty` (`src/suggester/ngram.rs` 519–523). -/
def isEmpty (c : CharsStr) : Bool := c.charIndices.length == 1

/-- `CharsStr::char_slice` (`src/suggester/ngram.rs` 532–541). -/
def charSlice (c : CharsStr) (lo hi : Nat) : Run Str := do
  let startByte ← need c.charIndices[lo]?
  let endByte ← need c.charIndices[hi]?
  need (slice? c.inner startByte.toNat endByte.toNat)

/-- `CharsStr::char_at` (`src/suggester/ngram.rs` 543–550). -/
def charAt (c : CharsStr) (idx : Nat) : Run Str := do
  let startByte ← need c.charIndices[idx]?
  let endByte ← need c.charIndices[idx + 1]?
  need (slice? c.inner startByte.toNat endByte.toNat)

/-- `CharsStr::char_iter` (`src/suggester/ngram.rs` 552–561): `slice::windows(2)`. -/
def charIter (c : CharsStr) : Run (List Str) :=
  (c.charIndices.zip c.charIndices.tail).mapM fun (a, b) => need (slice? c.inner a.toNat b.toNat)

end CharsStr

/-! ## Metrics -/

/-- `left_common_substring_length` (`src/suggester/ngram.rs` 568–587). -/
def leftCommon (U : Unicode) (h : CaseHandling) (left right : CharsStr) : Nat :=
  match left.inner, right.inner with
  | l :: ls, r :: rs =>
    if l ≠ r ∧ h.isCharEqLowercase U l r = false then 0
    else ((indexOfMismatch ls rs).map (· + 1)).getD left.lenChars
  | _, _ => 0

/-- `k_score` of `ngram_similarity` (`src/suggester/ngram.rs` 614–620). -/
def kScore (left : CharsStr) (right : Str) (k : Nat) : Run Nat :=
  (List.range (left.lenChars - k + 1)).foldlM (fun score i => do
    let kgram ← left.charSlice i (i + k)
    pure (if containsStr right kgram then score + 1 else score)) 0

/-- The loop over `k` of `ngram_similarity` (`src/suggester/ngram.rs` 613–625). -/
def ngramLoop (left : CharsStr) (right : Str) : List Nat → Run Int
  | [] => .ok 0
  | k :: ks => do
    let s ← kScore left right k
    if s < 2 then pure s else pure (s + (← ngramLoop left right ks))

/-- `ngram_similarity` (`src/suggester/ngram.rs` 609–628). -/
def ngramSimilarity (n : Nat) (left : CharsStr) (right : Str) : Run Int :=
  ngramLoop left right (List.range' 1 (min n left.lenChars))

/-- `ngram_similarity_longer_worse` (`src/suggester/ngram.rs` 596–606). -/
def ngramLongerWorse (n : Nat) (left right : CharsStr) : Run Int := do
  if right.isEmpty then pure 0
  else
    let score ← ngramSimilarity n left right.inner
    let d : Int := ((right.lenChars : Int) - left.lenChars) - 2
    pure (if d > 0 then score - d else score)

/-- `ngram_similarity_any_mismatch` (`src/suggester/ngram.rs` 630–640). -/
def ngramAnyMismatch (n : Nat) (left : CharsStr) (right : Str) : Run Int := do
  if right.isEmpty then pure 0
  else
    let score ← ngramSimilarity n left right
    let d : Int := (((right.length : Int) - left.lenChars).natAbs : Int) - 2
    pure (if d > 0 then score - d else score)

/-- The inner loop of `longest_common_subsequence_length` (`src/suggester/ngram.rs` 654–664), from position `j` of the state buffer
on: the new state and the last `row2_prev`. -/
def lcsRow (l : Str) (right : CharsStr) : (j row1Prev row2Prev : Nat) → List Nat → Run (List Nat × Nat)
  | _, _, row2Prev, [] => .ok ([], row2Prev)
  | j, row1Prev, row2Prev, row1Current :: state => do
    let r ← right.charAt j
    let row2Current := if l = r then row1Prev + 1 else max row1Current row2Prev
    let (state, last) ← lcsRow l right (j + 1) row1Current row2Current state
    pure (row2Current :: state, last)

/-- The outer loop (`src/suggester/ngram.rs` 652–666). -/
def lcsLoop (right : CharsStr) : List Str → List Nat → Nat → Run Nat
  | [], _, row1Prev => .ok row1Prev
  | l :: ls, state, _ => do
    let (state, last) ← lcsRow l right 0 0 0 state
    lcsLoop right ls state last

/-- `longest_common_subsequence_length` (`src/suggester/ngram.rs` 643–669). The state buffer has as many entries as `right` has
characters, so `take` changes nothing. -/
def lcsLength (left right : CharsStr) : Run Nat := do
  lcsLoop right (← left.charIter) (List.replicate right.lenChars 0) 0

/-- `ngram_similarity_weighted` (`src/suggester/ngram.rs` 683–704). -/
def ngramWeighted (n : Nat) (left : CharsStr) (right : Str) : Run Int :=
  (List.range' 1 (min n left.lenChars)).foldlM (fun (score : Int) k => do
    let kScore ← (List.range (left.lenChars - k + 1)).foldlM (fun (kScore : Int) i => do
      let kgram ← left.charSlice i (i + k)
      pure (if containsStr right kgram then kScore + 1
        else
          let kScore := kScore - 1
          if i = 0 ∨ i = left.lenChars - k then kScore - 1 else kScore)) 0
    pure (score + kScore)) 0

/-- `ngram_similarity_any_mismatch_weighted` (`src/suggester/ngram.rs` 671–681). -/
def ngramAnyMismatchWeighted (n : Nat) (left right : CharsStr) : Run Int := do
  if right.isEmpty then pure 0
  else
    let score ← ngramWeighted n left right.inner
    let d : Int := (((right.lenChars : Int) - left.lenChars).natAbs : Int) - 2
    pure (if d > 0 then score - d else score)

/-- The loop of `count_eq_at_same_pos` (`src/suggester/ngram.rs` 716–727). -/
def swapLoop : Option (Str × Str) → List (Str × Str) → Bool
  | _, [] => false
  | first, (l, r) :: rest =>
    if l ≠ r then
      match first with
      | some (l1, r1) => l1 == r && r1 == l
      | none => swapLoop (some (l, r)) rest
    else swapLoop first rest

/-- `count_eq_at_same_pos` (`src/suggester/ngram.rs` 706–730). `n - count` cannot be negative. -/
def countEqAtSamePos (left right : CharsStr) : Run (Nat × Bool) := do
  let n := min left.lenChars right.lenChars
  let pairs := (← left.charIter).zip (← right.charIter)
  let count := (pairs.filter fun (l, r) => l = r).length
  pure (count, if left.lenChars = right.lenChars ∧ n - count = 2 then swapLoop none pairs else false)

/-! ## The search -/

/-- The score of a stem (`src/suggester/ngram.rs` 89–103). -/
def rootScore (C : Checker) (word : CharsStr) (stem : Str) : Run Int := do
  let stem ← CharsStr.new stem
  let score : Int := leftCommon C.U C.opts.caseHandling word stem
  let lower ← CharsStr.new (C.lowercase stem.inner)
  pure (score + (← ngramLongerWorse 3 word lower))

/-- The body of the loop over the word list (`src/suggester/ngram.rs` 81–117). -/
def offerRoot (C : Checker) (H : Heaps) (word : CharsStr) (roots : List (MinScored (Str × FlagSet)))
    (entry : Str × FlagSet) : Run (List (MinScored (Str × FlagSet))) := do
  if C.skipsForNgram entry.2 then pure roots
  else
    let score ← rootScore C word entry.1
    pure (H.offer 100 roots { score, inner := entry })

/-- The best roots (`src/suggester/ngram.rs` 75–117). -/
def ngramRoots (C : Checker) (H : Heaps) (word : CharsStr) : Run (List (MinScored (Str × FlagSet))) :=
  (C.dict.words.iter C.L).foldlM (offerRoot C H word) []

/-- The threshold (`src/suggester/ngram.rs` 121–137). -/
def ngramThreshold (word : CharsStr) : Run Int := do
  let sum ← ((word.charIndices.drop 1).take 3).foldlM (fun (threshold : Int) k => do
    let front ← need (sliceTo? word.inner k.toNat)
    let back ← need (sliceFrom? word.inner k.toNat)
    pure (threshold + (← ngramAnyMismatch word.lenChars word (front ++ Checker.star 0 back)))) 0
  pure (sum.tdiv 3)

/-- The score of a form (`src/suggester/ngram.rs` 161–174). -/
def guessScore (C : Checker) (word : CharsStr) (form : Str) : Run Int := do
  let score : Int := leftCommon C.U C.opts.caseHandling word (← CharsStr.new form)
  pure (score + (← ngramAnyMismatch word.lenChars word (C.lowercase form)))

/-- The body of the loop over the forms (`src/suggester/ngram.rs` 160–190). -/
def offerGuess (C : Checker) (H : Heaps) (word : CharsStr) (threshold : Int)
    (guesses : List (MinScored Str)) (form : Str) : Run (List (MinScored Str)) := do
  let score ← guessScore C word form
  if score < threshold then pure guesses
  else pure (H.offer 200 guesses { score, inner := form })

/-- The best guesses (`src/suggester/ngram.rs` 142–191). -/
def ngramGuesses (C : Checker) (H : Heaps) (word : CharsStr) (threshold : Int)
    (roots : List (MinScored (Str × FlagSet))) : Run (List (MinScored Str)) :=
  roots.foldlM (fun guesses root => do
    let forms ← C.expandStem root.inner.1 root.inner.2 word.inner
    forms.foldlM (offerGuess C H word threshold) guesses) []

/-- The new score of a guess (`src/suggester/ngram.rs` 222–251). -/
def newScore (C : Checker) (word lower : CharsStr) (lcs : Nat) : Run Int := do
  let ngram2 := (← ngramAnyMismatchWeighted 2 word lower) + (← ngramAnyMismatchWeighted 2 lower word)
  let ngram4 ← ngramAnyMismatch 4 word lower.inner
  let left := leftCommon C.U C.opts.caseHandling word lower
  let (same, swapped) ← countEqAtSamePos word lower
  if 10 < C.opts.maxDiffFactor then .error .panic
  else
    let score : Int := 2 * lcs
    let score := score - (((word.lenChars : Int) - lower.lenChars).natAbs : Int)
    let score := score + left + ngram2 + ngram4
    let score := if same ≠ 0 then score + 1 else score
    let score := if swapped then score + 10 else score
    pure (if 5 * ngram2 < (((word.lenChars + lower.lenChars) * (10 - C.opts.maxDiffFactor) : Nat) : Int) then
      score - 1000 else score)

/-- The loop which gives new scores (`src/suggester/ngram.rs` 207–252). -/
def rescore (C : Checker) (word : CharsStr) : List (MinScored Str) → Run (List (MinScored Str))
  | [] => .ok []
  | g :: gs => do
    let lower ← CharsStr.new (C.lowercase g.inner)
    let lcs ← lcsLength word lower
    if word.lenChars = lower.lenChars ∧ word.lenChars = lcs then pure ({ g with score := g.score + 2000 } :: gs)
    else do
      let score ← newScore C word lower lcs
      pure ({ g with score } :: (← rescore C word gs))

/-- `ngram_suggest` (`src/suggester/ngram.rs` 72–292). -/
def ngramSuggest (C : Checker) (H : Heaps) (wordStr : Str) (out : List Str) : Run (List Str) := do
  let word ← CharsStr.new wordStr
  let roots ← ngramRoots C H word
  let threshold ← ngramThreshold word
  let guesses ← ngramGuesses C H word threshold roots
  let guesses ← rescore C word (H.sort guesses)
  let guesses := H.sort guesses
  let selective := guesses.head?.any fun g => g.score > 1000
  let limit := min Checker.maxSuggestions (out.length + C.opts.maxNgramSuggestions)
  pure (C.selectGuesses selective out.length limit guesses out)

end Spellbook.Bytes
