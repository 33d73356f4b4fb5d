import Verif.Model.Compound
/-!
# Editing a word

Models the edits of `src/suggester.rs`: the byte level functions (1036–1195) and the texts each edit
method tries, in the order of the code (416–466, 505–912).

A buffer is a text; the `unsafe` functions work on its bytes. If the bytes they leave are no UTF-8
(undefined behaviour in Rust) the model yields `none`, as for a panic. The `debug_assert!`s of the byte
level functions, and those which compare a buffer with the word, are part of the model, so `none` also
stands for their failure; C41 shows that there is none.

No edit method looks at the outcome of an attempt, so the texts tried and the lookups are separate
here: this file lists the texts, `Suggest.lean` looks them up.
-/

namespace Spellbook

/-! ## Bytes -/

/-- `str::from_utf8`, with the UTF-8 decoder of Lean's core library.
Standard library, used at `src/suggester.rs` 1036–1195. -/
def fromUtf8? (b : List UInt8) : Option Str :=
  match b with
  | [] => some []
  | x :: xs =>
    match ByteArray.utf8DecodeChar? ⟨(x :: xs).toArray⟩ 0 with
    | none => none
    | some c => (fromUtf8? ((x :: xs).drop c.utf8Size)).map (c :: ·)
termination_by b.length
decreasing_by
  have := c.utf8Size_pos
  simp only [List.length_drop, List.length_cons]
  omega

/-- `slice::rotate_right(k)`; panics if `k` exceeds the length.
Standard library, used at `src/suggester.rs` 791, 807. -/
def rotateRight? (k : Nat) (l : List UInt8) : Option (List UInt8) :=
  if k ≤ l.length then some (l.drop (l.length - k) ++ l.take (l.length - k)) else none

/-- `slice::rotate_left(k)`; panics if `k` exceeds the length.
Standard library, used at `src/suggester.rs` 827, 840. -/
def rotateLeft? (k : Nat) (l : List UInt8) : Option (List UInt8) :=
  if k ≤ l.length then some (l.drop k ++ l.take k) else none

/-- `char::encode_utf8(&mut slice)`: write at the start of the slice; panics if it is too short.
Standard library, used at `src/suggester.rs` 1141–1195. -/
def encodeInto? (c : Char) (l : List UInt8) : Option (List UInt8) :=
  if c.utf8Size ≤ l.length then some (String.utf8EncodeChar c ++ l.drop c.utf8Size) else none

/-- Run `f` on `&mut bytes[lo..hi]`; panics if the range is not within the bytes.
Standard library, used at `src/suggester.rs` 791–840. -/
def onRange? (lo hi : Nat) (f : List UInt8 → Option (List UInt8)) (bytes : List UInt8) :
    Option (List UInt8) :=
  if lo ≤ hi ∧ hi ≤ bytes.length then
    (f ((bytes.take hi).drop lo)).map fun m => bytes.take lo ++ m ++ bytes.drop hi
  else none

/-- Run `f` on `&mut bytes[lo..]`. Standard library, used at `src/suggester.rs` 807. -/
def onFrom? (lo : Nat) (f : List UInt8 → Option (List UInt8)) (bytes : List UInt8) :
    Option (List UInt8) := onRange? lo bytes.length f bytes

/-- `string[idx..].chars().next() == Some(c)`; `false` if the slice panics.
Used for `src/suggester.rs` 1036–1195. -/
def charAtIs (s : Str) (idx : Nat) (c : Char) : Bool :=
  (sliceFrom? s idx).bind List.head? == some c

/-- `swap_adjacent_chars` (`src/suggester.rs` 1036–1061) with its debug assertions. -/
def swapAdjacent? (s : Str) (idx1 : Nat) (ch1 ch2 : Char) : Option (Str × Nat) := do
  guard (charAtIs s idx1 ch1)
  guard ((sliceFrom? s idx1).bind (·[1]?) == some ch2)
  let newIdx2 := idx1 + ch2.utf8Size
  let stop := newIdx2 + ch1.utf8Size
  let bytes ← onRange? idx1 newIdx2 (encodeInto? ch2) (utf8 s)
  let bytes ← onRange? newIdx2 stop (encodeInto? ch1) bytes
  let s ← fromUtf8? bytes
  pure (s, newIdx2)

/-- `ptr::swap_nonoverlapping(ptr.add(i), ptr.add(j), len)`; `none` is undefined behaviour: ranges
which overlap or leave the string. Standard library, used at `src/suggester.rs` 1073–1138. -/
def swapRanges? (i j len : Nat) (bytes : List UInt8) : Option (List UInt8) :=
  if i + len ≤ j ∧ j + len ≤ bytes.length then
    some (bytes.take i ++ (bytes.drop j).take len ++ (bytes.take j).drop (i + len)
      ++ (bytes.drop i).take len ++ bytes.drop (j + len))
  else if j + len ≤ i ∧ i + len ≤ bytes.length then
    some (bytes.take j ++ (bytes.drop i).take len ++ (bytes.take i).drop (j + len)
      ++ (bytes.drop j).take len ++ bytes.drop (i + len))
  else none

/-- `swap_distant_chars` (`src/suggester.rs` 1073–1138) with its debug assertion. -/
def swapDistant? (s : Str) (idx1 : Nat) (ch1 : Char) (idx2 : Nat) (ch2 : Char) :
    Option (Str × Nat) := do
  guard (idx1 ≠ idx2)
  let len1 := ch1.utf8Size
  let len2 := ch2.utf8Size
  let stop := idx2 + len2
  if len1 = len2 then
    let bytes ← swapRanges? idx1 idx2 len1 (utf8 s)
    let s ← fromUtf8? bytes
    pure (s, idx2)
  else if len1 < len2 then
    let rotation := len2 - len1
    let newIdx2 := idx2 + rotation
    let bytes ← onRange? idx1 stop (rotateRight? rotation) (utf8 s)
    let bytes ← onRange? idx1 (idx1 + len2) (encodeInto? ch2) bytes
    let bytes ← onRange? newIdx2 (newIdx2 + len1) (encodeInto? ch1) bytes
    let s ← fromUtf8? bytes
    pure (s, newIdx2)
  else
    let rotation := len1 - len2
    guard (rotation ≤ idx2)
    let newIdx2 := idx2 - rotation
    let bytes ← onRange? idx1 stop (rotateLeft? rotation) (utf8 s)
    let bytes ← onRange? idx1 (idx1 + len2) (encodeInto? ch2) bytes
    let bytes ← onRange? newIdx2 (newIdx2 + len1) (encodeInto? ch1) bytes
    let s ← fromUtf8? bytes
    pure (s, newIdx2)

/-- The `match` of `replace_char_at` (`src/suggester.rs` 1146–1195). -/
def overwriteChar? (s : Str) (idx : Nat) (ch1 ch2 : Char) : Option Str := do
  let len1 := ch1.utf8Size
  let len2 := ch2.utf8Size
  if len1 = len2 then
    let bytes ← onFrom? idx (encodeInto? ch2) (utf8 s)
    fromUtf8? bytes
  else if len1 < len2 then
    let difference := len2 - len1
    let bytes := utf8 s ++ List.replicate difference 0
    let bytes ← onFrom? idx (rotateRight? difference) bytes
    let bytes ← onFrom? idx (encodeInto? ch2) bytes
    fromUtf8? bytes
  else
    let difference := len1 - len2
    let newLen := byteLen s - difference
    let bytes ← onFrom? idx (rotateLeft? difference) (utf8 s)
    let bytes ← onFrom? idx (encodeInto? ch2) bytes
    fromUtf8? (bytes.take newLen)

/-- `replace_char_at` (`src/suggester.rs` 1141–1198) with its debug assertions. -/
def replaceCharAt? (s : Str) (idx : Nat) (ch1 ch2 : Char) : Option Str := do
  guard (idx < byteLen s)
  guard (charAtIs s idx ch1)
  let s ← overwriteChar? s idx ch1 ch2
  guard (charAtIs s idx ch2)
  pure s

/-! ## Functions of `String` with byte positions -/

/-- `str::char_indices`, offset by `at`. Standard library, used at `src/suggester.rs` 518, 619, 672. -/
def charIndices : Nat → Str → List (Nat × Char)
  | _, [] => []
  | at', c :: cs => (at', c) :: charIndices (at' + c.utf8Size) cs

/-- `String::remove`; panics unless a character starts at the position.
Standard library, used at `src/suggester.rs` 713, 745. -/
def removeAt? (s : Str) (idx : Nat) : Option Str := do
  let before ← sliceTo? s idx
  match ← sliceFrom? s idx with
  | [] => none
  | _ :: after => some (before ++ after)

/-- `String::insert`. Standard library, used at `src/suggester.rs` 714, 764. -/
def insertAt? (s : Str) (idx : Nat) (c : Char) : Option Str := do
  let before ← sliceTo? s idx
  let after ← sliceFrom? s idx
  pure (before ++ c :: after)

/-- `String::replace_range(lo..hi, text)`; with an empty text, `String::drain(lo..hi)`.
Standard library, used at `src/suggester.rs` 438–461, 548–602. -/
def replaceRange? (s : Str) (lo hi : Nat) (text : Str) : Option Str :=
  if lo ≤ hi then do
    let before ← sliceTo? s lo
    let after ← sliceFrom? s hi
    pure (before ++ text ++ after)
  else none

/-- The byte position of the first occurrence of `pat` in `word[at..]`, as a position in `word`:
`word[idx..].find(pat).map(|i| i + idx)`; the outer `none` is a panic of the slice.
As at `src/suggester.rs` 563. -/
def findFrom? (word : Str) (idx : Nat) (pat : Str) : Option (Option Nat) := do
  let tail ← sliceFrom? word idx
  pure ((splitOnce? pat tail).map fun (a, _) => byteLen a + idx)

/-- The byte positions of `word.match_indices(pat)`. Standard library, used at `src/suggester.rs` 458, 709. -/
def matchBytes (word pat : Str) : List Nat := (matchIndices word pat).map fun i => byteLen (word.take i)

/-! ## Sequences of attempts -/

/-- The mutable variables of an edit method: its buffer and `remaining_attempts`.
Part of the model only, for `src/suggester.rs` 614–912. -/
structure Pad where
  buf : Str
  left : Nat
deriving DecidableEq

/-- A part of an edit method: the texts it tries, and the variables afterwards, or `none` after a
`return`. The outer `none` is a panic. Part of the model only, for `src/suggester.rs` 614–912. -/
abbrev Edit := Pad → Option (List Str × Option Pad)

namespace Edit

/-- Nothing. Part of the model only, for `src/suggester.rs` 614–912. -/
def skip : Edit := fun p => some ([], some p)

/-- `return`. Part of the model only, for `src/suggester.rs` 614–912. -/
def stop : Edit := fun _ => some ([], none)

/-- `self.add_suggestion_if_correct(&buffer, out)`. `src/suggester.rs` 622, 645, 681 and others. -/
def attempt : Edit := fun p => some ([p.buf], some p)

/-- One after the other. Part of the model only, for `src/suggester.rs` 614–912. -/
def andThen (a b : Edit) : Edit := fun p =>
  match a p with
  | none => none
  | some (t, none) => some (t, none)
  | some (t, some p) =>
    match b p with
    | none => none
    | some (t', r) => some (t ++ t', r)

/-- `for x in list { … }`. Part of the model only, for `src/suggester.rs` 614–912. -/
def forEach {α : Type} (f : α → Edit) : List α → Edit
  | [] => skip
  | a :: as => (f a).andThen (forEach f as)

/-- An assignment to the buffer. Part of the model only, for `src/suggester.rs` 614–912. -/
def change (f : Str → Option Str) : Edit := fun p => (f p.buf).map fun b => ([], some { p with buf := b })

/-- An assignment to the buffer which yields an index. Part of the model only, for `src/suggester.rs` 614–912. -/
def changeIdx (f : Str → Option (Str × Nat)) (k : Nat → Edit) : Edit := fun p =>
  match f p.buf with
  | none => none
  | some (b, idx) => k idx { p with buf := b }

/-- `debug_assert_eq!(word, buffer)`. `src/suggester.rs` 444–844. -/
def restored (word : Str) : Edit := fun p => if p.buf = word then some ([], some p) else none

/-- `if remaining_attempts == 0 { exit; return; } remaining_attempts -= 1;`, then `k`.
`src/suggester.rs` 676–679, 760–763 and others. -/
def spend (exit k : Edit) : Edit := fun p =>
  if p.left = 0 then (exit.andThen stop) p else k { p with left := p.left - 1 }

/-- The texts an edit method tries, starting from a copy of the word.
Part of the model only, for `src/suggester.rs` 614–912. -/
def run (e : Edit) (word : Str) (attempts : Nat) : Option (List Str) :=
  (e { buf := word, left := attempts }).map (·.1)

@[inherit_doc] scoped infixr:60 " ;; " => Edit.andThen

end Edit

open scoped Edit

/-- The buffer change of `swap_adjacent_chars`, without the index. `src/suggester.rs` 1036–1061. -/
def Edit.swapAdj (idx1 : Nat) (ch1 ch2 : Char) : Edit :=
  Edit.change fun s => (swapAdjacent? s idx1 ch1 ch2).map (·.1)

/-- Neighbours in a list: `while let Some((a, b)) = iter.next().zip(iter.peek())`.
`src/suggester.rs` 619–621, 777–779. -/
def neighbours {α : Type} (l : List α) : List (α × α) := l.zip l.tail

/-- The extra swaps for words of four or five characters (`src/suggester.rs` 632–663). -/
def adjacentExtra (word : Str) : Edit :=
  match charIndices 0 word with
  | [(idx1, ch1), (_, ch2), (idx3, ch3), (_, ch4)] =>
    Edit.swapAdj idx1 ch1 ch2 ;; Edit.swapAdj idx3 ch3 ch4 ;; Edit.attempt ;;
    Edit.swapAdj idx1 ch2 ch1 ;; Edit.swapAdj idx3 ch4 ch3 ;; Edit.restored word
  | [(idx1, ch1), (idx2, ch2), (_, ch3), (idx4, ch4), (_, ch5)] =>
    Edit.swapAdj idx1 ch1 ch2 ;; Edit.swapAdj idx4 ch4 ch5 ;; Edit.attempt ;;
    Edit.swapAdj idx1 ch2 ch1 ;; Edit.swapAdj idx2 ch2 ch3 ;; Edit.attempt ;;
    Edit.swapAdj idx2 ch3 ch2 ;; Edit.swapAdj idx4 ch5 ch4 ;; Edit.restored word
  | _ => Edit.skip

/-- `adjacent_swap_suggest` (`src/suggester.rs` 614–664). -/
def adjacentSwapEdits (word : Str) : Edit :=
  Edit.forEach (fun ((idx1, ch1), (_, ch2)) =>
    Edit.swapAdj idx1 ch1 ch2 ;; Edit.attempt ;; Edit.swapAdj idx1 ch2 ch1 ;; Edit.restored word)
    (neighbours (charIndices 0 word)) ;;
  adjacentExtra word

/-- The inner loop of `distant_swap_suggest` (`src/suggester.rs` 673–685) for one first character; `tail` is
`word[idx1..]`. -/
def distantSwapFrom (word : Str) (idx1 : Nat) (ch1 : Char) (tail : Str) : Edit :=
  Edit.forEach (fun (idx2, ch2) =>
    Edit.spend Edit.skip <|
      Edit.changeIdx (fun s => swapDistant? s idx1 ch1 (idx2 + idx1) ch2) fun idx2 =>
        Edit.attempt ;; Edit.change (fun s => (swapDistant? s idx1 ch2 idx2 ch1).map (·.1)) ;;
        Edit.restored word)
    ((charIndices 0 tail).drop 1)

/-- `distant_swap_suggest` (`src/suggester.rs` 667–687). -/
def distantSwapEdits (word : Str) : Edit :=
  Edit.forEach (fun (idx1, ch1) p =>
    match sliceFrom? word idx1 with
    | none => none
    | some tail => distantSwapFrom word idx1 ch1 tail p) (charIndices 0 word)

/-- One replacement of `keyboard_suggest`: `remove`, `insert`, attempt, and back (`src/suggester.rs` 711–716,
723–728). -/
def replaceKey (idx : Nat) (wordCh ch : Char) : Edit :=
  Edit.change (removeAt? · idx) ;; Edit.change (insertAt? · idx ch) ;; Edit.attempt ;;
  Edit.change (removeAt? · idx) ;; Edit.change (insertAt? · idx wordCh)

/-- `word_ch.to_uppercase()` is another text than `word_ch` (`src/suggester.rs` 698–699). -/
def hasUpper (U : Unicode) (c : Char) : Bool := U.upper c != [c]

/-- The upper-casing part of `keyboard_suggest` (`src/suggester.rs` 698–706). -/
def keyboardUpper (U : Unicode) (word : Str) (idx : Nat) (wordCh : Char) : Edit :=
  if hasUpper U wordCh then
    Edit.change (fun s => do
      let before ← sliceTo? s idx
      let rest ← sliceFrom? word idx
      pure (before ++ U.upper wordCh ++ rest.drop 1)) ;;
    Edit.attempt ;;
    Edit.change (fun s => do
      let before ← sliceTo? s idx
      let rest ← sliceFrom? word idx
      pure (before ++ rest)) ;;
    Edit.restored word
  else Edit.skip

/-- The neighbours of one key on the keyboard (`src/suggester.rs` 708–730). -/
def keyboardMatch (kb word : Str) (idx : Nat) (wordCh : Char) (matchIdx : Nat) : Edit := fun p =>
  match sliceTo? kb matchIdx, sliceFrom? kb (matchIdx + wordCh.utf8Size) with
  | some before, some after =>
    let prev := match before.getLast?.filter (· ≠ '|') with
      | some ch => replaceKey idx wordCh ch ;; Edit.restored word
      | none => Edit.skip
    let next := match after.head?.filter (· ≠ '|') with
      | some ch => replaceKey idx wordCh ch ;; Edit.restored word
      | none => Edit.skip
    (prev ;; next) p
  | _, _ => none

/-- `keyboard_suggest` (`src/suggester.rs` 692–733). -/
def keyboardEdits (U : Unicode) (kb word : Str) : Edit :=
  Edit.forEach (fun (idx, wordCh) =>
    keyboardUpper U word idx wordCh ;;
    Edit.forEach (keyboardMatch kb word idx wordCh) (matchBytes kb [wordCh])) (charIndices 0 word)

/-- `extra_char_suggest` (`src/suggester.rs` 738–746); every attempt has its own buffer. -/
def extraCharEdits (word : Str) : Edit :=
  Edit.forEach (fun (idx, _) =>
    Edit.change (fun _ => removeAt? word idx) ;; Edit.attempt) (charIndices 0 word)

/-- `forgotten_char_suggest` (`src/suggester.rs` 749–769). -/
def forgottenCharEdits (tryChars word : Str) : Edit :=
  Edit.forEach (fun ch =>
    Edit.forEach (fun idx =>
      Edit.spend Edit.skip <|
        Edit.change (insertAt? · idx ch) ;; Edit.attempt ;; Edit.change (removeAt? · idx))
      (charBytes 0 word ++ [byteLen word])) tryChars

/-- `bytes[lo..hi].rotate_right(k)` on a buffer. `src/suggester.rs` 791, 807. -/
def rotateRightAt? (lo hi k : Nat) (s : Str) : Option Str := do
  fromUtf8? (← onRange? lo hi (rotateRight? k) (utf8 s))

/-- `bytes[lo..hi].rotate_left(k)` on a buffer. `src/suggester.rs` 827, 840. -/
def rotateLeftAt? (lo hi k : Nat) (s : Str) : Option Str := do
  fromUtf8? (← onRange? lo hi (rotateLeft? k) (utf8 s))

/-- The inner loop of the forward pass of `move_char_suggest` (`src/suggester.rs` 782–799): `cursor` is where `ch1`
stands. -/
def moveRight (word : Str) (idx1 idx2 : Nat) (ch1 : Char) : Nat → List (Nat × Char) → Edit
  | _, [] => Edit.skip
  | cursor, (swapIdx, swapCh) :: rest =>
    Edit.spend (Edit.change (rotateRightAt? idx1 (swapIdx + idx2) ch1.utf8Size) ;; Edit.restored word) <|
      Edit.changeIdx (fun s => swapAdjacent? s cursor ch1 swapCh) fun cursor =>
        Edit.attempt ;; moveRight word idx1 idx2 ch1 cursor rest

/-- The forward pass of `move_char_suggest` (`src/suggester.rs` 777–811). -/
def moveForward (word : Str) : Edit :=
  Edit.forEach (fun ((idx1, ch1), (idx2, ch2)) p =>
    match sliceFrom? word idx2 with
    | none => none
    | some tail =>
      (Edit.changeIdx (fun s => swapAdjacent? s idx1 ch1 ch2) (fun cursor =>
        moveRight word idx1 idx2 ch1 cursor ((charIndices 0 tail).drop 1)) ;;
      Edit.change (fun s => rotateRightAt? idx1 (byteLen s) ch1.utf8Size s) ;; Edit.restored word) p)
    (neighbours (charIndices 0 word)) ;;
  Edit.restored word

/-- The body of the inner loop of the backward pass (`src/suggester.rs` 819–837). -/
def moveLeftStep (word : Str) (stop : Nat) (ch1 : Char) : Nat × Char → Edit
  | (swapIdx, swapCh) =>
    Edit.spend (Edit.change (rotateLeftAt? (swapIdx + swapCh.utf8Size) stop ch1.utf8Size) ;;
      Edit.restored word) <|
      Edit.swapAdj swapIdx swapCh ch1 ;; Edit.attempt

/-- The backward pass of `move_char_suggest` (`src/suggester.rs` 815–846). -/
def moveBackward (word : Str) : Edit :=
  Edit.forEach (fun ((idx1, ch1), (idx2, ch2)) p =>
    match sliceTo? word idx2 with
    | none => none
    | some head =>
      let stop := idx1 + ch1.utf8Size
      (Edit.swapAdj idx2 ch2 ch1 ;;
      Edit.forEach (moveLeftStep word stop ch1) (charIndices 0 head).reverse ;;
      Edit.change (rotateLeftAt? 0 stop ch1.utf8Size) ;; Edit.restored word) p)
    (neighbours (charIndices 0 word).reverse) ;;
  Edit.restored word

/-- `move_char_suggest` (`src/suggester.rs` 772–846). -/
def moveCharEdits (word : Str) : Edit := moveForward word ;; moveBackward word

/-- `wrong_char_suggest` (`src/suggester.rs` 851–871). -/
def wrongCharEdits (tryChars word : Str) : Edit :=
  Edit.forEach (fun ch =>
    Edit.forEach (fun (idx, wordCh) =>
      if ch = wordCh then Edit.skip
      else
        Edit.spend Edit.skip <|
          Edit.change (removeAt? · idx) ;; Edit.change (insertAt? · idx ch) ;; Edit.attempt ;;
          Edit.change (removeAt? · idx) ;; Edit.change (insertAt? · idx wordCh))
      (charIndices 0 word)) tryChars

/-- The loop of `doubled_two_chars_suggest` (`src/suggester.rs` 889–911): the window and the characters behind it. -/
def doubledLoop (word : Str) : (window rest : List (Nat × Char)) → Edit
  | [w0, w1, w2, w3, w4], (nextIdx, nextChar) :: rest =>
    (if w0.2 = w2.2 ∧ w1.2 = w3.2 ∧ w0.2 = w4.2 then
      Edit.change (fun _ => replaceRange? word w3.1 nextIdx []) ;; Edit.attempt
    else Edit.skip) ;;
    doubledLoop word [w1, w2, w3, w4, (nextIdx, nextChar)] rest
  | _, _ => Edit.skip

/-- `doubled_two_chars_suggest` (`src/suggester.rs` 876–912). -/
def doubledCharsEdits (word : Str) : Edit :=
  let chars := charIndices 0 word
  doubledLoop word (chars.take 5) (chars.drop 5)

/-- The texts `rep_suggest` passes to `try_rep_suggestion` (`src/suggester.rs` 416–466). -/
def repEdits (R : ReplacementTable) (word : Str) : Edit :=
  Edit.forEach (fun (from', to) =>
    if word = from' then (Edit.change (fun _ => some to) ;; Edit.attempt ;;
      Edit.change fun _ => some word) else Edit.skip) R.whole ;;
  if R.hasOnlyWhole then Edit.stop
  else
    Edit.forEach (fun (from', to) =>
      if startsWith word from' then
        Edit.change (fun s => replaceRange? s 0 (byteLen from') to) ;; Edit.attempt ;;
        Edit.change (fun s => replaceRange? s 0 (byteLen to) from')
      else Edit.skip) R.start ;;
    Edit.restored word ;;
    Edit.forEach (fun (from', to) =>
      if endsWith word from' then
        let idx := byteLen word - byteLen from'
        Edit.change (fun s => replaceRange? s idx (byteLen s) to) ;; Edit.attempt ;;
        Edit.change (fun s => replaceRange? s idx (byteLen s) from')
      else Edit.skip) R.stop ;;
    Edit.restored word ;;
    Edit.forEach (fun (from', to) =>
      Edit.forEach (fun idx =>
        Edit.change (fun s => replaceRange? s idx (idx + byteLen from') to) ;; Edit.attempt ;;
        Edit.change (fun s => replaceRange? s idx (idx + byteLen to) from'))
        (matchBytes word from')) R.anywhere ;;
    Edit.restored word

/-- Run the recursive call of `map_suggest_impl` on its own copy of the buffer; it shares
`remaining_attempts`. A `return` of the call does not end the caller.
`src/suggester.rs` 534–540, 551–556 and others. -/
def mapCall (rec' : Str → Nat → Nat → Option (List Str × Nat)) (i : Nat) : Edit := fun p =>
  match rec' p.buf i p.left with
  | none => none
  | some (tried, left) => some (tried, some { p with left })

/-- One replacement of `map_suggest_impl`: spend an attempt, change the buffer, try it, recurse
behind the new text, change it back. `src/suggester.rs` 525–606. -/
def mapReplace (rec' : Str → Nat → Nat → Option (List Str × Nat)) (word : Str) (there back : Str → Option Str)
    (next : Nat) : Edit :=
  Edit.spend Edit.skip
    (Edit.change there ;; Edit.attempt ;; mapCall rec' next ;; Edit.change back ;; Edit.restored word)

/-- The body of the loop over the groups (`src/suggester.rs` 521–606) at the character `ch` at `idx`. -/
def mapGroup (rec' : Str → Nat → Nat → Option (List Str × Nat)) (word : Str) (idx : Nat) (ch : Char)
    (g : SimilarityGroup) : Edit :=
  if g.chars.contains ch then
    Edit.forEach (fun similar =>
      if similar = ch then Edit.skip
      else mapReplace rec' word (replaceCharAt? · idx ch similar) (replaceCharAt? · idx similar ch)
        (idx + similar.utf8Size)) g.chars ;;
    Edit.forEach (fun similar =>
      mapReplace rec' word (replaceRange? · idx (idx + ch.utf8Size) similar)
        (replaceRange? · idx (idx + byteLen similar) [ch]) (idx + byteLen similar)) g.strings
  else
    Edit.forEach (fun (string, k) p =>
      match findFrom? word idx string with
      | none => none
      | some none => Edit.skip p
      | some (some idx) =>
        (Edit.forEach (fun (similar : Char) =>
          mapReplace rec' word (replaceRange? · idx (idx + byteLen string) [similar])
            (replaceRange? · idx (idx + similar.utf8Size) string) (idx + similar.utf8Size)) g.chars ;;
        Edit.forEach (fun (similar, k') =>
          if k' = k then Edit.skip
          else mapReplace rec' word (replaceRange? · idx (idx + byteLen string) similar)
            (replaceRange? · idx (idx + byteLen similar) string) (idx + byteLen similar))
          g.strings.zipIdx) p)
      g.strings.zipIdx

/-- `map_suggest_impl` (`src/suggester.rs` 512–609): the texts tried and the attempts left. `ptr::eq` compares the
positions in the list. The first argument bounds the depth of the recursion; every recursive call
spends an attempt, so a depth of `left` is enough (at the end, no attempt is left and nothing is
tried). -/
def mapImpl (sims : List SimilarityGroup) : Nat → Str → Nat → Nat → Option (List Str × Nat)
  | 0, _, _, left => some ([], left)
  | depth + 1, word, i, left => do
    let tail ← sliceFrom? word i
    let (tried, r) ← Edit.forEach (fun (idx, ch) =>
      Edit.forEach (mapGroup (mapImpl sims depth) word idx ch) sims) (charIndices i tail)
      { buf := word, left }
    pure (tried, (r.map (·.left)).getD 0)

/-- The texts `map_suggest` (`src/suggester.rs` 505–510) tries. -/
def mapTexts (sims : List SimilarityGroup) (word : Str) (attempts : Nat) : Option (List Str) :=
  (mapImpl sims (attempts + 1) word 0 attempts).map (·.1)

end Spellbook
