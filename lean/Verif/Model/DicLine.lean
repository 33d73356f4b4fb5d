import Verif.Model.FlagText
/-!
# Lines of the word list

Models `parse_dic_line` (`src/aff/parser.rs` 1206–1333).
-/

namespace Spellbook

/-- Text up to the first white space, and the rest. Part of the model only, for `src/aff/parser.rs` 1250. -/
def takeWord (U : Unicode) (s : Str) : Str × Str :=
  (s.takeWhile fun c => !U.isWs c, s.dropWhile fun c => !U.isWs c)

theorem takeWord_length (U : Unicode) (s : Str) : (takeWord U s).2.length ≤ s.length :=
  (List.dropWhile_suffix _).length_le

/-- `str::split_whitespace`. Standard library, used at `src/aff/parser.rs` 746, 769, 1250. -/
def splitWhitespace (U : Unicode) (s : Str) : List Str :=
  match _h : s.dropWhile U.isWs with
  | [] => []
  | c :: rest => (c :: (takeWord U rest).1) :: splitWhitespace U (takeWord U rest).2
termination_by s.length
decreasing_by
  have h1 := (List.dropWhile_suffix (l := s) U.isWs).length_le
  have h2 := takeWord_length U rest
  rw [_h, List.length_cons] at h1
  omega

/-- The four characters `find` looks for (`src/aff/parser.rs` 1233). -/
def isDicSpecial (c : Char) : Bool := c = '/' || c = '\\' || c = ' ' || c = '\t'

/-- `separates_morphological_field` (`src/aff/parser.rs` 1299–1312): what follows the space, from its first character
that is no white space. -/
def isMorphField (U : Unicode) (rest : Str) : Bool :=
  match rest.dropWhile U.isWs with
  | a :: b :: c :: _ => U.isLower a && U.isLower b && c = ':'
  | _ => false

/-- How the character loop of `parse_dic_line` ends: with `break` at a slash (the remaining
characters hold the flags), at the end of the input, or with a `return` of the word alone.
`src/aff/parser.rs` 1273–1324. -/
inductive DicScan
  | flags (word rest : Str)
  | word (word : Str)
deriving DecidableEq

/-- The character loop of `parse_dic_line` (`src/aff/parser.rs` 1273–1324). `first` says that the character index is
0; `word.as_bytes_mut()[last_idx] = b'/'` replaces the last character, which is a backslash
(`scanDic_backslash`). At the end of the input the flags are empty. -/
def scanDic (U : Unicode) : Str → Bool → Bool → Str → DicScan
  | word, _, _, [] => .flags word []
  | word, escaped, first, ch :: rest =>
    if ch = '/' then
      if escaped then scanDic U (word.dropLast ++ ['/']) false false rest
      else if !first then .flags word rest
      else scanDic U (word ++ [ch]) false false rest
    else if ch = '\t' then .word word
    else if ch = ' ' then
      if isMorphField U rest then .word word else scanDic U (word ++ [ch]) false false rest
    else scanDic U (word ++ [ch]) (ch = '\\') false rest

/-- The local `ignore_chars` (`src/aff/parser.rs` 1221–1230). -/
def ignoreChars (s : Str) (ignore : List Char) : Str :=
  if ignore.isEmpty then s else s.filter fun c => !ignore.contains c

/-- `parse_dic_line` (`src/aff/parser.rs` 1206–1333). The conversions into a `Stem` cannot panic, because the stem is
never longer than the input (`parseDicLine_short`). -/
def parseDicLine (U : Unicode) (input : Str) (ty : FlagType) (aliases : List FlagSet)
    (ignore : List Char) : Except FlagError (Str × FlagSet) :=
  if byteLen input > u16Max then .error .wordTooLong
  else
    let before := input.takeWhile fun c => !isDicSpecial c
    match input.dropWhile fun c => !isDicSpecial c with
    | [] => .ok (ignoreChars input ignore, FlagSet.empty)
    | byte :: rest =>
      if byte = '/' ∧ before ≠ [] then
        let flagsetStr := (splitWhitespace U rest).head?.getD rest
        (decodeFlagset flagsetStr ty aliases).map fun flagset => (ignoreChars before ignore, flagset)
      else if byte = '\t' then .ok (ignoreChars before ignore, FlagSet.empty)
      else
        match scanDic U before false true (byte :: rest) with
        | .word word => .ok (ignoreChars word ignore, FlagSet.empty)
        | .flags word rest =>
          (decodeFlagset (takeWord U rest).1 ty aliases).map fun flagset =>
            (ignoreChars word ignore, flagset)

end Spellbook
