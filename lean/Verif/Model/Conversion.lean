import Verif.Model.AffixIndex
/-!
# ICONV/OCONV conversion tables

Models `src/aff.rs` 1068–1249.
-/

namespace Spellbook

/-- `struct Conversion` (`src/aff.rs` 1069–1075). -/
structure Conversion where
  src : Str
  dst : Str
  anchorEnd : Bool
deriving DecidableEq, Repr

/-- `struct ByteSet([u64; 4])` (`src/aff.rs` 1081); each word as a natural number. -/
abbrev ByteSet := List Nat

namespace ByteSet

/-- `ByteSet::default()`. `src/aff.rs` 1123. -/
def default : ByteSet := [0, 0, 0, 0]

/-- `ByteSet::insert` (`src/aff.rs` 1084–1086). -/
def insert (s : ByteSet) (byte : UInt8) : ByteSet :=
  List.set s (byte.toNat >>> 6) (s.getD (byte.toNat >>> 6) 0 ||| (1 <<< (byte.toNat &&& 63)))

/-- `ByteSet::contains` (`src/aff.rs` 1088–1090). -/
def contains (s : ByteSet) (byte : UInt8) : Bool :=
  (s.getD (byte.toNat >>> 6) 0 &&& (1 <<< (byte.toNat &&& 63))) != 0

end ByteSet

/-- The closure which builds a `Conversion` from a line (`src/aff.rs` 1126–1141). -/
def Conversion.ofPair (p : Str × Str) : Conversion :=
  match stripSuffix? p.1 ['_'] with
  | some src => { src, dst := p.2, anchorEnd := true }
  | none => { src := p.1, dst := p.2, anchorEnd := false }

/-- `struct ConversionTable` (`src/aff.rs` 1100–1119). The table is any arrangement sorted by
pattern (`sort_unstable_by` may order equal patterns arbitrarily); the other two fields are
functions of it. -/
structure ConversionTable where
  inner : List Conversion
  sorted : inner.Pairwise fun a b => bytesLe (utf8 a.src) (utf8 b.src)

/-- `str::is_ascii`. Standard library, used at `src/aff.rs` 1148, 1218. -/
def isAscii (s : Str) : Bool := (utf8 s).all (· < 128)

namespace ConversionTable

/-- The update of `possible_start_bytes` for one pattern (`src/aff.rs` 1132–1134). -/
def startStep (s : ByteSet) (c : Conversion) : ByteSet :=
  match (utf8 c.src).head? with
  | some b => s.insert b
  | none => s

/-- `possible_start_bytes` (`src/aff.rs` 1123, 1132–1134). Simplification: collected in table order rather than in
the order of the lines. -/
def startBytes (t : ConversionTable) : ByteSet := t.inner.foldl startStep ByteSet.default

/-- `all_patterns_non_ascii` (`src/aff.rs` 1148). -/
def allNonAscii (t : ConversionTable) : Bool :=
  !t.inner.isEmpty && t.inner.all fun c => !isAscii c.src

/-- Insertion into a sorted table. Part of the model only, for `src/aff.rs` 1146. -/
def insertConv (c : Conversion) : List Conversion → List Conversion
  | [] => [c]
  | d :: ds => if bytesLe (utf8 c.src) (utf8 d.src) then c :: d :: ds else d :: insertConv c ds

/-- One of the results `sort_unstable_by` may produce. Standard library, used at `src/aff.rs` 1146. -/
def sortConv : List Conversion → List Conversion
  | [] => []
  | c :: cs => insertConv c (sortConv cs)

/-- `c.from.as_bytes().first().copied() < Some(first)` (`src/aff.rs` 1173). -/
def firstBelow (first : UInt8) (c : Conversion) : Bool :=
  match (utf8 c.src).head? with
  | none => true
  | some b => b < first

/-- Whether a conversion applies at the start of `tail` (`src/aff.rs` 1181–1186). -/
def matchesAt (c : Conversion) (tail : Str) : Bool :=
  if c.anchorEnd then tail == c.src else startsWith tail c.src

/-- `best.map_or(true, |b| conversion.from.len() > b.from.len())` (`src/aff.rs` 1189). -/
def longer (c : Conversion) (best : Option Conversion) : Bool :=
  match best with
  | none => true
  | some b => byteLen c.src > byteLen b.src

/-- The scan of `match_at` (`src/aff.rs` 1175–1194). -/
def scanRun (first : UInt8) (tail : Str) : List Conversion → Option Conversion → Option Conversion
  | [], best => best
  | c :: cs, best =>
    if (utf8 c.src).head? ≠ some first then best
    else if matchesAt c tail && longer c best then scanRun first tail cs (some c)
    else scanRun first tail cs best

/-- `ConversionTable::match_at` (`src/aff.rs` 1166–1195). -/
def matchAt (t : ConversionTable) (tail : Str) : Option Conversion :=
  match (utf8 tail).head? with
  | none => none
  | some first =>
    let start := partitionPoint (firstBelow first) t.inner
    scanRun first tail (t.inner.drop start) none

/-- The `while i < word.len()` loop of `convert` (`src/aff.rs` 1231–1246). The word is kept as the text before
position `i` (already converted) and the text from `i` on, so `replace_range` and `i += advance`
append the replacement to the first part and drop the pattern from the second. -/
def convertLoop (t : ConversionTable) : Nat → Str → Str → Option Str
  | 0, _, _ => none
  | _ + 1, done, [] => some done
  | fuel + 1, done, ch :: rest =>
    match t.matchAt (ch :: rest) with
    | none => convertLoop t fuel (done ++ [ch]) rest
    | some c => convertLoop t fuel (done ++ c.dst) ((ch :: rest).drop c.src.length)

/-- `ConversionTable::convert` (`src/aff.rs` 1202–1249); `none` would be non-termination, which `convert?_isSome`
excludes. -/
def convert? (t : ConversionTable) (word : Str) : Option Str :=
  if t.inner.isEmpty then some word
  else if t.allNonAscii && isAscii word then some word
  else if !((utf8 word).any fun byte => t.startBytes.contains byte) then some word
  else convertLoop t (word.length + 1) [] word

/-- `ConversionTable::convert`. `src/aff.rs` 1202–1249. -/
def convert (t : ConversionTable) (word : Str) : Str := (t.convert? word).getD word

/-- The empty table. Used for `src/aff.rs` 1098–1120. -/
def empty : ConversionTable := ⟨[], List.Pairwise.nil⟩

end ConversionTable
end Spellbook
