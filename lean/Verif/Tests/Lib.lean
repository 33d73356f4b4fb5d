import Verif.Tests.Common
import Verif.Model.Umbra
/-!
# The unit tests of `src/lib.rs` (522–672), `src/hash_bag.rs`, `src/umbra_slice.rs` and
`src/suggester/ngram.rs` (732–796)

Left out are the tests of `Debug` output, of the size of types, of hashes, and those which need `en_US`.
-/

namespace Spellbook.Tests

/-- The macro `flagset!`. -/
abbrev fs (l : List Nat) : FlagSet := FlagSet.ofList l

/-- `flagset_from_iter`. -/
example : (fs [1, 3, 2, 1]).elems = [1, 2, 3] := by decide

/-- `flagset_has_intersection`. -/
example : (fs [1, 2, 3]).hasIntersection (fs [1]) ∧ (fs [1, 2, 3]).hasIntersection (fs [2]) ∧
    (fs [1, 2, 3]).hasIntersection (fs [3]) ∧ (fs [2]).hasIntersection (fs [1, 2, 3]) ∧
    ¬ (fs [1, 2, 3]).hasIntersection (fs [4, 5, 6]) ∧ ¬ (fs [4, 5, 6]).hasIntersection (fs [1, 2, 3]) ∧
    ¬ (fs [1, 3, 5]).hasIntersection (fs [2, 4, 6]) ∧ ¬ (fs []).hasIntersection (fs []) := by decide

/-- `flagset_contains`. -/
example : (fs [1, 2, 3]).contains 1 ∧ (fs [1, 2, 3]).contains 2 ∧ (fs [1, 2, 3]).contains 3 ∧
    ¬ (fs [1, 2, 3]).contains 4 := by decide

/-- Cyrillic letters, for the next test. -/
def cyrillic : Unicode :=
  { latin with
    isUpper := fun c => 'А' ≤ c && c ≤ 'Я'
    isLower := fun c => 'а' ≤ c && c ≤ 'я' }

/-- `classify_casing_nuspell_unit_test`. -/
example : classifyCasing? cyrillic "".toList = some .none ∧ classifyCasing? cyrillic "здраво".toList = some .none ∧
    classifyCasing? cyrillic "Здраво".toList = some .init ∧ classifyCasing? cyrillic "ЗДРАВО".toList = some .all ∧
    classifyCasing? cyrillic "здРаВо".toList = some .camel ∧
    classifyCasing? cyrillic "ЗдрАво".toList = some .pascal := by decide +kernel

/-- `erase_chars_test`. -/
example : eraseChars "example".toList "aeiou".toList = "xmpl".toList := by decide

/-- `new_on_bad_dictionary`, and `bad_hint` (which only must not abort). -/
example : (load "\n        FLAG num\n        " "1\n        hello/world\n        ").isNone ∧
    (load "" "999999999999999\n").isSome := by decide +kernel

/-- The first part of `add_word` and `clone`, with a small dictionary. -/
example : ((load "SFX G Y 1\nSFX G 0 ing .\n" "2\nhello\nworld\n").any fun C =>
    (match C.dict.add latin "foobarbaz/G".toList with
      | .ok D =>
        let C' := { C with dict := D }
        (["foobarbaz", "foobarbazing"].all fun w =>
          (C.check 50 w.toList matches .ok false) && C'.check 50 w.toList matches .ok true)
      | .error _ => false)) := by decide +kernel

/-! ## `src/hash_bag.rs` -/

/-- Builds a bag. -/
def bag (l : List (String × Nat)) : Bag Nat := l.foldl (fun b p => b.insert p.1.toList p.2) Bag.empty

/-- `insert_and_get_duplicate_keys`, with texts as keys. -/
example : (bag [("1", 1), ("5", 5)]).len = 2 ∧ (bag [("1", 1), ("5", 5), ("1", 1), ("1", 2)]).len = 4 ∧
    ((bag [("1", 1), ("5", 5), ("1", 1), ("1", 2)]).get .default "1".toList).map (·.2) = [1, 1, 2] ∧
    ((bag [("1", 1), ("5", 5), ("1", 1), ("1", 2)]).get .default "5".toList).map (·.2) = [5] := by decide +kernel

/-- `iter`. -/
example : ((bag [("1", 1), ("1", 2), ("1", 3), ("3", 1)]).iter .default).map (·.2) = [1, 2, 3, 1] := by
  decide +kernel

/-- `mutate`. -/
example : (((bag [("1", 1), ("1", 2), ("1", 3), ("3", 1)]).updateAll .default "1".toList (· * 2)).iter
    .default).map (·.2) = [2, 4, 6, 1] := by decide +kernel

/-! ## `src/umbra_slice.rs` -/

/-- The bytes of a text. -/
def bytes (s : String) : List Nat := (utf8 s.toList).map UInt8.toNat

/-- `eq`, `partial_eq_str` and `clone`, for a short, a middle and a long text. -/
example : (["", "foo", "hello", "foobarbaz", "hellohellohello"].all fun s =>
    (Umbra.tryFrom 6 8 (bytes s)).any fun u => Umbra.asSlice 6 8 u == some (bytes s) && Umbra.eq 6 8 u u == some true &&
      (Umbra.clone 6 8 u).any fun v => Umbra.asSlice 6 8 v == some (bytes s)) := by decide +kernel

/-! ## `src/suggester/ngram.rs` -/

/-- `index_of_mismatch_test`. -/
example : indexOfMismatch "abcd".toList "abcd".toList = none ∧ indexOfMismatch "abcd".toList "abxy".toList = some 2 ∧
    indexOfMismatch "abcd".toList "abc".toList = some 3 ∧ indexOfMismatch "abc".toList "abcd".toList = none := by
  decide

/-- `nagrm_similarity_test`. -/
example : ngramSimilarity 3 "actually".toList "akchualy".toList = 11 := by decide +kernel

/-- `longest_common_subsequence_length_test`. -/
example : lcsLength "aaa".toList "aaa".toList = 3 ∧ lcsLength "aaaaa".toList "bbbaa".toList = 2 := by decide +kernel

/-- `count_eq_at_same_pos_test`. -/
example : countEqAtSamePos "abcd".toList "abcd".toList = (4, false) ∧
    countEqAtSamePos "abcd".toList "acbd".toList = (2, true) := by decide +kernel

end Spellbook.Tests
