import Verif.Proof.FlagSet
import Verif.Proof.Umbra
import Verif.Proof.HashBag
import Verif.Proof.Casing
import Verif.Proof.Condition
import Verif.Proof.AffixIndex
/-!
# Properties of the data structures: C12, C14–C18, C22
-/

namespace Spellbook.Props
open Spec

/-! ## C12 Word list is a multimap -/

/-- An operation on the model of the hash bag. -/
def bagStep {V : Type} (L : Layout) (b : Bag V) : BagOp V → Bag V
  | .insert k v => b.insert k v
  | .update k f => b.updateAll L k f

/-- A history of operations on the model of the hash bag. -/
def runBag {V : Type} (L : Layout) (ops : List (BagOp V)) : Bag V :=
  ops.foldl (bagStep L) Bag.empty

/-- For every hasher, probing order and history, a lookup yields exactly the key asked for with the
multiset of values of the abstract multimap. -/
theorem C12_wordlist_is_multimap {V : Type} (L : Layout) (ops : List (BagOp V)) (k : Str) :
    (∀ e ∈ (runBag L ops).get L k, e.1 = k) ∧
    (((runBag L ops).get L k).map Prod.snd : Multiset V)
      = ops.foldl (init := (fun _ => 0 : Multimap V)) BagOp.apply k := by
  refine ⟨fun e he => (Bag.mem_get.1 he).2, ?_⟩
  have hget : ∀ b : Bag V, ((b.get L k).map Prod.snd : Multiset V)
      = ((b.slots.filter fun e => e.1 == k).map Prod.snd : Multiset V) := by
    intro b
    exact Multiset.coe_eq_coe.2 ((Bag.get_perm L b k).map _)
  rw [hget]
  induction ops using List.reverseRecOn with
  | nil => rfl
  | append_singleton ops op ih =>
    simp only [runBag, List.foldl_append, List.foldl_cons, List.foldl_nil] at ih ⊢
    cases op with
    | insert k' v =>
      simp only [bagStep, Bag.insert, BagOp.apply, List.filter_append, List.map_append]
      by_cases h : k = k'
      · subst h
        simp only [↓reduceIte]
        rw [← ih]
        simp only [List.filter_cons, beq_self_eq_true, ↓reduceIte, List.filter_nil, List.map_cons,
          List.map_nil]
        rw [Multiset.cons_coe]
        exact Multiset.coe_eq_coe.2 List.perm_append_comm
      · have h' : (k' == k) = false := by simpa using fun e => h e.symm
        simp only [h, ↓reduceIte]
        rw [← ih]
        simp [List.filter_cons, h']
    | update k' f =>
      simp only [bagStep, BagOp.apply, Bag.updateAll_slots]
      by_cases h : k = k'
      · subst h
        simp only [↓reduceIte]
        rw [← ih, Multiset.map_coe]
        congr 1
        rw [List.map_map]
        generalize (List.foldl _ _ ops : Bag V).slots = l
        induction l with
        | nil => rfl
        | cons e l ihl =>
          by_cases he : e.1 = k
          · simp [List.filter_cons, Bag.upd, he] at ihl ⊢
            exact ihl
          · have he' : (e.1 == k) = false := by simpa using he
            simpa [List.filter_cons, Bag.upd, he, he'] using ihl
      · simp only [h, ↓reduceIte]
        rw [← ih]
        congr 1
        generalize (List.foldl _ _ ops : Bag V).slots = l
        induction l with
        | nil => rfl
        | cons e l ihl =>
          by_cases he : e.1 = k'
          · have hk : (k' == k) = false := by simpa using fun e => h e.symm
            have hk' : (e.1 == k) = false := by rw [he]; exact hk
            simpa [List.filter_cons, Bag.upd, he, hk, hk'] using ihl
          · by_cases hek : e.1 = k
            · simpa [List.filter_cons, Bag.upd, he, hek, h] using ihl
            · have hek' : (e.1 == k) = false := by simpa using hek
              simpa [List.filter_cons, Bag.upd, he, hek'] using ihl

/-- The number of entries only grows by insertions. -/
theorem C12_wordlist_length {V : Type} (L : Layout) (ops : List (BagOp V)) :
    (runBag L ops).len = (ops.filter fun op => match op with
      | .insert _ _ => true
      | .update _ _ => false).length := by
  induction ops using List.reverseRecOn with
  | nil => rfl
  | append_singleton ops op ih =>
    simp only [runBag, List.foldl_append, List.foldl_cons, List.foldl_nil, Bag.len] at ih ⊢
    cases op with
    | insert k v => simp [bagStep, Bag.insert, ih]
    | update k f => simp [bagStep, Bag.updateAll_slots, ih]

/-- Iterating over the whole list visits every entry once. -/
theorem C12_wordlist_iter {V : Type} (L : Layout) (b : Bag V) : (b.iter L).Perm b.slots :=
  Bag.iter_perm L b

/-- A history with colliding keys, duplicates and an update. -/
example : (runBag Layout.default [.insert ['a'] 1, .insert ['b'] 5, .insert ['a'] 1, .insert ['a'] 2,
    .update ['a'] (· * 2)]).get Layout.default ['a'] = [(['a'], 2), (['a'], 2), (['a'], 4)] := by
  decide +kernel

/-! ## C14 Flag sets behave as sets -/

/-- Membership in a set built from any list of flags. -/
theorem C14_contains (flags : List Nat) (f : Nat) :
    (FlagSet.ofList flags).contains f = true ↔ f ∈ flags := FlagSet.contains_ofList

/-- Intersection test. -/
theorem C14_hasIntersection (xs ys : List Nat) :
    (FlagSet.ofList xs).hasIntersection (FlagSet.ofList ys) = true ↔ ∃ f, f ∈ xs ∧ f ∈ ys := by
  rw [FlagSet.hasIntersection_iff]; simp [FlagSet.mem_ofList]

/-- Adding a flag. -/
theorem C14_withFlag (xs : List Nat) (f g : Nat) :
    ((FlagSet.ofList xs).withFlag f).contains g = true ↔ g = f ∨ g ∈ xs := by
  rw [FlagSet.contains_withFlag, FlagSet.contains_ofList]

/-- Two sets are equal iff they have the same flags, whatever order and multiplicity they were
built from. -/
theorem C14_ext (xs ys : List Nat) :
    FlagSet.ofList xs = FlagSet.ofList ys ↔ ∀ f, f ∈ xs ↔ f ∈ ys := by
  constructor
  · intro h f; rw [← C14_contains, h, C14_contains]
  · intro h
    apply FlagSet.ext
    intro f
    rw [Bool.eq_iff_iff, C14_contains, C14_contains, h]

/-- The same holds for every value of the type, not only those built by `From<Vec<Flag>>`. -/
theorem C14_hasIntersection_any (a b : FlagSet) :
    a.hasIntersection b = true ↔ ∃ f, a.contains f = true ∧ b.contains f = true := by
  rw [FlagSet.hasIntersection_iff]; simp [FlagSet.contains_iff]

/-- Neither the `assert!` nor the `unwrap` of `From<Vec<Flag>>` can fail: the sorted, deduplicated
flags always fit the compact slice (for both word sizes), and are stored faithfully. -/
theorem C14_never_too_long (flags : List Nat) (h : ∀ f ∈ flags, Flag.Valid f) (P S : Nat) :
    (FlagSet.ofList flags).elems.length ≤ 65535 ∧
    ∃ u, Umbra.tryFrom P S (FlagSet.ofList flags).elems = some u ∧
      Umbra.asSlice P S u = some (FlagSet.ofList flags).elems := by
  have hlen : (FlagSet.ofList flags).elems.length ≤ 65535 := by
    have := FlagSet.length_le_of_sorted (FlagSet.ofList flags).sorted (lo := 1) (n := 65535)
      (fun f hf => h f (FlagSet.mem_ofList.1 hf))
    omega
  exact ⟨hlen, Umbra.tryFrom_some hlen⟩

example : (FlagSet.ofList [3, 1, 2, 3, 9, 8, 7, 6, 5, 4]).contains 9 = true ∧
    (FlagSet.ofList [3, 1, 2, 3, 9, 8, 7, 6, 5, 4]).contains 10 = false ∧
    (FlagSet.ofList [3, 1, 2, 3, 9, 8, 7, 6, 5, 4]).elems.length = 9 := by decide

example : ∀ f ∈ [3, 1, 65535], Flag.Valid f := by decide

/-! ## C15 Compact storage is faithful -/

/-- Reading back what was stored. -/
theorem C15_roundtrip (P S : Nat) (s : List Nat) (h : s.length ≤ 65535) :
    ∃ u, Umbra.tryFrom P S s = some u ∧ Umbra.asSlice P S u = some s ∧
      Umbra.clone P S u = some u := by
  obtain ⟨u, h1, h2⟩ := Umbra.tryFrom_some (P := P) (S := S) h
  exact ⟨u, h1, h2, Umbra.clone_tryFrom h1⟩

/-- Equality of the stored forms is equality of the contents. -/
theorem C15_eq (P S : Nat) (a b : List Nat) (u v : Umbra) (hu : Umbra.tryFrom P S a = some u)
    (hv : Umbra.tryFrom P S b = some v) : Umbra.eq P S u v = some (decide (a = b)) := by
  rw [Umbra.eq_tryFrom hu hv, Bool.beq_eq_decide_eq]

/-- Only longer input is refused. -/
theorem C15_too_long (P S : Nat) (s : List Nat) :
    Umbra.tryFrom P S s = none ↔ 65535 < s.length := Umbra.tryFrom_none

example : ((Umbra.tryFrom 3 4 [1, 2, 3, 4, 5, 6, 7]).bind (Umbra.asSlice 3 4)) = some [1, 2, 3, 4, 5, 6, 7] ∧
    ((Umbra.tryFrom 3 4 [1, 2, 3, 4, 5, 6, 7, 8]).bind (Umbra.asSlice 3 4))
      = some [1, 2, 3, 4, 5, 6, 7, 8] := by decide

/-! ## C16 Affix table lookup is exact -/

/-- Looking up prefixes: for every sorted arrangement of the table (the order of affixes with equal
text is the sorting algorithm's choice), the result is the sublist of the affixes whose added text
the word starts with; in particular nothing panics. -/
theorem C16_prefixes_of (idx : AffixIndex .pfx) (word : Str) :
    ∃ found, idx.affixesOf? word = some found ∧ found.Sublist idx.table ∧
      (∀ a ∈ idx.table, a ∈ found ↔ a.add <+: word) ∧
      ∀ a, found.count a = if a.add <+: word then idx.table.count a else 0 := by
  refine ⟨_, AffixIndex.affixesOf?_eq idx word, List.filter_sublist, ?_, ?_⟩
  · intro a ha
    simp [List.mem_filter, ha, Affix.addMatches, List.isPrefixOf_iff_prefix]
  · intro a
    split
    · rename_i h
      rw [List.count_filter]
      simpa [Affix.addMatches, List.isPrefixOf_iff_prefix] using h
    · rename_i h
      rw [List.count_eq_zero]
      simp only [List.mem_filter, Affix.addMatches, List.isPrefixOf_iff_prefix, not_and]
      exact fun _ => h

/-- Looking up suffixes. -/
theorem C16_suffixes_of (idx : AffixIndex .sfx) (word : Str) :
    ∃ found, idx.affixesOf? word = some found ∧ found.Sublist idx.table ∧
      (∀ a ∈ idx.table, a ∈ found ↔ a.add <:+ word) ∧
      ∀ a, found.count a = if a.add <:+ word then idx.table.count a else 0 := by
  refine ⟨_, AffixIndex.affixesOf?_eq idx word, List.filter_sublist, ?_, ?_⟩
  · intro a ha
    simp [List.mem_filter, ha, Affix.addMatches, List.isSuffixOf_iff_suffix]
  · intro a
    split
    · rename_i h
      rw [List.count_filter]
      simpa [Affix.addMatches, List.isSuffixOf_iff_suffix] using h
    · rename_i h
      rw [List.count_eq_zero]
      simp only [List.mem_filter, Affix.addMatches, List.isSuffixOf_iff_suffix, not_and]
      exact fun _ => h

/-- Every list of affixes has such an index, holding exactly those affixes. -/
theorem C16_index_of_any_list (k : Kind) (l : List Affix) : (AffixIndex.ofList k l).table.Perm l :=
  sortAffixes_perm k l

/-- A plain affix, for examples. -/
def mkAffix (flag : Nat) (strip add : String) (condition : Option Condition := none)
    (flags : List Nat := []) (crossproduct : Bool := true) : Affix :=
  { flag, crossproduct, strip := if strip = "" then none else some strip.toList, add := add.toList,
    condition, flags := FlagSet.ofList flags }

/-- The example of the documentation of `AffixIndex` ("aced"), and a two-byte letter which shares
its last byte with another. -/
example : (((AffixIndex.ofList .sfx [mkAffix 1 "" "d", mkAffix 2 "y" "ied", mkAffix 3 "" "ed",
    mkAffix 4 "" ""]).affixesOf? "aced".toList).map fun l => l.map Affix.flag) = some [4, 1, 3] := by
  decide +kernel

example : utf8 "é".toList = [0xc3, 0xa9] ∧ utf8 "ũ".toList = [0xc5, 0xa9] ∧
    (((AffixIndex.ofList .sfx [mkAffix 1 "" "é", mkAffix 2 "" "ũ"]).affixesOf? "caũ".toList).map
      fun l => l.map Affix.flag) = some [2] := by
  decide +kernel

/-! ## C17 Affix conditions are regular expressions -/

/-- The parser accepts exactly the well formed conditions. -/
theorem C17_parse_accepts (s : Str) :
    (∃ c, Condition.parse s = .ok c) ↔ ∃ es, IsCondition s es := by
  constructor
  · rintro ⟨c, h⟩
    obtain ⟨es, hes, _⟩ := Condition.parse_ok_iff.1 h
    exact ⟨es, hes⟩
  · rintro ⟨es, hes⟩
    exact ⟨_, Condition.parse_ok_iff.2 ⟨es, hes, rfl⟩⟩

/-- A prefix made by `Affix::new` with a condition text applies to a word iff the elements of the
condition match the first characters of the word. -/
theorem C17_prefix_condition {flag : Nat} {cross : Bool} {strip : Option Str} {add s : Str}
    {flags : FlagSet} {a : Affix} (ha : Affix.new flag cross strip add (some s) flags = .ok a)
    {es : List CondElem} (hes : IsCondition s es) (w : Str) :
    a.conditionMatches .pfx w = true ↔ MatchesStart es w := by
  cases hp : Condition.parse s with
  | error e => simp [Affix.new, hp, Functor.map, Except.map, bind, Except.bind] at ha
  | ok c =>
    simp only [Affix.new, hp, Functor.map, Except.map, bind, Except.bind, pure, Except.pure,
      Except.ok.injEq] at ha
    exact Affix.prefixConditionMatches_iff hp (by rw [← ha]) hes

/-- Likewise for suffixes and the last characters. -/
theorem C17_suffix_condition {flag : Nat} {cross : Bool} {strip : Option Str} {add s : Str}
    {flags : FlagSet} {a : Affix} (ha : Affix.new flag cross strip add (some s) flags = .ok a)
    {es : List CondElem} (hes : IsCondition s es) (w : Str) :
    a.conditionMatches .sfx w = true ↔ MatchesEnd es w := by
  cases hp : Condition.parse s with
  | error e => simp [Affix.new, hp, Functor.map, Except.map, bind, Except.bind] at ha
  | ok c =>
    simp only [Affix.new, hp, Functor.map, Except.map, bind, Except.bind, pure, Except.pure,
      Except.ok.injEq] at ha
    exact Affix.suffixConditionMatches_iff hp (by rw [← ha]) hes

/-- An affix without a condition applies to every word. -/
theorem C17_no_condition {flag : Nat} {cross : Bool} {strip : Option Str} {add : Str}
    {flags : FlagSet} {a : Affix} (ha : Affix.new flag cross strip add none flags = .ok a)
    (k : Kind) (w : Str) : a.conditionMatches k w = true := by
  simp only [Affix.new, bind, Except.bind, pure, Except.pure, Except.ok.injEq] at ha
  subst ha
  cases k <;> rfl

/-- `[^aeiou]y` with `.` and a literal: a condition in the sense of the specification. -/
example : IsCondition "[^aeiou]y.".toList [.noneOf "aeiou".toList, .lit 'y', .any] := by
  constructor
  · intro e he
    simp only [List.mem_cons, List.not_mem_nil, or_false] at he
    rcases he with rfl | rfl | rfl
    · exact ⟨by decide, by decide⟩
    · exact ⟨by decide, by decide, by decide⟩
    · trivial
  · decide

example : (Condition.parse "[^aeiou]y".toList).toOption.map (fun c => (c.chars, c.isLiteral))
    = some (2, false) := by decide +kernel
example : Condition.parse "a[]".toList = .error .emptyCharacterClass := by decide +kernel
example : Condition.parse "a]".toList = .error .unopenedCharacterClass := by decide +kernel
example : Condition.parse "[^".toList = .error .unclosedCharacterClass := by decide +kernel

/-! ## C18 Applying and removing an affix are inverse -/

/-- Removing a prefix from a derived word gives back the stem. -/
theorem C18_prefix_stem_of_derived (a : Affix) (stem word : Str)
    (h : a.toDerived .pfx stem = some word) : a.toStem .pfx word = stem :=
  Affix.toStem_of_applies (Affix.toDerived_iff.1 h)

/-- Removing a suffix from a derived word gives back the stem. -/
theorem C18_suffix_stem_of_derived (a : Affix) (stem word : Str)
    (h : a.toDerived .sfx stem = some word) : a.toStem .sfx word = stem :=
  Affix.toStem_of_applies (Affix.toDerived_iff.1 h)

/-- Applying a prefix to the stem of a word which starts with the added text gives back the word
(no panic). -/
theorem C18_prefix_derived_of_stem (a : Affix) (word : Str) (h : a.add <+: word) :
    a.toDerived .pfx (a.toStem .pfx word) = some word :=
  Affix.toDerived_iff.2 (Affix.applies_toStem (by simpa [Affix.addMatches, List.isPrefixOf_iff_prefix] using h))

/-- Applying a suffix to the stem of a word which ends with the added text gives back the word. -/
theorem C18_suffix_derived_of_stem (a : Affix) (word : Str) (h : a.add <:+ word) :
    a.toDerived .sfx (a.toStem .sfx word) = some word :=
  Affix.toDerived_iff.2 (Affix.applies_toStem (by simpa [Affix.addMatches, List.isSuffixOf_iff_suffix] using h))

/-- What applying means: a prefix replaces `strip` by `add` at the start, and panics exactly on
stems that do not start with `strip`. -/
theorem C18_prefix_derived (a : Affix) (stem word : Str) :
    a.toDerived .pfx stem = some word ↔ PrefixApplies (a.strip.getD []) a.add stem word :=
  Affix.toDerived_iff

/-- A suffix replaces `strip` by `add` at the end. -/
theorem C18_suffix_derived (a : Affix) (stem word : Str) :
    a.toDerived .sfx stem = some word ↔ SuffixApplies (a.strip.getD []) a.add stem word :=
  Affix.toDerived_iff

/-- Both paths of the scratch buffer give the concatenation, whatever the buffer held before. -/
theorem C18_scratch_buffer (inline a b : List UInt8) (h : inline.length = 64) :
    Affix.stemConcat inline a b = some (a ++ b) := Affix.stemConcat_eq h

/-- The bytes written are the UTF-8 encoding of the concatenated text, so `from_utf8_unchecked`
is sound. -/
theorem C18_scratch_buffer_utf8 (inline : List UInt8) (h : inline.length = 64) (a b : Str) :
    Affix.stemConcat inline (utf8 a) (utf8 b) = some (utf8 (a ++ b)) := by
  rw [Affix.stemConcat_eq h, utf8_append]

example : (mkAffix 1 "y" "ied").toDerived .sfx "carry".toList = some "carried".toList ∧
    (mkAffix 1 "y" "ied").toStem .sfx "carried".toList = "carry".toList := by decide

/-- The `debug_assert!` in `StemBuf::concat` does not follow from the word length limit: a rule
with a long strip text makes a stem of more than 360 bytes from a short word (a panic in debug
builds only). -/
theorem stemBuf_debug_assert_can_fail :
    ∃ (a : Affix) (word : Str), byteLen word ≤ 360 ∧ a.add <:+ word ∧
      360 < byteLen (a.toStem .sfx word) := by
  refine ⟨mkAffix 1 (String.ofList (List.replicate 361 'x')) "a", ['b', 'a'], by decide, by decide, ?_⟩
  decide +kernel

/-! ## C22 Casing classification -/

/-- The classifier never fails and returns the class the word belongs to; the classes exclude each
other and cover all words. -/
theorem C22_casing (U : Unicode) (w : Str) :
    ∃ c, classifyCasing? U w = some c ∧ HasCasing U w c ∧ ∀ c', HasCasing U w c' → c' = c := by
  refine ⟨classifyCasing U w, classifyCasing?_eq U w, classifyCasing_iff.1 rfl, ?_⟩
  intro c' h
  exact (classifyCasing_iff.2 h).symm

example : classifyCasing? Unicode.sample "OpenOffice".toList = some .pascal ∧
    classifyCasing? Unicode.sample "openOffice".toList = some .camel ∧
    classifyCasing? Unicode.sample "NASA".toList = some .all ∧
    classifyCasing? Unicode.sample "Word".toList = some .init ∧
    classifyCasing? Unicode.sample "X".toList = some .init ∧
    classifyCasing? Unicode.sample "x-2".toList = some .none := by decide

end Spellbook.Props
