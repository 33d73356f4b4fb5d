import Verif.Model.Debug
import Verif.Proof.CheckBytes
import Verif.Proof.Simple
/-!
# Debug builds and release builds

A debug build does what a release build does, or an assertion among `A` fails.
-/

namespace Spellbook.Debug

variable {α β : Type} {A : Assertion → Prop}

/-- The debug build has the outcome of the release build, or an assertion among `A` failed. -/
def Agrees (A : Assertion → Prop) (x : Dbg α) (y : Run α) : Prop :=
  x = lift y ∨ ∃ a, A a ∧ x = .error (.assertion a)

namespace Agrees

theorem lift (y : Run α) : Agrees A (lift y) y := .inl rfl

theorem ok (a : α) : Agrees A (.ok a) (.ok a) := .inl rfl

theorem pure (a : α) : Agrees A (Pure.pure a) (Pure.pure a) := .inl rfl

theorem of_eq {x : Dbg α} {y : Run α} (h : x = Debug.lift y) : Agrees A x y := .inl h

theorem fails {a : Assertion} (h : A a) (y : Run α) : Agrees A (.error (.assertion a)) y :=
  .inr ⟨a, h, rfl⟩

theorem bind {x : Dbg α} {y : Run α} {f : α → Dbg β} {g : α → Run β} (h : Agrees A x y)
    (hf : ∀ a, y = .ok a → Agrees A (f a) (g a)) : Agrees A (x >>= f) (y >>= g) := by
  rcases h with rfl | ⟨a, ha, rfl⟩
  · cases y with
    | ok a => exact hf a rfl
    | error s => exact .inl rfl
  · exact .inr ⟨a, ha, rfl⟩

/-- The left hand side does a step which has a value. -/
theorem step {x : Dbg α} {a : α} {f : α → Dbg β} {y : Run β} (h : Agrees A x (.ok a))
    (hf : Agrees A (f a) y) : Agrees A (x >>= f) y := by
  rcases h with rfl | ⟨a, ha, rfl⟩
  · exact hf
  · exact .inr ⟨a, ha, rfl⟩

theorem map {x : Dbg α} {y : Run α} (f : α → β) (h : Agrees A x y) : Agrees A (x.map f) (y.map f) := by
  rcases h with rfl | ⟨a, ha, rfl⟩
  · cases y <;> exact .inl rfl
  · exact .inr ⟨a, ha, rfl⟩

theorem or {a : Dbg (Option β)} {b : Run (Option β)} {c : Dbg (Option β)} {d : Run (Option β)}
    (h : Agrees A a b) (h' : Agrees A c d) : Agrees A (Debug.or a c) (b.or d) := by
  rcases h with rfl | ⟨a, ha, rfl⟩
  · cases b with
    | ok r =>
      cases r with
      | none => exact h'
      | some r => exact .inl rfl
    | error s => exact .inl rfl
  · exact .inr ⟨a, ha, rfl⟩

theorem or_ok {a : Dbg (Option β)} {b : Option β} {c : Dbg (Option β)} {d : Option β}
    (h : Agrees A a (.ok b)) (h' : Agrees A c (.ok d)) : Agrees A (Debug.or a c) (.ok (b.or d)) := by
  have := h.or h'
  cases b <;> exact this

theorem first {f : α → Dbg (Option β)} {g : α → Run (Option β)} :
    ∀ {l : List α}, (∀ a ∈ l, Agrees A (f a) (g a)) → Agrees A (Debug.first f l) (Run.first g l)
  | [], _ => .inl rfl
  | a :: l, h => (h a List.mem_cons_self).or (first fun b hb => h b (List.mem_cons_of_mem _ hb))

theorem first_ok {f : α → Dbg (Option β)} {g : α → Option β} :
    ∀ {l : List α}, (∀ a ∈ l, Agrees A (f a) (.ok (g a))) → Agrees A (Debug.first f l) (.ok (l.findSome? g))
  | [], _ => .inl rfl
  | a :: l, h => by
    have := (h a List.mem_cons_self).or_ok (first_ok fun b hb => h b (List.mem_cons_of_mem _ hb))
    rw [List.findSome?_cons]
    cases hg : g a <;> (rw [hg] at this; exact this)

theorem any {f : α → Dbg Bool} {g : α → Run Bool} :
    ∀ {l : List α}, (∀ a ∈ l, Agrees A (f a) (g a)) → Agrees A (Debug.any f l) (Checker.anyRun g l)
  | [], _ => .inl rfl
  | a :: l, h => (h a List.mem_cons_self).bind fun b _ => by
    cases b
    · exact any fun b hb => h b (List.mem_cons_of_mem _ hb)
    · exact .inl rfl

theorem mono {B : Assertion → Prop} (hAB : ∀ a, A a → B a) {x : Dbg α} {y : Run α} (h : Agrees A x y) :
    Agrees B x y := by
  rcases h with h | ⟨a, ha, h⟩
  · exact .inl h
  · exact .inr ⟨a, hAB a ha, h⟩

theorem never {x : Dbg α} {y : Run α} (h : Agrees (fun _ => False) x y) : x = Debug.lift y := by
  rcases h with h | ⟨_, h, _⟩
  · exact h
  · exact h.elim

end Agrees

theorem assert_agrees {a : Assertion} {b : Bool} (h : A a ∨ b = true) : Agrees A (assert a b) (.ok ()) := by
  cases b
  · exact .fails (h.resolve_right (by simp)) _
  · exact .inl rfl

theorem assert_true (a : Assertion) : assert a true = .ok () := rfl

theorem sub_eq {a b : Nat} (h : b ≤ a) : sub a b = .ok (a - b) := if_pos h

theorem dbg_ok_bind (a : α) (f : α → Dbg β) : (Except.ok a >>= f) = f a := rfl

theorem lift_ok (a : α) : lift (.ok a : Run α) = .ok a := rfl

/-! ## Affixes -/

theorem byteLen_of_suffix {p w : Str} (h : p <:+ w) : byteLen p ≤ byteLen w := by
  obtain ⟨t, rfl⟩ := h
  rw [byteLen_append]; omega

theorem byteLen_of_prefix {p w : Str} (h : p <+: w) : byteLen p ≤ byteLen w := by
  obtain ⟨t, rfl⟩ := h
  rw [byteLen_append]; omega

theorem toStem_agrees {C : Checker} {k : Kind} {a : Affix} {w : Str} (ha : a ∈ C.affixesOf k w)
    (h : A .stemLength ∨ a.strip = none ∨ byteLen (a.toStem k w) ≤ maxWordLen) :
    Agrees A (toStem k a w) (.ok (a.toStem k w)) := by
  have hw := (Checker.mem_affixesOf.1 ha).2
  unfold toStem
  cases k with
  | pfx =>
    obtain ⟨rest, rfl⟩ : a.add <+: w := by simpa [Affix.addMatches] using hw
    have hs : startsWith (a.add ++ rest) a.add = true := by simp [startsWith]
    have hd : sliceFrom? (a.add ++ rest) (byteLen a.add) = some rest := by
      have := Bytes.sliceFrom?_pos (a.add ++ rest) a.add.length
      simpa [Bytes.pos] using this
    simp only [hs, assert_true, dbg_ok_bind, hd, Bytes.need, lift_ok]
    simp only [Affix.toStem, List.drop_left] at h ⊢
    cases hst : a.strip with
    | none => exact .inl rfl
    | some s =>
      simp only [hst, Option.getD_some, reduceCtorEq, false_or, byteLen_append] at h ⊢
      refine (assert_agrees ?_).step (.inl rfl)
      simpa using h
  | sfx =>
    obtain ⟨rest, rfl⟩ : a.add <:+ w := by simpa [Affix.addMatches] using hw
    have hs : endsWith (rest ++ a.add) a.add = true := by simp [endsWith]
    have hd : sliceTo? (rest ++ a.add) (byteLen rest) = some rest := by
      have := Bytes.sliceTo?_pos (rest ++ a.add) rest.length
      simpa [Bytes.pos] using this
    have hl : byteLen (rest ++ a.add) - byteLen a.add = byteLen rest := by
      rw [byteLen_append]; omega
    rw [hs, assert_true]
    simp only [dbg_ok_bind]
    rw [sub_eq (by rw [byteLen_append]; omega), hl]
    simp only [dbg_ok_bind]
    rw [hd]
    simp only [Bytes.need, lift_ok, dbg_ok_bind]
    have ht : (rest ++ a.add).take ((rest ++ a.add).length - a.add.length) = rest := by simp
    simp only [Affix.toStem, ht] at h ⊢
    cases hst : a.strip with
    | none => simp; exact .inl rfl
    | some s =>
      simp only [hst, Option.getD_some, reduceCtorEq, false_or, byteLen_append] at h ⊢
      refine (assert_agrees ?_).step (.inl rfl)
      simpa using h

theorem lastChars_eq {len : Nat} : ∀ {l : List (Nat × Char)} (acc : Nat × Nat), (∀ p ∈ l, p.1 ≤ len) →
    lastChars len l acc = .ok (l.foldl (fun (chars, _) (b, _) => (chars + 1, len - b)) acc)
  | [], _, _ => rfl
  | (b, c) :: l, (n, m), h => by
    unfold lastChars
    rw [sub_eq (h (b, c) List.mem_cons_self)]
    exact lastChars_eq _ fun p hp => h p (List.mem_cons_of_mem _ hp)

theorem charIndices_le (w : Str) : ∀ n, ∀ p ∈ charIndices n w, p.1 ≤ n + byteLen w := by
  induction w with
  | nil => intro n p hp; cases hp
  | cons c w ih =>
    intro n p hp
    simp only [charIndices, List.mem_cons] at hp
    rcases hp with rfl | hp
    · simp
    · have := ih _ p hp
      rw [byteLen_cons]; omega

theorem foldl_le {len : Nat} : ∀ {l : List (Nat × Char)} (acc : Nat × Nat), acc.2 ≤ len →
    (l.foldl (fun (chars, _) (b, _) => (chars + 1, len - b)) acc).2 ≤ len
  | [], _, h => h
  | (b, _) :: _, (n, _), _ => foldl_le (n + 1, len - b) (Nat.sub_le _ _)

theorem suffixConditionMatches_eq (a : Affix) (w : Str) :
    suffixConditionMatches a w = .ok (a.suffixConditionMatches w) := by
  have h := Bytes.suffixConditionMatches_eq a w
  unfold suffixConditionMatches
  unfold Bytes.suffixConditionMatches at h
  cases hc : a.condition with
  | none => rw [hc] at h; simp only at h ⊢; rw [← lift_ok, ← h]; rfl
  | some c =>
    rw [hc] at h
    simp only at h ⊢
    split
    · rename_i h1; rw [if_pos h1] at h; rw [← lift_ok, ← h]; rfl
    · rename_i h1
      rw [if_neg h1] at h
      split
      · rename_i h2; rw [if_pos h2] at h; rw [← lift_ok, ← h]; rfl
      · rename_i h2
        rw [if_neg h2] at h
        rw [lastChars_eq _ (fun p hp => by
          have := charIndices_le w 0 p (List.mem_reverse.1 (List.mem_of_mem_take hp))
          omega)]
        have hle := foldl_le (len := byteLen w) (l := (charIndices 0 w).reverse.take c.chars) (0, 0)
          (Nat.zero_le _)
        revert h hle
        generalize List.foldl _ _ _ = r
        obtain ⟨chars, bytes⟩ := r
        intro h hle
        simp only [dbg_ok_bind]
        split
        · rename_i h3; rw [if_pos h3] at h; rw [← lift_ok, ← h]; rfl
        · rename_i h3
          rw [if_neg h3] at h
          rw [sub_eq hle]
          simp only [dbg_ok_bind]
          rw [← lift_ok (α := Bool), ← h]
          cases sliceFrom? w (byteLen w - bytes) <;> rfl

theorem conditionMatches_eq (k : Kind) (a : Affix) (w : Str) :
    conditionMatches k a w = .ok (a.conditionMatches k w) := by
  cases k
  · rfl
  · exact suffixConditionMatches_eq a w

/-! ## Simple words -/

/-- Undoing up to `n` affixes of a text leaves texts of at most 360 bytes, or the assertion about that
may fail. -/
def Tame (C : Checker) (A : Assertion → Prop) : Nat → Str → Prop
  | 0, _ => True
  | n + 1, w => ∀ k a, a ∈ C.affixesOf k w →
    (A .stemLength ∨ a.strip = none ∨ byteLen (a.toStem k w) ≤ maxWordLen) ∧ Tame C A n (a.toStem k w)

theorem Tame.pred {C : Checker} : ∀ {n : Nat} {w : Str}, Tame C A (n + 1) w → Tame C A n w
  | 0, _, _ => trivial
  | _ + 1, _, h => fun k a ha => ⟨(h k a ha).1, (h k a ha).2.pred⟩

variable {C : Checker}

/-- The stem, and the test of the condition. -/
theorem stem_agrees {k : Kind} {a : Affix} {w : Str} {n : Nat} (ht : Tame C A (n + 1) w)
    (ha : a ∈ C.affixesOf k w) (x : Str → Str) {f : Str → Dbg (Option β)} {g : Option β}
    (hf : Tame C A n (a.toStem k w) → Agrees A (f (a.toStem k w)) (.ok g)) :
    Agrees A (do
      let stem ← toStem k a w
      if !(← conditionMatches k a (x stem)) then pure none else f stem)
      (.ok (if !a.conditionMatches k (x (a.toStem k w)) then none else g)) := by
  refine (toStem_agrees ha (ht k a ha).1).step ?_
  rw [conditionMatches_eq, dbg_ok_bind]
  split
  · exact .inl rfl
  · exact hf (ht k a ha).2

/-- A test which both builds do. -/
theorem test {c : Bool} {x : Dbg (Option β)} {y : Option β} (h : c = false → Agrees A x (.ok y)) :
    Agrees A (if c then pure none else x) (.ok (if c then none else y)) := by
  cases c
  · exact h rfl
  · exact .inl rfl

theorem onlyAffix_agrees {k : Kind} {m : Mode} {w : Str} {hh : HiddenHomonym} {a : Affix}
    (ht : Tame C A 1 w) (ha : a ∈ C.affixesOf k w) :
    Agrees A (onlyAffix C k m w hh a) (.ok (C.onlyAffix k m w hh a)) :=
  test fun _ => test fun _ => test fun _ => stem_agrees ht ha id fun _ => .inl rfl

theorem stripOnly_agrees (k : Kind) (m : Mode) {w : Str} (hh : HiddenHomonym) (ht : Tame C A 1 w) :
    Agrees A (stripOnly C k m w hh) (.ok (C.stripOnly k m w hh)) :=
  .first_ok fun _ ha => onlyAffix_agrees ht ha

theorem commSuffix_agrees {m : Mode} {w : Str} {hh : HiddenHomonym} {pre suf : Affix}
    (ht : Tame C A 1 w) (ha : suf ∈ C.affixesOf .sfx w) :
    Agrees A (commSuffix C m w hh pre suf) (.ok (C.commSuffix m w hh pre suf)) :=
  test fun _ => test fun _ => test fun _ => test fun _ => stem_agrees ht ha id fun _ => .inl rfl

theorem commPrefix_agrees {m : Mode} {w : Str} {hh : HiddenHomonym} {pre : Affix}
    (ht : Tame C A 2 w) (ha : pre ∈ C.affixesOf .pfx w) :
    Agrees A (commPrefix C m w hh pre) (.ok (C.commPrefix m w hh pre)) :=
  test fun _ => test fun _ => stem_agrees ht ha id fun ht' => .first_ok fun _ hs => commSuffix_agrees ht' hs

theorem stripComm_agrees (m : Mode) {w : Str} (hh : HiddenHomonym) (ht : Tame C A 2 w) :
    Agrees A (stripComm C m w hh) (.ok (C.stripComm m w hh)) :=
  .first_ok fun _ ha => commPrefix_agrees ht ha

theorem twoInner_agrees {k : Kind} {w : Str} {hh : HiddenHomonym} {outer inner : Affix}
    (ht : Tame C A 1 w) (ha : inner ∈ C.affixesOf k w) :
    Agrees A (twoInner C k w hh outer inner) (.ok (C.twoInner k w hh outer inner)) :=
  test fun _ => test fun _ => test fun _ => stem_agrees ht ha id fun _ => .inl rfl

theorem twoOuter_agrees {k : Kind} {w : Str} {hh : HiddenHomonym} {outer : Affix}
    (ht : Tame C A 2 w) (ha : outer ∈ C.affixesOf k w) :
    Agrees A (twoOuter C k w hh outer) (.ok (C.twoOuter k w hh outer)) :=
  test fun _ => test fun _ => test fun _ => stem_agrees ht ha id fun ht' =>
    .first_ok fun _ hs => twoInner_agrees ht' hs

theorem stripTwo_agrees (k : Kind) {w : Str} (hh : HiddenHomonym) (ht : Tame C A 2 w) :
    Agrees A (stripTwo C k w hh) (.ok (C.stripTwo k w hh)) :=
  test fun _ => .first_ok fun _ ha => twoOuter_agrees ht ha

theorem oneTwoInner_agrees {k : Kind} {w : Str} {hh : HiddenHomonym} {one outer inner : Affix}
    (ht : Tame C A 1 w) (ha : inner ∈ C.affixesOf k.other w) :
    Agrees A (oneTwoInner C k w hh one outer inner) (.ok (C.oneTwoInner k w hh one outer inner)) :=
  test fun _ => test fun _ => test fun _ => stem_agrees ht ha id fun _ => .inl rfl

theorem oneTwoOuter_agrees {k : Kind} {w : Str} {hh : HiddenHomonym} {one outer : Affix}
    (ht : Tame C A 2 w) (ha : outer ∈ C.affixesOf k.other w) :
    Agrees A (oneTwoOuter C k w hh one outer) (.ok (C.oneTwoOuter k w hh one outer)) :=
  test fun _ => test fun _ => test fun _ => test fun _ => stem_agrees ht ha id fun ht' =>
    .first_ok fun _ hs => oneTwoInner_agrees ht' hs

theorem oneTwoFirst_agrees {k : Kind} {w : Str} {hh : HiddenHomonym} {one : Affix}
    (ht : Tame C A 3 w) (ha : one ∈ C.affixesOf k w) :
    Agrees A (oneTwoFirst C k w hh one) (.ok (C.oneTwoFirst k w hh one)) :=
  test fun _ => test fun _ => stem_agrees ht ha id fun ht' =>
    .first_ok fun _ hs => oneTwoOuter_agrees ht' hs

theorem stripOneTwo_agrees (k : Kind) {w : Str} (hh : HiddenHomonym) (ht : Tame C A 3 w) :
    Agrees A (stripOneTwo C k w hh) (.ok (C.stripOneTwo k w hh)) :=
  test fun _ => .first_ok fun _ ha => oneTwoFirst_agrees ht ha

theorem sandwichInner_agrees {k : Kind} {w : Str} {hh : HiddenHomonym} {outer mid inner : Affix}
    (ht : Tame C A 1 w) (ha : inner ∈ C.affixesOf k w) :
    Agrees A (sandwichInner C k w hh outer mid inner) (.ok (C.sandwichInner k w hh outer mid inner)) :=
  test fun _ => test fun _ => test fun _ => test fun _ => stem_agrees ht ha id fun _ => .inl rfl

theorem sandwichMid_agrees {k : Kind} {w : Str} {hh : HiddenHomonym} {outer mid : Affix}
    (ht : Tame C A 2 w) (ha : mid ∈ C.affixesOf k.other w) :
    Agrees A (sandwichMid C k w hh outer mid) (.ok (C.sandwichMid k w hh outer mid)) :=
  test fun _ => test fun _ => stem_agrees ht ha (fun _ => w) fun ht' =>
    .first_ok fun _ hs => sandwichInner_agrees ht' hs

theorem sandwichOuter_agrees {k : Kind} {w : Str} {hh : HiddenHomonym} {outer : Affix}
    (ht : Tame C A 3 w) (ha : outer ∈ C.affixesOf k w) :
    Agrees A (sandwichOuter C k w hh outer) (.ok (C.sandwichOuter k w hh outer)) :=
  test fun _ => test fun _ => test fun _ => stem_agrees ht ha id fun ht' =>
    .first_ok fun _ hs => sandwichMid_agrees ht' hs

theorem stripSandwich_agrees (k : Kind) {w : Str} (hh : HiddenHomonym) (ht : Tame C A 3 w) :
    Agrees A (stripSandwich C k w hh) (.ok (C.stripSandwich k w hh)) :=
  test fun _ => .first_ok fun _ ha => sandwichOuter_agrees ht ha

theorem flagsOf_agrees {x : Dbg (Option AffixForm)} {y : Option AffixForm} (h : Agrees A x (.ok y)) :
    Agrees A (flagsOf x) (.ok (y.map (·.flags))) := h.map _

theorem checkSimpleWord_agrees {w : Str} (hh : HiddenHomonym) (ht : Tame C A 3 w) :
    Agrees A (checkSimpleWord C w hh) (.ok (C.checkSimpleWord w hh)) := by
  unfold checkSimpleWord Checker.checkSimpleWord
  refine (Agrees.pure _).or_ok <| (flagsOf_agrees (stripOnly_agrees _ _ _ ht.pred.pred)).or_ok <|
    (flagsOf_agrees (stripOnly_agrees _ _ _ ht.pred.pred)).or_ok <|
    (flagsOf_agrees (stripComm_agrees _ _ ht.pred)).or_ok ?_
  split <;>
  exact (flagsOf_agrees (stripTwo_agrees _ _ ht.pred)).or_ok <|
    (flagsOf_agrees (stripOneTwo_agrees _ _ ht)).or_ok (flagsOf_agrees (stripSandwich_agrees _ _ ht))

/-! ## Parts of compounds -/

/-- `A` contains the assertions which the dictionary may violate. -/
structure Allows (C : Checker) (A : Assertion → Prop) : Prop where
  stem : ∀ k, ∀ a ∈ Spec.tableOf C.dict k, a.strip ≠ none → A .stemLength
  sum : C.aff.compoundSyllableVowels ≠ [] → A .syllableSum
  modifier : C.aff.compoundSyllableVowels ≠ [] → A .syllableModifier

theorem Allows.tame (h : Allows C A) : ∀ (n : Nat) (w : Str), Tame C A n w
  | 0, _ => trivial
  | n + 1, w => fun k a ha => by
    refine ⟨?_, h.tame n _⟩
    by_cases hs : a.strip = none
    · exact .inr (.inl hs)
    · exact .inl (h.stem k a (Checker.mem_affixesOf.1 ha).1 hs)

theorem wrap16_of {n : Int} (h : -32768 ≤ n ∧ n ≤ 32767) : Checker.wrap16 n = n := by
  unfold Checker.wrap16
  rw [Int.bmod_eq_of_le] <;> omega

theorem i16_agrees (h : A .syllableModifier) (n : Int) : Agrees A (i16 n) (.ok (Checker.wrap16 n)) := by
  unfold i16
  split
  · rename_i hn; rw [wrap16_of hn]; exact .inl rfl
  · exact .fails h _

theorem syllableModifierWithSuffix_agrees (hA : Allows C A) (m : Mode) (flags : FlagSet) (suffix : Affix) :
    Agrees A (syllableModifierWithSuffix C m flags suffix)
      (.ok (C.syllableModifierWithSuffix m flags suffix)) := by
  unfold syllableModifierWithSuffix Checker.syllableModifierWithSuffix
  split
  · exact .inl rfl
  · rename_i hv
    have h : A .syllableModifier := hA.modifier fun h => hv (by simp [h])
    refine (i16_agrees h _).step ((i16_agrees h _).step ?_)
    split
    · split
      · exact i16_agrees h _
      · split
        · exact i16_agrees h _
        · split
          · exact i16_agrees h _
          · exact .inl rfl
    · exact .inl rfl

theorem suffixResult_agrees (hA : Allows C A) (m : Mode) (f : AffixForm) :
    Agrees A (suffixResult C m f) (.ok (C.suffixResult m f)) := by
  unfold suffixResult Checker.suffixResult
  cases f.suffixes.1 with
  | none => exact .inl rfl
  | some s => exact (syllableModifierWithSuffix_agrees hA _ _ _).step (.inl rfl)

theorem commResult_agrees (hA : Allows C A) (m : Mode) (f : AffixForm) :
    Agrees A (commResult C m f) (.ok (C.commResult m f)) := by
  unfold commResult Checker.commResult
  cases f.prefixes.1 with
  | none => exact .inl rfl
  | some p =>
    cases f.suffixes.1 with
    | none => exact .inl rfl
    | some s => exact (syllableModifierWithSuffix_agrees hA _ _ _).step (.inl rfl)

theorem thenForm_agrees {r : Dbg (Option AffixForm)} {r' : Option AffixForm}
    {f : AffixForm → Dbg (Option CompoundingResult)} {g : AffixForm → Option CompoundingResult}
    (h : Agrees A r (.ok r')) (hf : ∀ x, Agrees A (f x) (.ok (g x))) :
    Agrees A (thenForm r f) (.ok (r'.bind g)) := by
  refine h.step ?_
  cases r' with
  | none => exact .inl rfl
  | some x => exact hf x

theorem checkWordInCompound_agrees (hA : Allows C A) (m : Mode) (w : Str) :
    Agrees A (checkWordInCompound C m w) (.ok (C.checkWordInCompound m w)) :=
  (Agrees.pure _).or_ok <|
  (thenForm_agrees (stripOnly_agrees _ _ _ (hA.tame _ _)) (suffixResult_agrees hA m)).or_ok <|
  (thenForm_agrees (stripOnly_agrees _ _ _ (hA.tame _ _)) fun _ => .inl rfl).or_ok <|
  (thenForm_agrees (stripComm_agrees _ _ (hA.tame _ _)) (commResult_agrees hA m))

/-! ## Replacements -/

theorem isSimpleWord_agrees (hA : Allows C A) (w : Str) :
    Agrees A (isSimpleWord C w) (.ok (C.isSimpleWord w)) :=
  (checkSimpleWord_agrees _ (hA.tame _ _)).map _

theorem scratchLoop_agrees {f : α → Str → Dbg (Option Str)} {g : α → Str → Run (Option Str)} :
    ∀ {l : List α} (w : Str), (∀ a ∈ l, ∀ x, Agrees A (f a x) (g a x)) →
      Agrees A (scratchLoop f l w) (Bytes.scratchLoop g l w)
  | [], _, _ => .inl rfl
  | a :: l, w, h => (h a List.mem_cons_self w).bind fun r _ => by
    cases r with
    | none => exact .inl rfl
    | some w' => exact scratchLoop_agrees w' fun b hb => h b (List.mem_cons_of_mem _ hb)

theorem repAttempt_agrees (hA : Allows C A) (lo : Nat) (hi back : Str → Nat) (f t scratch : Str) :
    Agrees A (repAttempt C lo hi back f t scratch) (Bytes.repAttempt C lo hi back f t scratch) := by
  refine (Agrees.lift _).bind fun x _ => (isSimpleWord_agrees hA x).step ?_
  split
  · exact .inl rfl
  · cases replaceRange? x lo (back x) f <;> exact .inl rfl

theorem any_agrees {f : α → Dbg Bool} {g : α → Bool} :
    ∀ {l : List α}, (∀ a ∈ l, Agrees A (f a) (.ok (g a))) → Agrees A (Debug.any f l) (.ok (l.any g))
  | [], _ => .inl rfl
  | a :: l, h => by
    refine (h a List.mem_cons_self).step ?_
    rw [List.any_cons]
    cases g a
    · exact any_agrees fun b hb => h b (List.mem_cons_of_mem _ hb)
    · exact .inl rfl

theorem scratchLoop_ok {f : α → Str → Dbg (Option Str)} {g : α → Bool} {w : Str} :
    ∀ {l : List α}, (∀ a ∈ l, Agrees A (f a w) (.ok (if g a then none else some w))) →
      Agrees A (scratchLoop f l w) (.ok (if l.any g then none else some w))
  | [], _ => .inl rfl
  | a :: l, h => by
    refine (h a List.mem_cons_self).step ?_
    rw [List.any_cons]
    cases g a
    · exact scratchLoop_ok fun b hb => h b (List.mem_cons_of_mem _ hb)
    · exact .inl rfl

theorem scratchLoop_map (f : β → Str → Dbg (Option Str)) (φ : α → β) :
    ∀ (l : List α) (w : Str), scratchLoop f (l.map φ) w = scratchLoop (fun a => f (φ a)) l w
  | [], _ => rfl
  | a :: l, w => by
    simp only [List.map_cons, scratchLoop]
    congr 1
    funext r
    cases r with
    | none => rfl
    | some w => exact scratchLoop_map f φ l w

theorem repAttempt_ok (hA : Allows C A) {x y : Str} (f t : Str) {hi back : Str → Nat}
    (h1 : hi (x ++ f ++ y) = byteLen x + byteLen f) (h2 : back (x ++ t ++ y) = byteLen x + byteLen t) :
    Agrees A (repAttempt C (byteLen x) hi back f t (x ++ f ++ y))
      (.ok (if C.isSimpleWord (x ++ t ++ y) then none else some (x ++ f ++ y))) :=
  Bytes.repAttempt_eq C f t h1 h2 ▸ repAttempt_agrees hA _ _ _ _ _ _

theorem isRepSimilar_agrees (hA : Allows C A) (w : Str) :
    Agrees A (isRepSimilar C w) (.ok (C.isRepSimilar w)) := by
  unfold isRepSimilar Checker.isRepSimilar
  simp only
  refine (any_agrees (g := fun r => w == r.1 && C.isSimpleWord r.2) fun r _ => ?_).step ?_
  · cases w == r.1
    · exact .inl rfl
    · exact isSimpleWord_agrees hA _
  generalize (C.aff.replacements.whole.any _) = b0
  cases b0
  swap
  · exact .inl rfl
  generalize C.aff.replacements.hasOnlyWhole = b1
  cases b1
  swap
  · exact .inl rfl
  simp only [Bool.false_eq_true, if_false]
  refine (scratchLoop_ok (g := fun r => startsWith w r.1 && C.isSimpleWord (r.2 ++ w.drop r.1.length))
    ?_).step ?_
  · rintro ⟨f, t⟩ -
    simp only
    by_cases h : startsWith w f = true
    · obtain ⟨y, rfl⟩ := startsWith_iff.1 h
      have := repAttempt_ok hA (x := []) (y := y) f t (hi := fun _ => byteLen f) (back := fun _ => byteLen t)
        (by simp) (by simp)
      simp only [List.nil_append, byteLen_nil] at this
      rw [if_pos h, h]
      simpa using this
    · rw [if_neg h]
      simp only [h, Bool.false_and]
      exact .inl rfl
  by_cases hs : (C.aff.replacements.start.any fun r => startsWith w r.1 &&
    C.isSimpleWord (r.2 ++ w.drop r.1.length)) = true
  · rw [if_pos hs, if_pos hs]; exact .inl rfl
  rw [if_neg hs, if_neg hs]
  simp only [beq_self_eq_true, assert_true, dbg_ok_bind]
  refine (scratchLoop_ok (g := fun r => endsWith w r.1 &&
    C.isSimpleWord (w.take (w.length - r.1.length) ++ r.2)) ?_).step ?_
  · rintro ⟨f, t⟩ -
    simp only
    by_cases h : endsWith w f = true
    · obtain ⟨x, rfl⟩ := endsWith_iff.1 h
      have := repAttempt_ok hA (x := x) (y := []) f t (hi := byteLen) (back := byteLen)
        (by simp) (by simp)
      simp only [List.append_nil] at this
      rw [if_pos h, h, sub_eq (by rw [byteLen_append]; omega), byteLen_append, Nat.add_sub_cancel, dbg_ok_bind]
      simpa using this
    · rw [if_neg h]
      simp only [h, Bool.false_and]
      exact .inl rfl
  by_cases hs : (C.aff.replacements.stop.any fun r => endsWith w r.1 &&
    C.isSimpleWord (w.take (w.length - r.1.length) ++ r.2)) = true
  · rw [if_pos hs, if_pos hs]; exact .inl rfl
  rw [if_neg hs, if_neg hs]
  simp only [beq_self_eq_true, assert_true, dbg_ok_bind]
  refine (scratchLoop_ok (g := fun r => (matchIndices w r.1).any fun idx =>
    C.isSimpleWord (w.take idx ++ r.2 ++ w.drop (idx + r.1.length))) ?_).step ?_
  · rintro ⟨f, t⟩ -
    simp only
    unfold matchBytes
    rw [scratchLoop_map]
    refine scratchLoop_ok fun i hi => ?_
    obtain ⟨h1, y, hy⟩ := matchIndices_sound hi
    have hw : w = w.take i ++ f ++ y := by rw [List.append_assoc, hy, List.take_append_drop]
    have hd : w.drop (i + f.length) = y := by rw [← List.drop_drop, ← hy, List.drop_left]
    have := repAttempt_ok hA (x := w.take i) (y := y) f t
      (hi := fun _ => byteLen (w.take i) + byteLen f) (back := fun _ => byteLen (w.take i) + byteLen t)
      rfl rfl
    rw [← hw] at this
    rw [hd]
    exact this
  · generalize (C.aff.replacements.anywhere.any _) = b
    cases b
    · simp [assert_true, dbg_ok_bind]; exact .inl rfl
    · exact .inl rfl

/-! ## Compounds -/

theorem Agrees.ite {c : Prop} [Decidable c] {x x' : Dbg α} {y y' : Run α} (h : Agrees A x y)
    (h' : Agrees A x' y') : Agrees A (if c then x else x') (if c then y else y') := by
  split
  · exact h
  · exact h'

theorem isRepSimilar_bytes (hA : Allows C A) (w : Str) :
    Agrees A (isRepSimilar C w) (Bytes.isRepSimilar C w) :=
  Bytes.isRepSimilar_eq C w ▸ isRepSimilar_agrees hA w

theorem repSimilarFrom_agrees (hA : Allows C A) (w : Str) (start : Nat) :
    Agrees A (repSimilarFrom C w start)
      (if C.opts.compoundCheckRep then do Bytes.isRepSimilar C (← Bytes.need (sliceFrom? w start))
        else pure false) :=
  .ite ((Agrees.lift _).bind fun _ _ => isRepSimilar_bytes hA _) (.pure _)

theorem syllableSum_agrees (h : A .syllableSum) (count : Nat) (n : Int) :
    Agrees A (syllableSum count n) (.ok ((count + n) % 2 ^ 64)) := by
  unfold syllableSum
  split
  · rename_i hn
    refine .of_eq ?_
    rw [lift_ok]
    congr 1
    rw [Int.add_emod, ← Int.emod_emod_of_dvd n (Int.dvd_refl (2 ^ 64)), ← Int.add_emod]
    omega
  · exact .fails h _

theorem classicSecond_agrees (hA : Allows C A) (w : Str) (start i numPart : Nat) (fc : Forceucase)
    (part1 : CompoundingResult) :
    Agrees A (classicSecond C w start i numPart fc part1) (Bytes.classicSecond C w start i numPart fc part1) := by
  unfold classicSecond Bytes.classicSecond
  refine (Agrees.lift _).bind fun text _ => (checkWordInCompound_agrees hA _ _).step ?_
  cases C.checkWordInCompound .atEnd text with
  | none => exact .pure _
  | some part2 =>
    refine .ite (.pure _) <| .ite (.pure _) <| .ite (.pure _) <|
      (repSimilarFrom_agrees hA w start).bind fun b _ => .ite (.pure _) <| .ite (.pure _) <|
      .ite ?_ (.pure _)
    by_cases hv : C.aff.compoundSyllableVowels = []
    · simp only [hv, List.isEmpty_nil, if_true]
      exact .pure _
    · refine .ite (.pure _) ((syllableSum_agrees (hA.sum hv) _ _).step ?_)
      exact .ite (.pure _) (.pure _)

theorem repAfterRecursion_agrees (hA : Allows C A) (w : Str) (start i : Nat) (part2 : CompoundingResult) :
    Agrees A (repAfterRecursion C w start i part2) (Bytes.repAfterRecursion C w start i part2) :=
  .ite ((Agrees.lift _).bind fun _ _ => (isRepSimilar_bytes hA _).bind fun _ _ => .ite (.pure _) <|
    .ite ((Agrees.lift _).bind fun _ _ => isRepSimilar_bytes hA _) (.pure _)) (.inl rfl)

/-- The recursive searches agree. -/
def Searches (A : Assertion → Prop) (S : Search) (T : Checker.Search) : Prop :=
  ∀ w i n, Agrees A (S w i n) (T w i n)

variable {S : Search} {T : Checker.Search}

theorem tripleRecursive_agrees (hA : Allows C A) (hS : Searches A S T) (t w : Str) (start i n : Nat)
    (part1 : CompoundingResult) :
    Agrees A (tripleRecursive C S t w start i n part1) (Bytes.tripleRecursive C T t w start i n part1) := by
  refine (hS _ _ _).bind fun r _ => ?_
  cases r with
  | none => exact .pure _
  | some part2 =>
    exact .ite (.pure _) <|
      (repAfterRecursion_agrees hA _ _ _ _).bind fun _ _ => .ite (.pure _) (.pure _)

theorem tripleSecond_agrees (hA : Allows C A) (t w : Str) (start i n : Nat) (fc : Forceucase)
    (part1 : CompoundingResult) :
    Agrees A (tripleSecond C t w start i n fc part1) (Bytes.tripleSecond C t w start i n fc part1) := by
  unfold tripleSecond Bytes.tripleSecond
  refine (Agrees.lift _).bind fun text _ => (checkWordInCompound_agrees hA _ _).step ?_
  cases C.checkWordInCompound .atEnd text with
  | none => exact .pure _
  | some part2 =>
    exact .ite (.pure _) <| .ite (.pure _) <| .ite (.pure _) <|
      (repSimilarFrom_agrees hA w start).bind fun b _ => .ite (.pure _) <| .ite (.pure _) <|
      .ite (.pure _) (.pure _)

theorem simplifiedTriple_agrees (hA : Allows C A) (hS : Searches A S T) (w : Str) (start i n : Nat)
    (fc : Forceucase) (part1 : CompoundingResult) :
    Agrees A (simplifiedTriple C S w start i n fc part1) (Bytes.simplifiedTriple C T w start i n fc part1) := by
  refine .ite (.inl rfl) <| (Agrees.lift _).bind fun r _ => ?_
  cases r with
  | none => exact .pure _
  | some c =>
    refine (Agrees.lift _).bind fun _ _ => (tripleSecond_agrees hA _ _ _ _ _ _ _).bind fun v _ => ?_
    cases v with
    | next => exact tripleRecursive_agrees hA hS _ _ _ _ _ _
    | _ => exact .pure _

theorem tryRecursive_agrees (hA : Allows C A) (hS : Searches A S T) (w : Str) (start i n : Nat)
    (fc : Forceucase) (part1 : CompoundingResult) :
    Agrees A (tryRecursive C S w start i n fc part1) (Bytes.tryRecursive C T w start i n fc part1) := by
  have h := simplifiedTriple_agrees hA hS w start i n fc part1
  refine (hS _ _ _).bind fun r _ => ?_
  cases r with
  | none => exact h
  | some part2 =>
    exact .ite h <| (repAfterRecursion_agrees hA _ _ _ _).bind fun _ _ => .ite h (.pure _)

theorem classicFirst_agrees (hA : Allows C A) (m : Mode) (w : Str) (start i : Nat) :
    Agrees A (classicFirst C m w start i) (Bytes.classicFirst C m w start i) := by
  unfold classicFirst Bytes.classicFirst
  refine (Agrees.lift _).bind fun text _ => (checkWordInCompound_agrees hA _ _).step ?_
  cases C.checkWordInCompound m text with
  | none => exact .pure _
  | some part2 =>
    exact .ite (.pure _) <| (Agrees.ite (.lift _) (.pure _)).bind fun _ _ => .ite (.pure _) <|
      (Agrees.ite (.lift _) (.pure _)).bind fun _ _ => .ite (.pure _) (.pure _)

theorem classic_agrees (hA : Allows C A) (hS : Searches A S T) (m : Mode) (w : Str) (start i n : Nat)
    (fc : Forceucase) :
    Agrees A (classic C S m w start i n fc) (Bytes.classic C T m w start i n fc) := by
  refine (classicFirst_agrees hA _ _ _ _).bind fun r _ => ?_
  cases r with
  | none => exact .pure _
  | some part1 =>
    refine (classicSecond_agrees hA _ _ _ _ _ _).bind fun v _ => ?_
    cases v with
    | next => exact tryRecursive_agrees hA hS _ _ _ _ _ _
    | _ => exact .pure _

theorem patternFirst_agrees (hA : Allows C A) (p : CompoundPattern) (m : Mode) (w : Str) (start j : Nat) :
    Agrees A (patternFirst C p m w start j) (Bytes.patternFirst C p m w start j) := by
  unfold patternFirst Bytes.patternFirst
  refine (Agrees.lift _).bind fun text _ => (checkWordInCompound_agrees hA _ _).step ?_
  cases C.checkWordInCompound m text with
  | none => exact .pure _
  | some part2 =>
    exact .ite (.pure _) <| .ite (.pure _) <| (Agrees.ite (.lift _) (.pure _)).bind fun _ _ =>
      .ite (.pure _) (.pure _)

theorem patternSecond_agrees (hA : Allows C A) (p : CompoundPattern) (text w : Str) (start n : Nat)
    (fc : Forceucase) (part1 : CompoundingResult) :
    Agrees A (patternSecond C p text w start n fc part1) (Bytes.patternSecond C p text w start n fc part1) := by
  unfold patternSecond Bytes.patternSecond
  refine (checkWordInCompound_agrees hA _ _).step ?_
  cases C.checkWordInCompound .atEnd text with
  | none => exact .pure _
  | some part2 =>
    exact .ite (.pure _) <| .ite (.pure _) <| .ite (.pure _) <|
      (repSimilarFrom_agrees hA w start).bind fun b _ => .ite (.pure _) <| .ite (.pure _) <|
      .ite (.pure _) (.pure _)

theorem patternRecursionOk_agrees (hA : Allows C A) (p : CompoundPattern) (x w : Str) (start j : Nat)
    (part2 : CompoundingResult) :
    Agrees A (patternRecursionOk C p x w start j part2) (Bytes.patternRecursionOk C p x w start j part2) :=
  .ite (.pure _) <| .ite ((Agrees.lift _).bind fun _ _ => (isRepSimilar_bytes hA _).bind fun _ _ =>
    .ite (.pure _) <| (Agrees.lift _).bind fun _ _ => .ite ((Agrees.lift _).bind fun _ _ =>
      (isRepSimilar_bytes hA _).bind fun _ _ => .pure _) (.pure _)) (.pure _)

theorem patternTripleRecursionOk_agrees (hA : Allows C A) (p : CompoundPattern) (t x w : Str)
    (start : Nat) {j cpLen : Nat} (hj : cpLen ≤ j) (part2 : CompoundingResult) :
    Agrees A (patternTripleRecursionOk C p t x w start j cpLen part2)
      (Bytes.patternTripleRecursionOk C p t x w start j cpLen part2) := by
  refine .ite (.pure _) <| .ite ((Agrees.lift _).bind fun _ _ => (isRepSimilar_bytes hA _).bind fun _ _ =>
    .ite (.pure _) <| (Agrees.lift _).bind fun _ _ => .ite ?_ (.pure _)) (.pure _)
  rw [sub_eq (by omega), if_neg (by omega), dbg_ok_bind]
  cases slice? x start (j + byteLen part2.stem - cpLen) with
  | none => exact .pure _
  | some s => exact (isRepSimilar_bytes hA _).bind fun _ _ => .pure _

theorem need_ok {o : Option α} {a : α} (h : Bytes.need o = .ok a) : o = some a := by
  cases o with
  | none => cases h
  | some b => cases h; rfl

theorem sliceTo?_size : ∀ {w s : Str} {n : Nat}, sliceTo? w n = some s → byteLen s = n := by
  intro w
  induction w with
  | nil => intro s n h; cases n <;> simp_all [sliceTo?]
  | cons c w ih =>
    intro s n h
    cases n with
    | zero => simp_all [sliceTo?]
    | succ n =>
      rw [sliceTo?] at h
      split at h
      · obtain ⟨t, ht, rfl⟩ := Option.map_eq_some_iff.1 h
        rw [byteLen_cons, ih ht]
        omega
      · simp at h

theorem prevCodepoint_size {w : Str} {j idx : Nat} {cp : Char}
    (h : Bytes.prevCodepoint w j = .ok (some (idx, cp))) : cp.utf8Size ≤ j := by
  unfold Bytes.prevCodepoint at h
  cases hs : sliceTo? w j with
  | none => rw [hs] at h; cases h
  | some p =>
    rw [hs, Bytes.need_some, Bytes.ok_bind, Bytes.charIndices_getLast?] at h
    rw [← sliceTo?_size hs, ← List.reverse_reverse p]
    cases hr : p.reverse with
    | nil => rw [hr] at h; cases h
    | cons c cs =>
      rw [hr] at h
      cases h
      rw [List.reverse_cons, byteLen_append]
      simp

theorem doubled_size {w : Str} {j idx : Nat} {cp : Char} (h : Bytes.doubled w j = .ok (some (idx, cp))) :
    cp.utf8Size ≤ j := by
  unfold Bytes.doubled at h
  cases hp : Bytes.prevCodepoint w j with
  | error e => rw [hp] at h; cases h
  | ok r =>
    rw [hp, Bytes.ok_bind] at h
    cases r with
    | none => cases h
    | some r =>
      obtain ⟨i, c⟩ := r
      have hc := prevCodepoint_size hp
      dsimp only at h
      split at h
      · cases h
      · cases hq : Bytes.prevCodepoint w i with
        | error e => rw [hq] at h; cases h
        | ok q =>
          rw [hq, Bytes.ok_bind] at h
          cases q with
          | none => cases h
          | some q =>
            dsimp only at h
            split at h <;> cases h
            exact hc

theorem patternTriple_agrees (hA : Allows C A) (hS : Searches A S T) (p : CompoundPattern) (x w : Str)
    (start j n : Nat) (fc : Forceucase) (part1 : CompoundingResult) :
    Agrees A (patternTriple C S p x w start j n fc part1) (Bytes.patternTriple C T p x w start j n fc part1) := by
  refine .ite (.inl rfl) <| (Agrees.lift _).bind fun r hr => ?_
  cases r with
  | none => exact .pure _
  | some c =>
    refine (Agrees.lift _).bind fun _ _ => (Agrees.lift _).bind fun _ _ => (Agrees.lift _).bind fun _ _ =>
      (patternSecond_agrees hA _ _ _ _ _ _ _).bind fun v _ => ?_
    cases v with
    | accept => exact .pure _
    | reject => exact .pure _
    | next =>
      refine (hS _ _ _).bind fun r _ => ?_
      cases r with
      | none => exact .pure _
      | some part2 =>
        exact (patternTripleRecursionOk_agrees hA _ _ _ _ _ (doubled_size hr) _).bind fun _ _ =>
          .ite (.pure _) (.pure _)

theorem patternBody_agrees (hA : Allows C A) (hS : Searches A S T) (m : Mode) (w : Str)
    (start i n : Nat) (fc : Forceucase) (p : CompoundPattern) :
    Agrees A (patternBody C S m w start i n fc p) (Bytes.patternBody C T m w start i n fc p) := by
  unfold patternBody Bytes.patternBody
  cases p.replacement with
  | none => exact .inl rfl
  | some r =>
    refine (Agrees.lift _).bind fun tail ht => ?_
    by_cases hr : startsWith tail r = true
    · have hle : byteLen r ≤ byteLen w := by
        obtain ⟨a, rfl, _⟩ := sliceFrom?_some (need_ok ht)
        obtain ⟨b, rfl⟩ := startsWith_iff.1 hr
        simp only [byteLen_append]
        omega
      simp only [hr, Bool.not_true, Bool.false_eq_true, if_false]
      rw [sub_eq hle]
      simp only [dbg_ok_bind]
      refine (Agrees.lift _).bind fun _ _ => (Agrees.lift _).bind fun _ _ =>
        (patternFirst_agrees hA _ _ _ _ _).bind fun o _ => ?_
      cases o with
      | none => exact .pure _
      | some part1 =>
        refine (Agrees.lift _).bind fun _ _ => (patternSecond_agrees hA _ _ _ _ _ _ _).bind fun v _ => ?_
        cases v with
        | accept => exact .pure _
        | reject => exact .pure _
        | next =>
          refine (hS _ _ _).bind fun q _ => ?_
          cases q with
          | none => exact patternTriple_agrees hA hS _ _ _ _ _ _ _ _
          | some part2 =>
            exact (patternRecursionOk_agrees hA _ _ _ _ _ _).bind fun _ _ =>
              .ite (.pure _) (patternTriple_agrees hA hS _ _ _ _ _ _ _ _)
    · simp only [hr, Bool.not_false, if_true]
      exact .pure _

theorem compoundAt_agrees (hA : Allows C A) (hS : Searches A S T) (m : Mode) (w : Str) (start n : Nat)
    (fc : Forceucase) (i : Nat) :
    Agrees A (compoundAt C S m w start n fc i) (Bytes.compoundAt C T m w start n fc i) :=
  (classic_agrees hA hS _ _ _ _ _ _).or
    (.map _ (.first fun _ _ => patternBody_agrees hA hS _ _ _ _ _ _ _))

theorem bytesWithin_eq {margin : Nat} (h : 0 < margin) (w : Str) (start : Nat) :
    bytesWithin w start margin = lift (Bytes.need (Spellbook.bytesWithin w start margin)) := by
  unfold bytesWithin
  have : (margin != 0) = true := by simp; omega
  rw [this]; rfl

theorem checkCompoundImpl_agrees (hA : Allows C A) (hm : 0 < C.opts.minChars) (fc : Forceucase) :
    ∀ (fuel : Nat) (m : Mode), Searches A (checkCompoundImpl C fc fuel m) (Bytes.checkCompoundImpl C fc fuel m)
  | 0, _, _, _, _ => .inl rfl
  | fuel + 1, m, w, i, n => by
    unfold checkCompoundImpl Bytes.checkCompoundImpl
    rw [bytesWithin_eq hm]
    exact (Agrees.lift _).bind fun _ _ => .first fun _ _ =>
      compoundAt_agrees hA (checkCompoundImpl_agrees hA hm fc fuel .atMiddle) _ _ _ _ _ _

theorem checkRulesImpl_agrees (hm : 0 < C.opts.minChars) (fc : Forceucase) :
    ∀ (fuel : Nat) (w : Str) (data : List FlagSet) (i : Nat),
      Agrees A (checkRulesImpl C fc fuel w data i) (Bytes.checkRulesImpl C fc fuel w data i)
  | 0, _, _, _ => .inl rfl
  | fuel + 1, w, data, i => by
    unfold checkRulesImpl Bytes.checkRulesImpl
    have : (C.opts.minChars != 0) = true := by simp; omega
    rw [bytesWithin_eq hm, this, assert_true, dbg_ok_bind]
    refine (Agrees.lift _).bind fun _ _ => .first fun _ _ => (Agrees.lift _).bind fun text _ => ?_
    cases (C.entries text).find? C.rulePart with
    | none => exact .pure _
    | some part1 =>
      exact (Agrees.lift _).bind fun _ _ => .ite (.pure _) (checkRulesImpl_agrees hm fc fuel _ _ _)

theorem checkCompound_agrees (hA : Allows C A) (hm : 0 < C.opts.minChars) (fuel : Nat) (m : Mode) (w : Str)
    (fc : Forceucase) :
    Agrees A (checkCompound C fuel m w fc) (Bytes.checkCompound C fuel m w fc) :=
  (Agrees.ite (checkCompoundImpl_agrees hA hm fc fuel m w 0 0) (.pure _)).or
    (.ite (checkRulesImpl_agrees hm fc _ _ _ _) (.pure _))

/-! ## Letter case, sharp s, BREAK, `check` -/

theorem checkWord_agrees (hA : Allows C A) (hm : 0 < C.opts.minChars) (fuel : Nat) (w : Str)
    (fc : Forceucase) (hh : HiddenHomonym) :
    Agrees A (checkWord C fuel w fc hh) (Bytes.checkWord C fuel w fc hh) := by
  unfold checkWord Bytes.checkWord
  refine (checkSimpleWord_agrees hh (hA.tame _ _)).step ?_
  cases C.checkSimpleWord w hh with
  | none => exact (checkCompound_agrees hA hm _ _ _ _).map _
  | some flags => exact .inl rfl

theorem doSpellSharps_agrees (hA : Allows C A) (hm : 0 < C.opts.minChars) (fuel : Nat) :
    ∀ (k : Nat) (w : Str) (position depth replacements : Nat), 5 - depth = k →
      Agrees A (doSpellSharps C fuel w position depth replacements)
        (Bytes.doSpellSharps C fuel w position depth replacements) := by
  intro k
  induction k using Nat.strongRecOn with
  | ind k ih =>
  intro w position depth replacements hk
  rw [doSpellSharps, Bytes.doSpellSharps]
  refine (Agrees.lift _).bind fun o _ => ?_
  cases o with
  | none => exact .ite (.map _ (checkWord_agrees hA hm _ _ _ _)) (.pure _)
  | some idx =>
    by_cases hd : depth < 5
    · simp only [hd, ↓reduceDIte]
      refine (Agrees.lift _).bind fun w' _ => (ih _ (by omega) _ _ _ _ rfl).bind fun r _ => ?_
      obtain ⟨r, w''⟩ := r
      cases r with
      | some flags => exact .pure _
      | none => exact (Agrees.lift _).bind fun _ _ => ih _ (by omega) _ _ _ _ rfl
    · simp only [hd, ↓reduceDIte]
      exact .ite (.map _ (checkWord_agrees hA hm _ _ _ _)) (.pure _)

theorem spellSharps_agrees (hA : Allows C A) (hm : 0 < C.opts.minChars) (fuel : Nat) (w : Str) :
    Agrees A (spellSharps C fuel w) (Bytes.spellSharps C fuel w) :=
  (doSpellSharps_agrees hA hm fuel _ _ _ _ _ rfl).map _

theorem innerApostrophe_eq {w : Str} {r : Option Nat} (h : Bytes.need (findFrom? w 0 ['\'']) = .ok r) :
    innerApostrophe w r = .ok (r.filter fun idx => idx != byteLen w - 1) := by
  cases r with
  | none => rfl
  | some idx =>
    have : 1 ≤ byteLen w := by
      have h' := need_ok h
      have := Bytes.findFrom?_eq [] w ['\'']
      rw [List.nil_append, byteLen_nil] at this
      rw [this] at h'
      obtain ⟨⟨a, b⟩, hab, -⟩ := Option.map_eq_some_iff.1 (Option.some.inj h')
      rw [splitOnce?_append hab]
      simp only [byteLen_append, byteLen_cons]
      have := Char.utf8Size_pos '\''
      omega
    simp only [innerApostrophe, sub_eq this, dbg_ok_bind, Option.filter]
    split <;> rfl

theorem spellApostrophe_agrees (hA : Allows C A) (hm : 0 < C.opts.minChars) (fuel : Nat) (w : Str) :
    Agrees A (spellApostrophe C fuel w) (Bytes.spellApostrophe C fuel w) := by
  unfold spellApostrophe Bytes.spellApostrophe
  refine (Agrees.lift _).bind fun r hr => ?_
  rw [innerApostrophe_eq hr, dbg_ok_bind]
  cases r.filter fun idx => idx != byteLen w - 1 with
  | none => exact .pure _
  | some idx =>
    exact (Agrees.lift _).bind fun _ _ => (Agrees.lift _).bind fun _ _ => (Agrees.lift _).bind fun _ _ =>
      (checkWord_agrees hA hm _ _ _ _).or ((Agrees.lift _).bind fun _ _ => checkWord_agrees hA hm _ _ _ _)

theorem spellUpperSharps_agrees (hA : Allows C A) (hm : 0 < C.opts.minChars) (fuel : Nat) (w : Str) :
    Agrees A (spellUpperSharps C fuel w) (Bytes.spellUpperSharps C fuel w) :=
  .ite ((spellSharps_agrees hA hm _ _).or ((Agrees.lift _).bind fun _ _ => spellSharps_agrees hA hm _ _))
    (.inl rfl)

theorem spellCasingUpper_agrees (hA : Allows C A) (hm : 0 < C.opts.minChars) (fuel : Nat) (w : Str) :
    Agrees A (spellCasingUpper C fuel w) (Bytes.spellCasingUpper C fuel w) :=
  (checkWord_agrees hA hm _ _ _ _).or <| (spellApostrophe_agrees hA hm _ _).or <|
  (spellUpperSharps_agrees hA hm _ _).or <|
  (Agrees.bind (.lift _) fun _ _ => .map _ (checkWord_agrees hA hm _ _ _ _)).or <|
  .map _ (checkWord_agrees hA hm _ _ _ _)

theorem spellCasingTitle_agrees (hA : Allows C A) (hm : 0 < C.opts.minChars) (fuel : Nat) (w : Str) :
    Agrees A (spellCasingTitle C fuel w) (Bytes.spellCasingTitle C fuel w) :=
  (checkWord_agrees hA hm _ _ _ _).or <| .map _ (checkWord_agrees hA hm _ _ _ _)

theorem spellCasingAsIs_agrees (hA : Allows C A) (hm : 0 < C.opts.minChars) (fuel : Nat) (w : Str) (b : Bool) :
    Agrees A (spellCasingAsIs C fuel w b) (Bytes.spellCasingAsIs C fuel w b) :=
  (checkWord_agrees hA hm _ _ _ _).or <|
  (Agrees.ite (Agrees.bind (.lift _) fun _ _ => spellCasingTitle_agrees hA hm _ _) (.pure _)).or <|
  .ite (spellCasingUpper_agrees hA hm _ _) (.pure _)

theorem spellCasing_agrees (hA : Allows C A) (hm : 0 < C.opts.minChars) (fuel : Nat) (w : Str) :
    Agrees A (spellCasing C fuel w) (Bytes.spellCasing C fuel w) := by
  unfold spellCasing Bytes.spellCasing
  cases classifyCasing C.U w
  all_goals first
    | exact spellCasingAsIs_agrees hA hm _ _ _
    | exact spellCasingUpper_agrees hA hm _ _
    | exact spellCasingTitle_agrees hA hm _ _

theorem breakLoops_agrees {r : Str → Dbg Bool} {r' : Str → Run Bool} (h : ∀ w, Agrees A (r w) (r' w))
    (w : Str) : Agrees A (breakLoops C r w) (C.breakLoops r' w) := by
  unfold breakLoops Checker.breakLoops
  refine (Agrees.any fun pat _ => ?_).bind fun _ _ => .ite (.pure _) <|
    (Agrees.any fun pat _ => ?_).bind fun _ _ => .ite (.pure _) <| Agrees.any fun pat _ => ?_
  · cases stripPrefix? w pat with
    | none => exact .inl rfl
    | some x => exact h x
  · cases stripSuffix? w pat with
    | none => exact .inl rfl
    | some x => exact h x
  · cases splitOnce? pat w with
    | none => exact .inl rfl
    | some x => exact .ite (.inl rfl) ((h _).bind fun _ _ => .ite (h _) (.pure _))

theorem doSpellBreak_agrees (hA : Allows C A) (hm : 0 < C.opts.minChars) (fuel : Nat) :
    ∀ (d : Nat) (w : Str), Agrees A (doSpellBreak C fuel d w) (Bytes.doSpellBreak C fuel d w)
  | 0, w => by
    unfold doSpellBreak Bytes.doSpellBreak
    refine (spellCasing_agrees hA hm _ _).bind fun r _ => ?_
    cases r <;> exact .pure _
  | d + 1, w => by
    unfold doSpellBreak Bytes.doSpellBreak
    refine (spellCasing_agrees hA hm _ _).bind fun r _ => ?_
    cases r with
    | none => exact breakLoops_agrees (doSpellBreak_agrees hA hm fuel d) w
    | some flags => exact .pure _

theorem check_agrees (hA : Allows C A) (hm : 0 < C.opts.minChars) (fuel : Nat) (w : Str) :
    Agrees A (check C fuel w) (Bytes.check C fuel w) :=
  .ite (.inl rfl) <| (Agrees.lift _).bind fun _ _ => .ite (.inl rfl) <| .ite (.inl rfl) <|
    (doSpellBreak_agrees hA hm _ _ _).bind fun _ _ => .ite (.pure _) <|
    .ite (doSpellBreak_agrees hA hm _ _ _) (.pure _)

end Spellbook.Debug
