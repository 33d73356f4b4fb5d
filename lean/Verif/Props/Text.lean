import Verif.Proof.DicLine
import Verif.Proof.FlagSet
import Verif.Proof.RuleText
import Mathlib.Data.List.TakeWhile
/-!
# Properties of flag texts and word list lines: C34, C35, C58
-/

namespace Spellbook.Props
open Spec

/-! ## C34 Flag syntax -/

/-- A text is accepted as a flag set exactly if its `FLAG` type gives it a list of flags, all within
1–65535; the set then has exactly these flags. -/
theorem C34_flags (ty : FlagType) (s : Str) (F : FlagSet) : parseFlags ty s = .ok F ↔
    ∃ l, FlagsOf ty s l ∧ (∀ f ∈ l, Flag.Valid f) ∧ ∀ f, F.contains f = true ↔ f ∈ l := by
  rw [parseFlags_ok]
  constructor
  · rintro ⟨l, h1, h2, rfl⟩
    exact ⟨l, h1, h2, fun f => FlagSet.contains_ofList⟩
  · rintro ⟨l, h1, h2, h3⟩
    refine ⟨l, h1, h2, FlagSet.ext fun f => ?_⟩
    rw [Bool.eq_iff_iff, h3, FlagSet.contains_ofList]

/-- A text names a single flag exactly if its `FLAG` type says so. -/
theorem C34_flag (ty : FlagType) (s : Str) (f : Nat) :
    parseFlag? ty s = some (.ok f) ↔ FlagOf ty s f ∧ Flag.Valid f := parseFlag?_ok

/-- Reading a single flag panics for the empty text only. -/
theorem C34_no_panic (ty : FlagType) (s : Str) : s ≠ [] ↔ parseFlag? ty s ≠ none := by
  rw [← parseFlag?_isSome (ty := ty), Option.isSome_iff_ne_none]

/-- An alias number refers to the 1-based `AF` table; everything else (and everything under
`FLAG num`) is a flag text. -/
theorem C34_aliases (ty : FlagType) (s : Str) (al : List FlagSet) :
    (∀ i F, ty ≠ .numeric → IsNumeral s (i + 1) → i < 65535 → al[i]? = some F →
      decodeFlagset s ty al = .ok F) ∧
    ((ty = .numeric ∨ ∀ i, IsNumeral s (i + 1) → i < 65535 → al.length ≤ i) →
      decodeFlagset s ty al = parseFlags ty s) := by
  constructor
  · intro i F hty hi hb hF
    have hl : i < al.length := (List.getElem?_eq_some_iff.1 hF).1
    have hne : ¬ (ty = .numeric ∨ al.isEmpty = true) := by
      rintro (h | h)
      · exact hty h
      · rw [List.isEmpty_iff.1 h] at hl; simp at hl
    unfold decodeFlagset
    rw [if_neg hne, aliasIndex?_some.2 ⟨hi, by omega, by omega, by omega⟩]
    simp [List.getD, hF]
  · rintro h
    unfold decodeFlagset
    split
    · rfl
    · rename_i hn
      cases ha : aliasIndex? s al.length with
      | none => rfl
      | some i =>
        exfalso
        obtain ⟨h1, h2, h3, h4⟩ := aliasIndex?_some.1 ha
        rcases h with h | h
        · exact hn (.inl h)
        · obtain ⟨j, rfl⟩ : ∃ j, i = j + 1 := ⟨i - 1, by omega⟩
          have := h j h1 (by omega)
          omega

/-- Flag names do not collide: two texts that denote the same list of flags are equal, for the
byte-based types. -/
theorem C34_texts_distinct_bytes {s t : Str} {l : List Nat} :
    (FlagsOf .short s l → FlagsOf .short t l → s = t) ∧
    (∀ order, FlagsOf (.long order) s l → FlagsOf (.long order) t l → s = t) := by
  have byteMap : ∀ {x y : List UInt8}, x.map (·.toNat) = y.map (·.toNat) → x = y := by
    intro x y h
    exact List.map_injective_iff.2 (fun a b h => UInt8.toNat_inj.1 h) h
  have short : ∀ {s l}, FlagsOf .short s l → l = (utf8 s).map (·.toNat) := by
    intro s l h
    cases h with
    | empty => rfl
    | short => rfl
  have long : ∀ {order s l}, FlagsOf (.long order) s l → BytePairs order (utf8 s) l := by
    intro order s l h
    cases h with
    | empty => exact .nil
    | long h => exact h
  have pairs : ∀ {order} {l : List Nat} {x y : List UInt8}, BytePairs order x l → BytePairs order y l → x = y := by
    intro order l
    induction l with
    | nil => intro x y hx hy; cases hx; cases hy; rfl
    | cons f l ih =>
      intro x y hx hy
      cases hx with
      | cons a b hx =>
        generalize hm : twoBytes order a.toNat b.toNat = m at hy
        cases hy with
        | cons c d hy =>
          obtain ⟨e1, e2⟩ := twoBytes_inj hm
          rw [e1, e2, ih hx hy]
  refine ⟨fun h1 h2 => utf8_inj.1 (byteMap ((short h1).symm.trans (short h2))),
    fun _ h1 h2 => utf8_inj.1 (pairs (long h1) (long h2))⟩

/-- The same for `FLAG UTF-8` within the Basic Multilingual Plane. -/
theorem C34_texts_distinct_utf8 {s t : Str} {l : List Nat}
    (hs : ∀ c ∈ s, c.toNat < 65536) (ht : ∀ c ∈ t, c.toNat < 65536) :
    FlagsOf .utf8 s l → FlagsOf .utf8 t l → s = t := by
  have units : ∀ {s : Str}, (∀ c ∈ s, c.toNat < 65536) → utf16 s = s.map Char.toNat := by
    intro s h
    induction s with
    | nil => rfl
    | cons c s ih =>
      have hc := h c (by simp)
      have := ih fun d hd => h d (by simp [hd])
      unfold utf16 at this ⊢
      rw [List.flatMap_cons, this]
      unfold utf16Char
      rw [if_pos (by omega)]
      rfl
  have key : ∀ {s l}, FlagsOf .utf8 s l → l = utf16 s := by
    intro s l h
    cases h with
    | empty => rfl
    | utf8 h => exact h.eq
  intro h1 h2
  have : s.map Char.toNat = t.map Char.toNat := by
    rw [← units hs, ← units ht, ← key h1, ← key h2]
  exact List.map_injective_iff.2 (fun a b h => Char.toNat_inj.1 h) this

/-- Single flags do not collide: ASCII characters, pairs of ASCII characters, numbers (up to their
spelling), characters of the Basic Multilingual Plane. -/
theorem C34_flag_names_distinct {f : Nat} :
    (∀ c d : Char, c.toNat < 128 → d.toNat < 128 →
      FlagOf .short [c] f → FlagOf .short [d] f → c = d) ∧
    (∀ order, ∀ a b c d : Char, a.toNat < 128 → b.toNat < 128 → c.toNat < 128 → d.toNat < 128 →
      FlagOf (.long order) [a, b] f → FlagOf (.long order) [c, d] f → a = c ∧ b = d) ∧
    (∀ c d : Char, c.toNat < 65536 → d.toNat < 65536 →
      FlagOf .utf8 [c] f → FlagOf .utf8 [d] f → c = d) := by
  have ascii : ∀ c : Char, c.toNat < 128 → String.utf8EncodeChar c = [UInt8.ofNat c.toNat] := by
    intro c hc
    unfold String.utf8EncodeChar
    have h : c.val.toNat ≤ 0x7f := by show c.toNat ≤ _; omega
    simp only [h, ↓reduceIte]
    rfl
  have back : ∀ c : Char, c.toNat < 128 → (UInt8.ofNat c.toNat).toNat = c.toNat := by
    intro c hc
    rw [UInt8.toNat_ofNat']
    omega
  refine ⟨?_, ?_, ?_⟩
  · intro c d hc hd h1 h2
    generalize hu : [c] = u at h1
    generalize hv : [d] = v at h2
    cases h1 with
    | short e1 =>
      rename_i b r
      generalize hm : b.toNat = m at h2
      cases h2 with
      | short e2 =>
        subst hu hv
        simp only [utf8, List.flatMap_cons, List.flatMap_nil, List.append_nil, ascii c hc, ascii d hd,
          List.cons.injEq] at e1 e2
        apply Char.toNat_inj.1
        rw [← back c hc, ← back d hd, e1.1, e2.1, hm]
  · intro order a b c d ha hb hc hd h1 h2
    generalize hu : [a, b] = u at h1
    generalize hv : [c, d] = v at h2
    cases h1 with
    | long e1 =>
      rename_i x y r
      generalize hm : twoBytes order x.toNat y.toNat = m at h2
      cases h2 with
      | long e2 =>
        rename_i x' y' r'
        subst hu hv
        simp only [utf8, List.flatMap_cons, List.flatMap_nil, List.append_nil, ascii a ha, ascii b hb,
          ascii c hc, ascii d hd, List.cons_append, List.nil_append, List.cons.injEq] at e1 e2
        obtain ⟨h1, h2⟩ := twoBytes_inj hm
        refine ⟨Char.toNat_inj.1 ?_, Char.toNat_inj.1 ?_⟩
        · rw [← back a ha, ← back c hc, e1.1, e2.1, h1]
        · rw [← back b hb, ← back d hd, e1.2.1, e2.2.1, h2]
  · intro c d hc hd h1 h2
    generalize hu : [c] = u at h1
    generalize hv : [d] = v at h2
    cases h1 with
    | utf8 e1 =>
      cases h2 with
      | utf8 e2 =>
        subst hu hv
        rw [utf16_iff] at e1 e2
        simp only [utf16, List.flatMap_cons, List.flatMap_nil, List.append_nil, utf16Char, hc, hd,
          ↓reduceIte, List.cons.injEq] at e1 e2
        exact Char.toNat_inj.1 (e1.1.trans e2.1.symm)

/-- Beyond ASCII, flags of the default type do collide: `FORBIDDENWORD é` and `NEEDAFFIX è` name the
same flag. -/
theorem C34_collision_beyond_ascii :
    parseFlag? .short "é".toList = some (.ok 195) ∧ parseFlag? .short "è".toList = some (.ok 195) := by
  decide

-- The hypotheses can be met; all four types.
example : parseFlags .short "BA".toList = .ok (FlagSet.ofList [65, 66]) := by rfl
example : parseFlags (.long .little) "AaBb".toList = .ok (FlagSet.ofList [24897, 25154]) := by rfl
example : parseFlags (.long .big) "AaBb".toList = .ok (FlagSet.ofList [16737, 16994]) := by rfl
example : parseFlags .numeric "999,1,+5".toList = .ok (FlagSet.ofList [1, 5, 999]) := by rfl
example : parseFlags .utf8 "éA".toList = .ok (FlagSet.ofList [65, 233]) := by rfl
example : FlagsOf .numeric "12,3".toList [12, 3] := by
  have h : List.Forall₂ IsNumeral ["12".toList, "3".toList] [12, 3] := by
    refine .cons ⟨"12".toList, .inl rfl, by decide, by decide, by decide⟩
      (.cons ⟨"3".toList, .inl rfl, by decide, by decide, by decide⟩ .nil)
  exact FlagsOf.numeric (by decide) h
-- Errors.
example : parseFlags .numeric "1,,2".toList = .error .duplicateComma := by rfl
example : parseFlags .numeric "0".toList = .error .zeroFlag := by rfl
example : parseFlags .numeric "65536".toList = .error (.parseInt .posOverflow) := by rfl
example : parseFlags (.long .little) "AaB".toList = .error .missingSecondChar := by rfl
example : decodeFlagset "2".toList .short [FlagSet.ofList [5], FlagSet.ofList [6]]
    = .ok (FlagSet.ofList [6]) := by rfl

/-! ## C35 Dictionary line syntax -/

/-- Every line has exactly one end of its stem. -/
theorem C35_stem_end (U : Unicode) (line : Str) : ∃! n, StemEnd U line n := by
  obtain ⟨n, hn⟩ := stemEnd_exists U line
  exact ⟨n, hn, fun m hm => stemEnd_unique hm hn⟩

/-- What every line denotes. The claim of C35 about the flags is `flagText`; it is false for some lines with white
space behind the slash (`C35_space_after_slash`, `C35_blank_flags`), where the flags are `flagsBehind`. -/
theorem C35_line_exact {U : Unicode} {line : Str} {ty : FlagType} {al : List FlagSet} {ig : List Char}
    {stem : Str} {F : FlagSet} :
    parseDicLine U line ty al ig = .ok (stem, F) ↔ LineMeans U ty al ig line stem F :=
  parseDicLine_ok

/-- What is reported about every other line. -/
theorem C35_line_error {U : Unicode} {line : Str} {ty : FlagType} {al : List FlagSet} {ig : List Char}
    {e : FlagError} : parseDicLine U line ty al ig = .error e ↔ EntryFault U ty al line e :=
  parseDicLine_error

/-- **C35**, for lines without white space directly behind the slash (see `C35_space_after_slash`):
a line of at most 65535 bytes denotes the unescaped text up to the end of the stem, without ignored
characters, and the flags the text between the slash and the next white space denotes. -/
theorem C35_line_partial {U : Unicode} {line : Str} {n : Nat} (hl : byteLen line ≤ 65535)
    (hn : StemEnd U line n)
    (hs : line[n]? = some '/' → ∀ c, line[n + 1]? = some c → U.isWs c = false)
    (ty : FlagType) (al : List FlagSet) (ig : List Char) (stem : Str) (F : FlagSet) :
    parseDicLine U line ty al ig = .ok (stem, F) ↔
      stem = stemText ig line n ∧ decodeFlagset (flagText U line n) ty al = .ok F := by
  rw [parseDicLine_eq hl hn hs, except_map_ok]
  constructor
  · rintro ⟨G, h, h'⟩
    simp only [Prod.mk.injEq] at h'
    obtain ⟨h1, h2⟩ := h'
    rw [← h2]
    exact ⟨h1.symm, h⟩
  · rintro ⟨rfl, h⟩
    exact ⟨F, h, rfl⟩

/-- Longer lines are rejected. -/
theorem C35_too_long {U : Unicode} {line : Str} (hl : 65535 < byteLen line) (ty : FlagType)
    (al : List FlagSet) (ig : List Char) : parseDicLine U line ty al ig = .error .wordTooLong := by
  unfold parseDicLine
  exact if_pos hl

/-- The fast lane and the slow path disagree about white space behind the slash: the line `foo/ A`
has the flag `A`, the line `f\oo/ A` has no flag. -/
theorem C35_space_after_slash :
    parseDicLine .sample "foo/ A".toList .short [] [] = .ok ("foo".toList, FlagSet.ofList [65]) ∧
    parseDicLine .sample "f\\oo/ A".toList .short [] [] = .ok ("f\\oo".toList, FlagSet.empty) := by
  decide +kernel

/-- If nothing but white space follows the slash, the white space is read as flags: `add` of the line `foo/ `
makes an entry with the flag 32. (The lines of a `.dic` text have no white space at their end.) -/
theorem C35_blank_flags :
    parseDicLine .sample "foo/ ".toList .short [] [] = .ok ("foo".toList, FlagSet.ofList [32]) := by
  decide +kernel

/-- Slashes escaped with a backslash. -/
def escape : Str → Str
  | [] => []
  | c :: s => if c = '/' then '\\' :: '/' :: escape s else c :: escape s

theorem unescape_escape {s : Str} (h : '\\' ∉ s) : unescape (escape s) = s := by
  induction s with
  | nil => rfl
  | cons c s ih =>
    have hc : c ≠ '\\' := fun e => h (by simp [e])
    have ih := ih fun e => h (by simp [e])
    rw [escape]
    split
    · rename_i hs
      rw [unescape, if_pos ⟨rfl, rfl⟩, ih, hs]
    · cases he : escape s with
      | nil => rw [he] at ih; rw [← ih]; rfl
      | cons d r => rw [unescape, if_neg (fun e => hc e.1), ← he, ih]

theorem escape_slash {s : Str} {i : Nat} (h : (escape s)[i]? = some '/') :
    0 < i ∧ (escape s)[i - 1]? = some '\\' := by
  induction s generalizing i with
  | nil => simp [escape] at h
  | cons c s ih =>
    rw [escape] at h ⊢
    by_cases hc : c = '/'
    · rw [if_pos hc] at h ⊢
      match i with
      | 0 => simp at h
      | 1 => simp
      | i + 2 =>
        simp only [List.getElem?_cons_succ] at h
        obtain ⟨h1, h2⟩ := ih h
        obtain ⟨j, rfl⟩ : ∃ j, i = j + 1 := ⟨i - 1, by omega⟩
        simpa using h2
    · rw [if_neg hc] at h ⊢
      match i with
      | 0 => simp at h; exact absurd h hc
      | i + 1 =>
        simp only [List.getElem?_cons_succ] at h
        obtain ⟨h1, h2⟩ := ih h
        obtain ⟨j, rfl⟩ : ∃ j, i = j + 1 := ⟨i - 1, by omega⟩
        simpa using h2

theorem mem_escape {s : Str} {c : Char} (h : c ∈ escape s) : c = '\\' ∨ c ∈ s := by
  induction s with
  | nil => simp [escape] at h
  | cons d s ih =>
    rw [escape] at h
    split at h
    · simp at h
      rcases h with h | h | h
      · exact .inl h
      · right; simp_all
      · exact (ih h).imp id (by simp +contextual)
    · simp at h
      rcases h with h | h
      · right; simp [h]
      · exact (ih h).imp id (by simp +contextual)

theorem escape_last {s : Str} (h : '\\' ∉ s) : (escape s).getLast? ≠ some '\\' := by
  induction s with
  | nil => simp [escape]
  | cons d s ih =>
    have hd : d ≠ '\\' := fun e => h (by simp [e])
    have ih := ih fun e => h (by simp [e])
    rw [escape]
    split
    · cases he : escape s with
      | nil => simp
      | cons x r => rw [he] at ih; simpa using ih
    · cases he : escape s with
      | nil => simpa using hd
      | cons x r => rw [he] at ih; simpa using ih

theorem escape_ne_nil {s : Str} (h : s ≠ []) : escape s ≠ [] := by
  cases s with
  | nil => exact absurd rfl h
  | cons c s => rw [escape]; split <;> simp

/-- Stems without backslash, space and tab round-trip: written with escaped slashes, in front of a
slash and the flag text, they are read back, less the ignored characters. -/
theorem C35_round_trip {U : Unicode} {stem flags : Str} (hne : stem ≠ [])
    (hb : '\\' ∉ stem) (hsp : ' ' ∉ stem) (ht : '\t' ∉ stem) (hf : ∀ c ∈ flags, U.isWs c = false)
    (hl : byteLen (escape stem ++ '/' :: flags) ≤ 65535)
    (ty : FlagType) (al : List FlagSet) (ig : List Char) :
    parseDicLine U (escape stem ++ '/' :: flags) ty al ig
      = (decodeFlagset flags ty al).map fun F => (stem.filter fun c => c ∉ ig, F) := by
  have hat : (escape stem ++ '/' :: flags)[(escape stem).length]? = some '/' := by simp
  have hdrop : (escape stem ++ '/' :: flags).drop ((escape stem).length + 1) = flags := by
    simp [List.drop_append]
  have hlen : 0 < (escape stem).length := List.length_pos_iff.2 (escape_ne_nil hne)
  have hend : StemEnd U (escape stem ++ '/' :: flags) (escape stem).length := by
    refine ⟨by simp, ?_, fun _ => .inr (.inl ⟨hat, hlen, ?_⟩)⟩
    · intro i hi
      have hmem : ∀ c, (escape stem ++ '/' :: flags)[i]? = some c → c ∈ escape stem := by
        intro c hc
        rw [List.getElem?_append_left hi] at hc
        exact List.mem_of_getElem? hc
      rintro (h | ⟨h, -, h'⟩ | ⟨h, -⟩)
      · rcases mem_escape (hmem _ h) with h | h
        · simp at h
        · exact ht h
      · rw [List.getElem?_append_left hi] at h
        obtain ⟨h1, h2⟩ := escape_slash h
        rw [List.getElem?_append_left (by omega)] at h'
        exact h' h2
      · rcases mem_escape (hmem _ h) with h | h
        · simp at h
        · exact hsp h
    · rw [List.getElem?_append_left (by omega), ← List.getLast?_eq_getElem?]
      exact escape_last hb
  rw [parseDicLine_eq hl hend]
  · have e1 : flagText U (escape stem ++ '/' :: flags) (escape stem).length = flags := by
      unfold flagText
      rw [if_pos hat, hdrop]
      exact List.takeWhile_eq_self_iff.2 fun c hc => by simp [hf c hc]
    have e2 : stemText ig (escape stem ++ '/' :: flags) (escape stem).length
        = stem.filter fun c => c ∉ ig := by
      unfold stemText
      rw [List.take_left', unescape_escape hb]
      rfl
    rw [e1, e2]
  · intro _ c hc
    rw [← List.head?_drop, hdrop] at hc
    exact hf c (List.mem_of_head? hc)

/-- A stem alone, without backslash, slash, space and tab, is read back without flags. -/
theorem C35_plain_stem {U : Unicode} {stem : Str} (hb : '\\' ∉ stem) (hs : '/' ∉ stem)
    (hsp : ' ' ∉ stem) (ht : '\t' ∉ stem) (hl : byteLen stem ≤ 65535)
    (ty : FlagType) (al : List FlagSet) (ig : List Char) :
    parseDicLine U stem ty al ig = .ok (stem.filter fun c => c ∉ ig, FlagSet.empty) := by
  have hend : StemEnd U stem stem.length := by
    refine ⟨Nat.le_refl _, ?_, fun h => absurd h (Nat.lt_irrefl _)⟩
    rintro i hi (h | ⟨h, -⟩ | ⟨h, -⟩)
    · exact ht (List.mem_of_getElem? h)
    · exact hs (List.mem_of_getElem? h)
    · exact hsp (List.mem_of_getElem? h)
  rw [parseDicLine_eq hl hend (by simp)]
  simp only [flagText, List.getElem?_length, reduceCtorEq, ↓reduceIte, decodeFlagset_nil, stemText,
    List.take_length, unescape_plain hb]
  rfl

-- The hypotheses can be met; stems with escapes, fields, tabs, ignored characters.
example : StemEnd .sample "km\\/h/AB po:noun".toList 5 := by
  obtain ⟨n, hn⟩ := stemEnd_exists .sample "km\\/h/AB po:noun".toList
  have h1 : ¬ n < 5 := fun h => by
    have := hn.2.2 (by have : ("km\\/h/AB po:noun".toList).length = 16 := rfl; omega)
    have h0 : n = 0 ∨ n = 1 ∨ n = 2 ∨ n = 3 ∨ n = 4 := by omega
    rcases h0 with rfl | rfl | rfl | rfl | rfl <;>
      rcases this with h | h | ⟨h, -⟩ <;> revert h <;> decide
  have h2 : ¬ 5 < n := fun h => hn.2.1 5 h (.inr (.inl ⟨rfl, by decide, by decide⟩))
  have : n = 5 := by omega
  exact this ▸ hn
example : parseDicLine .sample "km\\/h/AB po:noun".toList .short [] ['k']
    = .ok ("m/h".toList, FlagSet.ofList [65, 66]) := by decide +kernel
example : parseDicLine .sample "a lot po:adv".toList .short [] []
    = .ok ("a lot".toList, FlagSet.empty) := by decide +kernel
example : parseDicLine .sample "/etc/A".toList .short [] []
    = .ok ("/etc".toList, FlagSet.ofList [65]) := by decide +kernel
example : parseDicLine .sample "x\\/y\tz/A".toList .short [] []
    = .ok ("x/y".toList, FlagSet.empty) := by decide +kernel

/-! ## C58 Compound rules, similarity groups, lines and words are read by their grammars -/

/-- A compound rule is accepted exactly if it is a sequence of flags, spelled as the `FLAG` type says
and each within 1–65535, with an optional `?` or `*` behind each; the rule read is this sequence. -/
theorem C58_rule (ty : FlagType) (s : Str) (rule : CompoundRule) :
    parseCompoundRule s ty = .ok rule ↔ RuleText ty s rule ∧ ∀ e ∈ rule, Flag.Valid e.flag :=
  parseCompoundRule_ok

/-- A text denotes at most one rule. -/
theorem C58_rule_unambiguous {ty : FlagType} {s : Str} {rule rule' : CompoundRule}
    (hv : ∀ e ∈ rule, Flag.Valid e.flag) (hv' : ∀ e ∈ rule', Flag.Valid e.flag)
    (h : RuleText ty s rule) (h' : RuleText ty s rule') : rule = rule' := by
  have e1 := (C58_rule ty s rule).2 ⟨h, hv⟩
  have e2 := (C58_rule ty s rule').2 ⟨h', hv'⟩
  rw [e1] at e2
  exact Except.ok.inj e2

/-- Every rule over flags 1–65535 can be written under `FLAG num`, and reading the text gives the rule
back. -/
theorem C58_rule_round_trip (rule : CompoundRule) (hv : ∀ e ∈ rule, Flag.Valid e.flag) :
    ∃ s, parseCompoundRule s .numeric = .ok rule := by
  have spell : ∀ n : Nat, ∃ ds : Str, ds ≠ [] ∧ (∀ c ∈ ds, '0' ≤ c ∧ c ≤ '9') ∧ n = decimal ds := by
    intro n
    induction n using Nat.strong_induction_on with
    | _ n ih =>
      have digit : ∀ d : Nat, d < 10 → ('0' ≤ Char.ofNat (48 + d) ∧ Char.ofNat (48 + d) ≤ '9') ∧
          (Char.ofNat (48 + d)).toNat - 48 = d := by decide
      obtain ⟨hd, hn⟩ := digit (n % 10) (Nat.mod_lt _ (by omega))
      by_cases h : n < 10
      · rw [Nat.mod_eq_of_lt h] at hd hn
        refine ⟨[Char.ofNat (48 + n)], by simp, by simpa using hd, ?_⟩
        unfold decimal
        simp [hn]
      · obtain ⟨ds, h1, h2, h3⟩ := ih (n / 10) (by omega)
        refine ⟨ds ++ [Char.ofNat (48 + n % 10)], by simp, ?_, ?_⟩
        · intro c hc
          rcases List.mem_append.1 hc with hc | hc
          · exact h2 c hc
          · obtain rfl := List.mem_singleton.1 hc
            exact hd
        · unfold decimal at h3 ⊢
          rw [List.foldl_append, ← h3]
          simp only [List.foldl_cons, List.foldl_nil, hn]
          omega
  have : ∃ s, RuleText .numeric s rule := by
    clear hv
    induction rule with
    | nil => exact ⟨[], .nil⟩
    | cons e rule ih =>
      obtain ⟨s, hs⟩ := ih
      obtain ⟨ds, h1, h2, h3⟩ := spell e.flag
      have := RuleText.cons (modifier := e.modifier) (.numeric ds h1 h2) hs
      rw [← h3] at this
      exact ⟨_, this⟩
  obtain ⟨s, hs⟩ := this
  exact ⟨s, (C58_rule _ _ _).2 ⟨hs, hv⟩⟩

/-- A `MAP` group is read as its single characters and its parenthesised texts. -/
theorem C58_map (s : Str) (g : SimilarityGroup) : SimilarityGroup.ofText s = g ↔ MapText s g :=
  ofText_iff

/-- A text is cut into its lines. -/
theorem C58_lines (s : Str) (lines : List Str) : textLines s = lines ↔ LinesOf s lines := textLines_iff

/-- A line is cut into its words. -/
theorem C58_words (U : Unicode) (s : Str) (words : List Str) :
    splitWhitespace U s = words ↔ WordsOf U s words := splitWhitespace_iff

-- The grammars are inhabited, and reading finds what they say.
example : RuleText .numeric "(5)(6)*(11)?".toList
    [⟨5, none⟩, ⟨6, some .zeroOrMore⟩, ⟨11, some .zeroOrOne⟩] := by
  have h := (C58_rule .numeric "(5)(6)*(11)?".toList
    [⟨5, none⟩, ⟨6, some .zeroOrMore⟩, ⟨11, some .zeroOrOne⟩]).1 (by decide +kernel)
  exact h.1
example : parseCompoundRule "ab?c*d".toList .short
    = .ok [⟨97, none⟩, ⟨98, some .zeroOrOne⟩, ⟨99, some .zeroOrMore⟩, ⟨100, none⟩] := by decide +kernel
example : parseCompoundRule "(L')(D')*".toList (.long .little)
    = .ok [⟨76 + 256 * 39, none⟩, ⟨68 + 256 * 39, some .zeroOrMore⟩] := by decide +kernel
example : parseCompoundRule "*".toList .short = .error .invalidFormat := by decide +kernel
example : MapText "uü(ue)(x)y(z".toList { chars := "uüxy".toList, strings := ["ue".toList] } := by
  rw [← C58_map]; decide +kernel
example : LinesOf "ab\r\n\nc\r".toList ["ab".toList, [], "c\r".toList] := by
  rw [← C58_lines]; decide +kernel
example : WordsOf .sample " SFX  A Y\t".toList ["SFX".toList, "A".toList, "Y".toList] := by
  rw [← C58_words]; decide +kernel

end Spellbook.Props
