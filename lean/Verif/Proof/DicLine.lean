import Verif.Spec.DicLine
import Verif.Proof.FlagFaults
import Mathlib.Data.Nat.Find
/-!
# Lines of the word list
-/

namespace Spellbook
open Spec

theorem dropWhile_eq_iff {α : Type} {p : α → Bool} {l : List α} {a : α} {r : List α} :
    l.dropWhile p = a :: r ↔ ∃ ws, l = ws ++ a :: r ∧ (∀ c ∈ ws, p c = true) ∧ p a = false := by
  induction l with
  | nil => simp
  | cons x l ih =>
    rw [List.dropWhile_cons]
    split
    · rename_i hx
      rw [ih]
      constructor
      · rintro ⟨ws, rfl, h1, h2⟩
        exact ⟨x :: ws, rfl, by simpa [hx] using h1, h2⟩
      · rintro ⟨ws, h, h1, h2⟩
        cases ws with
        | nil => simp at h; obtain ⟨rfl, -⟩ := h; simp_all
        | cons y ws =>
          simp at h; obtain ⟨rfl, rfl⟩ := h
          exact ⟨ws, rfl, fun c hc => h1 c (by simp [hc]), h2⟩
    · rename_i hx
      constructor
      · intro h; cases h; exact ⟨[], rfl, by simp, by simpa using hx⟩
      · rintro ⟨ws, h, h1, h2⟩
        cases ws with
        | nil => simpa using h
        | cons y ws => simp at h; obtain ⟨rfl, -⟩ := h; exact absurd (h1 x (by simp)) hx

theorem isMorphField_iff {U : Unicode} {rest : Str} : isMorphField U rest = true ↔ MorphField U rest := by
  unfold isMorphField MorphField
  constructor
  · intro h
    split at h
    · rename_i a b c more hd
      simp at h
      obtain ⟨⟨ha, hb⟩, rfl⟩ := h
      obtain ⟨ws, h1, h2, h3⟩ := dropWhile_eq_iff.1 hd
      exact ⟨ws, a, b, more, h1, h2, h3, ha, hb⟩
    · simp at h
  · rintro ⟨ws, a, b, more, h1, h2, h3, ha, hb⟩
    rw [dropWhile_eq_iff.2 ⟨ws, h1, h2, h3⟩]
    simp [ha, hb]

theorem unescape_snoc (pre : Str) (c : Char) : unescape (pre ++ [c]) =
    if c = '/' ∧ pre.getLast? = some '\\' then (unescape pre).dropLast ++ ['/']
    else unescape pre ++ [c] := by
  fun_induction unescape pre with
  | case1 => simp [unescape]
  | case2 d =>
    simp only [List.cons_append, List.nil_append, unescape, List.getLast?_singleton, Option.some.injEq]
    by_cases h : c = '/' ∧ d = '\\'
    · simp [h]
    · rw [if_neg (fun h' => h ⟨h'.2, h'.1⟩), if_neg h]
  | case3 a b rest h ih =>
    obtain ⟨rfl, rfl⟩ := h
    simp only [List.cons_append, unescape, and_self, ↓reduceIte]
    rw [ih]
    have hl : ('\\' :: '/' :: rest).getLast? = some '\\' ↔ rest.getLast? = some '\\' := by
      cases rest with
      | nil => simp
      | cons x r => simp [List.getLast?_cons_cons]
    simp only [hl]
    split
    · rename_i h'
      have : unescape rest ≠ [] := by
        intro h0
        have : rest = [] := by
          revert h0
          fun_cases unescape rest <;> simp
        simp [this] at h'
      rw [List.dropLast_cons_of_ne_nil this]; rfl
    · rfl
  | case4 a b rest h ih =>
    have hne : unescape (b :: rest) ≠ [] := by
      cases rest with
      | nil => simp [unescape]
      | cons d r => rw [unescape]; split <;> simp
    rw [List.cons_append, List.cons_append, unescape, if_neg h, ← List.cons_append, ih,
      List.getLast?_cons_cons]
    split
    · rw [List.dropLast_cons_of_ne_nil hne]; rfl
    · rfl

theorem isEmpty_snoc (s : Str) (c : Char) : List.isEmpty (s ++ [c]) = false := by simp

/-- What the scan returns when the stem ends at `n`. -/
def scanResult (line : Str) (n : Nat) : DicScan :=
  match line[n]? with
  | none => .flags (unescape line) []
  | some c => if c = '/' then .flags (unescape (line.take n)) (line.drop (n + 1))
    else .word (unescape (line.take n))

theorem scanDic_eq (U : Unicode) : ∀ (rest pre : Str) (n : Nat), StemEnd U (pre ++ rest) n →
    pre.length ≤ n →
    scanDic U (unescape pre) (decide (pre.getLast? = some '\\')) pre.isEmpty rest
      = scanResult (pre ++ rest) n := by
  intro rest
  induction rest with
  | nil =>
    intro pre n hn hp
    have : n = pre.length := by have := hn.1; simp at this; omega
    subst this
    simp [scanDic, scanResult]
  | cons ch rest ih =>
    intro pre n hn hp
    have hat : (pre ++ ch :: rest)[pre.length]? = some ch := by simp
    have hdrop : (pre ++ ch :: rest).drop (pre.length + 1) = rest := by
      simp [List.drop_append]
    have htake : (pre ++ ch :: rest).take pre.length = pre := by simp
    have hprev : 0 < pre.length → (pre ++ ch :: rest)[pre.length - 1]? = pre.getLast? := by
      intro h0
      rw [List.getElem?_append_left (by omega), List.getLast?_eq_getElem?]
    -- going on
    have go : ¬ StopsAt U (pre ++ ch :: rest) pre.length →
        scanDic U (unescape (pre ++ [ch])) (decide ((pre ++ [ch]).getLast? = some '\\'))
          (pre ++ [ch]).isEmpty rest = scanResult (pre ++ ch :: rest) n := by
      intro hs
      have hlt : pre.length < n := by
        rcases Nat.lt_or_ge pre.length n with h | h
        · exact h
        · have : n = pre.length := by omega
          subst this
          exact absurd (hn.2.2 (by simp)) hs
      have := ih (pre ++ [ch]) n (by simpa using hn) (by simp; omega)
      simpa using this
    have stop : StopsAt U (pre ++ ch :: rest) pre.length → n = pre.length := by
      intro hs
      rcases Nat.lt_or_ge pre.length n with h | h
      · exact absurd hs (hn.2.1 _ h)
      · omega
    rw [scanDic]
    by_cases h1 : ch = '/'
    · subst h1
      rw [if_pos rfl]
      by_cases he : pre.getLast? = some '\\'
      · have hpre : pre ≠ [] := by intro h; simp [h] at he
        rw [if_pos (by simpa using he)]
        have := go (by
          rintro (h | ⟨-, h0, h⟩ | ⟨h, -⟩)
          · rw [hat] at h; simp at h
          · exact h ((hprev h0).trans he)
          · rw [hat] at h; simp at h)
        rw [unescape_snoc, if_pos ⟨rfl, he⟩, isEmpty_snoc] at this
        simpa using this
      · rw [if_neg (by simpa using he)]
        by_cases hf : pre = []
        · subst hf
          simp only [List.isEmpty_nil, Bool.not_true, Bool.false_eq_true, ↓reduceIte]
          have := go (by
            rintro (h | ⟨-, h0, h⟩ | ⟨h, -⟩)
            · simp at h
            · simp at h0
            · simp at h)
          rw [unescape_snoc] at this
          simpa using this
        · have hpl : 0 < pre.length := List.length_pos_iff.2 hf
          have hstop : StopsAt U (pre ++ '/' :: rest) pre.length :=
            .inr (.inl ⟨hat, hpl, by rw [hprev hpl]; exact he⟩)
          have := stop hstop
          subst this
          have hfe : pre.isEmpty = false := by simpa using hf
          simp only [hfe, Bool.not_false, ↓reduceIte, scanResult, hat, htake, hdrop]
    · rw [if_neg h1]
      by_cases h2 : ch = '\t'
      · subst h2
        rw [if_pos rfl]
        have := stop (.inl hat)
        subst this
        simp only [scanResult, hat, htake]
        rfl
      · rw [if_neg h2]
        by_cases h3 : ch = ' '
        · subst h3
          rw [if_pos rfl]
          by_cases hm : MorphField U rest
          · rw [if_pos (isMorphField_iff.2 hm)]
            have := stop (.inr (.inr ⟨hat, by rw [hdrop]; exact hm⟩))
            subst this
            simp only [scanResult, hat, htake]
            rfl
          · rw [if_neg (fun h => hm (isMorphField_iff.1 h))]
            have := go (by
              rintro (h | ⟨h, -⟩ | ⟨-, h⟩)
              · rw [hat] at h; simp at h
              · rw [hat] at h; simp at h
              · rw [hdrop] at h; exact hm h)
            rw [unescape_snoc, isEmpty_snoc] at this
            simpa using this
        · rw [if_neg h3]
          have := go (by
            rintro (h | ⟨h, -⟩ | ⟨h, -⟩)
            · rw [hat] at h; simp at h; exact h2 h
            · rw [hat] at h; simp at h; exact h1 h
            · rw [hat] at h; simp at h; exact h3 h)
          rw [unescape_snoc, if_neg (fun h => h1 h.1), isEmpty_snoc] at this
          simpa using this

theorem scanDic_first (U : Unicode) (word : Str) (ch : Char) (rest : Str) (h : ch ≠ '/') (b : Bool) :
    scanDic U word false b (ch :: rest) = scanDic U word false false (ch :: rest) := by
  rw [scanDic, scanDic, if_neg h, if_neg h]

theorem stemEnd_exists (U : Unicode) (line : Str) : ∃ n, StemEnd U line n := by
  classical
  have h : ∃ n, line.length ≤ n ∨ StopsAt U line n := ⟨line.length, .inl (Nat.le_refl _)⟩
  refine ⟨Nat.find h, Nat.find_min' h (.inl (Nat.le_refl _)), ?_, ?_⟩
  · intro i hi hs
    exact Nat.find_min h hi (.inr hs)
  · intro hl
    rcases Nat.find_spec h with h' | h'
    · omega
    · exact h'

theorem stemEnd_unique {U : Unicode} {line : Str} {m n : Nat} (hm : StemEnd U line m)
    (hn : StemEnd U line n) : m = n := by
  rcases Nat.lt_trichotomy m n with h | h | h
  · exact absurd (hm.2.2 (by have := hn.1; omega)) (hn.2.1 m h)
  · exact h
  · exact absurd (hn.2.2 (by have := hm.1; omega)) (hm.2.1 n h)

theorem splitWhitespace_head {U : Unicode} {s : Str} (h : ∀ c, s.head? = some c → U.isWs c = false) :
    (splitWhitespace U s).head?.getD s = s.takeWhile fun c => !U.isWs c := by
  cases s with
  | nil => rw [splitWhitespace]; simp
  | cons c s =>
    have hc := h c rfl
    rw [splitWhitespace]
    split
    · rename_i h0; rw [List.dropWhile_cons, if_neg (by simp [hc])] at h0; simp at h0
    · rename_i d r h0
      rw [List.dropWhile_cons, if_neg (by simp [hc])] at h0
      cases h0
      simp [takeWord, List.takeWhile_cons, hc]

theorem decodeFlagset_nil (ty : FlagType) (al : List FlagSet) :
    decodeFlagset [] ty al = .ok FlagSet.empty := by
  unfold decodeFlagset
  split
  · rfl
  · have : aliasIndex? [] al.length = none := rfl
    rw [this]; rfl

theorem ignoreChars_eq (s : Str) (ig : List Char) : ignoreChars s ig = s.filter fun c => c ∉ ig := by
  unfold ignoreChars
  cases ig with
  | nil => simp
  | cons a l =>
    rw [if_neg (by simp)]
    congr 1
    funext c
    simp

theorem unescape_plain {s : Str} (h : '\\' ∉ s) : unescape s = s := by
  fun_induction unescape s with
  | case1 => rfl
  | case2 => rfl
  | case3 a b rest hc ih => exact absurd (by simp [hc.1]) h
  | case4 a b rest hc ih => rw [ih (fun h' => h (by simp [h']))]

theorem dropWhile_nil_iff {α : Type} {p : α → Bool} {l : List α} :
    l.dropWhile p = [] ↔ ∀ c ∈ l, p c = true := by
  induction l with
  | nil => simp
  | cons c l ih => rw [List.dropWhile_cons]; split <;> simp_all

open Classical in
theorem splitWhitespace_first {U : Unicode} (s : Str) :
    (splitWhitespace U s).head?.getD s
      = if ∀ c ∈ s, U.isWs c = true then s else (s.dropWhile U.isWs).takeWhile fun c => !U.isWs c := by
  rw [splitWhitespace]
  split
  · rename_i h0
    rw [if_pos (dropWhile_nil_iff.1 h0)]
    rfl
  · rename_i d r h0
    rw [if_neg fun h => by rw [dropWhile_nil_iff.2 h] at h0; cases h0]
    obtain ⟨-, -, -, hd⟩ := dropWhile_eq_iff.1 h0
    rw [h0]
    simp [takeWord, List.takeWhile_cons, hd]

theorem special_iff {s : Str} : (∃ c ∈ s, c ∈ ['/', '\\', ' ', '\t']) ↔ ∃ c ∈ s, isDicSpecial c = true := by
  simp [isDicSpecial, or_assoc]

/-- Unless white space follows the slash directly, the flags are what follows the slash up to white space. -/
theorem flagsBehind_eq {U : Unicode} {line : Str} {n : Nat}
    (hs : line[n]? = some '/' → ∀ c, line[n + 1]? = some c → U.isWs c = false) :
    flagsBehind U line n = flagText U line n := by
  unfold flagsBehind flagText
  split
  · rename_i h
    split
    · rfl
    · cases hd : line.drop (n + 1) with
      | nil => simp
      | cons c r =>
        have hc : U.isWs c = false := hs h c (by rw [← List.head?_drop, hd]; rfl)
        rw [if_neg fun h' => by have := h' c (by simp); rw [hc] at this; cases this]
        rw [List.dropWhile_cons, if_neg (by simp [hc])]
  · rfl

/-- A line, exactly: `n` is the end of the stem. -/
theorem parseDicLine_exact {U : Unicode} {line : Str} {n : Nat} (hl : byteLen line ≤ 65535)
    (hn : StemEnd U line n) (ty : FlagType) (al : List FlagSet) (ig : List Char) :
    parseDicLine U line ty al ig
      = (decodeFlagset (flagsBehind U line n) ty al).map fun F => (stemText ig line n, F) := by
  unfold parseDicLine
  rw [if_neg (by unfold u16Max; omega)]
  have hsplit := List.takeWhile_append_dropWhile (p := fun c => !isDicSpecial c) (l := line)
  have hb : ∀ c ∈ line.takeWhile (fun c => !isDicSpecial c), isDicSpecial c = false := by
    intro c hc
    have := List.all_eq_true.1 (List.all_takeWhile (p := fun c => !isDicSpecial c) (l := line)) c hc
    simpa using this
  generalize hbe : line.takeWhile (fun c => !isDicSpecial c) = before at *
  simp only
  have nostop : ∀ i < before.length, ¬ StopsAt U line i := by
    intro i hi h
    have e : line[i]? = some before[i] := by
      rw [← hsplit, List.getElem?_append_left hi, List.getElem?_eq_getElem hi]
    have := hb before[i] (List.getElem_mem hi)
    rcases h with h | ⟨h, -⟩ | ⟨h, -⟩ <;>
    · rw [e] at h
      simp only [Option.some.injEq] at h
      rw [h] at this
      simp [isDicSpecial] at this
  have hbl : before.length ≤ n := by
    rcases Nat.lt_or_ge n before.length with h | h
    · exact absurd (hn.2.2 (by rw [← hsplit]; simp; omega)) (nostop n h)
    · exact h
  have nobs : '\\' ∉ before := fun h => by have := hb _ h; simp [isDicSpecial] at this
  cases hd : line.dropWhile (fun c => !isDicSpecial c) with
  | nil =>
    have hbl' : before = line := by rw [hd] at hsplit; simpa using hsplit
    have : n = line.length := by have := hn.1; rw [hbl'] at hbl; omega
    subst this
    simp only [flagsBehind, List.getElem?_length, reduceCtorEq, ↓reduceIte, decodeFlagset_nil,
      stemText, List.take_length]
    rw [← hbl', unescape_plain nobs, ignoreChars_eq]
    rfl
  | cons byte rest =>
    rw [hd] at hsplit
    have hsp : isDicSpecial byte = true := by
      obtain ⟨ws, -, -, h⟩ := dropWhile_eq_iff.1 hd
      simpa using h
    have hat : line[before.length]? = some byte := by rw [← hsplit]; simp
    have hdrop : line.drop (before.length + 1) = rest := by rw [← hsplit]; simp [List.drop_append]
    have htake : line.take before.length = before := by rw [← hsplit]; simp
    have stop : StopsAt U line before.length → n = before.length := by
      intro h
      rcases Nat.lt_or_ge before.length n with h' | h'
      · exact absurd h (hn.2.1 _ h')
      · omega
    simp only
    by_cases h1 : byte = '/' ∧ before ≠ []
    · rw [if_pos h1]
      obtain ⟨rfl, hne⟩ := h1
      have hlen : 0 < before.length := List.length_pos_iff.2 hne
      have := stop (.inr (.inl ⟨hat, hlen, by
        rw [← hsplit, List.getElem?_append_left (by omega)]
        intro h
        exact nobs (List.mem_of_getElem? h)⟩))
      subst this
      have hns : ¬ ∃ c ∈ before, c ∈ ['/', '\\', ' ', '\t'] := by
        rw [special_iff]
        rintro ⟨c, hc, h⟩
        rw [hb c hc] at h; cases h
      rw [splitWhitespace_first]
      simp only [flagsBehind, hat, ↓reduceIte, hdrop, stemText, htake, hns, unescape_plain nobs,
        ignoreChars_eq]
    · rw [if_neg h1]
      by_cases h2 : byte = '\t'
      · rw [if_pos h2]
        subst h2
        have := stop (.inl hat)
        subst this
        simp only [flagsBehind, hat, Option.some.injEq, Char.reduceEq, ↓reduceIte, decodeFlagset_nil,
          stemText, htake, unescape_plain nobs, ignoreChars_eq]
        rfl
      · rw [if_neg h2]
        have key : scanDic U before false true (byte :: rest) = scanResult line n := by
          have hlast : decide (before.getLast? = some '\\') = false := by
            rw [decide_eq_false_iff_not]
            intro h
            exact nobs (List.mem_of_getLast? h)
          have := scanDic_eq U (byte :: rest) before n (by rw [hsplit]; exact hn) hbl
          rw [unescape_plain nobs, hlast, hsplit] at this
          rw [← this]
          by_cases hb0 : before = []
          · subst hb0; rfl
          · have hne : byte ≠ '/' := fun h => h1 ⟨h, hb0⟩
            have hbe : before.isEmpty = false := by simpa using hb0
            rw [scanDic_first U before byte rest hne true, hbe]
        rw [key]
        unfold scanResult flagsBehind stemText
        cases hnl : line[n]? with
        | none =>
          have : line.length ≤ n := List.getElem?_eq_none_iff.1 hnl
          have hle := hn.1
          simp only [reduceCtorEq, ↓reduceIte, takeWord, List.takeWhile_nil, decodeFlagset_nil,
            ignoreChars_eq]
          rw [List.take_of_length_le (by omega)]
        | some c =>
          by_cases hc : c = '/'
          · have hsn : ∃ c ∈ line.take n, c ∈ ['/', '\\', ' ', '\t'] := by
              refine special_iff.2 ⟨byte, ?_, hsp⟩
              have hlt : before.length < n := by
                rcases Nat.lt_or_ge before.length n with h | h
                · exact h
                · have e : n = before.length := by omega
                  subst e
                  rw [hat] at hnl
                  simp only [Option.some.injEq] at hnl
                  have hb0 : before = [] := by
                    by_contra h'
                    exact h1 ⟨hnl.trans hc, h'⟩
                  have := hn.2.2 (by rw [← hsplit]; simp)
                  rw [hb0] at this hat
                  rcases this with h | ⟨-, h, -⟩ | ⟨h, -⟩
                  · rw [hat, hnl, hc] at h; simp at h
                  · simp at h
                  · rw [hat, hnl, hc] at h; simp at h
              refine List.mem_iff_getElem?.2 ⟨before.length, ?_⟩
              rw [List.getElem?_take, if_pos hlt, hat]
            simp only [hc, ↓reduceIte, takeWord, ignoreChars_eq, hsn]
          · simp only [hc, ↓reduceIte, Option.some.injEq, decodeFlagset_nil, ignoreChars_eq]
            rfl

/-- A line, exactly: `n` is the end of the stem, and no white space follows the slash there. -/
theorem parseDicLine_eq {U : Unicode} {line : Str} {n : Nat} (hl : byteLen line ≤ 65535)
    (hn : StemEnd U line n)
    (hs : line[n]? = some '/' → ∀ c, line[n + 1]? = some c → U.isWs c = false)
    (ty : FlagType) (al : List FlagSet) (ig : List Char) :
    parseDicLine U line ty al ig
      = (decodeFlagset (flagText U line n) ty al).map fun F => (stemText ig line n, F) := by
  rw [parseDicLine_exact hl hn, flagsBehind_eq hs]

theorem parseDicLine_ok {U : Unicode} {line : Str} {ty : FlagType} {al : List FlagSet} {ig : List Char}
    {stem : Str} {F : FlagSet} :
    parseDicLine U line ty al ig = .ok (stem, F) ↔ LineMeans U ty al ig line stem F := by
  unfold LineMeans
  by_cases hl : byteLen line ≤ 65535
  · obtain ⟨n, hn⟩ := stemEnd_exists U line
    rw [parseDicLine_exact hl hn, except_map_ok]
    constructor
    · rintro ⟨G, h, h'⟩
      simp only [Prod.mk.injEq] at h'
      obtain ⟨rfl, rfl⟩ := h'
      exact ⟨hl, n, hn, rfl, aliasFlags_iff.2 h⟩
    · rintro ⟨-, m, hm, rfl, h⟩
      obtain rfl := stemEnd_unique hm hn
      exact ⟨F, aliasFlags_iff.1 h, rfl⟩
  · unfold parseDicLine
    rw [if_pos (by unfold u16Max; omega)]
    simp [hl]

theorem parseDicLine_error {U : Unicode} {line : Str} {ty : FlagType} {al : List FlagSet} {ig : List Char}
    {e : FlagError} : parseDicLine U line ty al ig = .error e ↔ EntryFault U ty al line e := by
  unfold EntryFault
  by_cases hl : byteLen line ≤ 65535
  · obtain ⟨n, hn⟩ := stemEnd_exists U line
    rw [parseDicLine_exact hl hn]
    have : (decodeFlagset (flagsBehind U line n) ty al).map (fun F => (stemText ig line n, F)) = .error e ↔
        decodeFlagset (flagsBehind U line n) ty al = .error e := by
      cases decodeFlagset (flagsBehind U line n) ty al <;> simp [Except.map]
    rw [this, decodeFlagset_error]
    constructor
    · exact fun h => .inr ⟨hl, n, hn, h⟩
    · rintro (⟨h, -⟩ | ⟨-, m, hm, h⟩)
      · omega
      · obtain rfl := stemEnd_unique hm hn
        exact h
  · unfold parseDicLine
    rw [if_pos (by unfold u16Max; omega)]
    simp [hl, show 65535 < byteLen line by omega, eq_comm]

theorem byteLen_unescape_le (s : Str) : byteLen (unescape s) ≤ byteLen s := by
  fun_induction unescape s with
  | case1 => simp
  | case2 => simp
  | case3 a b rest hc ih =>
    obtain ⟨rfl, rfl⟩ := hc
    simp only [byteLen_cons]; omega
  | case4 a b rest hc ih => simp only [byteLen_cons] at ih ⊢; omega

theorem byteLen_filter_le (s : Str) (p : Char → Bool) : byteLen (s.filter p) ≤ byteLen s := by
  induction s with
  | nil => simp
  | cons c s ih => rw [List.filter_cons]; split <;> simp only [byteLen_cons] <;> omega

theorem byteLen_append_le (a b : Str) : byteLen a ≤ byteLen (a ++ b) := by
  rw [byteLen_append]; omega

/-- The stem a scan has read. -/
def DicScan.stem : DicScan → Str
  | .word w => w
  | .flags w _ => w

theorem scanDic_short (U : Unicode) : ∀ (rest word : Str) (e f : Bool),
    (e = true → word ≠ []) →
    byteLen (scanDic U word e f rest).stem ≤ byteLen word + byteLen rest := by
  intro rest
  induction rest with
  | nil => intro word e f _; simp [scanDic, DicScan.stem]
  | cons ch rest ih =>
    intro word e f he
    rw [scanDic]
    have push : ∀ b, byteLen (scanDic U (word ++ [ch]) b false rest).stem
        ≤ byteLen word + byteLen (ch :: rest) := by
      intro b
      have := ih (word ++ [ch]) b false (by simp)
      simp only [byteLen_append, byteLen_cons, byteLen_nil] at this ⊢
      omega
    have stay : byteLen word ≤ byteLen word + byteLen (ch :: rest) := Nat.le_add_right _ _
    by_cases h1 : ch = '/'
    · rw [if_pos h1]
      by_cases h2 : e = true
      · rw [if_pos h2]
        have hdl : byteLen word.dropLast ≤ byteLen word := by
          conv => rhs; rw [← List.dropLast_append_getLast (he h2)]
          exact byteLen_append_le _ _
        have := ih (word.dropLast ++ ['/']) false false (by simp)
        subst h1
        simp only [byteLen_append, byteLen_cons, byteLen_nil] at this ⊢
        omega
      · rw [if_neg h2]
        split
        · exact stay
        · exact push false
    · rw [if_neg h1]
      by_cases h2 : ch = '\t'
      · rw [if_pos h2]; exact stay
      · rw [if_neg h2]
        by_cases h3 : ch = ' '
        · rw [if_pos h3]
          split
          · exact stay
          · exact push false
        · rw [if_neg h3]; exact push _

/-- The stem fits the word list's strings. -/
theorem parseDicLine_short {U : Unicode} {line : Str} {ty : FlagType} {al : List FlagSet}
    {ig : List Char} {stem : Str} {F : FlagSet} (h : parseDicLine U line ty al ig = .ok (stem, F)) :
    byteLen stem ≤ byteLen line ∧ byteLen line ≤ 65535 := by
  unfold parseDicLine at h
  split at h
  · simp at h
  · rename_i hl
    refine ⟨?_, by unfold u16Max at hl; omega⟩
    have hsplit := List.takeWhile_append_dropWhile (p := fun c => !isDicSpecial c) (l := line)
    have hle : byteLen (line.takeWhile fun c => !isDicSpecial c) ≤ byteLen line := by
      conv => rhs; rw [← hsplit]
      exact byteLen_append_le _ _
    simp only at h
    split at h
    · simp only [ignoreChars_eq, Except.ok.injEq, Prod.mk.injEq] at h
      rw [← h.1]; exact byteLen_filter_le _ _
    · rename_i byte rest hd
      split at h
      · obtain ⟨F', -, h⟩ := except_map_ok.1 h
        simp only [ignoreChars_eq, Prod.mk.injEq] at h
        rw [← h.1]; exact Nat.le_trans (byteLen_filter_le _ _) hle
      · split at h
        · simp only [ignoreChars_eq, Except.ok.injEq, Prod.mk.injEq] at h
          rw [← h.1]; exact Nat.le_trans (byteLen_filter_le _ _) hle
        · have hs := scanDic_short U (byte :: rest) (line.takeWhile fun c => !isDicSpecial c) false true
            (by simp)
          have hsum : byteLen (line.takeWhile fun c => !isDicSpecial c) + byteLen (byte :: rest)
              = byteLen line := by
            rw [← byteLen_append, ← hd, hsplit]
          split at h
          · rename_i w hw
            rw [hw] at hs
            simp only [ignoreChars_eq, Except.ok.injEq, Prod.mk.injEq] at h
            rw [← h.1]; have := byteLen_filter_le w fun c => decide (c ∉ ig); simp only [DicScan.stem] at hs; omega
          · rename_i w r hw
            rw [hw] at hs
            obtain ⟨F', -, h⟩ := except_map_ok.1 h
            simp only [ignoreChars_eq, Prod.mk.injEq] at h
            rw [← h.1]; have := byteLen_filter_le w fun c => decide (c ∉ ig); simp only [DicScan.stem] at hs; omega

end Spellbook
