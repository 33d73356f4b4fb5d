import Verif.Proof.Parse
import Verif.Props.Text
/-!
# Properties of `Dictionary::new`: C36, C37, C38, C53

`parse U S aff dic` is `Dictionary::new`; `U` are the Unicode tables and `S` the choices of the
unstable sorts.
-/

namespace Spellbook.Props
open Spec

variable {U : Unicode} {S : Sorts} {aff dic : Str}

/-! ## C36 Parsing is total, errors point at the right line -/

/-- The model never runs out of fuel: parsing terminates. -/
theorem C36_not_endless (U : Unicode) (S : Sorts) (aff dic : Str) : parse U S aff dic ≠ .error .fuel := by
  rcases parse_cases (U := U) S aff dic with ⟨_, D, h, -⟩ | ⟨e, h, -⟩ | ⟨_, e, h, -⟩ | ⟨_, l, h, -⟩ <;>
    rw [h] <;> simp

/-- A panic happens exactly if the first line of the `.dic` text which is not fine has a hidden twin
that does not fit a stem. -/
theorem C36_panic_iff (U : Unicode) (S : Sorts) (aff dic : Str) : parse U S aff dic = .error .panic ↔
    ∃ cx l, Settings U aff cx ∧ FineUpTo U cx dic l ∧ TwinTooLong U cx l.2 := by
  constructor
  · intro hp
    rcases parse_cases (U := U) S aff dic with ⟨_, D, h, -⟩ | ⟨e, h, -⟩ | ⟨_, e, h, -⟩ | ⟨cx, l, h, h'⟩ <;>
      rw [h] at hp <;> simp at hp
    exact ⟨cx, l, h'⟩
  · rintro ⟨cx, l, h1, h2, h3⟩
    exact parse_dic_error (settings_iff.2 h1) (parseDic_twin h2 h3)

/-- **C36**, for texts none of whose entries has a hidden twin over 65535 bytes (see `C36_panics`): the
result is a dictionary or an error, and the line number of an error is the number of a line of the
named file. -/
theorem C36_total_partial (hshort : ∀ cx l, l ∈ numbered dic → ¬ TwinTooLong U cx l.2) :
    (∃ D, parse U S aff dic = .ok D) ∨
    ∃ e, parse U S aff dic = .error (.error e) ∧
      (e.lineNumber = none ∨
        ∃ l ∈ numbered (match e.source with | .aff => aff | .dic => dic), e.lineNumber = some l.1) := by
  rcases parse_cases (U := U) S aff dic with ⟨_, D, h, -⟩ | ⟨e, h, hs, -, h'⟩ | ⟨_, e, h, hs, -, h'⟩ |
    ⟨cx, l, h, -, h1, h2⟩
  · exact .inl ⟨D, h⟩
  · right
    refine ⟨e, h, ?_⟩
    rw [hs]
    exact h'
  · right
    refine ⟨e, h, ?_⟩
    rw [hs]
    rcases h' with (⟨-, h', -⟩ | ⟨first, rest, h', h'', -⟩) | ⟨l, ⟨first, before, after, es, h', -⟩, -, h''⟩
    · exact .inl h'
    · exact .inr ⟨first, h'.1.subset (by simp), h''⟩
    · exact .inr ⟨l, h'.1.subset (by simp), h''⟩
  · obtain ⟨first, before, after, es, h', -⟩ := h1
    exact absurd h2 (hshort cx l (h'.1.subset (by simp)))

/-- Case conversion at most triples the length of a text (true of all characters). So there is no
panic if no line of the `.dic` text is longer than 21845 bytes. -/
theorem C36_no_panic (hup : ∀ c, byteLen (U.upper c) ≤ 3 * c.utf8Size)
    (hlow : ∀ c, byteLen (U.lower c) ≤ 3 * c.utf8Size) (hshort : ∀ l ∈ numbered dic, byteLen l.2 ≤ 21845) :
    parse U S aff dic ≠ .error .panic := by
  intro h
  obtain ⟨cx, l, -, ⟨first, before, after, es, h', -⟩, t, stem, F, title, h1, -, h2, -, h3, h4⟩ :=
    (C36_panic_iff U S aff dic).1 h
  have := hshort l (h'.1.subset (by simp))
  have := titlecase_length hup hlow h3
  have := (parseDicLine_short (parseDicLine_ok.2 h2)).1
  have := trimmed_byteLen h1
  omega

theorem escape_plain {s : Str} (h : '/' ∉ s) : escape s = s := by
  induction s with
  | nil => rfl
  | cons c s ih =>
    rw [escape, if_neg (by rintro rfl; simp at h), ih fun h' => h (by simp [h'])]

/-- `Ⱥ` (two bytes) so many times behind an `A`. The lower-case form `ⱥ` has three bytes. -/
def longStem (n : Nat) : Str := 'A' :: List.replicate n 'Ⱥ'

theorem mem_longStem {n : Nat} {c : Char} (h : c ∈ longStem n) : c = 'A' ∨ c = 'Ⱥ' := by
  rcases List.mem_cons.1 h with h | h
  · exact .inl h
  · exact .inr (List.eq_of_mem_replicate h)

theorem byteLen_replicate (n : Nat) (c : Char) : byteLen (List.replicate n c) = n * c.utf8Size := by
  induction n with
  | zero => simp
  | succ n ih => rw [List.replicate_succ, byteLen_cons, ih]; rw [Nat.succ_mul]; omega

theorem byteLen_longStem (n : Nat) : byteLen (longStem n) = 1 + n * 2 := by
  unfold longStem
  rw [byteLen_cons, byteLen_replicate]; rfl

/-- The claim fails: there are texts for which `Dictionary::new` panics. They have one entry, in
capitals and with a flag, whose stem has up to 65533 bytes and whose title-case form is too long.
The hypotheses are facts about five characters. -/
theorem C36_panics (hws : ∀ c ∈ ['1', 'A', 'Ⱥ', '/'], U.isWs c = false)
    (hup : U.isUpper 'A' = true ∧ U.isUpper 'Ⱥ' = true) (hlo : U.isLower 'A' = false ∧ U.isLower 'Ⱥ' = false)
    (hl : U.lower 'Ⱥ' = ['ⱥ']) {n : Nat} (h1 : n ≤ 32766) (h2 : 21846 ≤ n) :
    parse U S [] ("1\n".toList ++ longStem n ++ "/A".toList) = .error .panic := by
  have hnot : ∀ c, c ≠ 'A' → c ≠ 'Ⱥ' → c ∉ longStem n := fun c h1 h2 h => by
    rcases mem_longStem h with h | h
    · exact h1 h
    · exact h2 h
  have hnl : '\n' ∉ longStem n ++ "/A".toList := by
    intro h
    rcases List.mem_append.1 h with h | h
    · exact hnot _ (by decide) (by decide) h
    · revert h; decide
  have hhead : ∀ c, (longStem n ++ "/A".toList).head? = some c → c = 'A' := by
    intro c h; cases h; rfl
  have hlast : ∀ c, (longStem n ++ "/A".toList).getLast? = some c → c = 'A' := by
    intro c h; rw [List.getLast?_append] at h; cases h; rfl
  have hcom : ¬ Comment U (longStem n ++ "/A".toList) := by
    rintro ⟨ws, rest, h1, -, h2⟩
    cases ws with
    | nil => cases h1
    | cons c ws =>
      have hc : c = 'A' := (List.cons.inj h1).1.symm
      have := h2 c (by simp)
      rw [hc, hws 'A' (by simp)] at this
      cases this
  have hcom1 : isComment U ['1'] = false := by
    unfold isComment trimStart
    rw [List.dropWhile_cons, if_neg (by simp [hws '1' (by simp)])]
    rfl
  have hdic : "1\n".toList ++ longStem n ++ "/A".toList = ['1'] ++ '\n' :: (longStem n ++ "/A".toList) := by
    simp
  have hone : contentLines U (['1'] ++ ['\n']) = [(1, ['1'])] := by
    have : numbered (['1'] ++ ['\n']) = [(1, ['1'])] := by decide
    unfold contentLines
    rw [this, List.filter_cons_of_pos (by simp [hcom1])]
    rfl
  have hlen : (numbered (['1'] ++ ['\n'])).length = 1 := by decide
  refine (C36_panic_iff U S _ _).2 ⟨{}, (2, longStem n ++ "/A".toList), ⟨[], content_iff.2 ?_, .done⟩,
    ⟨(1, ['1']), [], [], [], content_iff.2 ?_, ⟨['1'], [], 1, ?_, usize_ok.1 (by decide)⟩, .nil, by simp⟩, ?_⟩
  · rfl
  · rw [hdic, contentLines_snoc hnl (by simp [longStem]) hcom, hone, hlen]
    rfl
  · rw [splitWhitespace, List.dropWhile_cons, if_neg (by simp [hws '1' (by simp)])]
    simp [takeWord, splitWhitespace]
  · have hpos : ∃ m, n = m + 1 := ⟨n - 1, by omega⟩
    refine ⟨longStem n ++ "/A".toList, longStem n, FlagSet.ofList [65],
      U.upper 'A' ++ List.replicate n 'ⱥ', ⟨[], [], by simp, by simp, by simp, ?_, ?_⟩, ?_, ?_, ?_, ?_, ?_⟩
    · intro c hc; rw [hhead c hc]; exact hws _ (by simp)
    · intro c hc; rw [hlast c hc]; exact hws _ (by simp)
    · rintro (h | ⟨c, rest, h⟩)
      · cases h
      · cases h
    · have := C35_round_trip (U := U) (stem := longStem n) (flags := ['A']) (by simp [longStem])
        (hnot _ (by decide) (by decide)) (hnot _ (by decide) (by decide)) (hnot _ (by decide) (by decide))
        (by simp [hws]) (by
          rw [escape_plain (hnot _ (by decide) (by decide)), byteLen_append, byteLen_longStem]
          have : byteLen ('/' :: ['A']) = 2 := rfl
          omega) .short [] []
      rw [escape_plain (hnot _ (by decide) (by decide))] at this
      have hd : decodeFlagset ['A'] .short [] = .ok (FlagSet.ofList [65]) := by decide +kernel
      rw [hd] at this
      exact parseDicLine_ok.1 (by simpa [Except.map] using this)
    · refine .inr ⟨⟨⟨'A', by simp [longStem], hup.1⟩, ?_, ?_⟩, 65, by decide +kernel⟩
      · intro c hc
        rcases mem_longStem hc with rfl | rfl
        · exact hlo.1
        · exact hlo.2
      · rintro ⟨c, r, h, -, h'⟩
        have hr : r = List.replicate n 'Ⱥ' := (List.cons.inj h).2.symm
        have := h' 'Ⱥ' (by rw [hr]; exact List.mem_replicate.2 ⟨by omega, rfl⟩)
        rw [hup.2] at this
        cases this
    · unfold longStem
      have : ∀ m, (List.replicate m 'Ⱥ').flatMap (CaseHandling.standard.lowerChar U) = List.replicate m 'ⱥ' := by
        intro m
        induction m with
        | zero => rfl
        | succ m ih =>
          rw [List.replicate_succ, List.flatMap_cons, ih, List.replicate_succ]
          show U.lower 'Ⱥ' ++ _ = _
          rw [hl]; rfl
      show some (U.upper 'A' ++ (List.replicate n 'Ⱥ').flatMap (CaseHandling.standard.lowerChar U)) = _
      rw [this]
    · rw [byteLen_append, byteLen_replicate]
      rw [show 'ⱥ'.utf8Size = 3 from rfl]
      omega

example : parse .sample S [] ("1\n".toList ++ longStem 32000 ++ "/A".toList) = .error .panic :=
  C36_panics (by decide) (by decide) (by decide) rfl (by decide) (by decide)

/-- An error in the `.aff` text at line `k` depends on the lines up to `k` alone: any texts which agree
on them give the same error. -/
theorem C36_aff_error_local {e : ParseError} {k : Nat} (h : parse U S aff dic = .error (.error e))
    (hs : e.source = .aff) (hk : e.lineNumber = some k) {S' : Sorts} {aff' dic' : Str}
    (hsame : (numbered aff).take k = (numbered aff').take k) :
    parse U S' aff' dic' = .error (.error e) := by
  rcases parse_cases (U := U) S aff dic with ⟨_, D, h', -⟩ | ⟨e', h', -, h1, -⟩ | ⟨_, e', h', hs', -⟩ |
    ⟨_, _, h', -⟩ <;> rw [h] at h' <;> simp at h'
  · subst h'
    exact parse_aff_error (parseAff_local h1 hk hsame)
  · subst h'
    rw [hs] at hs'
    cases hs'

theorem mem_take_numbered {text : Str} {k : Nat} {l : Nat × Str} (h : l ∈ (numbered text).take k) : l.1 ≤ k := by
  unfold numbered at h
  simp only at h
  obtain ⟨i, hi, rfl⟩ := List.mem_iff_getElem.1 h
  simp only [List.length_take] at hi
  simp only [List.getElem_take, List.getElem_map, List.getElem_zipIdx]
  omega

/-- An error in the `.aff` text at line `k` is not due to the lines in front of `k`: cut off there, the
text is accepted, or it ends too early (an error without line number). -/
theorem C36_aff_error_cut {e : ParseError} {k : Nat} (h : parse U S aff dic = .error (.error e))
    (hs : e.source = .aff) (hk : e.lineNumber = some (k + 1)) {S' : Sorts} {aff' dic' : Str}
    (hcut : numbered aff' = (numbered aff).take k) {e' : ParseError}
    (h' : parse U S' aff' dic' = .error (.error e')) (hs' : e'.source = .aff) : e'.lineNumber = none := by
  cases hn : e'.lineNumber with
  | none => rfl
  | some j =>
    exfalso
    have hj : j ≤ k := by
      rcases parse_cases (U := U) S' aff' dic' with ⟨_, D, h1, -⟩ | ⟨e1, h1, -, -, h2⟩ | ⟨_, e1, h1, h2, -⟩ |
        ⟨_, _, h1, -⟩ <;> rw [h'] at h1 <;> simp at h1
      · subst h1
        rcases h2 with h2 | ⟨l, hl, h2⟩
        · rw [hn] at h2; cases h2
        · rw [hcut] at hl
          rw [hn, Option.some.injEq] at h2
          rw [h2]
          exact mem_take_numbered hl
      · subst h1
        rw [hs'] at h2
        cases h2
    have := C36_aff_error_local (dic' := dic) (S' := S) h' hs' hn (aff' := aff)
      (by rw [hcut, List.take_take, Nat.min_eq_left hj])
    rw [h] at this
    simp only [Except.error.injEq, Halt.error.injEq] at this
    rw [← this, hk, Option.some.injEq] at hn
    omega

/-- An error in the `.dic` text: no number at the beginning, or the first line which is not fine. -/
theorem C36_dic_error_iff {cx : Cx} (hset : Settings U aff cx) (e : ParseError) :
    (parse U S aff dic = .error (.error e) ∧ e.source = .dic) ↔
      e.source = .dic ∧ (BadStart U dic e.kind e.lineNumber ∨
        ∃ l, FineUpTo U cx dic l ∧ BadLine U cx l.2 e.kind ∧ e.lineNumber = some l.1) := by
  constructor
  · rintro ⟨h, hs⟩
    rcases parse_cases (U := U) S aff dic with ⟨_, D, h', -⟩ | ⟨e', h', hs', -⟩ | ⟨cx', e', h', hs', h1, h2⟩ |
      ⟨_, _, h', -⟩ <;> rw [h] at h' <;> simp at h'
    · subst h'
      rw [hs] at hs'
      cases hs'
    · subst h'
      rw [settings_unique hset h1]
      exact ⟨hs', h2⟩
  · obtain ⟨kind, source, number⟩ := e
    rintro ⟨hs, h⟩
    simp only at hs h ⊢
    subst hs
    refine ⟨parse_dic_error (settings_iff.2 hset) ?_, rfl⟩
    rcases h with h | ⟨l, h1, h2, rfl⟩
    · exact parseDic_badStart h
    · exact parseDic_bad h1 h2

/-! ## C53 The `.aff` text means what its lines say -/

/-- The `.aff` text is accepted exactly if its lines make settings (`Reads`), whatever the `.dic` text
is; and the settings are unique. -/
theorem C53_accepted_iff (U : Unicode) (S : Sorts) (aff dic : Str) :
    (∃ e, parse U S aff dic = .error (.error e) ∧ e.source = .aff) ↔ ¬ ∃ cx, Settings U aff cx := by
  constructor
  · rintro ⟨e, h, hs⟩ ⟨cx, hc⟩
    rcases parse_cases (U := U) S aff dic with ⟨_, D, h', -⟩ | ⟨e', h', -, h1, -⟩ | ⟨_, e', h', hs', -⟩ |
      ⟨_, _, h', -⟩ <;> rw [h] at h' <;> simp at h'
    · rw [settings_iff.2 hc] at h1
      cases h1
    · subst h'
      rw [hs] at hs'
      cases hs'
  · intro hc
    rcases parse_cases (U := U) S aff dic with ⟨cx, D, h', -, h1, -⟩ | ⟨e', h', hs', -⟩ | ⟨cx, e', h', -, h1, -⟩ |
      ⟨cx, _, h', h1, -⟩
    · exact absurd ⟨cx, h1⟩ hc
    · exact ⟨e', h', hs'⟩
    · exact absurd ⟨cx, h1⟩ hc
    · exact absurd ⟨cx, h1⟩ hc

theorem C53_unique {cx cx' : Cx} (h : Settings U aff cx) (h' : Settings U aff cx') : cx = cx' :=
  settings_unique h h'

/-- The dictionary holds the settings of the `.aff` text. -/
theorem C53_settings {D : Dict} (h : parse U S aff dic = .ok D) : ∃ cx, Settings U aff cx ∧ MadeFrom cx D.aff := by
  obtain ⟨cx, h1, -, -, h2, -⟩ := parse_ok_inv h
  exact ⟨cx, settings_iff.1 h1, h2⟩

/-! ## C37 Hidden homonyms -/

/-- **C37**: the word list of a loaded dictionary has the entries of the lines of the `.dic` text, one
after the other: one per line, two (the hidden title-case twin first) where `HasTwin` says so, none
for blank lines and lines with a leading slash. -/
theorem C37_entries {D : Dict} (h : parse U S aff dic = .ok D) : Denotes U aff dic D := by
  rcases parse_cases (U := U) S aff dic with ⟨_, D', h', hd, -⟩ | ⟨e, h', -⟩ | ⟨_, e, h', -⟩ | ⟨_, _, h', -⟩ <;>
    rw [h] at h' <;> simp at h'
  rw [h']; exact hd

/-- Conversely, a pair of texts that denotes a dictionary, none of whose twins is too long, is
accepted, with the same word list. -/
theorem C37_accepted {D : Dict} (h : Denotes U aff dic D)
    (hshort : ∀ cx l, l ∈ numbered dic → ¬ TwinTooLong U cx l.2) :
    ∃ D', parse U S aff dic = .ok D' ∧ D'.words = D.words := by
  obtain ⟨cx, first, rest, ess, h1, -, h2, h3, h4, h5⟩ := h
  have ha := settings_iff.2 h1
  have hok := parseAff_ok U aff
  rw [ha] at hok
  obtain ⟨A, -, hA⟩ := assemble_ok S hok
  have hd : parseDic U cx dic = .ok ⟨ess.flatten⟩ := by
    rw [parseDic_content h2 h3]
    exact fold_entries h4 fun l hl => hshort cx l (h2.1.subset (by simp [hl]))
  refine ⟨_, parse_ok ha hd (hA _), ?_⟩
  obtain ⟨⟨slots⟩, A'⟩ := D
  simp only at h5 ⊢
  rw [h5]

/-! ## C38 `add` versus `.dic` lines -/

/-- **C38**, for lines without a hidden twin (see `C38_twin` and `C38_twin_missing`): adding the line to a loaded
dictionary is the same as loading the `.dic` text with the line at its end. -/
theorem C38_add {D : Dict} {d line : Str} (h : parse U S aff (d ++ ['\n']) = .ok D)
    (h1 : '\n' ∉ line) (h2 : ¬ Comment U line) (h3 : Trimmed U line line) (h4 : ¬ SkippedLine line)
    (h5 : ∀ stem F, LineMeans U D.aff.flagType D.aff.flagAliases D.aff.ignoreChars line stem F →
      ¬ HasTwin U D.aff.options.forbiddenWordFlag stem F) :
    match D.add U line with
    | .ok D' => parse U S aff (d ++ '\n' :: line) = .ok D'
    | .error e => parse U S aff (d ++ '\n' :: line) = .error (.error
        { kind := if 65535 < byteLen line then .wordTooLong else .malformedFlag e
          source := .dic
          lineNumber := some (numbered (d ++ '\n' :: line)).length }) := by
  obtain ⟨cx, ha, hok, hd, hm, hA⟩ := parse_ok_inv h
  have hne : line ≠ [] := fun hn => h4 (.inl hn)
  rw [hm.flagType, hm.aliases, hm.ignore, hm.options] at h5
  have hlen : (numbered (d ++ '\n' :: line)).length = (numbered (d ++ ['\n'])).length + 1 := by
    rw [numbered_snoc h1 hne, List.length_append]; rfl
  have hsn := parseDic_snoc (cx := cx) h1 hne h2 hd
  unfold Dict.add
  rw [hm.flagType, hm.aliases, hm.ignore]
  cases hp : parseDicLine U line cx.flagType cx.flagAliases cx.ignoreChars with
  | ok r =>
    obtain ⟨stem, F⟩ := r
    simp only
    have hno : ¬ TwinTooLong U cx line := by
      rw [twinTooLong_iff h3]
      rintro ⟨-, stem', F', title, hp', ht, -⟩
      exact h5 _ _ (parseDicLine_ok.1 hp') ht
    rw [stepAt_entries (l := (_, line)) (EntriesOf.plain h3 h4 (parseDicLine_ok.1 hp) (h5 _ _ (parseDicLine_ok.1 hp))) hno] at hsn
    exact parse_ok ha hsn (hA _)
  | error e =>
    simp only
    refine parse_dic_error ha ?_
    rw [hsn, hlen]
    have hb : BadLine U cx line (if 65535 < byteLen line then .wordTooLong else .malformedFlag e) := by
      refine ⟨line, h3, h4, ?_⟩
      by_cases hl : 65535 < byteLen line
      · exact .inl ⟨hl, if_pos hl⟩
      · exact .inr ⟨by omega, e, parseDicLine_error.1 hp, if_neg hl⟩
    rw [stepAt_bad (l := (_, line)) hb]
    rfl

/-- With a hidden twin, loading makes two entries and `add` makes one. -/
theorem C38_twin {D : Dict} {d line stem title : Str} {F : FlagSet} (h : parse U S aff (d ++ ['\n']) = .ok D)
    (h1 : '\n' ∉ line) (h2 : ¬ Comment U line) (h3 : Trimmed U line line) (h4 : ¬ SkippedLine line)
    (h5 : LineMeans U D.aff.flagType D.aff.flagAliases D.aff.ignoreChars line stem F)
    (h6 : HasTwin U D.aff.options.forbiddenWordFlag stem F)
    (h7 : D.aff.options.caseHandling.titlecase U stem = some title) (h8 : byteLen title ≤ 65535) :
    D.add U line = .ok { D with words := D.words.insert stem F } ∧
    ∃ G, (∀ f, G.contains f = true ↔ F.contains f = true ∨ f = 65535) ∧
      parse U S aff (d ++ '\n' :: line)
        = .ok { D with words := (D.words.insert title G).insert stem F } := by
  obtain ⟨cx, ha, hok, hd, hm, hA⟩ := parse_ok_inv h
  have hne : line ≠ [] := fun hn => h4 (.inl hn)
  constructor
  · unfold Dict.add; rw [parseDicLine_ok.2 h5]
  · rw [hm.flagType, hm.aliases, hm.ignore] at h5
    rw [hm.options] at h6 h7
    have hsn := parseDic_snoc (cx := cx) h1 hne h2 hd
    have hno : ¬ TwinTooLong U cx line := by
      rw [twinTooLong_iff h3]
      rintro ⟨-, stem', F', title', hp', -, ht, hl⟩
      rw [parseDicLine_ok.2 h5, Except.ok.injEq, Prod.mk.injEq] at hp'
      rw [← hp'.1, h7, Option.some.injEq] at ht
      rw [← ht] at hl
      omega
    refine ⟨F.withFlag hiddenHomonymFlag, fun f => contains_hidden, ?_⟩
    rw [stepAt_entries (l := (_, line)) (EntriesOf.twin h3 h4 h5 h6 h7 fun f => contains_hidden) hno] at hsn
    have := parse_ok (S := S) ha hsn (hA _)
    rw [this]
    simp [Bag.insert]

/-! ## Cases that meet the hypotheses -/

/-- An `.aff` text with comments, an unknown directive, flags, a number and four tables. -/
def sampleAff : Str := "SET UTF-8\n# suffixes\nSFX A Y 2\nSFX A 0 s [^s]\n  # a comment in the table
SFX A y ies/B y\nNEEDAFFIX N\nREP 1\nREP f ph\nBREAK 2\nBREAK -\nBREAK ^_\nCOMPOUNDMIN 0\n".toList

/-- A `.dic` text with a comment, a blank line, a slash comment and entries with and without twins. -/
def sampleDic : Str := "9\nfoo/A\n# no\n\n/ no\nMcDonald\nUSA/N\nNATO\n  bar po:noun  \r\n".toList

/-- The loaded word list: `McDonald` and `USA` (it has a flag) have hidden twins, `NATO` has none. -/
example : (parse .sample .default sampleAff sampleDic).map (fun D => D.words.slots)
    = .ok [("foo".toList, FlagSet.ofList [65]), ("Mcdonald".toList, FlagSet.ofList [65535]),
        ("McDonald".toList, FlagSet.empty), ("Usa".toList, FlagSet.ofList [78, 65535]),
        ("USA".toList, FlagSet.ofList [78]), ("NATO".toList, FlagSet.empty), ("bar".toList, FlagSet.empty)] := by
  decide +kernel

/-- The loaded settings. -/
example : (parse .sample .default sampleAff sampleDic).map
      (fun D => D.aff.suffixes.table.map fun a => (a.strip, a.add, a.flags))
    = .ok [(none, "s".toList, FlagSet.empty), (some "y".toList, "ies".toList, FlagSet.ofList [66])] := by
  decide +kernel
example : (parse .sample .default sampleAff sampleDic).map
      (fun D => (D.aff.replacements.table, D.aff.breakTable.table, D.aff.options.needAffixFlag,
        D.aff.options.compoundMinLength))
    = .ok ([("f".toList, "ph".toList)], ["_".toList, "-".toList], some 78, some 1) := by
  decide +kernel

/-- Errors name the line: a table that is too short, a table that ends with the text, flags that are
no numbers, a missing count. -/
example : (parse .sample .default "REP 2\nREP a b\n\n#c\nTRY x".toList sampleDic).map (fun _ => ())
    = .error (.error ⟨.mismatchedRowCount 2 2, .aff, some 3⟩) := by decide +kernel
example : (parse .sample .default "REP 2\nREP a b".toList sampleDic).map (fun _ => ())
    = .error (.error ⟨.mismatchedRowCount 2 2, .aff, none⟩) := by decide +kernel
example : (parse .sample .default "FLAG num".toList "2\nfoo/1,2\nbar/x\n".toList).map (fun _ => ())
    = .error (.error ⟨.malformedFlag (.parseInt .invalidDigit), .dic, some 3⟩) := by decide +kernel

end Spellbook.Props
