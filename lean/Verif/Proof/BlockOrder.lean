import Verif.Proof.Blocks
import Verif.Spec.Blocks
import Verif.Proof.Parse
/-!
# Blocks of different directives commute

Each directive has its own part of the settings. Reading a block changes this part only, and what it makes of it depends
on this part, the type of flags and the aliases for flags.
-/

namespace Spellbook
open Spec

namespace Blocks

variable {U : Unicode}

/-- A part of the settings and the directive which changes it. -/
structure Slot where
  key : String
  α : Type
  get : Cx → α

/-- The parts of the settings. -/
def slots : List Slot := [
  ⟨"FORBIDDENWORD", _, fun c => c.options.forbiddenWordFlag⟩,
  ⟨"ONLYINCOMPOUND", _, fun c => c.options.onlyInCompoundFlag⟩,
  ⟨"CIRCUMFIX", _, fun c => c.options.circumfixFlag⟩,
  ⟨"KEEPCASE", _, fun c => c.options.keepCaseFlag⟩,
  ⟨"NEEDAFFIX", _, fun c => c.options.needAffixFlag⟩,
  ⟨"WARN", _, fun c => c.options.warnFlag⟩,
  ⟨"NOSUGGEST", _, fun c => c.options.noSuggestFlag⟩,
  ⟨"SUBSTANDARD", _, fun c => c.options.substandardFlag⟩,
  ⟨"COMPOUNDFLAG", _, fun c => c.options.compoundFlag⟩,
  ⟨"COMPOUNDBEGIN", _, fun c => c.options.compoundBeginFlag⟩,
  ⟨"COMPOUNDMIDDLE", _, fun c => c.options.compoundMiddleFlag⟩,
  ⟨"COMPOUNDEND", _, fun c => c.options.compoundEndFlag⟩,
  ⟨"COMPOUNDPERMITFLAG", _, fun c => c.options.compoundPermitFlag⟩,
  ⟨"COMPOUNDFORBIDFLAG", _, fun c => c.options.compoundForbidFlag⟩,
  ⟨"COMPOUNDROOT", _, fun c => c.options.compoundRootFlag⟩,
  ⟨"FORCEUCASE", _, fun c => c.options.compoundForceUppercaseFlag⟩,
  ⟨"COMPLEXPREFIXES", _, fun c => c.options.complexPrefixes⟩,
  ⟨"FULLSTRIP", _, fun c => c.options.fullstrip⟩,
  ⟨"CHECKSHARPS", _, fun c => c.options.checksharps⟩,
  ⟨"FORBIDWARN", _, fun c => c.options.forbidWarn⟩,
  ⟨"COMPOUNDMORESUFFIXES", _, fun c => c.options.compoundMoreSuffixes⟩,
  ⟨"CHECKCOMPOUNDDUP", _, fun c => c.options.compoundCheckDuplicate⟩,
  ⟨"CHECKCOMPOUNDREP", _, fun c => c.options.compoundCheckRep⟩,
  ⟨"CHECKCOMPOUNDCASE", _, fun c => c.options.compoundCheckCase⟩,
  ⟨"CHECKCOMPOUNDTRIPLE", _, fun c => c.options.compoundCheckTriple⟩,
  ⟨"SIMPLIFIEDTRIPLE", _, fun c => c.options.compoundSimplifiedTriple⟩,
  ⟨"SYLLABLENUM", _, fun c => c.options.compoundSyllableNum⟩,
  ⟨"ONLYMAXDIFF", _, fun c => c.options.onlyMaxDiff⟩,
  ⟨"NOSPLITSUGS", _, fun c => c.options.noSplitSuggestions⟩,
  ⟨"SUGSWITHDOTS", _, fun c => c.options.suggestWithDots⟩,
  ⟨"COMPOUNDMIN", _, fun c => c.options.compoundMinLength⟩,
  ⟨"COMPOUNDWORDMAX", _, fun c => c.options.compoundMaxWordCount⟩,
  ⟨"MAXCPDSUGS", _, fun c => c.options.maxCompoundSuggestions⟩,
  ⟨"MAXNGRAMSUGS", _, fun c => c.options.maxNgramSuggestions⟩,
  ⟨"MAXDIFF", _, fun c => c.options.maxDiffFactor⟩,
  ⟨"FLAG", _, fun c => c.flagType⟩,
  ⟨"IGNORE", _, fun c => c.ignoreChars⟩,
  ⟨"KEY", _, fun c => c.keyboardCloseness⟩,
  ⟨"TRY", _, fun c => c.tryChars⟩,
  ⟨"LANG", _, fun c => c.options.caseHandling⟩,
  ⟨"REP", _, fun c => c.replacements⟩,
  ⟨"ICONV", _, fun c => c.inputConversions⟩,
  ⟨"OCONV", _, fun c => c.outputConversions⟩,
  ⟨"BREAK", _, fun c => c.breakPatterns⟩,
  ⟨"AF", _, fun c => c.flagAliases⟩,
  ⟨"PFX", _, fun c => c.prefixes⟩,
  ⟨"SFX", _, fun c => c.suffixes⟩,
  ⟨"COMPOUNDRULE", _, fun c => c.compoundRules⟩,
  ⟨"CHECKCOMPOUNDPATTERN", _, fun c => c.compoundPatterns⟩,
  ⟨"MAP", _, fun c => c.similarities⟩,
  ⟨"COMPOUNDSYLLABLE", _, fun c => (c.options.compoundSyllableMax, c.compoundSyllableVowels)⟩]

/-- Two settings agree on the part of a directive. -/
def Agree (key : String) (c c' : Cx) : Prop := ∀ p ∈ slots, p.key = key → p.get c = p.get c'

theorem Agree.refl {key : String} {c : Cx} : Agree key c c := fun _ _ _ => rfl

theorem Agree.symm {key : String} {c c' : Cx} (h : Agree key c c') : Agree key c' c := fun p hp hk => (h p hp hk).symm

theorem Agree.trans {key : String} {c c' c'' : Cx} (h : Agree key c c') (h' : Agree key c' c'') : Agree key c c'' :=
  fun p hp hk => (h p hp hk).trans (h' p hp hk)

/-- Settings which agree on all parts are equal. -/
theorem slots_ext {c c' : Cx} (h : ∀ key, Agree key c c') : c = c' := by
  replace h : ∀ p ∈ slots, p.get c = p.get c' := fun p hp => h p.key p hp rfl
  simp only [slots, List.forall_mem_cons] at h
  obtain ⟨h0, h1, h2, h3, h4, h5, h6, h7, h8, h9, h10, h11, h12, h13, h14, h15, h16, h17, h18, h19, h20, h21, h22,
    h23, h24, h25, h26, h27, h28, h29, h30, h31, h32, h33, h34, h35, h36, h37, h38, h39, h40, h41, h42, h43,
    h44, h45, h46, h47, h48, h49, h50, -⟩ := h
  obtain ⟨o, _, _, _, _, _, _, _, _, _, _, _, _, _, _, _⟩ := c
  obtain ⟨o', _, _, _, _, _, _, _, _, _, _, _, _, _, _, _⟩ := c'
  simp only [Prod.mk.injEq] at *
  have : o = o' := by
    cases o; cases o'
    simp only at *
    simp only [*, and_self]
  simp only [*, and_self]

theorem frame_flag : ∀ q ∈ flagKeys, ∀ f c, ∀ p ∈ slots, p.key ≠ q.1 → p.get { c with options := q.2 c.options f } = p.get c := by
  simp only [flagKeys, List.forall_mem_cons]
  refine ⟨?_, ?_, ?_, ?_, ?_, ?_, ?_, ?_, ?_, ?_, ?_, ?_, ?_, ?_, ?_, ?_, by simp⟩ <;>
  · intro f c
    simp only [slots, List.forall_mem_cons]
    refine ⟨?_, ?_, ?_, ?_, ?_, ?_, ?_, ?_, ?_, ?_, ?_, ?_, ?_, ?_, ?_, ?_, ?_, ?_, ?_, ?_, ?_, ?_, ?_, ?_, ?_, ?_,
      ?_, ?_, ?_, ?_, ?_, ?_, ?_, ?_, ?_, ?_, ?_, ?_, ?_, ?_, ?_, ?_, ?_, ?_, ?_, ?_, ?_, ?_, ?_, ?_, ?_, by
      simp⟩ <;>
      first
      | exact fun _ => rfl
      | exact fun _ => trivial
      | exact fun h => absurd rfl h

theorem frame_switch : ∀ q ∈ switchKeys, ∀ c, ∀ p ∈ slots, p.key ≠ q.1 → p.get { c with options := q.2 c.options } = p.get c := by
  simp only [switchKeys, List.forall_mem_cons]
  refine ⟨?_, ?_, ?_, ?_, ?_, ?_, ?_, ?_, ?_, ?_, ?_, ?_, ?_, ?_, by simp⟩ <;>
  · intro c
    simp only [slots, List.forall_mem_cons]
    refine ⟨?_, ?_, ?_, ?_, ?_, ?_, ?_, ?_, ?_, ?_, ?_, ?_, ?_, ?_, ?_, ?_, ?_, ?_, ?_, ?_, ?_, ?_, ?_, ?_, ?_, ?_,
      ?_, ?_, ?_, ?_, ?_, ?_, ?_, ?_, ?_, ?_, ?_, ?_, ?_, ?_, ?_, ?_, ?_, ?_, ?_, ?_, ?_, ?_, ?_, ?_, ?_, by
      simp⟩ <;>
      first
      | exact fun _ => rfl
      | exact fun _ => trivial
      | exact fun h => absurd rfl h

theorem frame_number : ∀ q ∈ numberKeys, ∀ f c, ∀ p ∈ slots, p.key ≠ q.1 → p.get { c with options := q.2 c.options f } = p.get c := by
  simp only [numberKeys, List.forall_mem_cons]
  refine ⟨?_, ?_, ?_, ?_, ?_, by simp⟩ <;>
  · intro f c
    simp only [slots, List.forall_mem_cons]
    refine ⟨?_, ?_, ?_, ?_, ?_, ?_, ?_, ?_, ?_, ?_, ?_, ?_, ?_, ?_, ?_, ?_, ?_, ?_, ?_, ?_, ?_, ?_, ?_, ?_, ?_, ?_,
      ?_, ?_, ?_, ?_, ?_, ?_, ?_, ?_, ?_, ?_, ?_, ?_, ?_, ?_, ?_, ?_, ?_, ?_, ?_, ?_, ?_, ?_, ?_, ?_, ?_, by
      simp⟩ <;>
      first
      | exact fun _ => rfl
      | exact fun _ => trivial
      | exact fun h => absurd rfl h

/-- What a block does: it changes the part of its directive, and makes the same of equal parts. -/
structure Local (key : String) (u : Cx → Cx) : Prop where
  frame : ∀ c, ∀ p ∈ slots, p.key ≠ key → p.get (u c) = p.get c
  own : ∀ {c c'}, Agree key c c' → Agree key (u c) (u c')

theorem Local.comp {key : String} {u v : Cx → Cx} (hu : Local key u) (hv : Local key v) : Local key (fun c => v (u c)) :=
  ⟨fun c p hp hk => (hv.frame _ p hp hk).trans (hu.frame c p hp hk), fun h => hv.own (hu.own h)⟩

theorem Local.commute {a b : String} {u v : Cx → Cx} (hu : Local a u) (hv : Local b v) (hab : a ≠ b) (c : Cx) :
    v (u c) = u (v c) := by
  refine slots_ext fun key p hp hk => ?_
  by_cases ha : p.key = a
  · rw [hv.frame _ p hp (ha ▸ hab)]
    refine (hu.own (c := v c) (c' := c) (fun q hq hqa => hv.frame _ q hq (hqa ▸ hab)) p hp ha).symm
  · rw [hu.frame _ p hp ha]
    by_cases hb : p.key = b
    · exact hv.own (c := u c) (c' := c) (fun q hq hqb => hu.frame _ q hq (hqb ▸ hab.symm)) p hp hb
    · rw [hv.frame _ p hp hb, hv.frame _ p hp hb, hu.frame _ p hp ha]

/-- The type of flags and the aliases for flags are equal. -/
structure SameFlags (c c' : Cx) : Prop where
  type : c'.flagType = c.flagType
  aliases : c'.flagAliases = c.flagAliases

theorem Local.flags {key : String} {u : Cx → Cx} (h : Local key u) (hF : key ≠ "FLAG") (hA : key ≠ "AF") (c : Cx) :
    SameFlags c (u c) :=
  ⟨h.frame c ⟨"FLAG", _, fun c => c.flagType⟩ (List.mem_of_getElem? (i := 35) rfl) hF.symm,
    h.frame c ⟨"AF", _, fun c => c.flagAliases⟩ (List.mem_of_getElem? (i := 44) rfl) hA.symm⟩

theorem agree_of {s : Slot} {c c' : Cx} (hs : s ∈ slots) (h : s.get c = s.get c') : Agree s.key c c' := by
  intro p hp hk
  have nodup : (slots.map (·.key)).Nodup := by decide +kernel
  rw [List.inj_on_of_nodup_map nodup hp hs hk]
  exact h

theorem frame_ignore {v : List Char} {c : Cx} : ∀ p ∈ slots, p.key ≠ "IGNORE" → p.get { c with ignoreChars := v } = p.get c := by
  simp only [slots, List.forall_mem_cons]
  refine ⟨?_, ?_, ?_, ?_, ?_, ?_, ?_, ?_, ?_, ?_, ?_, ?_, ?_, ?_, ?_, ?_, ?_, ?_, ?_, ?_, ?_, ?_, ?_, ?_, ?_, ?_,
    ?_, ?_, ?_, ?_, ?_, ?_, ?_, ?_, ?_, ?_, ?_, ?_, ?_, ?_, ?_, ?_, ?_, ?_, ?_, ?_, ?_, ?_, ?_, ?_, ?_, by simp⟩
    <;>
    first
    | exact fun _ => rfl
    | exact fun _ => trivial
    | exact fun h => absurd rfl h

theorem local_ignore (g : List Char → List Char) : Local "IGNORE" (fun c => { c with ignoreChars := g c.ignoreChars }) := by
  refine ⟨fun _ => frame_ignore, @fun x y h => agree_of (s := ⟨"IGNORE", _, fun c => c.ignoreChars⟩)
    (List.mem_of_getElem? (i := 36) rfl) ?_⟩
  have e : x.ignoreChars = y.ignoreChars := h ⟨"IGNORE", _, fun c => c.ignoreChars⟩ (List.mem_of_getElem? (i := 36) rfl) rfl
  exact congrArg g e

theorem frame_key {v : Str} {c : Cx} : ∀ p ∈ slots, p.key ≠ "KEY" → p.get { c with keyboardCloseness := v } = p.get c := by
  simp only [slots, List.forall_mem_cons]
  refine ⟨?_, ?_, ?_, ?_, ?_, ?_, ?_, ?_, ?_, ?_, ?_, ?_, ?_, ?_, ?_, ?_, ?_, ?_, ?_, ?_, ?_, ?_, ?_, ?_, ?_, ?_,
    ?_, ?_, ?_, ?_, ?_, ?_, ?_, ?_, ?_, ?_, ?_, ?_, ?_, ?_, ?_, ?_, ?_, ?_, ?_, ?_, ?_, ?_, ?_, ?_, ?_, by simp⟩
    <;>
    first
    | exact fun _ => rfl
    | exact fun _ => trivial
    | exact fun h => absurd rfl h

theorem local_key (g : Str → Str) : Local "KEY" (fun c => { c with keyboardCloseness := g c.keyboardCloseness }) := by
  refine ⟨fun _ => frame_key, @fun x y h => agree_of (s := ⟨"KEY", _, fun c => c.keyboardCloseness⟩)
    (List.mem_of_getElem? (i := 37) rfl) ?_⟩
  have e : x.keyboardCloseness = y.keyboardCloseness := h ⟨"KEY", _, fun c => c.keyboardCloseness⟩ (List.mem_of_getElem? (i := 37) rfl) rfl
  exact congrArg g e

theorem frame_try {v : Str} {c : Cx} : ∀ p ∈ slots, p.key ≠ "TRY" → p.get { c with tryChars := v } = p.get c := by
  simp only [slots, List.forall_mem_cons]
  refine ⟨?_, ?_, ?_, ?_, ?_, ?_, ?_, ?_, ?_, ?_, ?_, ?_, ?_, ?_, ?_, ?_, ?_, ?_, ?_, ?_, ?_, ?_, ?_, ?_, ?_, ?_,
    ?_, ?_, ?_, ?_, ?_, ?_, ?_, ?_, ?_, ?_, ?_, ?_, ?_, ?_, ?_, ?_, ?_, ?_, ?_, ?_, ?_, ?_, ?_, ?_, ?_, by simp⟩
    <;>
    first
    | exact fun _ => rfl
    | exact fun _ => trivial
    | exact fun h => absurd rfl h

theorem local_try (g : Str → Str) : Local "TRY" (fun c => { c with tryChars := g c.tryChars }) := by
  refine ⟨fun _ => frame_try, @fun x y h => agree_of (s := ⟨"TRY", _, fun c => c.tryChars⟩)
    (List.mem_of_getElem? (i := 38) rfl) ?_⟩
  have e : x.tryChars = y.tryChars := h ⟨"TRY", _, fun c => c.tryChars⟩ (List.mem_of_getElem? (i := 38) rfl) rfl
  exact congrArg g e

theorem frame_lang {v : CaseHandling} {c : Cx} : ∀ p ∈ slots, p.key ≠ "LANG" → p.get { c with options.caseHandling := v } = p.get c := by
  simp only [slots, List.forall_mem_cons]
  refine ⟨?_, ?_, ?_, ?_, ?_, ?_, ?_, ?_, ?_, ?_, ?_, ?_, ?_, ?_, ?_, ?_, ?_, ?_, ?_, ?_, ?_, ?_, ?_, ?_, ?_, ?_,
    ?_, ?_, ?_, ?_, ?_, ?_, ?_, ?_, ?_, ?_, ?_, ?_, ?_, ?_, ?_, ?_, ?_, ?_, ?_, ?_, ?_, ?_, ?_, ?_, ?_, by simp⟩
    <;>
    first
    | exact fun _ => rfl
    | exact fun _ => trivial
    | exact fun h => absurd rfl h

theorem local_lang (g : CaseHandling → CaseHandling) : Local "LANG" (fun c => { c with options.caseHandling := g c.options.caseHandling }) := by
  refine ⟨fun _ => frame_lang, @fun x y h => agree_of (s := ⟨"LANG", _, fun c => c.options.caseHandling⟩)
    (List.mem_of_getElem? (i := 39) rfl) ?_⟩
  have e : x.options.caseHandling = y.options.caseHandling := h ⟨"LANG", _, fun c => c.options.caseHandling⟩ (List.mem_of_getElem? (i := 39) rfl) rfl
  exact congrArg g e

theorem frame_rep {v : List (Str × Str)} {c : Cx} : ∀ p ∈ slots, p.key ≠ "REP" → p.get { c with replacements := v } = p.get c := by
  simp only [slots, List.forall_mem_cons]
  refine ⟨?_, ?_, ?_, ?_, ?_, ?_, ?_, ?_, ?_, ?_, ?_, ?_, ?_, ?_, ?_, ?_, ?_, ?_, ?_, ?_, ?_, ?_, ?_, ?_, ?_, ?_,
    ?_, ?_, ?_, ?_, ?_, ?_, ?_, ?_, ?_, ?_, ?_, ?_, ?_, ?_, ?_, ?_, ?_, ?_, ?_, ?_, ?_, ?_, ?_, ?_, ?_, by simp⟩
    <;>
    first
    | exact fun _ => rfl
    | exact fun _ => trivial
    | exact fun h => absurd rfl h

theorem local_rep (g : List (Str × Str) → List (Str × Str)) : Local "REP" (fun c => { c with replacements := g c.replacements }) := by
  refine ⟨fun _ => frame_rep, @fun x y h => agree_of (s := ⟨"REP", _, fun c => c.replacements⟩)
    (List.mem_of_getElem? (i := 40) rfl) ?_⟩
  have e : x.replacements = y.replacements := h ⟨"REP", _, fun c => c.replacements⟩ (List.mem_of_getElem? (i := 40) rfl) rfl
  exact congrArg g e

theorem frame_iconv {v : List (Str × Str)} {c : Cx} : ∀ p ∈ slots, p.key ≠ "ICONV" → p.get { c with inputConversions := v } = p.get c := by
  simp only [slots, List.forall_mem_cons]
  refine ⟨?_, ?_, ?_, ?_, ?_, ?_, ?_, ?_, ?_, ?_, ?_, ?_, ?_, ?_, ?_, ?_, ?_, ?_, ?_, ?_, ?_, ?_, ?_, ?_, ?_, ?_,
    ?_, ?_, ?_, ?_, ?_, ?_, ?_, ?_, ?_, ?_, ?_, ?_, ?_, ?_, ?_, ?_, ?_, ?_, ?_, ?_, ?_, ?_, ?_, ?_, ?_, by simp⟩
    <;>
    first
    | exact fun _ => rfl
    | exact fun _ => trivial
    | exact fun h => absurd rfl h

theorem local_iconv (g : List (Str × Str) → List (Str × Str)) : Local "ICONV" (fun c => { c with inputConversions := g c.inputConversions }) := by
  refine ⟨fun _ => frame_iconv, @fun x y h => agree_of (s := ⟨"ICONV", _, fun c => c.inputConversions⟩)
    (List.mem_of_getElem? (i := 41) rfl) ?_⟩
  have e : x.inputConversions = y.inputConversions := h ⟨"ICONV", _, fun c => c.inputConversions⟩ (List.mem_of_getElem? (i := 41) rfl) rfl
  exact congrArg g e

theorem frame_oconv {v : List (Str × Str)} {c : Cx} : ∀ p ∈ slots, p.key ≠ "OCONV" → p.get { c with outputConversions := v } = p.get c := by
  simp only [slots, List.forall_mem_cons]
  refine ⟨?_, ?_, ?_, ?_, ?_, ?_, ?_, ?_, ?_, ?_, ?_, ?_, ?_, ?_, ?_, ?_, ?_, ?_, ?_, ?_, ?_, ?_, ?_, ?_, ?_, ?_,
    ?_, ?_, ?_, ?_, ?_, ?_, ?_, ?_, ?_, ?_, ?_, ?_, ?_, ?_, ?_, ?_, ?_, ?_, ?_, ?_, ?_, ?_, ?_, ?_, ?_, by simp⟩
    <;>
    first
    | exact fun _ => rfl
    | exact fun _ => trivial
    | exact fun h => absurd rfl h

theorem local_oconv (g : List (Str × Str) → List (Str × Str)) : Local "OCONV" (fun c => { c with outputConversions := g c.outputConversions }) := by
  refine ⟨fun _ => frame_oconv, @fun x y h => agree_of (s := ⟨"OCONV", _, fun c => c.outputConversions⟩)
    (List.mem_of_getElem? (i := 42) rfl) ?_⟩
  have e : x.outputConversions = y.outputConversions := h ⟨"OCONV", _, fun c => c.outputConversions⟩ (List.mem_of_getElem? (i := 42) rfl) rfl
  exact congrArg g e

theorem frame_break {v : List Str} {c : Cx} : ∀ p ∈ slots, p.key ≠ "BREAK" → p.get { c with breakPatterns := v } = p.get c := by
  simp only [slots, List.forall_mem_cons]
  refine ⟨?_, ?_, ?_, ?_, ?_, ?_, ?_, ?_, ?_, ?_, ?_, ?_, ?_, ?_, ?_, ?_, ?_, ?_, ?_, ?_, ?_, ?_, ?_, ?_, ?_, ?_,
    ?_, ?_, ?_, ?_, ?_, ?_, ?_, ?_, ?_, ?_, ?_, ?_, ?_, ?_, ?_, ?_, ?_, ?_, ?_, ?_, ?_, ?_, ?_, ?_, ?_, by simp⟩
    <;>
    first
    | exact fun _ => rfl
    | exact fun _ => trivial
    | exact fun h => absurd rfl h

theorem local_break (g : List Str → List Str) : Local "BREAK" (fun c => { c with breakPatterns := g c.breakPatterns }) := by
  refine ⟨fun _ => frame_break, @fun x y h => agree_of (s := ⟨"BREAK", _, fun c => c.breakPatterns⟩)
    (List.mem_of_getElem? (i := 43) rfl) ?_⟩
  have e : x.breakPatterns = y.breakPatterns := h ⟨"BREAK", _, fun c => c.breakPatterns⟩ (List.mem_of_getElem? (i := 43) rfl) rfl
  exact congrArg g e

theorem frame_pfx {v : List Affix} {c : Cx} : ∀ p ∈ slots, p.key ≠ "PFX" → p.get { c with prefixes := v } = p.get c := by
  simp only [slots, List.forall_mem_cons]
  refine ⟨?_, ?_, ?_, ?_, ?_, ?_, ?_, ?_, ?_, ?_, ?_, ?_, ?_, ?_, ?_, ?_, ?_, ?_, ?_, ?_, ?_, ?_, ?_, ?_, ?_, ?_,
    ?_, ?_, ?_, ?_, ?_, ?_, ?_, ?_, ?_, ?_, ?_, ?_, ?_, ?_, ?_, ?_, ?_, ?_, ?_, ?_, ?_, ?_, ?_, ?_, ?_, by simp⟩
    <;>
    first
    | exact fun _ => rfl
    | exact fun _ => trivial
    | exact fun h => absurd rfl h

theorem local_pfx (g : List Affix → List Affix) : Local "PFX" (fun c => { c with prefixes := g c.prefixes }) := by
  refine ⟨fun _ => frame_pfx, @fun x y h => agree_of (s := ⟨"PFX", _, fun c => c.prefixes⟩)
    (List.mem_of_getElem? (i := 45) rfl) ?_⟩
  have e : x.prefixes = y.prefixes := h ⟨"PFX", _, fun c => c.prefixes⟩ (List.mem_of_getElem? (i := 45) rfl) rfl
  exact congrArg g e

theorem frame_sfx {v : List Affix} {c : Cx} : ∀ p ∈ slots, p.key ≠ "SFX" → p.get { c with suffixes := v } = p.get c := by
  simp only [slots, List.forall_mem_cons]
  refine ⟨?_, ?_, ?_, ?_, ?_, ?_, ?_, ?_, ?_, ?_, ?_, ?_, ?_, ?_, ?_, ?_, ?_, ?_, ?_, ?_, ?_, ?_, ?_, ?_, ?_, ?_,
    ?_, ?_, ?_, ?_, ?_, ?_, ?_, ?_, ?_, ?_, ?_, ?_, ?_, ?_, ?_, ?_, ?_, ?_, ?_, ?_, ?_, ?_, ?_, ?_, ?_, by simp⟩
    <;>
    first
    | exact fun _ => rfl
    | exact fun _ => trivial
    | exact fun h => absurd rfl h

theorem local_sfx (g : List Affix → List Affix) : Local "SFX" (fun c => { c with suffixes := g c.suffixes }) := by
  refine ⟨fun _ => frame_sfx, @fun x y h => agree_of (s := ⟨"SFX", _, fun c => c.suffixes⟩)
    (List.mem_of_getElem? (i := 46) rfl) ?_⟩
  have e : x.suffixes = y.suffixes := h ⟨"SFX", _, fun c => c.suffixes⟩ (List.mem_of_getElem? (i := 46) rfl) rfl
  exact congrArg g e

theorem frame_compoundrule {v : List CompoundRule} {c : Cx} : ∀ p ∈ slots, p.key ≠ "COMPOUNDRULE" → p.get { c with compoundRules := v } = p.get c := by
  simp only [slots, List.forall_mem_cons]
  refine ⟨?_, ?_, ?_, ?_, ?_, ?_, ?_, ?_, ?_, ?_, ?_, ?_, ?_, ?_, ?_, ?_, ?_, ?_, ?_, ?_, ?_, ?_, ?_, ?_, ?_, ?_,
    ?_, ?_, ?_, ?_, ?_, ?_, ?_, ?_, ?_, ?_, ?_, ?_, ?_, ?_, ?_, ?_, ?_, ?_, ?_, ?_, ?_, ?_, ?_, ?_, ?_, by simp⟩
    <;>
    first
    | exact fun _ => rfl
    | exact fun _ => trivial
    | exact fun h => absurd rfl h

theorem local_compoundrule (g : List CompoundRule → List CompoundRule) : Local "COMPOUNDRULE" (fun c => { c with compoundRules := g c.compoundRules }) := by
  refine ⟨fun _ => frame_compoundrule, @fun x y h => agree_of (s := ⟨"COMPOUNDRULE", _, fun c => c.compoundRules⟩)
    (List.mem_of_getElem? (i := 47) rfl) ?_⟩
  have e : x.compoundRules = y.compoundRules := h ⟨"COMPOUNDRULE", _, fun c => c.compoundRules⟩ (List.mem_of_getElem? (i := 47) rfl) rfl
  exact congrArg g e

theorem frame_checkcompoundpattern {v : List CompoundPattern} {c : Cx} : ∀ p ∈ slots, p.key ≠ "CHECKCOMPOUNDPATTERN" → p.get { c with compoundPatterns := v } = p.get c := by
  simp only [slots, List.forall_mem_cons]
  refine ⟨?_, ?_, ?_, ?_, ?_, ?_, ?_, ?_, ?_, ?_, ?_, ?_, ?_, ?_, ?_, ?_, ?_, ?_, ?_, ?_, ?_, ?_, ?_, ?_, ?_, ?_,
    ?_, ?_, ?_, ?_, ?_, ?_, ?_, ?_, ?_, ?_, ?_, ?_, ?_, ?_, ?_, ?_, ?_, ?_, ?_, ?_, ?_, ?_, ?_, ?_, ?_, by simp⟩
    <;>
    first
    | exact fun _ => rfl
    | exact fun _ => trivial
    | exact fun h => absurd rfl h

theorem local_checkcompoundpattern (g : List CompoundPattern → List CompoundPattern) : Local "CHECKCOMPOUNDPATTERN" (fun c => { c with compoundPatterns := g c.compoundPatterns }) := by
  refine ⟨fun _ => frame_checkcompoundpattern, @fun x y h => agree_of (s := ⟨"CHECKCOMPOUNDPATTERN", _, fun c => c.compoundPatterns⟩)
    (List.mem_of_getElem? (i := 48) rfl) ?_⟩
  have e : x.compoundPatterns = y.compoundPatterns := h ⟨"CHECKCOMPOUNDPATTERN", _, fun c => c.compoundPatterns⟩ (List.mem_of_getElem? (i := 48) rfl) rfl
  exact congrArg g e

theorem frame_map {v : List SimilarityGroup} {c : Cx} : ∀ p ∈ slots, p.key ≠ "MAP" → p.get { c with similarities := v } = p.get c := by
  simp only [slots, List.forall_mem_cons]
  refine ⟨?_, ?_, ?_, ?_, ?_, ?_, ?_, ?_, ?_, ?_, ?_, ?_, ?_, ?_, ?_, ?_, ?_, ?_, ?_, ?_, ?_, ?_, ?_, ?_, ?_, ?_,
    ?_, ?_, ?_, ?_, ?_, ?_, ?_, ?_, ?_, ?_, ?_, ?_, ?_, ?_, ?_, ?_, ?_, ?_, ?_, ?_, ?_, ?_, ?_, ?_, ?_, by simp⟩
    <;>
    first
    | exact fun _ => rfl
    | exact fun _ => trivial
    | exact fun h => absurd rfl h

theorem local_map (g : List SimilarityGroup → List SimilarityGroup) : Local "MAP" (fun c => { c with similarities := g c.similarities }) := by
  refine ⟨fun _ => frame_map, @fun x y h => agree_of (s := ⟨"MAP", _, fun c => c.similarities⟩)
    (List.mem_of_getElem? (i := 49) rfl) ?_⟩
  have e : x.similarities = y.similarities := h ⟨"MAP", _, fun c => c.similarities⟩ (List.mem_of_getElem? (i := 49) rfl) rfl
  exact congrArg g e

theorem frame_syllable {n : Option Nat} {v : Str} {c : Cx} : ∀ p ∈ slots, p.key ≠ "COMPOUNDSYLLABLE" → p.get { c with options.compoundSyllableMax := n, compoundSyllableVowels := v } = p.get c := by
  simp only [slots, List.forall_mem_cons]
  refine ⟨?_, ?_, ?_, ?_, ?_, ?_, ?_, ?_, ?_, ?_, ?_, ?_, ?_, ?_, ?_, ?_, ?_, ?_, ?_, ?_, ?_, ?_, ?_, ?_, ?_, ?_,
    ?_, ?_, ?_, ?_, ?_, ?_, ?_, ?_, ?_, ?_, ?_, ?_, ?_, ?_, ?_, ?_, ?_, ?_, ?_, ?_, ?_, ?_, ?_, ?_, ?_, by simp⟩
    <;>
    first
    | exact fun _ => rfl
    | exact fun _ => trivial
    | exact fun h => absurd rfl h

theorem local_syllable {n : Option Nat} {v : Str} : Local "COMPOUNDSYLLABLE"
    (fun c => { c with options.compoundSyllableMax := n, compoundSyllableVowels := v }) :=
  ⟨fun _ => frame_syllable, fun _ => agree_of
    (s := ⟨"COMPOUNDSYLLABLE", _, fun c => (c.options.compoundSyllableMax, c.compoundSyllableVowels)⟩)
    (List.mem_of_getElem? (i := 50) rfl) rfl⟩

theorem own_flag : ∀ q ∈ flagKeys, ∀ f (x y : Cx), ∀ p ∈ slots, p.key = q.1 →
    p.get { x with options := q.2 x.options f } = p.get { y with options := q.2 y.options f } := by
  simp only [flagKeys, List.forall_mem_cons]
  refine ⟨?_, ?_, ?_, ?_, ?_, ?_, ?_, ?_, ?_, ?_, ?_, ?_, ?_, ?_, ?_, ?_, by simp⟩ <;>
  · intro f x y
    simp only [slots, List.forall_mem_cons]
    refine ⟨?_, ?_, ?_, ?_, ?_, ?_, ?_, ?_, ?_, ?_, ?_, ?_, ?_, ?_, ?_, ?_, ?_, ?_, ?_, ?_, ?_, ?_, ?_, ?_, ?_, ?_,
      ?_, ?_, ?_, ?_, ?_, ?_, ?_, ?_, ?_, ?_, ?_, ?_, ?_, ?_, ?_, ?_, ?_, ?_, ?_, ?_, ?_, ?_, ?_, ?_, ?_, by
      simp⟩ <;>
      first
      | exact fun _ => rfl
      | exact fun _ => trivial
      | exact fun h => absurd h (by decide)

theorem local_flag {key : String} {set : AffOptions → Nat → AffOptions} (h : (key, set) ∈ flagKeys) (f : Nat) :
    Local key (fun c => { c with options := set c.options f }) :=
  ⟨fun c => frame_flag _ h f c, fun _ p hp hk => own_flag _ h f _ _ p hp hk⟩

theorem own_switch : ∀ q ∈ switchKeys, ∀ (x y : Cx), ∀ p ∈ slots, p.key = q.1 →
    p.get { x with options := q.2 x.options } = p.get { y with options := q.2 y.options } := by
  simp only [switchKeys, List.forall_mem_cons]
  refine ⟨?_, ?_, ?_, ?_, ?_, ?_, ?_, ?_, ?_, ?_, ?_, ?_, ?_, ?_, by simp⟩ <;>
  · intro x y
    simp only [slots, List.forall_mem_cons]
    refine ⟨?_, ?_, ?_, ?_, ?_, ?_, ?_, ?_, ?_, ?_, ?_, ?_, ?_, ?_, ?_, ?_, ?_, ?_, ?_, ?_, ?_, ?_, ?_, ?_, ?_, ?_,
      ?_, ?_, ?_, ?_, ?_, ?_, ?_, ?_, ?_, ?_, ?_, ?_, ?_, ?_, ?_, ?_, ?_, ?_, ?_, ?_, ?_, ?_, ?_, ?_, ?_, by
      simp⟩ <;>
      first
      | exact fun _ => rfl
      | exact fun _ => trivial
      | exact fun h => absurd h (by decide)

theorem local_switch {key : String} {set : AffOptions → AffOptions} (h : (key, set) ∈ switchKeys) :
    Local key (fun c => { c with options := set c.options }) :=
  ⟨fun c => frame_switch _ h c, fun _ p hp hk => own_switch _ h _ _ p hp hk⟩

theorem own_number : ∀ q ∈ numberKeys, ∀ f (x y : Cx), ∀ p ∈ slots, p.key = q.1 →
    p.get { x with options := q.2 x.options f } = p.get { y with options := q.2 y.options f } := by
  simp only [numberKeys, List.forall_mem_cons]
  refine ⟨?_, ?_, ?_, ?_, ?_, by simp⟩ <;>
  · intro f x y
    simp only [slots, List.forall_mem_cons]
    refine ⟨?_, ?_, ?_, ?_, ?_, ?_, ?_, ?_, ?_, ?_, ?_, ?_, ?_, ?_, ?_, ?_, ?_, ?_, ?_, ?_, ?_, ?_, ?_, ?_, ?_, ?_,
      ?_, ?_, ?_, ?_, ?_, ?_, ?_, ?_, ?_, ?_, ?_, ?_, ?_, ?_, ?_, ?_, ?_, ?_, ?_, ?_, ?_, ?_, ?_, ?_, ?_, by
      simp⟩ <;>
      first
      | exact fun _ => rfl
      | exact fun _ => trivial
      | exact fun h => absurd h (by decide)

theorem local_number {key : String} {set : AffOptions → Nat → AffOptions} (h : (key, set) ∈ numberKeys) (f : Nat) :
    Local key (fun c => { c with options := set c.options f }) :=
  ⟨fun c => frame_number _ h f c, fun _ p hp hk => own_number _ h f _ _ p hp hk⟩

theorem row_local {key : String} {head args : List Str} {cx c : Cx} (h : Row key head cx args c) (hA : key ≠ "AF") :
    ∃ u, Local key u ∧ c = u cx ∧ ∀ x, SameFlags cx x → Row key head x args (u x) := by
  cases h with
  | af => exact absurd rfl hA
  | rep => exact ⟨_, local_rep (· ++ [_]), rfl, fun _ _ => .rep⟩
  | iconv => exact ⟨_, local_iconv (· ++ [_]), rfl, fun _ _ => .iconv⟩
  | oconv => exact ⟨_, local_oconv (· ++ [_]), rfl, fun _ _ => .oconv⟩
  | brk => exact ⟨_, local_break (· ++ [_]), rfl, fun _ _ => .brk⟩
  | map h => exact ⟨_, local_map (· ++ [_]), rfl, fun _ _ => .map h⟩
  | rule h h' => exact ⟨_, local_compoundrule (· ++ [_]), rfl, fun x hx => .rule (by rw [hx.type]; exact h) h'⟩
  | pattern h =>
    exact ⟨_, local_checkcompoundpattern (· ++ [_]), rfl, fun x hx => .pattern
      ⟨by rw [hx.type]; exact h.first, by rw [hx.type]; exact h.second, h.replacement⟩⟩
  | pfx h h' r =>
    exact ⟨_, local_pfx (· ++ [_]), rfl, fun x hx => .pfx (by rw [hx.type]; exact h) h'
      ⟨r.flag, r.cross, r.strip, by rw [hx.type, hx.aliases]; exact r.add, r.condition⟩⟩
  | sfx h h' r =>
    exact ⟨_, local_sfx (· ++ [_]), rfl, fun x hx => .sfx (by rw [hx.type]; exact h) h'
      ⟨r.flag, r.cross, r.strip, by rw [hx.type, hx.aliases]; exact r.add, r.condition⟩⟩

theorem SameFlags.trans {a b c : Cx} (h : SameFlags a b) (h' : SameFlags b c) : SameFlags a c :=
  ⟨h'.type.trans h.type, h'.aliases.trans h.aliases⟩

theorem SameFlags.symm {a b : Cx} (h : SameFlags a b) : SameFlags b a := ⟨h.type.symm, h.aliases.symm⟩

theorem rows_local {key : String} {head rows : List Str} {cx c : Cx} (h : Rows U key head cx rows c) (hF : key ≠ "FLAG")
    (hA : key ≠ "AF") : ∃ u, Local key u ∧ c = u cx ∧ ∀ x, SameFlags cx x → Rows U key head x rows (u x) := by
  induction h with
  | nil => exact ⟨_, ⟨fun _ _ _ _ => rfl, fun h => h⟩, rfl, fun _ _ => .nil⟩
  | cons hl hr _ ih =>
    obtain ⟨u, hu, rfl, hu'⟩ := row_local hr hA
    obtain ⟨v, hv, rfl, hv'⟩ := ih
    exact ⟨_, hu.comp hv, rfl, fun x hx => .cons hl (hu' x hx)
      (hv' _ (((hu.flags hF hA _).symm.trans hx).trans (hu.flags hF hA x)))⟩

/-- Every block but those of `FLAG` and `AF` works on its own part. -/
theorem effect_local {key : String} {args rows : List Str} {cx c : Cx} (h : Effect U key args cx rows c)
    (hF : key ≠ "FLAG") (hA : key ≠ "AF") :
    ∃ u, Local key u ∧ c = u cx ∧ ∀ x, SameFlags cx x → Effect U key args x rows (u x) := by
  cases h with
  | flagType => exact absurd rfl hF
  | flag hk h h' => exact ⟨_, local_flag hk _, rfl, fun x hx => .flag hk (by rw [hx.type]; exact h) h'⟩
  | switch hk => exact ⟨_, local_switch hk, rfl, fun x hx => .switch hk⟩
  | number hk h h' => exact ⟨_, local_number hk _, rfl, fun x hx => .number hk h h'⟩
  | ignore => exact ⟨_, local_ignore (fun _ => _), rfl, fun _ _ => .ignore⟩
  | keyboard => exact ⟨_, local_key (fun _ => _), rfl, fun _ _ => .keyboard⟩
  | tryChars => exact ⟨_, local_try (fun _ => _), rfl, fun _ _ => .tryChars⟩
  | turkic h => exact ⟨_, local_lang (fun _ => _), rfl, fun _ _ => .turkic h⟩
  | notTurkic h => exact ⟨_, local_lang (fun _ => _), rfl, fun _ _ => .notTurkic h⟩
  | syllable h h' => exact ⟨_, local_syllable, rfl, fun _ _ => .syllable h h'⟩
  | table hk h h' hr =>
    obtain ⟨u, hu, rfl, hu'⟩ := rows_local hr hF hA
    by_cases hb : key = "BREAK"
    · subst hb
      refine ⟨_, (local_break fun _ => []).comp hu, by simp, fun x hx => .table hk h h' ?_⟩
      rw [if_pos rfl]
      refine hu' _ ?_
      rw [if_pos rfl]
      exact ⟨hx.type, hx.aliases⟩
    · simp only [if_neg hb] at hu' ⊢
      exact ⟨u, hu, rfl, fun x hx => .table hk h h' (by rw [if_neg hb]; exact hu' x hx)⟩
  | affixes hk h1 h2 h3 h h' hr =>
    obtain ⟨u, hu, rfl, hu'⟩ := rows_local hr hF hA
    exact ⟨u, hu, rfl, fun x hx => .affixes hk (by rw [hx.type]; exact h1) h2 h3 h h' (hu' x hx)⟩

/-- The blocks take effect one after the other. -/
inductive Runs (U : Unicode) : Cx → List Block → Cx → Prop
  | nil {cx} : Runs U cx [] cx
  | cons {cx b c bs c'} : Effect U b.key b.args cx b.rows c → Runs U c bs c' → Runs U cx (b :: bs) c'

theorem Runs.swap {a b : Block} {bs : List Block} {cx c : Cx} (h : Runs U cx (a :: b :: bs) c) (hab : a.key ≠ b.key)
    (ha : a.key ≠ "FLAG" ∧ a.key ≠ "AF") (hb : b.key ≠ "FLAG" ∧ b.key ≠ "AF") : Runs U cx (b :: a :: bs) c := by
  obtain _ | ⟨h1, _ | ⟨h2, h3⟩⟩ := h
  obtain ⟨u, hu, rfl, hu'⟩ := effect_local h1 ha.1 ha.2
  obtain ⟨v, hv, rfl, hv'⟩ := effect_local h2 hb.1 hb.2
  refine .cons (hv' cx (hu.flags ha.1 ha.2 cx).symm) (.cons (hu' _ (hv.flags hb.1 hb.2 cx)) ?_)
  rw [← hu.commute hv hab]
  exact h3

theorem Runs.move {b : Block} (hb : b.key ≠ "FLAG" ∧ b.key ≠ "AF") {p q : List Block}
    (hp : ∀ a ∈ p, a.key ≠ b.key ∧ a.key ≠ "FLAG" ∧ a.key ≠ "AF") {cx c : Cx} (h : Runs U cx (b :: (p ++ q)) c) :
    Runs U cx (p ++ b :: q) c := by
  induction p generalizing cx with
  | nil => exact h
  | cons a p ih =>
    have ha := hp a List.mem_cons_self
    obtain _ | ⟨h1, h2⟩ := Runs.swap h ha.1.symm hb ha.2
    exact .cons h1 (ih (fun x hx => hp x (List.mem_cons_of_mem _ hx)) h2)

/-- The blocks of each directive come in the same order. -/
theorem Runs.order {bs bs' : List Block} (hb : ∀ b ∈ bs, b.key ≠ "FLAG" ∧ b.key ≠ "AF")
    (hs : ∀ key, bs.filter (·.key = key) = bs'.filter (·.key = key)) {cx c : Cx} (h : Runs U cx bs c) :
    Runs U cx bs' c := by
  have hb' : ∀ b ∈ bs', b.key ≠ "FLAG" ∧ b.key ≠ "AF" := by
    intro b hm
    have : b ∈ bs'.filter (·.key = b.key) := List.mem_filter.2 ⟨hm, by simp⟩
    rw [← hs] at this
    exact hb b (List.mem_filter.1 this).1
  clear hb
  induction bs generalizing bs' cx with
  | nil =>
    cases bs' with
    | nil => exact h
    | cons b l =>
      have := hs b.key
      simp at this
  | cons b bs ih =>
    have h1 := hs b.key
    rw [List.filter_cons, if_pos (by simp)] at h1
    obtain ⟨p, q, rfl, hp, -, -⟩ := List.filter_eq_cons_iff.1 h1.symm
    obtain _ | ⟨he, hr⟩ := h
    refine Runs.move (hb' b (by simp)) (fun a ha => ⟨by simpa using hp a ha, hb' a (by simp [ha])⟩) (.cons he
      (ih (fun key => ?_) hr (fun a ha => hb' a ?_)))
    · have h2 := hs key
      by_cases hk : b.key = key
      · have hp' : p.filter (·.key = key) = [] := List.filter_eq_nil_iff.2 (fun a ha => hk ▸ hp a ha)
        rw [List.filter_cons, if_pos (by simpa using hk), List.filter_append, List.filter_cons,
          if_pos (by simpa using hk), hp', List.nil_append] at h2
        rw [List.filter_append, hp']
        exact (List.cons.inj h2).2
      · rw [List.filter_cons, if_neg (by simpa using hk), List.filter_append, List.filter_cons,
          if_neg (by simpa using hk)] at h2
        rw [List.filter_append]
        exact h2
    · simp only [List.mem_append, List.mem_cons] at ha ⊢
      tauto

theorem single_of_class {key : String} {k : Nat} (h : keyClass key = k) (h3 : k ≠ 3) (h4 : k ≠ 4) :
    key ∉ tableKeys ∧ key ∉ ["PFX", "SFX"] :=
  ⟨fun hm => h3 (h.symm.trans (class_table _ hm)), fun hm => h4 (h.symm.trans (class_affix _ hm))⟩

theorem effect_rows {key : String} {args rows : List Str} {n : Nat} {cx c : Cx} (h : Effect U key args cx rows c)
    (table : key ∈ tableKeys → ∀ w, args[0]? = some w → IsNumeral w n)
    (affixes : key ∈ ["PFX", "SFX"] → ∀ w, args[2]? = some w → IsNumeral w n)
    (single : key ∉ tableKeys → key ∉ ["PFX", "SFX"] → n = 0) : rows.length = n := by
  have one : ∀ {k}, keyClass key = k → k ≠ 3 → k ≠ 4 → rows = [] → rows.length = n := by
    intro k hc h3 h4 hr
    obtain ⟨h1, h2⟩ := single_of_class hc h3 h4
    rw [single h1 h2, hr]
    rfl
  cases h with
  | table hk hn _ _ => exact isNumeral_unique hn (table hk _ rfl)
  | affixes hk _ _ _ hn _ _ => exact isNumeral_unique hn (affixes hk _ rfl)
  | flag hk _ _ => exact one (class_flag _ (List.mem_map.2 ⟨_, hk, rfl⟩)) (by decide) (by decide) rfl
  | switch hk => exact one (class_switch _ (List.mem_map.2 ⟨_, hk, rfl⟩)) (by decide) (by decide) rfl
  | number hk _ _ => exact one (class_number _ (List.mem_map.2 ⟨_, hk, rfl⟩)) (by decide) (by decide) rfl
  | _ => exact (single (by decide) (by decide)).symm

theorem wellCut_effect {b : Block} (hb : b.WellCut U) {rows : List Str} {cx c : Cx}
    (h : Effect U b.key b.args cx rows c) : rows.length = b.rows.length :=
  effect_rows h hb.table hb.affixes fun h1 h2 => by rw [hb.single h1 h2]; rfl

theorem runs_of_reads {bs : List Block} (hb : ∀ b ∈ bs, b.WellCut U) {cx c : Cx}
    (h : Reads U cx (bs.map Block.lines).flatten c) : Runs U cx bs c := by
  induction bs generalizing cx with
  | nil =>
    generalize hX : (List.map Block.lines []).flatten = X at h
    cases h with
    | done => exact .nil
    | ignored => cases hX
    | directive => cases hX
  | cons b bs ih =>
    have w := hb b List.mem_cons_self
    generalize hX : (List.map Block.lines (b :: bs)).flatten = X at h
    rw [List.map_cons, List.flatten_cons, Block.lines, List.cons_append] at hX
    cases h with
    | done => cases hX
    | ignored hi =>
      rw [← (List.cons.inj hX).1] at hi
      exact absurd rfl (hi _ _ w.words _ w.known)
    | @directive _ line' key' args' rows' c₁ rest' _ h1 h2 h3 =>
      simp only [List.cons.injEq] at hX
      obtain ⟨rfl, hX⟩ := hX
      rw [w.words] at h1
      simp only [List.cons.injEq, String.toList_inj] at h1
      obtain ⟨rfl, rfl⟩ := h1
      obtain ⟨rfl, rfl⟩ := List.append_inj hX (wellCut_effect w h2).symm
      exact .cons h2 (ih (fun b hm => hb b (List.mem_cons_of_mem _ hm)) h3)

theorem reads_of_runs {bs : List Block} (hb : ∀ b ∈ bs, b.WellCut U) {cx c : Cx} (h : Runs U cx bs c) :
    Reads U cx (bs.map Block.lines).flatten c := by
  induction h with
  | nil => exact .done
  | @cons _ b _ bs _ he _ ih =>
    exact .directive (hb b List.mem_cons_self).words he (ih fun b hm => hb b (List.mem_cons_of_mem _ hm))

/-- The order of the blocks does not matter, as long as the blocks of each directive keep their order. -/
theorem reads_order {head : List Str} {bs bs' : List Block} {c₁ c : Cx} (hw : ∀ b ∈ bs, b.WellCut U)
    (hb : ∀ b ∈ bs, b.key ∉ ["FLAG", "AF"]) (hs : ∀ key, bs.filter (·.key = key) = bs'.filter (·.key = key))
    (hh : Reads U {} head c₁) (h : Reads U {} (head ++ (bs.map Block.lines).flatten) c) :
    Reads U {} (head ++ (bs'.map Block.lines).flatten) c := by
  have hm : ∀ b ∈ bs', b ∈ bs := by
    intro b hm
    have : b ∈ bs'.filter (·.key = b.key) := List.mem_filter.2 ⟨hm, by simp⟩
    rw [← hs] at this
    exact (List.mem_filter.1 this).1
  exact hh.append (reads_of_runs (fun b h => hw b (hm b h)) (Runs.order (fun b h => by simpa using hb b h) hs
    (runs_of_reads hw (hh.split h))))

/-- Settings which agree on everything but the part of one directive. -/
def Off (key : String) (c c' : Cx) : Prop := ∀ p ∈ slots, p.key ≠ key → p.get c = p.get c'

theorem Off.flags {key : String} {c c' : Cx} (h : Off key c c') (hF : key ≠ "FLAG") (hA : key ≠ "AF") : SameFlags c c' :=
  ⟨(h ⟨"FLAG", _, fun c => c.flagType⟩ (List.mem_of_getElem? (i := 35) rfl) hF.symm).symm,
    (h ⟨"AF", _, fun c => c.flagAliases⟩ (List.mem_of_getElem? (i := 44) rfl) hA.symm).symm⟩

theorem Off.local {key k : String} {c c' : Cx} (h : Off key c c') {u : Cx → Cx} (hu : Local k u) :
    Off key (u c) (u c') := by
  intro p hp hk
  by_cases hpk : p.key = k
  · exact hu.own (fun q hq hqk => h q hq (fun e => hk (hpk.trans (hqk.symm.trans e)))) p hp hpk
  · rw [hu.frame _ p hp hpk, hu.frame _ p hp hpk]
    exact h p hp hk

theorem Off.effect {key k : String} {args rows : List Str} {cx x c : Cx} (h : Off key cx x) (hF : key ≠ "FLAG")
    (hA : key ≠ "AF") (he : Effect U k args cx rows c) (hkF : k ≠ "FLAG") (hkA : k ≠ "AF") :
    ∃ y, Effect U k args x rows y ∧ Off key c y := by
  obtain ⟨u, hu, rfl, hu'⟩ := effect_local he hkF hkA
  exact ⟨u x, hu' x (h.flags hF hA), h.local hu⟩

/-- A directive with one value does not look at the value there was. -/
theorem effect_value {key : String} {args rows : List Str} {cx x c y : Cx} (ht : key ∉ tableKeys)
    (ha : key ∉ ["PFX", "SFX"]) (hF : key ≠ "FLAG") (h : Off key cx x) (he : Effect U key args cx rows c)
    (he' : Effect U key args x rows y) : c = y := by
  have hA : key ≠ "AF" := by rintro rfl; exact ht (by decide)
  have hf := h.flags hF hA
  have use : ∀ {u : Cx → Cx}, Local key u → (∀ a b, Agree key (u a) (u b)) → c = u cx → Effect U key args x rows (u x) →
      c = y := by
    intro u hu hv hc hx
    rw [effect_unique he' hx, hc]
    refine slots_ext fun k p hp _ => ?_
    by_cases hk : p.key = key
    · exact hv cx x p hp hk
    · exact h.local hu p hp hk
  have one : ∀ {s : Slot} {u : Cx → Cx}, s ∈ slots → s.key = key → (∀ a b, s.get (u a) = s.get (u b)) →
      ∀ a b, Agree key (u a) (u b) := by
    intro s u hs hk hg a b
    subst hk
    exact agree_of hs (hg a b)
  cases he with
  | flagType => exact absurd rfl hF
  | flag hk h h' =>
    exact use (local_flag hk _) (fun a b p hp hk' => own_flag _ hk _ a b p hp hk') rfl
      (.flag hk (by rw [hf.type]; exact h) h')
  | switch hk =>
    exact use (local_switch hk) (fun a b p hp hk' => own_switch _ hk a b p hp hk') rfl (.switch hk)
  | number hk h h' =>
    exact use (local_number hk _) (fun a b p hp hk' => own_number _ hk _ a b p hp hk') rfl (.number hk h h')
  | ignore => exact use (local_ignore fun _ => _) (one (List.mem_of_getElem? (i := 36) rfl) rfl fun _ _ => rfl) rfl .ignore
  | keyboard => exact use (local_key fun _ => _) (one (List.mem_of_getElem? (i := 37) rfl) rfl fun _ _ => rfl) rfl .keyboard
  | tryChars => exact use (local_try fun _ => _) (one (List.mem_of_getElem? (i := 38) rfl) rfl fun _ _ => rfl) rfl .tryChars
  | turkic hl => exact use (local_lang fun _ => _) (one (List.mem_of_getElem? (i := 39) rfl) rfl fun _ _ => rfl) rfl (.turkic hl)
  | notTurkic hl =>
    exact use (local_lang fun _ => _) (one (List.mem_of_getElem? (i := 39) rfl) rfl fun _ _ => rfl) rfl (.notTurkic hl)
  | syllable hl h' =>
    exact use local_syllable (one (List.mem_of_getElem? (i := 50) rfl) rfl fun _ _ => rfl) rfl (.syllable hl h')
  | table hk => exact absurd hk ht
  | affixes hk => exact absurd hk ha

theorem Runs.last {b b' : Block} (hbb : b.key = b'.key) (ht : b.key ∉ tableKeys) (ha : b.key ∉ ["PFX", "SFX"])
    (hF : b.key ≠ "FLAG") {p q : List Block} (hp : ∀ a ∈ p, a.key ≠ "FLAG" ∧ a.key ≠ "AF") {cx c : Cx}
    (h : Runs U cx (b :: (p ++ b' :: q)) c) : Runs U cx (p ++ b' :: q) c := by
  have hA : b.key ≠ "AF" := by intro e; rw [e] at ht; exact ht (by decide)
  obtain _ | ⟨he, hr⟩ := h
  obtain ⟨u, hu, rfl, -⟩ := effect_local he hF hA
  have off : Off b.key (u cx) cx := fun p hp hk => hu.frame cx p hp hk
  clear he
  generalize u cx = x at hr off
  induction p generalizing x cx with
  | nil =>
    obtain _ | ⟨he, hr⟩ := hr
    obtain ⟨y, hy, -⟩ := off.effect hF hA he (hbb ▸ hF) (hbb ▸ hA)
    have e := effect_value (hbb ▸ ht) (hbb ▸ ha) (hbb ▸ hF) (hbb ▸ off) he hy
    subst e
    exact .cons hy hr
  | cons a p ih =>
    obtain _ | ⟨he, hr⟩ := hr
    have h1 := hp a List.mem_cons_self
    obtain ⟨y, hy, hoff⟩ := off.effect hF hA he h1.1 h1.2
    exact .cons hy (ih (fun a ha => hp a (List.mem_cons_of_mem _ ha)) _ hr hoff)

theorem Runs.append {p q : List Block} {cx c c' : Cx} (h : Runs U cx p c) (h' : Runs U c q c') : Runs U cx (p ++ q) c' := by
  induction h with
  | nil => exact h'
  | cons he _ ih => exact .cons he (ih h')

theorem Runs.split {p q : List Block} {cx c : Cx} (h : Runs U cx (p ++ q) c) :
    ∃ c₁, Runs U cx p c₁ ∧ Runs U c₁ q c := by
  induction p generalizing cx with
  | nil => exact ⟨cx, .nil, h⟩
  | cons a p ih =>
    obtain _ | ⟨he, hr⟩ := h
    obtain ⟨c₁, h1, h2⟩ := ih hr
    exact ⟨c₁, .cons he h1, h2⟩

/-- Of two blocks of a directive with one value, the last one counts. -/
theorem reads_last {bs p q : List Block} {b b' : Block} {c : Cx} (hw : ∀ a ∈ bs ++ b :: (p ++ b' :: q), a.WellCut U)
    (hbb : b.key = b'.key) (ht : b.key ∉ tableKeys) (ha : b.key ∉ ["PFX", "SFX"]) (hF : b.key ≠ "FLAG")
    (hp : ∀ a ∈ p, a.key ∉ ["FLAG", "AF"])
    (h : Reads U {} ((bs ++ b :: (p ++ b' :: q)).map Block.lines).flatten c) :
    Reads U {} ((bs ++ (p ++ b' :: q)).map Block.lines).flatten c := by
  obtain ⟨c₁, h1, h2⟩ := (runs_of_reads hw h).split
  refine reads_of_runs (fun a ha => hw a ?_) (h1.append (h2.last hbb ht ha hF (fun a ha => by simpa using hp a ha)))
  simp only [List.mem_append, List.mem_cons] at ha ⊢
  tauto

end Blocks
end Spellbook
