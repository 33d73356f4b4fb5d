import Lean.Elab.Tactic.Basic
import Verif.Spec.ByteOrder
import Verif.Spec.Faults
import Verif.Proof.Faults
import Verif.Proof.RenameSuggest
import Verif.Proof.Parse
/-!
# The same files on machines of both byte orders: proofs
-/

namespace Spellbook
namespace Orders
open Spec

/-- The text has no NUL. -/
abbrev NoNul (s : Str) : Prop := Char.ofNat 0 ∉ s

theorem char_bytes (c : Char) (b : UInt8) (hb : b ∈ String.utf8EncodeChar c) :
    b.toNat ≠ 255 ∧ (c ≠ Char.ofNat 0 → b.toNat ≠ 0) := by
  have hv : c.val.toNat < 0x110000 := by
    have := c.valid
    rcases this with h | h
    · exact Nat.lt_trans h (by decide)
    · exact h.2
  have h0 : c ≠ Char.ofNat 0 → c.val.toNat ≠ 0 := by
    intro h e
    exact h (Char.toNat_inj.1 e)
  have key : ∀ v : Nat, v < 0x110000 → (c ≠ Char.ofNat 0 → v ≠ 0) → b ∈ (if v ≤ 0x7f then [UInt8.ofNat v]
      else if v ≤ 0x7ff then [UInt8.ofNat (v / 64 % 32 + 192), UInt8.ofNat (v % 64 + 128)]
      else if v ≤ 0xffff then
        [UInt8.ofNat (v / 4096 % 16 + 224), UInt8.ofNat (v / 64 % 64 + 128), UInt8.ofNat (v % 64 + 128)]
      else [UInt8.ofNat (v / 262144 % 8 + 240), UInt8.ofNat (v / 4096 % 64 + 128), UInt8.ofNat (v / 64 % 64 + 128),
        UInt8.ofNat (v % 64 + 128)]) → b.toNat ≠ 255 ∧ (c ≠ Char.ofNat 0 → b.toNat ≠ 0) := by
    intro v hv h0 hb
    have low : ∀ n : Nat, n < 255 → (UInt8.ofNat n).toNat = n := fun n hn => by
      rw [UInt8.toNat_ofNat']; omega
    split at hb
    · rw [List.mem_singleton.1 hb, low v (by omega)]
      exact ⟨by omega, h0⟩
    · have : ∃ n, 128 ≤ n ∧ n < 255 ∧ b = UInt8.ofNat n := by
        split at hb
        · simp only [List.mem_cons, List.not_mem_nil, or_false] at hb
          rcases hb with rfl | rfl <;> exact ⟨_, by omega, by omega, rfl⟩
        · split at hb
          · simp only [List.mem_cons, List.not_mem_nil, or_false] at hb
            rcases hb with rfl | rfl | rfl <;> exact ⟨_, by omega, by omega, rfl⟩
          · simp only [List.mem_cons, List.not_mem_nil, or_false] at hb
            rcases hb with rfl | rfl | rfl | rfl <;> exact ⟨_, by omega, by omega, rfl⟩
      obtain ⟨n, h1, h2, rfl⟩ := this
      rw [low n h2]
      exact ⟨by omega, fun _ => by omega⟩
  exact key _ hv h0 hb

theorem text_bytes {s : Str} (hs : NoNul s) {b : UInt8} (hb : b ∈ utf8 s) : 0 < b.toNat ∧ b.toNat < 255 := by
  obtain ⟨c, hc, hb⟩ := List.mem_flatMap.1 hb
  have h := char_bytes c b hb
  have := h.2 fun e => hs (e ▸ hc)
  have := b.toNat_lt
  omega

/-! ## The numbers -/

theorem swap_inj : ∀ f g, swapBytes f = swapBytes g → f = g := by
  intro f g h
  unfold swapBytes at h
  split at h <;> split at h <;> omega

theorem swap_two {a b : Nat} (ha : 0 < a ∧ a < 255) (hb : 0 < b ∧ b < 255) :
    swapBytes (twoBytes .little a b) = twoBytes .big a b := by
  simp only [twoBytes]
  unfold swapBytes
  rw [if_pos (by omega)]
  omega

theorem swap_valid {f : Nat} (h : Flag.Valid f) : Flag.Valid (swapBytes f) := by
  have := h.1
  have := h.2
  unfold swapBytes
  split
  · exact ⟨by omega, by omega⟩
  · exact h

theorem swap_zero {f : Nat} : swapBytes f = 0 ↔ f = 0 := by
  unfold swapBytes
  split <;> omega

theorem swap_renaming (d : AffData) : Renaming swapBytes d :=
  ⟨swap_inj, by decide, fun _ => ⟨by decide, by decide, by decide⟩⟩

/-! ## Texts of flags -/

abbrev lt : FlagType := .long .little
abbrev bt : FlagType := .long .big

theorem flagOf {s : Str} {f : Nat} (hs : NoNul s) (h : FlagOf lt s f) : FlagOf bt s (swapBytes f) := by
  cases h with
  | long h =>
    rw [swap_two (text_bytes hs (by rw [h]; simp)) (text_bytes hs (by rw [h]; simp))]
    exact .long h

theorem bytePairs {bs : List UInt8} {l : List Nat} (h : BytePairs .little bs l)
    (hb : ∀ b ∈ bs, 0 < b.toNat ∧ b.toNat < 255) : BytePairs .big bs (l.map swapBytes) := by
  induction h with
  | nil => exact .nil
  | cons a b h ih =>
    rw [List.map_cons, swap_two (hb a (by simp)) (hb b (by simp))]
    exact .cons a b (ih fun x hx => hb x (by simp [hx]))

theorem flagsOf {s : Str} {l : List Nat} (hs : NoNul s) (h : FlagsOf lt s l) : FlagsOf bt s (l.map swapBytes) := by
  cases h with
  | empty => exact .empty _
  | long h => exact .long (bytePairs h fun b hb => text_bytes hs hb)

theorem ascii_low {c : Char} (h : c.toNat < 128) (hc : c ≠ Char.ofNat 0) : 0 < c.toNat ∧ c.toNat < 255 :=
  ⟨Nat.pos_of_ne_zero fun e => hc (Char.toNat_inj.1 e), by omega⟩

theorem ruleFlag {s : Str} {f : Nat} (hs : NoNul s) (h : RuleFlagText lt s f) : RuleFlagText bt s (swapBytes f) := by
  cases h with
  | long _ a b ha hb ha' hb' =>
    rw [swap_two (ascii_low ha fun e => hs (by simp [e])) (ascii_low hb fun e => hs (by simp [e]))]
    exact .long _ a b ha hb ha' hb'

theorem ruleText {s : Str} {r : CompoundRule} (hs : NoNul s) (h : RuleText lt s r) :
    RuleText bt s (renameRule swapBytes r) := by
  induction h with
  | nil => exact .nil
  | cons h1 h2 ih =>
    refine .cons (ruleFlag (fun h => hs ?_) h1) (ih fun h => hs ?_)
    · simp [h]
    · simp [h]

theorem flagFault {s : Str} {e : FlagError} (hs : NoNul s) (h : FlagFault lt s e) : FlagFault bt s e := by
  cases h with
  | zero h => exact .zero (swap_zero.2 rfl ▸ flagOf hs h)
  | half h => exact .half h

theorem flagsFault {s : Str} {e : FlagError} (hs : NoNul s) (h : FlagsFault lt s e) : FlagsFault bt s e := by
  cases h with
  | zero _ h1 h2 => exact .zero (by simp) (flagsOf hs h1) (List.mem_map.2 ⟨0, h2, swap_zero.2 rfl⟩)
  | half h => exact .half h

theorem aliasFlags {al : List FlagSet} {s : Str} {F : FlagSet} (hs : NoNul s) (h : AliasFlags lt al s F) :
    AliasFlags bt (al.map (renameFlags swapBytes)) s (renameFlags swapBytes F) := by
  cases h with
  | byNumber i _ h2 h3 h4 => exact .byNumber i (by simp) h2 h3 (by rw [List.getElem?_map, h4]; rfl)
  | text l h1 h2 h3 h4 =>
    refine .text (l.map swapBytes) (.inr fun i hi hi' => ?_) (flagsOf hs h2) ?_ ?_
    · rw [List.length_map]
      exact h1.resolve_left (by simp) i hi hi'
    · intro f hf
      obtain ⟨g, hg, rfl⟩ := List.mem_map.1 hf
      exact swap_valid (h3 g hg)
    · intro f
      rw [FlagSet.contains_iff, mem_renameFlags, List.mem_map]
      simp only [← h4, FlagSet.contains_iff]

theorem aliasFault {al : List FlagSet} {s : Str} {e : FlagError} (hs : NoNul s) (h : AliasFault lt al s e) :
    AliasFault bt (al.map (renameFlags swapBytes)) s e := by
  refine ⟨.inr fun i hi hi' => ?_, flagsFault hs h.2⟩
  rw [List.length_map]
  exact h.1.resolve_left (by simp) i hi hi'

theorem nonAscii {s : Str} {c : Char} : NonAscii lt s c ↔ NonAscii bt s c := by
  constructor <;> intro h <;> cases h with
  | first h => exact .first h
  | second h1 h2 h3 => exact .second h1 h2 h3

theorem ruleFlagFault {s : Str} {e : RuleError} (hs : NoNul s) (h : RuleFlagFault lt s e) : RuleFlagFault bt s e := by
  cases h with
  | nonAscii h => exact .nonAscii (nonAscii.1 h)
  | unspelled h1 h2 =>
    refine .unspelled (fun name f rest e h => ?_) fun c h => h2 c (nonAscii.2 h)
    cases h with
    | long _ a b ha hb ha' hb' => exact h1 _ _ rest e (.long _ a b ha hb ha' hb')
  | zero h => exact .zero (swap_zero.2 rfl ▸ ruleFlag (fun h => hs (by simp [h])) h)
  | large h => cases h
  | number h => cases h

theorem ruleFault {s : Str} {e : RuleError} (hs : NoNul s) (h : RuleFault lt s e) : RuleFault bt s e := by
  induction h with
  | here h1 h2 => exact .here h1 (ruleFlagFault hs h2)
  | later h1 h2 h3 _ ih =>
    exact .later (ruleFlag (fun h => hs (by simp [h])) h1) (swap_valid h2) h3 (ih fun h => hs (by simp [h]))

theorem optFlag {s : Str} {o : Option Nat} (hs : NoNul s) (h : OptFlag lt s o) : OptFlag bt s (o.map swapBytes) := by
  cases h with
  | none => exact .none
  | some h1 h2 => exact .some (flagOf hs h1) (swap_valid h2)

/-! ## Settings -/

/-- The settings with the bytes of all flags exchanged. -/
def swapCx (cx : Cx) : Cx :=
  { cx with
    options := renameOptions swapBytes cx.options
    flagType := if cx.flagType = lt then bt else cx.flagType
    flagAliases := cx.flagAliases.map (renameFlags swapBytes)
    prefixes := cx.prefixes.map (renameAffix swapBytes)
    suffixes := cx.suffixes.map (renameAffix swapBytes)
    compoundRules := cx.compoundRules.map (renameRule swapBytes)
    compoundPatterns := cx.compoundPatterns.map (renamePattern swapBytes) }

theorem swapCx_start : swapCx {} = {} := by
  simp only [swapCx, renameOptions, List.map_nil, Option.map_none, reduceCtorEq, ↓reduceIte]
  rw [show swapBytes 65510 = 65510 by decide]

/-- In the lines of this directive flags can be read: `FLAG long` is set, or the directive names none. -/
def Ready (key : String) (cx : Cx) : Prop := cx.flagType = lt ∨ key ∉ flagReaders

theorem Ready.long {key : String} {cx : Cx} (h : Ready key cx) (hk : key ∈ flagReaders) : cx.flagType = lt :=
  h.resolve_right fun hn => hn hk

theorem swapCx_type {cx : Cx} (h : cx.flagType = lt) : (swapCx cx).flagType = bt := if_pos h

theorem slash_noNul {w a b : Str} (hw : NoNul w) (h : SlashPair w a b) : NoNul b := by
  cases h with
  | plain => simp [NoNul]
  | pair => exact fun h => hw (by simp [h])

theorem affixRow {cx : Cx} {f : Nat} {cross : Bool} {strip add : Str} {more : List Str} {a : Affix}
    (hx : cx.flagType = lt) (hs : NoNul add) (h : AffixRow cx f cross strip add more a) :
    AffixRow (swapCx cx) (swapBytes f) cross strip add more (renameAffix swapBytes a) where
  flag := by rw [← h.flag]; rfl
  cross := h.cross
  strip := h.strip
  add := by
    obtain ⟨text, flags, h1, h2, h3⟩ := h.add
    refine ⟨text, flags, h1, h2, ?_⟩
    rw [swapCx_type hx]
    rw [hx] at h3
    exact aliasFlags (slash_noNul hs h1) h3
  condition := h.condition

theorem patternRow {cx : Cx} {a b : Str} {more : List Str} {p : CompoundPattern} (hx : cx.flagType = lt)
    (ha : NoNul a) (hb : NoNul b) (h : PatternRow cx a b more p) :
    PatternRow (swapCx cx) a b more (renamePattern swapBytes p) where
  first := by
    obtain ⟨text, flag, h1, h2, h3⟩ := h.first
    rw [hx] at h2
    exact ⟨text, flag, h1, by rw [swapCx_type hx]; exact optFlag (slash_noNul ha h1) h2, h3⟩
  second := by
    obtain ⟨flag, h1, h2⟩ := h.second
    rw [hx] at h2
    exact ⟨flag, h1, by rw [swapCx_type hx]; exact optFlag (slash_noNul hb h1) h2⟩
  replacement := h.replacement

theorem row {key : String} {head args : List Str} {cx cx' : Cx} (hr : Ready key cx) (ha : ∀ w ∈ args, NoNul w)
    (h : Row key head cx args cx') : Row key head (swapCx cx) args (swapCx cx') := by
  cases h with
  | rep => exact .rep
  | iconv => exact .iconv
  | oconv => exact .oconv
  | brk => exact .brk
  | map h => exact .map h
  | af h1 h2 h3 =>
    have hx := hr.long (by simp [flagReaders])
    rw [hx] at h1
    have := Row.af (head := head) (cx := swapCx cx) (more := ‹_›) (F := renameFlags swapBytes ‹_›)
      (by rw [swapCx_type hx]; exact flagsOf (ha _ (by simp)) h1) (fun f hf => ?_) (fun f => ?_)
    · simpa only [swapCx, List.map_append, List.map_cons, List.map_nil] using this
    · obtain ⟨g, hg, rfl⟩ := List.mem_map.1 hf
      exact swap_valid (h2 g hg)
    · rw [FlagSet.contains_iff, mem_renameFlags, List.mem_map]
      simp only [← h3, FlagSet.contains_iff]
  | rule h1 h2 =>
    have hx := hr.long (by simp [flagReaders])
    rw [hx] at h1
    have := Row.rule (head := head) (cx := swapCx cx) (more := ‹_›)
      (by rw [swapCx_type hx]; exact ruleText (ha _ (by simp)) h1) (fun e he => ?_)
    · simpa only [swapCx, List.map_append, List.map_cons, List.map_nil] using this
    · obtain ⟨g, hg, rfl⟩ := List.mem_map.1 he
      exact swap_valid (h2 g hg)
  | pattern h =>
    have hx := hr.long (by simp [flagReaders])
    have := Row.pattern (head := head) (patternRow hx (ha _ (by simp)) (ha _ (by simp)) h)
    simpa only [swapCx, List.map_append, List.map_cons, List.map_nil] using this
  | @pfx name cross head f cx strip add more a h1 h2 h3 =>
    have hx := hr.long (by simp [flagReaders])
    rw [hx] at h1
    have := Row.pfx (head := head) (cx := swapCx cx) (by rw [swapCx_type hx]; exact flagOf (ha _ (by simp)) h1)
      (swap_valid h2) (affixRow hx (ha _ (by simp)) h3)
    simpa only [swapCx, List.map_append, List.map_cons, List.map_nil] using this
  | @sfx name cross head f cx strip add more a h1 h2 h3 =>
    have hx := hr.long (by simp [flagReaders])
    rw [hx] at h1
    have := Row.sfx (head := head) (cx := swapCx cx) (by rw [swapCx_type hx]; exact flagOf (ha _ (by simp)) h1)
      (swap_valid h2) (affixRow hx (ha _ (by simp)) h3)
    simpa only [swapCx, List.map_append, List.map_cons, List.map_nil] using this

theorem row_type {key : String} {head args : List Str} {cx cx' : Cx} (h : Row key head cx args cx') :
    cx'.flagType = cx.flagType := by
  cases h <;> rfl

variable {U : Unicode}

abbrev U₁ (U : Unicode) : Unicode := withOrder U .little
abbrev U₂ (U : Unicode) : Unicode := withOrder U .big

theorem split_order (o : ByteOrder) (s : Str) : splitWhitespace (withOrder U o) s = splitWhitespace U s := by
  induction hn : s.length using Nat.strong_induction_on generalizing s with
  | _ n ih =>
    subst hn
    rw [splitWhitespace, splitWhitespace]
    have h0 : s.dropWhile (withOrder U o).isWs = s.dropWhile U.isWs := rfl
    have h1 := (List.dropWhile_suffix (l := s) U.isWs).length_le
    rw [h0]
    cases h : s.dropWhile U.isWs with
    | nil => rfl
    | cons c rest =>
      have ht : takeWord (withOrder U o) rest = takeWord U rest := by
        clear h h1 ih
        induction rest with
        | nil => rfl
        | cons d rest ih => simp only [takeWord, ih]; rfl
      have h2 := takeWord_length U rest
      rw [h, List.length_cons] at h1
      show (c :: (takeWord (withOrder U o) rest).1) :: splitWhitespace (withOrder U o) (takeWord (withOrder U o) rest).2 =
        (c :: (takeWord U rest).1) :: splitWhitespace U (takeWord U rest).2
      rw [ht, ih _ (by omega) _ rfl]

theorem words_mem {s : Str} {ws : List Str} (h : WordsOf U s ws) : ∀ w ∈ ws, ∀ c ∈ w, c ∈ s := by
  induction h with
  | nil => simp
  | cons _ _ _ _ _ ih =>
    intro w hw c hc
    rcases List.mem_cons.1 hw with rfl | hw
    · simp [hc]
    · simp [ih w hw c hc]

theorem words_noNul {s : Str} {k : Str} {ws : List Str} (hs : NoNul s) (h : splitWhitespace U s = k :: ws) :
    ∀ w ∈ ws, NoNul w := fun w hw hc =>
  hs (words_mem (splitWhitespace_words U s) w (by rw [h]; simp [hw]) _ hc)

theorem rows {key : String} {head : List Str} {cx cx' : Cx} {lines : List Str} (hr : Ready key cx)
    (hn : ∀ l ∈ lines, NoNul l) (h : Rows (U₁ U) key head cx lines cx') :
    Rows (U₂ U) key head (swapCx cx) lines (swapCx cx') ∧ cx'.flagType = cx.flagType ∧
      ∀ l ∈ lines, LineOf U l key := by
  induction h with
  | nil => exact ⟨.nil, rfl, by simp⟩
  | cons h1 h2 _ ih =>
    rw [split_order] at h1
    have ht := row_type h2
    have ih := ih (by unfold Ready; rw [ht]; exact hr) fun l hl => hn l (by simp [hl])
    refine ⟨.cons ((split_order _ _).trans h1) (row hr (words_noNul (hn _ (by simp)) h1) h2) ih.1, ih.2.1.trans ht, ?_⟩
    intro l hl
    rcases List.mem_cons.1 hl with rfl | hl
    · exact ⟨_, h1⟩
    · exact ih.2.2 l hl

theorem effect {key : String} {args : List Str} {cx cx' : Cx} {lines : List Str} (hr : Ready key cx)
    (hk : key ≠ "FLAG") (ha : ∀ w ∈ args, NoNul w) (hn : ∀ l ∈ lines, NoNul l)
    (h : Effect (U₁ U) key args cx lines cx') :
    Effect (U₂ U) key args (swapCx cx) lines (swapCx cx') ∧ cx'.flagType = cx.flagType ∧
      ∀ l ∈ lines, LineOf U l key := by
  cases h with
  | flagType => exact absurd rfl hk
  | @flag _ set _ w args f h1 h2 h3 =>
    have hx := hr.long (by
      unfold flagReaders
      exact List.mem_append_left _ (List.mem_map.2 ⟨_, h1, rfl⟩))
    rw [hx] at h2
    have hs : renameOptions swapBytes (set cx.options f) = set (renameOptions swapBytes cx.options) (swapBytes f) := by
      clear h3 h2 hr
      simp only [flagKeys, List.mem_cons, Prod.mk.injEq, List.not_mem_nil, or_false] at h1
      rcases h1 with ⟨-, rfl⟩ | ⟨-, rfl⟩ | ⟨-, rfl⟩ | ⟨-, rfl⟩ | ⟨-, rfl⟩ | ⟨-, rfl⟩ | ⟨-, rfl⟩ | ⟨-, rfl⟩ | ⟨-, rfl⟩ |
        ⟨-, rfl⟩ | ⟨-, rfl⟩ | ⟨-, rfl⟩ | ⟨-, rfl⟩ | ⟨-, rfl⟩ | ⟨-, rfl⟩ | ⟨-, rfl⟩ <;> rfl
    have := Effect.flag (U := U₂ U) (cx := swapCx cx) (args := args) h1
      (by rw [swapCx_type hx]; exact flagOf (ha _ (by simp)) h2) (swap_valid h3)
    refine ⟨?_, rfl, by simp⟩
    simpa only [swapCx, hs] using this
  | @switch _ set _ _ h1 =>
    have hs : renameOptions swapBytes (set cx.options) = set (renameOptions swapBytes cx.options) := by
      clear hr
      simp only [switchKeys, List.mem_cons, Prod.mk.injEq, List.not_mem_nil, or_false] at h1
      rcases h1 with ⟨-, rfl⟩ | ⟨-, rfl⟩ | ⟨-, rfl⟩ | ⟨-, rfl⟩ | ⟨-, rfl⟩ | ⟨-, rfl⟩ | ⟨-, rfl⟩ | ⟨-, rfl⟩ | ⟨-, rfl⟩ |
        ⟨-, rfl⟩ | ⟨-, rfl⟩ | ⟨-, rfl⟩ | ⟨-, rfl⟩ | ⟨-, rfl⟩ <;> rfl
    have := Effect.switch (U := U₂ U) (cx := swapCx cx) (args := args) h1
    refine ⟨?_, rfl, by simp⟩
    simpa only [swapCx, hs] using this
  | @number _ set _ w args n h1 h2 h3 =>
    have hs : renameOptions swapBytes (set cx.options n) = set (renameOptions swapBytes cx.options) n := by
      clear hr
      simp only [numberKeys, List.mem_cons, Prod.mk.injEq, List.not_mem_nil, or_false] at h1
      rcases h1 with ⟨-, rfl⟩ | ⟨-, rfl⟩ | ⟨-, rfl⟩ | ⟨-, rfl⟩ | ⟨-, rfl⟩ <;> rfl
    have := Effect.number (U := U₂ U) (cx := swapCx cx) (args := args) h1 h2 h3
    refine ⟨?_, rfl, by simp⟩
    simpa only [swapCx, hs] using this
  | ignore => exact ⟨.ignore, rfl, by simp⟩
  | keyboard => exact ⟨.keyboard, rfl, by simp⟩
  | tryChars => exact ⟨.tryChars, rfl, by simp⟩
  | turkic h => exact ⟨.turkic h, rfl, by simp⟩
  | notTurkic h => exact ⟨.notTurkic h, rfl, by simp⟩
  | syllable h1 h2 => exact ⟨.syllable h1 h2, rfl, by simp⟩
  | table h1 h2 h3 h4 =>
    by_cases hb : key = "BREAK"
    · rw [if_pos hb] at h4
      have := rows (by unfold Ready; exact hr) hn h4
      refine ⟨.table h1 h2 h3 ?_, this.2.1, this.2.2⟩
      rw [if_pos hb]
      exact this.1
    · rw [if_neg hb] at h4
      have := rows hr hn h4
      refine ⟨.table h1 h2 h3 ?_, this.2.1, this.2.2⟩
      rw [if_neg hb]
      exact this.1
  | affixes h1 h2 h3 h4 h5 h6 h7 =>
    have hx := hr.long (by
      unfold flagReaders
      refine List.mem_append_right _ ?_
      rcases List.mem_cons.1 h1 with rfl | h1
      · simp
      · rw [List.mem_singleton.1 h1]; simp)
    rw [hx] at h2
    have := rows hr hn h7
    exact ⟨.affixes h1 (by rw [swapCx_type hx]; exact flagOf (ha _ (by simp)) h2) (swap_valid h3) h4 h5 h6 this.1,
      this.2.1, this.2.2⟩

/-! ## What is wrong -/

theorem affix_readers {key : String} (h : key ∈ ["PFX", "SFX"]) : key ∈ flagReaders := by
  unfold flagReaders
  refine List.mem_append_right _ ?_
  rcases List.mem_cons.1 h with rfl | h
  · simp
  · rw [List.mem_singleton.1 h]; simp

theorem rowFault {key : String} {head args : List Str} {cx : Cx} {k : ErrorKind} (hr : Ready key cx)
    (ha : ∀ w ∈ args, NoNul w) (h : RowFault key head cx args k) : RowFault key head (swapCx cx) args k := by
  cases h with
  | noColumn h => exact .noColumn h
  | noColumns h => exact .noColumns h
  | columns h => exact .columns h
  | flags h1 h2 =>
    have hx := hr.long (by simp [h1, flagReaders])
    rw [hx] at h2
    exact .flags h1 (by rw [swapCx_type hx]; exact flagsFault (ha _ (by simp)) h2)
  | rule h1 h2 =>
    have hx := hr.long (by simp [h1, flagReaders])
    rw [hx] at h2
    exact .rule h1 (by rw [swapCx_type hx]; exact ruleFault (ha _ (by simp)) h2)
  | firstFlag h1 h2 h3 h4 =>
    have hx := hr.long (by simp [h1, flagReaders])
    rw [hx] at h4
    exact .firstFlag h1 h2 h3 (by rw [swapCx_type hx]; exact flagFault (slash_noNul (ha _ (by simp)) h2) h4)
  | secondFlag h1 h2 h3 h4 h5 h6 =>
    have hx := hr.long (by simp [h1, flagReaders])
    rw [hx] at h3 h6
    exact .secondFlag h1 h2 (by rw [swapCx_type hx]; exact optFlag (slash_noNul (ha _ (by simp)) h2) h3) h4 h5
      (by rw [swapCx_type hx]; exact flagFault (slash_noNul (ha _ (by simp)) h4) h6)
  | name h1 h2 h3 => exact .name h1 h2 h3
  | noStrip h1 h2 => exact .noStrip h1 h2
  | noAdd h1 h2 => exact .noAdd h1 h2
  | affixFlags h1 h2 h3 h4 =>
    have hx := hr.long (affix_readers h1)
    rw [hx] at h4
    exact .affixFlags h1 h2 h3 (by rw [swapCx_type hx]; exact aliasFault (slash_noNul (ha _ (by simp)) h3) h4)
  | condition h1 h2 h3 h4 h5 h6 =>
    have hx := hr.long (affix_readers h1)
    rw [hx] at h4
    exact .condition h1 h2 h3 (by rw [swapCx_type hx]; exact aliasFlags (slash_noNul (ha _ (by simp)) h3) h4) h5 h6

theorem rowsFault {key : String} {head : List Str} {n i : Nat} {cx : Cx} {lines : List (Nat × Str)}
    {number : Option Nat} {k : ErrorKind} (hr : Ready key cx) (hn : ∀ l ∈ lines, NoNul l.2)
    (h : RowsFault (U₁ U) key head n i cx lines number k) :
    RowsFault (U₂ U) key head n i (swapCx cx) lines number k := by
  induction h with
  | missing h => exact .missing h
  | foreign h1 h2 => exact .foreign h1 fun args e => h2 args ((split_order _ _).trans ((split_order _ _).symm.trans e))
  | row h1 h2 h3 =>
    rw [split_order] at h2
    exact .row h1 ((split_order _ _).trans h2) (rowFault hr (words_noNul (hn _ (by simp)) h2) h3)
  | next h1 h2 h3 _ ih =>
    rw [split_order] at h2
    exact .next h1 ((split_order _ _).trans h2) (row hr (words_noNul (hn _ (by simp)) h2) h3)
      (ih (by unfold Ready; rw [row_type h3]; exact hr) fun l hl => hn l (by simp [hl]))

theorem lineFault {key : String} {args : List Str} {cx : Cx} {k : ErrorKind} (hr : Ready key cx)
    (ha : ∀ w ∈ args, NoNul w) (h : LineFault key cx args k) : LineFault key (swapCx cx) args k := by
  have go {name f} (hk : key ∈ ["PFX", "SFX"]) (hn : name ∈ args) (h : FlagOf cx.flagType name f) :
      FlagOf (swapCx cx).flagType name (swapBytes f) := by
    have hx := hr.long (affix_readers hk)
    rw [hx] at h
    rw [swapCx_type hx]
    exact flagOf (ha _ hn) h
  cases h with
  | noWord h => exact .noWord h
  | flagType h1 h2 => exact .flagType h1 h2
  | flag h1 h2 =>
    have hx := hr.long (List.mem_append_left _ h1)
    rw [hx] at h2
    exact .flag h1 (by rw [swapCx_type hx]; exact flagFault (ha _ (by simp)) h2)
  | number h1 h2 => exact .number h1 h2
  | noSyllables h => exact .noSyllables h
  | noVowels h => exact .noVowels h
  | syllables h1 h2 => exact .syllables h1 h2
  | count h1 h2 => exact .count h1 h2
  | noName h => exact .noName h
  | affixFlag h1 h2 =>
    have hx := hr.long (affix_readers h1)
    rw [hx] at h2
    exact .affixFlag h1 (by rw [swapCx_type hx]; exact flagFault (ha _ (by simp)) h2)
  | noCross h1 h2 h3 => exact .noCross h1 (go h1 (by simp) h2) (swap_valid h3)
  | cross h1 h2 h3 h4 => exact .cross h1 (go h1 (by simp) h2) (swap_valid h3) h4
  | noCount h1 h2 h3 h4 => exact .noCount h1 (go h1 (by simp) h2) (swap_valid h3) h4
  | affixCount h1 h2 h3 h4 h5 => exact .affixCount h1 (go h1 (by simp) h2) (swap_valid h3) h4 h5

theorem tableHead {key : String} {args : List Str} {cx cx' : Cx} {n : Nat} (hr : Ready key cx)
    (ha : ∀ w ∈ args, NoNul w) (h : TableHead key cx args n cx') :
    TableHead key (swapCx cx) args n (swapCx cx') ∧ Ready key cx' := by
  cases h with
  | @table _ ws _ h1 h2 h3 =>
    have := TableHead.table (cx := swapCx cx) (ws := ws) h1 h2 h3
    by_cases hb : key = "BREAK"
    · simp only [if_pos hb] at this ⊢
      exact ⟨this, hr⟩
    · simp only [if_neg hb] at this ⊢
      exact ⟨this, hr⟩
  | affixes h1 h2 h3 h4 h5 h6 =>
    have hx := hr.long (affix_readers h1)
    rw [hx] at h2
    exact ⟨.affixes h1 (by rw [swapCx_type hx]; exact flagOf (ha _ (by simp)) h2) (swap_valid h3) h4 h5 h6, hr⟩

/-! ## The text -/

/-- The lines which are left: the line `FLAG long` has been read, or is still there. -/
def Fits (U : Unicode) (cx : Cx) (lines : List Str) : Prop :=
  (cx.flagType = lt ∧ ∀ l ∈ lines, ¬ LineOf U l "FLAG") ∨
  ∃ before line after, lines = before ++ line :: after ∧
    (∀ l ∈ before, ¬ LineOf U l "FLAG" ∧ ∀ k ∈ flagReaders, ¬ LineOf U l k) ∧
    (∃ args, splitWhitespace U line = "FLAG".toList :: "long".toList :: args) ∧
    ∀ l ∈ after, ¬ LineOf U l "FLAG"

theorem flag_not_reader : "FLAG" ∉ flagReaders := by decide

theorem fits_ready {cx : Cx} {line : Str} {rest : List Str} {key : String} {args : List Str}
    (h : Fits U cx (line :: rest)) (hs : splitWhitespace U line = key.toList :: args) : Ready key cx := by
  rcases h with ⟨h, -⟩ | ⟨before, flag, after, e, h1, ⟨w, h2⟩, -⟩
  · exact .inl h
  · right
    intro hk
    cases before with
    | nil =>
      obtain ⟨rfl, -⟩ := List.cons.inj e
      rw [h2] at hs
      have := String.toList_inj.1 (List.cons.inj hs).1
      exact flag_not_reader (this ▸ hk)
    | cons l before =>
      obtain ⟨rfl, -⟩ := List.cons.inj e
      exact (h1 _ (by simp)).2 key hk ⟨_, hs⟩

theorem fits_ignored {cx : Cx} {line : Str} {rest : List Str} (h : Fits U cx (line :: rest))
    (hs : ∀ key args, splitWhitespace U line = key :: args → ∀ k ∈ knownKeys, key ≠ k.toList) : Fits U cx rest := by
  rcases h with ⟨h, h'⟩ | ⟨before, flag, after, e, h1, ⟨w, h2⟩, h3⟩
  · exact .inl ⟨h, fun l hl => h' l (by simp [hl])⟩
  · cases before with
    | nil =>
      obtain ⟨rfl, -⟩ := List.cons.inj e
      exact absurd rfl (hs _ _ h2 "FLAG" (by decide))
    | cons l before =>
      obtain ⟨rfl, rfl⟩ := List.cons.inj e
      exact .inr ⟨before, flag, after, rfl, fun l hl => h1 l (by simp [hl]), ⟨w, h2⟩, h3⟩

theorem flag_effect {key : String} {w : Str} {args rows : List Str} {cx cx' : Cx} (hk : key = "FLAG")
    (hw : w = "long".toList) (h : Effect U key (w :: args) cx rows cx') :
    rows = [] ∧ cx' = { cx with flagType := .long U.byteOrder } := by
  cases h with
  | flagType ht =>
    cases ht with
    | long => exact ⟨rfl, rfl⟩
    | num => exact absurd hw (by decide)
    | utf8 => exact absurd hw (by decide)
  | flag h => exact absurd (hk ▸ List.mem_map_of_mem (f := (·.1)) h : "FLAG" ∈ flagKeys.map (·.1)) (by decide)
  | switch h => exact absurd (hk ▸ List.mem_map_of_mem (f := (·.1)) h : "FLAG" ∈ switchKeys.map (·.1)) (by decide)
  | number h => exact absurd (hk ▸ List.mem_map_of_mem (f := (·.1)) h : "FLAG" ∈ numberKeys.map (·.1)) (by decide)
  | ignore => exact absurd hk (by decide)
  | keyboard => exact absurd hk (by decide)
  | tryChars => exact absurd hk (by decide)
  | turkic => exact absurd hk (by decide)
  | notTurkic => exact absurd hk (by decide)
  | syllable => exact absurd hk (by decide)
  | table h => exact absurd (hk ▸ h) (by decide)
  | affixes h => exact absurd (hk ▸ h) (by decide)

/-- One directive. -/
theorem fits_directive {cx cx' : Cx} {line : Str} {rows rest : List Str} {key : String} {args : List Str}
    (h : Fits U cx (line :: (rows ++ rest))) (hn : ∀ l ∈ line :: (rows ++ rest), NoNul l)
    (hs : splitWhitespace U line = key.toList :: args) (he : Effect (U₁ U) key args cx rows cx') :
    Effect (U₂ U) key args (swapCx cx) rows (swapCx cx') ∧ Fits U cx' rest := by
  have hr := fits_ready h hs
  have hw := words_noNul (hn line (by simp)) hs
  have hrows : ∀ l ∈ rows, NoNul l := fun l hl => hn l (by simp [hl])
  rcases h with ⟨h, h'⟩ | ⟨before, flag, after, e, h1, ⟨w, h2⟩, h3⟩
  · have hk : key ≠ "FLAG" := fun e => h' line (by simp) ⟨args, e ▸ hs⟩
    have := effect hr hk hw hrows he
    exact ⟨this.1, .inl ⟨this.2.1.trans h, fun l hl => h' l (by simp [hl])⟩⟩
  · cases before with
    | nil =>
      obtain ⟨rfl, e'⟩ := List.cons.inj e
      rw [h2] at hs
      obtain ⟨hk, rfl⟩ := List.cons.inj hs
      obtain rfl := String.toList_inj.1 hk
      obtain ⟨rfl, rfl⟩ := flag_effect rfl rfl he
      rw [List.nil_append] at e'
      subst e'
      refine ⟨?_, .inl ⟨rfl, h3⟩⟩
      exact Effect.flagType (U := U₂ U) (cx := swapCx cx) .long
    | cons l before =>
      obtain ⟨rfl, e'⟩ := List.cons.inj e
      have hk : key ≠ "FLAG" := fun e => (h1 line (by simp)).1 ⟨args, e ▸ hs⟩
      have := effect hr hk hw hrows he
      refine ⟨this.1, .inr ?_⟩
      rcases List.append_eq_append_iff.1 e' with ⟨x, rfl, hx⟩ | ⟨x, rfl, hx⟩
      · exact ⟨x, flag, after, hx, fun l hl => h1 l (by simp [hl]), ⟨w, h2⟩, h3⟩
      · cases x with
        | nil => exact ⟨[], flag, after, by simpa using hx.symm, by simp, ⟨w, h2⟩, h3⟩
        | cons y x =>
          obtain ⟨rfl, -⟩ := List.cons.inj hx
          obtain ⟨args', e'⟩ := this.2.2 flag (by simp)
          rw [h2] at e'
          exact absurd (String.toList_inj.1 (List.cons.inj e').1).symm hk

theorem reads {cx cx' : Cx} {lines : List Str} (h : Reads (U₁ U) cx lines cx') (hf : Fits U cx lines)
    (hn : ∀ l ∈ lines, NoNul l) : Reads (U₂ U) (swapCx cx) lines (swapCx cx') := by
  induction h with
  | done => exact .done
  | ignored h1 _ ih =>
    simp only [split_order] at h1
    refine .ignored ?_ (ih (fits_ignored hf h1) fun l hl => hn l (by simp [hl]))
    simpa only [split_order] using h1
  | directive h1 h2 _ ih =>
    rw [split_order] at h1
    have := fits_directive hf hn h1 h2
    exact .directive ((split_order _ _).trans h1) this.1 (ih this.2 fun l hl => hn l (by simp [hl]))

theorem readsFault {cx : Cx} {lines : List (Nat × Str)} {number : Option Nat} {k : ErrorKind}
    (h : ReadsFault (U₁ U) cx lines number k) (hf : Fits U cx (lines.map (·.2))) (hn : ∀ l ∈ lines, NoNul l.2) :
    ReadsFault (U₂ U) (swapCx cx) lines number k := by
  induction h with
  | line h1 h2 =>
    rw [split_order] at h1
    exact .line ((split_order _ _).trans h1) (lineFault (fits_ready hf h1) (words_noNul (hn _ (by simp)) h1) h2)
  | rows h1 h2 h3 =>
    rw [split_order] at h1
    have := tableHead (fits_ready hf h1) (words_noNul (hn _ (by simp)) h1) h2
    exact .rows ((split_order _ _).trans h1) this.1 (rowsFault this.2 (fun l hl => hn l (by simp [hl])) h3)
  | ignored h1 _ ih =>
    simp only [split_order] at h1
    refine .ignored ?_ (ih (fits_ignored hf h1) fun l hl => hn l (by simp [hl]))
    simpa only [split_order] using h1
  | directive h1 h2 _ ih =>
    rw [split_order] at h1
    rw [List.map_cons, List.map_append] at hf
    have := fits_directive hf (by
      intro l hl
      rcases List.mem_cons.1 hl with rfl | hl
      · exact hn _ (by simp)
      · rw [← List.map_append] at hl
        obtain ⟨y, hy, rfl⟩ := List.mem_map.1 hl
        exact hn y (List.mem_cons_of_mem _ hy)) h1 h2
    exact .directive ((split_order _ _).trans h1) this.1 (ih this.2 fun l hl => hn l (by simp [hl]))

/-! ## The characters of the lines -/

theorem lines_mem {s : Str} {ls : List Str} (h : LinesOf s ls) : ∀ l ∈ ls, ∀ c ∈ l, c ∈ s := by
  induction h with
  | nil => simp
  | last => simp
  | lf _ _ _ ih =>
    intro l hl c hc
    rcases List.mem_cons.1 hl with rfl | hl
    · simp [hc]
    · simp [ih l hl c hc]
  | crlf _ _ ih =>
    intro l hl c hc
    rcases List.mem_cons.1 hl with rfl | hl
    · simp [hc]
    · simp [ih l hl c hc]

theorem content_noNul {text : Str} (ht : NoNul text) {l : Nat × Str} (hl : l ∈ contentLines U text) : NoNul l.2 := by
  have hl := mem_contentLines hl
  unfold numbered at hl
  simp only [List.mem_map] at hl
  obtain ⟨p, hp, rfl⟩ := hl
  have hp := (List.mem_map.2 ⟨p, hp, rfl⟩ : p.1 ∈ (textLines _).zipIdx.map (·.1))
  rw [List.zipIdx_map_fst] at hp
  generalize ht' : (if text.head? = some (Char.ofNat 0xFEFF) then text.tail else text) = t at hp
  obtain ⟨ls, h⟩ := linesOf_exists t
  rw [h.eq] at hp
  intro hc
  have := lines_mem h _ hp _ hc
  subst ht'
  split at this
  · exact ht (List.mem_of_mem_tail this)
  · exact ht this

/-! ## The settings -/

theorem content_order (o : ByteOrder) (text : Str) : contentLines (withOrder U o) text = contentLines U text := rfl

theorem fits_start {aff : Str} (h : LongFirst U aff) : Fits U {} ((contentLines U aff).map (·.2)) := by
  obtain ⟨before, line, after, h1, h2, h3, h4⟩ := h
  rw [← content_iff.1 h1]
  refine .inr ⟨before.map (·.2), line.2, after.map (·.2), by simp, ?_, h3, ?_⟩
  · intro l hl
    obtain ⟨x, hx, rfl⟩ := List.mem_map.1 hl
    exact h2 x hx
  · intro l hl
    obtain ⟨x, hx, rfl⟩ := List.mem_map.1 hl
    exact h4 x hx

theorem fits_end {cx cx' : Cx} {lines : List Str} (h : Reads (U₁ U) cx lines cx') (hf : Fits U cx lines)
    (hn : ∀ l ∈ lines, NoNul l) : cx'.flagType = lt := by
  induction h with
  | done =>
    rcases hf with ⟨h, -⟩ | ⟨b, l, a, e, -⟩
    · exact h
    · simp at e
  | ignored h1 _ ih =>
    simp only [split_order] at h1
    exact ih (fits_ignored hf h1) fun l hl => hn l (by simp [hl])
  | directive h1 h2 _ ih =>
    rw [split_order] at h1
    exact ih (fits_directive hf hn h1 h2).2 fun l hl => hn l (by simp [hl])

/-- The `.aff` text on both machines. -/
theorem aff_swap {aff : Str} (hf : LongFirst U aff) (ha : NoNul aff) :
    parseAff (U₂ U) aff = (parseAff (U₁ U) aff).map swapCx ∧
      ∀ cx, parseAff (U₁ U) aff = .ok cx → cx.flagType = lt := by
  have hn : ∀ l ∈ (contentLines U aff).map (·.2), NoNul l := by
    intro l hl
    obtain ⟨x, hx, rfl⟩ := List.mem_map.1 hl
    exact content_noNul ha hx
  cases h : parseAff (U₁ U) aff with
  | ok cx =>
    have h := parseAff_iff.1 h
    refine ⟨?_, fun cx' e => ?_⟩
    · exact parseAff_iff.2 (swapCx_start ▸ reads h (fits_start hf) hn)
    · obtain rfl : cx = cx' := by injection e
      exact fits_end h (fits_start hf) hn
  | error e =>
    obtain ⟨number, k, ⟨lines, h1, h2⟩, rfl⟩ := parseAff_err.1 h
    refine ⟨?_, by simp⟩
    have hl := content_iff.1 h1
    rw [content_order] at hl
    subst hl
    refine parseAff_err.2 ⟨number, k, ⟨_, content_iff.2 rfl, ?_⟩, rfl⟩
    exact swapCx_start ▸ readsFault h2 (fits_start hf) fun l hl => content_noNul ha hl

/-! ## The word list -/

def swapBag (B : Bag FlagSet) : Bag FlagSet := ⟨B.slots.map (renameEntry swapBytes)⟩

theorem behind_noNul {line : Str} {n : Nat} (h : NoNul line) : NoNul (flagsBehind U line n) := by
  intro hc
  unfold flagsBehind at hc
  split at hc
  · split at hc
    · exact h (List.mem_of_mem_drop ((List.takeWhile_sublist _).subset hc))
    · split at hc
      · exact h (List.mem_of_mem_drop hc)
      · exact h (List.mem_of_mem_drop ((List.dropWhile_sublist _).subset ((List.takeWhile_sublist _).subset hc)))
  · simp at hc

theorem dicLine {line : Str} {al : List FlagSet} {ig : List Char} (h : NoNul line) :
    parseDicLine (U₂ U) line bt (al.map (renameFlags swapBytes)) ig =
      (parseDicLine (U₁ U) line lt al ig).map (renameEntry swapBytes) := by
  cases he : parseDicLine (U₁ U) line lt al ig with
  | ok r =>
    obtain ⟨stem, F⟩ := r
    obtain ⟨h1, n, h2, h3, h4⟩ := parseDicLine_ok.1 he
    exact parseDicLine_ok.2 ⟨h1, n, h2, h3, aliasFlags (behind_noNul (U := U) h) h4⟩
  | error e =>
    refine parseDicLine_error.2 ?_
    rcases parseDicLine_error.1 he with h1 | ⟨h1, n, h2, h3⟩
    · exact .inl h1
    · exact .inr ⟨h1, n, h2, aliasFault (behind_noNul (U := U) h) h3⟩

theorem rename_withFlag (p : Nat → Nat) (F : FlagSet) (x : Nat) :
    renameFlags p (F.withFlag x) = (renameFlags p F).withFlag (p x) := by
  refine elems_eq fun f => ?_
  simp only [FlagSet.withFlag, mem_renameFlags, FlagSet.mem_ofList, List.mem_append, List.mem_singleton]
  constructor
  · rintro ⟨g, hg | rfl, rfl⟩
    · exact .inl ⟨g, hg, rfl⟩
    · exact .inr rfl
  · rintro (⟨g, hg, rfl⟩ | rfl)
    · exact ⟨g, .inl hg, rfl⟩
    · exact ⟨_, .inr rfl, rfl⟩

theorem swap_withFlag (F : FlagSet) :
    renameFlags swapBytes (F.withFlag hiddenHomonymFlag) = (renameFlags swapBytes F).withFlag hiddenHomonymFlag :=
  rename_withFlag _ _ _

theorem insertStem_swap (B : Bag FlagSet) (stem : Str) (F : FlagSet) :
    insertStem (swapBag B) stem (renameFlags swapBytes F) = (insertStem B stem F).map swapBag := by
  unfold insertStem
  split
  · rfl
  · simp only [Except.map, swapBag, Bag.insert, List.map_append, List.map_cons, List.map_nil, renameEntry]

theorem insertEntry_swap (o : AffOptions) (B : Bag FlagSet) (stem : Str) (F : FlagSet) :
    insertEntry (U₂ U) (renameOptions swapBytes o) (swapBag B) stem (renameFlags swapBytes F) =
      (insertEntry (U₁ U) o B stem F).map swapBag := by
  have hn : needsTwin (U₂ U) (renameOptions swapBytes o) stem (renameFlags swapBytes F) = needsTwin (U₁ U) o stem F := by
    unfold needsTwin
    simp only [renameFlags_isEmpty]
    have : (renameFlags swapBytes F).contains (renameOptions swapBytes o).forbiddenWordFlag =
      F.contains o.forbiddenWordFlag := renameFlags_contains swap_inj F _
    rw [this]
    rfl
  unfold insertEntry
  rw [hn]
  split
  · have ht : (renameOptions swapBytes o).caseHandling.titlecase (U₂ U) stem = o.caseHandling.titlecase (U₁ U) stem := rfl
    rw [ht]
    cases o.caseHandling.titlecase (U₁ U) stem with
    | none => rfl
    | some title =>
      show (insertStem (swapBag B) title ((renameFlags swapBytes F).withFlag hiddenHomonymFlag) >>= _) = _
      rw [← swap_withFlag, insertStem_swap]
      show _ = Except.map swapBag (insertStem B title (F.withFlag hiddenHomonymFlag) >>= _)
      cases insertStem B title (F.withFlag hiddenHomonymFlag) with
      | error e => rfl
      | ok B' => exact insertStem_swap B' stem F
  · exact insertStem_swap B stem F

theorem trim_noNul {s : Str} (h : NoNul s) : NoNul (trim U s) := by
  intro hc
  unfold trim trimStart at hc
  rw [List.mem_reverse] at hc
  have := (List.dropWhile_sublist _).subset hc
  rw [List.mem_reverse] at this
  exact h ((List.dropWhile_sublist _).subset this)

theorem step_swap {cx : Cx} (hx : cx.flagType = lt) (B : Bag FlagSet) {l : Nat × Str} (hl : NoNul l.2) :
    stepAt (U₂ U) (swapCx cx) (swapBag B) l = (stepAt (U₁ U) cx B l).map swapBag := by
  unfold stepAt stepRes dicStep
  have ht : trim (U₂ U) l.2 = trim (U₁ U) l.2 := rfl
  have hw := trim_noNul (U := U₁ U) hl
  simp only [ht]
  generalize trim (U₁ U) l.2 = t at hw
  by_cases h1 : t.isEmpty = true
  · simp only [h1, ↓reduceIte]; rfl
  · simp only [h1, Bool.false_eq_true, ↓reduceIte]
    by_cases h2 : t.head? = some '/' ∧ byteLen t > 1
    · rw [if_pos h2, if_pos h2]; rfl
    · rw [if_neg h2, if_neg h2]
      by_cases h3 : byteLen t > u16Max
      · rw [if_pos h3, if_pos h3]; rfl
      · rw [if_neg h3, if_neg h3, swapCx_type hx, hx]
        have hd := dicLine (U := U) (al := cx.flagAliases) (ig := cx.ignoreChars) hw
        show Except.map _ ((P.lift .malformedFlag (parseDicLine (U₂ U) t bt (cx.flagAliases.map (renameFlags swapBytes))
          cx.ignoreChars) >>= _) _) = _
        rw [hd]
        cases parseDicLine (U₁ U) t lt cx.flagAliases cx.ignoreChars with
        | error e => rfl
        | ok r =>
          obtain ⟨stem, F⟩ := r
          show Except.map (·.1) (match insertEntry (U₂ U) (renameOptions swapBytes cx.options) (swapBag B) stem
                (renameFlags swapBytes F) with
              | .ok words => Except.ok (words, (⟨[(l.1 - 1, l.2)], none, .dic⟩ : Lines))
              | .error h => .error h) = Except.map swapBag (Except.map (·.1)
              (match insertEntry (U₁ U) cx.options B stem F with
                | .ok words => Except.ok (words, (⟨[(l.1 - 1, l.2)], none, .dic⟩ : Lines))
                | .error h => .error h))
          rw [insertEntry_swap]
          cases insertEntry (U₁ U) cx.options B stem F <;> rfl

theorem fold_swap {cx : Cx} (hx : cx.flagType = lt) (ls : List (Nat × Str)) (hn : ∀ l ∈ ls, NoNul l.2)
    (B : Bag FlagSet) : ls.foldlM (stepAt (U₂ U) (swapCx cx)) (swapBag B) =
      (ls.foldlM (stepAt (U₁ U) cx) B).map swapBag := by
  induction ls generalizing B with
  | nil => rfl
  | cons l ls ih =>
    rw [List.foldlM_cons, List.foldlM_cons, step_swap hx B (hn l (by simp))]
    cases stepAt (U₁ U) cx B l with
    | error e => rfl
    | ok B' => exact ih (fun l hl => hn l (by simp [hl])) B'

/-- The `.dic` text on both machines. -/
theorem dic_swap {cx : Cx} (hx : cx.flagType = lt) {dic : Str} (hd : NoNul dic) :
    parseDic (U₂ U) (swapCx cx) dic = (parseDic (U₁ U) cx dic).map swapBag := by
  rw [parseDic_eq, parseDic_eq]
  have hn := fun l (hl : l ∈ contentLines U dic) => content_noNul hd hl
  simp only [content_order, split_order]
  generalize contentLines U dic = ls at hn
  cases ls with
  | nil => rfl
  | cons l rest =>
    simp only
    cases splitWhitespace U l.2 with
    | nil => rfl
    | cons w ws =>
      simp only
      cases parseUInt usizeMax w with
      | error e => rfl
      | ok n => exact fold_swap hx rest (fun l hl => hn l (by simp [hl])) Bag.empty

/-! ## The tables -/

theorem index_swap {S : Sorts} (hS : ByAppending S) {k : Kind} {l : List Affix} {i i' : AffixIndex k}
    (h : S.index? k l = some i) (h' : S.index? k (l.map (renameAffix swapBytes)) = some i') :
    i' = renameIndex swapBytes i := by
  unfold Sorts.index? at h h'
  obtain ⟨_, _, rfl⟩ := Option.map_eq_some_iff.1 h
  obtain ⟨_, _, rfl⟩ := Option.map_eq_some_iff.1 h'
  unfold renameIndex
  congr 1
  exact hS.affixes k _ l fun _ => rfl

theorem assemble_swap {S : Sorts} (hS : ByAppending S) {cx : Cx} {B : Bag FlagSet} {A A' : AffData}
    (h : assemble S cx B = some ⟨B, A⟩) (h' : assemble S (swapCx cx) (swapBag B) = some ⟨swapBag B, A'⟩) :
    A' = renameAff swapBytes (swapWriting A) A := by
  have er : (if cx.ignoreChars.isEmpty then cx.prefixes.map (renameAffix swapBytes) else
        (cx.prefixes.map (renameAffix swapBytes)).map fun a => a.eraseIgnored cx.ignoreChars) =
      (if cx.ignoreChars.isEmpty then cx.prefixes else cx.prefixes.map fun a => a.eraseIgnored cx.ignoreChars).map
        (renameAffix swapBytes) := by
    split
    · rfl
    · rw [List.map_map, List.map_map]; rfl
  have er' : (if cx.ignoreChars.isEmpty then cx.suffixes.map (renameAffix swapBytes) else
        (cx.suffixes.map (renameAffix swapBytes)).map fun a => a.eraseIgnored cx.ignoreChars) =
      (if cx.ignoreChars.isEmpty then cx.suffixes else cx.suffixes.map fun a => a.eraseIgnored cx.ignoreChars).map
        (renameAffix swapBytes) := by
    split
    · rfl
    · rw [List.map_map, List.map_map]; rfl
  unfold assemble at h h'
  simp only [Option.bind_eq_bind, Option.bind_eq_some_iff, Option.pure_def, Option.some.injEq, Dict.mk.injEq,
    true_and] at h h'
  obtain ⟨p, hp, s, hs, b, hb, r, hr, rfl⟩ := h
  obtain ⟨p', hp', s', hs', b', hb', r', hr', rfl⟩ := h'
  have h1 := index_swap hS hp (er ▸ hp')
  have h2 := index_swap hS hs (er' ▸ hs')
  have h3 : b' = b := by
    have : some b' = some b := hb'.symm.trans hb
    injection this
  have h4 : r' = r := by
    have : some r' = some r := hr'.symm.trans hr
    injection this
  subst h1 h2 h3 h4
  rfl

theorem parse_swap {S : Sorts} (hS : ByAppending S) {aff dic : Str} (hf : LongFirst U aff) (ha : NoNul aff)
    (hd : NoNul dic) : parse (U₂ U) S aff dic = (parse (U₁ U) S aff dic).map swapDict := by
  obtain ⟨h1, h2⟩ := aff_swap hf ha
  have hk := parseAff_ok (U₁ U) aff
  have hk' := parseAff_ok (U₂ U) aff
  cases hp : parseAff (U₁ U) aff with
  | error e =>
    rw [hp] at h1
    rw [parse_aff_error hp, parse_aff_error h1]
    rfl
  | ok cx =>
    rw [hp] at h1 hk
    rw [h1] at hk'
    obtain ⟨A, -, hA⟩ := assemble_ok S hk
    obtain ⟨A', -, hA'⟩ := assemble_ok S hk'
    have h3 := dic_swap (U := U) (h2 cx hp) hd
    cases hq : parseDic (U₁ U) cx dic with
    | error e =>
      rw [hq] at h3
      rw [parse_dic_error hp hq, parse_dic_error h1 h3]
      rfl
    | ok B =>
      rw [hq] at h3
      rw [parse_ok hp hq (hA _), parse_ok h1 h3 (hA' _), assemble_swap hS (hA B) (hA' (swapBag B))]
      rfl

/-- The model's own sort. -/
theorem default_byAppending : ByAppending Sorts.default := by
  refine ⟨fun k g l hg => ?_⟩
  show sortAffixes k (l.map g) = (sortAffixes k l).map g
  have ins : ∀ a l, insertAffix k (g a) (l.map g) = (insertAffix k a l).map g := by
    intro a l
    induction l with
    | nil => rfl
    | cons b l ih =>
      simp only [List.map_cons, insertAffix, hg]
      split
      · rfl
      · rw [ih]; rfl
  induction l with
  | nil => rfl
  | cons a l ih => rw [List.map_cons, sortAffixes, ih, ins]; rfl

/-! ## Files without `FLAG long` -/

theorem plain_rows {key : String} {head : List Str} {cx cx' : Cx} {lines : List Str}
    (h : Rows (U₁ U) key head cx lines cx') : Rows (U₂ U) key head cx lines cx' := by
  induction h with
  | nil => exact .nil
  | cons h1 h2 _ ih =>
    rw [split_order] at h1
    exact .cons ((split_order _ _).trans h1) h2 ih

theorem plain_effect {key : String} {args : List Str} {cx cx' : Cx} {lines : List Str}
    (hk : ¬ (key = "FLAG" ∧ ∃ more, args = "long".toList :: more)) (h : Effect (U₁ U) key args cx lines cx') :
    Effect (U₂ U) key args cx lines cx' := by
  cases h with
  | flagType ht =>
    cases ht with
    | long => exact absurd ⟨rfl, _, rfl⟩ hk
    | num => exact .flagType .num
    | utf8 => exact .flagType .utf8
  | flag h1 h2 h3 => exact .flag h1 h2 h3
  | switch h => exact .switch h
  | number h1 h2 h3 => exact .number h1 h2 h3
  | ignore => exact .ignore
  | keyboard => exact .keyboard
  | tryChars => exact .tryChars
  | turkic h => exact .turkic h
  | notTurkic h => exact .notTurkic h
  | syllable h1 h2 => exact .syllable h1 h2
  | table h1 h2 h3 h4 => exact .table h1 h2 h3 (plain_rows h4)
  | affixes h1 h2 h3 h4 h5 h6 h7 => exact .affixes h1 h2 h3 h4 h5 h6 (plain_rows h7)

/-- No line `FLAG long`. -/
def Short (U : Unicode) (line : Str) : Prop := ∀ args, splitWhitespace U line ≠ "FLAG".toList :: "long".toList :: args

theorem short_effect {line : Str} {key : String} {args : List Str} (hl : Short U line)
    (h : splitWhitespace U line = key.toList :: args) : ¬ (key = "FLAG" ∧ ∃ more, args = "long".toList :: more) := by
  rintro ⟨rfl, more, rfl⟩
  exact hl more h

theorem plain_reads {cx cx' : Cx} {lines : List Str} (h : Reads (U₁ U) cx lines cx') (hl : ∀ l ∈ lines, Short U l) :
    Reads (U₂ U) cx lines cx' := by
  induction h with
  | done => exact .done
  | ignored h1 _ ih =>
    simp only [split_order] at h1
    refine .ignored ?_ (ih fun l h => hl l (by simp [h]))
    simpa only [split_order] using h1
  | directive h1 h2 _ ih =>
    rw [split_order] at h1
    exact .directive ((split_order _ _).trans h1) (plain_effect (short_effect (hl _ (by simp)) h1) h2)
      (ih fun l h => hl l (by simp [h]))

theorem plain_rowsFault {key : String} {head : List Str} {n i : Nat} {cx : Cx} {lines : List (Nat × Str)}
    {number : Option Nat} {k : ErrorKind} (h : RowsFault (U₁ U) key head n i cx lines number k) :
    RowsFault (U₂ U) key head n i cx lines number k := by
  induction h with
  | missing h => exact .missing h
  | foreign h1 h2 => exact .foreign h1 fun args e => h2 args ((split_order _ _).trans ((split_order _ _).symm.trans e))
  | row h1 h2 h3 =>
    rw [split_order] at h2
    exact .row h1 ((split_order _ _).trans h2) h3
  | next h1 h2 h3 _ ih =>
    rw [split_order] at h2
    exact .next h1 ((split_order _ _).trans h2) h3 ih

theorem plain_fault {cx : Cx} {lines : List (Nat × Str)} {number : Option Nat} {k : ErrorKind}
    (h : ReadsFault (U₁ U) cx lines number k) (hl : ∀ l ∈ lines, Short U l.2) :
    ReadsFault (U₂ U) cx lines number k := by
  induction h with
  | line h1 h2 =>
    rw [split_order] at h1
    exact .line ((split_order _ _).trans h1) h2
  | rows h1 h2 h3 =>
    rw [split_order] at h1
    exact .rows ((split_order _ _).trans h1) h2 (plain_rowsFault h3)
  | ignored h1 _ ih =>
    simp only [split_order] at h1
    refine .ignored ?_ (ih fun l h => hl l (by simp [h]))
    simpa only [split_order] using h1
  | directive h1 h2 _ ih =>
    rw [split_order] at h1
    exact .directive ((split_order _ _).trans h1) (plain_effect (short_effect (hl _ (by simp)) h1) h2)
      (ih fun l h => hl l (by simp [h]))

theorem effect_plain_type {key : String} {args : List Str} {cx cx' : Cx} {lines : List Str}
    (hk : ¬ (key = "FLAG" ∧ ∃ more, args = "long".toList :: more)) (h : Effect U key args cx lines cx')
    (hx : ∀ o, cx.flagType ≠ .long o) : ∀ o, cx'.flagType ≠ .long o := by
  have hrows : ∀ {cx cx' : Cx} {head lines}, Rows U key head cx lines cx' → cx'.flagType = cx.flagType := by
    intro cx cx' head lines h
    induction h with
    | nil => rfl
    | cons _ h2 _ ih => exact ih.trans (row_type h2)
  cases h with
  | flagType ht =>
    cases ht with
    | long => exact absurd ⟨rfl, _, rfl⟩ hk
    | num => simp
    | utf8 => simp
  | table h1 h2 h3 h4 =>
    rw [hrows h4]
    split <;> exact hx
  | affixes h1 h2 h3 h4 h5 h6 h7 => rw [hrows h7]; exact hx
  | _ => exact hx

theorem reads_plain_type {cx cx' : Cx} {lines : List Str} (h : Reads U cx lines cx') (hl : ∀ l ∈ lines, Short U l)
    (hx : ∀ o, cx.flagType ≠ .long o) : ∀ o, cx'.flagType ≠ .long o := by
  induction h with
  | done => exact hx
  | ignored _ _ ih => exact ih (fun l h => hl l (by simp [h])) hx
  | directive h1 h2 _ ih =>
    exact ih (fun l h => hl l (by simp [h])) (effect_plain_type (short_effect (hl _ (by simp)) h1) h2 hx)

theorem aff_plain {aff : Str} (h : NoLong U aff) : parseAff (U₂ U) aff = parseAff (U₁ U) aff ∧
    ∀ cx, parseAff (U₁ U) aff = .ok cx → ∀ o, cx.flagType ≠ .long o := by
  obtain ⟨lines, h1, h2⟩ := h
  have hl := content_iff.1 h1
  subst hl
  have hn : ∀ l ∈ (contentLines U aff).map (·.2), Short U l := by
    intro l hl
    obtain ⟨x, hx, rfl⟩ := List.mem_map.1 hl
    exact h2 x hx
  cases h : parseAff (U₁ U) aff with
  | ok cx =>
    have h := parseAff_iff.1 h
    refine ⟨parseAff_iff.2 (plain_reads h hn), fun cx' e => ?_⟩
    obtain rfl : cx = cx' := by injection e
    refine reads_plain_type h (fun l hl args e => hn l hl args ((split_order _ _).symm.trans e)) ?_
    intro o
    simp
  | error e =>
    obtain ⟨number, k, ⟨lines, h1, h3⟩, rfl⟩ := parseAff_err.1 h
    refine ⟨?_, by simp⟩
    have hl := content_iff.1 h1
    rw [content_order] at hl
    subst hl
    exact parseAff_err.2 ⟨number, k, ⟨_, content_iff.2 rfl, plain_fault h3 h2⟩, rfl⟩

theorem dicLine_plain (line : Str) (ty : FlagType) (al : List FlagSet) (ig : List Char) :
    parseDicLine (U₂ U) line ty al ig = parseDicLine (U₁ U) line ty al ig := by
  cases he : parseDicLine (U₁ U) line ty al ig with
  | ok r =>
    have h : LineMeans (U₁ U) ty al ig line r.1 r.2 := parseDicLine_ok.1 he
    exact parseDicLine_ok.2 h
  | error e =>
    have h := parseDicLine_error.1 he
    exact parseDicLine_error.2 h

theorem dic_plain (cx : Cx) (dic : Str) : parseDic (U₂ U) cx dic = parseDic (U₁ U) cx dic := by
  rw [parseDic_eq, parseDic_eq]
  have : stepAt (U₂ U) cx = stepAt (U₁ U) cx := by
    funext B l
    unfold stepAt stepRes dicStep
    simp only [dicLine_plain]
    rfl
  simp only [content_order, split_order, this]

theorem parse_plain {S : Sorts} {aff dic : Str} (h : NoLong U aff) :
    parse (U₂ U) S aff dic = parse (U₁ U) S aff dic := by
  unfold parse
  rw [(aff_plain h).1]
  simp only [dic_plain]

/-! ## Calls -/

theorem add_plain (D : Dict) (line : Str) : D.add (U₂ U) line = D.add (U₁ U) line := by
  unfold Dict.add
  rw [dicLine_plain]

theorem add_swap {D : Dict} (hx : D.aff.flagType = lt) {line : Str} (hl : NoNul line) :
    (swapDict D).add (U₂ U) line = (D.add (U₁ U) line).map swapDict := by
  unfold Dict.add
  have hd := dicLine (U := U) (al := D.aff.flagAliases) (ig := D.aff.ignoreChars) hl
  have hty : (swapDict D).aff.flagType = bt := if_pos hx
  rw [hty, hx]
  show (match parseDicLine (U₂ U) line bt (D.aff.flagAliases.map (renameFlags swapBytes)) D.aff.ignoreChars with
    | .error e => Except.error e
    | .ok (word, flagset) => .ok { swapDict D with words := (swapDict D).words.insert word flagset }) = _
  rw [hd]
  cases parseDicLine (U₁ U) line lt D.aff.flagAliases D.aff.ignoreChars with
  | error e => rfl
  | ok r =>
    obtain ⟨stem, F⟩ := r
    simp only [Except.map, swapDict, renameDict, renameEntry, Bag.insert, List.map_append, List.map_cons, List.map_nil]

theorem remove_swap (L : Layout) (D : Dict) (stem : Str) :
    (swapDict D).removeStem L stem = ((D.removeStem L stem).1, swapDict (D.removeStem L stem).2) := by
  have hk : (swapDict D).words.keys = D.words.keys := by
    simp only [swapDict, renameDict, Bag.keys, List.map_map]; rfl
  have hg : (swapDict D).words.get L stem = (D.words.get L stem).map (renameEntry swapBytes) :=
    Renamed.entries (p := swapBytes) (W := swapWriting D.aff) (C := ⟨Unicode.sample, L, D, false, false⟩) stem
  have hf : ∀ F : FlagSet, (swapDict D).forbid (renameFlags swapBytes F) = renameFlags swapBytes (D.forbid F) := by
    intro F
    unfold Dict.forbid
    have hc : (renameFlags swapBytes F).contains (swapDict D).aff.options.forbiddenWordFlag =
      F.contains D.aff.options.forbiddenWordFlag := renameFlags_contains swap_inj F _
    rw [hc]
    split
    · exact (rename_withFlag _ _ _).symm
    · rfl
  unfold Dict.removeStem
  refine Prod.ext ?_ ?_
  · simp only [hg]
    refine any_rename ?_ _
    intro e
    show (!(renameFlags swapBytes e.2).contains (swapBytes D.aff.options.forbiddenWordFlag)) = _
    rw [renameFlags_contains swap_inj]
  · simp only [swapDict, renameDict]
    congr 1
    unfold Bag.updateAll
    have hk' : (⟨D.words.slots.map (renameEntry swapBytes)⟩ : Bag FlagSet).keys = D.words.keys := hk
    rw [hk']
    generalize L.probe D.words.keys (L.hash stem) = is
    have hf' : ∀ F : FlagSet, Dict.forbid ⟨⟨D.words.slots.map (renameEntry swapBytes)⟩,
        renameAff swapBytes (swapWriting D.aff) D.aff⟩ (renameFlags swapBytes F) =
      renameFlags swapBytes (D.forbid F) := hf
    generalize Dict.forbid ⟨⟨D.words.slots.map (renameEntry swapBytes)⟩,
      renameAff swapBytes (swapWriting D.aff) D.aff⟩ = g at hf'
    generalize D.words = B
    induction is generalizing B with
    | nil => rfl
    | cons i is ih =>
      rw [List.foldl_cons, List.foldl_cons, ← ih]
      congr 1
      unfold Bag.updateSlot
      simp only [List.getElem?_map]
      cases B.slots[i]? with
      | none => rfl
      | some e =>
        simp only [Option.map_some, renameEntry]
        split
        · rw [List.map_set]
          rw [hf' e.2]
          rfl
        · rfl

/-- What the two machines hold. -/
theorem both {D D' : Dict} (h : BothHold U D D') :
    (D.aff.flagType = lt ∧ D' = swapDict D) ∨ ((∀ o, D.aff.flagType ≠ .long o) ∧ D' = D) := by
  induction h with
  | loaded hS hc h1 h2 =>
    obtain ⟨cx, hp, -, -, hm, ha⟩ := parse_ok_inv h1
    have hty : ∀ {D : Dict} {S cx}, (∀ w, assemble S cx w = some ⟨w, D.aff⟩) → D.aff.flagType = cx.flagType := by
      intro D S cx h
      have h := h Bag.empty
      unfold assemble at h
      simp only [Option.bind_eq_bind, Option.bind_eq_some_iff, Option.pure_def, Option.some.injEq, Dict.mk.injEq,
        true_and] at h
      obtain ⟨p, hp, s, hs, b, hb, r, hr, e⟩ := h
      rw [← e]
    rcases hc with ⟨hf, ha1, hd⟩ | hc
    · left
      refine ⟨(hty ha).trans ((aff_swap hf ha1).2 _ hp), ?_⟩
      rw [parse_swap hS hf ha1 hd, h1] at h2
      injection h2 with h2
      exact h2.symm
    · right
      refine ⟨fun o => by rw [hty ha]; exact (aff_plain hc).2 _ hp o, ?_⟩
      rw [parse_plain hc, h1] at h2
      injection h2 with h2
      exact h2.symm
  | added _ hl h1 h2 ih =>
    have hty : ∀ {D E : Dict} {U line}, D.add U line = .ok E → E.aff = D.aff := by
      intro D E U line h
      unfold Dict.add at h
      split at h
      · cases h
      · cases h; rfl
    rcases ih with ⟨ht, rfl⟩ | ⟨ht, rfl⟩
    · left
      refine ⟨by rw [hty h1]; exact ht, ?_⟩
      rw [add_swap ht hl, h1] at h2
      injection h2 with h2
      exact h2.symm
    · right
      refine ⟨by rw [hty h1]; exact ht, ?_⟩
      rw [add_plain, h1] at h2
      injection h2 with h2
      exact h2.symm
  | removed L stem _ ih =>
    rcases ih with ⟨ht, rfl⟩ | ⟨ht, rfl⟩
    · left
      exact ⟨ht, by rw [remove_swap]⟩
    · exact .inr ⟨ht, rfl⟩

/-! ## The answers -/

/-- The two sides unfold to the same term. The kernel sees it; the elaborator gives up at recursive definitions. -/
elab "kernel_rfl" : tactic => do
  let g ← Lean.Elab.Tactic.getMainGoal
  let t ← Lean.instantiateMVars (← g.getType)
  let some (α, a, _) := t.eq? | throwError "no equation"
  let u ← Lean.Meta.getLevel α
  g.assign (Lean.mkApp2 (Lean.mkConst ``Eq.refl [u]) α a)

theorem check_order (C : Checker) (o : ByteOrder) (fuel : Nat) (w : Str) :
    ({ C with U := withOrder C.U o } : Checker).check fuel w = C.check fuel w := by kernel_rfl

theorem suggest_order (S : Suggester) (o : ByteOrder) (fuel depth : Nat) (w : Str) (out : List Str) :
    ({ S with C := { S.C with U := withOrder S.C.U o } } : Suggester).suggest fuel depth w out =
      S.suggest fuel depth w out := by kernel_rfl

end Orders
end Spellbook
