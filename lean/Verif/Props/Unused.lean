import Verif.Proof.Unused
import Verif.Props.Suggest
/-!
# C89 An affix rule which nothing refers to changes nothing

An affix rule applies to words, and after other rules, which have its flag. If no word and no other rule
has it, the rule can be removed and every word gets the same answer.
-/

namespace Spellbook
namespace Props
open Spec

/-- **C89**: `check` gives the same answer for every word without the affix rules which nothing refers to. With
COMPLEXPREFIXES the continuation flags of the suffixes among them have to be on other suffixes too. -/
theorem C89_check {C : Checker} {keep : Nat → Bool} (h : NotUsed keep C.dict)
    (hc : C.dict.aff.options.complexPrefixes = false ∨ SuffixFlagsStay keep C.dict) (fuel : Nat) (word : Str) :
    (keepChecker keep C).check fuel word = C.check fuel word := by
  rw [(Unused.alike h hc).check]

theorem attempts_small {p s : Nat} (hp : p < 1000) (hs : s < 1000) (b : Bool) :
    (if b then 1 + p / 20 + s / 20 + p / 20 * (s / 20) + (p / 20 * (p / 20) + 2 * (s / 20) * (p / 20) * (p / 20))
      else 1 + p / 20 + s / 20 + p / 20 * (s / 20) + (s / 20 * (s / 20) + 2 * (p / 20) * (s / 20) * (s / 20)))
      ≤ 250000 := by
  have hp : p / 20 ≤ 49 := by omega
  have hs : s / 20 ≤ 49 := by omega
  generalize p / 20 = p at hp
  generalize s / 20 = s at hs
  have h1 := Nat.mul_le_mul hp hs
  have h2 := Nat.mul_le_mul hp hp
  have h3 := Nat.mul_le_mul hs hs
  have h4 := Nat.mul_le_mul (Nat.mul_le_mul (Nat.mul_le_mul (Nat.le_refl 2) hs) hp) hp
  have h5 := Nat.mul_le_mul (Nat.mul_le_mul (Nat.mul_le_mul (Nat.le_refl 2) hp) hs) hs
  split <;> omega

theorem attempts_few {S : Suggester} (hp : S.C.dict.aff.prefixes.table.length < 1000)
    (hs : S.C.dict.aff.suffixes.table.length < 1000) {w : Str} : S.maxAttempts w =
      if S.C.opts.allowsCompounding then
        if byteLen w = 0 then .error .panic else .ok (100000 / byteLen w)
      else .ok 100000 := by
  unfold Suggester.maxAttempts
  dsimp only [Checker.aff]
  rw [Nat.max_eq_right (attempts_small hp hs _)]
  rfl

/-- **C89**: `suggest` gives the same suggestions for every word, if there are less than 1000 prefix rules and less
than 1000 suffix rules. -/
theorem C89_suggest {S : Suggester} {keep : Nat → Bool} (h : NotUsed keep S.C.dict)
    (hc : S.C.dict.aff.options.complexPrefixes = false ∨ SuffixFlagsStay keep S.C.dict)
    (hp : S.C.dict.aff.prefixes.table.length < 1000) (hs : S.C.dict.aff.suffixes.table.length < 1000)
    (fuel depth : Nat) (word : Str) (out : List Str) :
    (keepSuggester keep S).suggest fuel depth word out = S.suggest fuel depth word out := by
  rw [Unused.suggest h hc]
  funext w
  rw [attempts_few hp hs]
  exact attempts_few (Nat.lt_of_le_of_lt (List.length_filter_le ..) hp) (Nat.lt_of_le_of_lt (List.length_filter_le ..) hs)

/-! ## The conditions are needed -/

instance (keep : Nat → Bool) (d : Dict) : Decidable (NotUsed keep d) :=
  decidable_of_iff
    ((∀ e ∈ d.words.slots, ∀ f ∈ e.2.elems, keep f = true) ∧
      (∀ a ∈ d.aff.prefixes.table, keep a.flag = true → ∀ f ∈ a.flags.elems, keep f = true) ∧
      ∀ a ∈ d.aff.suffixes.table, keep a.flag = true → ∀ f ∈ a.flags.elems, keep f = true)
    ⟨fun h => ⟨h.1, h.2.1, h.2.2⟩, fun h => ⟨h.1, h.2, h.3⟩⟩

instance (keep : Nat → Bool) (d : Dict) : Decidable (SuffixFlagsStay keep d) :=
  inferInstanceAs (Decidable (∀ a ∈ d.aff.suffixes.table, ∀ f ∈ a.flags.elems,
    ∃ b ∈ d.aff.suffixes.table, keep b.flag = true ∧ f ∈ b.flags.elems))

/-- Everything but flag `Z`. -/
def butZ (f : Nat) : Bool := f != 90

/-- **C89** (the condition on COMPLEXPREFIXES is needed): here no word and no other rule has the flag `Z` of the last
suffix. Yet with that suffix `abfooc` is a word, and without it, it is not: the search for two prefixes and a suffix
asks whether some suffix has the continuation flag `B`, while the flag is on a prefix. -/
theorem C89_complex_needed :
    ∃ C, loadChecker
      "COMPLEXPREFIXES\nPFX A Y 1\nPFX A 0 b/B .\nPFX B Y 1\nPFX B 0 a/C .\nSFX C Y 1\nSFX C 0 c .\nSFX Z Y 1\nSFX Z 0 z/B .\n"
      "1\nfoo/A\n" = some C ∧
      NotUsed butZ C.dict ∧ (∃ a ∈ C.dict.aff.suffixes.table, butZ a.flag = false) ∧
      Accepts C "abfooc".toList ∧ ¬ Accepts (keepChecker butZ C) "abfooc".toList := by
  obtain ⟨C, h1, h2⟩ := of_load
    (aff := "COMPLEXPREFIXES\nPFX A Y 1\nPFX A 0 b/B .\nPFX B Y 1\nPFX B 0 a/C .\nSFX C Y 1\nSFX C 0 c .\nSFX Z Y 1\nSFX Z 0 z/B .\n")
    (dic := "1\nfoo/A\n") (L := .default)
    (p := fun C => decide (NotUsed butZ C.dict) && decide (∃ a ∈ C.dict.aff.suffixes.table, butZ a.flag = false)
      && decide (C.check 40 "abfooc".toList = .ok true)
      && decide ((keepChecker butZ C).check 40 "abfooc".toList = .ok false)) (by decide +kernel)
  simp only [Bool.and_eq_true, decide_eq_true_eq] at h2
  obtain ⟨⟨⟨h2, h3⟩, h4⟩, h5⟩ := h2
  exact ⟨C, h1, h2, h3, ⟨40, h4⟩, fun ⟨f, hf⟩ => by
    have e1 := (Checker.check_le _ (Nat.le_max_left f 40) _).ok hf
    have e2 := (Checker.check_le _ (Nat.le_max_right f 40) _).ok h5
    cases e1.symm.trans e2⟩

/-- A suffix rule with flag `Z`. -/
def spare : Affix := { flag := 90, crossproduct := true, strip := none, add := ['z'], condition := none, flags := .empty }

/-- A dictionary without words and with `n` suffix rules. -/
def spareChecker (n : Nat) : Checker where
  U := .sample
  L := .default
  dict := { words := ⟨[]⟩
            aff := { suffixes := ⟨List.replicate n spare, List.pairwise_replicate.2 (.inr (by decide))⟩ } }

/-- **C89** (the condition on the number of rules is needed): rules which nothing refers to lower the number of edits
`suggest` tries. -/
theorem C89_effort :
    NotUsed butZ (spareChecker 10020).dict ∧ (editsOnly (spareChecker 10020)).maxAttempts "word".toList = .ok 99402 ∧
      (keepSuggester butZ (editsOnly (spareChecker 10020))).maxAttempts "word".toList = .ok 100000 := by
  refine ⟨⟨?_, ?_, ?_⟩, ?_, ?_⟩
  · intro e he; cases he
  · intro a ha; cases ha
  · intro a ha hk
    rw [List.eq_of_mem_replicate ha] at hk
    cases hk
  · have e : ∀ n, (editsOnly (spareChecker n)).C.aff.suffixes.table.length = n := fun n => List.length_replicate
    unfold Suggester.maxAttempts
    rw [e]
    decide +kernel
  · have e : ∀ n, (keepSuggester butZ (editsOnly (spareChecker n))).C.aff.suffixes.table = [] := fun n =>
      List.filter_replicate_of_neg (by decide)
    unfold Suggester.maxAttempts
    rw [e]
    decide +kernel

/-! ## An example -/

/-- A dictionary with a suffix which nothing refers to, one of whose continuation flags is used; one word has a
suffix, and suggestions are found. -/
example : ∃ C, loadChecker "TRY s\nSFX A Y 1\nSFX A 0 s/B .\nSFX B Y 1\nSFX B 0 t .\nSFX Z Y 2\nSFX Z 0 z/Z .\nSFX Z 0 u/B .\n"
      "1\nfoo/A\n" = some C ∧
    NotUsed butZ C.dict ∧ C.dict.aff.suffixes.table.length = 4 ∧
    (keepDict butZ C.dict).aff.suffixes.table.length = 2 ∧ C.dict.aff.options.complexPrefixes = false ∧
    C.check 40 "foost".toList = .ok true ∧ C.check 40 "fooz".toList = .ok false ∧
    (C.intoSuggester .sample).suggest 40 4 "fooz".toList [] = .ok ["foo".toList, "foos".toList] := by
  obtain ⟨C, h1, h2⟩ := of_load
    (aff := "TRY s\nSFX A Y 1\nSFX A 0 s/B .\nSFX B Y 1\nSFX B 0 t .\nSFX Z Y 2\nSFX Z 0 z/Z .\nSFX Z 0 u/B .\n")
    (dic := "1\nfoo/A\n") (L := .default)
    (p := fun C => decide (NotUsed butZ C.dict) && decide (C.dict.aff.suffixes.table.length = 4)
      && decide ((keepDict butZ C.dict).aff.suffixes.table.length = 2)
      && decide (C.dict.aff.options.complexPrefixes = false)
      && decide (C.check 40 "foost".toList = .ok true) && decide (C.check 40 "fooz".toList = .ok false)
      && decide ((C.intoSuggester .sample).suggest 40 4 "fooz".toList [] = .ok ["foo".toList, "foos".toList]))
    (by decide +kernel)
  simp only [Bool.and_eq_true, decide_eq_true_eq] at h2
  obtain ⟨⟨⟨⟨⟨⟨h2, h3⟩, h4⟩, h5⟩, h6⟩, h7⟩, h8⟩ := h2
  exact ⟨C, h1, h2, h3, h4, h5, h6, h7, h8⟩

end Props
end Spellbook
