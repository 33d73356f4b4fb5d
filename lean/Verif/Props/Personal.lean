import Verif.Proof.Personal
import Verif.Model.Api
import Verif.Props.Order
/-!
# C78 A personal dictionary: lines added one by one, or kept in the word list
-/

namespace Spellbook.Props
open Spec

variable {U : Unicode} {S : Sorts} {aff dic dic' : Str}

/-! ## C78 The entries -/

/-- **C78**: lines which can all be added one after the other to a dictionary loaded from `dic` can also be put into
the text: `dic'` has the lines of `dic` and these ones behind its first line, in whatever order. It is accepted,
with the same settings, and its entries are those made by adding, and the hidden title-case twins of the added
lines, nothing else. -/
theorem C78_entries {D D₁ : Dict} {first first' : Nat × Str} {rest rest' : List (Nat × Str)} {lines : List Str}
    (h : parse U S aff dic = .ok D) (h1 : Content U dic (first :: rest)) (h2 : Content U dic' (first' :: rest'))
    (ha : Announces U first'.2) (hp : (rest'.map (·.2)).Perm (rest.map (·.2) ++ lines))
    (hl : ∀ l ∈ lines, EntryLine U l) (ht : ∀ l ∈ lines, ∀ t, TwinOf U D.aff l t → byteLen t.1 ≤ 65535)
    (hadd : AddsAll U D lines D₁) :
    ∃ D₂ twins, parse U S aff dic' = .ok D₂ ∧ D₂.aff = D₁.aff ∧ D₂.words.slots.Perm (D₁.words.slots ++ twins) ∧
      ∀ t, t ∈ twins ↔ ∃ l ∈ lines, TwinOf U D.aff l t :=
  parse_personal h h1 h2 ha hp hl ht hadd

/-- Conversely, a text with a line which `add` refuses is refused. -/
theorem C78_refused {D : Dict} {first' : Nat × Str} {rest' : List (Nat × Str)} {line : Str} {e : FlagError}
    (h : parse U S aff dic = .ok D) (h2 : Content U dic' (first' :: rest')) (hl : EntryLine U line)
    (hm : line ∈ rest'.map (·.2)) (he : D.add U line = .error e) : ¬ ∃ D', parse U S aff dic' = .ok D' :=
  fun ⟨_, h'⟩ => parse_refused h h2 hl hm he h'

/-! ## C78 The answers -/

/-- **C78** (answers): if no line has a twin, both ways give the same answer for every word, whatever the hashers, if
entries with the same stem have the same flags. -/
theorem C78_check {D D₁ D₂ : Dict} {first first' : Nat × Str} {rest rest' : List (Nat × Str)} {lines : List Str}
    (h : parse U S aff dic = .ok D) (h1 : Content U dic (first :: rest)) (h2 : Content U dic' (first' :: rest'))
    (ha : Announces U first'.2) (hp : (rest'.map (·.2)).Perm (rest.map (·.2) ++ lines))
    (hl : ∀ l ∈ lines, EntryLine U l) (ht : ∀ l ∈ lines, ¬ ∃ t, TwinOf U D.aff l t)
    (hadd : AddsAll U D lines D₁) (h' : parse U S aff dic' = .ok D₂) (hn : NoConflict D₁)
    (L L' : Layout) (title upper : Bool) (fuel : Nat) (word : Str) :
    Checker.check ⟨U, L, D₁, title, upper⟩ fuel word = Checker.check ⟨U, L', D₂, title, upper⟩ fuel word := by
  obtain ⟨D₂', twins, h3, h4, h5, h6⟩ := parse_personal h h1 h2 ha hp hl (fun l hl' t h => absurd ⟨t, h⟩ (ht l hl')) hadd
  rw [h'] at h3
  cases h3
  have : twins = [] := by
    cases twins with
    | nil => rfl
    | cons t _ => obtain ⟨l, hl', h7⟩ := (h6 t).1 (by simp); exact absurd ⟨t, h7⟩ (ht l hl')
  rw [this, List.append_nil] at h5
  rw [(same_of_noConflict (C := ⟨U, L, D₁, title, upper⟩) (C' := ⟨U, L', D₂, title, upper⟩) rfl h4.symm rfl rfl
    h5.symm hn).check]

/-- **C78** (suggestions): and the same suggestions, those by similarity left out. -/
theorem C78_suggest {D D₁ D₂ : Dict} {first first' : Nat × Str} {rest rest' : List (Nat × Str)} {lines : List Str}
    (h : parse U S aff dic = .ok D) (h1 : Content U dic (first :: rest)) (h2 : Content U dic' (first' :: rest'))
    (ha : Announces U first'.2) (hp : (rest'.map (·.2)).Perm (rest.map (·.2) ++ lines))
    (hl : ∀ l ∈ lines, EntryLine U l) (ht : ∀ l ∈ lines, ¬ ∃ t, TwinOf U D.aff l t)
    (hadd : AddsAll U D lines D₁) (h' : parse U S aff dic' = .ok D₂) (hn : NoConflict D₁)
    (L L' : Layout) (H H' : Heaps) (title upper : Bool) (fuel depth : Nat) (word : Str) (out : List Str) :
    Suggester.suggest ⟨⟨U, L, D₁, title, upper⟩, H, false⟩ fuel depth word out
      = Suggester.suggest ⟨⟨U, L', D₂, title, upper⟩, H', false⟩ fuel depth word out := by
  obtain ⟨D₂', twins, h3, h4, h5, h6⟩ := parse_personal h h1 h2 ha hp hl (fun l hl' t h => absurd ⟨t, h⟩ (ht l hl')) hadd
  rw [h'] at h3
  cases h3
  have : twins = [] := by
    cases twins with
    | nil => rfl
    | cons t _ => obtain ⟨l, hl', h7⟩ := (h6 t).1 (by simp); exact absurd ⟨t, h7⟩ (ht l hl')
  rw [this, List.append_nil] at h5
  rw [Suggester.same_suggest (S := ⟨⟨U, L, D₁, title, upper⟩, H, false⟩)
    (S' := ⟨⟨U, L', D₂, title, upper⟩, H', false⟩) (same_of_noConflict rfl h4.symm rfl rfl h5.symm hn) rfl rfl]

/-! ## Cases that meet the hypotheses -/

/-- Two lines, added or put between the lines of the text. -/
example : ∃ D D₁ D₂, parse .sample .default "SFX G Y 1\nSFX G 0 ing .\n".toList "1\nwalk/G\ntalk\n".toList = .ok D ∧
    AddsAll .sample D ["foobar/G".toList, "baz".toList] D₁ ∧
    parse .sample .default "SFX G Y 1\nSFX G 0 ing .\n".toList "4\nbaz\nwalk/G\n# mine\nfoobar/G\ntalk\n".toList = .ok D₂ ∧
    NoConflict D₁ ∧ Accepts (D₁.checker .sample .default) "foobaring".toList ∧
    Accepts (D₂.checker .sample .default) "foobaring".toList ∧
    Rejects (D.checker .sample .default) "foobaring".toList := by
  obtain ⟨D, h1, h2⟩ := of_map (x := parse .sample .default "SFX G Y 1\nSFX G 0 ing .\n".toList "1\nwalk/G\ntalk\n".toList)
    (D := fun D => decide ((D.checker .sample .default).check 1 "foobaring".toList = .ok false) &&
      match D.add .sample "foobar/G".toList with
      | .ok D' => match D'.add .sample "baz".toList with
        | .ok D₁ => decide ((D₁.words.slots.map Prod.fst).Nodup) &&
          decide ((D₁.checker .sample .default).check 1 "foobaring".toList = .ok true)
        | .error _ => false
      | .error _ => false) (by decide +kernel)
  obtain ⟨D₂, h3, h4⟩ := of_map (x := parse .sample .default "SFX G Y 1\nSFX G 0 ing .\n".toList
      "4\nbaz\nwalk/G\n# mine\nfoobar/G\ntalk\n".toList)
    (D := fun D => decide ((D.checker .sample .default).check 1 "foobaring".toList = .ok true)) (by decide +kernel)
  simp only [Bool.and_eq_true, decide_eq_true_eq] at h2 h4
  obtain ⟨h5, h2⟩ := h2
  split at h2
  · rename_i D' h6
    split at h2
    · rename_i D₁ h7
      simp only [Bool.and_eq_true, decide_eq_true_eq] at h2
      exact ⟨D, D₁, D₂, h1, .next h6 (.next h7 .done), h3, C13_unique_stems h2.1, ⟨1, h2.2⟩, ⟨1, h4⟩, ⟨1, h5⟩⟩
    · cases h2
  · cases h2

/-- The contents of the two texts. -/
example : Content .sample "1\nwalk/G\ntalk\n".toList [(1, "1".toList), (2, "walk/G".toList), (3, "talk".toList)] :=
  content_iff.2 (by decide +kernel)
example : Content .sample "4\nbaz\nwalk/G\n# mine\nfoobar/G\ntalk\n".toList
    [(1, "4".toList), (2, "baz".toList), (3, "walk/G".toList), (5, "foobar/G".toList), (6, "talk".toList)] :=
  content_iff.2 (by decide +kernel)

/-- The lines are lines with entries. -/
example : EntryLine .sample "foobar/G".toList ∧ EntryLine .sample "baz".toList :=
  ⟨⟨⟨[], [], by simp, by simp, by simp, by decide +kernel, by decide +kernel⟩, by simp [SkippedLine]⟩,
   ⟨⟨[], [], by simp, by simp, by simp, by decide +kernel, by decide +kernel⟩, by simp [SkippedLine]⟩⟩

end Spellbook.Props
