import Verif.Proof.Order
import Verif.Proof.SuggestSame
import Verif.Props.Dictionary
/-!
# C69 The order of independent changes does not matter
-/

namespace Spellbook.Props
open Spec

variable {U : Unicode} {S : Sorts} {aff dic dic' : Str}

/-! ## C69 Calls of `add` and `remove_stem` -/

/-- **C69** (stems): after two sequences of calls the entries of a stem are the same, and in the same order,
if the calls which concern this stem are the same in both. The settings are those of the beginning. -/
theorem C69_stem {D D₁ D₂ : Dict} {ops₁ ops₂ : List Op} (h1 : Runs U D ops₁ D₁) (h2 : Runs U D ops₂ D₂) (stem : Str)
    (h : callsFor U D.aff stem ops₁ = callsFor U D.aff stem ops₂) :
    entriesFor D₁ stem = entriesFor D₂ stem ∧ D₁.aff = D.aff ∧ D₂.aff = D.aff := by
  rw [runs_entries h1, runs_entries h2, h]
  exact ⟨rfl, runs_aff h1, runs_aff h2⟩

/-- **C69** (calls): two sequences of calls, which contain for every stem the same calls in the same order,
make dictionaries with the same answers, for all words and whatever the hashers and layouts of the tables, if
entries with the same stem have the same flags in the end. -/
theorem C69_calls {D D₁ D₂ : Dict} {ops₁ ops₂ : List Op} (h1 : Runs U D ops₁ D₁) (h2 : Runs U D ops₂ D₂)
    (h : ∀ stem, callsFor U D.aff stem ops₁ = callsFor U D.aff stem ops₂) (hn : NoConflict D₁)
    (L₁ L₂ : Layout) (title upper : Bool) (fuel : Nat) (word : Str) :
    Checker.check ⟨U, L₁, D₁, title, upper⟩ fuel word = Checker.check ⟨U, L₂, D₂, title, upper⟩ fuel word := by
  have ha : D₁.aff = D₂.aff := (runs_aff h1).trans (runs_aff h2).symm
  have hp := perm_of_entries fun s => (C69_stem h1 h2 s (h s)).1
  rw [(same_of_noConflict (C := ⟨U, L₁, D₁, title, upper⟩) (C' := ⟨U, L₂, D₂, title, upper⟩) rfl ha rfl rfl hp hn).check]

/-- **C69** (calls, suggestions): they also have the same suggestions, those by similarity left out (for which
it is false, `C13_ngram_negation`). -/
theorem C69_calls_suggest {D D₁ D₂ : Dict} {ops₁ ops₂ : List Op} (h1 : Runs U D ops₁ D₁) (h2 : Runs U D ops₂ D₂)
    (h : ∀ stem, callsFor U D.aff stem ops₁ = callsFor U D.aff stem ops₂) (hn : NoConflict D₁)
    (L₁ L₂ : Layout) (H₁ H₂ : Heaps) (title upper : Bool) (fuel depth : Nat) (word : Str) (out : List Str) :
    Suggester.suggest ⟨⟨U, L₁, D₁, title, upper⟩, H₁, false⟩ fuel depth word out
      = Suggester.suggest ⟨⟨U, L₂, D₂, title, upper⟩, H₂, false⟩ fuel depth word out := by
  have ha : D₁.aff = D₂.aff := (runs_aff h1).trans (runs_aff h2).symm
  have hp := perm_of_entries fun s => (C69_stem h1 h2 s (h s)).1
  rw [Suggester.same_suggest (S := ⟨⟨U, L₁, D₁, title, upper⟩, H₁, false⟩)
    (S' := ⟨⟨U, L₂, D₂, title, upper⟩, H₂, false⟩) (same_of_noConflict rfl ha rfl rfl hp hn) rfl rfl]

/-- Two calls which concern different stems can be swapped. -/
theorem C69_swap {D D₁ D₂ : Dict} {a b : Op} {before after : List Op}
    (h1 : Runs U D (before ++ a :: b :: after) D₁) (h2 : Runs U D (before ++ b :: a :: after) D₂)
    (hab : a.stem U D.aff ≠ b.stem U D.aff) (hn : NoConflict D₁)
    (L₁ L₂ : Layout) (title upper : Bool) (fuel : Nat) (word : Str) :
    Checker.check ⟨U, L₁, D₁, title, upper⟩ fuel word = Checker.check ⟨U, L₂, D₂, title, upper⟩ fuel word := by
  refine C69_calls h1 h2 (fun stem => ?_) hn L₁ L₂ title upper fuel word
  unfold callsFor
  rw [List.filter_append, List.filter_append]
  congr 1
  rw [List.filter_cons, List.filter_cons, List.filter_cons, List.filter_cons]
  by_cases ha : a.stem U D.aff = some stem
  · have hb : ¬ b.stem U D.aff = some stem := fun hb => hab (ha.trans hb.symm)
    simp [ha, hb]
  · simp [ha]

/-! ## C69 Lines of the word list -/

/-- **C69** (lines): if a pair of texts makes a dictionary, so does the pair with the lines of the `.dic` text
in another order (behind the first line, which must still announce a number, the same or another one;
comments may be added or left out). It has the same settings and the same entries in another order. -/
theorem C69_lines {D : Dict} {first first' : Nat × Str} {rest rest' : List (Nat × Str)}
    (h : parse U S aff dic = .ok D) (h1 : Content U dic (first :: rest)) (h2 : Content U dic' (first' :: rest'))
    (ha : Announces U first'.2) (hp : (rest.map (·.2)).Perm (rest'.map (·.2))) :
    ∃ D', parse U S aff dic' = .ok D' ∧ D'.aff = D.aff ∧ D.words.slots.Perm D'.words.slots :=
  parse_lines h h1 h2 ha hp

/-- **C69** (lines, answers): all words get the same answer, if entries with the same stem have the same flags. -/
theorem C69_lines_check {D D' : Dict} {first first' : Nat × Str} {rest rest' : List (Nat × Str)}
    (h : parse U S aff dic = .ok D) (h' : parse U S aff dic' = .ok D')
    (h1 : Content U dic (first :: rest)) (h2 : Content U dic' (first' :: rest'))
    (ha : Announces U first'.2) (hp : (rest.map (·.2)).Perm (rest'.map (·.2))) (hn : NoConflict D)
    (L L' : Layout) (title upper : Bool) (fuel : Nat) (word : Str) :
    Checker.check ⟨U, L, D, title, upper⟩ fuel word = Checker.check ⟨U, L', D', title, upper⟩ fuel word := by
  obtain ⟨D'', h3, h4, h5⟩ := parse_lines h h1 h2 ha hp
  rw [h'] at h3
  cases h3
  rw [(same_of_noConflict (C := ⟨U, L, D, title, upper⟩) (C' := ⟨U, L', D', title, upper⟩) rfl h4.symm rfl rfl h5 hn).check]

/-! ## Cases that meet the hypotheses -/

/-- Every sequence of calls can be made. -/
theorem C69_runs (L : Layout) (D : Dict) (ops : List Op) : ∃ D', Runs U D ops D' := by
  induction ops generalizing D with
  | nil => exact ⟨D, .done⟩
  | cons o ops ih =>
    cases o with
    | add line =>
      cases h : D.add U line with
      | ok D₁ =>
        obtain ⟨D', h'⟩ := ih D₁
        exact ⟨D', .added h h'⟩
      | error e =>
        obtain ⟨D', h'⟩ := ih D
        exact ⟨D', .refused h h'⟩
    | remove stem =>
      obtain ⟨D', h'⟩ := ih (D.removeStem L stem).2
      exact ⟨D', .removed L h'⟩

/-- The calls for a stem must not be swapped: a stem which is added and removed is forbidden, one which is
removed and added is not. -/
theorem C69_order_matters : ∃ D D₁ D₂, Reachable .sample D ∧
    Runs .sample D [.add "foo".toList, .remove "foo".toList] D₁ ∧
    Runs .sample D [.remove "foo".toList, .add "foo".toList] D₂ ∧ NoConflict D₁ ∧
    Rejects ⟨.sample, .default, D₁, false, false⟩ "foo".toList ∧
    Accepts ⟨.sample, .default, D₂, false, false⟩ "foo".toList := by
  obtain ⟨D, h1, h2⟩ := of_map (x := parse .sample .default [] "1\nbar\n".toList)
    (D := fun D => match D.add .sample "foo".toList, (D.removeStem .default "foo".toList).2.add .sample "foo".toList with
      | .ok D₁, .ok D₂ =>
        decide ((((D₁.removeStem .default "foo".toList).2).words.slots.map Prod.fst).Nodup) &&
        decide (Checker.check ⟨.sample, .default, (D₁.removeStem .default "foo".toList).2, false, false⟩ 1 "foo".toList
          = .ok false) &&
        decide (Checker.check ⟨.sample, .default, D₂, false, false⟩ 1 "foo".toList = .ok true)
      | _, _ => false) (by decide +kernel)
  split at h2
  · rename_i D₁ D₂ e1 e2
    simp only [Bool.and_eq_true, decide_eq_true_eq] at h2
    exact ⟨D, _, _, .loaded h1, .added e1 (.removed .default .done), .removed .default (.added e2 .done),
      C13_unique_stems h2.1.1, ⟨1, h2.1.2⟩, ⟨1, h2.2⟩⟩
  · cases h2

/-- Calls for different stems, and entries without conflict in the end. -/
example : ∃ D D₁ D₂, Reachable .sample D ∧
    Runs .sample D ([] ++ .add "bar/A".toList :: .remove "foo".toList :: []) D₁ ∧
    Runs .sample D ([] ++ .remove "foo".toList :: .add "bar/A".toList :: []) D₂ ∧
    Op.stem .sample D.aff (.add "bar/A".toList) ≠ Op.stem .sample D.aff (.remove "foo".toList) ∧ NoConflict D₁ ∧
    D₁.words.slots.length = 2 ∧ Rejects ⟨.sample, .default, D₁, false, false⟩ "foo".toList := by
  obtain ⟨D, h1, h2⟩ := of_map (x := parse .sample .default [] "1\nfoo\n".toList)
    (D := fun D => match D.add .sample "bar/A".toList, (D.removeStem .default "foo".toList).2.add .sample "bar/A".toList with
      | .ok D₁, .ok _ =>
        decide ((((D₁.removeStem .default "foo".toList).2).words.slots.map Prod.fst).Nodup) &&
        decide (Op.stem .sample D.aff (.add "bar/A".toList) ≠ Op.stem .sample D.aff (.remove "foo".toList)) &&
        decide ((D₁.removeStem .default "foo".toList).2.words.slots.length = 2) &&
        decide (Checker.check ⟨.sample, .default, (D₁.removeStem .default "foo".toList).2, false, false⟩ 1 "foo".toList
          = .ok false)
      | _, _ => false) (by decide +kernel)
  split at h2
  · rename_i D₁ D₂ e1 e2
    simp only [Bool.and_eq_true, decide_eq_true_eq] at h2
    exact ⟨D, _, _, .loaded h1, .added e1 (.removed .default .done), .removed .default (.added e2 .done),
      h2.1.1.2, C13_unique_stems h2.1.1.1, h2.1.2, ⟨1, h2.2⟩⟩
  · cases h2

/-- Lines in another order, another number, and a comment. -/
example : ∃ D first rest first' rest', parse .sample .default [] "2\nfoo/A\nbar\n".toList = .ok D ∧
    NoConflict D ∧ Content .sample "2\nfoo/A\nbar\n".toList (first :: rest) ∧
    Content .sample "# words\n7\nbar\nfoo/A\n".toList (first' :: rest') ∧ Announces .sample first'.2 ∧
    (rest.map (·.2)).Perm (rest'.map (·.2)) ∧ rest.length = 2 := by
  obtain ⟨D, h1, h2⟩ := of_map (x := parse .sample .default [] "2\nfoo/A\nbar\n".toList)
    (D := fun D => decide ((D.words.slots.map Prod.fst).Nodup)) (by decide +kernel)
  refine ⟨D, (1, "2".toList), [(2, "foo/A".toList), (3, "bar".toList)], (2, "7".toList),
    [(3, "bar".toList), (4, "foo/A".toList)], h1, C13_unique_stems (by simpa using h2), content_iff.2 (by decide +kernel),
    content_iff.2 (by decide +kernel), ⟨"7".toList, [], 7, by decide +kernel, usize_ok.1 (by decide +kernel)⟩, .swap _ _ _, rfl⟩

end Spellbook.Props
