import Verif.Model.Check
/-! # Lemmas about computations without result -/

namespace Spellbook.Run
variable {α β : Type}

theorem or_eq_some {a b : Run (Option β)} {r : β} :
    a.or b = .ok (some r) ↔ a = .ok (some r) ∨ (a = .ok none ∧ b = .ok (some r)) := by
  unfold Run.or
  split
  · simp
  · rename_i h
    constructor
    · exact Or.inl
    · rintro (h' | ⟨h', _⟩)
      · exact h'
      · exact absurd h' h

theorem or_eq_none {a b : Run (Option β)} :
    a.or b = .ok none ↔ a = .ok none ∧ b = .ok none := by
  unfold Run.or
  split
  · simp
  · rename_i h
    constructor
    · intro h'; exact absurd h' h
    · rintro ⟨h', _⟩; exact absurd h' h

theorem or_eq_error {a b : Run (Option β)} {e : Stop} :
    a.or b = .error e ↔ a = .error e ∨ (a = .ok none ∧ b = .error e) := by
  unfold Run.or
  split
  · simp
  · rename_i h
    constructor
    · exact Or.inl
    · rintro (h' | ⟨h', _⟩)
      · exact h'
      · exact absurd h' h

@[simp] theorem none_or {b : Run (Option β)} : Run.or (.ok none) b = b := rfl
@[simp] theorem some_or {b : Run (Option β)} {r : β} : Run.or (.ok (some r)) b = .ok (some r) := rfl
@[simp] theorem error_or {b : Run (Option β)} {e : Stop} : Run.or (.error e) b = .error e := rfl

theorem or_none {a : Run (Option β)} : a.or (.ok none) = a := by
  unfold Run.or; split <;> rfl

theorem first_eq_some {f : α → Run (Option β)} {l : List α} {r : β} (h : first f l = .ok (some r)) :
    ∃ a ∈ l, f a = .ok (some r) := by
  induction l with
  | nil => simp [first] at h
  | cons a as ih =>
    rw [first, or_eq_some] at h
    rcases h with h | ⟨_, h⟩
    · exact ⟨a, by simp, h⟩
    · obtain ⟨b, hb, hf⟩ := ih h
      exact ⟨b, by simp [hb], hf⟩

theorem first_eq_none {f : α → Run (Option β)} {l : List α} :
    first f l = .ok none ↔ ∀ a ∈ l, f a = .ok none := by
  induction l with
  | nil => simp [first]
  | cons a as ih => simp [first, or_eq_none, ih]

/-- If every attempt has a result, the loop has one. -/
theorem first_ok {f : α → Run (Option β)} {l : List α} (h : ∀ a ∈ l, ∃ r, f a = .ok r) :
    ∃ r, first f l = .ok r := by
  induction l with
  | nil => exact ⟨none, rfl⟩
  | cons a as ih =>
    obtain ⟨r, hr⟩ := h a (by simp)
    rw [first, hr]
    cases r with
    | some r => exact ⟨some r, rfl⟩
    | none => exact ih fun b hb => h b (by simp [hb])

/-- If every attempt has a result and one finds something, the loop finds something. -/
theorem first_isSome {f : α → Run (Option β)} {l : List α} (h : ∀ a ∈ l, ∃ r, f a = .ok r)
    {a : α} (ha : a ∈ l) {r : β} (hr : f a = .ok (some r)) : ∃ r', first f l = .ok (some r') := by
  obtain ⟨o, ho⟩ := first_ok h
  cases o with
  | some r' => exact ⟨r', ho⟩
  | none => rw [first_eq_none.1 ho a ha] at hr; simp at hr

theorem first_eq_error {f : α → Run (Option β)} {l : List α} {e : Stop}
    (h : first f l = .error e) : ∃ a ∈ l, f a = .error e := by
  induction l with
  | nil => simp [first] at h
  | cons a as ih =>
    rw [first, or_eq_error] at h
    rcases h with h | ⟨_, h⟩
    · exact ⟨a, by simp, h⟩
    · obtain ⟨b, hb, hf⟩ := ih h
      exact ⟨b, by simp [hb], hf⟩

theorem bind_eq_ok {x : Run α} {f : α → Run β} {r : β} :
    (x >>= f) = .ok r ↔ ∃ a, x = .ok a ∧ f a = .ok r := by
  cases x with
  | error e => simp [bind, Except.bind]
  | ok a => simp [bind, Except.bind]

theorem map_eq_ok {x : Run α} {f : α → β} {r : β} :
    Except.map f x = .ok r ↔ ∃ a, x = .ok a ∧ f a = r := by
  cases x with
  | error e => simp [Except.map]
  | ok a => simp [Except.map]

/-! ### More fuel never changes a result -/

/-- The flat order: out of fuel is below everything. -/
def Le (a b : Run α) : Prop := a = .error .fuel ∨ a = b

theorem Le.refl (a : Run α) : Le a a := Or.inr rfl
theorem Le.trans {a b c : Run α} (h : Le a b) (h' : Le b c) : Le a c := by
  rcases h with h | rfl
  · exact Or.inl h
  · exact h'
theorem Le.ok {a b : Run α} (h : Le a b) {r : α} (ha : a = .ok r) : b = .ok r := by
  rcases h with h | rfl
  · rw [h] at ha; simp at ha
  · exact ha
theorem Le.panic {a b : Run α} (h : Le a b) (ha : a = .error .panic) : b = .error .panic := by
  rcases h with h | rfl
  · rw [h] at ha; simp at ha
  · exact ha

theorem Le.or {a b a' b' : Run (Option β)} (h : Le a a') (h' : Le b b') : Le (a.or b) (a'.or b') := by
  rcases h with rfl | rfl
  · exact Or.inl rfl
  · cases a with
    | error e => exact Or.inr rfl
    | ok o =>
      cases o with
      | some r => exact Or.inr rfl
      | none => simpa using h'

theorem Le.first {f g : α → Run (Option β)} {l : List α} (h : ∀ a, Le (f a) (g a)) :
    Le (first f l) (first g l) := by
  induction l with
  | nil => exact Le.refl _
  | cons a as ih => exact Le.or (h a) ih

theorem Le.bind {x y : Run α} {f g : α → Run β} (h : Le x y) (h' : ∀ a, Le (f a) (g a)) :
    Le (x >>= f) (y >>= g) := by
  rcases h with rfl | rfl
  · exact Or.inl rfl
  · cases x with
    | error e => exact Le.refl _
    | ok a => exact h' a

theorem Le.map {x y : Run α} (f : α → β) (h : Le x y) : Le (Except.map f x) (Except.map f y) := by
  rcases h with rfl | rfl
  · exact Or.inl rfl
  · exact Le.refl _

end Spellbook.Run
