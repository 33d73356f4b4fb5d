import Verif.Model.Str
/-!
# Affix conditions

Models `Condition` of `src/aff.rs` 108–179 and its parser in `src/aff/parser.rs` 1712–1773.
-/

namespace Spellbook

/-- `struct Condition` (`src/aff.rs` 108–131). -/
structure Condition where
  pattern : Str
  chars : Nat
  isLiteral : Bool
deriving DecidableEq, Repr

/-- `enum ConditionError` (`src/aff/parser.rs` 1687–1696). -/
inductive ConditionError
  | unopenedCharacterClass | unclosedCharacterClass | emptyCharacterClass
deriving DecidableEq, Repr

namespace Condition

/-- The inner `for ch in pattern.by_ref()` loop of `Condition::matches` (`src/aff.rs` 148–156):
whether the class contains `ch`, and the pattern behind the closing bracket. -/
def scanClass (ch : Char) : Str → Bool → Bool × Str
  | [], found => (found, [])
  | p :: ps, found => if p = ']' then (found, ps) else scanClass ch ps (if p = ch then true else found)

theorem scanClass_length (ch : Char) (p : Str) (f : Bool) : (scanClass ch p f).2.length ≤ p.length := by
  induction p generalizing f with
  | nil => simp [scanClass]
  | cons c p ih =>
    unfold scanClass; split
    · simp
    · exact Nat.le_succ_of_le (ih _)

/-- `pattern.next_if_eq(&'^')` (`src/aff.rs` 146). -/
def takeCaret (p : Str) : Bool × Str :=
  match p with
  | '^' :: p' => (true, p')
  | _ => (false, p)

theorem takeCaret_length (p : Str) : (takeCaret p).2.length ≤ p.length := by
  unfold takeCaret; split <;> simp

/-- The loop of `Condition::matches` (`src/aff.rs` 134–178). -/
def matchLoop (pattern input : Str) : Bool :=
  match pattern, input with
  | [], _ => true
  | _ :: _, [] => false
  | p :: ps, i :: is =>
    if p = '.' then matchLoop ps is
    else if p = '[' then
      let cc := takeCaret ps
      let r := scanClass i cc.2 false
      if !cc.1 && !r.1 then false
      else if cc.1 && r.1 then false
      else matchLoop r.2 is
    else if p ≠ i then false
    else matchLoop ps is
termination_by pattern.length
decreasing_by
  · simp
  · have h1 := takeCaret_length ps
    have h2 := scanClass_length i (takeCaret ps).2 false
    simp only [List.length_cons]; omega
  · simp

/-- `Condition::matches` (`src/aff.rs` 134–178). -/
def matches' (c : Condition) (input : Str) : Bool := matchLoop c.pattern input

/-- The loop of `Condition::from_str` (`src/aff/parser.rs` 1716–1762): `find` cuts at the next
bracket, a character class counts one character. -/
def scanChars (scan : Str) (chars : Nat) : Except ConditionError Nat :=
  let lit := scan.takeWhile fun c => c ≠ '[' && c ≠ ']'
  let chars := chars + lit.length
  match _h : scan.dropWhile fun c => c ≠ '[' && c ≠ ']' with
  | [] => .ok chars
  | b :: scan1 =>
    if b = ']' then .error .unopenedCharacterClass
    else if scan1.isEmpty then .error .unclosedCharacterClass
    else
      let scan2 := (takeCaret scan1).2
      match h2 : scan2.dropWhile (· ≠ ']') with
      | [] => .error .unclosedCharacterClass
      | _ :: scan3 =>
        if (scan2.takeWhile (· ≠ ']')).isEmpty then .error .emptyCharacterClass
        else scanChars scan3 (chars + 1)
termination_by scan.length
decreasing_by
  have h3 := (List.dropWhile_suffix (l := scan) fun c => c ≠ '[' && c ≠ ']').length_le
  have h4 := (List.dropWhile_suffix (l := scan2) (· ≠ ']')).length_le
  have h5 : scan2.length ≤ scan1.length := takeCaret_length scan1
  rw [h2] at h4; simp only [_h, List.length_cons] at h3 h4; omega

/-- `impl FromStr for Condition` (`src/aff/parser.rs` 1712–1773). -/
def parse (s : Str) : Except ConditionError Condition := do
  let chars ← scanChars s 0
  pure { pattern := s, chars, isLiteral := !(s.contains '.' || s.contains '[') }

end Condition
end Spellbook
