import Verif.Model.FlagSet
import Verif.Model.Str
/-!
# Break, replacement and compound rule tables

Models `src/aff.rs` 718–1066.
-/

namespace Spellbook

/-- `struct BreakTable` (`src/aff.rs` 718–724). -/
structure BreakTable where
  table : List Str
  startLast : Nat
  middleLast : Nat
deriving DecidableEq

namespace BreakTable

/-- The loop of `BreakTable::new` (`src/aff.rs` 732–743) with its three accumulators; `none` is the failure of
`assert!(!b.is_empty())`. -/
def newLoop : List Str → List Str → List Str → List Str → Option (List Str × List Str × List Str)
  | [], start, middle, stop => some (start, middle, stop)
  | b :: bs, start, middle, stop =>
    if b.isEmpty then none
    else
      match stripPrefix? b ['^'] with
      | some b => newLoop bs (start ++ [b]) middle stop
      | none =>
        match stripSuffix? b ['$'] with
        | some b => newLoop bs start middle (stop ++ [b])
        | none => newLoop bs start (middle ++ [b]) stop

/-- `BreakTable::new` (`src/aff.rs` 727–756). -/
def new (breaks : List Str) : Option BreakTable := do
  let (start, middle, stop) ← newLoop breaks [] [] []
  let table := start
  let startLast := table.length
  let table := table ++ middle
  let middleLast := table.length
  let table := table ++ stop
  pure { table, startLast, middleLast }

/-- `start_word_breaks` (`src/aff.rs` 759–763). -/
def startBreaks (t : BreakTable) : List Str := t.table.take t.startLast
/-- `middle_word_breaks` (`src/aff.rs` 766–770). -/
def middleBreaks (t : BreakTable) : List Str := (t.table.take t.middleLast).drop t.startLast
/-- `end_word_breaks` (`src/aff.rs` 773–777). -/
def endBreaks (t : BreakTable) : List Str := t.table.drop t.middleLast

end BreakTable

/-- `struct ReplacementTable` (`src/aff.rs` 793–798). -/
structure ReplacementTable where
  table : List (Str × Str)
  wholeLast : Nat
  startLast : Nat
  endLast : Nat
deriving DecidableEq

namespace ReplacementTable

/-- The four accumulators of `From<Vec<(&str, String)>>` (`src/aff.rs` 802–805). -/
structure Acc where
  whole : List (Str × Str) := []
  start : List (Str × Str) := []
  stop : List (Str × Str) := []
  anywhere : List (Str × Str) := []

/-- The loop of `From<Vec<(&str, String)>>` (`src/aff.rs` 807–828); `none` is the failure of the `assert!`. -/
def fromLoop : List (Str × Str) → Acc → Option Acc
  | [], acc => some acc
  | (src, dst) :: rest, acc =>
    if src.isEmpty || dst.isEmpty then none
    else
      match stripPrefix? src ['^'] with
      | some src =>
        match stripSuffix? src ['$'] with
        | some src => fromLoop rest { acc with whole := acc.whole ++ [(src, dst)] }
        | none => fromLoop rest { acc with start := acc.start ++ [(src, dst)] }
      | none =>
        match stripSuffix? src ['$'] with
        | some src => fromLoop rest { acc with stop := acc.stop ++ [(src, dst)] }
        | none => fromLoop rest { acc with anywhere := acc.anywhere ++ [(src, dst)] }

/-- `impl From<Vec<(&str, String)>> for ReplacementTable` (`src/aff.rs` 800–844). -/
def from' (replacements : List (Str × Str)) : Option ReplacementTable := do
  let acc ← fromLoop replacements {}
  let table := acc.whole
  let wholeLast := table.length
  let table := table ++ acc.start
  let startLast := table.length
  let table := table ++ acc.stop
  let endLast := table.length
  let table := table ++ acc.anywhere
  pure { table, wholeLast, startLast, endLast }

/-- `whole_word_replacements` (`src/aff.rs` 848–852). -/
def whole (t : ReplacementTable) : List (Str × Str) := t.table.take t.wholeLast
/-- `start_word_replacements` (`src/aff.rs` 855–859). -/
def start (t : ReplacementTable) : List (Str × Str) := (t.table.take t.startLast).drop t.wholeLast
/-- `end_word_replacements` (`src/aff.rs` 862–866). -/
def stop (t : ReplacementTable) : List (Str × Str) := (t.table.take t.endLast).drop t.startLast
/-- `any_place_replacements` (`src/aff.rs` 869–873). -/
def anywhere (t : ReplacementTable) : List (Str × Str) := t.table.drop t.endLast
/-- `has_only_whole_word_replacements` (`src/aff.rs` 877–879). -/
def hasOnlyWhole (t : ReplacementTable) : Bool := t.wholeLast == t.table.length

end ReplacementTable

/-- `enum CompoundRuleModifier` (`src/aff.rs` 911–914). -/
inductive RuleModifier
  | zeroOrOne | zeroOrMore
deriving DecidableEq, Repr

/-- `struct CompoundRuleElement` (`src/aff.rs` 905–908). -/
structure RuleElement where
  flag : Nat
  modifier : Option RuleModifier
deriving DecidableEq, Repr

/-- `type CompoundRule` (`src/aff.rs` 916). -/
abbrev CompoundRule := List RuleElement

/-- `flag_matches` of `compound_rule_matches` (`src/aff.rs` 936–939). -/
def ruleFlagMatches (data : List FlagSet) (dataIdx : Nat) (flag : Nat) : Bool :=
  match data[dataIdx]? with
  | some flagset => flagset.contains flag
  | none => false

/-- The states pushed in one turn of the loop of `compound_rule_matches` (`src/aff.rs` 940–964), topmost first. -/
def rulePush (el : RuleElement) (hit : Bool) (p d : Nat) : List (Nat × Nat) :=
  match el.modifier with
  | some .zeroOrOne => if hit then [(p + 1, d + 1), (p + 1, d)] else [(p + 1, d)]
  | some .zeroOrMore => if hit then [(p, d + 1), (p + 1, d)] else [(p + 1, d)]
  | none => if hit then [(p + 1, d + 1)] else []

/-- Bound on the number of turns a state can cause. Part of the model only, for `src/aff.rs` 920–965. -/
def ruleWeight (pattern : CompoundRule) (data : List FlagSet) (s : Nat × Nat) : Nat :=
  3 ^ ((pattern.length - s.1) + (data.length - s.2))

theorem rulePush_weight {pattern : CompoundRule} {data : List FlagSet} {p d : Nat} {el : RuleElement}
    (h : pattern[p]? = some el) :
    ((rulePush el (ruleFlagMatches data d el.flag) p d).map (ruleWeight pattern data)).sum
      < ruleWeight pattern data (p, d) := by
  have hp : p < pattern.length := (List.getElem?_eq_some_iff.1 h).1
  have hd : ruleFlagMatches data d el.flag = true → d < data.length := by
    unfold ruleFlagMatches
    split
    · rename_i hx; intro _; exact (List.getElem?_eq_some_iff.1 hx).1
    · simp
  have e1 : ruleWeight pattern data (p, d) = 3 * ruleWeight pattern data (p + 1, d) := by
    simp only [ruleWeight]
    rw [show pattern.length - p + (data.length - d)
      = (pattern.length - (p + 1) + (data.length - d)) + 1 by omega, Nat.pow_succ]; omega
  have e2 : ruleFlagMatches data d el.flag = true →
      ruleWeight pattern data (p, d) = 3 * ruleWeight pattern data (p, d + 1) := by
    intro hh
    have := hd hh
    simp only [ruleWeight]
    rw [show pattern.length - p + (data.length - d)
      = (pattern.length - p + (data.length - (d + 1))) + 1 by omega, Nat.pow_succ]; omega
  have e3 : ruleWeight pattern data (p + 1, d + 1) ≤ ruleWeight pattern data (p + 1, d) := by
    simp only [ruleWeight]
    exact Nat.pow_le_pow_right (by omega) (by omega)
  have e4 : 0 < ruleWeight pattern data (p + 1, d) := Nat.pow_pos (by omega)
  unfold rulePush
  by_cases hh : ruleFlagMatches data d el.flag = true
  · have := e2 hh
    split <;> simp [hh] <;> omega
  · split <;> simp [hh] <;> omega

/-- The `while let Some(..) = stack.pop()` loop of `compound_rule_matches` (`src/aff.rs` 925–965),
with the stack as a list whose head is the top. -/
def ruleLoop (pattern : CompoundRule) (data : List FlagSet) (stack : List (Nat × Nat)) : Bool :=
  match stack with
  | [] => false
  | (p, d) :: stack =>
    match _h : pattern[p]? with
    | none => d == data.length
    | some el => ruleLoop pattern data (rulePush el (ruleFlagMatches data d el.flag) p d ++ stack)
termination_by (stack.map (ruleWeight pattern data)).sum
decreasing_by
  have := rulePush_weight (data := data) (d := d) _h
  simp only [List.map_append, List.sum_append, List.map_cons, List.sum_cons]
  omega

/-- `compound_rule_matches` (`src/aff.rs` 918–968). Simplification: the code tests
`pattern_idx == pattern.len()`, the model `pattern_idx` out of range; the index never exceeds the
length. -/
def compoundRuleMatches (pattern : CompoundRule) (data : List FlagSet) : Bool :=
  ruleLoop pattern data [(0, 0)]

/-- `struct CompoundRuleTable` (`src/aff.rs` 974–977) with `From<Vec<CompoundRule>>` (979–991):
`all_flags` is a function of the rules. -/
structure CompoundRuleTable where
  rules : List CompoundRule

namespace CompoundRuleTable

/-- `all_flags` (`src/aff.rs` 981–984). -/
def allFlags (t : CompoundRuleTable) : FlagSet :=
  FlagSet.ofList (t.rules.flatMap fun rule => rule.map (·.flag))

/-- `is_empty` (`src/aff.rs` 995–997). -/
def isEmpty (t : CompoundRuleTable) : Bool := t.rules.isEmpty

/-- `has_any_flags` (`src/aff.rs` 1002–1004). -/
def hasAnyFlags (t : CompoundRuleTable) (flagset : FlagSet) : Bool :=
  t.allFlags.hasIntersection flagset

/-- `any_rule_matches` (`src/aff.rs` 1017–1021). -/
def anyRuleMatches (t : CompoundRuleTable) (flagsets : List FlagSet) : Bool :=
  t.rules.any fun rule => compoundRuleMatches rule flagsets

end CompoundRuleTable

/-- `struct CompoundPattern` (`src/aff.rs` 1057–1066). `StrPair` (1026–1054) stores two strings in
one allocation; here they are a pair: `full_str` is `first ++ second`, `partition` the length of
`first`. -/
structure CompoundPattern where
  first : Str
  second : Str
  replacement : Option Str
  firstWordFlag : Option Nat
  secondWordFlag : Option Nat
  matchFirstOnlyUnaffixed : Bool
deriving DecidableEq

end Spellbook
