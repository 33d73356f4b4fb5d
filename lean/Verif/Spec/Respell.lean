import Verif.Spec.Blocks
import Verif.Spec.Parser
/-!
# The same dictionary with flags spelt in another way

`FLAG` chooses how flags are written, and `AF` gives numbers to sets of flags. Two pairs of texts are alike if they
differ in the spelling of flags only.
-/

namespace Spellbook
namespace Spec

/-- How flags are written: the type of flags and the sets which have numbers. -/
structure Spelling where
  type : FlagType
  aliases : List FlagSet

/-- Two texts denote the same flag, each in its spelling. -/
def SameFlag (a b : Spelling) (w w' : Str) : Prop := ∃ f, Flag.Valid f ∧ FlagOf a.type w f ∧ FlagOf b.type w' f

/-- Two texts denote the same flag or no flag. -/
def SameOptFlag (a b : Spelling) (w w' : Str) : Prop := ∃ o, OptFlag a.type w o ∧ OptFlag b.type w' o

/-- Two texts denote the same set of flags. -/
def SameFlagSet (a b : Spelling) (w w' : Str) : Prop :=
  ∃ F, AliasFlags a.type a.aliases w F ∧ AliasFlags b.type b.aliases w' F

/-- Two texts denote the same compound rule. -/
def SameRule (a b : Spelling) (w w' : Str) : Prop :=
  ∃ r : CompoundRule, (∀ e ∈ r, Flag.Valid e.flag) ∧ RuleText a.type w r ∧ RuleText b.type w' r

/-- Rows with flags, as words behind the name of the directive; the words of the first line of the table come before.
-/
inductive RowAlike (a b : Spelling) : String → List Str → List Str → List Str → List Str → Prop
  | rule {h h' w w' more} : SameRule a b w w' → RowAlike a b "COMPOUNDRULE" h h' (w :: more) (w' :: more)
  | pattern {h h' x x' s f f' y y' t g g' more} : SlashPair x s f → SlashPair x' s f' → SameOptFlag a b f f' →
      SlashPair y t g → SlashPair y' t g' → SameOptFlag a b g g' →
      RowAlike a b "CHECKCOMPOUNDPATTERN" h h' (x :: y :: more) (x' :: y' :: more)
  | affix {key name name' h h' strip add add' text f f' more} : key ∈ ["PFX", "SFX"] → SlashPair add text f →
      SlashPair add' text f' → SameFlagSet a b f f' →
      RowAlike a b key (name :: h) (name' :: h') (name :: strip :: add :: more) (name' :: strip :: add' :: more)

/-- Lines of a table. -/
def RowLineAlike (U : Unicode) (a b : Spelling) (key : String) (h h' : List Str) (line line' : Str) : Prop :=
  ∃ args args', splitWhitespace U line = key.toList :: args ∧ splitWhitespace U line' = key.toList :: args' ∧
    RowAlike a b key h h' args args'

/-- The directives with flags in their blocks. -/
def flaggedKeys : List String :=
  flagKeys.map (·.1) ++ ["FLAG", "AF", "COMPOUNDRULE", "CHECKCOMPOUNDPATTERN", "PFX", "SFX"]

/-- Two blocks which differ in the spelling of flags only. -/
inductive BlockAlike (U : Unicode) (a b : Spelling) : Block → Block → Prop
  /-- There are no flags in the block. -/
  | plain {B : Block} : B.key ∉ flaggedKeys → BlockAlike U a b B B
  | flag {key line line' w w' args} : key ∈ flagKeys.map (·.1) → SameFlag a b w w' →
      BlockAlike U a b ⟨key, line, w :: args, []⟩ ⟨key, line', w' :: args, []⟩
  | table {key line args rows rows'} : key ∈ ["COMPOUNDRULE", "CHECKCOMPOUNDPATTERN"] →
      List.Forall₂ (RowLineAlike U a b key args args) rows rows' →
      BlockAlike U a b ⟨key, line, args, rows⟩ ⟨key, line, args, rows'⟩
  | affixes {key line line' name name' args rows rows'} : key ∈ ["PFX", "SFX"] → SameFlag a b name name' →
      List.Forall₂ (RowLineAlike U a b key (name :: args) (name' :: args)) rows rows' →
      BlockAlike U a b ⟨key, line, name :: args, rows⟩ ⟨key, line', name' :: args, rows'⟩

/-- Two lines of a word list which differ in the spelling of flags only. -/
inductive EntryAlike (U : Unicode) (a b : Spelling) (l l' : Str) : Prop
  | skipped {t} : Trimmed U l t → Trimmed U l' t → SkippedLine t → EntryAlike U a b l l'
  | entry {t t' n n'} : Trimmed U l t → Trimmed U l' t' → ¬ SkippedLine t → ¬ SkippedLine t' → byteLen t' ≤ 65535 →
      StemEnd U t n → StemEnd U t' n' → t.take n = t'.take n' →
      SameFlagSet a b (flagsBehind U t n) (flagsBehind U t' n') → EntryAlike U a b l l'

/-- Two pairs of texts which differ in the spelling of flags only. Each affix file begins with the lines which choose
the spelling. -/
structure TextsAlike (U : Unicode) (a b : Spelling) (aff dic aff' dic' : Str) : Prop where
  affixes : ∃ head head' blocks blocks', HasLines U aff (head ++ (blocks.map Block.lines).flatten) ∧
    HasLines U aff' (head' ++ (blocks'.map Block.lines).flatten) ∧
    Reads U {} head { flagType := a.type, flagAliases := a.aliases } ∧
    Reads U {} head' { flagType := b.type, flagAliases := b.aliases } ∧
    (∀ B ∈ blocks, B.WellCut U) ∧ (∀ B ∈ blocks', B.WellCut U) ∧ List.Forall₂ (BlockAlike U a b) blocks blocks'
  words : ∃ first rest rest', HasLines U dic (first :: rest) ∧ HasLines U dic' (first :: rest') ∧
    List.Forall₂ (EntryAlike U a b) rest rest'

end Spec
end Spellbook
