import Verif.Spec.SuggestCase
import Verif.Spec.Outcome
/-!
# Specification of every outcome of `suggest`

What `suggest` returns, or that it panics, told from the content of the dictionary alone; if neither is
the case, it does not return. Steps are taken in order, and one which panics or does not end ends the
call.

Of the model only the data types are used (and `minChars` and `allowsCompounding`, which are options).
-/

namespace Spellbook.Spec

/-- How a step ends. -/
inductive Result (α : Type) where
  | gives (a : α)
  | panics

/-- One step, and then another one which depends on what the first one gave. -/
def Then {α β : Type} (first : Result α → Prop) (next : α → Result β → Prop) (o : Result β) : Prop :=
  (first .panics ∧ o = .panics) ∨ ∃ a, first (.gives a) ∧ next a o

/-- A dictionary, and what its content leaves open: which of several derivations or readings of a text
is looked at, what the conversions make of a text, and which of several forms with the same score are
suggested first. -/
structure Knowledge where
  C : Checker
  /-- Whether similar words are suggested. -/
  ngram : Bool
  choice : Choice
  /-- The BREAK lines. -/
  lines : List Str
  /-- ICONV and OCONV. -/
  input : Str → Str
  output : Str → Str
  /-- The suggestions by similarity for a word, if there are some suggestions already. -/
  similar : Str → List Str → Result (List Str)

variable (k : Knowledge)

/-! ## Lookups -/

/-- What `check` says of a text. -/
def Checked (t : Str) : Result Bool → Prop
  | .gives true => Happens k.C k.choice k.lines t (k.input t) .yes
  | .gives false => Happens k.C k.choice k.lines t (k.input t) .no
  | .panics => Happens k.C k.choice k.lines t (k.input t) .panics

/-- Whether the text is a word or compound which may be suggested: neither forbidden nor warned
against. -/
def MaySuggest (t : Str) (b : Bool) : Prop :=
  ∃ o, Decides k.C.U k.C.dict k.choice .forbidBad .skip t o ∧
    (b = true ↔ ∃ F, o = some F ∧ k.C.opts.forbiddenWordFlag ∉ F.elems ∧
      ¬ (k.C.opts.forbidWarn = true ∧ Has F k.C.opts.warnFlag))

/-- Whether all texts are words or compounds; they are looked up until one is not. -/
def AllWords : List Str → Bool → Prop
  | [], b => b = true
  | t :: ts, b =>
    (Decides k.C.U k.C.dict k.choice .forbidBad .skip t none ∧ b = false) ∨
    ∃ F, Decides k.C.U k.C.dict k.choice .forbidBad .skip t (some F) ∧ AllWords ts b

/-- Whether a REP replacement may be suggested: as a word, or as a sequence of words, of which the last one
is not looked up. -/
def MayReplace (t : Str) (b : Bool) : Prop :=
  (MaySuggest k t true ∧ b = true) ∨
  (MaySuggest k t false ∧
    ((' ' ∉ t ∧ b = false) ∨
     ∃ parts last, parts ≠ [] ∧ t = parts.flatMap (· ++ [' ']) ++ last ∧ ' ' ∉ last ∧ (∀ p ∈ parts, ' ' ∉ p) ∧
       AllWords k parts b))

/-- `l` are the texts which pass the test. -/
inductive Sieve (P : Str → Bool → Prop) : List Str → List Str → Prop
  | nil : Sieve P [] []
  | keep {t ts l} : P t true → Sieve P ts l → Sieve P (t :: ts) (t :: l)
  | drop {t ts l} : P t false → Sieve P ts l → Sieve P (t :: ts) l

/-! ## One spelling -/

/-- The texts that are tried after upper case, REP and MAP, in order; `n` is the number of attempts of the
methods which have a limit. -/
def editsOf (n : Nat) (w : Str) : List Str :=
  neighboursSwapped w ++ pairsSwapped w ++
  (swapped w).take n ++
  mistyped k.C.U k.C.dict.aff.keyboardCloseness w ++
  dropped w ++
  (inserted k.C.dict.aff.tryChars w).take n ++
  (movedRight w ++ movedLeft w).take n ++
  (replaced k.C.dict.aff.tryChars w).take n ++
  undoubled w

/-- The two halves of a word, if both are words, with a space; with a dash too if they have at least two
characters and TRY has an `a` or a dash. -/
def halves (a b : Str) : List Str :=
  if k.choice.simple .skip a = none ∨ k.choice.simple .skip b = none then []
  else (a ++ ' ' :: b) ::
    if 2 ≤ a.length ∧ 2 ≤ b.length ∧ ('a' ∈ k.C.dict.aff.tryChars ∨ '-' ∈ k.C.dict.aff.tryChars) then
      [a ++ '-' :: b] else []

/-- All ways to split the word, unless NOSPLITSUGS forbids it. -/
def inHalves (w : Str) : List Str :=
  if k.C.opts.noSplitSuggestions = true then [] else (splits w).flatMap fun s => halves k s.1 (s.2.1 :: s.2.2)

/-- Whether the first proposals `l` are good: there are some; or there are MAP groups, and the word itself is
found if parts marked FORCEUCASE may end a compound. -/
def Quality (w : Str) (l : List Str) (good : Bool) : Prop :=
  (l ≠ [] ∧ good = true) ∨
  (l = [] ∧ k.C.dict.aff.similarities = [] ∧ good = false) ∨
  (l = [] ∧ k.C.dict.aff.similarities ≠ [] ∧
    ∃ o, Decides k.C.U k.C.dict k.choice .allowBad .skip w o ∧ (good = true ↔ o ≠ none))

/-- The proposals for one spelling of the word, and whether they are good. For an empty text the code panics
with compounds, before MAP. -/
def Low (w : Str) (o : Result (Bool × List Str)) : Prop :=
  ∃ upper rep, Sieve (MaySuggest k) [upperOf k.C w] upper ∧
    Sieve (MayReplace k) (reworded k.C.dict.aff.replacements.whole k.C.dict.aff.replacements.start
      k.C.dict.aff.replacements.stop k.C.dict.aff.replacements.anywhere w) rep ∧
    if w = [] ∧ k.C.opts.allowsCompounding = true then o = .panics
    else ∃ map good edits,
      Sieve (MaySuggest k) ((similarTexts k.C.dict.aff.similarities (editBudget k.C w + 1) w).take
        (editBudget k.C w)) map ∧
      Quality k w (upper ++ rep ++ map) good ∧
      Sieve (MaySuggest k) (editsOf k (editBudget k.C w) w) edits ∧
      o = .gives (good, upper ++ rep ++ map ++ edits ++ inHalves k w)

/-! ## All spellings -/

/-- The text itself, if it is correct. -/
def Front (t : Str) : Result (List Str) → Prop :=
  Then (Checked k t) fun b o => o = .gives (if b then [t] else [])

/-- The proposals for another spelling are added behind the others, and the spelling itself in front of
them if it is correct. -/
def Another (t : Str) (r : Bool × List Str) : Result (Bool × List Str) → Prop :=
  Then (Low k t) fun p => Then (Front k t) fun l o => o = .gives (r.1 || p.1, l ++ r.2 ++ p.2)

/-- The proposals for the spellings of a word of the given letter case, and whether some are good. -/
def Spelled (w : Str) : Casing → Result (Bool × List Str) → Prop
  | .none => Low k w
  | .init => Then (Low k w) fun p => Then (Low k (lowerOf k.C w)) fun p' o =>
      o = .gives (p.1 || p'.1, p.2 ++ p'.2)
  | .all =>
    Then (fun o => if k.C.opts.keepCaseFlag = Option.none then o = .gives [] else Front k (lowerOf k.C w) o) fun l =>
    Then (Low k (lowerOf k.C w)) fun p o =>
      if lowerOf k.C w = [] then o = .panics
      else Then (Low k (titleOf k.C (lowerOf k.C w))) (fun p' o =>
        o = .gives (p.1 || p'.1, (l ++ p.2 ++ p'.2).map (upperOf k.C))) o
  | .camel =>
    Then (Low k w) fun p =>
    Then (fun o => ∃ d, DotSpace k.C.U w d ∧ o = .gives (p.1, d ++ p.2)) fun p =>
    Then (Another k (lowerOf k.C w) p) fun p o =>
      ∃ l, SecondFirst k.C w p.2 l ∧ o = .gives (p.1, l)
  | .pascal =>
    Then (Low k w) fun p =>
    Then (fun o => ∃ d, DotSpace k.C.U w d ∧ o = .gives (p.1, d ++ p.2)) fun p =>
    Then (fun o => ∃ c b, w = c :: b ∧ Another k (k.C.opts.caseHandling.lowerChar k.C.U c ++ b) p o) fun p =>
    Then (Another k (lowerOf k.C w) p) fun p =>
    Then (Another k (titleOf k.C w) p) fun p o =>
      ∃ l, SecondFirst k.C w p.2 l ∧ o = .gives (p.1, l)

/-! ## Similar words, parts between dashes, and the end -/

/-- Similar words are added, if that is switched on, no proposal is good, and MAXNGRAMSUGS is not 0; in
capitals for a word in capitals. -/
def WithSimilar (w : Str) (casing : Casing) (p : Bool × List Str) (o : Result (List Str)) : Prop :=
  if k.ngram = true ∧ p.1 = false ∧ k.C.opts.maxNgramSuggestions ≠ 0 then
    Then (· = k.similar (compared k.C w casing) p.2)
      (fun l o => o = .gives (p.2 ++ if casing = .all then l.map (upperOf k.C) else l)) o
  else o = .gives p.2

/-- The texts made from all items, in order. -/
def Collect {α : Type} (f : α → Result (List Str) → Prop) : List α → Result (List Str) → Prop
  | [], o => o = .gives []
  | a :: as, o => Then (f a) (fun l => Then (Collect f as) fun l' o => o = .gives (l ++ l')) o

/-- The parts of the word between dashes, from left to right, each with the text before and after it. -/
def DashParts (w : Str) (l : List (Str × Str × Str)) : Prop :=
  (∀ a b c, (a, b, c) ∈ l ↔ DashPart w a b c) ∧ l.Pairwise fun x y => x.1.length < y.1.length

/-- The text with a part corrected is kept, unless it is forbidden. -/
def KeepCorrected (t : Str) (o : Result (List Str)) : Prop :=
  ∃ F, Decides k.C.U k.C.dict k.choice .forbidBad .accept t F ∧
    ((∃ F', F = some F' ∧ k.C.opts.forbiddenWordFlag ∈ F'.elems) ∧ o = .gives [] ∨
     (¬ ∃ F', F = some F' ∧ k.C.opts.forbiddenWordFlag ∈ F'.elems) ∧ o = .gives [t])

/-- For a word with dashes, if no suggestion has one: each part which is not correct is corrected. `again` are
the suggestions for a part. -/
def WithDashes (again : Str → Result (List Str) → Prop) (w : Str) (l : List Str) (o : Result (List Str)) : Prop :=
  if '-' ∈ w ∧ ∀ s ∈ l, '-' ∉ s then
    ∃ parts, DashParts w parts ∧
      Then (Collect (fun x => Then (Checked k x.2.1) fun b o =>
          if b then o = .gives []
          else Then (again x.2.1) (Collect fun s => KeepCorrected k (x.1 ++ (s ++ x.2.2))) o) parts)
        (fun l' o => o = .gives (l ++ l')) o
  else o = .gives l

/-- Capital first letters; there is none in an empty text. -/
def Capitals (l : List Str) (o : Result (List Str)) : Prop :=
  (∃ caps, List.Forall₂ (Capital k.C) l caps ∧ o = .gives caps) ∨ ([] ∈ l ∧ o = .panics)

/-- The second lookup of a suggestion. -/
def Again (t : Str) (o : Result (List Str)) : Prop :=
  if ' ' ∈ t then o = .gives [t]
  else Then (Checked k t) (fun b o =>
    if b then o = .gives [t]
    else Then (Checked k (lowerOf k.C t)) (fun b o =>
      if b then o = .gives [lowerOf k.C t]
      else if t = [] then o = .panics
      else Front k (titleOf k.C t) o) o) o

/-- What becomes of the suggestions in the end, by the letter case of the word. -/
def Ended (l : List Str) : Casing → Result (List Str) → Prop
  | .none | .camel => fun o => o = .gives l
  | .init => Then (Capitals k l) (Collect (Again k))
  | .all => Collect (Again k) l
  | .pascal => Capitals k l

/-- Whether the word is a compound which only lacks a capital (FORCEUCASE). -/
def OnlyLacksCapital (w : Str) (b : Bool) : Prop :=
  if k.C.opts.compoundForceUppercaseFlag = none then b = false
  else ∃ o, CompoundDecides k.C.U k.C.dict k.choice .allowBad w o ∧ (b = true ↔ o ≠ none)

/-! ## Everything -/

/-- The suggestions for a word after ICONV, of the given letter case. -/
def Ordinary (again : Str → Result (List Str) → Prop) (w : Str) (casing : Casing) : Result (List Str) → Prop :=
  Then (Spelled k w casing) fun p =>
  Then (WithSimilar k w casing p) fun l =>
  Then (WithDashes k again w l) fun l =>
  Then (Ended k l casing) fun l o => o = .gives ((firsts [] l).map k.output)

/-- The suggestions for a word, if its parts are cut at dashes at most `depth` deep. -/
def SuggestedAt : Nat → Str → Result (List Str) → Prop
  | 0, _, _ => False
  | depth + 1, word, o =>
    if word = [] then o = .gives []
    else ∃ casing, HasCasing k.C.U (k.input word) casing ∧
      ((casing ≠ .none ∧ Ordinary k (SuggestedAt depth) (k.input word) casing o) ∨
       (casing = .none ∧ OnlyLacksCapital k (k.input word) false ∧
          Ordinary k (SuggestedAt depth) (k.input word) casing o) ∨
       (casing = .none ∧ OnlyLacksCapital k (k.input word) true ∧ o = .gives [titleOf k.C (k.input word)]))

/-- What `suggest` does with a word. -/
def Suggested (word : Str) (o : Result (List Str)) : Prop :=
  if (utf8 word).length > 360 then o = .gives [] else ∃ depth, SuggestedAt k depth word o

/-! ## What is left open -/

/-- `k` is about this dictionary, whose settings are `cx`, and fixes only what the content leaves open. -/
structure Knowledge.Fits (k : Knowledge) (S : Suggester) (cx : Cx) : Prop where
  checker : k.C = S.C
  ngram : k.ngram = S.ngram
  lines : k.lines = cx.breakPatterns
  /-- The flags of a text are those of one of its derivations. -/
  choice : k.choice.Fits S.C.dict
  input : ∀ w, Converts cx.inputConversions w (k.input w)
  output : ∀ w, Converts cx.outputConversions w (k.output w)
  /-- The similar words are those with the best scores. -/
  similar : ∀ w old new, k.similar w old = .gives new → BySimilarity S.C w old new
  /-- No text is too long. -/
  short : ∀ w old new, k.similar w old = .gives new → ¬ TooLong w ∧
    ∀ e, Listed S.C e → ¬ TooLong e.1 ∧ ¬ TooLong (lowerOf S.C e.1)
  panics : ∀ w old, k.similar w old = .panics → SimilarityPanics S.C w

end Spellbook.Spec
