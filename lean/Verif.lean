import Verif.Audit
import Verif.Model.AffData
import Verif.Model.AffText
import Verif.Model.Affix
import Verif.Model.AffixIndex
import Verif.Model.Api
import Verif.Model.Casing
import Verif.Model.Check
import Verif.Model.CheckBytes
import Verif.Model.Compound
import Verif.Model.Condition
import Verif.Model.Conversion
import Verif.Model.Debug
import Verif.Model.DebugSuggest
import Verif.Model.DicLine
import Verif.Model.Dictionary
import Verif.Model.Display
import Verif.Model.Edits
import Verif.Model.FlagSet
import Verif.Model.FlagText
import Verif.Model.HashBag
import Verif.Model.Lookups
import Verif.Model.Ngram
import Verif.Model.NgramBytes
import Verif.Model.RuleText
import Verif.Model.Simple
import Verif.Model.Str
import Verif.Model.Suggest
import Verif.Model.SuggestBytes
import Verif.Model.Tables
import Verif.Model.Umbra
import Verif.Model.UmbraMem
import Verif.Model.WordMem
import Verif.Model.Words
import Verif.Model.Work
import Verif.Proof.Accepted
import Verif.Proof.AffLocal
import Verif.Proof.AffReads
import Verif.Proof.AffText
import Verif.Proof.AffixIndex
import Verif.Proof.Api
import Verif.Proof.Attempts
import Verif.Proof.BlockOrder
import Verif.Proof.Blocks
import Verif.Proof.ByteOrder
import Verif.Proof.Casing
import Verif.Proof.Check
import Verif.Proof.CheckBytes
import Verif.Proof.Compound
import Verif.Proof.CompoundRule
import Verif.Proof.Condition
import Verif.Proof.Conversion
import Verif.Proof.Debug
import Verif.Proof.DebugSuggest
import Verif.Proof.Dedup
import Verif.Proof.Depth
import Verif.Proof.DicLine
import Verif.Proof.DicText
import Verif.Proof.Display
import Verif.Proof.EditBytes
import Verif.Proof.Edits
import Verif.Proof.Expansion
import Verif.Proof.Faults
import Verif.Proof.FlagFaults
import Verif.Proof.FlagSet
import Verif.Proof.FlagText
import Verif.Proof.FormList
import Verif.Proof.Growth
import Verif.Proof.GuardList
import Verif.Proof.Happens
import Verif.Proof.HashBag
import Verif.Proof.Hints
import Verif.Proof.HintsText
import Verif.Proof.History
import Verif.Proof.Layout
import Verif.Proof.Letters
import Verif.Proof.Lookups
import Verif.Proof.MoreRules
import Verif.Proof.Ngram
import Verif.Proof.NgramBytes
import Verif.Proof.NgramSafe
import Verif.Proof.Order
import Verif.Proof.Outcome
import Verif.Proof.Parse
import Verif.Proof.PartList
import Verif.Proof.Personal
import Verif.Proof.PlaceList
import Verif.Proof.Plain
import Verif.Proof.PlainCompound
import Verif.Proof.PrepList
import Verif.Proof.Prune
import Verif.Proof.PruneSuggest
import Verif.Proof.ReadBytes
import Verif.Proof.Removal
import Verif.Proof.Rename
import Verif.Proof.RenameSuggest
import Verif.Proof.Repeat
import Verif.Proof.Respell
import Verif.Proof.RuleList
import Verif.Proof.RuleText
import Verif.Proof.Run
import Verif.Proof.SameLookups
import Verif.Proof.Search
import Verif.Proof.SearchLaws
import Verif.Proof.Select
import Verif.Proof.Similar
import Verif.Proof.SimilarPanics
import Verif.Proof.Simple
import Verif.Proof.Suggest
import Verif.Proof.SuggestAll
import Verif.Proof.SuggestBytes
import Verif.Proof.SuggestCase
import Verif.Proof.SuggestEnds
import Verif.Proof.SuggestLow
import Verif.Proof.SuggestSafe
import Verif.Proof.SuggestSame
import Verif.Proof.Suggestions
import Verif.Proof.SuggestionsAll
import Verif.Proof.TableOrder
import Verif.Proof.Tables
import Verif.Proof.TextFaults
import Verif.Proof.Total
import Verif.Proof.Umbra
import Verif.Proof.UmbraMem
import Verif.Proof.Unmunch
import Verif.Proof.Unused
import Verif.Proof.Utf8
import Verif.Proof.Whole
import Verif.Proof.WordMem
import Verif.Proof.Words
import Verif.Proof.Work
import Verif.Props.Accepted
import Verif.Props.Api
import Verif.Props.BlockOrder
import Verif.Props.ByteOrder
import Verif.Props.CaseHints
import Verif.Props.Check
import Verif.Props.CheckBytes
import Verif.Props.Compound
import Verif.Props.Data
import Verif.Props.Debug
import Verif.Props.DebugSuggest
import Verif.Props.Depth
import Verif.Props.Dictionary
import Verif.Props.Display
import Verif.Props.Edits
import Verif.Props.Faults
import Verif.Props.FormList
import Verif.Props.Growth
import Verif.Props.GuardList
import Verif.Props.Happens
import Verif.Props.HintList
import Verif.Props.Hints
import Verif.Props.Layout
import Verif.Props.Letters
import Verif.Props.Lookups
import Verif.Props.MoreRules
import Verif.Props.Ngram
import Verif.Props.NgramBytes
import Verif.Props.Order
import Verif.Props.Parser
import Verif.Props.PartList
import Verif.Props.Personal
import Verif.Props.PlaceList
import Verif.Props.Plain
import Verif.Props.PrepList
import Verif.Props.Prepare
import Verif.Props.Prune
import Verif.Props.Removal
import Verif.Props.Rename
import Verif.Props.Repeat
import Verif.Props.Respell
import Verif.Props.RuleList
import Verif.Props.Search
import Verif.Props.Similar
import Verif.Props.Simple
import Verif.Props.Suggest
import Verif.Props.SuggestBytes
import Verif.Props.SuggestCase
import Verif.Props.SuggestDepth
import Verif.Props.Suggestions
import Verif.Props.TableOrder
import Verif.Props.Tables
import Verif.Props.Text
import Verif.Props.UmbraMem
import Verif.Props.Unmunch
import Verif.Props.Unused
import Verif.Props.Whole
import Verif.Props.WordMem
import Verif.Props.Work
import Verif.Spec.Accepted
import Verif.Spec.AffText
import Verif.Spec.Affix
import Verif.Spec.Api
import Verif.Spec.Attempts
import Verif.Spec.Bag
import Verif.Spec.Blocks
import Verif.Spec.ByteOrder
import Verif.Spec.CaseHints
import Verif.Spec.Casing
import Verif.Spec.Check
import Verif.Spec.Compound
import Verif.Spec.Condition
import Verif.Spec.Depth
import Verif.Spec.Derivation
import Verif.Spec.DicLine
import Verif.Spec.DicText
import Verif.Spec.Edits
import Verif.Spec.Expansion
import Verif.Spec.Faults
import Verif.Spec.FlagFaults
import Verif.Spec.FlagText
import Verif.Spec.FormList
import Verif.Spec.Growth
import Verif.Spec.GuardList
import Verif.Spec.HintList
import Verif.Spec.Hints
import Verif.Spec.History
import Verif.Spec.Layout
import Verif.Spec.Letters
import Verif.Spec.Lookups
import Verif.Spec.MoreRules
import Verif.Spec.Ngram
import Verif.Spec.Order
import Verif.Spec.Outcome
import Verif.Spec.Parser
import Verif.Spec.PartList
import Verif.Spec.Personal
import Verif.Spec.PlaceList
import Verif.Spec.Plain
import Verif.Spec.PrepList
import Verif.Spec.Prune
import Verif.Spec.Removal
import Verif.Spec.Rename
import Verif.Spec.Repeat
import Verif.Spec.Respell
import Verif.Spec.RuleList
import Verif.Spec.RuleText
import Verif.Spec.Search
import Verif.Spec.Sharp
import Verif.Spec.Similar
import Verif.Spec.Suggest
import Verif.Spec.SuggestCase
import Verif.Spec.SuggestDepth
import Verif.Spec.Suggestions
import Verif.Spec.TableOrder
import Verif.Spec.Tables
import Verif.Spec.UmbraMem
import Verif.Spec.Unmunch
import Verif.Spec.Unused
import Verif.Spec.Whole
import Verif.Spec.WordMem
import Verif.Spec.Work
import Verif.Tests.Aff
import Verif.Tests.Checker
import Verif.Tests.Common
import Verif.Tests.Lib
import Verif.Tests.Suggester
