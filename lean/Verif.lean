import Verif.Props.Id
import Verif.Props.Chain
import Verif.Props.Introspect
import Verif.Props.Ops
import Verif.Props.Heap
import Verif.Props.HeapView
import Verif.Props.Registry
import Verif.Props.Recorder
import Verif.Props.RecorderHeap
import Verif.Props.Parse
import Verif.Props.RoundTrip
import Verif.Props.Calls
import Verif.Props.Misc
import Verif.Parsed
import Verif.Props.Sort
import Verif.Props.Utils
import Verif.Props.Match
import Verif.Old.Ast
import Verif.Old.Reads
import Verif.Old.Sound
import Verif.Old.Sem
import Verif.Old.Facts
import Verif.Old.Quotes
import Verif.OldIds
import Verif.Normal
import Verif.Props.Normal
import Verif.Props.OldIds
import Verif.Spec.Regex
import Verif.Props.Regex
import Verif.Classes
import Verif.Spec.Attr
import Verif.Props.Attrs
import Verif.Columns
import Verif.Props.Columns
import Verif.Props.Paths
import Verif.Props.Settings
import Verif.Spec.Text
import Verif.Props.Text
import Verif.Curry
import Verif.Props.Curry
import Verif.Decorated
import Verif.Props.Decorated
import Verif.DecoratedObj
import Verif.Arrays
import Verif.Props.DecoratedObj
import Verif.Props.Arrays
import Verif.ClassGraph
import Verif.Props.ClassGraph
import Verif.Sklearn
import Verif.Props.Sklearn
import Verif.Props.SklearnIds
import Verif.Submodules
import Verif.Props.Submodules
import Verif.DecorateSome
import Verif.Props.DecorateSome
import Verif.Spec.Meaning
import Verif.ParseExact
import Verif.Props.Meaning
import Verif.DecoratedClass
import Verif.Props.DecoratedClass
import Verif.Hasher
import Verif.HasherLemmas
import Verif.Spec.Hash
import Verif.Spec.Arrays
import Verif.Props.Hasher
import Verif.Spec.Shown
import Verif.BasicChain
import Verif.Props.Raises
import Verif.Props.Refusals
import Verif.Optional
import Verif.Props.Optional
import Verif.Spec.Equal
import Verif.Props.Equal
import Verif.ToDf
import Verif.Props.ToDf
import Verif.Naming
import Verif.Props.Naming
import Verif.Report
import Verif.Props.Report
import Verif.Props.Pipeline
import Verif.Props.Nicknames
import Verif.Repr
import Verif.Props.Repr
import Verif.Props.Answers
import Verif.Props.FromIds
import Verif.SklearnPatch
import Verif.Props.SklearnPatch
import Verif.Spec.StandIn
import Verif.Props.StandIn
import Verif.FunctionLike
import Verif.Props.FunctionLike
import Verif.ParseCost
import Verif.CostLemmas
import Verif.CostValue
import Verif.CostShape
import Verif.CostAlts
import Verif.CostRuns
import Verif.CostWins
import Verif.CostFails
import Verif.CostLinear
import Verif.CostLower
import Verif.Props.Cost
import Verif.Callbacks
import Verif.CallbackLemmas
import Verif.Props.Callbacks
import Verif.Session
import Verif.Props.Session
import Verif.Props.Whatareyou
import Verif.Props.DecoratedWith
import Verif.RecorderLive
import Verif.Props.RecorderLive
import Verif.Conformance.Parsers
import Verif.Conformance.What
import Verif.Conformance.Plugins
import Verif.Conformance.Whatable
import Verif.Conformance.Misc
import Verif.Conformance.Registry
import Verif.ChainCong
import Verif.Props.CallbackOrder
import Verif.DeepPlugin
import Verif.Spec.Deep
import Verif.Props.DeepPlugin
import Verif.Spec.Accepted
import Verif.Props.Accepts
import Verif.Spec.Legible
import Verif.QuoteScan
import Verif.Stuck
import Verif.Calm
import Verif.CalmText
import Verif.Props.Legible
import Verif.Props.LegibleSeen
import Verif.Marks
import Verif.Tells
import Verif.Spec.Collide
import Verif.Props.Collide
import Verif.Spec.SameToIds
import Verif.Props.SameToIds
import Verif.Spec.ReadAs
import Verif.Props.ReadBack
import Verif.Props.Stays
import Verif.Stack
import Verif.Spec.Stack
import Verif.Props.Stack
import Verif.Printing
import Verif.Props.Printing
import Verif.Spec.Positional
import Verif.Listing
import Verif.Props.Positional
import Verif.RegThreads
import Verif.Props.RegThreads
import Verif.RecThreads
import Verif.Props.RecThreads
import Verif.PlugThreads
import Verif.Props.PlugThreads
import Verif.GenKeys
import Verif.Spec.StableSort
import Verif.Props.GenKeys
import Verif.SortAny
import Verif.Props.SortAny
import Verif.HashSort
import Verif.Props.HashSort
import Verif.PlugDescribe
import Verif.Props.PlugDescribe
import Verif.HashOpts
import Verif.Props.HashOpts
import Verif.Cyclic
import Verif.Spec.Cyclic
import Verif.Props.Cyclic
import Verif.HashFail
import Verif.Spec.HashFail
import Verif.Props.HashFail
import Verif.HashGraph
import Verif.Spec.HashGraph
import Verif.Props.HashGraph
import Verif.EqMem
import Verif.Spec.EqMem
import Verif.Props.EqMem
import Verif.FlatMem
import Verif.Spec.FlatMem
import Verif.Props.FlatMem
import Verif.ReprMem
import Verif.Spec.ReprMem
import Verif.Props.ReprMem
