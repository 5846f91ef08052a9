import Verif.Conform.Check
import Verif.Conform.Samples1
import Verif.Conform.Samples2
import Verif.Conform.Samples3
import Verif.Conform.Samples4
import Verif.Conform.Samples5
import Verif.Lemmas.Analyze
import Verif.Lemmas.AnalyzeRefs
import Verif.Lemmas.Attrs
import Verif.Lemmas.Blocks
import Verif.Lemmas.Calendar
import Verif.Lemmas.Chars
import Verif.Lemmas.Checks
import Verif.Lemmas.Chunks
import Verif.Lemmas.Cycle
import Verif.Lemmas.CycleData
import Verif.Lemmas.CycleMd
import Verif.Lemmas.CycleMdOnly
import Verif.Lemmas.CycleParse
import Verif.Lemmas.Equality
import Verif.Lemmas.EqualityParse
import Verif.Lemmas.Errors
import Verif.Lemmas.Failure
import Verif.Lemmas.FieldsProg
import Verif.Lemmas.FileCache
import Verif.Lemmas.FileText
import Verif.Lemmas.Float
import Verif.Lemmas.Gen
import Verif.Lemmas.HeapBound
import Verif.Lemmas.HeapCopy
import Verif.Lemmas.HeapCost
import Verif.Lemmas.HeapCostLow
import Verif.Lemmas.HeapMdBody
import Verif.Lemmas.HeapMdConv
import Verif.Lemmas.HeapMdNode
import Verif.Lemmas.HeapMdRead
import Verif.Lemmas.HeapMdSafe
import Verif.Lemmas.HeapMdSim
import Verif.Lemmas.HeapOutCost
import Verif.Lemmas.HeapOutCostLow
import Verif.Lemmas.HeapOutDict
import Verif.Lemmas.HeapOutSafe
import Verif.Lemmas.HeapOutSim
import Verif.Lemmas.HeapParse
import Verif.Lemmas.HeapProg
import Verif.Lemmas.HeapProgSafe
import Verif.Lemmas.HeapSafe
import Verif.Lemmas.Interrupt
import Verif.Lemmas.Iso
import Verif.Lemmas.Join
import Verif.Lemmas.Json
import Verif.Lemmas.JsonDoc
import Verif.Lemmas.JsonDump
import Verif.Lemmas.JsonGrammar
import Verif.Lemmas.JsonReads
import Verif.Lemmas.Lines
import Verif.Lemmas.Lists
import Verif.Lemmas.Md
import Verif.Lemmas.Nesting
import Verif.Lemmas.NodeGen
import Verif.Lemmas.NodeGenAttrs
import Verif.Lemmas.NodeGenPlan
import Verif.Lemmas.NodeGenSchema
import Verif.Lemmas.Page
import Verif.Lemmas.Par
import Verif.Lemmas.ParMd
import Verif.Lemmas.ParProg
import Verif.Lemmas.Parse
import Verif.Lemmas.Preserve
import Verif.Lemmas.Prog
import Verif.Lemmas.Prune
import Verif.Lemmas.ReadGood
import Verif.Lemmas.ReadInline
import Verif.Lemmas.ReadItems
import Verif.Lemmas.ReadLists
import Verif.Lemmas.ReadSqueeze
import Verif.Lemmas.Reader
import Verif.Lemmas.Reading
import Verif.Lemmas.RefCheck
import Verif.Lemmas.RefMarkdown
import Verif.Lemmas.RefView
import Verif.Lemmas.Reference
import Verif.Lemmas.Registry
import Verif.Lemmas.Report
import Verif.Lemmas.RoundTrip
import Verif.Lemmas.Runs
import Verif.Lemmas.SampleChecks
import Verif.Lemmas.Samples
import Verif.Lemmas.Schema
import Verif.Lemmas.Serial
import Verif.Lemmas.Size
import Verif.Lemmas.SizeNode
import Verif.Lemmas.SizeTree
import Verif.Lemmas.Tables
import Verif.Lemmas.Threads
import Verif.Lemmas.ThreadsPar
import Verif.Lemmas.Timestamp
import Verif.Lemmas.Utf8
import Verif.Lemmas.Weight
import Verif.Lemmas.WellFormed
import Verif.Model.Analyze
import Verif.Model.Cache
import Verif.Model.Checks
import Verif.Model.Crawl
import Verif.Model.Date
import Verif.Model.Download
import Verif.Model.Equality
import Verif.Model.FieldsProg
import Verif.Model.FileCache
import Verif.Model.Float
import Verif.Model.FromDict
import Verif.Model.GenCode
import Verif.Model.GenMain
import Verif.Model.Hash
import Verif.Model.Heap
import Verif.Model.HeapMd
import Verif.Model.HeapOut
import Verif.Model.HeapProg
import Verif.Model.Interrupt
import Verif.Model.Json
import Verif.Model.Kwargs
import Verif.Model.Markdown
import Verif.Model.Marks
import Verif.Model.Message
import Verif.Model.NodeGen
import Verif.Model.NodeGenMain
import Verif.Model.Objects
import Verif.Model.Pipeline
import Verif.Model.Prog
import Verif.Model.Report
import Verif.Model.Schema
import Verif.Model.Settings
import Verif.Model.Stack
import Verif.Model.Threads
import Verif.Model.ToDict
import Verif.Model.Trace
import Verif.Model.TypeEnum
import Verif.Props.Analyze
import Verif.Props.Atoms
import Verif.Props.Cache
import Verif.Props.Checks
import Verif.Props.ChildErrors
import Verif.Props.Chunks
import Verif.Props.Containers
import Verif.Props.Context
import Verif.Props.Cost
import Verif.Props.Crawl
import Verif.Props.Cycles
import Verif.Props.Dates
import Verif.Props.Docs
import Verif.Props.Download
import Verif.Props.Equality
import Verif.Props.Failure
import Verif.Props.FileCache
import Verif.Props.Gen
import Verif.Props.GenMain
import Verif.Props.Hash
import Verif.Props.Heap
import Verif.Props.HeapMd
import Verif.Props.HeapOut
import Verif.Props.Inline
import Verif.Props.Interrupt
import Verif.Props.InterruptParse
import Verif.Props.Json
import Verif.Props.KeyOrder
import Verif.Props.Kwargs
import Verif.Props.Lenient
import Verif.Props.LenientTree
import Verif.Props.Lists
import Verif.Props.Lossless
import Verif.Props.Marks
import Verif.Props.Message
import Verif.Props.Misread
import Verif.Props.Nesting
import Verif.Props.NodeGen
import Verif.Props.NodeGenMain
import Verif.Props.NodeGenModule
import Verif.Props.NodeGenParse
import Verif.Props.NodeGenRuns
import Verif.Props.Page
import Verif.Props.PageMisread
import Verif.Props.ParFields
import Verif.Props.ParSettings
import Verif.Props.Parallel
import Verif.Props.Parsing
import Verif.Props.Pipeline
import Verif.Props.Preserve
import Verif.Props.Quote
import Verif.Props.Reading
import Verif.Props.RefMarkdown
import Verif.Props.RefRoundTrip
import Verif.Props.Reference
import Verif.Props.Registry
import Verif.Props.Relevant
import Verif.Props.Report
import Verif.Props.Required
import Verif.Props.RoundTrip
import Verif.Props.Serial
import Verif.Props.Session
import Verif.Props.Settings
import Verif.Props.Size
import Verif.Props.Stack
import Verif.Props.Tables
import Verif.Props.Tasks
import Verif.Props.Text
import Verif.Props.Threads
import Verif.Props.Trace
import Verif.Props.UnknownKeys
import Verif.Props.Words
import Verif.Props.WordsMisread
import Verif.Py.Str
import Verif.Py.Val
import Verif.Spec.Analyze
import Verif.Spec.Calendar
import Verif.Spec.Checks
import Verif.Spec.Chunks
import Verif.Spec.Context
import Verif.Spec.Cost
import Verif.Spec.Crawl
import Verif.Spec.Cycle
import Verif.Spec.Download
import Verif.Spec.Equality
import Verif.Spec.Failure
import Verif.Spec.FileCache
import Verif.Spec.Gen
import Verif.Spec.Glyphs
import Verif.Spec.Heap
import Verif.Spec.Inline
import Verif.Spec.Iso
import Verif.Spec.Json
import Verif.Spec.JsonGrammar
import Verif.Spec.Keys
import Verif.Spec.Lenient
import Verif.Spec.Lists
import Verif.Spec.Lossless
import Verif.Spec.Marks
import Verif.Spec.Md
import Verif.Spec.Message
import Verif.Spec.Nesting
import Verif.Spec.NodeGen
import Verif.Spec.Page
import Verif.Spec.Parse
import Verif.Spec.Preserve
import Verif.Spec.Prune
import Verif.Spec.Reading
import Verif.Spec.RefMarkdown
import Verif.Spec.Reference
import Verif.Spec.Registry
import Verif.Spec.Relevant
import Verif.Spec.Report
import Verif.Spec.Serial
import Verif.Spec.Shows
import Verif.Spec.Size
import Verif.Spec.Stack
import Verif.Spec.Tables
import Verif.Spec.Text
import Verif.Spec.Timestamp
import Verif.Spec.Trace
import Verif.Spec.Words
