import Verif.Model.Py
import Verif.Model.Lexer
import Verif.Model.Grammar
import Verif.Model.Node
import Verif.Model.Builder
import Verif.Model.QueryParser
import Verif.Model.Visitor
import Verif.Model.Validation
import Verif.Model.Heap
import Verif.Spec.Lexing
import Verif.Spec.Derivation
import Verif.Spec.Cst
import Verif.Proofs.Lexer
import Verif.Proofs.Grammar
import Verif.Proofs.Cst
import Verif.Spec.Literal
import Verif.Spec.Denote
import Verif.Proofs.Meaning
import Verif.Proofs.Literal
import Verif.Proofs.TokLang
import Verif.Proofs.Denote
import Verif.Spec.Accept
import Verif.Spec.Tree
import Verif.Spec.Covers
import Verif.Proofs.Parse
import Verif.Proofs.Accept
import Verif.Proofs.Tree
import Verif.Proofs.Covers
import Verif.Proofs.Tiling
import Verif.Props.Examples
import Verif.Props.Entry
import Verif.Props.Lexing
import Verif.Spec.Written
import Verif.Spec.Rel
import Verif.Proofs.Written
import Verif.Proofs.Rel
import Verif.Props.Tree
import Verif.Props.Settings
import Verif.Props.Locations
import Verif.Spec.Objects
import Verif.Proofs.Objects
import Verif.Props.Objects
import Verif.Props.Api
import Verif.Props.Visitors
import Verif.Spec.Validation
import Verif.Proofs.Validation
import Verif.Props.Validation
import Verif.Spec.Parents
import Verif.Props.Parents
import Verif.Props.Errors
import Verif.Spec.Py
import Verif.Proofs.Py
import Verif.Proofs.Str
import Verif.Props.Str
import Verif.Spec.Layout
import Verif.Proofs.Layout
import Verif.Proofs.Relabel
import Verif.Props.Layout
import Verif.Proofs.Subtree
import Verif.Props.Grammar
import Verif.Proofs.Compose
import Verif.Proofs.Best
import Verif.Proofs.BestQuery
import Verif.Proofs.Join
import Verif.Props.Compose
import Verif.Props.Grouping
import Verif.Spec.Precedence
import Verif.Proofs.Least
import Verif.Proofs.Precedence
import Verif.Proofs.Beaten
import Verif.Proofs.Bracket
import Verif.Props.Precedence
import Verif.Spec.Print
import Verif.Proofs.Print
import Verif.Proofs.PrintExpr
import Verif.Proofs.PrintQuery
import Verif.Proofs.Inj
import Verif.Proofs.Image
import Verif.Props.RoundTrip
import Verif.Model.Atn
import Verif.Model.ParserAtnData
import Verif.Model.LexerAtnData
import Verif.Model.GenParser
import Verif.Model.ParserCode
import Verif.Spec.Atn
import Verif.Spec.GenParser
import Verif.Spec.LexNet
import Verif.Proofs.AtnSeg
import Verif.Proofs.Atn
import Verif.Proofs.GenParser
import Verif.Proofs.GenHalt
import Verif.Proofs.GenCheck
import Verif.Proofs.GenRun
import Verif.Proofs.LexNet
import Verif.Proofs.LexNetSplits
import Verif.Props.Generated
import Verif.Model.Accessors
import Verif.Model.History
import Verif.Spec.Nodes
import Verif.Spec.History
import Verif.Proofs.Environment
import Verif.Props.Nodes
import Verif.Props.History
import Verif.Props.Aggregate
import Verif.Props.Environment
import Verif.Model.Contexts
import Verif.Model.ContextData
import Verif.Spec.Contexts
import Verif.Proofs.Contexts
import Verif.Props.Contexts
import Verif.Spec.Shift
import Verif.Proofs.Shift
import Verif.Proofs.Fragments
import Verif.Proofs.LaidAt
import Verif.Proofs.FragmentsExpr
import Verif.Props.Fragments
import Verif.Spec.Placed
import Verif.Props.Placed
import Verif.Tests.Regression
import Verif.Tests.Validation
import Verif.Spec.PlacedIssues
import Verif.Props.ValidateCombined
import Verif.Props.ValidateOptions
import Verif.Spec.Depth
import Verif.Model.Recursion
import Verif.Proofs.Recursion
import Verif.Proofs.NegatedOr
import Verif.Proofs.Depth
import Verif.Proofs.NodeHeight
import Verif.Props.Depth
import Verif.Spec.Spelling
import Verif.Proofs.Spelling
import Verif.Props.Spelling
import Verif.Spec.CustomValidators
import Verif.Proofs.CustomValidators
import Verif.Props.CustomValidators
import Verif.Spec.Blanked
import Verif.Proofs.Blanked
import Verif.Props.Blanked
import Verif.Props.Exact
import Verif.Model.TreeBuilder
import Verif.Proofs.TreeBuilder
import Verif.Props.TreeBuilder
import Verif.Props.Pipeline
import Verif.Model.Recovery
import Verif.Spec.Recovery
import Verif.Proofs.Recovery
import Verif.Proofs.Look
import Verif.Proofs.RecoveryScan
import Verif.Proofs.RecoveryHalt
import Verif.Proofs.RecoveryCode
import Verif.Props.Recovery
import Verif.Spec.FirstError
import Verif.Proofs.FirstError
import Verif.Proofs.FirstErrorText
import Verif.Proofs.Adjacent
import Verif.Props.FirstError
import Verif.Model.AntlrParse
import Verif.Props.AntlrParse
import Verif.Spec.Records
import Verif.Props.Records
import Verif.Model.Cache
import Verif.Spec.Cache
import Verif.Proofs.Cache
import Verif.Props.Cache
import Verif.Props.Defaults
import Verif.Model.Marked
import Verif.Spec.Marked
import Verif.Proofs.Marked
import Verif.Props.RawTree
import Verif.Spec.TreeText
import Verif.Proofs.TreeText
import Verif.Model.RunParse
import Verif.Props.TreeText
import Verif.Spec.Complaint
import Verif.Proofs.Complaint
import Verif.Props.Complaint
import Verif.Model.Adaptive
import Verif.Spec.Adaptive
import Verif.Proofs.Adaptive
import Verif.Proofs.AdaptivePredict
import Verif.Proofs.AdaptiveCode
import Verif.Props.Adaptive
import Verif.Spec.AntlrStrategy
import Verif.Proofs.NeverLate
import Verif.Proofs.AdaptiveFail
import Verif.Proofs.AdaptiveRecovery
import Verif.Props.NeverLate
import Verif.Props.EarlyError
import Verif.Spec.NodeText
import Verif.Props.StrFormat
import Verif.Model.ErrorStrategy
import Verif.Spec.Messages
import Verif.Proofs.ErrorStrategy
import Verif.Proofs.ErrorStrategyRun
import Verif.Proofs.ErrorStrategySeen
import Verif.Proofs.ErrorStrategyEnds
import Verif.Proofs.ErrorStrategyForm
import Verif.Proofs.ErrorStrategyOrder
import Verif.Proofs.ErrorStrategyFirst
import Verif.Props.Messages
import Verif.Proofs.FewReports
import Verif.Props.FewErrors
import Verif.Props.Helpful
import Verif.Model.LexerSim
import Verif.Model.LexerCache
import Verif.Spec.Place
import Verif.Spec.LexerSim
import Verif.Proofs.LexerSim
import Verif.Proofs.LexerSimTab
import Verif.Proofs.LexerSimRun
import Verif.Proofs.LexerSimAll
import Verif.Proofs.LexerCache
import Verif.Props.LexerRun
import Verif.Model.Program
import Verif.Spec.Program
import Verif.Proofs.ProgramFetch
import Verif.Proofs.ProgramSim
import Verif.Proofs.ProgramRun
import Verif.Props.Program
import Verif.Model.Process
import Verif.Spec.Process
import Verif.Proofs.Process
import Verif.Proofs.ProcessRun
import Verif.Props.Process
import Verif.Spec.Census
import Verif.Proofs.Census
import Verif.Props.Census
import Verif.Model.Debug
import Verif.Spec.Debug
import Verif.Proofs.Debug
import Verif.Props.Debug
import Verif.Model.Registry
import Verif.Spec.Registry
import Verif.Props.Registry
import Verif.Model.Work
import Verif.Proofs.Work
import Verif.Spec.Work
import Verif.Proofs.Predictions
import Verif.Proofs.PredictionCount
import Verif.Props.Work
import Verif.Model.Faults
import Verif.Spec.Faults
import Verif.Proofs.Faults
import Verif.Proofs.FaultBuilder
import Verif.Props.Faults
import Verif.Model.FaultsApi
import Verif.Props.FaultsApi
import Verif.Spec.Pending
import Verif.Proofs.PendingScan
import Verif.Proofs.PendingStep
import Verif.Proofs.Pending
import Verif.Proofs.PendingHeight
import Verif.Props.Pending
import Verif.Model.ErrorWork
import Verif.Proofs.ErrorWorkScan
import Verif.Proofs.ErrorWork
import Verif.Proofs.ErrorWorkTables
import Verif.Proofs.ErrorWorkRun
import Verif.Props.ErrorWork
import Verif.Spec.Memory
import Verif.Proofs.CacheGrowth
import Verif.Proofs.CacheKeys
import Verif.Proofs.LexerStates
import Verif.Props.Memory
import Verif.Model.ErrorTree
import Verif.Spec.ErrorTree
import Verif.Proofs.ErrorTree
import Verif.Props.ErrorTree
import Verif.Spec.Conform
import Verif.Proofs.Conform
import Verif.Props.Conform
