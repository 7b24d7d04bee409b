import Verif.Base.Str
import Verif.Base.F64
import Verif.Model.Value
import Verif.Model.Utils
import Verif.Model.Arithmetic
import Verif.Model.Logical
import Verif.Model.Array
import Verif.Model.StringFns
import Verif.Model.JsonFns
import Verif.Model.Statistical
import Verif.Model.Financial
import Verif.Model.DateTime
import Verif.Model.Dispatch
import Verif.Base.KernelRfl
import Verif.Model.Expr
import Verif.Model.Registry
import Verif.Model.Ops
import Verif.Model.Closure
import Verif.Model.Methods
import Verif.Model.Legacy
import Verif.Model.Eval
import Verif.Model.Lexer
import Verif.Model.Parser
import Verif.Model.Lib
import Verif.Lemmas.LexFuel
import Verif.Lemmas.ParseFuel
import Verif.Lemmas.ParseMono
import Verif.Spec.Syntax
import Verif.Lemmas.ParsePrint
import Verif.Spec.Binary64
import Verif.Spec.Text
import Verif.Lemmas.Round
import Verif.Lemmas.LexText
import Verif.Lemmas.ParsePos
import Verif.Lemmas.Front
import Verif.Props.Parsing
import Verif.Props.Syntax
import Verif.Lemmas.F64Order
import Verif.Lemmas.EvalBasic
import Verif.Props.Entry
import Verif.Props.EntryLambda
import Verif.Props.Control
import Verif.Lemmas.Loops
import Verif.Lemmas.Sim
import Verif.Lemmas.SimCall
import Verif.Spec.Names
import Verif.Props.Lambda
import Verif.Props.Independence
import Verif.Props.Forms
import Verif.Props.Custom
import Verif.Spec.Call
import Verif.Props.Indexing
import Verif.Props.Arrays
import Verif.Props.Strings
import Verif.Lemmas.Double
import Verif.Props.Casts
import Verif.Props.Logic
import Verif.Props.Aggregates
import Verif.Props.OrderStats
import Verif.Props.JsonDocs
import Verif.Lemmas.Calendar
import Verif.Props.Calendar
import Verif.Props.Loans
import Verif.Model.ConcurrentRegistry
import Verif.Props.JsonVars
import Verif.Props.Registries
import Verif.Model.Locks
import Verif.Props.Deadlock
import Verif.Model.MemoryPool
import Verif.Props.MemoryPool
import Verif.Model.HttpCache
import Verif.Model.Http
import Verif.Props.Cache
import Verif.Props.CacheKeys
import Verif.Props.CacheTransparent
import Verif.Props.HttpAuth
import Verif.Props.HttpFiles
import Verif.Props.HttpVars
import Verif.Props.HttpForms
import Verif.Model.HttpRead
import Verif.Model.TcpServer
import Verif.Lemmas.Utf8
import Verif.Props.HttpRead
import Verif.Props.TcpServer
import Verif.Model.Cli
import Verif.Props.Cli
import Verif.Props.FrontEnds
import Verif.Lemmas.Quiet
import Verif.Props.Panics
import Verif.Props.Registration
import Verif.Props.Conversions
import Verif.Props.Numbers
import Verif.Props.Texts
import Verif.Props.Predicates
import Verif.Props.ConvMethods
import Verif.Props.JsonMethods
import Verif.Props.Runtime
import Verif.Props.Grammar
import Verif.Props.Joining
import Verif.Props.Powers
import Verif.Props.Depreciation
import Verif.Props.Client
import Verif.Props.Stats
import Verif.Props.Output
import Verif.Props.JsValues
import Verif.Props.Positions
import Verif.Props.Startup
import Verif.Props.HttpWrite
import Verif.Props.Workers
import Verif.Props.AggregateMethods
import Verif.Props.Extensions
import Verif.Props.ArithOps
import Verif.Props.SumError
import Verif.Model.HttpList
import Verif.Props.HttpList
import Verif.Props.Monotone
import Verif.Props.RoundDecimals
import Verif.Props.HttpQuery
import Verif.Props.Replace
import Verif.Props.Aliases
import Verif.Model.HttpBody
import Verif.Props.HttpBody
import Verif.Props.Reported
import Verif.Model.FileSteps
import Verif.Props.FileSteps
import Verif.Props.Jq
import Verif.Model.Daemon
import Verif.Props.Daemon
import Verif.Props.HttpRoutes
import Verif.Props.Types
import Verif.Props.Order
import Verif.Lemmas.DebugText
import Verif.Props.PlainOutput
import Verif.Model.Utf8
import Verif.Model.Bench
import Verif.Props.Bench
import Verif.Model.ClientBench
import Verif.Props.ClientBench
import Verif.Spec.Rename
import Verif.Lemmas.Rename
import Verif.Props.Rename
import Verif.Props.Pieces
import Verif.Props.HttpJsBody
import Verif.Props.FileStore
import Verif.Props.Missing
import Verif.Model.Effects
import Verif.Spec.Effects
import Verif.Lemmas.EffectsPure
import Verif.Lemmas.EffectsCalls
import Verif.Lemmas.EffectsOrder
import Verif.Props.Effects
import Verif.Model.Live
import Verif.Spec.Live
import Verif.Lemmas.Live
import Verif.Props.Live
import Verif.Spec.EffectRuns
import Verif.Lemmas.EffectRuns
import Verif.Props.EffectRuns
import Verif.Model.Health
import Verif.Props.Health
import Verif.Props.Laws
import Verif.Props.MethodLaws
import Verif.Props.Hoist
import Verif.Props.HoistDot
import Verif.Props.Cases
import Verif.Props.Console
import Verif.Props.TokenSecrecy
import Verif.Model.HttpReplies
import Verif.Props.HttpReplies
import Verif.Props.HttpReplyDocs
import Verif.Props.HttpReasons
import Verif.Model.JsonText
import Verif.Spec.JsonText
import Verif.Lemmas.JsonTokens
import Verif.Lemmas.JsonNumbers
import Verif.Lemmas.JsonGrammar
import Verif.Lemmas.JsonPrint
import Verif.Props.JsonText
import Verif.Model.Wire
import Verif.Props.Wire
import Verif.Props.WireLines
import Verif.Model.HttpWire
import Verif.Props.HttpWire
import Verif.Props.HttpWireGet
import Verif.Model.BenchWire
import Verif.Props.BenchWire
import Verif.Props.JsFile
import Verif.Props.Deploy
import Verif.Props.Guide
import Verif.Props.ObjectLiterals
import Verif.Props.Reference
import Verif.Spec.JsonPath
import Verif.Props.JsonPath
import Verif.Spec.NumText
import Verif.Lemmas.NumText
import Verif.Props.NumText
import Verif.Model.JsonRead
import Verif.Spec.JsonRead
import Verif.Lemmas.JsonRead
import Verif.Lemmas.JsonReadLong
import Verif.Props.JsonRead
import Verif.Model.JsonPretty
import Verif.Props.JsonPretty
import Verif.Props.Sizes
import Verif.Model.Stack
import Verif.Model.StackEval
import Verif.Lemmas.StackFit
import Verif.Lemmas.StackRoom
import Verif.Lemmas.StackLess
import Verif.Props.Stack
import Verif.Props.StackEval
import Verif.Props.HttpGet
import Verif.Model.Rates
import Verif.Props.Rates
import Verif.Model.TimedCache
import Verif.Props.SavedTime
import Verif.Props.OpenApi
import Verif.Props.VarianceError
import Verif.Props.ProductError
import Verif.Props.PercentileError
import Verif.Spec.OpenApi
import Verif.Check.RepoTests
import Verif.Check.DocExamples
import Verif.Check.UnitTests
import Verif.Props.Identities
import Verif.Props.ArrayLaws
import Verif.Props.TextLaws
import Verif.Props.RoundLaws
import Verif.Props.DateLaws
import Verif.Props.LogicLaws
import Verif.Props.SignLaws
import Verif.Props.LoanLaws
import Verif.Props.SliceLaws
import Verif.Props.ExtremeLaws
import Verif.Props.ExtremeLaws
