import Verif.Model.Basic
import Verif.Model.Scan
import Verif.Model.Tokenizer
import Verif.Spec.Brackets
import Verif.Spec.History
import Verif.Spec.Json
import Verif.Spec.Prefix
import Verif.Lemmas.Scan
import Verif.Lemmas.Start
import Verif.Lemmas.Inv
import Verif.Lemmas.SimdEq
import Verif.Lemmas.Light
import Verif.Lemmas.Doc
import Verif.Lemmas.Prefix
import Verif.Lemmas.Reset
import Verif.Props.Tokenizer
import Verif.Props.Simd
import Verif.Props.Document
import Verif.Props.Reset
import Verif.Model.Escape
import Verif.Spec.Unicode
import Verif.Lemmas.Escape
import Verif.Props.Escape
import Verif.Model.Number
import Verif.Spec.Decimal
import Verif.Lemmas.Number
import Verif.Props.Integer
import Verif.Lemmas.Keyword
import Verif.Model.Bool
import Verif.Props.Keyword
import Verif.Model.Serializer
import Verif.Spec.Value
import Verif.Lemmas.Serializer
import Verif.Props.Serializer
import Verif.Model.Handler
import Verif.Model.Struct
import Verif.Spec.Decode
import Verif.Lemmas.Deliver
import Verif.Lemmas.Handler
import Verif.Lemmas.Skip
import Verif.Lemmas.Struct
import Verif.Lemmas.Scope
import Verif.Spec.Parsing
import Verif.Lemmas.Parse
import Verif.Props.Scope
import Verif.Model.Types
import Verif.Spec.Types
import Verif.Lemmas.Types
import Verif.Lemmas.Members
import Verif.Spec.Access
import Verif.Lemmas.Access
import Verif.Props.Struct
import Verif.Spec.Encode
import Verif.Lemmas.Writes
import Verif.Lemmas.RoundTrip
import Verif.Props.RoundTrip
import Verif.Spec.Stringless
import Verif.Lemmas.Total
import Verif.Spec.Container
import Verif.Lemmas.Container
import Verif.Spec.Shape
import Verif.Lemmas.Shape
import Verif.Props.Container
import Verif.Model.Map
import Verif.Spec.Meta
import Verif.Lemmas.Meta
import Verif.Spec.Map
import Verif.Lemmas.Map
import Verif.Props.Map
import Verif.Model.Diff
import Verif.Spec.Diff
import Verif.Lemmas.Diff
import Verif.Props.Diff
import Verif.Model.Feed
import Verif.Spec.Cut
import Verif.Lemmas.Cut
import Verif.Lemmas.CutModel
import Verif.Lemmas.CutPlace
import Verif.Lemmas.CutRun
import Verif.Lemmas.CutFeed
import Verif.Lemmas.CutDoc
import Verif.Props.Cut
import Verif.Model.Call
import Verif.Model.CallReport
import Verif.Spec.Call
import Verif.Lemmas.Call
import Verif.Lemmas.CallRun
import Verif.Props.Call
import Verif.Props.CallReport
import Verif.Props.CallContext
import Verif.Props.TokenVector
import Verif.Props.Scanners
import Verif.Props.Strict
import Verif.Spec.Success
import Verif.Lemmas.Success
import Verif.Props.Success
import Verif.Model.Raw
import Verif.Spec.Raw
import Verif.Lemmas.Raw
import Verif.Lemmas.RawDoc
import Verif.Props.Raw
import Verif.Model.ErrorContext
import Verif.Spec.Report
import Verif.Lemmas.Report
import Verif.Props.Report
import Verif.Model.FloatTables
import Verif.Model.Float
import Verif.Spec.Float
import Verif.Lemmas.FloatShort
import Verif.Lemmas.FloatMul
import Verif.Lemmas.FloatScale
import Verif.Lemmas.FloatDecode
import Verif.Lemmas.FloatNear
import Verif.Lemmas.FloatPow
import Verif.Lemmas.FloatAny
import Verif.Lemmas.FloatDigits
import Verif.Lemmas.FloatValue
import Verif.Lemmas.FloatTrip
import Verif.Lemmas.FloatText
import Verif.Lemmas.FloatBack
import Verif.Lemmas.FloatIeee
import Verif.Lemmas.FloatRound
import Verif.Lemmas.FloatRead
import Verif.Props.Float
import Verif.Model.Float32
import Verif.Lemmas.FloatBig
import Verif.Lemmas.FloatUnits
import Verif.Lemmas.FloatInt
import Verif.Lemmas.FloatSingle
import Verif.Lemmas.FloatScan
import Verif.Lemmas.FloatNearest
import Verif.Lemmas.FloatBack32
import Verif.Lemmas.FloatSafe
import Verif.Props.Float32
import Verif.Model.FloatHandler
import Verif.Model.Time
import Verif.Lemmas.Time
import Verif.Props.Time
import Verif.Model.EnumNames
import Verif.Props.EnumNames
import Verif.Spec.DiffReport
import Verif.Lemmas.DiffReport
import Verif.Props.DiffReport
import Verif.Model.DiffNumber
import Verif.Spec.DiffNumber
import Verif.Lemmas.DiffNumber
import Verif.Props.DiffNumber
import Verif.Props.DiffLiteral
import Verif.Spec.Lenient
import Verif.Lemmas.Lenient
import Verif.Lemmas.LenientRun
import Verif.Lemmas.LenientDoc
import Verif.Props.Lenient
import Verif.Spec.Alike
import Verif.Lemmas.Alike
import Verif.Lemmas.AlikeText
import Verif.Props.Layout
import Verif.Props.Release
import Verif.Props.Sequence
import Verif.Props.Shortest
import Verif.Model.Output
import Verif.Lemmas.Output
import Verif.Props.Output
import Verif.Model.Message
import Verif.Props.Message
import Verif.Spec.Lines
import Verif.Lemmas.Lines
import Verif.Props.Lines
import Verif.Props.Written
import Verif.Props.Independent
import Verif.Props.Replace
import Verif.Lemmas.Beginning
import Verif.Lemmas.Follow
import Verif.Lemmas.FollowText
import Verif.Lemmas.Fuel
import Verif.Props.Beginning
import Verif.Props.Swallow
import Verif.Spec.Defined
import Verif.Spec.Gentle
import Verif.Lemmas.Defined
import Verif.Lemmas.FloatFree
import Verif.Props.Defined
import Verif.Model.MapMemory
import Verif.Spec.MapMemory
import Verif.Lemmas.MapMemory
import Verif.Props.MapMemory
import Verif.Model.EscapeMemory
import Verif.Model.Tuple
import Verif.Spec.WellEscaped
import Verif.Lemmas.EscapeMemory
import Verif.Props.EscapeMemory
import Verif.Props.Tuple
import Verif.Conformance.Basic
import Verif.Conformance.Tokenizer
import Verif.Conformance.Struct
import Verif.Conformance.Diff
import Verif.Conformance.Call
import Verif.Conformance.Map
import Verif.Conformance.Comments
import Verif.Model.MapWhole
import Verif.Spec.FirstChild
import Verif.Lemmas.FirstChild
import Verif.Props.FirstChild
import Verif.Spec.Options
import Verif.Props.Options
import Verif.Spec.Absent
import Verif.Props.Absent
import Verif.Model.Own
import Verif.Spec.Own
import Verif.Lemmas.Own
import Verif.Props.Own
import Verif.Spec.Codec
import Verif.Lemmas.Codec
import Verif.Props.Codec
import Verif.Model.RawType
import Verif.Spec.RawType
import Verif.Lemmas.Twin
import Verif.Lemmas.RawType
import Verif.Props.RawType
import Verif.Spec.Embed
import Verif.Lemmas.Embed
import Verif.Props.Embed
import Verif.Spec.Source
import Verif.Lemmas.Source
import Verif.Lemmas.SourceRaw
import Verif.Lemmas.SourceStruct
import Verif.Lemmas.SourceText
import Verif.Props.Source
import Verif.Spec.RawWritten
import Verif.Lemmas.RawWrites
import Verif.Lemmas.RawRound
import Verif.Props.RawRound
import Verif.Spec.Saved
import Verif.Lemmas.Saved
import Verif.Lemmas.SavedRead
import Verif.Props.Saved
import Verif.Model.Checked
import Verif.Spec.Checked
import Verif.Lemmas.Checked
import Verif.Props.Checked
import Verif.Spec.Evolve
import Verif.Lemmas.EvolveNumber
import Verif.Lemmas.Evolve
import Verif.Props.Evolve
import Verif.Spec.Edit
import Verif.Lemmas.Edit
import Verif.Props.Edit
import Verif.Props.RawAbsent
import Verif.Lemmas.MapWhole
import Verif.Props.MapWhole
import Verif.Lemmas.MapLast
import Verif.Props.MapLast
