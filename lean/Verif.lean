import Verif.Base.CStr
import Verif.Base.Mem
import Verif.Base.Outcome
import Verif.Lemmas.Calendar
import Verif.Lemmas.Chunks
import Verif.Lemmas.Float
import Verif.Lemmas.Fs
import Verif.Lemmas.Mem
import Verif.Lemmas.Owner
import Verif.Lemmas.OwnerEnds
import Verif.Lemmas.OwnerHeap
import Verif.Lemmas.OwnerLib
import Verif.Lemmas.Release
import Verif.Lemmas.Scarce
import Verif.Lemmas.Str
import Verif.Lemmas.StrMore
import Verif.Lemmas.StrOps
import Verif.Lemmas.StrQuery
import Verif.Lemmas.StrSplit
import Verif.Lemmas.StrStep
import Verif.Lemmas.Text
import Verif.Lemmas.Vec
import Verif.Lemmas.VecStep
import Verif.Model.Alias
import Verif.Model.AliasFormat
import Verif.Model.AliasText
import Verif.Model.Align
import Verif.Model.ApplyAny
import Verif.Model.ArgOpt
import Verif.Model.ArgShared
import Verif.Model.Conv
import Verif.Model.ConvFloat
import Verif.Model.Ctype
import Verif.Model.Datagram
import Verif.Model.DateDiff
import Verif.Model.DateTime
import Verif.Model.FileIo
import Verif.Model.FloatCmp
import Verif.Model.Foreach
import Verif.Model.FormatCalls
import Verif.Model.Fs
import Verif.Model.Handles
import Verif.Model.Log
import Verif.Model.LogCode
import Verif.Model.Macros
import Verif.Model.MalPrint
import Verif.Model.Malloc
import Verif.Model.Mallocator
import Verif.Model.Math
import Verif.Model.MathFloat
import Verif.Model.MathNormal
import Verif.Model.MathReal
import Verif.Model.NullArgs
import Verif.Model.Owner
import Verif.Model.OwnerArg
import Verif.Model.OwnerLib
import Verif.Model.OwnerMem
import Verif.Model.OwnerProg
import Verif.Model.PathFs
import Verif.Model.PathText
import Verif.Model.Plist
import Verif.Model.Poll
import Verif.Model.Printf
import Verif.Model.Query
import Verif.Model.Race
import Verif.Model.RemoveCode
import Verif.Model.Small
import Verif.Model.SocketFlow
import Verif.Model.Sockets
import Verif.Model.SpanTyped
import Verif.Model.Str
import Verif.Model.Threads
import Verif.Model.VaList
import Verif.Model.Vec
import Verif.Model.VecFind
import Verif.Props.Alias
import Verif.Props.AliasFormat
import Verif.Props.AliasText
import Verif.Props.Align
import Verif.Props.AnyBuild
import Verif.Props.ApplyAny
import Verif.Props.ArgExact
import Verif.Props.ArgOpt
import Verif.Props.ArgOrder
import Verif.Props.ArgShared
import Verif.Props.BadArgs
import Verif.Props.Capacity
import Verif.Props.Carmack
import Verif.Props.CarmackReal
import Verif.Props.CloseNeg
import Verif.Props.Conv
import Verif.Props.ConvFloat
import Verif.Props.Ctype
import Verif.Props.Datagram
import Verif.Props.DateDiff
import Verif.Props.DateNow
import Verif.Props.DateOrder
import Verif.Props.DateSum
import Verif.Props.DateText
import Verif.Props.DateTime
import Verif.Props.DateYears
import Verif.Props.DateZone
import Verif.Props.Ends
import Verif.Props.FileIo
import Verif.Props.FileTree
import Verif.Props.FileTreeMore
import Verif.Props.FloatCmp
import Verif.Props.Foreach
import Verif.Props.ForeachEnds
import Verif.Props.FormatCalls
import Verif.Props.GcdSign
import Verif.Props.Growth
import Verif.Props.Handles
import Verif.Props.HandlesProg
import Verif.Props.Inverse
import Verif.Props.Invocation
import Verif.Props.Iter
import Verif.Props.Lines
import Verif.Props.ListExact
import Verif.Props.Log
import Verif.Props.LogLines
import Verif.Props.Macros
import Verif.Props.MalForeign
import Verif.Props.MalPrint
import Verif.Props.Malloc
import Verif.Props.Mallocator
import Verif.Props.Math
import Verif.Props.MathFloat
import Verif.Props.MathNormal
import Verif.Props.MathRandom
import Verif.Props.MathReal
import Verif.Props.NormalEnds
import Verif.Props.NullArgs
import Verif.Props.Occurrences
import Verif.Props.Owner
import Verif.Props.OwnerArg
import Verif.Props.OwnerLib
import Verif.Props.OwnerMem
import Verif.Props.OwnerProg
import Verif.Props.PathAny
import Verif.Props.PathFs
import Verif.Props.PathMore
import Verif.Props.PathNames
import Verif.Props.PathOps
import Verif.Props.PathText
import Verif.Props.Plist
import Verif.Props.Pointers
import Verif.Props.Poll
import Verif.Props.Printf
import Verif.Props.Query
import Verif.Props.Race
import Verif.Props.RaceMore
import Verif.Props.RandomPeriod
import Verif.Props.Release
import Verif.Props.RemoveCode
import Verif.Props.ReplaceLast
import Verif.Props.RmdirAny
import Verif.Props.RmdirExact
import Verif.Props.Scarce
import Verif.Props.Slides
import Verif.Props.Slots
import Verif.Props.Small
import Verif.Props.SocketFlow
import Verif.Props.SocketHuge
import Verif.Props.Sockets
import Verif.Props.SpanTyped
import Verif.Props.StrEdit
import Verif.Props.StrFormat
import Verif.Props.StrQuery
import Verif.Props.Threads
import Verif.Props.Utf8
import Verif.Props.VaList
import Verif.Props.Vec
import Verif.Props.VecFind
import Verif.Spec.ArgOpt
import Verif.Spec.Calendar
import Verif.Spec.Decimal
import Verif.Spec.Float
import Verif.Spec.FloatBits
import Verif.Spec.Fs
import Verif.Spec.Numeral
import Verif.Spec.OwnerLib
import Verif.Spec.Plist
import Verif.Spec.Seq
import Verif.Spec.Text
import Verif.Spec.TextOps
import Verif.Spec.Tree
import Verif.Spec.TreeMore
import Verif.Spec.VaList
import Verif.Spec.VecAbs
import Verif.Tests.Args
import Verif.Tests.Basic
import Verif.Tests.Files
import Verif.Tests.Output
import Verif.Tests.Plist
import Verif.Tests.Small
import Verif.Tests.Str
import Verif.Tests.Time
import Verif.Tests.Vec
