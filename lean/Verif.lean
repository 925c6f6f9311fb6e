import Verif.Alias
import Verif.AliasFormat
import Verif.AliasNew
import Verif.AllocConstruct
import Verif.AllocHooks
import Verif.AllocTyped
import Verif.Base64
import Verif.Basic
import Verif.Charconv.Atof
import Verif.Charconv.Convert
import Verif.Charconv.Overflow
import Verif.Charconv.Read
import Verif.Charconv.ReadLemmas
import Verif.Charconv.Rhex
import Verif.Charconv.RhexF
import Verif.Charconv.Rtoa
import Verif.Charconv.ScanOne
import Verif.Charconv.Write
import Verif.Charconv.WriteLemmas
import Verif.Charconv.WriteLemmas2
import Verif.Charconv.Xtoa
import Verif.CtorDtor
import Verif.CtorDtor1
import Verif.Debug.Base64
import Verif.Debug.Base64Tables
import Verif.Debug.CtorDtor
import Verif.Debug.Enum
import Verif.Debug.MemRes
import Verif.Debug.MemUtil
import Verif.Debug.Read
import Verif.Debug.Search
import Verif.Debug.Spans
import Verif.Debug.Utf
import Verif.Debug.Views
import Verif.Debug.Write
import Verif.Dump
import Verif.Enum
import Verif.Error
import Verif.ErrorMacros
import Verif.FastFloat.Bigint
import Verif.FastFloat.Bigint32
import Verif.FastFloat.Compute
import Verif.FastFloat.DigitComp
import Verif.FastFloat.DigitComp32
import Verif.FastFloat.FromChars
import Verif.FastFloat.Parse
import Verif.FastFloat.ParseInt
import Verif.FastFloat.ParseOpts
import Verif.FastFloat.Table
import Verif.FastFloat.Wide
import Verif.Format
import Verif.FormatSpec
import Verif.IPow
import Verif.InplaceFunction
import Verif.MemRes
import Verif.MemUtil
import Verif.Props.Alias
import Verif.Props.AliasExact
import Verif.Props.AliasFormat
import Verif.Props.AliasLong
import Verif.Props.AliasNew
import Verif.Props.Alloc
import Verif.Props.AllocConstruct
import Verif.Props.AllocHooks
import Verif.Props.AllocTyped
import Verif.Props.Atof
import Verif.Props.Base64
import Verif.Props.Base64Exact
import Verif.Props.Bitmask
import Verif.Props.BitmaskExact
import Verif.Props.BitmaskRead
import Verif.Props.BitmaskRoundExact
import Verif.Props.Bulk
import Verif.Props.BulkExact
import Verif.Props.CharconvConvert
import Verif.Props.CharconvOverflow
import Verif.Props.CharconvRead
import Verif.Props.CharconvWrite
import Verif.Props.ConvertExact
import Verif.Props.CtorDtor
import Verif.Props.CtorDtor1
import Verif.Props.DebugBase64
import Verif.Props.DebugBase64Tables
import Verif.Props.DebugCtorDtor
import Verif.Props.DebugEnum
import Verif.Props.DebugMemRes
import Verif.Props.DebugMemUtil
import Verif.Props.DebugRead
import Verif.Props.DebugSearch
import Verif.Props.DebugSpans
import Verif.Props.DebugUtf
import Verif.Props.DebugViews
import Verif.Props.DebugWrite
import Verif.Props.DebuggerExact
import Verif.Props.Dump
import Verif.Props.DumpResume
import Verif.Props.DumpResumeExact
import Verif.Props.Enum
import Verif.Props.Error
import Verif.Props.ErrorMacros
import Verif.Props.ErrorScopes
import Verif.Props.FFBigCap
import Verif.Props.FFBigCap32
import Verif.Props.FFBigint
import Verif.Props.FFBigint32
import Verif.Props.FFBits
import Verif.Props.FFCell
import Verif.Props.FFCert
import Verif.Props.FFCompute
import Verif.Props.FFDigitComp
import Verif.Props.FFDigitComp32
import Verif.Props.FFFromChars
import Verif.Props.FFMantissa
import Verif.Props.FFMantissa32
import Verif.Props.FFParse
import Verif.Props.FFParseInt
import Verif.Props.FFParseOpts
import Verif.Props.FFProduct
import Verif.Props.FFResult
import Verif.Props.FFSwar
import Verif.Props.FFTable
import Verif.Props.FFTie
import Verif.Props.FFWide
import Verif.Props.FastFloat
import Verif.Props.FastFloat32
import Verif.Props.FastFloatBig
import Verif.Props.FastFloatBigCap
import Verif.Props.FastFloatChars
import Verif.Props.FastFloatFormats
import Verif.Props.FastFloatWide
import Verif.Props.FastFloatWideInt
import Verif.Props.FastFloatZero
import Verif.Props.Format
import Verif.Props.FormatAlign
import Verif.Props.FormatRead
import Verif.Props.FormatSpec
import Verif.Props.FpuRound
import Verif.Props.IPow
import Verif.Props.IeeeRound
import Verif.Props.InplaceExact
import Verif.Props.InplaceFunction
import Verif.Props.InplaceThrow
import Verif.Props.MemRes
import Verif.Props.MemUtil
import Verif.Props.MoreExact
import Verif.Props.MoreExact2
import Verif.Props.MoreExact3
import Verif.Props.MoreExact4
import Verif.Props.MoreExact5
import Verif.Props.MoreExact6
import Verif.Props.MoreExact7
import Verif.Props.Overflow
import Verif.Props.PadExact
import Verif.Props.PcgReach
import Verif.Props.ReadList
import Verif.Props.RealRoundTrip
import Verif.Props.Resources
import Verif.Props.Rhex
import Verif.Props.RhexExact
import Verif.Props.RhexF
import Verif.Props.Rng
import Verif.Props.RngExact
import Verif.Props.RngSeed
import Verif.Props.RngUniform
import Verif.Props.Room
import Verif.Props.Rtoa
import Verif.Props.ScanExact
import Verif.Props.ScanOne
import Verif.Props.Small
import Verif.Props.SmallExact
import Verif.Props.Span
import Verif.Props.SpanAssert
import Verif.Props.SpanSizes
import Verif.Props.StdCompat
import Verif.Props.SubstrCompare
import Verif.Props.SubstrMutate
import Verif.Props.SubstrSearch
import Verif.Props.SubstrSpans
import Verif.Props.SubstrSplit
import Verif.Props.SubstrTrim
import Verif.Props.SubstrView
import Verif.Props.TightPair
import Verif.Props.Utf
import Verif.Props.Views
import Verif.Props.XorshiftPeriod
import Verif.Props.Xtoa
import Verif.Resources
import Verif.RngSeed
import Verif.Small
import Verif.Small2
import Verif.Span
import Verif.SpanAssert
import Verif.SpanSizes
import Verif.Spec.Base64
import Verif.Spec.Base64Assert
import Verif.Spec.Decimal
import Verif.Spec.Error
import Verif.Spec.FloatText
import Verif.Spec.Format
import Verif.Spec.Fpu
import Verif.Spec.Ieee
import Verif.Spec.IntText
import Verif.Spec.Limbs
import Verif.Spec.Limbs32
import Verif.Spec.NumFormat
import Verif.Spec.Numeral
import Verif.Spec.RealDigits
import Verif.Spec.RealText
import Verif.Spec.Search
import Verif.Spec.StrtodText
import Verif.Spec.Token
import Verif.Spec.ViewCalls
import Verif.Spec.WideText
import Verif.Spec.Writer
import Verif.StdCompat
import Verif.Substr.Compare
import Verif.Substr.Loops
import Verif.Substr.Mutate
import Verif.Substr.RealSpanLemmas
import Verif.Substr.Search
import Verif.Substr.SearchLemmas
import Verif.Substr.Spans
import Verif.Substr.SpansLemmas
import Verif.Substr.Split
import Verif.Substr.SplitLemmas
import Verif.Substr.Trim
import Verif.Substr.View
import Verif.Substr.Views
import Verif.TightPair
import Verif.Utf
