import Verif.Syntax
import Verif.Nesting
import Verif.NestingThms
import Verif.Interface
import Verif.Passes
import Verif.OpTypes
import Verif.Expand
import Verif.PassLemmas
import Verif.PassCompose
import Verif.PassSpec
import Verif.PassThms
import Verif.Semantics
import Verif.Interpose
import Verif.InterposeLemmas
import Verif.BrTable
import Verif.StackHooks
import Verif.Instrument
import Verif.InstrumentLemmas
import Verif.ApplyLemmas
import Verif.InstrumentDesc
import Verif.Machine
import Verif.InstrumentThms
import Verif.MemoryThms
import Verif.Typing
import Verif.TypingLemmas
import Verif.ValidityThms
import Verif.Sim
import Verif.Settle
import Verif.StepSim
import Verif.Forward
import Verif.CallSim
import Verif.TransparencyThms
import Verif.Stdlib
import Verif.StdlibThms
import Verif.ShippedForward
import Verif.HookThms
import Verif.StackLib
import Verif.StackNames
import Verif.StackExec
import Verif.StackCalls
import Verif.StackThms
import Verif.RuntimeValues
import Verif.ApplyRun
import Verif.ApplyLink
import Verif.ApplyThms
import Verif.Keeps
import Verif.Balance
import Verif.BalanceThms
import Verif.Purity
import Verif.PurityLemmas
import Verif.PurityThms
import Verif.Merge
import Verif.MergeThms
import Verif.Hooks
import Verif.SelectionThms
import Verif.Alphabetic
import Verif.Wasp
import Verif.WaspThms
import Verif.Resume
import Verif.ResumeThms
import Verif.SrcLib
import Verif.RustLib
import Verif.AsLib
import Verif.SrcNames
import Verif.Face
import Verif.FaceWat
import Verif.SrcExec
import Verif.RustExec
import Verif.FaceRust
import Verif.AsExec
import Verif.FaceAs
import Verif.FaceThms
import Verif.SrcThms
import Verif.NullThms
import Verif.Steady
import Verif.Memo
import Verif.MemoLemmas
import Verif.MemoSim
import Verif.MemoThms
import Verif.AdviceThms
import Verif.Watch
import Verif.WatchThms
import Verif.Watchers
import Verif.WatchersThms
import Verif.Trace
import Verif.TraceThms
import Verif.Judge
import Verif.Gate
import Verif.PanicThms
import Verif.MemWatchers
import Verif.ExMem
import Verif.MemWatchThms
import Verif.MemStatsThms
import Verif.ExHeap
import Verif.SafeHeap
import Verif.SafeHeapThms
import Verif.Revise
import Verif.Denan
import Verif.ReviseHooks
import Verif.ForwardThms
import Verif.ExNan
import Verif.DenanThms
import Verif.WaspText
import Verif.WaspSpell
import Verif.WaspParse
import Verif.WaspRead
import Verif.WaspGrammar
import Verif.WaspTextThms
import Verif.WatValid
import Verif.Tell
import Verif.TellSim
import Verif.TellTrack
import Verif.TellThms
import Verif.TellStack
import Verif.Taint
import Verif.TaintThms
import Verif.NumSpec
import Verif.Native
import Verif.NativeLemmas
import Verif.NativeFloats
import Verif.NativeThms
import Verif.AsValues
import Verif.AsThms
import Verif.WaspTell
import Verif.WaspCount
import Verif.SigCheck
import Verif.Weave
import Verif.WeaveThms
import Verif.SwapThms
import Verif.SwapAll
import Verif.CheckedThms
import Verif.CallScripts
import Verif.CallScriptsThms
import Verif.Cases
import Verif.MoreCases
import Verif.PurityTool
import Verif.CommandLine
import Verif.StandardArithmetic
import Verif.WaspKeeps
import Verif.CommandWatch
import Verif.Report
import Verif.ReportThms
import Verif.Logging
import Verif.LogText
import Verif.LoggingThms
import Verif.Again
import Verif.WaspFiles
import Verif.LoggingApply
import Verif.LoggingWhole
import Verif.CommandLog
import Verif.CommandSwap
import Verif.CommandOffsets
import Verif.WaspForward
import Verif.IcountThms
import Verif.TaintFlow
import Verif.WaspLibs
import Verif.TaintMemory
import Verif.TaintCalls
