import Verif.Model.Basic
import Verif.Model.Flags
import Verif.Model.Ops
import Verif.Model.Parse
import Verif.Model.Flavour
import Verif.Model.Debug
import Verif.Model.Prog
import Verif.Model.Cpu
import Verif.Model.Exec
import Verif.Model.Internal
import Verif.Model.Decode
import Verif.Model.Instr
import Verif.Model.Run
import Verif.Model.Host
import Verif.Spec.Decode
import Verif.Spec.Alu
import Verif.Spec.Machine
import Verif.Spec.Control
import Verif.Spec.Length
import Verif.Proofs.Attr
import Verif.Proofs.Fin
import Verif.Proofs.Kit
import Verif.Proofs.Alu
import Verif.Proofs.Abs
import Verif.Proofs.Decode
import Verif.Proofs.Sim
import Verif.Proofs.Sim0
import Verif.Proofs.SimE
import Verif.Proofs.SimX
import Verif.Proofs.Step
import Verif.Proofs.Walk
import Verif.Proofs.Pres
import Verif.Proofs.Ctl
import Verif.Proofs.Runs
import Verif.Proofs.Api
import Verif.Proofs.Rel
import Verif.Proofs.Limit
import Verif.Proofs.Hist
import Verif.Proofs.Demo
import Verif.Props.Alu
import Verif.Props.Refine
import Verif.Props.State
import Verif.Props.Control
import Verif.Proofs.Nexts
import Verif.Proofs.Cause
import Verif.Proofs.Fuel
import Verif.Props.Limit
import Verif.Proofs.Break
import Verif.Proofs.Quiet
import Verif.Proofs.Record
import Verif.Props.Host
import Verif.Props.Record
import Verif.Proofs.Ram
import Verif.Props.Stack
import Verif.Props.Int
import Verif.Proofs.Block
import Verif.Props.Block
import Verif.Spec.Bus
import Verif.Spec.Calls
import Verif.Spec.Path
import Verif.Spec.Timing
import Verif.Proofs.AttrProg
import Verif.Proofs.Prog
import Verif.Proofs.Drive0
import Verif.Proofs.DriveE
import Verif.Proofs.DriveX
import Verif.Proofs.Drive
import Verif.Proofs.Path
import Verif.Proofs.Timing
import Verif.Props.Bus
import Verif.Spec.Writes
import Verif.Proofs.Writes
import Verif.Props.Write
import Verif.Spec.Wz
import Verif.Proofs.Wz
import Verif.Props.Wz
import Verif.Spec.Variant
import Verif.Proofs.Variant
import Verif.Props.Variant
import Verif.Model.Clock
import Verif.Spec.Clock
import Verif.Spec.Prefix
import Verif.Proofs.Pfx
import Verif.Props.Clock
import Verif.Props.Prefix
import Verif.Model.Any
import Verif.Props.Any
import Verif.Props.Decode
import Verif.Model.Disasm
import Verif.Spec.Listing
import Verif.Proofs.Disasm
import Verif.Props.Disasm
import Verif.Model.Serde
import Verif.Proofs.Serde
import Verif.Props.Serde
import Verif.Spec.Asm
import Verif.Proofs.Rep
import Verif.Props.Asm
import Verif.Model.Fmt
import Verif.Spec.Text
import Verif.Proofs.Text
import Verif.Props.Text
import Verif.Spec.Pace
import Verif.Proofs.Marks
import Verif.Proofs.Pace
import Verif.Proofs.Lap
import Verif.Props.Pace
import Verif.Model.Forward
import Verif.Proofs.Deaf
import Verif.Props.Forward
import Verif.Proofs.Slice
import Verif.Props.Slice
import Verif.Spec.Access
import Verif.Proofs.Executed
import Verif.Props.Executed
import Verif.Props.Transfer
import Verif.Spec.Transparent
import Verif.Proofs.Like
import Verif.Props.Transparent
import Verif.Spec.Frame
import Verif.Proofs.Frame
import Verif.Props.Frame
import Verif.Model.RalMemory
import Verif.Spec.RalMemory
import Verif.Proofs.RalMemory
import Verif.Props.RalMemory
import Verif.Model.RalBus
import Verif.Model.RalCtc
import Verif.Model.RalPio
import Verif.Model.RalTrigger
import Verif.Model.RalBoard
import Verif.Spec.RalChain
import Verif.Proofs.RalChain
import Verif.Proofs.RalVector
import Verif.Props.RalChain
import Verif.Spec.RalTimer
import Verif.Spec.RalCounter
import Verif.Spec.RalPio
import Verif.Proofs.RalTimer
import Verif.Proofs.RalHint
import Verif.Proofs.RalCounter
import Verif.Props.RalTimer
import Verif.Props.RalHint
import Verif.Props.RalCounter
import Verif.Props.RalPio
import Verif.Model.RalMachine
import Verif.Spec.RalFrame
import Verif.Proofs.RalFrame
import Verif.Props.RalFrame
import Verif.Spec.RalSafe
import Verif.Proofs.RalSafe
import Verif.Proofs.RalRun
import Verif.Props.RalSafe
import Verif.Model.OpConsts
import Verif.Spec.CallRet
import Verif.Proofs.CallRet
import Verif.Props.CallRet
import Verif.Model.RalDebug
import Verif.Proofs.RalDebug
import Verif.Props.RalBreak
import Verif.Proofs.RalStep
import Verif.Props.RalStep
import Verif.Props.RalPreview
import Verif.Spec.Hidden
import Verif.Proofs.Hidden
import Verif.Props.Hidden
import Verif.Model.RalThread
import Verif.Props.RalThread
import Verif.Props.RalSession
import Verif.Spec.RalWrap
import Verif.Proofs.RalWrap
import Verif.Props.RalWrap
import Verif.Spec.Shuffle
import Verif.Proofs.Routine
import Verif.Proofs.ShuffleSelect
import Verif.Proofs.ShuffleInsert
import Verif.Proofs.ShuffleBoot
import Verif.Props.Shuffle
import Verif.Proofs.RoutineMore
import Verif.Proofs.ShuffleMul
import Verif.Proofs.ShufflePrint
import Verif.Proofs.ShuffleOut
import Verif.Proofs.ShuffleTimes
import Verif.Props.ShuffleMul
import Verif.Spec.Example
import Verif.Proofs.Example
import Verif.Props.Example
import Verif.Spec.Wide
import Verif.Proofs.Wide
import Verif.Props.Wide
import Verif.Spec.Mirror
import Verif.Proofs.Mirror
import Verif.Props.Mirror
import Verif.Model.RalScreen
import Verif.Spec.Screen
import Verif.Proofs.Screen
import Verif.Props.Screen
import Verif.Spec.Alike
import Verif.Proofs.Alike
import Verif.Props.Alike
import Verif.Spec.Clockwork
import Verif.Proofs.Keep
import Verif.Proofs.AlikeLimit
import Verif.Props.AlikeLimit
import Verif.Model.RalRunner
import Verif.Spec.RalRunner
import Verif.Proofs.RalRunner
import Verif.Proofs.RalRunnerDue
import Verif.Props.RalRunner
import Verif.Spec.Synonym
import Verif.Proofs.SynonymText
import Verif.Proofs.SynonymTable
import Verif.Proofs.Synonym
import Verif.Props.Synonym
import Verif.Props.FastForward
import Verif.Props.ForcedHalt
import Verif.Proofs.ShuffleQuickRun
import Verif.Proofs.ShuffleQuick
import Verif.Proofs.ShuffleQuickSort
import Verif.Proofs.ShuffleQuickDeep
import Verif.Proofs.ShuffleQuickDownRun
import Verif.Proofs.ShuffleQuickDown
import Verif.Proofs.ShuffleQuickDownSort
import Verif.Proofs.ShuffleQuickDownDeep
import Verif.Props.ShuffleQuick
import Verif.Spec.Shuffled
import Verif.Proofs.ShuffleRandom
import Verif.Proofs.ShuffleRandomRun
import Verif.Proofs.ShufflePeriod
import Verif.Proofs.ShuffleShuffle
import Verif.Proofs.ShuffleDraw
import Verif.Proofs.ShuffleLoop
import Verif.Props.Shuffled
import Verif.Model.RalTerminal
import Verif.Spec.RalTerminal
import Verif.Proofs.RalTerminal
import Verif.Props.RalTerminal
import Verif.Model.Embedded
import Verif.Proofs.Embedded
import Verif.Props.Embedded
import Verif.Spec.RalRom
import Verif.Proofs.RalRom
import Verif.Proofs.RalRomInput
import Verif.Proofs.RalRomOutput
import Verif.Props.RalRom
import Verif.Spec.RalRomCall
import Verif.Proofs.RalRomCall
import Verif.Props.RalRomCall
import Verif.Proofs.RalRomSend
import Verif.Props.RalRomSend
