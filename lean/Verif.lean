import Verif.Core.Align
import Verif.Core.Alu
import Verif.Core.Control
import Verif.Core.Datapath
import Verif.Core.Decode
import Verif.Core.Exception
import Verif.Core.Insn
import Verif.Core.Reach
import Verif.Core.Run
import Verif.Core.Rvfi
import Verif.Core.RvfiPort
import Verif.Core.Top
import Verif.Core.Traffic
import Verif.Proof.AlignLemmas
import Verif.Proof.App
import Verif.Proof.AppCsr
import Verif.Proof.AppInv
import Verif.Proof.AppLive
import Verif.Proof.AppRun
import Verif.Proof.AppRuns
import Verif.Proof.AppTypist
import Verif.Proof.AppWait
import Verif.Proof.Arith
import Verif.Proof.Assembler
import Verif.Proof.Atto
import Verif.Proof.AttoCsr
import Verif.Proof.AttoCsrProg
import Verif.Proof.AttoCsrTime
import Verif.Proof.AttoProg
import Verif.Proof.Boot
import Verif.Proof.BootRun
import Verif.Proof.Button
import Verif.Proof.Class
import Verif.Proof.Clock
import Verif.Proof.ClockRun
import Verif.Proof.Crash
import Verif.Proof.CrashSoc
import Verif.Proof.Critical
import Verif.Proof.CsrRoutines
import Verif.Proof.CsrSecond
import Verif.Proof.CsrTable
import Verif.Proof.Dec
import Verif.Proof.Decoded
import Verif.Proof.Dispatch
import Verif.Proof.Echo
import Verif.Proof.EchoLine
import Verif.Proof.EchoRun
import Verif.Proof.Exec
import Verif.Proof.ExecCsr
import Verif.Proof.Firmware
import Verif.Proof.FirmwareCount
import Verif.Proof.FirmwareCsr
import Verif.Proof.FirmwareFair
import Verif.Proof.FirmwareKeys
import Verif.Proof.FirmwareLive
import Verif.Proof.FirmwareRx
import Verif.Proof.FirmwareTime
import Verif.Proof.FirmwareTx
import Verif.Proof.FirstDispatch
import Verif.Proof.Frame
import Verif.Proof.Hang
import Verif.Proof.History
import Verif.Proof.Impl
import Verif.Proof.Instr
import Verif.Proof.Interrupts
import Verif.Proof.InterruptsSoc
import Verif.Proof.InterruptsSocRun
import Verif.Proof.Inv
import Verif.Proof.InvStep
import Verif.Proof.Latency
import Verif.Proof.Main
import Verif.Proof.Portable
import Verif.Proof.PortableCycle
import Verif.Proof.PrimeSeq
import Verif.Proof.Primes
import Verif.Proof.RamSize
import Verif.Proof.Rel
import Verif.Proof.RiscvFormal
import Verif.Proof.Routines
import Verif.Proof.Rvfi
import Verif.Proof.RvfiCsr
import Verif.Proof.RvfiCsrTrap
import Verif.Proof.RvfiRegs
import Verif.Proof.RvfiRun
import Verif.Proof.RvfiStatus
import Verif.Proof.RvfiTrap
import Verif.Proof.Shifts
import Verif.Proof.SocMem
import Verif.Proof.SocRun
import Verif.Proof.Steps
import Verif.Proof.TimerCount
import Verif.Proof.Trap
import Verif.Proof.Wave
import Verif.Proof.Window
import Verif.Proof.Wp
import Verif.Proof.WpCsr
import Verif.Props.Alu
import Verif.Props.App
import Verif.Props.AppCsr
import Verif.Props.AppKeys
import Verif.Props.AppLive
import Verif.Props.AppRuns
import Verif.Props.AppTypist
import Verif.Props.Arith
import Verif.Props.Arty
import Verif.Props.Assembler
import Verif.Props.Atto
import Verif.Props.AttoCsr
import Verif.Props.Bus
import Verif.Props.Button
import Verif.Props.Clock
import Verif.Props.Crash
import Verif.Props.Critical
import Verif.Props.Csr
import Verif.Props.Decode
import Verif.Props.Demo
import Verif.Props.Echo
import Verif.Props.EchoTerminal
import Verif.Props.Encode
import Verif.Props.Firmware
import Verif.Props.FirmwareCsr
import Verif.Props.FirmwareFair
import Verif.Props.FirmwareLine
import Verif.Props.FirmwareLineCsr
import Verif.Props.FirmwareLive
import Verif.Props.FirmwareRx
import Verif.Props.FirmwareTime
import Verif.Props.Frame
import Verif.Props.Hang
import Verif.Props.History
import Verif.Props.Interrupts
import Verif.Props.InterruptsDemo
import Verif.Props.InterruptsSoc
import Verif.Props.InterruptsSocDemo
import Verif.Props.Jump
import Verif.Props.Latency
import Verif.Props.Layout
import Verif.Props.Leak
import Verif.Props.Line
import Verif.Props.LineRecovery
import Verif.Props.LineRecoveryCsr
import Verif.Props.Loader
import Verif.Props.Mem
import Verif.Props.Portable
import Verif.Props.PortableCycle
import Verif.Props.Primes
import Verif.Props.PrimesCsr
import Verif.Props.RamSize
import Verif.Props.RamSizeCsr
import Verif.Props.RealTime
import Verif.Props.Request
import Verif.Props.Reset
import Verif.Props.RiscvFormal
import Verif.Props.Rvfi
import Verif.Props.RvfiStatus
import Verif.Props.Screen
import Verif.Props.ScreenCsr
import Verif.Props.Serial
import Verif.Props.Soc
import Verif.Props.Terminal
import Verif.Props.Timer
import Verif.Props.Trace
import Verif.Props.Trap
import Verif.Props.Uart
import Verif.Props.UartBits
import Verif.Props.Wishbone
import Verif.Soc.App
import Verif.Soc.Arty
import Verif.Soc.Atto
import Verif.Soc.AttoCsr
import Verif.Soc.Clock
import Verif.Soc.Echo
import Verif.Soc.Firmware
import Verif.Soc.FirmwareCsr
import Verif.Soc.Loader
import Verif.Soc.Memory
import Verif.Soc.Primes
import Verif.Soc.RamSize
import Verif.Soc.RamSizeCsr
import Verif.Soc.Reset
import Verif.Soc.Serial
import Verif.Soc.Slow
import Verif.Soc.Timer
import Verif.Soc.Uart
import Verif.Soc.UartBits
import Verif.Spec.App
import Verif.Spec.Assembler
import Verif.Spec.Causes
import Verif.Spec.Crash
import Verif.Spec.Critical
import Verif.Spec.Firmware
import Verif.Spec.FirmwareCsr
import Verif.Spec.Interrupts
import Verif.Spec.InterruptsSoc
import Verif.Spec.Isa
import Verif.Spec.Latency
import Verif.Spec.Leak
import Verif.Spec.Line
import Verif.Spec.Memory
import Verif.Spec.Platform
import Verif.Spec.PlatformCsr
import Verif.Spec.Portable
import Verif.Spec.Primes
import Verif.Spec.Retire
import Verif.Spec.RiscvFormal
import Verif.Spec.Terminal
import Verif.Spec.Timing
import Verif.Spec.Traps
import Verif.Spec.Tree
import Verif.Spec.Wishbone
import Verif.Ucode.Asm
import Verif.Ucode.Encode
import Verif.Ucode.FieldTables
import Verif.Ucode.Fields
import Verif.Ucode.Layout
import Verif.Ucode.Rom
import Verif.Ucode.Source
