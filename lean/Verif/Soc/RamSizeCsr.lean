import Verif.Soc.RamSize
import Verif.Soc.AttoCsr
/-!
# The SoC with the peripherals on the CSR bus and a RAM of any size — `examples/attosoc.py` 32-109, 766-922

As `Soc/RamSize.lean` for the SoC with the Wishbone peripherals.
-/

namespace Sentinel

open Spec (Word Mem)

/-- `AttoSoC(bus_type=BusType.CSR)` (`attosoc.py` 766-922) with a RAM of any size. -/
structure AttoCsrN where
  cpu : State
  ram : RamN
  bridge : WbCsr
  bus : CsrBus
  leds : CsrLeds
  timer : CsrTimer
  ser : CsrSerial

namespace AttoCsrN

/-- Number of words of RAM (`attosoc.py` 67 and 74). -/
def depth (s : AttoCsrN) : Nat := s.ram.rows.length

/-- The SoC with a RAM of `2 ^ ceil_log2 depth` words, of which those that are missing here are 0 (a view of `attosoc.py` 766-922 for the theorems). -/
def padded (s : AttoCsrN) : AttoCsr (ceilLog2 s.depth) :=
  ⟨s.cpu, s.ram.padded _, s.bridge, s.bus, s.leds, s.timer, s.ser⟩

/-- One clock edge (`attosoc.py` 876-898): all but the RAM as in `AttoCsr.step`, to which only the registers of the RAM's port matter. -/
def step (D : Nat) (s : AttoCsrN) (p : AttoIn) (junk : Word) : AttoCsrN :=
  { cpu := (s.padded.step D p).cpu
    ram := s.ram.step (s.padded.devCyc .ram) s.cpu.stb s.cpu.we s.cpu.adr s.cpu.sel s.cpu.datW junk
    bridge := (s.padded.step D p).bridge
    bus := (s.padded.step D p).bus
    leds := (s.padded.step D p).leds
    timer := (s.padded.step D p).timer
    ser := (s.padded.step D p).ser }

/-- The SoC after `n` cycles with pins `p` (iterates `attosoc.py` 833-919). -/
def run (D : Nat) (s : AttoCsrN) (p : Nat → AttoIn) (junk : Nat → Word) : Nat → AttoCsrN
  | 0 => s
  | n + 1 => (run D s p junk n).step D (p n) (junk n)

/-- The inputs of the core in each cycle (`attosoc.py` 898 and 917). -/
def inputs (D : Nat) (s : AttoCsrN) (p : Nat → AttoIn) (junk : Nat → Word) (n : Nat) : Input :=
  (s.run D p junk n).padded.input

/-- The SoC has just been reset (the reset of the `sync` domain of `attosoc.py` 833-919). -/
structure AfterReset (s : AttoCsrN) : Prop where
  cpu : Sentinel.AfterReset s.cpu
  ram : s.ram.ack = false
  bridge : s.bridge = {}
  bus : s.bus = {}
  leds : s.leds = {}
  timer : s.timer = {}
  ser : s.ser = CsrSerial.reset

end AttoCsrN

end Sentinel
