import Verif.Soc.Memory
import Verif.Soc.Serial
import Verif.Spec.Platform
/-!
# The example SoC with Wishbone peripherals — `AttoSoC`, `examples/attosoc.py` 766-922

The core, `WBMemory`, `WBLeds`, `WBTimer` and `WBSerial` behind amaranth-soc's `wishbone.Decoder`
(external).  What is assumed of the decoder: it is combinational; it passes `adr`, `dat_w`, `sel`,
`we`, `stb` to every subordinate and `cyc` to the one whose window contains the address, and returns
`dat_r` and `ack` of that one (0 outside all windows).  Windows: the sizes are the `addr_width`s of the
memory maps (25, 25, 30, 30 bits: 64, 156, 361, 584), and each goes to the next multiple of its size
and of 2^25 (`alignment=25`, 800), in the order they are added (863, 866, 869, 872).  A peripheral with
8 data bits added with `sparse=True` has one byte per word of the bus: it gets bit 0 of `sel` and the
low byte of `dat_w`.

Simplifications: as in `Soc/Memory.lean` the RAM has `2 ^ k` words (the source: `num_bytes // 4`), and
the divisor of the serial port is a parameter (the source: 1250).
-/

namespace Sentinel

open Spec (Word Mem)

/-- The subordinates (`attosoc.py` 863-872). -/
inductive AttoDev | ram | leds | timer | serial
  deriving DecidableEq

/-- `wishbone.Decoder` (`attosoc.py` 800, 863-872): the subordinate whose window contains the word
address. -/
def attoDecode (adr : BitVec 30) : Option AttoDev :=
  if adr.extractLsb' 23 7 = 0b0000000#7 then some .ram
  else if adr.extractLsb' 23 7 = 0b0000001#7 then some .leds
  else if adr.extractLsb' 28 2 = 0b01#2 then some .timer
  else if adr.extractLsb' 28 2 = 0b10#2 then some .serial
  else none

/-- The pins of the SoC in one cycle: GPIO inputs and the serial input (`attosoc.py` 857-861 and 893-896). -/
structure AttoIn where
  gpioI : BitVec 8 := 0
  rx : Bool := true

/-- State of `AttoSoC(bus_type=BusType.WB)` (`attosoc.py` 797-812). -/
structure Atto (k : Nat) where
  cpu : State
  ram : WbMem k
  leds : WbLeds
  timer : WbTimer
  ser : WbSerial

namespace Atto
variable {k : Nat}

/-- `attosoc.py` 898: `cpu.irq`. -/
def irq (s : Atto k) : Bool := s.timer.irq || s.ser.irq

/-- The subordinate addressed by the core (`attosoc.py` 863-872 and 917). -/
def dev (s : Atto k) : Option AttoDev := attoDecode s.cpu.adr

/-- `dat_r` of the decoder (`attosoc.py` 863-872 and 917). -/
def datR (s : Atto k) : Word :=
  match s.dev with
  | some .ram => s.ram.rdata
  | some .leds => s.leds.datR.setWidth 32
  | some .timer => s.timer.datR.setWidth 32
  | some .serial => s.ser.datR.setWidth 32
  | none => 0

/-- `ack` of the decoder (`attosoc.py` 863-872 and 917). -/
def ack (s : Atto k) : Bool :=
  match s.dev with
  | some .ram => s.ram.ack
  | some .leds => s.leds.ack
  | some .timer => s.timer.ack
  | some .serial => s.ser.ack
  | none => false

/-- `cyc` of a subordinate (`attosoc.py` 863-872 and 917). -/
def devCyc (s : Atto k) (d : AttoDev) : Bool := s.cpu.cyc && s.dev = some d

/-- The bus of an 8-bit subordinate (`attosoc.py` 866-872: `sparse=True`). -/
def devReq (s : Atto k) (d : AttoDev) : WbReq :=
  { cyc := s.devCyc d, stb := s.cpu.stb, we := s.cpu.we, sel := s.cpu.sel.getLsbD 0
    adr := s.cpu.adr.setWidth 2, datW := s.cpu.datW.setWidth 8 }

/-- What the core sees (`attosoc.py` 898, 917). -/
def input (s : Atto k) : Input := ⟨s.datR, s.ack, s.irq⟩

/-- One clock edge; `D` is the divisor of the serial port (`attosoc.py` 833-919). -/
def step (D : Nat) (s : Atto k) (p : AttoIn) : Atto k :=
  { cpu := s.cpu.step s.input
    ram := s.ram.step (s.devCyc .ram) s.cpu.stb s.cpu.we s.cpu.adr s.cpu.sel s.cpu.datW
    leds := s.leds.step (s.devReq .leds) p.gpioI
    timer := s.timer.step (s.devReq .timer)
    ser := s.ser.step D (s.devReq .serial) p.rx }

/-- The SoC after `n` cycles with pins `p` (iterates `attosoc.py` 833-919). -/
def run (D : Nat) (s : Atto k) (p : Nat → AttoIn) : Nat → Atto k
  | 0 => s
  | n + 1 => (run D s p n).step D (p n)

/-- The inputs of the core in each cycle (`attosoc.py` 898 and 917). -/
def inputs (D : Nat) (s : Atto k) (p : Nat → AttoIn) (n : Nat) : Input := (s.run D p n).input

/-- The SoC has just been reset; the memory contents and its read data are arbitrary (the reset of the `sync` domain of `attosoc.py` 833-919). -/
structure AfterReset (s : Atto k) : Prop where
  cpu : Sentinel.AfterReset s.cpu
  ram : s.ram.ack = false
  leds : s.leds = {}
  timer : s.timer = {}
  ser : s.ser = WbSerial.reset

/-- The part of the state that only programs change, as the specification of the platform sees it (a view of `attosoc.py` 833-919 for the theorems). -/
def plat (s : Atto k) : Spec.Plat k := ⟨s.ram.mem, s.leds.leds, s.leds.gpioO, s.leds.gpioOe⟩

/-- The bus of a subordinate in each cycle (a view of `attosoc.py` 863-872 for the theorems). -/
def devReqs (D : Nat) (s : Atto k) (p : Nat → AttoIn) (d : AttoDev) (n : Nat) : WbReq :=
  (s.run D p n).devReq d

end Atto

end Sentinel
