import Verif.Core.Reach
import Verif.Spec.Memory
/-!
# The Wishbone memory of the example SoC, and the core attached to it — `examples/attosoc.py`

Simplifications: the depth is a power of two (`num_bytes = 4 * 2 ^ k`), and the memory is attached
to the core's bus directly, not through amaranth-soc's `Decoder` (an external package, which would
only pass on requests whose upper address bits are 0).
-/

namespace Sentinel

open Spec (Word Mem)

/-- State of `WBMemory` (`attosoc.py` 32-109): the memory array, the read port's data register, and
the registered `ack`. -/
structure WbMem (k : Nat) where
  mem : Mem k
  rdata : Word
  ack : Bool

/-- A write port with granularity 8 (`attosoc.py` 84, 101): the bytes whose enable bit is set. -/
def writeLanes (en : BitVec 4) (old new : Word) : Word :=
  (old &&& ~~~laneMask en) ||| (new &&& laneMask en)

/-- One clock of `WBMemory` (`attosoc.py` 81-109).  Inputs are the Wishbone signals of the master.
The read port is enabled only when `we` is low, the write port only when it is high, so the
transparency of the read port plays no part. -/
def WbMem.step {k : Nat} (m : WbMem k) (cyc stb we : Bool) (adr : BitVec 30) (sel : BitVec 4)
    (datW : Word) : WbMem k :=
  { mem := if stb && cyc && we then
        fun a => if a = adr.setWidth k then writeLanes sel (m.mem a) datW else m.mem a
      else m.mem
    rdata := if stb && cyc && !we then m.mem (adr.setWidth k) else m.rdata
    ack := stb && cyc && !m.ack }

/-- The core with a `WBMemory` on its bus (`Top` and `WBMemory`, `attosoc.py` 836-837 and 917 without the decoder). -/
structure Soc (k : Nat) where
  cpu : State
  ram : WbMem k

namespace Soc
variable {k : Nat}

/-- What the core sees: `bus.dat_r` and `bus.ack` of the memory (`attosoc.py` 90), and the interrupt
line. -/
def input (s : Soc k) (irq : Bool) : Input := ⟨s.ram.rdata, s.ram.ack, irq⟩

/-- One clock edge of the core and the memory (`top.py` 221-419 and `attosoc.py` 81-109). -/
def step (s : Soc k) (irq : Bool) : Soc k :=
  { cpu := s.cpu.step (s.input irq)
    ram := s.ram.step s.cpu.cyc s.cpu.stb s.cpu.we s.cpu.adr s.cpu.sel s.cpu.datW }

/-- The system after `n` cycles; `irq` is the interrupt line in each cycle (iterates `top.py` 221-419 and `attosoc.py` 81-109). -/
def run (s : Soc k) (irq : Nat → Bool) : Nat → Soc k
  | 0 => s
  | n + 1 => (run s irq n).step (irq n)

/-- The inputs of the core in each cycle (the bus of `top.py` 254-264, connected to that of `attosoc.py` 81-109). -/
def inputs (s : Soc k) (irq : Nat → Bool) (n : Nat) : Input := (s.run irq n).input (irq n)

/-- The system has just been reset: the core, and the memory's `ack`.  The memory contents are
arbitrary (the reset of the `sync` domain of `top.py` and `attosoc.py` 81-109). -/
structure AfterReset (s : Soc k) : Prop where
  cpu : Sentinel.AfterReset s.cpu
  ram : s.ram.ack = false

end Soc

end Sentinel
