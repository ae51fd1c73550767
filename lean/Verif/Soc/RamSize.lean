import Verif.Soc.Atto
/-!
# `WBMemory` of any size — `examples/attosoc.py` 32-109

`Soc/Memory.lean` has a memory of `2 ^ k` words.  Here the number of words is any number (`num_bytes // 4`,
74).  The port's address has `ceil_log2` of that many bits (Amaranth), so a row that does not exist can be
asked for.  A write to such a row does nothing; a read of it gives anything (0 in Amaranth's simulator, what
the synthesis tool happens to make of it otherwise): the value is an input of each cycle.
-/

namespace Sentinel

open Spec (Word Mem)

/-- Amaranth's `ceil_log2`: number of bits of the address of a memory of `d` rows (used for `attosoc.py` 67-89). -/
def ceilLog2 (d : Nat) : Nat := if d ≤ 1 then 0 else Nat.log2 (d - 1) + 1

/-- State of `WBMemory` (`attosoc.py` 32-109), with a list of rows. -/
structure RamN where
  rows : List Word
  rdata : Word
  ack : Bool

/-- The row a word address selects: the low bits of the address (`attosoc.py` 88-89). -/
def RamN.row (m : RamN) (adr : BitVec 30) : Nat := adr.toNat % 2 ^ ceilLog2 m.rows.length

/-- One clock of `WBMemory` (`attosoc.py` 81-109); `junk` is what a row that does not exist reads as. -/
def RamN.step (m : RamN) (cyc stb we : Bool) (adr : BitVec 30) (sel : BitVec 4) (datW junk : Word) : RamN :=
  { rows := if stb && cyc && we then m.rows.modify (m.row adr) fun old => writeLanes sel old datW else m.rows
    rdata := if stb && cyc && !we then m.rows.getD (m.row adr) junk else m.rdata
    ack := stb && cyc && !m.ack }

/-- The same as a memory of `2 ^ k` words; the words that are missing are 0 (a view of `attosoc.py` 32-109 for the theorems). -/
def RamN.padded (m : RamN) (k : Nat) : WbMem k := ⟨fun a => m.rows.getD a.toNat 0, m.rdata, m.ack⟩

/-- `AttoSoC` (`attosoc.py` 766-922) with Wishbone peripherals and a RAM of any size. -/
structure AttoN where
  cpu : State
  ram : RamN
  leds : WbLeds
  timer : WbTimer
  ser : WbSerial

namespace AttoN

/-- Number of words of RAM (`attosoc.py` 67 and 74). -/
def depth (s : AttoN) : Nat := s.ram.rows.length

/-- The SoC with a RAM of `2 ^ ceil_log2 depth` words, of which those that are missing here are 0 (a view of `attosoc.py` 766-922 for the theorems). -/
def padded (s : AttoN) : Atto (ceilLog2 s.depth) :=
  ⟨s.cpu, s.ram.padded _, s.leds, s.timer, s.ser⟩

/-- One clock edge: all but the RAM as in `Atto.step`, to which only the registers of the RAM's port
matter (`attosoc.py` 833-919). -/
def step (D : Nat) (s : AttoN) (p : AttoIn) (junk : Word) : AttoN :=
  { cpu := s.cpu.step s.padded.input
    ram := s.ram.step (s.padded.devCyc .ram) s.cpu.stb s.cpu.we s.cpu.adr s.cpu.sel s.cpu.datW junk
    leds := s.leds.step (s.padded.devReq .leds) p.gpioI
    timer := s.timer.step (s.padded.devReq .timer)
    ser := s.ser.step D (s.padded.devReq .serial) p.rx }

/-- The SoC after `n` cycles with pins `p` (iterates `attosoc.py` 833-919). -/
def run (D : Nat) (s : AttoN) (p : Nat → AttoIn) (junk : Nat → Word) : Nat → AttoN
  | 0 => s
  | n + 1 => (run D s p junk n).step D (p n) (junk n)

/-- The inputs of the core in each cycle (`attosoc.py` 898 and 917). -/
def inputs (D : Nat) (s : AttoN) (p : Nat → AttoIn) (junk : Nat → Word) (n : Nat) : Input :=
  (s.run D p junk n).padded.input

/-- The SoC has just been reset (the reset of the `sync` domain of `attosoc.py` 833-919). -/
structure AfterReset (s : AttoN) : Prop where
  cpu : Sentinel.AfterReset s.cpu
  ram : s.ram.ack = false
  leds : s.leds = {}
  timer : s.timer = {}
  ser : s.ser = WbSerial.reset

end AttoN

end Sentinel
