import Verif.Soc.Memory
/-!
# The core with a memory that takes its time

No code of /repo: the bus of the core (`top.py` 254-261) with a memory that answers each request after a number of cycles that is
up to the environment.  Used by C90 only.
-/

namespace Sentinel
open Spec (Word Mem)

/-- The core with a memory that answers after some time: `left` is the number of cycles the memory will still let pass before it
serves the request (no code of /repo but `top.py` 254-264). -/
structure Slow (k : Nat) where
  cpu : State
  mem : Mem k
  rdata : Word
  ack : Bool
  left : Nat

namespace Slow
variable {k : Nat}

/-- What the core sees (`top.py` 262-264). -/
def input (s : Slow k) (irq : Bool) : Input := ⟨s.rdata, s.ack, irq⟩

/-- One clock edge of the core and the memory.  The request is served when `left` has come down to 0; `d` is then the time the next
request is to take (no code of /repo but `top.py` 221-419). -/
def step (s : Slow k) (irq : Bool) (d : Nat) : Slow k :=
  let cpu := s.cpu.step (s.input irq)
  if s.cpu.cyc && s.cpu.stb && !s.ack then
    if s.left = 0 then
      { cpu, ack := true, left := d
        mem := if s.cpu.we then
            fun a => if a = s.cpu.adr.setWidth k then writeLanes s.cpu.sel (s.mem a) s.cpu.datW else s.mem a
          else s.mem
        rdata := if s.cpu.we then s.rdata else s.mem (s.cpu.adr.setWidth k) }
    else { s with cpu, left := s.left - 1 }
  else { s with cpu, ack := false }

/-- The system after `n` cycles; `irq` is the interrupt line and `d` the time for the next request, in each cycle (no code of /repo but `top.py` 221-419). -/
def run (s : Slow k) (irq : Nat → Bool) (d : Nat → Nat) : Nat → Slow k
  | 0 => s
  | n + 1 => (run s irq d n).step (irq n) (d n)

/-- The inputs of the core in each cycle (`top.py` 262-264). -/
def inputs (s : Slow k) (irq : Nat → Bool) (d : Nat → Nat) (n : Nat) : Input := (s.run irq d n).input (irq n)

/-- The system has just been reset: the core, and the memory's `ack` (no code of /repo but `top.py` 221-419). -/
structure AfterReset (s : Slow k) : Prop where
  cpu : Sentinel.AfterReset s.cpu
  ack : s.ack = false

end Slow

end Sentinel
