import Verif.Core.Run
import Verif.Spec.Isa
/-!
# Reachable states, reset, and the architectural state held by the core

Definitions used in the statements of the theorems.
-/

namespace Sentinel

open Spec (Arch Word Event)

/-- The states the core can be in: power-on, then any number of clock edges with any reset, clock
enable and inputs (a view of `top.py` 221-419 for the theorems: no code of its own). -/
inductive Reach : State → Prop
  | powerOn : Reach powerOn
  | tick {s : State} (rst en : Bool) (i : Input) : Reach s → Reach (s.tick rst en i)

/-- The core has just been reset: by power-on, or by a clock edge with reset asserted (after which
reset is deasserted) (the reset of the `sync` domain of `top.py` 221-419). -/
def AfterReset (s : State) : Prop := s = powerOn ∨ ∃ σ en i, Reach σ ∧ s = σ.tick true en i

namespace State

/-- The architectural registers, read from the core: the program counter (`ProgramCounter.dat_r`, a
word address), the register/CSR RAM, the CSR flip-flops, and the interrupt bit of the cause latch (the registers are `datapath.py` 14-123 (`ProgramCounter`), 126-427 (`RegFile`) and 430-786 (`CSRFile`)). -/
def arch (s : State) : Arch where
  pc := s.pc ++ 0#2
  x r := s.mem (gpRamAdr r)
  mie := s.csr.mie
  mpie := s.csr.mpie
  meie := s.csr.meie
  mtvec := s.mem (csrRamAdr CSR_MTVEC)
  mscratch := s.mem (csrRamAdr CSR_MSCRATCH)
  mepc := s.mem (csrRamAdr CSR_MEPC)
  mcause := s.mem (csrRamAdr CSR_MCAUSE)
  irqTaken := s.cause.interrupt

/-- The core dispatches an instruction in cycle `t`: it executes the microinstruction at address 1,
`check_int` (`microcode.asm`).  Cycle 0 is the cycle in which reset is released. -/
def Dispatching (s : State) (inp : Nat → Input) (t : Nat) : Prop :=
  1 ≤ t ∧ (s.run inp t).uop = rom 1#8

/-- In cycle `t` the core dispatches the word `w`: the last event before was a bus read that
returned `w` (microcode address 1 is `check_int`, `microcode.asm` 113-118; no code of its own). -/
def Dispatches (s : State) (inp : Nat → Input) (t : Nat) (w : Word) : Prop :=
  s.Dispatching inp t ∧ ∃ l r, s.events inp 1 (t - 1) = l ++ [.bus r w]

/-- The word `w` is dispatched in cycle `t` and executed in the `m` cycles from then on: the next
dispatch is in cycle `t + m` (vocabulary of the theorems: from one `check_int`, `microcode.asm` 113-118, to the next). -/
def Executes (s : State) (inp : Nat → Input) (t : Nat) (w : Word) (m : Nat) : Prop :=
  s.Dispatches inp t w ∧ 0 < m ∧ s.Dispatching inp (t + m) ∧
    ∀ k, 0 < k → k < m → ¬ s.Dispatching inp (t + k)

/-- An interrupt is taken in cycle `t` if the core dispatches: the interrupt line is high and
interrupts are enabled (mstatus.MIE and mie.MEIE) (the test of `check_int`, `microcode.asm` 113-118, and `exception.py` 237-238). -/
def IrqTaken (s : State) (inp : Nat → Input) (t : Nat) : Prop :=
  (inp t).irq = true ∧ (s.run inp t).arch.mie = true ∧ (s.run inp t).arch.meie = true

/-- The effect of the `m` cycles from cycle `t` on: the architectural state becomes `a'`; the events
are one sample of the interrupt line, then `l`, then the fetch of a word `w'` at the program counter
of `a'`; and that word is dispatched next (vocabulary of the theorems; bus of `top.py` 254-261). -/
def Effect (s : State) (inp : Nat → Input) (t m : Nat) (a' : Arch) (l : List Event) : Prop :=
  (s.run inp (t + m)).arch = a' ∧
    ∃ w', s.events inp t m = [Event.poll (inp t).irq] ++ l ++ [Event.bus (Spec.fetchReq a') w'] ∧
      s.Dispatches inp (t + m) w'

end State

/-- Setting of the theorems about one instruction: `s` has just been reset, the bus gives no ACK in
the first cycle of a request, and the word `w` is dispatched in cycle `t` and executed in `m`
cycles (vocabulary of the theorems about `top.py` 16-419). -/
structure OneInstr (s : State) (inp : Nat → Input) (t : Nat) (w : Word) (m : Nat) : Prop where
  reset : AfterReset s
  ack : s.RegisteredAck inp
  runs : s.Executes inp t w m

end Sentinel
