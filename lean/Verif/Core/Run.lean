import Verif.Core.Top
import Verif.Spec.Tree
/-!
# Executions of the core and what an observer sees

Definitions used in the statements of the theorems: the state after `n` cycles, the events of a
range of cycles, and the assumptions on the bus.
-/

namespace Sentinel

open Spec (Req Event)

/-- The 32-bit mask of the byte lanes selected by SEL (SEL is `top.py` 261). -/
def laneMask (sel : BitVec 4) : BitVec 32 :=
  rep 8 (sel.getLsbD 3) ++ rep 8 (sel.getLsbD 2) ++ rep 8 (sel.getLsbD 1) ++ rep 8 (sel.getLsbD 0)

namespace State

/-- The request on the bus, from the Wishbone outputs only: write data counts on the selected lanes
of a write (`top.py` 254-261). -/
def req (s : State) : Req :=
  ⟨s.adr, s.sel, s.we, if s.we then s.datW &&& laneMask s.sel else 0⟩

/-- The interrupt line is used in this cycle: by the exception router (`exception.py` 232-242) or by
a read of MIP (`datapath.py` 742-747). -/
def polls (s : State) : Bool :=
  s.uop.exceptCtl = .latchDecoder || (s.uop.csrOp = .readCsr && s.csrAdr = CSR_MIP)

/-- The events of one cycle (vocabulary of the theorems; bus and interrupt line of `top.py` 254-264). -/
def obs (s : State) (i : Input) : List Event :=
  (if s.cyc && i.ack then [.bus s.req i.datR] else []) ++ (if s.polls then [.poll i.irq] else [])

/-- The state after `n` cycles with inputs `inp 0, ..., inp (n-1)` (vocabulary of the theorems; iterates `Top`, `top.py` 221-419). -/
def run (s : State) (inp : Nat → Input) : Nat → State
  | 0 => s
  | n + 1 => (run s inp n).step (inp n)

/-- The events of cycles `t, ..., t+m-1` (vocabulary of the theorems; bus of `top.py` 254-264). -/
def events (s : State) (inp : Nat → Input) (t : Nat) : Nat → List Event
  | 0 => []
  | m + 1 => (s.run inp t).obs (inp t) ++ events s inp (t + 1) m

/-- Number of cycles among `t, ..., t+m-1` in which no bus request is made (vocabulary of the theorems; CYC is `top.py` 256). -/
def idle (s : State) (inp : Nat → Input) (t : Nat) : Nat → Nat
  | 0 => 0
  | m + 1 => (if (s.run inp t).cyc then 0 else 1) + idle s inp (t + 1) m

/-- Number of cycles among `t, ..., t+m-1` in which CYC is asserted (vocabulary of the theorems; CYC is `top.py` 256). -/
def busy (s : State) (inp : Nat → Input) (t : Nat) : Nat → Nat
  | 0 => 0
  | m + 1 => (if (s.run inp t).cyc then 1 else 0) + busy s inp (t + 1) m

/-- Cycle `t` is the first cycle of a bus request (vocabulary of the theorems; CYC is `top.py` 256). -/
def FirstCycle (s : State) (inp : Nat → Input) (t : Nat) : Prop :=
  (s.run inp t).cyc = true ∧ ∀ t', t = t' + 1 → (s.run inp t').cyc = false

/-- The assumption on the bus: ACK is registered, i.e. never asserted in the first cycle of a
request.  (ACK may have any value while no request is made.) (vocabulary of the theorems; ACK is `top.py` 263). -/
def RegisteredAck (s : State) (inp : Nat → Input) : Prop :=
  ∀ t, s.FirstCycle inp t → (inp t).ack = false

/-- The fairness assumption on the bus: no request stays unanswered for ever (vocabulary of the theorems; ACK is `top.py` 263). -/
def FairAck (s : State) (inp : Nat → Input) : Prop :=
  ∀ t, (s.run inp t).cyc = true → ∃ t', t ≤ t' ∧ ((s.run inp t').cyc = false ∨ (inp t').ack = true)

end State

end Sentinel
