import Verif.Core.Run
import Verif.Spec.Isa
/-!
# The RVFI harness — `src/sentinel/formal.py`

`FormalTop` wraps the core and reports every retired instruction on the RISC-V Formal Interface.  The
core is elaborated with `formal=True`, which only adds the wires `rvfi.decode` (`decode.py` 690-704)
and `rvfi.exception` (`top.py` 414-417): its behaviour is that of `State`.

`Rvfi` holds the registers of the harness and the output latches of its read ports on the register
RAM; `Rvfi.step` is one clock edge with reset deasserted.  Of the ports that are constant, `halt`,
`mode`, `ixl` (405-411), the all-ones masks (423-440) and the zero `rdata` of the read-only-zero CSRs
(559-563) are not here but in `Core/RvfiPort`.
-/

namespace Sentinel

open Spec (Csr)

/-- Number of a CSR in the CSR file: `datapath.py` 668-691, used in `formal.py` 419-422, 482-531. -/
def csrNo : Csr → BitVec 4
  | .mstatus => CSR_MSTATUS
  | .mie => CSR_MIE
  | .mtvec => CSR_MTVEC
  | .mscratch => CSR_MSCRATCH
  | .mepc => CSR_MEPC
  | .mcause => CSR_MCAUSE
  | .mip => CSR_MIP

/-- Reports about one CSR (`formal.py` 419-531). -/
structure CsrPort where
  /-- `rvfi.csr.X.rdata`: for `mscratch`, `mcause`, `mtvec`, `mepc` the output latch of a read port of
  the RAM (not reset), for `mip`, `mie`, `mstatus` a register -/
  rdata : BitVec 32 := 0
  /-- `rvfi.csr.X.wdata` -/
  wdata : BitVec 32 := 0
  /-- `X_hold_rd` -/
  hold : Bool := false

/-- The state of the harness (`formal.py` 262-263, 272-274, 285-286, 414-417, 446-452, 535-537 and the
registered ports). -/
structure Rvfi where
  inInit : Bool := true
  justCommitted : Bool := false
  datWReg : BitVec 32 := 0
  order : BitVec 64 := 0
  trap : Bool := false
  intr : Bool := false
  insn : BitVec 32 := 0
  rs1Addr : BitVec 5 := 0
  rs2Addr : BitVec 5 := 0
  rdAddr : BitVec 5 := 0
  rs1Rdata : BitVec 32 := 0
  rs2Rdata : BitVec 32 := 0
  /-- output latches of `rs1_port`, `rs2_port` (not reset) -/
  rs1Port : BitVec 32 := 0
  rs2Port : BitVec 32 := 0
  pcRdata : BitVec 32 := 0
  memAddr : BitVec 32 := 0
  memRmask : BitVec 4 := 0
  memWmask : BitVec 4 := 0
  memRdata : BitVec 32 := 0
  memWdata : BitVec 32 := 0
  csr : Csr → CsrPort := fun _ => {}
  csrAddrShadow : BitVec 12 := 0
  csrOpShadow : BitVec 3 := 0
  doingCsrDecode : Bool := false
  /-- `wdata` of the read-only-zero CSRs, by CSR address (a half of a 64-bit register each) -/
  zeroW : BitVec 12 → BitVec 32 := fun _ => 0

/-- The read-only-zero CSRs that are reported: `formal.py` 548-557. -/
def rvfiZeroCsrs : List (BitVec 12) :=
  [0xF11, 0xF12, 0xF13, 0xF14, 0xF15, 0x301, 0x310, 0x343, 0xB00, 0xB02, 0xB03, 0xB80, 0xB82, 0xB83,
   0x320, 0x323]

/-- `decode.py` 701-704: `rvfi.decode.rd_valid`. -/
def rdValid (w : BitVec 32) : Bool :=
  !(insnOpcode w = .branch || insnOpcode w = .miscMem || insnOpcode w = .store)

namespace State

/-- `formal.py` 278-281: `committed_to_insn`. -/
def committed (s : State) (i : Input) : Bool := s.uop.insnFetch && i.ack && s.romAdr i = 1#8

/-- `formal.py` 287-294: a general-purpose register is written in this cycle. -/
def gpWrite (s : State) : Bool := s.uop.regWrite && !(s.uop.csrOp = .writeCsr)

/-- `formal.py` 481-531: CSR `c` is written in this cycle. -/
def csrWriteTo (s : State) (c : Csr) : Bool := s.uop.csrOp = .writeCsr && s.csrAdr = csrNo c

end State

namespace Rvfi

variable (r : Rvfi) (s : State) (i : Input)

/-- `formal.py` 296-313: `rvfi.valid`. -/
def valid : Bool := s.committed i && !r.inInit

/-- `formal.py` 287-291: `dat_w_mux`. -/
def datWMux : BitVec 32 := if s.gpWrite then s.aluO else r.datWReg

/-- `formal.py` 335-349: `rvfi.rd_wdata`. -/
def rdWdata : BitVec 32 :=
  if s.committed i then if r.rdAddr = 0 then 0 else r.datWMux s else 0

/-- `formal.py` 335-344: `rvfi.pc_wdata`. -/
def pcWdata : BitVec 32 := if s.committed i then s.pc ++ 0#2 else 0

/-- One clock of the reports about CSR `c` (`formal.py` 419-531).  A write in the same cycle wins over the
reset of the hold flag at commit; a read port is transparent for the write port, i.e. it delivers the
contents of the RAM after this clock edge. -/
def csrStep (c : Csr) : CsrPort :=
  { rdata :=
      match c with
      | .mip => if (r.csr c).hold then (r.csr c).rdata else meiView i.irq
      | .mie => if (r.csr c).hold then (r.csr c).rdata else meiView s.csr.meie
      | .mstatus => if (r.csr c).hold then (r.csr c).rdata else mstatusView s.csr.mie s.csr.mpie
      | _ => if (r.csr c).hold || s.csrWriteTo c then (r.csr c).rdata
        else (s.step i).mem (csrRamAdr (csrNo c))
    wdata := if s.csrWriteTo c then s.aluO else (r.csr c).wdata
    hold := s.csrWriteTo c || ((r.csr c).hold && !s.committed i) }

/-- The value reported as written to a read-only-zero CSR (`formal.py` 581-602). -/
def zeroVal : BitVec 32 :=
  if r.csrOpShadow = 1 || (r.csrOpShadow = 2 && r.rs1Addr ≠ 0) then r.rs1Rdata
  else if r.csrOpShadow = 5 || (r.csrOpShadow = 6 && r.rs1Addr ≠ 0) then r.rs1Addr.setWidth 32
  else 0

/-- `wmask` of a 64-bit counter whose upper half is the CSR `hi` (`formal.py` 565-575; the loop assigns
it for the lower half first, the assignments for the upper half win). -/
def counterWmask (hi : BitVec 12) : BitVec 64 :=
  if r.csrAddrShadow = hi then 0xFFFFFFFF00000000#64 else 0x00000000FFFFFFFF#64

/-- A data access is acknowledged in this cycle (`formal.py` 385-386). -/
def dataAck : Bool := !s.uop.insnFetch && s.uop.memReq && i.ack

/-- One active clock edge with reset deasserted (`formal.py` 282, 292-401, 540-602).  Where the source
assigns a signal twice the later assignment wins: `trap` 382 over 318, `rd_addr` 580 over 322-331. -/
def step : Rvfi :=
  let com := s.committed i
  { inInit := r.inInit && !com
    justCommitted := com
    datWReg := if s.gpWrite then s.aluO else r.datWReg
    order := if r.valid s i then r.order + 1 else r.order
    trap := s.exception i || (r.trap && !com)
    intr := if r.valid s i then r.trap else r.intr
    insn := if com then i.datR else r.insn
    rs1Addr := if com then insnRs1 i.datR else r.rs1Addr
    rs2Addr := if com then insnRs2 i.datR else r.rs2Addr
    rdAddr :=
      if r.doingCsrDecode && s.exception i then 0
      else if com then if rdValid i.datR then insnRd i.datR else 0
      else r.rdAddr
    rs1Rdata := if r.justCommitted then r.rs1Port else r.rs1Rdata
    rs2Rdata := if r.justCommitted then r.rs2Port else r.rs2Rdata
    rs1Port := if com then (s.step i).mem (gpRamAdr (insnRs1 i.datR)) else r.rs1Port
    rs2Port := if com then (s.step i).mem (gpRamAdr (insnRs2 i.datR)) else r.rs2Port
    pcRdata := if com then s.pc ++ 0#2 else r.pcRdata
    memAddr := if dataAck s i then s.adr ++ 0#2 else r.memAddr
    memRmask := if dataAck s i then if s.we then 0 else s.sel else if com then 0 else r.memRmask
    memWmask := if dataAck s i then if s.we then s.sel else 0 else if com then 0 else r.memWmask
    memRdata := if dataAck s i then i.datR else r.memRdata
    memWdata := if dataAck s i then s.datW else r.memWdata
    csr := r.csrStep s i
    csrAddrShadow := if s.doDecode i then insnFunct12 i.datR else r.csrAddrShadow
    csrOpShadow := if s.doDecode i then insnFunct3 i.datR else r.csrOpShadow
    doingCsrDecode := s.romAdr i = 0x24#8
    zeroW := fun a => if r.doingCsrDecode && r.csrAddrShadow = a && rvfiZeroCsrs.contains a
      then r.zeroVal else r.zeroW a }

/-- The harness after a reset (`Signal(init=...)`; the output latches of the RAM ports are not
reset) (`formal.py` 252-604). -/
def AfterReset (r : Rvfi) : Prop :=
  ∃ (p1 p2 : BitVec 32) (q : Csr → BitVec 32), r = { ({} : Rvfi) with rs1Port := p1, rs2Port := p2, csr := fun c => { rdata := q c } } ∧
    q .mip = 0 ∧ q .mie = 0 ∧ q .mstatus = 0

/-- The state of the harness after `n` cycles next to a core that starts in `s` (vocabulary of the theorems; iterates `FormalTop`, `formal.py` 252-604). -/
def run (inp : Nat → Input) : Nat → Rvfi
  | 0 => r
  | n + 1 => (run inp n).step (s.run inp n) (inp n)

/-- What the harness presents in cycle `T` (`formal.py` 252-604). -/
def validAt (inp : Nat → Input) (T : Nat) : Bool := (r.run s inp T).valid (s.run inp T) (inp T)

end Rvfi

end Sentinel
