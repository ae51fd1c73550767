import Verif.Ucode.Rom
import Verif.Core.Alu
import Verif.Core.Decode
import Verif.Core.Datapath
import Verif.Core.Exception
import Verif.Core.Control
/-!
# The core — `src/sentinel/top.py`

`State` holds every register and memory of the design (`formal=False`); `step` is one active clock
edge with reset deasserted; `tick` adds the domain reset and a clock enable.
-/

namespace Sentinel

/-- Inputs sampled in one clock cycle (`top.py` 208-212). -/
structure Input where
  datR : BitVec 32 := 0
  ack : Bool := false
  irq : Bool := false
  deriving DecidableEq, Repr

/-- All state elements of the core (`top.py` 192-246 and the submodules created there). -/
structure State where
  /-- read latch of the microcode ROM (reset-less), `ucoderom.py` 180-193 -/
  uop : UInsn
  /-- `Sequencer.next_adr`, `control.py` 639 -/
  nextAdr : BitVec 8
  /-- `Sequencer.ice40_rst_guard`, `control.py` 640 -/
  rstGuard : Bool
  /-- `mem_reset_guard`, `top.py` 238 -/
  memGuard : Bool
  /-- `ASrcMux.data` -/
  a : BitVec 32
  /-- `BSrcMux.data` -/
  b : BitVec 32
  /-- `ALU.o` -/
  aluO : BitVec 32
  /-- `ProgramCounter.dat_r` -/
  pc : BitVec 30
  /-- shared register/CSR RAM, `datapath.py` 382-383 -/
  mem : BitVec 6 → BitVec 32
  /-- read data register of the RAM (reset-less) -/
  rdata : BitVec 32
  csr : CsrState
  dec : DecState
  cause : CauseLatch
  /-- `data_adr`, `top.py` 236 -/
  dataAdr : BitVec 32
  /-- `write_data`, `top.py` 237 -/
  writeData : BitVec 32

namespace State

/-- `top.py` 254-257: `CYC_O`. -/
def cyc (s : State) : Bool := s.uop.memReq && !s.memGuard
/-- `top.py` 254-257: `STB_O`. -/
def stb (s : State) : Bool := s.uop.memReq && !s.memGuard
/-- `top.py` 258: `WE_O`. -/
def we (s : State) : Bool := s.uop.writeMem
/-- `top.py` 259: `DAT_O`. -/
def datW (s : State) : BitVec 32 := s.writeData
/-- `top.py` 260, 335-340: `ADR_O`. -/
def adr (s : State) : BitVec 30 := wbAdr s.uop.memReq s.uop.insnFetch s.pc s.dataAdr
/-- `top.py` 261, 335-340: `SEL_O`. -/
def sel (s : State) : BitVec 4 := wbSel s.uop.memReq s.uop.insnFetch s.uop.memSel s.dataAdr

/-- `top.py` 393-399: address presented to the CSR file. -/
def csrAdr (s : State) : BitVec 4 :=
  match s.uop.csrSel with
  | .insnCsr => s.dec.map.csrEncoding
  | .trgCsr => s.uop.target.extractLsb' 0 4

/-- `top.py` 375-382: register file read address. -/
def regRAdr (s : State) (i : Input) : BitVec 6 :=
  gpRamAdr <| match s.uop.regRSel with
    | .rs1 => if s.uop.insnFetch then insnRs1 i.datR else s.dec.srcA
    | .rs2 => s.dec.srcB

/-- `top.py` 384-391: register file write address. -/
def regWAdr (s : State) : BitVec 6 :=
  match s.uop.regWSel with
  | .rd => gpRamAdr s.dec.dst
  | .zero => 0#6

/-- `top.py` 384-391: `allow_zero_wr`. -/
def allowZeroWr (s : State) : Bool :=
  match s.uop.regWSel with
  | .rd => false
  | .zero => true

/-- Control of the shared RAM in this cycle (`datapath.py` 392-427, connected in `top.py` 318-329 and 375-399). -/
def ram (s : State) (i : Input) : RamCtl :=
  ramCtl s.uop.csrOp s.uop.regRead s.uop.regWrite s.allowZeroWr (s.regRAdr i) s.regWAdr s.csrAdr
    s.aluO (csrWriteData s.csrAdr s.aluO)

/-- An enabled interrupt is pending in this cycle (`exception.py` 237-238, `top.py` 331). -/
def pending (s : State) (i : Input) : Bool := intPending s.csr.mie i.irq s.csr.meie

/-- The `exception` signal in this cycle (`exception.py` 220-266). -/
def exception (s : State) (i : Input) : Bool :=
  exceptionOut s.uop.exceptCtl s.uop.memSel s.aluO s.dec.exc.valid (s.pending i)

/-- The condition test in this cycle (`control.py` 540-553). -/
def test (s : State) (i : Input) : Bool :=
  testOut s.uop.condTest s.uop.invertTest (s.exception i) (aluZero s.aluO) i.ack

/-- Address presented to the microcode ROM in this cycle (`control.py` 646-747). -/
def romAdr (s : State) (i : Input) : BitVec 8 :=
  seqAdr s.rstGuard s.uop.jmpType (s.test i) s.uop.target s.dec.map.requestedOp s.nextAdr

/-- `top.py` 306: `do_decode`. -/
def doDecode (s : State) (i : Input) : Bool := s.uop.insnFetch && i.ack

/-- One active clock edge with reset deasserted (`top.py` 221-419). -/
def step (s : State) (i : Input) : State :=
  { uop := rom (s.romAdr i)
    nextAdr := s.romAdr i + 1#8
    rstGuard := false
    memGuard := false
    a := aNext s.uop.latchA s.uop.aSrc s.rdata s.dec.imm s.aluO s.a
    b := bNext s.uop.latchB s.uop.bSrc s.uop.memSel s.uop.memExtend s.dataAdr s.rdata s.dec.imm
      i.datR (s.csr.datR s.rdata) s.cause.word s.pc s.dec.srcA s.b
    aluO := aluNext s.uop.aluOp s.uop.aluIMod s.uop.aluOMod s.a s.b
    pc := pcNext s.uop.pcAction s.pc s.aluO
    mem := (s.ram i).memNext s.mem
    rdata := (s.ram i).rdataNext s.mem s.rdata
    csr := s.csr.step s.uop.csrOp s.csrAdr s.aluO i.irq s.uop.exceptCtl
    dec := s.dec.step (s.doDecode i) i.datR
    cause := s.cause.step s.uop.exceptCtl s.uop.memSel s.aluO s.dec.exc.valid s.dec.exc.eType
      (s.pending i)
    dataAdr := if s.uop.latchAdr then s.aluO else s.dataAdr
    writeData := if s.uop.latchData then writeDataAlign s.uop.memSel s.dataAdr s.aluO
      else s.writeData }

/-- Reset values of the registers (`Signal(init=...)`, 0 where not given): `control.py` 636-640,
`top.py` 238.  The microcode read latch, the RAM and its read latch are not reset. -/
def resetRegs (uop : UInsn) (mem : BitVec 6 → BitVec 32) (rdata : BitVec 32) : State :=
  { uop := uop, nextAdr := 2#8, rstGuard := true, memGuard := true
    a := 0, b := 0, aluO := 0, pc := 0, mem := mem, rdata := rdata
    csr := {}, dec := {}, cause := {}, dataAdr := 0, writeData := 0 }

/-- One active clock edge with the domain's reset and an optional clock enable
(Amaranth `EnableInserter`).  Reset acts on the registers whether or not the enable is set; memory
ports and their read latches only obey the enable (`top.py` 221-419: the `sync` domain of Amaranth). -/
def tick (s : State) (rst en : Bool) (i : Input) : State :=
  let n := if en then s.step i else s
  if rst then resetRegs n.uop n.mem n.rdata else n

end State

/-- The state at power-on: registers at their initial values, the ROM read latch at 0, register 0 of
the RAM at `0xdeadbeef` (`datapath.py` 378-383). -/
def powerOn : State :=
  State.resetRegs UInsn.hole (fun k => if k = 0#6 then 0xdeadbeef#32 else 0#32) 0

end Sentinel
