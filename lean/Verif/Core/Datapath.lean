import Verif.Ucode.Fields
/-!
# Program counter, register file and CSR file — `src/sentinel/datapath.py`
-/

namespace Sentinel

/-- `datapath.py` 114-123 `ProgramCounter`; `dat_w` is `alu.o[2:]` (`top.py` 329). -/
def pcNext (act : PcAction) (pc : BitVec 30) (aluO : BitVec 32) : BitVec 30 :=
  match act with
  | .hold => pc
  | .inc => pc + 1#30
  | .loadAluO => aluO.extractLsb' 2 30

/-- CSR addresses in the shared RAM, relative to its top half: `datapath.py` 668-691. -/
abbrev CSR_MSTATUS : BitVec 4 := 0x0
/-- `datapath.py` 675: `CSRFile.MIE`. -/
abbrev CSR_MIE : BitVec 4 := 0x4
/-- `datapath.py` 678: `CSRFile.MTVEC`. -/
abbrev CSR_MTVEC : BitVec 4 := 0x5
/-- `datapath.py` 681: `CSRFile.MSCRATCH`. -/
abbrev CSR_MSCRATCH : BitVec 4 := 0x8
/-- `datapath.py` 684: `CSRFile.MEPC`. -/
abbrev CSR_MEPC : BitVec 4 := 0x9
/-- `datapath.py` 687: `CSRFile.MCAUSE`. -/
abbrev CSR_MCAUSE : BitVec 4 := 0xA
/-- `datapath.py` 691: `CSRFile.MIP`. -/
abbrev CSR_MIP : BitVec 4 := 0xC

/-- A write to the 64-word shared RAM (write port of the `Memory`, `datapath.py` 382-387). -/
def memSet (m : BitVec 6 → BitVec 32) (a : BitVec 6) (d : BitVec 32) : BitVec 6 → BitVec 32 :=
  fun k => if k = a then d else m k

/-- `Cat(self.priv.adr, 1)` (`datapath.py` 418, 422), where `priv.adr` is 5 bits wide and carries
the 4-bit CSR address zero-extended (`top.py` 393-399): address 32 + `adr`. -/
def csrRamAdr (adr : BitVec 4) : BitVec 6 := 2#2 ++ adr

/-- A general-purpose register number on the 6-bit address bus (`top.py` 321-327). -/
def gpRamAdr (r : BitVec 5) : BitVec 6 := 0#1 ++ r

/-- Read and write port control of the shared RAM (`datapath.py` 397-425: `addr`, `en` and `data` of the ports). -/
structure RamCtl where
  rEn : Bool
  rAdr : BitVec 6
  wEn : Bool
  wAdr : BitVec 6
  wDat : BitVec 32

/-- `datapath.py` 392-427 `RegFile.elaborate`.  `adrR`/`adrW` are the general-purpose addresses,
`datW` is `pub.dat_w`, `csrDatW` is `priv.dat_w`.

* `CSROp.NONE`: `reg_write & (adr_w != (0 | allow_zero_wr))` — Python parses `a != 0 | b` so.
* `CSROp.WRITE_CSR` leaves `r_port.en` undriven; Amaranth's read port enable has initial value 1, so
  the port reads `adr_r`. -/
def ramCtl (op : CSROp) (regRead regWrite allowZero : Bool) (adrR adrW : BitVec 6)
    (csrAdr : BitVec 4) (datW csrDatW : BitVec 32) : RamCtl :=
  match op with
  | .none =>
    { rEn := regRead, rAdr := adrR
      wEn := regWrite && !(adrW == (BitVec.ofBool allowZero).setWidth 6)
      wAdr := adrW, wDat := datW }
  | .readCsr =>
    { rEn := true, rAdr := csrRamAdr csrAdr, wEn := false, wAdr := adrW, wDat := datW }
  | .writeCsr =>
    { rEn := true, rAdr := adrR, wEn := true, wAdr := csrRamAdr csrAdr, wDat := csrDatW }

/-- Contents of the RAM after the clock edge (Amaranth `Memory` of `datapath.py` 382-383 with the write port of 387). -/
def RamCtl.memNext (c : RamCtl) (m : BitVec 6 → BitVec 32) : BitVec 6 → BitVec 32 :=
  if c.wEn then memSet m c.wAdr c.wDat else m

/-- The read data register after the clock edge; the read port is transparent for the write port
(`datapath.py` 397). -/
def RamCtl.rdataNext (c : RamCtl) (m : BitVec 6 → BitVec 32) (old : BitVec 32) : BitVec 32 :=
  if c.rEn then
    if c.wEn && c.rAdr == c.wAdr then c.wDat else m c.rAdr
  else old

/-- `datapath.py` 759-767: the low two bits of a write to MTVEC or MEPC are cleared. -/
def csrWriteData (adr : BitVec 4) (d : BitVec 32) : BitVec 32 :=
  if adr = CSR_MTVEC ∨ adr = CSR_MEPC then d &&& ~~~3#32 else d

/-- Flip-flops of `CSRFile` (`datapath.py` 696-700, 749).  `mstatus.mpp` is initialised to 3 and
never assigned, so it is not a state variable; the unimplemented fields of `MStatus`, `MIE` are
never assigned either. `mip` is combinational (`datapath.py` 771). -/
structure CsrState where
  mie : Bool := false
  mpie : Bool := false
  meie : Bool := false
  readBuf : BitVec 32 := 0
  prevAdr : BitVec 4 := 0
  deriving DecidableEq, Repr

/-- View of `mstatus` (`csr.py` 261-274): MIE bit 3, MPIE bit 7, MPP bits 11-12 = 3. -/
def mstatusView (mie mpie : Bool) : BitVec 32 :=
  0#19 ++ 3#2 ++ 0#3 ++ BitVec.ofBool mpie ++ 0#3 ++ BitVec.ofBool mie ++ 0#3

/-- View of `mie`/`mip` (`csr.py` 297-324): the external-interrupt bit is bit 11. -/
def meiView (b : Bool) : BitVec 32 := 0#20 ++ BitVec.ofBool b ++ 0#11

/-- One clock of `CSRFile` (`datapath.py` 713-784).  `ENTER_INT`/`LEAVE_INT` come last in the source
and win over a CSR write in the same cycle. -/
def CsrState.step (s : CsrState) (op : CSROp) (adr : BitVec 4) (datW : BitVec 32) (irq : Bool)
    (ex : ExceptCtl) : CsrState :=
  let wrStatus : Bool := op = .writeCsr && adr = CSR_MSTATUS
  { mie :=
      match ex with
      | .enterInt => false
      | .leaveInt => s.mpie
      | _ => if wrStatus then datW.getLsbD 3 else s.mie
    mpie :=
      match ex with
      | .enterInt => s.mie
      | .leaveInt => true
      | _ => if wrStatus then datW.getLsbD 7 else s.mpie
    meie := if op = .writeCsr && adr = CSR_MIE then datW.getLsbD 11 else s.meie
    readBuf :=
      if op = .readCsr then
        if adr = CSR_MSTATUS then mstatusView s.mie s.mpie
        else if adr = CSR_MIE then meiView s.meie
        else if adr = CSR_MIP then meiView irq
        else s.readBuf
      else s.readBuf
    prevAdr := adr }

/-- `datapath.py` 706, 752-757: CSR read data. -/
def CsrState.datR (s : CsrState) (ramData : BitVec 32) : BitVec 32 :=
  if s.prevAdr = CSR_MSTATUS ∨ s.prevAdr = CSR_MIP ∨ s.prevAdr = CSR_MIE then s.readBuf
  else ramData

end Sentinel
