import Verif.Core.Rvfi
import Verif.Spec.RiscvFormal
/-!
# The RVFI port of the harness — `src/sentinel/formal.py`

All that the port shows in one cycle, with the outputs that are constant.
-/

namespace Sentinel

open Spec (Csr)

/-- What the port shows in cycle `T`: the registered outputs (`Rvfi`), `rd_wdata` and `pc_wdata`, which are combinational
(`formal.py` 335-349), and the constants `halt`, `mode`, `ixl` (405-411) and the masks of the CSRs (423-440). -/
def Rvfi.report (r : Rvfi) (s : State) (inp : Nat → Input) (T : Nat) : RvFormal.Report :=
  let v := r.run s inp T
  { insn := v.insn, trap := v.trap, halt := false, intr := v.intr, mode := 3, ixl := 1
    rs1Addr := v.rs1Addr, rs2Addr := v.rs2Addr, rs1Rdata := v.rs1Rdata, rs2Rdata := v.rs2Rdata
    rdAddr := v.rdAddr, rdWdata := v.rdWdata (s.run inp T) (inp T)
    pcRdata := v.pcRdata, pcWdata := Rvfi.pcWdata (s.run inp T) (inp T)
    memAddr := v.memAddr, memRmask := v.memRmask, memWmask := v.memWmask, memRdata := v.memRdata, memWdata := v.memWdata
    csr := fun c => { rmask := 0xFFFFFFFF, wmask := 0xFFFFFFFF, rdata := (v.csr c).rdata, wdata := (v.csr c).wdata } }

/-- What the port shows about a CSR that reads as zero (`formal.py` 548-602): `rmask` and `rdata` are constant; `wmask` is too but for
the 64-bit counters, of which this is the half that has the address `adr`. -/
def Rvfi.zeroPort (r : Rvfi) (s : State) (inp : Nat → Input) (T : Nat) (adr : BitVec 12) : RvFormal.CsrReport :=
  let v := r.run s inp T
  { rmask := 0xFFFFFFFF
    wmask := if adr = 0xB80 ∨ adr = 0xB82 ∨ adr = 0xB83 then (v.counterWmask adr).extractLsb' 32 32
      else if adr = 0xB00 ∨ adr = 0xB02 ∨ adr = 0xB03 then (v.counterWmask (adr + 0x80)).extractLsb' 0 32
      else 0xFFFFFFFF
    rdata := 0
    wdata := v.zeroW adr }

end Sentinel
