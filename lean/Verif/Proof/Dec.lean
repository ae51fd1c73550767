import Verif.Proof.Impl
/-!
# The part of the decoder state that an instruction uses

While an instruction executes, the decoder sees arbitrary bus data every cycle.  `Dec k d` says that
the outputs the datapath uses are those in `k`; `Dec.next` says that they survive a cycle without a
new instruction.
-/

namespace Sentinel

/-- Decoder outputs used during execution. -/
structure Keep where
  srcA : BitVec 5
  srcB : BitVec 5
  dst : BitVec 5
  imm : BitVec 32
  op : BitVec 8
  enc : BitVec 4

/-- The decoder is past its second cycle and holds the outputs `k`. -/
structure Dec (k : Keep) (d : DecState) : Prop where
  srcA : d.srcA = k.srcA
  srcB : d.srcB = k.srcB
  dst : d.dst = k.dst
  imm : d.imm = k.imm
  op : d.map.requestedOp = k.op
  enc : d.map.csrEncoding = k.enc
  f1 : d.map.fwd = false
  f2 : d.exc.fwd = false

theorem Dec.next {k : Keep} {d : DecState} (h : Dec k d) (x : BitVec 32) : Dec k (d.step false x) := by
  obtain ⟨h1, h2, h3, h4, h5, h6, h7, h8⟩ := h
  constructor <;> simp [DecState.step, MapState.step, ExcState.step, *]

/-- The decoder outputs that some decoder state has. -/
def Keep.of (d : DecState) : Keep :=
  ⟨d.srcA, d.srcB, d.dst, d.imm, d.map.requestedOp, d.map.csrEncoding⟩

/-- Write to a general-purpose register of the RAM, ignored for register 0. -/
def gpSet (m : BitVec 6 → BitVec 32) (r : BitVec 5) (v : BitVec 32) : BitVec 6 → BitVec 32 :=
  if r = 0#5 then m else memSet m (gpRamAdr r) v

theorem gpRamAdr_eq_zero (r : BitVec 5) : gpRamAdr r = 0#6 ↔ r = 0#5 := by
  revert r; decide +kernel

theorem gpRamAdr_inj (r q : BitVec 5) : gpRamAdr r = gpRamAdr q ↔ r = q := by
  revert r q; decide +kernel

theorem gpRamAdr_ne_csr (r : BitVec 5) (c : BitVec 4) : gpRamAdr r ≠ csrRamAdr c := by
  revert r c; decide +kernel

theorem csrRamAdr_ne_gp (r : BitVec 5) (c : BitVec 4) : csrRamAdr c ≠ gpRamAdr r := by
  revert r c; decide +kernel

theorem csrRamAdr_inj (r q : BitVec 4) : csrRamAdr r = csrRamAdr q ↔ r = q := by
  revert r q; decide +kernel

/-- Buffered CSR read data after a read of `adr`. -/
def rbNext (adr : BitVec 4) (mie mpie meie irq : Bool) (old : BitVec 32) : BitVec 32 :=
  if adr = CSR_MSTATUS then mstatusView mie mpie
  else if adr = CSR_MIE then meiView meie
  else if adr = CSR_MIP then meiView irq
  else old

/-- CSR data visible to the datapath. -/
def csrView (pa : BitVec 4) (rb rd : BitVec 32) : BitVec 32 :=
  if pa = CSR_MSTATUS ∨ pa = CSR_MIP ∨ pa = CSR_MIE then rb else rd

end Sentinel
