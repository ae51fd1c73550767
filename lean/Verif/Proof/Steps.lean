import Verif.Proof.Dec
/-!
# One lemma per microinstruction

Generated by `tools/gensteps.py` from `Verif/Ucode/Rom.lean`.  `q_xx` executes the microinstruction
at address `0xxx`, which makes no bus request and does not use the interrupt line; `_t`/`_f` are the
two outcomes of its test; `p_xx` is the case that reads MIP.  `f_xx` executes a microinstruction that
starts an instruction fetch.
-/

set_option linter.unusedSimpArgs false

namespace Sentinel
open Ucode Spec

theorem subUnit_low (a b : BitVec 32) : (subUnit a b).setWidth 32 = a - b := by
  apply BitVec.eq_of_toNat_eq
  simp [subUnit, BitVec.toNat_sub]
  have := a.isLt; have := b.isLt
  omega

variable {α : Type} {F : α → State → Cnt → Prop} {pv : Bool} {T : Tree α} {n : Cnt} {k : Keep}
  {a b o rd rb da wd : BitVec 32} {pc : BitVec 30} {mem : BitVec 6 → BitVec 32}
  {mie mpie meie : Bool} {pa : BitVec 4} {d : DecState} {c : CauseLatch}

theorem q_08 (hd : Dec k d)
    (h : ∀ d, Dec k d → Impl F false ⟨u_0e, 15#8, false, false, a, k.imm, (a + b), (pc + 1#30), mem, rd,
      ⟨mie, mpie, meie, rb, k.enc⟩, d, c, da, wd⟩ T (n + 1)) :
    Impl F pv ⟨u_08, 9#8, false, false, a, b, o, pc, mem, rd, ⟨mie, mpie, meie, rb, pa⟩, d, c, da, wd⟩ T n := by
  refine .quietq 1 rfl rfl (fun _ => rfl) fun i => ?_
  have h := h (d.step false i.datR) (hd.next _)
  simpa [-BitVec.getLsbD_eq_getElem, gpRamAdr_ne_csr, csrRamAdr_inj, State.step, State.romAdr, State.test, State.exception, State.pending, testOut, rawTest, seqAdr, State.ram, ramCtl, RamCtl.memNext, RamCtl.rdataNext, State.regRAdr, State.regWAdr, State.allowZeroWr, State.csrAdr, CsrState.step, CsrState.datR, csrView, rbNext, State.doDecode, aNext, bNext, aluNext, oMux, modIn, modOut, pcNext, CauseLatch.step, exceptionOut, aluZero, gpSet, gpRamAdr_eq_zero, subUnit_low, hd.srcA, hd.srcB, hd.dst, hd.imm, hd.op, hd.enc, rom_0e, u_08] using h

theorem q_09 (hd : Dec k d)
    (h : ∀ d, Dec k d → Impl F false ⟨u_12, 19#8, false, false, a, k.imm, (a + b), pc, mem, rd,
      ⟨mie, mpie, meie, rb, k.enc⟩, d, c, da, wd⟩ T (n + 1)) :
    Impl F pv ⟨u_09, 10#8, false, false, a, b, o, pc, mem, rd, ⟨mie, mpie, meie, rb, pa⟩, d, c, da, wd⟩ T n := by
  refine .quietq 1 rfl rfl (fun _ => rfl) fun i => ?_
  have h := h (d.step false i.datR) (hd.next _)
  simpa [-BitVec.getLsbD_eq_getElem, gpRamAdr_ne_csr, csrRamAdr_inj, State.step, State.romAdr, State.test, State.exception, State.pending, testOut, rawTest, seqAdr, State.ram, ramCtl, RamCtl.memNext, RamCtl.rdataNext, State.regRAdr, State.regWAdr, State.allowZeroWr, State.csrAdr, CsrState.step, CsrState.datR, csrView, rbNext, State.doDecode, aNext, bNext, aluNext, oMux, modIn, modOut, pcNext, CauseLatch.step, exceptionOut, aluZero, gpSet, gpRamAdr_eq_zero, subUnit_low, hd.srcA, hd.srcB, hd.dst, hd.imm, hd.op, hd.enc, rom_12, u_09] using h

theorem q_0a (hd : Dec k d)
    (h : ∀ d, Dec k d → Impl F false ⟨u_16, 23#8, false, false, a, k.imm, (a + b), pc, mem, rd,
      ⟨mie, mpie, meie, rb, k.enc⟩, d, c, da, wd⟩ T (n + 1)) :
    Impl F pv ⟨u_0a, 11#8, false, false, a, b, o, pc, mem, rd, ⟨mie, mpie, meie, rb, pa⟩, d, c, da, wd⟩ T n := by
  refine .quietq 1 rfl rfl (fun _ => rfl) fun i => ?_
  have h := h (d.step false i.datR) (hd.next _)
  simpa [-BitVec.getLsbD_eq_getElem, gpRamAdr_ne_csr, csrRamAdr_inj, State.step, State.romAdr, State.test, State.exception, State.pending, testOut, rawTest, seqAdr, State.ram, ramCtl, RamCtl.memNext, RamCtl.rdataNext, State.regRAdr, State.regWAdr, State.allowZeroWr, State.csrAdr, CsrState.step, CsrState.datR, csrView, rbNext, State.doDecode, aNext, bNext, aluNext, oMux, modIn, modOut, pcNext, CauseLatch.step, exceptionOut, aluZero, gpSet, gpRamAdr_eq_zero, subUnit_low, hd.srcA, hd.srcB, hd.dst, hd.imm, hd.op, hd.enc, rom_16, u_0a] using h

theorem q_0c (hd : Dec k d)
    (h : ∀ d, Dec k d → Impl F false ⟨u_1a, 27#8, false, false, a, k.imm, (a + b), (pc + 1#30), mem, rd,
      ⟨mie, mpie, meie, rb, k.enc⟩, d, c, da, wd⟩ T (n + 1)) :
    Impl F pv ⟨u_0c, 13#8, false, false, a, b, o, pc, mem, rd, ⟨mie, mpie, meie, rb, pa⟩, d, c, da, wd⟩ T n := by
  refine .quietq 1 rfl rfl (fun _ => rfl) fun i => ?_
  have h := h (d.step false i.datR) (hd.next _)
  simpa [-BitVec.getLsbD_eq_getElem, gpRamAdr_ne_csr, csrRamAdr_inj, State.step, State.romAdr, State.test, State.exception, State.pending, testOut, rawTest, seqAdr, State.ram, ramCtl, RamCtl.memNext, RamCtl.rdataNext, State.regRAdr, State.regWAdr, State.allowZeroWr, State.csrAdr, CsrState.step, CsrState.datR, csrView, rbNext, State.doDecode, aNext, bNext, aluNext, oMux, modIn, modOut, pcNext, CauseLatch.step, exceptionOut, aluZero, gpSet, gpRamAdr_eq_zero, subUnit_low, hd.srcA, hd.srcB, hd.dst, hd.imm, hd.op, hd.enc, rom_1a, u_0c] using h

theorem q_0d (hd : Dec k d)
    (h : ∀ d, Dec k d → Impl F false ⟨u_1e, 31#8, false, false, a, k.imm, (a + b), pc, mem, rd,
      ⟨mie, mpie, meie, rb, k.enc⟩, d, c, da, wd⟩ T (n + 1)) :
    Impl F pv ⟨u_0d, 14#8, false, false, a, b, o, pc, mem, rd, ⟨mie, mpie, meie, rb, pa⟩, d, c, da, wd⟩ T n := by
  refine .quietq 1 rfl rfl (fun _ => rfl) fun i => ?_
  have h := h (d.step false i.datR) (hd.next _)
  simpa [-BitVec.getLsbD_eq_getElem, gpRamAdr_ne_csr, csrRamAdr_inj, State.step, State.romAdr, State.test, State.exception, State.pending, testOut, rawTest, seqAdr, State.ram, ramCtl, RamCtl.memNext, RamCtl.rdataNext, State.regRAdr, State.regWAdr, State.allowZeroWr, State.csrAdr, CsrState.step, CsrState.datR, csrView, rbNext, State.doDecode, aNext, bNext, aluNext, oMux, modIn, modOut, pcNext, CauseLatch.step, exceptionOut, aluZero, gpSet, gpRamAdr_eq_zero, subUnit_low, hd.srcA, hd.srcB, hd.dst, hd.imm, hd.op, hd.enc, rom_1e, u_0d] using h

theorem q_0e (hd : Dec k d)
    (h : ∀ d, Dec k d → Impl F false ⟨u_0f, 16#8, false, false, a, b, (a + b), pc, mem, rd,
      ⟨mie, mpie, meie, rb, k.enc⟩, d, c, da, wd⟩ T (n + 1)) :
    Impl F pv ⟨u_0e, 15#8, false, false, a, b, o, pc, mem, rd, ⟨mie, mpie, meie, rb, pa⟩, d, c, da, wd⟩ T n := by
  refine .quietq 1 rfl rfl (fun _ => rfl) fun i => ?_
  have h := h (d.step false i.datR) (hd.next _)
  simpa [-BitVec.getLsbD_eq_getElem, gpRamAdr_ne_csr, csrRamAdr_inj, State.step, State.romAdr, State.test, State.exception, State.pending, testOut, rawTest, seqAdr, State.ram, ramCtl, RamCtl.memNext, RamCtl.rdataNext, State.regRAdr, State.regWAdr, State.allowZeroWr, State.csrAdr, CsrState.step, CsrState.datR, csrView, rbNext, State.doDecode, aNext, bNext, aluNext, oMux, modIn, modOut, pcNext, CauseLatch.step, exceptionOut, aluZero, gpSet, gpRamAdr_eq_zero, subUnit_low, hd.srcA, hd.srcB, hd.dst, hd.imm, hd.op, hd.enc, rom_0f, u_0e] using h

theorem q_0f (hd : Dec k d)
    (h : ∀ d, Dec k d → Impl F false ⟨u_10, 17#8, false, false, a, b, (a + b), pc, mem, rd,
      ⟨mie, mpie, meie, rb, k.enc⟩, d, c, o, wd⟩ T (n + 1)) :
    Impl F pv ⟨u_0f, 16#8, false, false, a, b, o, pc, mem, rd, ⟨mie, mpie, meie, rb, pa⟩, d, c, da, wd⟩ T n := by
  refine .quietq 1 rfl rfl (fun _ => rfl) fun i => ?_
  have h := h (d.step false i.datR) (hd.next _)
  simpa [-BitVec.getLsbD_eq_getElem, gpRamAdr_ne_csr, csrRamAdr_inj, State.step, State.romAdr, State.test, State.exception, State.pending, testOut, rawTest, seqAdr, State.ram, ramCtl, RamCtl.memNext, RamCtl.rdataNext, State.regRAdr, State.regWAdr, State.allowZeroWr, State.csrAdr, CsrState.step, CsrState.datR, csrView, rbNext, State.doDecode, aNext, bNext, aluNext, oMux, modIn, modOut, pcNext, CauseLatch.step, exceptionOut, aluZero, gpSet, gpRamAdr_eq_zero, subUnit_low, hd.srcA, hd.srcB, hd.dst, hd.imm, hd.op, hd.enc, rom_10, u_0f] using h

theorem q_11 (hd : Dec k d)
    (h : ∀ d, Dec k d → Impl F false ⟨u_b5, 182#8, false, false, a, b, (a + b), pc, mem, rd,
      ⟨mie, mpie, meie, rb, k.enc⟩, d, c, da, wd⟩ T (n + 1)) :
    Impl F pv ⟨u_11, 18#8, false, false, a, b, o, pc, mem, rd, ⟨mie, mpie, meie, rb, pa⟩, d, c, da, wd⟩ T n := by
  refine .quietq 1 rfl rfl (fun _ => rfl) fun i => ?_
  have h := h (d.step false i.datR) (hd.next _)
  simpa [-BitVec.getLsbD_eq_getElem, gpRamAdr_ne_csr, csrRamAdr_inj, State.step, State.romAdr, State.test, State.exception, State.pending, testOut, rawTest, seqAdr, State.ram, ramCtl, RamCtl.memNext, RamCtl.rdataNext, State.regRAdr, State.regWAdr, State.allowZeroWr, State.csrAdr, CsrState.step, CsrState.datR, csrView, rbNext, State.doDecode, aNext, bNext, aluNext, oMux, modIn, modOut, pcNext, CauseLatch.step, exceptionOut, aluZero, gpSet, gpRamAdr_eq_zero, subUnit_low, hd.srcA, hd.srcB, hd.dst, hd.imm, hd.op, hd.enc, rom_b5, u_11] using h

theorem q_12 (hd : Dec k d)
    (h : ∀ d, Dec k d → Impl F false ⟨u_13, 20#8, false, false, a, b, (a + b), pc, mem, rd,
      ⟨mie, mpie, meie, rb, k.enc⟩, d, c, da, wd⟩ T (n + 1)) :
    Impl F pv ⟨u_12, 19#8, false, false, a, b, o, pc, mem, rd, ⟨mie, mpie, meie, rb, pa⟩, d, c, da, wd⟩ T n := by
  refine .quietq 1 rfl rfl (fun _ => rfl) fun i => ?_
  have h := h (d.step false i.datR) (hd.next _)
  simpa [-BitVec.getLsbD_eq_getElem, gpRamAdr_ne_csr, csrRamAdr_inj, State.step, State.romAdr, State.test, State.exception, State.pending, testOut, rawTest, seqAdr, State.ram, ramCtl, RamCtl.memNext, RamCtl.rdataNext, State.regRAdr, State.regWAdr, State.allowZeroWr, State.csrAdr, CsrState.step, CsrState.datR, csrView, rbNext, State.doDecode, aNext, bNext, aluNext, oMux, modIn, modOut, pcNext, CauseLatch.step, exceptionOut, aluZero, gpSet, gpRamAdr_eq_zero, subUnit_low, hd.srcA, hd.srcB, hd.dst, hd.imm, hd.op, hd.enc, rom_13, u_12] using h

theorem q_13_t (hd : Dec k d) (hc : dataMisaligned .hword o = true)
    (h : ∀ d, Dec k d → Impl F false ⟨u_f0, 241#8, false, false, a, b, (a + b), pc, mem, rd,
      ⟨mie, mpie, meie, rb, k.enc⟩, d, { c with cause := 4 }, o, wd⟩ T (n + .x)) :
    Impl F pv ⟨u_13, 20#8, false, false, a, b, o, pc, mem, rd, ⟨mie, mpie, meie, rb, pa⟩, d, c, da, wd⟩ T n := by
  refine .quietq .x rfl rfl (by intro i; simp [-BitVec.getLsbD_eq_getElem, State.tally, State.cyc, State.exception, exceptionOut, u_13, hc, Cnt.x]) fun i => ?_
  have h := h (d.step false i.datR) (hd.next _)
  simpa [-BitVec.getLsbD_eq_getElem, gpRamAdr_ne_csr, csrRamAdr_inj, State.step, State.romAdr, State.test, State.exception, State.pending, testOut, rawTest, seqAdr, State.ram, ramCtl, RamCtl.memNext, RamCtl.rdataNext, State.regRAdr, State.regWAdr, State.allowZeroWr, State.csrAdr, CsrState.step, CsrState.datR, csrView, rbNext, State.doDecode, aNext, bNext, aluNext, oMux, modIn, modOut, pcNext, CauseLatch.step, exceptionOut, aluZero, gpSet, gpRamAdr_eq_zero, subUnit_low, hd.srcA, hd.srcB, hd.dst, hd.imm, hd.op, hd.enc, rom_f0, u_13, hc] using h

theorem q_13_f (hd : Dec k d) (hc : dataMisaligned .hword o = false)
    (h : ∀ d, Dec k d → Impl F false ⟨u_14, 21#8, false, false, a, b, (a + b), pc, mem, rd,
      ⟨mie, mpie, meie, rb, k.enc⟩, d, c, o, wd⟩ T (n + 1)) :
    Impl F pv ⟨u_13, 20#8, false, false, a, b, o, pc, mem, rd, ⟨mie, mpie, meie, rb, pa⟩, d, c, da, wd⟩ T n := by
  refine .quietq 1 rfl rfl (by intro i; simp [-BitVec.getLsbD_eq_getElem, State.tally, State.cyc, State.exception, exceptionOut, u_13, hc]; rfl) fun i => ?_
  have h := h (d.step false i.datR) (hd.next _)
  simpa [-BitVec.getLsbD_eq_getElem, gpRamAdr_ne_csr, csrRamAdr_inj, State.step, State.romAdr, State.test, State.exception, State.pending, testOut, rawTest, seqAdr, State.ram, ramCtl, RamCtl.memNext, RamCtl.rdataNext, State.regRAdr, State.regWAdr, State.allowZeroWr, State.csrAdr, CsrState.step, CsrState.datR, csrView, rbNext, State.doDecode, aNext, bNext, aluNext, oMux, modIn, modOut, pcNext, CauseLatch.step, exceptionOut, aluZero, gpSet, gpRamAdr_eq_zero, subUnit_low, hd.srcA, hd.srcB, hd.dst, hd.imm, hd.op, hd.enc, rom_14, u_13, hc] using h

theorem q_15 (hd : Dec k d)
    (h : ∀ d, Dec k d → Impl F false ⟨u_b5, 182#8, false, false, a, b, (a + b), (pc + 1#30), mem, rd,
      ⟨mie, mpie, meie, rb, k.enc⟩, d, c, da, wd⟩ T (n + 1)) :
    Impl F pv ⟨u_15, 22#8, false, false, a, b, o, pc, mem, rd, ⟨mie, mpie, meie, rb, pa⟩, d, c, da, wd⟩ T n := by
  refine .quietq 1 rfl rfl (fun _ => rfl) fun i => ?_
  have h := h (d.step false i.datR) (hd.next _)
  simpa [-BitVec.getLsbD_eq_getElem, gpRamAdr_ne_csr, csrRamAdr_inj, State.step, State.romAdr, State.test, State.exception, State.pending, testOut, rawTest, seqAdr, State.ram, ramCtl, RamCtl.memNext, RamCtl.rdataNext, State.regRAdr, State.regWAdr, State.allowZeroWr, State.csrAdr, CsrState.step, CsrState.datR, csrView, rbNext, State.doDecode, aNext, bNext, aluNext, oMux, modIn, modOut, pcNext, CauseLatch.step, exceptionOut, aluZero, gpSet, gpRamAdr_eq_zero, subUnit_low, hd.srcA, hd.srcB, hd.dst, hd.imm, hd.op, hd.enc, rom_b5, u_15] using h

theorem q_16 (hd : Dec k d)
    (h : ∀ d, Dec k d → Impl F false ⟨u_17, 24#8, false, false, a, b, (a + b), pc, mem, rd,
      ⟨mie, mpie, meie, rb, k.enc⟩, d, c, da, wd⟩ T (n + 1)) :
    Impl F pv ⟨u_16, 23#8, false, false, a, b, o, pc, mem, rd, ⟨mie, mpie, meie, rb, pa⟩, d, c, da, wd⟩ T n := by
  refine .quietq 1 rfl rfl (fun _ => rfl) fun i => ?_
  have h := h (d.step false i.datR) (hd.next _)
  simpa [-BitVec.getLsbD_eq_getElem, gpRamAdr_ne_csr, csrRamAdr_inj, State.step, State.romAdr, State.test, State.exception, State.pending, testOut, rawTest, seqAdr, State.ram, ramCtl, RamCtl.memNext, RamCtl.rdataNext, State.regRAdr, State.regWAdr, State.allowZeroWr, State.csrAdr, CsrState.step, CsrState.datR, csrView, rbNext, State.doDecode, aNext, bNext, aluNext, oMux, modIn, modOut, pcNext, CauseLatch.step, exceptionOut, aluZero, gpSet, gpRamAdr_eq_zero, subUnit_low, hd.srcA, hd.srcB, hd.dst, hd.imm, hd.op, hd.enc, rom_17, u_16] using h

theorem q_17_t (hd : Dec k d) (hc : dataMisaligned .word o = true)
    (h : ∀ d, Dec k d → Impl F false ⟨u_f0, 241#8, false, false, a, b, (a + b), pc, mem, rd,
      ⟨mie, mpie, meie, rb, k.enc⟩, d, { c with cause := 4 }, o, wd⟩ T (n + .x)) :
    Impl F pv ⟨u_17, 24#8, false, false, a, b, o, pc, mem, rd, ⟨mie, mpie, meie, rb, pa⟩, d, c, da, wd⟩ T n := by
  refine .quietq .x rfl rfl (by intro i; simp [-BitVec.getLsbD_eq_getElem, State.tally, State.cyc, State.exception, exceptionOut, u_17, hc, Cnt.x]) fun i => ?_
  have h := h (d.step false i.datR) (hd.next _)
  simpa [-BitVec.getLsbD_eq_getElem, gpRamAdr_ne_csr, csrRamAdr_inj, State.step, State.romAdr, State.test, State.exception, State.pending, testOut, rawTest, seqAdr, State.ram, ramCtl, RamCtl.memNext, RamCtl.rdataNext, State.regRAdr, State.regWAdr, State.allowZeroWr, State.csrAdr, CsrState.step, CsrState.datR, csrView, rbNext, State.doDecode, aNext, bNext, aluNext, oMux, modIn, modOut, pcNext, CauseLatch.step, exceptionOut, aluZero, gpSet, gpRamAdr_eq_zero, subUnit_low, hd.srcA, hd.srcB, hd.dst, hd.imm, hd.op, hd.enc, rom_f0, u_17, hc] using h

theorem q_17_f (hd : Dec k d) (hc : dataMisaligned .word o = false)
    (h : ∀ d, Dec k d → Impl F false ⟨u_18, 25#8, false, false, a, b, (a + b), pc, mem, rd,
      ⟨mie, mpie, meie, rb, k.enc⟩, d, c, o, wd⟩ T (n + 1)) :
    Impl F pv ⟨u_17, 24#8, false, false, a, b, o, pc, mem, rd, ⟨mie, mpie, meie, rb, pa⟩, d, c, da, wd⟩ T n := by
  refine .quietq 1 rfl rfl (by intro i; simp [-BitVec.getLsbD_eq_getElem, State.tally, State.cyc, State.exception, exceptionOut, u_17, hc]; rfl) fun i => ?_
  have h := h (d.step false i.datR) (hd.next _)
  simpa [-BitVec.getLsbD_eq_getElem, gpRamAdr_ne_csr, csrRamAdr_inj, State.step, State.romAdr, State.test, State.exception, State.pending, testOut, rawTest, seqAdr, State.ram, ramCtl, RamCtl.memNext, RamCtl.rdataNext, State.regRAdr, State.regWAdr, State.allowZeroWr, State.csrAdr, CsrState.step, CsrState.datR, csrView, rbNext, State.doDecode, aNext, bNext, aluNext, oMux, modIn, modOut, pcNext, CauseLatch.step, exceptionOut, aluZero, gpSet, gpRamAdr_eq_zero, subUnit_low, hd.srcA, hd.srcB, hd.dst, hd.imm, hd.op, hd.enc, rom_18, u_17, hc] using h

theorem q_19 (hd : Dec k d)
    (h : ∀ d, Dec k d → Impl F false ⟨u_b5, 182#8, false, false, a, b, (a + b), (pc + 1#30), mem, rd,
      ⟨mie, mpie, meie, rb, k.enc⟩, d, c, da, wd⟩ T (n + 1)) :
    Impl F pv ⟨u_19, 26#8, false, false, a, b, o, pc, mem, rd, ⟨mie, mpie, meie, rb, pa⟩, d, c, da, wd⟩ T n := by
  refine .quietq 1 rfl rfl (fun _ => rfl) fun i => ?_
  have h := h (d.step false i.datR) (hd.next _)
  simpa [-BitVec.getLsbD_eq_getElem, gpRamAdr_ne_csr, csrRamAdr_inj, State.step, State.romAdr, State.test, State.exception, State.pending, testOut, rawTest, seqAdr, State.ram, ramCtl, RamCtl.memNext, RamCtl.rdataNext, State.regRAdr, State.regWAdr, State.allowZeroWr, State.csrAdr, CsrState.step, CsrState.datR, csrView, rbNext, State.doDecode, aNext, bNext, aluNext, oMux, modIn, modOut, pcNext, CauseLatch.step, exceptionOut, aluZero, gpSet, gpRamAdr_eq_zero, subUnit_low, hd.srcA, hd.srcB, hd.dst, hd.imm, hd.op, hd.enc, rom_b5, u_19] using h

theorem q_1a (hd : Dec k d)
    (h : ∀ d, Dec k d → Impl F false ⟨u_1b, 28#8, false, false, a, b, (a + b), pc, mem, rd,
      ⟨mie, mpie, meie, rb, k.enc⟩, d, c, da, wd⟩ T (n + 1)) :
    Impl F pv ⟨u_1a, 27#8, false, false, a, b, o, pc, mem, rd, ⟨mie, mpie, meie, rb, pa⟩, d, c, da, wd⟩ T n := by
  refine .quietq 1 rfl rfl (fun _ => rfl) fun i => ?_
  have h := h (d.step false i.datR) (hd.next _)
  simpa [-BitVec.getLsbD_eq_getElem, gpRamAdr_ne_csr, csrRamAdr_inj, State.step, State.romAdr, State.test, State.exception, State.pending, testOut, rawTest, seqAdr, State.ram, ramCtl, RamCtl.memNext, RamCtl.rdataNext, State.regRAdr, State.regWAdr, State.allowZeroWr, State.csrAdr, CsrState.step, CsrState.datR, csrView, rbNext, State.doDecode, aNext, bNext, aluNext, oMux, modIn, modOut, pcNext, CauseLatch.step, exceptionOut, aluZero, gpSet, gpRamAdr_eq_zero, subUnit_low, hd.srcA, hd.srcB, hd.dst, hd.imm, hd.op, hd.enc, rom_1b, u_1a] using h

theorem q_1b (hd : Dec k d)
    (h : ∀ d, Dec k d → Impl F false ⟨u_1c, 29#8, false, false, a, b, (a + b), pc, mem, rd,
      ⟨mie, mpie, meie, rb, k.enc⟩, d, c, o, wd⟩ T (n + 1)) :
    Impl F pv ⟨u_1b, 28#8, false, false, a, b, o, pc, mem, rd, ⟨mie, mpie, meie, rb, pa⟩, d, c, da, wd⟩ T n := by
  refine .quietq 1 rfl rfl (fun _ => rfl) fun i => ?_
  have h := h (d.step false i.datR) (hd.next _)
  simpa [-BitVec.getLsbD_eq_getElem, gpRamAdr_ne_csr, csrRamAdr_inj, State.step, State.romAdr, State.test, State.exception, State.pending, testOut, rawTest, seqAdr, State.ram, ramCtl, RamCtl.memNext, RamCtl.rdataNext, State.regRAdr, State.regWAdr, State.allowZeroWr, State.csrAdr, CsrState.step, CsrState.datR, csrView, rbNext, State.doDecode, aNext, bNext, aluNext, oMux, modIn, modOut, pcNext, CauseLatch.step, exceptionOut, aluZero, gpSet, gpRamAdr_eq_zero, subUnit_low, hd.srcA, hd.srcB, hd.dst, hd.imm, hd.op, hd.enc, rom_1c, u_1b] using h

theorem q_1d (hd : Dec k d)
    (h : ∀ d, Dec k d → Impl F false ⟨u_b5, 182#8, false, false, a, b, (a + b), pc, mem, rd,
      ⟨mie, mpie, meie, rb, k.enc⟩, d, c, da, wd⟩ T (n + 1)) :
    Impl F pv ⟨u_1d, 30#8, false, false, a, b, o, pc, mem, rd, ⟨mie, mpie, meie, rb, pa⟩, d, c, da, wd⟩ T n := by
  refine .quietq 1 rfl rfl (fun _ => rfl) fun i => ?_
  have h := h (d.step false i.datR) (hd.next _)
  simpa [-BitVec.getLsbD_eq_getElem, gpRamAdr_ne_csr, csrRamAdr_inj, State.step, State.romAdr, State.test, State.exception, State.pending, testOut, rawTest, seqAdr, State.ram, ramCtl, RamCtl.memNext, RamCtl.rdataNext, State.regRAdr, State.regWAdr, State.allowZeroWr, State.csrAdr, CsrState.step, CsrState.datR, csrView, rbNext, State.doDecode, aNext, bNext, aluNext, oMux, modIn, modOut, pcNext, CauseLatch.step, exceptionOut, aluZero, gpSet, gpRamAdr_eq_zero, subUnit_low, hd.srcA, hd.srcB, hd.dst, hd.imm, hd.op, hd.enc, rom_b5, u_1d] using h

theorem q_1e (hd : Dec k d)
    (h : ∀ d, Dec k d → Impl F false ⟨u_1f, 32#8, false, false, a, b, (a + b), pc, mem, rd,
      ⟨mie, mpie, meie, rb, k.enc⟩, d, c, da, wd⟩ T (n + 1)) :
    Impl F pv ⟨u_1e, 31#8, false, false, a, b, o, pc, mem, rd, ⟨mie, mpie, meie, rb, pa⟩, d, c, da, wd⟩ T n := by
  refine .quietq 1 rfl rfl (fun _ => rfl) fun i => ?_
  have h := h (d.step false i.datR) (hd.next _)
  simpa [-BitVec.getLsbD_eq_getElem, gpRamAdr_ne_csr, csrRamAdr_inj, State.step, State.romAdr, State.test, State.exception, State.pending, testOut, rawTest, seqAdr, State.ram, ramCtl, RamCtl.memNext, RamCtl.rdataNext, State.regRAdr, State.regWAdr, State.allowZeroWr, State.csrAdr, CsrState.step, CsrState.datR, csrView, rbNext, State.doDecode, aNext, bNext, aluNext, oMux, modIn, modOut, pcNext, CauseLatch.step, exceptionOut, aluZero, gpSet, gpRamAdr_eq_zero, subUnit_low, hd.srcA, hd.srcB, hd.dst, hd.imm, hd.op, hd.enc, rom_1f, u_1e] using h

theorem q_1f_t (hd : Dec k d) (hc : dataMisaligned .hword o = true)
    (h : ∀ d, Dec k d → Impl F false ⟨u_f0, 241#8, false, false, a, b, (a + b), pc, mem, rd,
      ⟨mie, mpie, meie, rb, k.enc⟩, d, { c with cause := 4 }, o, wd⟩ T (n + .x)) :
    Impl F pv ⟨u_1f, 32#8, false, false, a, b, o, pc, mem, rd, ⟨mie, mpie, meie, rb, pa⟩, d, c, da, wd⟩ T n := by
  refine .quietq .x rfl rfl (by intro i; simp [-BitVec.getLsbD_eq_getElem, State.tally, State.cyc, State.exception, exceptionOut, u_1f, hc, Cnt.x]) fun i => ?_
  have h := h (d.step false i.datR) (hd.next _)
  simpa [-BitVec.getLsbD_eq_getElem, gpRamAdr_ne_csr, csrRamAdr_inj, State.step, State.romAdr, State.test, State.exception, State.pending, testOut, rawTest, seqAdr, State.ram, ramCtl, RamCtl.memNext, RamCtl.rdataNext, State.regRAdr, State.regWAdr, State.allowZeroWr, State.csrAdr, CsrState.step, CsrState.datR, csrView, rbNext, State.doDecode, aNext, bNext, aluNext, oMux, modIn, modOut, pcNext, CauseLatch.step, exceptionOut, aluZero, gpSet, gpRamAdr_eq_zero, subUnit_low, hd.srcA, hd.srcB, hd.dst, hd.imm, hd.op, hd.enc, rom_f0, u_1f, hc] using h

theorem q_1f_f (hd : Dec k d) (hc : dataMisaligned .hword o = false)
    (h : ∀ d, Dec k d → Impl F false ⟨u_20, 33#8, false, false, a, b, (a + b), pc, mem, rd,
      ⟨mie, mpie, meie, rb, k.enc⟩, d, c, o, wd⟩ T (n + 1)) :
    Impl F pv ⟨u_1f, 32#8, false, false, a, b, o, pc, mem, rd, ⟨mie, mpie, meie, rb, pa⟩, d, c, da, wd⟩ T n := by
  refine .quietq 1 rfl rfl (by intro i; simp [-BitVec.getLsbD_eq_getElem, State.tally, State.cyc, State.exception, exceptionOut, u_1f, hc]; rfl) fun i => ?_
  have h := h (d.step false i.datR) (hd.next _)
  simpa [-BitVec.getLsbD_eq_getElem, gpRamAdr_ne_csr, csrRamAdr_inj, State.step, State.romAdr, State.test, State.exception, State.pending, testOut, rawTest, seqAdr, State.ram, ramCtl, RamCtl.memNext, RamCtl.rdataNext, State.regRAdr, State.regWAdr, State.allowZeroWr, State.csrAdr, CsrState.step, CsrState.datR, csrView, rbNext, State.doDecode, aNext, bNext, aluNext, oMux, modIn, modOut, pcNext, CauseLatch.step, exceptionOut, aluZero, gpSet, gpRamAdr_eq_zero, subUnit_low, hd.srcA, hd.srcB, hd.dst, hd.imm, hd.op, hd.enc, rom_20, u_1f, hc] using h

theorem q_21 (hd : Dec k d)
    (h : ∀ d, Dec k d → Impl F false ⟨u_b5, 182#8, false, false, a, b, (a + b), (pc + 1#30), mem, rd,
      ⟨mie, mpie, meie, rb, k.enc⟩, d, c, da, wd⟩ T (n + 1)) :
    Impl F pv ⟨u_21, 34#8, false, false, a, b, o, pc, mem, rd, ⟨mie, mpie, meie, rb, pa⟩, d, c, da, wd⟩ T n := by
  refine .quietq 1 rfl rfl (fun _ => rfl) fun i => ?_
  have h := h (d.step false i.datR) (hd.next _)
  simpa [-BitVec.getLsbD_eq_getElem, gpRamAdr_ne_csr, csrRamAdr_inj, State.step, State.romAdr, State.test, State.exception, State.pending, testOut, rawTest, seqAdr, State.ram, ramCtl, RamCtl.memNext, RamCtl.rdataNext, State.regRAdr, State.regWAdr, State.allowZeroWr, State.csrAdr, CsrState.step, CsrState.datR, csrView, rbNext, State.doDecode, aNext, bNext, aluNext, oMux, modIn, modOut, pcNext, CauseLatch.step, exceptionOut, aluZero, gpSet, gpRamAdr_eq_zero, subUnit_low, hd.srcA, hd.srcB, hd.dst, hd.imm, hd.op, hd.enc, rom_b5, u_21] using h

theorem q_25 (hd : Dec k d)
    (h : ∀ d, Dec k d → Impl F false ⟨u_31, 50#8, false, false, 0#32, 1#32, (a + b), (pc + 1#30), mem, rd,
      ⟨mie, mpie, meie, rb, k.enc⟩, d, c, da, wd⟩ T (n + 1)) :
    Impl F pv ⟨u_25, 38#8, false, false, a, b, o, pc, mem, rd, ⟨mie, mpie, meie, rb, pa⟩, d, c, da, wd⟩ T n := by
  refine .quietq 1 rfl rfl (fun _ => rfl) fun i => ?_
  have h := h (d.step false i.datR) (hd.next _)
  simpa [-BitVec.getLsbD_eq_getElem, gpRamAdr_ne_csr, csrRamAdr_inj, State.step, State.romAdr, State.test, State.exception, State.pending, testOut, rawTest, seqAdr, State.ram, ramCtl, RamCtl.memNext, RamCtl.rdataNext, State.regRAdr, State.regWAdr, State.allowZeroWr, State.csrAdr, CsrState.step, CsrState.datR, csrView, rbNext, State.doDecode, aNext, bNext, aluNext, oMux, modIn, modOut, pcNext, CauseLatch.step, exceptionOut, aluZero, gpSet, gpRamAdr_eq_zero, subUnit_low, hd.srcA, hd.srcB, hd.dst, hd.imm, hd.op, hd.enc, rom_31, u_25] using h

theorem q_26 (hd : Dec k d)
    (h : ∀ d, Dec k d → Impl F false ⟨u_34, 53#8, false, false, 0#32, rd, (a + b), (pc + 1#30), mem, rd,
      ⟨mie, mpie, meie, rb, k.enc⟩, d, c, da, wd⟩ T (n + 1)) :
    Impl F pv ⟨u_26, 39#8, false, false, a, b, o, pc, mem, rd, ⟨mie, mpie, meie, rb, pa⟩, d, c, da, wd⟩ T n := by
  refine .quietq 1 rfl rfl (fun _ => rfl) fun i => ?_
  have h := h (d.step false i.datR) (hd.next _)
  simpa [-BitVec.getLsbD_eq_getElem, gpRamAdr_ne_csr, csrRamAdr_inj, State.step, State.romAdr, State.test, State.exception, State.pending, testOut, rawTest, seqAdr, State.ram, ramCtl, RamCtl.memNext, RamCtl.rdataNext, State.regRAdr, State.regWAdr, State.allowZeroWr, State.csrAdr, CsrState.step, CsrState.datR, csrView, rbNext, State.doDecode, aNext, bNext, aluNext, oMux, modIn, modOut, pcNext, CauseLatch.step, exceptionOut, aluZero, gpSet, gpRamAdr_eq_zero, subUnit_low, hd.srcA, hd.srcB, hd.dst, hd.imm, hd.op, hd.enc, rom_34, u_26] using h

theorem q_27 (hd : Dec k d) (hp : k.enc ≠ CSR_MIP)
    (h : ∀ d, Dec k d → Impl F false ⟨u_35, 54#8, false, false, 0#32, rd, (a + b), (pc + 1#30), mem, (mem (csrRamAdr k.enc)),
      ⟨mie, mpie, meie, (rbNext k.enc mie mpie meie false rb), k.enc⟩, d, c, da, wd⟩ T (n + 1)) :
    Impl F pv ⟨u_27, 40#8, false, false, a, b, o, pc, mem, rd, ⟨mie, mpie, meie, rb, pa⟩, d, c, da, wd⟩ T n := by
  have hp1 : ¬ k.enc = 12#4 := hp
  refine .quietq 1 rfl (by simp [State.polls, State.csrAdr, u_27, hd.enc, hp1]) (fun _ => rfl) fun i => ?_
  have h := h (d.step false i.datR) (hd.next _)
  have hp2 : ¬ k.enc = 12#4 := hp
  simpa [-BitVec.getLsbD_eq_getElem, gpRamAdr_ne_csr, csrRamAdr_inj, State.step, State.romAdr, State.test, State.exception, State.pending, testOut, rawTest, seqAdr, State.ram, ramCtl, RamCtl.memNext, RamCtl.rdataNext, State.regRAdr, State.regWAdr, State.allowZeroWr, State.csrAdr, CsrState.step, CsrState.datR, csrView, rbNext, State.doDecode, aNext, bNext, aluNext, oMux, modIn, modOut, pcNext, CauseLatch.step, exceptionOut, aluZero, gpSet, gpRamAdr_eq_zero, subUnit_low, hd.srcA, hd.srcB, hd.dst, hd.imm, hd.op, hd.enc, rom_35, u_27, hp, hp2] using h

theorem p_27 {K : Bool → Tree α} (hd : Dec k d) (hp : k.enc = CSR_MIP)
    (h : ∀ d b0, Dec k d → Impl F false ⟨u_35, 54#8, false, false, 0#32, rd, (a + b), (pc + 1#30), mem, (mem (csrRamAdr k.enc)),
      ⟨mie, mpie, meie, (meiView b0), k.enc⟩, d, c, da, wd⟩ (K b0) (n + 1)) :
    Impl F pv ⟨u_27, 40#8, false, false, a, b, o, pc, mem, rd, ⟨mie, mpie, meie, rb, pa⟩, d, c, da, wd⟩ (.poll K) n := by
  refine .pollq 1 rfl (by simp [State.polls, State.csrAdr, u_27, hd.enc, hp]) (by simp [u_27, u_01]) (fun _ => rfl) fun i => ?_
  have h := h (d.step false i.datR) i.irq (hd.next _)
  simpa [-BitVec.getLsbD_eq_getElem, gpRamAdr_ne_csr, csrRamAdr_inj, State.step, State.romAdr, State.test, State.exception, State.pending, testOut, rawTest, seqAdr, State.ram, ramCtl, RamCtl.memNext, RamCtl.rdataNext, State.regRAdr, State.regWAdr, State.allowZeroWr, State.csrAdr, CsrState.step, CsrState.datR, csrView, rbNext, State.doDecode, aNext, bNext, aluNext, oMux, modIn, modOut, pcNext, CauseLatch.step, exceptionOut, aluZero, gpSet, gpRamAdr_eq_zero, subUnit_low, hd.srcA, hd.srcB, hd.dst, hd.imm, hd.op, hd.enc, rom_35, u_27, hp] using h

theorem q_28 (hd : Dec k d) (hp : k.enc ≠ CSR_MIP)
    (h : ∀ d, Dec k d → Impl F false ⟨u_32, 51#8, false, false, 0#32, b, (a + b), (pc + 1#30), mem, (mem (csrRamAdr k.enc)),
      ⟨mie, mpie, meie, (rbNext k.enc mie mpie meie false rb), k.enc⟩, d, c, da, wd⟩ T (n + 1)) :
    Impl F pv ⟨u_28, 41#8, false, false, a, b, o, pc, mem, rd, ⟨mie, mpie, meie, rb, pa⟩, d, c, da, wd⟩ T n := by
  have hp1 : ¬ k.enc = 12#4 := hp
  refine .quietq 1 rfl (by simp [State.polls, State.csrAdr, u_28, hd.enc, hp1]) (fun _ => rfl) fun i => ?_
  have h := h (d.step false i.datR) (hd.next _)
  have hp2 : ¬ k.enc = 12#4 := hp
  simpa [-BitVec.getLsbD_eq_getElem, gpRamAdr_ne_csr, csrRamAdr_inj, State.step, State.romAdr, State.test, State.exception, State.pending, testOut, rawTest, seqAdr, State.ram, ramCtl, RamCtl.memNext, RamCtl.rdataNext, State.regRAdr, State.regWAdr, State.allowZeroWr, State.csrAdr, CsrState.step, CsrState.datR, csrView, rbNext, State.doDecode, aNext, bNext, aluNext, oMux, modIn, modOut, pcNext, CauseLatch.step, exceptionOut, aluZero, gpSet, gpRamAdr_eq_zero, subUnit_low, hd.srcA, hd.srcB, hd.dst, hd.imm, hd.op, hd.enc, rom_32, u_28, hp, hp2] using h

theorem p_28 {K : Bool → Tree α} (hd : Dec k d) (hp : k.enc = CSR_MIP)
    (h : ∀ d b0, Dec k d → Impl F false ⟨u_32, 51#8, false, false, 0#32, b, (a + b), (pc + 1#30), mem, (mem (csrRamAdr k.enc)),
      ⟨mie, mpie, meie, (meiView b0), k.enc⟩, d, c, da, wd⟩ (K b0) (n + 1)) :
    Impl F pv ⟨u_28, 41#8, false, false, a, b, o, pc, mem, rd, ⟨mie, mpie, meie, rb, pa⟩, d, c, da, wd⟩ (.poll K) n := by
  refine .pollq 1 rfl (by simp [State.polls, State.csrAdr, u_28, hd.enc, hp]) (by simp [u_28, u_01]) (fun _ => rfl) fun i => ?_
  have h := h (d.step false i.datR) i.irq (hd.next _)
  simpa [-BitVec.getLsbD_eq_getElem, gpRamAdr_ne_csr, csrRamAdr_inj, State.step, State.romAdr, State.test, State.exception, State.pending, testOut, rawTest, seqAdr, State.ram, ramCtl, RamCtl.memNext, RamCtl.rdataNext, State.regRAdr, State.regWAdr, State.allowZeroWr, State.csrAdr, CsrState.step, CsrState.datR, csrView, rbNext, State.doDecode, aNext, bNext, aluNext, oMux, modIn, modOut, pcNext, CauseLatch.step, exceptionOut, aluZero, gpSet, gpRamAdr_eq_zero, subUnit_low, hd.srcA, hd.srcB, hd.dst, hd.imm, hd.op, hd.enc, rom_32, u_28, hp] using h

theorem q_29 (hd : Dec k d) (hp : k.enc ≠ CSR_MIP)
    (h : ∀ d, Dec k d → Impl F false ⟨u_49, 74#8, false, false, 0#32, b, (a + b), (pc + 1#30), mem, (mem (csrRamAdr k.enc)),
      ⟨mie, mpie, meie, (rbNext k.enc mie mpie meie false rb), k.enc⟩, d, c, da, wd⟩ T (n + 1)) :
    Impl F pv ⟨u_29, 42#8, false, false, a, b, o, pc, mem, rd, ⟨mie, mpie, meie, rb, pa⟩, d, c, da, wd⟩ T n := by
  have hp1 : ¬ k.enc = 12#4 := hp
  refine .quietq 1 rfl (by simp [State.polls, State.csrAdr, u_29, hd.enc, hp1]) (fun _ => rfl) fun i => ?_
  have h := h (d.step false i.datR) (hd.next _)
  have hp2 : ¬ k.enc = 12#4 := hp
  simpa [-BitVec.getLsbD_eq_getElem, gpRamAdr_ne_csr, csrRamAdr_inj, State.step, State.romAdr, State.test, State.exception, State.pending, testOut, rawTest, seqAdr, State.ram, ramCtl, RamCtl.memNext, RamCtl.rdataNext, State.regRAdr, State.regWAdr, State.allowZeroWr, State.csrAdr, CsrState.step, CsrState.datR, csrView, rbNext, State.doDecode, aNext, bNext, aluNext, oMux, modIn, modOut, pcNext, CauseLatch.step, exceptionOut, aluZero, gpSet, gpRamAdr_eq_zero, subUnit_low, hd.srcA, hd.srcB, hd.dst, hd.imm, hd.op, hd.enc, rom_49, u_29, hp, hp2] using h

theorem p_29 {K : Bool → Tree α} (hd : Dec k d) (hp : k.enc = CSR_MIP)
    (h : ∀ d b0, Dec k d → Impl F false ⟨u_49, 74#8, false, false, 0#32, b, (a + b), (pc + 1#30), mem, (mem (csrRamAdr k.enc)),
      ⟨mie, mpie, meie, (meiView b0), k.enc⟩, d, c, da, wd⟩ (K b0) (n + 1)) :
    Impl F pv ⟨u_29, 42#8, false, false, a, b, o, pc, mem, rd, ⟨mie, mpie, meie, rb, pa⟩, d, c, da, wd⟩ (.poll K) n := by
  refine .pollq 1 rfl (by simp [State.polls, State.csrAdr, u_29, hd.enc, hp]) (by simp [u_29, u_01]) (fun _ => rfl) fun i => ?_
  have h := h (d.step false i.datR) i.irq (hd.next _)
  simpa [-BitVec.getLsbD_eq_getElem, gpRamAdr_ne_csr, csrRamAdr_inj, State.step, State.romAdr, State.test, State.exception, State.pending, testOut, rawTest, seqAdr, State.ram, ramCtl, RamCtl.memNext, RamCtl.rdataNext, State.regRAdr, State.regWAdr, State.allowZeroWr, State.csrAdr, CsrState.step, CsrState.datR, csrView, rbNext, State.doDecode, aNext, bNext, aluNext, oMux, modIn, modOut, pcNext, CauseLatch.step, exceptionOut, aluZero, gpSet, gpRamAdr_eq_zero, subUnit_low, hd.srcA, hd.srcB, hd.dst, hd.imm, hd.op, hd.enc, rom_49, u_29, hp] using h

theorem q_2a (hd : Dec k d) (hp : k.enc ≠ CSR_MIP)
    (h : ∀ d, Dec k d → Impl F false ⟨u_4b, 76#8, false, false, 0#32, b, (a + b), (pc + 1#30), mem, (mem (csrRamAdr k.enc)),
      ⟨mie, mpie, meie, (rbNext k.enc mie mpie meie false rb), k.enc⟩, d, c, da, wd⟩ T (n + 1)) :
    Impl F pv ⟨u_2a, 43#8, false, false, a, b, o, pc, mem, rd, ⟨mie, mpie, meie, rb, pa⟩, d, c, da, wd⟩ T n := by
  have hp1 : ¬ k.enc = 12#4 := hp
  refine .quietq 1 rfl (by simp [State.polls, State.csrAdr, u_2a, hd.enc, hp1]) (fun _ => rfl) fun i => ?_
  have h := h (d.step false i.datR) (hd.next _)
  have hp2 : ¬ k.enc = 12#4 := hp
  simpa [-BitVec.getLsbD_eq_getElem, gpRamAdr_ne_csr, csrRamAdr_inj, State.step, State.romAdr, State.test, State.exception, State.pending, testOut, rawTest, seqAdr, State.ram, ramCtl, RamCtl.memNext, RamCtl.rdataNext, State.regRAdr, State.regWAdr, State.allowZeroWr, State.csrAdr, CsrState.step, CsrState.datR, csrView, rbNext, State.doDecode, aNext, bNext, aluNext, oMux, modIn, modOut, pcNext, CauseLatch.step, exceptionOut, aluZero, gpSet, gpRamAdr_eq_zero, subUnit_low, hd.srcA, hd.srcB, hd.dst, hd.imm, hd.op, hd.enc, rom_4b, u_2a, hp, hp2] using h

theorem p_2a {K : Bool → Tree α} (hd : Dec k d) (hp : k.enc = CSR_MIP)
    (h : ∀ d b0, Dec k d → Impl F false ⟨u_4b, 76#8, false, false, 0#32, b, (a + b), (pc + 1#30), mem, (mem (csrRamAdr k.enc)),
      ⟨mie, mpie, meie, (meiView b0), k.enc⟩, d, c, da, wd⟩ (K b0) (n + 1)) :
    Impl F pv ⟨u_2a, 43#8, false, false, a, b, o, pc, mem, rd, ⟨mie, mpie, meie, rb, pa⟩, d, c, da, wd⟩ (.poll K) n := by
  refine .pollq 1 rfl (by simp [State.polls, State.csrAdr, u_2a, hd.enc, hp]) (by simp [u_2a, u_01]) (fun _ => rfl) fun i => ?_
  have h := h (d.step false i.datR) i.irq (hd.next _)
  simpa [-BitVec.getLsbD_eq_getElem, gpRamAdr_ne_csr, csrRamAdr_inj, State.step, State.romAdr, State.test, State.exception, State.pending, testOut, rawTest, seqAdr, State.ram, ramCtl, RamCtl.memNext, RamCtl.rdataNext, State.regRAdr, State.regWAdr, State.allowZeroWr, State.csrAdr, CsrState.step, CsrState.datR, csrView, rbNext, State.doDecode, aNext, bNext, aluNext, oMux, modIn, modOut, pcNext, CauseLatch.step, exceptionOut, aluZero, gpSet, gpRamAdr_eq_zero, subUnit_low, hd.srcA, hd.srcB, hd.dst, hd.imm, hd.op, hd.enc, rom_4b, u_2a, hp] using h

theorem q_2b (hd : Dec k d)
    (h : ∀ d, Dec k d → Impl F false ⟨u_34, 53#8, false, false, 0#32, (k.srcA.setWidth 32), (a + b), (pc + 1#30), mem, rd,
      ⟨mie, mpie, meie, rb, k.enc⟩, d, c, da, wd⟩ T (n + 1)) :
    Impl F pv ⟨u_2b, 44#8, false, false, a, b, o, pc, mem, rd, ⟨mie, mpie, meie, rb, pa⟩, d, c, da, wd⟩ T n := by
  refine .quietq 1 rfl rfl (fun _ => rfl) fun i => ?_
  have h := h (d.step false i.datR) (hd.next _)
  simpa [-BitVec.getLsbD_eq_getElem, gpRamAdr_ne_csr, csrRamAdr_inj, State.step, State.romAdr, State.test, State.exception, State.pending, testOut, rawTest, seqAdr, State.ram, ramCtl, RamCtl.memNext, RamCtl.rdataNext, State.regRAdr, State.regWAdr, State.allowZeroWr, State.csrAdr, CsrState.step, CsrState.datR, csrView, rbNext, State.doDecode, aNext, bNext, aluNext, oMux, modIn, modOut, pcNext, CauseLatch.step, exceptionOut, aluZero, gpSet, gpRamAdr_eq_zero, subUnit_low, hd.srcA, hd.srcB, hd.dst, hd.imm, hd.op, hd.enc, rom_34, u_2b] using h

theorem q_2c (hd : Dec k d) (hp : k.enc ≠ CSR_MIP)
    (h : ∀ d, Dec k d → Impl F false ⟨u_35, 54#8, false, false, 0#32, (k.srcA.setWidth 32), (a + b), (pc + 1#30), mem, (mem (csrRamAdr k.enc)),
      ⟨mie, mpie, meie, (rbNext k.enc mie mpie meie false rb), k.enc⟩, d, c, da, wd⟩ T (n + 1)) :
    Impl F pv ⟨u_2c, 45#8, false, false, a, b, o, pc, mem, rd, ⟨mie, mpie, meie, rb, pa⟩, d, c, da, wd⟩ T n := by
  have hp1 : ¬ k.enc = 12#4 := hp
  refine .quietq 1 rfl (by simp [State.polls, State.csrAdr, u_2c, hd.enc, hp1]) (fun _ => rfl) fun i => ?_
  have h := h (d.step false i.datR) (hd.next _)
  have hp2 : ¬ k.enc = 12#4 := hp
  simpa [-BitVec.getLsbD_eq_getElem, gpRamAdr_ne_csr, csrRamAdr_inj, State.step, State.romAdr, State.test, State.exception, State.pending, testOut, rawTest, seqAdr, State.ram, ramCtl, RamCtl.memNext, RamCtl.rdataNext, State.regRAdr, State.regWAdr, State.allowZeroWr, State.csrAdr, CsrState.step, CsrState.datR, csrView, rbNext, State.doDecode, aNext, bNext, aluNext, oMux, modIn, modOut, pcNext, CauseLatch.step, exceptionOut, aluZero, gpSet, gpRamAdr_eq_zero, subUnit_low, hd.srcA, hd.srcB, hd.dst, hd.imm, hd.op, hd.enc, rom_35, u_2c, hp, hp2] using h

theorem p_2c {K : Bool → Tree α} (hd : Dec k d) (hp : k.enc = CSR_MIP)
    (h : ∀ d b0, Dec k d → Impl F false ⟨u_35, 54#8, false, false, 0#32, (k.srcA.setWidth 32), (a + b), (pc + 1#30), mem, (mem (csrRamAdr k.enc)),
      ⟨mie, mpie, meie, (meiView b0), k.enc⟩, d, c, da, wd⟩ (K b0) (n + 1)) :
    Impl F pv ⟨u_2c, 45#8, false, false, a, b, o, pc, mem, rd, ⟨mie, mpie, meie, rb, pa⟩, d, c, da, wd⟩ (.poll K) n := by
  refine .pollq 1 rfl (by simp [State.polls, State.csrAdr, u_2c, hd.enc, hp]) (by simp [u_2c, u_01]) (fun _ => rfl) fun i => ?_
  have h := h (d.step false i.datR) i.irq (hd.next _)
  simpa [-BitVec.getLsbD_eq_getElem, gpRamAdr_ne_csr, csrRamAdr_inj, State.step, State.romAdr, State.test, State.exception, State.pending, testOut, rawTest, seqAdr, State.ram, ramCtl, RamCtl.memNext, RamCtl.rdataNext, State.regRAdr, State.regWAdr, State.allowZeroWr, State.csrAdr, CsrState.step, CsrState.datR, csrView, rbNext, State.doDecode, aNext, bNext, aluNext, oMux, modIn, modOut, pcNext, CauseLatch.step, exceptionOut, aluZero, gpSet, gpRamAdr_eq_zero, subUnit_low, hd.srcA, hd.srcB, hd.dst, hd.imm, hd.op, hd.enc, rom_35, u_2c, hp] using h

theorem q_2d (hd : Dec k d) (hp : k.enc ≠ CSR_MIP)
    (h : ∀ d, Dec k d → Impl F false ⟨u_37, 56#8, false, false, 0#32, b, (a + b), (pc + 1#30), mem, (mem (csrRamAdr k.enc)),
      ⟨mie, mpie, meie, (rbNext k.enc mie mpie meie false rb), k.enc⟩, d, c, da, wd⟩ T (n + 1)) :
    Impl F pv ⟨u_2d, 46#8, false, false, a, b, o, pc, mem, rd, ⟨mie, mpie, meie, rb, pa⟩, d, c, da, wd⟩ T n := by
  have hp1 : ¬ k.enc = 12#4 := hp
  refine .quietq 1 rfl (by simp [State.polls, State.csrAdr, u_2d, hd.enc, hp1]) (fun _ => rfl) fun i => ?_
  have h := h (d.step false i.datR) (hd.next _)
  have hp2 : ¬ k.enc = 12#4 := hp
  simpa [-BitVec.getLsbD_eq_getElem, gpRamAdr_ne_csr, csrRamAdr_inj, State.step, State.romAdr, State.test, State.exception, State.pending, testOut, rawTest, seqAdr, State.ram, ramCtl, RamCtl.memNext, RamCtl.rdataNext, State.regRAdr, State.regWAdr, State.allowZeroWr, State.csrAdr, CsrState.step, CsrState.datR, csrView, rbNext, State.doDecode, aNext, bNext, aluNext, oMux, modIn, modOut, pcNext, CauseLatch.step, exceptionOut, aluZero, gpSet, gpRamAdr_eq_zero, subUnit_low, hd.srcA, hd.srcB, hd.dst, hd.imm, hd.op, hd.enc, rom_37, u_2d, hp, hp2] using h

theorem p_2d {K : Bool → Tree α} (hd : Dec k d) (hp : k.enc = CSR_MIP)
    (h : ∀ d b0, Dec k d → Impl F false ⟨u_37, 56#8, false, false, 0#32, b, (a + b), (pc + 1#30), mem, (mem (csrRamAdr k.enc)),
      ⟨mie, mpie, meie, (meiView b0), k.enc⟩, d, c, da, wd⟩ (K b0) (n + 1)) :
    Impl F pv ⟨u_2d, 46#8, false, false, a, b, o, pc, mem, rd, ⟨mie, mpie, meie, rb, pa⟩, d, c, da, wd⟩ (.poll K) n := by
  refine .pollq 1 rfl (by simp [State.polls, State.csrAdr, u_2d, hd.enc, hp]) (by simp [u_2d, u_01]) (fun _ => rfl) fun i => ?_
  have h := h (d.step false i.datR) i.irq (hd.next _)
  simpa [-BitVec.getLsbD_eq_getElem, gpRamAdr_ne_csr, csrRamAdr_inj, State.step, State.romAdr, State.test, State.exception, State.pending, testOut, rawTest, seqAdr, State.ram, ramCtl, RamCtl.memNext, RamCtl.rdataNext, State.regRAdr, State.regWAdr, State.allowZeroWr, State.csrAdr, CsrState.step, CsrState.datR, csrView, rbNext, State.doDecode, aNext, bNext, aluNext, oMux, modIn, modOut, pcNext, CauseLatch.step, exceptionOut, aluZero, gpSet, gpRamAdr_eq_zero, subUnit_low, hd.srcA, hd.srcB, hd.dst, hd.imm, hd.op, hd.enc, rom_37, u_2d, hp] using h

theorem q_2e (hd : Dec k d) (hp : k.enc ≠ CSR_MIP)
    (h : ∀ d, Dec k d → Impl F false ⟨u_3b, 60#8, false, false, 0#32, b, (a + b), (pc + 1#30), mem, (mem (csrRamAdr k.enc)),
      ⟨mie, mpie, meie, (rbNext k.enc mie mpie meie false rb), k.enc⟩, d, c, da, wd⟩ T (n + 1)) :
    Impl F pv ⟨u_2e, 47#8, false, false, a, b, o, pc, mem, rd, ⟨mie, mpie, meie, rb, pa⟩, d, c, da, wd⟩ T n := by
  have hp1 : ¬ k.enc = 12#4 := hp
  refine .quietq 1 rfl (by simp [State.polls, State.csrAdr, u_2e, hd.enc, hp1]) (fun _ => rfl) fun i => ?_
  have h := h (d.step false i.datR) (hd.next _)
  have hp2 : ¬ k.enc = 12#4 := hp
  simpa [-BitVec.getLsbD_eq_getElem, gpRamAdr_ne_csr, csrRamAdr_inj, State.step, State.romAdr, State.test, State.exception, State.pending, testOut, rawTest, seqAdr, State.ram, ramCtl, RamCtl.memNext, RamCtl.rdataNext, State.regRAdr, State.regWAdr, State.allowZeroWr, State.csrAdr, CsrState.step, CsrState.datR, csrView, rbNext, State.doDecode, aNext, bNext, aluNext, oMux, modIn, modOut, pcNext, CauseLatch.step, exceptionOut, aluZero, gpSet, gpRamAdr_eq_zero, subUnit_low, hd.srcA, hd.srcB, hd.dst, hd.imm, hd.op, hd.enc, rom_3b, u_2e, hp, hp2] using h

theorem p_2e {K : Bool → Tree α} (hd : Dec k d) (hp : k.enc = CSR_MIP)
    (h : ∀ d b0, Dec k d → Impl F false ⟨u_3b, 60#8, false, false, 0#32, b, (a + b), (pc + 1#30), mem, (mem (csrRamAdr k.enc)),
      ⟨mie, mpie, meie, (meiView b0), k.enc⟩, d, c, da, wd⟩ (K b0) (n + 1)) :
    Impl F pv ⟨u_2e, 47#8, false, false, a, b, o, pc, mem, rd, ⟨mie, mpie, meie, rb, pa⟩, d, c, da, wd⟩ (.poll K) n := by
  refine .pollq 1 rfl (by simp [State.polls, State.csrAdr, u_2e, hd.enc, hp]) (by simp [u_2e, u_01]) (fun _ => rfl) fun i => ?_
  have h := h (d.step false i.datR) i.irq (hd.next _)
  simpa [-BitVec.getLsbD_eq_getElem, gpRamAdr_ne_csr, csrRamAdr_inj, State.step, State.romAdr, State.test, State.exception, State.pending, testOut, rawTest, seqAdr, State.ram, ramCtl, RamCtl.memNext, RamCtl.rdataNext, State.regRAdr, State.regWAdr, State.allowZeroWr, State.csrAdr, CsrState.step, CsrState.datR, csrView, rbNext, State.doDecode, aNext, bNext, aluNext, oMux, modIn, modOut, pcNext, CauseLatch.step, exceptionOut, aluZero, gpSet, gpRamAdr_eq_zero, subUnit_low, hd.srcA, hd.srcB, hd.dst, hd.imm, hd.op, hd.enc, rom_3b, u_2e, hp] using h

theorem q_30 (hd : Dec k d)
    (h : ∀ d, Dec k d → Impl F false ⟨u_00, 1#8, false, false, a, b, (a + b), (pc + 1#30), mem, rd,
      ⟨mie, mpie, meie, rb, k.enc⟩, d, c, da, wd⟩ T (n + 1)) :
    Impl F pv ⟨u_30, 49#8, false, false, a, b, o, pc, mem, rd, ⟨mie, mpie, meie, rb, pa⟩, d, c, da, wd⟩ T n := by
  refine .quietq 1 rfl rfl (fun _ => rfl) fun i => ?_
  have h := h (d.step false i.datR) (hd.next _)
  simpa [-BitVec.getLsbD_eq_getElem, gpRamAdr_ne_csr, csrRamAdr_inj, State.step, State.romAdr, State.test, State.exception, State.pending, testOut, rawTest, seqAdr, State.ram, ramCtl, RamCtl.memNext, RamCtl.rdataNext, State.regRAdr, State.regWAdr, State.allowZeroWr, State.csrAdr, CsrState.step, CsrState.datR, csrView, rbNext, State.doDecode, aNext, bNext, aluNext, oMux, modIn, modOut, pcNext, CauseLatch.step, exceptionOut, aluZero, gpSet, gpRamAdr_eq_zero, subUnit_low, hd.srcA, hd.srcB, hd.dst, hd.imm, hd.op, hd.enc, rom_00, u_30] using h

theorem q_31 (hd : Dec k d)
    (h : ∀ d, Dec k d → Impl F false ⟨u_b5, 182#8, false, false, a, b, (a &&& b), pc, mem, rd,
      ⟨mie, mpie, meie, rb, k.enc⟩, d, c, da, wd⟩ T (n + 1)) :
    Impl F pv ⟨u_31, 50#8, false, false, a, b, o, pc, mem, rd, ⟨mie, mpie, meie, rb, pa⟩, d, c, da, wd⟩ T n := by
  refine .quietq 1 rfl rfl (fun _ => rfl) fun i => ?_
  have h := h (d.step false i.datR) (hd.next _)
  simpa [-BitVec.getLsbD_eq_getElem, gpRamAdr_ne_csr, csrRamAdr_inj, State.step, State.romAdr, State.test, State.exception, State.pending, testOut, rawTest, seqAdr, State.ram, ramCtl, RamCtl.memNext, RamCtl.rdataNext, State.regRAdr, State.regWAdr, State.allowZeroWr, State.csrAdr, CsrState.step, CsrState.datR, csrView, rbNext, State.doDecode, aNext, bNext, aluNext, oMux, modIn, modOut, pcNext, CauseLatch.step, exceptionOut, aluZero, gpSet, gpRamAdr_eq_zero, subUnit_low, hd.srcA, hd.srcB, hd.dst, hd.imm, hd.op, hd.enc, rom_b5, u_31] using h

theorem q_32 (hd : Dec k d)
    (h : ∀ d, Dec k d → Impl F false ⟨u_33, 52#8, false, false, a, (csrView pa rb rd), (a + b), pc, mem, rd,
      ⟨mie, mpie, meie, rb, k.enc⟩, d, c, da, wd⟩ T (n + 1)) :
    Impl F pv ⟨u_32, 51#8, false, false, a, b, o, pc, mem, rd, ⟨mie, mpie, meie, rb, pa⟩, d, c, da, wd⟩ T n := by
  refine .quietq 1 rfl rfl (fun _ => rfl) fun i => ?_
  have h := h (d.step false i.datR) (hd.next _)
  simpa [-BitVec.getLsbD_eq_getElem, gpRamAdr_ne_csr, csrRamAdr_inj, State.step, State.romAdr, State.test, State.exception, State.pending, testOut, rawTest, seqAdr, State.ram, ramCtl, RamCtl.memNext, RamCtl.rdataNext, State.regRAdr, State.regWAdr, State.allowZeroWr, State.csrAdr, CsrState.step, CsrState.datR, csrView, rbNext, State.doDecode, aNext, bNext, aluNext, oMux, modIn, modOut, pcNext, CauseLatch.step, exceptionOut, aluZero, gpSet, gpRamAdr_eq_zero, subUnit_low, hd.srcA, hd.srcB, hd.dst, hd.imm, hd.op, hd.enc, rom_33, u_32] using h

theorem q_33 (hd : Dec k d)
    (h : ∀ d, Dec k d → Impl F false ⟨u_b5, 182#8, false, false, a, b, (a + b), pc, mem, rd,
      ⟨mie, mpie, meie, rb, k.enc⟩, d, c, da, wd⟩ T (n + 1)) :
    Impl F pv ⟨u_33, 52#8, false, false, a, b, o, pc, mem, rd, ⟨mie, mpie, meie, rb, pa⟩, d, c, da, wd⟩ T n := by
  refine .quietq 1 rfl rfl (fun _ => rfl) fun i => ?_
  have h := h (d.step false i.datR) (hd.next _)
  simpa [-BitVec.getLsbD_eq_getElem, gpRamAdr_ne_csr, csrRamAdr_inj, State.step, State.romAdr, State.test, State.exception, State.pending, testOut, rawTest, seqAdr, State.ram, ramCtl, RamCtl.memNext, RamCtl.rdataNext, State.regRAdr, State.regWAdr, State.allowZeroWr, State.csrAdr, CsrState.step, CsrState.datR, csrView, rbNext, State.doDecode, aNext, bNext, aluNext, oMux, modIn, modOut, pcNext, CauseLatch.step, exceptionOut, aluZero, gpSet, gpRamAdr_eq_zero, subUnit_low, hd.srcA, hd.srcB, hd.dst, hd.imm, hd.op, hd.enc, rom_b5, u_33] using h

theorem q_34 (hd : Dec k d)
    (h : ∀ d, Dec k d → Impl F false ⟨u_b6, 183#8, false, false, a, b, (a + b), pc, mem, rd,
      ⟨mie, mpie, meie, rb, k.enc⟩, d, c, da, wd⟩ T (n + 1)) :
    Impl F pv ⟨u_34, 53#8, false, false, a, b, o, pc, mem, rd, ⟨mie, mpie, meie, rb, pa⟩, d, c, da, wd⟩ T n := by
  refine .quietq 1 rfl rfl (fun _ => rfl) fun i => ?_
  have h := h (d.step false i.datR) (hd.next _)
  simpa [-BitVec.getLsbD_eq_getElem, gpRamAdr_ne_csr, csrRamAdr_inj, State.step, State.romAdr, State.test, State.exception, State.pending, testOut, rawTest, seqAdr, State.ram, ramCtl, RamCtl.memNext, RamCtl.rdataNext, State.regRAdr, State.regWAdr, State.allowZeroWr, State.csrAdr, CsrState.step, CsrState.datR, csrView, rbNext, State.doDecode, aNext, bNext, aluNext, oMux, modIn, modOut, pcNext, CauseLatch.step, exceptionOut, aluZero, gpSet, gpRamAdr_eq_zero, subUnit_low, hd.srcA, hd.srcB, hd.dst, hd.imm, hd.op, hd.enc, rom_b6, u_34] using h

theorem q_35 (hd : Dec k d)
    (h : ∀ d, Dec k d → Impl F false ⟨u_36, 55#8, false, false, a, (csrView pa rb rd), (a + b), pc, mem, rd,
      ⟨mie, mpie, meie, rb, k.enc⟩, d, c, da, wd⟩ T (n + 1)) :
    Impl F pv ⟨u_35, 54#8, false, false, a, b, o, pc, mem, rd, ⟨mie, mpie, meie, rb, pa⟩, d, c, da, wd⟩ T n := by
  refine .quietq 1 rfl rfl (fun _ => rfl) fun i => ?_
  have h := h (d.step false i.datR) (hd.next _)
  simpa [-BitVec.getLsbD_eq_getElem, gpRamAdr_ne_csr, csrRamAdr_inj, State.step, State.romAdr, State.test, State.exception, State.pending, testOut, rawTest, seqAdr, State.ram, ramCtl, RamCtl.memNext, RamCtl.rdataNext, State.regRAdr, State.regWAdr, State.allowZeroWr, State.csrAdr, CsrState.step, CsrState.datR, csrView, rbNext, State.doDecode, aNext, bNext, aluNext, oMux, modIn, modOut, pcNext, CauseLatch.step, exceptionOut, aluZero, gpSet, gpRamAdr_eq_zero, subUnit_low, hd.srcA, hd.srcB, hd.dst, hd.imm, hd.op, hd.enc, rom_36, u_35] using h

theorem q_36 (hd : Dec k d)
    (h : ∀ d, Dec k d → Impl F false ⟨u_b5, 182#8, false, false, a, b, (a + b), pc, (memSet mem (csrRamAdr k.enc) (csrWriteData k.enc o)), (mem (gpRamAdr k.srcA)),
      ⟨(if k.enc = CSR_MSTATUS then o.getLsbD 3 else mie), (if k.enc = CSR_MSTATUS then o.getLsbD 7 else mpie), (if k.enc = CSR_MIE then o.getLsbD 11 else meie), rb, k.enc⟩, d, c, da, wd⟩ T (n + .c)) :
    Impl F pv ⟨u_36, 55#8, false, false, a, b, o, pc, mem, rd, ⟨mie, mpie, meie, rb, pa⟩, d, c, da, wd⟩ T n := by
  refine .quietq .c rfl rfl (fun _ => rfl) fun i => ?_
  have h := h (d.step false i.datR) (hd.next _)
  simpa [-BitVec.getLsbD_eq_getElem, gpRamAdr_ne_csr, csrRamAdr_inj, State.step, State.romAdr, State.test, State.exception, State.pending, testOut, rawTest, seqAdr, State.ram, ramCtl, RamCtl.memNext, RamCtl.rdataNext, State.regRAdr, State.regWAdr, State.allowZeroWr, State.csrAdr, CsrState.step, CsrState.datR, csrView, rbNext, State.doDecode, aNext, bNext, aluNext, oMux, modIn, modOut, pcNext, CauseLatch.step, exceptionOut, aluZero, gpSet, gpRamAdr_eq_zero, subUnit_low, hd.srcA, hd.srcB, hd.dst, hd.imm, hd.op, hd.enc, rom_b5, u_36] using h

theorem q_37 (hd : Dec k d)
    (h : ∀ d, Dec k d → Impl F false ⟨u_38, 57#8, false, false, a, (csrView pa rb rd), (a + b), pc, mem, rd,
      ⟨mie, mpie, meie, rb, k.enc⟩, d, c, da, wd⟩ T (n + 1)) :
    Impl F pv ⟨u_37, 56#8, false, false, a, b, o, pc, mem, rd, ⟨mie, mpie, meie, rb, pa⟩, d, c, da, wd⟩ T n := by
  refine .quietq 1 rfl rfl (fun _ => rfl) fun i => ?_
  have h := h (d.step false i.datR) (hd.next _)
  simpa [-BitVec.getLsbD_eq_getElem, gpRamAdr_ne_csr, csrRamAdr_inj, State.step, State.romAdr, State.test, State.exception, State.pending, testOut, rawTest, seqAdr, State.ram, ramCtl, RamCtl.memNext, RamCtl.rdataNext, State.regRAdr, State.regWAdr, State.allowZeroWr, State.csrAdr, CsrState.step, CsrState.datR, csrView, rbNext, State.doDecode, aNext, bNext, aluNext, oMux, modIn, modOut, pcNext, CauseLatch.step, exceptionOut, aluZero, gpSet, gpRamAdr_eq_zero, subUnit_low, hd.srcA, hd.srcB, hd.dst, hd.imm, hd.op, hd.enc, rom_38, u_37] using h

theorem q_38 (hd : Dec k d)
    (h : ∀ d, Dec k d → Impl F false ⟨u_39, 58#8, false, false, a, (k.srcA.setWidth 32), (a + b), pc, mem, rd,
      ⟨mie, mpie, meie, rb, k.enc⟩, d, c, da, wd⟩ T (n + 1)) :
    Impl F pv ⟨u_38, 57#8, false, false, a, b, o, pc, mem, rd, ⟨mie, mpie, meie, rb, pa⟩, d, c, da, wd⟩ T n := by
  refine .quietq 1 rfl rfl (fun _ => rfl) fun i => ?_
  have h := h (d.step false i.datR) (hd.next _)
  simpa [-BitVec.getLsbD_eq_getElem, gpRamAdr_ne_csr, csrRamAdr_inj, State.step, State.romAdr, State.test, State.exception, State.pending, testOut, rawTest, seqAdr, State.ram, ramCtl, RamCtl.memNext, RamCtl.rdataNext, State.regRAdr, State.regWAdr, State.allowZeroWr, State.csrAdr, CsrState.step, CsrState.datR, csrView, rbNext, State.doDecode, aNext, bNext, aluNext, oMux, modIn, modOut, pcNext, CauseLatch.step, exceptionOut, aluZero, gpSet, gpRamAdr_eq_zero, subUnit_low, hd.srcA, hd.srcB, hd.dst, hd.imm, hd.op, hd.enc, rom_39, u_38] using h

theorem q_39 (hd : Dec k d)
    (h : ∀ d, Dec k d → Impl F false ⟨u_3a, 59#8, false, false, o, b, (a + b), pc, (gpSet mem k.dst o), rd,
      ⟨mie, mpie, meie, rb, k.enc⟩, d, c, da, wd⟩ T (n + .w)) :
    Impl F pv ⟨u_39, 58#8, false, false, a, b, o, pc, mem, rd, ⟨mie, mpie, meie, rb, pa⟩, d, c, da, wd⟩ T n := by
  refine .quietq .w rfl rfl (fun _ => rfl) fun i => ?_
  have h := h (d.step false i.datR) (hd.next _)
  simpa [-BitVec.getLsbD_eq_getElem, gpRamAdr_ne_csr, csrRamAdr_inj, State.step, State.romAdr, State.test, State.exception, State.pending, testOut, rawTest, seqAdr, State.ram, ramCtl, RamCtl.memNext, RamCtl.rdataNext, State.regRAdr, State.regWAdr, State.allowZeroWr, State.csrAdr, CsrState.step, CsrState.datR, csrView, rbNext, State.doDecode, aNext, bNext, aluNext, oMux, modIn, modOut, pcNext, CauseLatch.step, exceptionOut, aluZero, gpSet, gpRamAdr_eq_zero, subUnit_low, hd.srcA, hd.srcB, hd.dst, hd.imm, hd.op, hd.enc, rom_3a, u_39] using h

theorem q_3a (hd : Dec k d)
    (h : ∀ d, Dec k d → Impl F false ⟨u_b6, 183#8, false, false, a, b, (a ||| b), pc, mem, rd,
      ⟨mie, mpie, meie, rb, k.enc⟩, d, c, da, wd⟩ T (n + 1)) :
    Impl F pv ⟨u_3a, 59#8, false, false, a, b, o, pc, mem, rd, ⟨mie, mpie, meie, rb, pa⟩, d, c, da, wd⟩ T n := by
  refine .quietq 1 rfl rfl (fun _ => rfl) fun i => ?_
  have h := h (d.step false i.datR) (hd.next _)
  simpa [-BitVec.getLsbD_eq_getElem, gpRamAdr_ne_csr, csrRamAdr_inj, State.step, State.romAdr, State.test, State.exception, State.pending, testOut, rawTest, seqAdr, State.ram, ramCtl, RamCtl.memNext, RamCtl.rdataNext, State.regRAdr, State.regWAdr, State.allowZeroWr, State.csrAdr, CsrState.step, CsrState.datR, csrView, rbNext, State.doDecode, aNext, bNext, aluNext, oMux, modIn, modOut, pcNext, CauseLatch.step, exceptionOut, aluZero, gpSet, gpRamAdr_eq_zero, subUnit_low, hd.srcA, hd.srcB, hd.dst, hd.imm, hd.op, hd.enc, rom_b6, u_3a] using h

theorem q_3b (hd : Dec k d)
    (h : ∀ d, Dec k d → Impl F false ⟨u_3c, 61#8, false, false, a, (csrView pa rb rd), (a + b), pc, mem, rd,
      ⟨mie, mpie, meie, rb, k.enc⟩, d, c, da, wd⟩ T (n + 1)) :
    Impl F pv ⟨u_3b, 60#8, false, false, a, b, o, pc, mem, rd, ⟨mie, mpie, meie, rb, pa⟩, d, c, da, wd⟩ T n := by
  refine .quietq 1 rfl rfl (fun _ => rfl) fun i => ?_
  have h := h (d.step false i.datR) (hd.next _)
  simpa [-BitVec.getLsbD_eq_getElem, gpRamAdr_ne_csr, csrRamAdr_inj, State.step, State.romAdr, State.test, State.exception, State.pending, testOut, rawTest, seqAdr, State.ram, ramCtl, RamCtl.memNext, RamCtl.rdataNext, State.regRAdr, State.regWAdr, State.allowZeroWr, State.csrAdr, CsrState.step, CsrState.datR, csrView, rbNext, State.doDecode, aNext, bNext, aluNext, oMux, modIn, modOut, pcNext, CauseLatch.step, exceptionOut, aluZero, gpSet, gpRamAdr_eq_zero, subUnit_low, hd.srcA, hd.srcB, hd.dst, hd.imm, hd.op, hd.enc, rom_3c, u_3b] using h

theorem q_3c (hd : Dec k d) (hp : k.enc ≠ CSR_MIP)
    (h : ∀ d, Dec k d → Impl F false ⟨u_3d, 62#8, false, false, 0xFFFFFFFF#32, (k.srcA.setWidth 32), (a + b), pc, mem, (mem (csrRamAdr k.enc)),
      ⟨mie, mpie, meie, (rbNext k.enc mie mpie meie false rb), k.enc⟩, d, c, da, wd⟩ T (n + 1)) :
    Impl F pv ⟨u_3c, 61#8, false, false, a, b, o, pc, mem, rd, ⟨mie, mpie, meie, rb, pa⟩, d, c, da, wd⟩ T n := by
  have hp1 : ¬ k.enc = 12#4 := hp
  refine .quietq 1 rfl (by simp [State.polls, State.csrAdr, u_3c, hd.enc, hp1]) (fun _ => rfl) fun i => ?_
  have h := h (d.step false i.datR) (hd.next _)
  have hp2 : ¬ k.enc = 12#4 := hp
  simpa [-BitVec.getLsbD_eq_getElem, gpRamAdr_ne_csr, csrRamAdr_inj, State.step, State.romAdr, State.test, State.exception, State.pending, testOut, rawTest, seqAdr, State.ram, ramCtl, RamCtl.memNext, RamCtl.rdataNext, State.regRAdr, State.regWAdr, State.allowZeroWr, State.csrAdr, CsrState.step, CsrState.datR, csrView, rbNext, State.doDecode, aNext, bNext, aluNext, oMux, modIn, modOut, pcNext, CauseLatch.step, exceptionOut, aluZero, gpSet, gpRamAdr_eq_zero, subUnit_low, hd.srcA, hd.srcB, hd.dst, hd.imm, hd.op, hd.enc, rom_3d, u_3c, hp, hp2] using h

theorem p_3c {K : Bool → Tree α} (hd : Dec k d) (hp : k.enc = CSR_MIP)
    (h : ∀ d b0, Dec k d → Impl F false ⟨u_3d, 62#8, false, false, 0xFFFFFFFF#32, (k.srcA.setWidth 32), (a + b), pc, mem, (mem (csrRamAdr k.enc)),
      ⟨mie, mpie, meie, (meiView b0), k.enc⟩, d, c, da, wd⟩ (K b0) (n + 1)) :
    Impl F pv ⟨u_3c, 61#8, false, false, a, b, o, pc, mem, rd, ⟨mie, mpie, meie, rb, pa⟩, d, c, da, wd⟩ (.poll K) n := by
  refine .pollq 1 rfl (by simp [State.polls, State.csrAdr, u_3c, hd.enc, hp]) (by simp [u_3c, u_01]) (fun _ => rfl) fun i => ?_
  have h := h (d.step false i.datR) i.irq (hd.next _)
  simpa [-BitVec.getLsbD_eq_getElem, gpRamAdr_ne_csr, csrRamAdr_inj, State.step, State.romAdr, State.test, State.exception, State.pending, testOut, rawTest, seqAdr, State.ram, ramCtl, RamCtl.memNext, RamCtl.rdataNext, State.regRAdr, State.regWAdr, State.allowZeroWr, State.csrAdr, CsrState.step, CsrState.datR, csrView, rbNext, State.doDecode, aNext, bNext, aluNext, oMux, modIn, modOut, pcNext, CauseLatch.step, exceptionOut, aluZero, gpSet, gpRamAdr_eq_zero, subUnit_low, hd.srcA, hd.srcB, hd.dst, hd.imm, hd.op, hd.enc, rom_3d, u_3c, hp] using h

theorem q_3d (hd : Dec k d)
    (h : ∀ d, Dec k d → Impl F false ⟨u_3e, 63#8, false, false, a, (csrView pa rb rd), (a ^^^ b), pc, (gpSet mem k.dst o), rd,
      ⟨mie, mpie, meie, rb, k.enc⟩, d, c, da, wd⟩ T (n + .w)) :
    Impl F pv ⟨u_3d, 62#8, false, false, a, b, o, pc, mem, rd, ⟨mie, mpie, meie, rb, pa⟩, d, c, da, wd⟩ T n := by
  refine .quietq .w rfl rfl (fun _ => rfl) fun i => ?_
  have h := h (d.step false i.datR) (hd.next _)
  simpa [-BitVec.getLsbD_eq_getElem, gpRamAdr_ne_csr, csrRamAdr_inj, State.step, State.romAdr, State.test, State.exception, State.pending, testOut, rawTest, seqAdr, State.ram, ramCtl, RamCtl.memNext, RamCtl.rdataNext, State.regRAdr, State.regWAdr, State.allowZeroWr, State.csrAdr, CsrState.step, CsrState.datR, csrView, rbNext, State.doDecode, aNext, bNext, aluNext, oMux, modIn, modOut, pcNext, CauseLatch.step, exceptionOut, aluZero, gpSet, gpRamAdr_eq_zero, subUnit_low, hd.srcA, hd.srcB, hd.dst, hd.imm, hd.op, hd.enc, rom_3e, u_3d] using h

theorem q_3e (hd : Dec k d)
    (h : ∀ d, Dec k d → Impl F false ⟨u_3f, 64#8, false, false, o, b, (a + b), pc, mem, rd,
      ⟨mie, mpie, meie, rb, k.enc⟩, d, c, da, wd⟩ T (n + 1)) :
    Impl F pv ⟨u_3e, 63#8, false, false, a, b, o, pc, mem, rd, ⟨mie, mpie, meie, rb, pa⟩, d, c, da, wd⟩ T n := by
  refine .quietq 1 rfl rfl (fun _ => rfl) fun i => ?_
  have h := h (d.step false i.datR) (hd.next _)
  simpa [-BitVec.getLsbD_eq_getElem, gpRamAdr_ne_csr, csrRamAdr_inj, State.step, State.romAdr, State.test, State.exception, State.pending, testOut, rawTest, seqAdr, State.ram, ramCtl, RamCtl.memNext, RamCtl.rdataNext, State.regRAdr, State.regWAdr, State.allowZeroWr, State.csrAdr, CsrState.step, CsrState.datR, csrView, rbNext, State.doDecode, aNext, bNext, aluNext, oMux, modIn, modOut, pcNext, CauseLatch.step, exceptionOut, aluZero, gpSet, gpRamAdr_eq_zero, subUnit_low, hd.srcA, hd.srcB, hd.dst, hd.imm, hd.op, hd.enc, rom_3f, u_3e] using h

theorem q_3f (hd : Dec k d)
    (h : ∀ d, Dec k d → Impl F false ⟨u_b6, 183#8, false, false, a, b, (a &&& b), pc, mem, rd,
      ⟨mie, mpie, meie, rb, k.enc⟩, d, c, da, wd⟩ T (n + 1)) :
    Impl F pv ⟨u_3f, 64#8, false, false, a, b, o, pc, mem, rd, ⟨mie, mpie, meie, rb, pa⟩, d, c, da, wd⟩ T n := by
  refine .quietq 1 rfl rfl (fun _ => rfl) fun i => ?_
  have h := h (d.step false i.datR) (hd.next _)
  simpa [-BitVec.getLsbD_eq_getElem, gpRamAdr_ne_csr, csrRamAdr_inj, State.step, State.romAdr, State.test, State.exception, State.pending, testOut, rawTest, seqAdr, State.ram, ramCtl, RamCtl.memNext, RamCtl.rdataNext, State.regRAdr, State.regWAdr, State.allowZeroWr, State.csrAdr, CsrState.step, CsrState.datR, csrView, rbNext, State.doDecode, aNext, bNext, aluNext, oMux, modIn, modOut, pcNext, CauseLatch.step, exceptionOut, aluZero, gpSet, gpRamAdr_eq_zero, subUnit_low, hd.srcA, hd.srcB, hd.dst, hd.imm, hd.op, hd.enc, rom_b6, u_3f] using h

theorem q_40 (hd : Dec k d)
    (h : ∀ d, Dec k d → Impl F false ⟨u_53, 84#8, false, false, a, k.imm, (a + b), (pc + 1#30), mem, rd,
      ⟨mie, mpie, meie, rb, k.enc⟩, d, c, da, wd⟩ T (n + 1)) :
    Impl F pv ⟨u_40, 65#8, false, false, a, b, o, pc, mem, rd, ⟨mie, mpie, meie, rb, pa⟩, d, c, da, wd⟩ T n := by
  refine .quietq 1 rfl rfl (fun _ => rfl) fun i => ?_
  have h := h (d.step false i.datR) (hd.next _)
  simpa [-BitVec.getLsbD_eq_getElem, gpRamAdr_ne_csr, csrRamAdr_inj, State.step, State.romAdr, State.test, State.exception, State.pending, testOut, rawTest, seqAdr, State.ram, ramCtl, RamCtl.memNext, RamCtl.rdataNext, State.regRAdr, State.regWAdr, State.allowZeroWr, State.csrAdr, CsrState.step, CsrState.datR, csrView, rbNext, State.doDecode, aNext, bNext, aluNext, oMux, modIn, modOut, pcNext, CauseLatch.step, exceptionOut, aluZero, gpSet, gpRamAdr_eq_zero, subUnit_low, hd.srcA, hd.srcB, hd.dst, hd.imm, hd.op, hd.enc, rom_53, u_40] using h

theorem q_41 (hd : Dec k d)
    (h : ∀ d, Dec k d → Impl F false ⟨u_59, 90#8, false, false, a, k.imm, (a + b), (pc + 1#30), mem, rd,
      ⟨mie, mpie, meie, rb, k.enc⟩, d, c, da, wd⟩ T (n + 1)) :
    Impl F pv ⟨u_41, 66#8, false, false, a, b, o, pc, mem, rd, ⟨mie, mpie, meie, rb, pa⟩, d, c, da, wd⟩ T n := by
  refine .quietq 1 rfl rfl (fun _ => rfl) fun i => ?_
  have h := h (d.step false i.datR) (hd.next _)
  simpa [-BitVec.getLsbD_eq_getElem, gpRamAdr_ne_csr, csrRamAdr_inj, State.step, State.romAdr, State.test, State.exception, State.pending, testOut, rawTest, seqAdr, State.ram, ramCtl, RamCtl.memNext, RamCtl.rdataNext, State.regRAdr, State.regWAdr, State.allowZeroWr, State.csrAdr, CsrState.step, CsrState.datR, csrView, rbNext, State.doDecode, aNext, bNext, aluNext, oMux, modIn, modOut, pcNext, CauseLatch.step, exceptionOut, aluZero, gpSet, gpRamAdr_eq_zero, subUnit_low, hd.srcA, hd.srcB, hd.dst, hd.imm, hd.op, hd.enc, rom_59, u_41] using h

theorem q_42 (hd : Dec k d)
    (h : ∀ d, Dec k d → Impl F false ⟨u_54, 85#8, false, false, a, k.imm, (a + b), (pc + 1#30), mem, rd,
      ⟨mie, mpie, meie, rb, k.enc⟩, d, c, da, wd⟩ T (n + 1)) :
    Impl F pv ⟨u_42, 67#8, false, false, a, b, o, pc, mem, rd, ⟨mie, mpie, meie, rb, pa⟩, d, c, da, wd⟩ T n := by
  refine .quietq 1 rfl rfl (fun _ => rfl) fun i => ?_
  have h := h (d.step false i.datR) (hd.next _)
  simpa [-BitVec.getLsbD_eq_getElem, gpRamAdr_ne_csr, csrRamAdr_inj, State.step, State.romAdr, State.test, State.exception, State.pending, testOut, rawTest, seqAdr, State.ram, ramCtl, RamCtl.memNext, RamCtl.rdataNext, State.regRAdr, State.regWAdr, State.allowZeroWr, State.csrAdr, CsrState.step, CsrState.datR, csrView, rbNext, State.doDecode, aNext, bNext, aluNext, oMux, modIn, modOut, pcNext, CauseLatch.step, exceptionOut, aluZero, gpSet, gpRamAdr_eq_zero, subUnit_low, hd.srcA, hd.srcB, hd.dst, hd.imm, hd.op, hd.enc, rom_54, u_42] using h

theorem q_43 (hd : Dec k d)
    (h : ∀ d, Dec k d → Impl F false ⟨u_55, 86#8, false, false, a, k.imm, (a + b), (pc + 1#30), mem, rd,
      ⟨mie, mpie, meie, rb, k.enc⟩, d, c, da, wd⟩ T (n + 1)) :
    Impl F pv ⟨u_43, 68#8, false, false, a, b, o, pc, mem, rd, ⟨mie, mpie, meie, rb, pa⟩, d, c, da, wd⟩ T n := by
  refine .quietq 1 rfl rfl (fun _ => rfl) fun i => ?_
  have h := h (d.step false i.datR) (hd.next _)
  simpa [-BitVec.getLsbD_eq_getElem, gpRamAdr_ne_csr, csrRamAdr_inj, State.step, State.romAdr, State.test, State.exception, State.pending, testOut, rawTest, seqAdr, State.ram, ramCtl, RamCtl.memNext, RamCtl.rdataNext, State.regRAdr, State.regWAdr, State.allowZeroWr, State.csrAdr, CsrState.step, CsrState.datR, csrView, rbNext, State.doDecode, aNext, bNext, aluNext, oMux, modIn, modOut, pcNext, CauseLatch.step, exceptionOut, aluZero, gpSet, gpRamAdr_eq_zero, subUnit_low, hd.srcA, hd.srcB, hd.dst, hd.imm, hd.op, hd.enc, rom_55, u_43] using h

theorem q_44 (hd : Dec k d)
    (h : ∀ d, Dec k d → Impl F false ⟨u_56, 87#8, false, false, a, k.imm, (a + b), (pc + 1#30), mem, rd,
      ⟨mie, mpie, meie, rb, k.enc⟩, d, c, da, wd⟩ T (n + 1)) :
    Impl F pv ⟨u_44, 69#8, false, false, a, b, o, pc, mem, rd, ⟨mie, mpie, meie, rb, pa⟩, d, c, da, wd⟩ T n := by
  refine .quietq 1 rfl rfl (fun _ => rfl) fun i => ?_
  have h := h (d.step false i.datR) (hd.next _)
  simpa [-BitVec.getLsbD_eq_getElem, gpRamAdr_ne_csr, csrRamAdr_inj, State.step, State.romAdr, State.test, State.exception, State.pending, testOut, rawTest, seqAdr, State.ram, ramCtl, RamCtl.memNext, RamCtl.rdataNext, State.regRAdr, State.regWAdr, State.allowZeroWr, State.csrAdr, CsrState.step, CsrState.datR, csrView, rbNext, State.doDecode, aNext, bNext, aluNext, oMux, modIn, modOut, pcNext, CauseLatch.step, exceptionOut, aluZero, gpSet, gpRamAdr_eq_zero, subUnit_low, hd.srcA, hd.srcB, hd.dst, hd.imm, hd.op, hd.enc, rom_56, u_44] using h

theorem q_45 (hd : Dec k d)
    (h : ∀ d, Dec k d → Impl F false ⟨u_5e, 95#8, false, false, a, k.imm, (a + b), (pc + 1#30), mem, rd,
      ⟨mie, mpie, meie, rb, k.enc⟩, d, c, da, wd⟩ T (n + 1)) :
    Impl F pv ⟨u_45, 70#8, false, false, a, b, o, pc, mem, rd, ⟨mie, mpie, meie, rb, pa⟩, d, c, da, wd⟩ T n := by
  refine .quietq 1 rfl rfl (fun _ => rfl) fun i => ?_
  have h := h (d.step false i.datR) (hd.next _)
  simpa [-BitVec.getLsbD_eq_getElem, gpRamAdr_ne_csr, csrRamAdr_inj, State.step, State.romAdr, State.test, State.exception, State.pending, testOut, rawTest, seqAdr, State.ram, ramCtl, RamCtl.memNext, RamCtl.rdataNext, State.regRAdr, State.regWAdr, State.allowZeroWr, State.csrAdr, CsrState.step, CsrState.datR, csrView, rbNext, State.doDecode, aNext, bNext, aluNext, oMux, modIn, modOut, pcNext, CauseLatch.step, exceptionOut, aluZero, gpSet, gpRamAdr_eq_zero, subUnit_low, hd.srcA, hd.srcB, hd.dst, hd.imm, hd.op, hd.enc, rom_5e, u_45] using h

theorem q_46 (hd : Dec k d)
    (h : ∀ d, Dec k d → Impl F false ⟨u_57, 88#8, false, false, a, k.imm, (a + b), (pc + 1#30), mem, rd,
      ⟨mie, mpie, meie, rb, k.enc⟩, d, c, da, wd⟩ T (n + 1)) :
    Impl F pv ⟨u_46, 71#8, false, false, a, b, o, pc, mem, rd, ⟨mie, mpie, meie, rb, pa⟩, d, c, da, wd⟩ T n := by
  refine .quietq 1 rfl rfl (fun _ => rfl) fun i => ?_
  have h := h (d.step false i.datR) (hd.next _)
  simpa [-BitVec.getLsbD_eq_getElem, gpRamAdr_ne_csr, csrRamAdr_inj, State.step, State.romAdr, State.test, State.exception, State.pending, testOut, rawTest, seqAdr, State.ram, ramCtl, RamCtl.memNext, RamCtl.rdataNext, State.regRAdr, State.regWAdr, State.allowZeroWr, State.csrAdr, CsrState.step, CsrState.datR, csrView, rbNext, State.doDecode, aNext, bNext, aluNext, oMux, modIn, modOut, pcNext, CauseLatch.step, exceptionOut, aluZero, gpSet, gpRamAdr_eq_zero, subUnit_low, hd.srcA, hd.srcB, hd.dst, hd.imm, hd.op, hd.enc, rom_57, u_46] using h

theorem q_47 (hd : Dec k d)
    (h : ∀ d, Dec k d → Impl F false ⟨u_58, 89#8, false, false, a, k.imm, (a + b), (pc + 1#30), mem, rd,
      ⟨mie, mpie, meie, rb, k.enc⟩, d, c, da, wd⟩ T (n + 1)) :
    Impl F pv ⟨u_47, 72#8, false, false, a, b, o, pc, mem, rd, ⟨mie, mpie, meie, rb, pa⟩, d, c, da, wd⟩ T n := by
  refine .quietq 1 rfl rfl (fun _ => rfl) fun i => ?_
  have h := h (d.step false i.datR) (hd.next _)
  simpa [-BitVec.getLsbD_eq_getElem, gpRamAdr_ne_csr, csrRamAdr_inj, State.step, State.romAdr, State.test, State.exception, State.pending, testOut, rawTest, seqAdr, State.ram, ramCtl, RamCtl.memNext, RamCtl.rdataNext, State.regRAdr, State.regWAdr, State.allowZeroWr, State.csrAdr, CsrState.step, CsrState.datR, csrView, rbNext, State.doDecode, aNext, bNext, aluNext, oMux, modIn, modOut, pcNext, CauseLatch.step, exceptionOut, aluZero, gpSet, gpRamAdr_eq_zero, subUnit_low, hd.srcA, hd.srcB, hd.dst, hd.imm, hd.op, hd.enc, rom_58, u_47] using h

theorem q_49 (hd : Dec k d)
    (h : ∀ d, Dec k d → Impl F false ⟨u_4a, 75#8, false, false, a, (csrView pa rb rd), (a + b), pc, mem, (mem (gpRamAdr k.srcA)),
      ⟨mie, mpie, meie, rb, k.enc⟩, d, c, da, wd⟩ T (n + 1)) :
    Impl F pv ⟨u_49, 74#8, false, false, a, b, o, pc, mem, rd, ⟨mie, mpie, meie, rb, pa⟩, d, c, da, wd⟩ T n := by
  refine .quietq 1 rfl rfl (fun _ => rfl) fun i => ?_
  have h := h (d.step false i.datR) (hd.next _)
  simpa [-BitVec.getLsbD_eq_getElem, gpRamAdr_ne_csr, csrRamAdr_inj, State.step, State.romAdr, State.test, State.exception, State.pending, testOut, rawTest, seqAdr, State.ram, ramCtl, RamCtl.memNext, RamCtl.rdataNext, State.regRAdr, State.regWAdr, State.allowZeroWr, State.csrAdr, CsrState.step, CsrState.datR, csrView, rbNext, State.doDecode, aNext, bNext, aluNext, oMux, modIn, modOut, pcNext, CauseLatch.step, exceptionOut, aluZero, gpSet, gpRamAdr_eq_zero, subUnit_low, hd.srcA, hd.srcB, hd.dst, hd.imm, hd.op, hd.enc, rom_4a, u_49] using h

theorem q_4a (hd : Dec k d)
    (h : ∀ d, Dec k d → Impl F false ⟨u_39, 58#8, false, false, a, rd, (a + b), pc, mem, rd,
      ⟨mie, mpie, meie, rb, k.enc⟩, d, c, da, wd⟩ T (n + 1)) :
    Impl F pv ⟨u_4a, 75#8, false, false, a, b, o, pc, mem, rd, ⟨mie, mpie, meie, rb, pa⟩, d, c, da, wd⟩ T n := by
  refine .quietq 1 rfl rfl (fun _ => rfl) fun i => ?_
  have h := h (d.step false i.datR) (hd.next _)
  simpa [-BitVec.getLsbD_eq_getElem, gpRamAdr_ne_csr, csrRamAdr_inj, State.step, State.romAdr, State.test, State.exception, State.pending, testOut, rawTest, seqAdr, State.ram, ramCtl, RamCtl.memNext, RamCtl.rdataNext, State.regRAdr, State.regWAdr, State.allowZeroWr, State.csrAdr, CsrState.step, CsrState.datR, csrView, rbNext, State.doDecode, aNext, bNext, aluNext, oMux, modIn, modOut, pcNext, CauseLatch.step, exceptionOut, aluZero, gpSet, gpRamAdr_eq_zero, subUnit_low, hd.srcA, hd.srcB, hd.dst, hd.imm, hd.op, hd.enc, rom_39, u_4a] using h

theorem q_4b (hd : Dec k d)
    (h : ∀ d, Dec k d → Impl F false ⟨u_4c, 77#8, false, false, a, (csrView pa rb rd), (a + b), pc, mem, (mem (gpRamAdr k.srcA)),
      ⟨mie, mpie, meie, rb, k.enc⟩, d, c, da, wd⟩ T (n + 1)) :
    Impl F pv ⟨u_4b, 76#8, false, false, a, b, o, pc, mem, rd, ⟨mie, mpie, meie, rb, pa⟩, d, c, da, wd⟩ T n := by
  refine .quietq 1 rfl rfl (fun _ => rfl) fun i => ?_
  have h := h (d.step false i.datR) (hd.next _)
  simpa [-BitVec.getLsbD_eq_getElem, gpRamAdr_ne_csr, csrRamAdr_inj, State.step, State.romAdr, State.test, State.exception, State.pending, testOut, rawTest, seqAdr, State.ram, ramCtl, RamCtl.memNext, RamCtl.rdataNext, State.regRAdr, State.regWAdr, State.allowZeroWr, State.csrAdr, CsrState.step, CsrState.datR, csrView, rbNext, State.doDecode, aNext, bNext, aluNext, oMux, modIn, modOut, pcNext, CauseLatch.step, exceptionOut, aluZero, gpSet, gpRamAdr_eq_zero, subUnit_low, hd.srcA, hd.srcB, hd.dst, hd.imm, hd.op, hd.enc, rom_4c, u_4b] using h

theorem q_4c (hd : Dec k d) (hp : k.enc ≠ CSR_MIP)
    (h : ∀ d, Dec k d → Impl F false ⟨u_3d, 62#8, false, false, 0xFFFFFFFF#32, rd, (a + b), pc, mem, (mem (csrRamAdr k.enc)),
      ⟨mie, mpie, meie, (rbNext k.enc mie mpie meie false rb), k.enc⟩, d, c, da, wd⟩ T (n + 1)) :
    Impl F pv ⟨u_4c, 77#8, false, false, a, b, o, pc, mem, rd, ⟨mie, mpie, meie, rb, pa⟩, d, c, da, wd⟩ T n := by
  have hp1 : ¬ k.enc = 12#4 := hp
  refine .quietq 1 rfl (by simp [State.polls, State.csrAdr, u_4c, hd.enc, hp1]) (fun _ => rfl) fun i => ?_
  have h := h (d.step false i.datR) (hd.next _)
  have hp2 : ¬ k.enc = 12#4 := hp
  simpa [-BitVec.getLsbD_eq_getElem, gpRamAdr_ne_csr, csrRamAdr_inj, State.step, State.romAdr, State.test, State.exception, State.pending, testOut, rawTest, seqAdr, State.ram, ramCtl, RamCtl.memNext, RamCtl.rdataNext, State.regRAdr, State.regWAdr, State.allowZeroWr, State.csrAdr, CsrState.step, CsrState.datR, csrView, rbNext, State.doDecode, aNext, bNext, aluNext, oMux, modIn, modOut, pcNext, CauseLatch.step, exceptionOut, aluZero, gpSet, gpRamAdr_eq_zero, subUnit_low, hd.srcA, hd.srcB, hd.dst, hd.imm, hd.op, hd.enc, rom_3d, u_4c, hp, hp2] using h

theorem p_4c {K : Bool → Tree α} (hd : Dec k d) (hp : k.enc = CSR_MIP)
    (h : ∀ d b0, Dec k d → Impl F false ⟨u_3d, 62#8, false, false, 0xFFFFFFFF#32, rd, (a + b), pc, mem, (mem (csrRamAdr k.enc)),
      ⟨mie, mpie, meie, (meiView b0), k.enc⟩, d, c, da, wd⟩ (K b0) (n + 1)) :
    Impl F pv ⟨u_4c, 77#8, false, false, a, b, o, pc, mem, rd, ⟨mie, mpie, meie, rb, pa⟩, d, c, da, wd⟩ (.poll K) n := by
  refine .pollq 1 rfl (by simp [State.polls, State.csrAdr, u_4c, hd.enc, hp]) (by simp [u_4c, u_01]) (fun _ => rfl) fun i => ?_
  have h := h (d.step false i.datR) i.irq (hd.next _)
  simpa [-BitVec.getLsbD_eq_getElem, gpRamAdr_ne_csr, csrRamAdr_inj, State.step, State.romAdr, State.test, State.exception, State.pending, testOut, rawTest, seqAdr, State.ram, ramCtl, RamCtl.memNext, RamCtl.rdataNext, State.regRAdr, State.regWAdr, State.allowZeroWr, State.csrAdr, CsrState.step, CsrState.datR, csrView, rbNext, State.doDecode, aNext, bNext, aluNext, oMux, modIn, modOut, pcNext, CauseLatch.step, exceptionOut, aluZero, gpSet, gpRamAdr_eq_zero, subUnit_low, hd.srcA, hd.srcB, hd.dst, hd.imm, hd.op, hd.enc, rom_3d, u_4c, hp] using h

theorem q_4d (hd : Dec k d)
    (h : ∀ d, Dec k d → Impl F false ⟨u_63, 100#8, false, false, a, k.imm, (a + b), (pc + 1#30), mem, rd,
      ⟨mie, mpie, meie, rb, k.enc⟩, d, c, da, wd⟩ T (n + 1)) :
    Impl F pv ⟨u_4d, 78#8, false, false, a, b, o, pc, mem, rd, ⟨mie, mpie, meie, rb, pa⟩, d, c, da, wd⟩ T n := by
  refine .quietq 1 rfl rfl (fun _ => rfl) fun i => ?_
  have h := h (d.step false i.datR) (hd.next _)
  simpa [-BitVec.getLsbD_eq_getElem, gpRamAdr_ne_csr, csrRamAdr_inj, State.step, State.romAdr, State.test, State.exception, State.pending, testOut, rawTest, seqAdr, State.ram, ramCtl, RamCtl.memNext, RamCtl.rdataNext, State.regRAdr, State.regWAdr, State.allowZeroWr, State.csrAdr, CsrState.step, CsrState.datR, csrView, rbNext, State.doDecode, aNext, bNext, aluNext, oMux, modIn, modOut, pcNext, CauseLatch.step, exceptionOut, aluZero, gpSet, gpRamAdr_eq_zero, subUnit_low, hd.srcA, hd.srcB, hd.dst, hd.imm, hd.op, hd.enc, rom_63, u_4d] using h

theorem q_50 (hd : Dec k d)
    (h : ∀ d, Dec k d → Impl F false ⟨u_51, 82#8, false, false, k.imm, (pc ++ 0#2), (a + b), pc, mem, rd,
      ⟨mie, mpie, meie, rb, k.enc⟩, d, c, da, wd⟩ T (n + 1)) :
    Impl F pv ⟨u_50, 81#8, false, false, a, b, o, pc, mem, rd, ⟨mie, mpie, meie, rb, pa⟩, d, c, da, wd⟩ T n := by
  refine .quietq 1 rfl rfl (fun _ => rfl) fun i => ?_
  have h := h (d.step false i.datR) (hd.next _)
  simpa [-BitVec.getLsbD_eq_getElem, gpRamAdr_ne_csr, csrRamAdr_inj, State.step, State.romAdr, State.test, State.exception, State.pending, testOut, rawTest, seqAdr, State.ram, ramCtl, RamCtl.memNext, RamCtl.rdataNext, State.regRAdr, State.regWAdr, State.allowZeroWr, State.csrAdr, CsrState.step, CsrState.datR, csrView, rbNext, State.doDecode, aNext, bNext, aluNext, oMux, modIn, modOut, pcNext, CauseLatch.step, exceptionOut, aluZero, gpSet, gpRamAdr_eq_zero, subUnit_low, hd.srcA, hd.srcB, hd.dst, hd.imm, hd.op, hd.enc, rom_51, u_50] using h

theorem q_51 (hd : Dec k d)
    (h : ∀ d, Dec k d → Impl F false ⟨u_52, 83#8, false, false, a, b, (a + b), (pc + 1#30), mem, rd,
      ⟨mie, mpie, meie, rb, k.enc⟩, d, c, da, wd⟩ T (n + 1)) :
    Impl F pv ⟨u_51, 82#8, false, false, a, b, o, pc, mem, rd, ⟨mie, mpie, meie, rb, pa⟩, d, c, da, wd⟩ T n := by
  refine .quietq 1 rfl rfl (fun _ => rfl) fun i => ?_
  have h := h (d.step false i.datR) (hd.next _)
  simpa [-BitVec.getLsbD_eq_getElem, gpRamAdr_ne_csr, csrRamAdr_inj, State.step, State.romAdr, State.test, State.exception, State.pending, testOut, rawTest, seqAdr, State.ram, ramCtl, RamCtl.memNext, RamCtl.rdataNext, State.regRAdr, State.regWAdr, State.allowZeroWr, State.csrAdr, CsrState.step, CsrState.datR, csrView, rbNext, State.doDecode, aNext, bNext, aluNext, oMux, modIn, modOut, pcNext, CauseLatch.step, exceptionOut, aluZero, gpSet, gpRamAdr_eq_zero, subUnit_low, hd.srcA, hd.srcB, hd.dst, hd.imm, hd.op, hd.enc, rom_52, u_51] using h

theorem q_52 (hd : Dec k d)
    (h : ∀ d, Dec k d → Impl F false ⟨u_00, 1#8, false, false, a, b, (a + b), pc, (gpSet mem k.dst o), rd,
      ⟨mie, mpie, meie, rb, k.enc⟩, d, c, da, wd⟩ T (n + .w)) :
    Impl F pv ⟨u_52, 83#8, false, false, a, b, o, pc, mem, rd, ⟨mie, mpie, meie, rb, pa⟩, d, c, da, wd⟩ T n := by
  refine .quietq .w rfl rfl (fun _ => rfl) fun i => ?_
  have h := h (d.step false i.datR) (hd.next _)
  simpa [-BitVec.getLsbD_eq_getElem, gpRamAdr_ne_csr, csrRamAdr_inj, State.step, State.romAdr, State.test, State.exception, State.pending, testOut, rawTest, seqAdr, State.ram, ramCtl, RamCtl.memNext, RamCtl.rdataNext, State.regRAdr, State.regWAdr, State.allowZeroWr, State.csrAdr, CsrState.step, CsrState.datR, csrView, rbNext, State.doDecode, aNext, bNext, aluNext, oMux, modIn, modOut, pcNext, CauseLatch.step, exceptionOut, aluZero, gpSet, gpRamAdr_eq_zero, subUnit_low, hd.srcA, hd.srcB, hd.dst, hd.imm, hd.op, hd.enc, rom_00, u_52] using h

theorem f_53 {r : Req} {K : BitVec 32 → Tree α} (hd : Dec k d)
    (hr : r = ⟨pc, 0xF, false, 0⟩)
    (h : ∀ d, Dec k d → Impl F true ⟨u_b5, 182#8, false, false, a, b, (a + b), pc, mem, rd,
      ⟨mie, mpie, meie, rb, k.enc⟩, d, c, da, wd⟩ (.bus r K) (n + 0)) :
    Impl F false ⟨u_53, 84#8, false, false, a, b, o, pc, mem, rd, ⟨mie, mpie, meie, rb, pa⟩, d, c, da, wd⟩ (.bus r K) n := by
  refine .firstq 0 rfl rfl hr.symm (fun _ => rfl) fun i hi => ?_
  have h := h (d.step false i.datR) (hd.next _)
  simpa [-BitVec.getLsbD_eq_getElem, gpRamAdr_ne_csr, csrRamAdr_inj, State.step, State.romAdr, State.test, State.exception, State.pending, testOut, rawTest, seqAdr, State.ram, ramCtl, RamCtl.memNext, RamCtl.rdataNext, State.regRAdr, State.regWAdr, State.allowZeroWr, State.csrAdr, CsrState.step, CsrState.datR, csrView, rbNext, State.doDecode, aNext, bNext, aluNext, oMux, modIn, modOut, pcNext, CauseLatch.step, exceptionOut, aluZero, gpSet, gpRamAdr_eq_zero, subUnit_low, hd.srcA, hd.srcB, hd.dst, hd.imm, hd.op, hd.enc, rom_b5, u_53, hi] using h

theorem f_54 {r : Req} {K : BitVec 32 → Tree α} (hd : Dec k d)
    (hr : r = ⟨pc, 0xF, false, 0⟩)
    (h : ∀ d, Dec k d → Impl F true ⟨u_b5, 182#8, false, false, a, b, (aluNext .cmpLtu .invMsbAB .none a b), pc, mem, rd,
      ⟨mie, mpie, meie, rb, k.enc⟩, d, c, da, wd⟩ (.bus r K) (n + 0)) :
    Impl F false ⟨u_54, 85#8, false, false, a, b, o, pc, mem, rd, ⟨mie, mpie, meie, rb, pa⟩, d, c, da, wd⟩ (.bus r K) n := by
  refine .firstq 0 rfl rfl hr.symm (fun _ => rfl) fun i hi => ?_
  have h := h (d.step false i.datR) (hd.next _)
  simpa [-BitVec.getLsbD_eq_getElem, gpRamAdr_ne_csr, csrRamAdr_inj, State.step, State.romAdr, State.test, State.exception, State.pending, testOut, rawTest, seqAdr, State.ram, ramCtl, RamCtl.memNext, RamCtl.rdataNext, State.regRAdr, State.regWAdr, State.allowZeroWr, State.csrAdr, CsrState.step, CsrState.datR, csrView, rbNext, State.doDecode, aNext, bNext, aluNext, oMux, modIn, modOut, pcNext, CauseLatch.step, exceptionOut, aluZero, gpSet, gpRamAdr_eq_zero, subUnit_low, hd.srcA, hd.srcB, hd.dst, hd.imm, hd.op, hd.enc, rom_b5, u_54, hi] using h

theorem f_55 {r : Req} {K : BitVec 32 → Tree α} (hd : Dec k d)
    (hr : r = ⟨pc, 0xF, false, 0⟩)
    (h : ∀ d, Dec k d → Impl F true ⟨u_b5, 182#8, false, false, a, b, (aluNext .cmpLtu .none .none a b), pc, mem, rd,
      ⟨mie, mpie, meie, rb, k.enc⟩, d, c, da, wd⟩ (.bus r K) (n + 0)) :
    Impl F false ⟨u_55, 86#8, false, false, a, b, o, pc, mem, rd, ⟨mie, mpie, meie, rb, pa⟩, d, c, da, wd⟩ (.bus r K) n := by
  refine .firstq 0 rfl rfl hr.symm (fun _ => rfl) fun i hi => ?_
  have h := h (d.step false i.datR) (hd.next _)
  simpa [-BitVec.getLsbD_eq_getElem, gpRamAdr_ne_csr, csrRamAdr_inj, State.step, State.romAdr, State.test, State.exception, State.pending, testOut, rawTest, seqAdr, State.ram, ramCtl, RamCtl.memNext, RamCtl.rdataNext, State.regRAdr, State.regWAdr, State.allowZeroWr, State.csrAdr, CsrState.step, CsrState.datR, csrView, rbNext, State.doDecode, aNext, bNext, aluNext, oMux, modIn, modOut, pcNext, CauseLatch.step, exceptionOut, aluZero, gpSet, gpRamAdr_eq_zero, subUnit_low, hd.srcA, hd.srcB, hd.dst, hd.imm, hd.op, hd.enc, rom_b5, u_55, hi] using h

theorem f_56 {r : Req} {K : BitVec 32 → Tree α} (hd : Dec k d)
    (hr : r = ⟨pc, 0xF, false, 0⟩)
    (h : ∀ d, Dec k d → Impl F true ⟨u_b5, 182#8, false, false, a, b, (a ^^^ b), pc, mem, rd,
      ⟨mie, mpie, meie, rb, k.enc⟩, d, c, da, wd⟩ (.bus r K) (n + 0)) :
    Impl F false ⟨u_56, 87#8, false, false, a, b, o, pc, mem, rd, ⟨mie, mpie, meie, rb, pa⟩, d, c, da, wd⟩ (.bus r K) n := by
  refine .firstq 0 rfl rfl hr.symm (fun _ => rfl) fun i hi => ?_
  have h := h (d.step false i.datR) (hd.next _)
  simpa [-BitVec.getLsbD_eq_getElem, gpRamAdr_ne_csr, csrRamAdr_inj, State.step, State.romAdr, State.test, State.exception, State.pending, testOut, rawTest, seqAdr, State.ram, ramCtl, RamCtl.memNext, RamCtl.rdataNext, State.regRAdr, State.regWAdr, State.allowZeroWr, State.csrAdr, CsrState.step, CsrState.datR, csrView, rbNext, State.doDecode, aNext, bNext, aluNext, oMux, modIn, modOut, pcNext, CauseLatch.step, exceptionOut, aluZero, gpSet, gpRamAdr_eq_zero, subUnit_low, hd.srcA, hd.srcB, hd.dst, hd.imm, hd.op, hd.enc, rom_b5, u_56, hi] using h

theorem f_57 {r : Req} {K : BitVec 32 → Tree α} (hd : Dec k d)
    (hr : r = ⟨pc, 0xF, false, 0⟩)
    (h : ∀ d, Dec k d → Impl F true ⟨u_b5, 182#8, false, false, a, b, (a ||| b), pc, mem, rd,
      ⟨mie, mpie, meie, rb, k.enc⟩, d, c, da, wd⟩ (.bus r K) (n + 0)) :
    Impl F false ⟨u_57, 88#8, false, false, a, b, o, pc, mem, rd, ⟨mie, mpie, meie, rb, pa⟩, d, c, da, wd⟩ (.bus r K) n := by
  refine .firstq 0 rfl rfl hr.symm (fun _ => rfl) fun i hi => ?_
  have h := h (d.step false i.datR) (hd.next _)
  simpa [-BitVec.getLsbD_eq_getElem, gpRamAdr_ne_csr, csrRamAdr_inj, State.step, State.romAdr, State.test, State.exception, State.pending, testOut, rawTest, seqAdr, State.ram, ramCtl, RamCtl.memNext, RamCtl.rdataNext, State.regRAdr, State.regWAdr, State.allowZeroWr, State.csrAdr, CsrState.step, CsrState.datR, csrView, rbNext, State.doDecode, aNext, bNext, aluNext, oMux, modIn, modOut, pcNext, CauseLatch.step, exceptionOut, aluZero, gpSet, gpRamAdr_eq_zero, subUnit_low, hd.srcA, hd.srcB, hd.dst, hd.imm, hd.op, hd.enc, rom_b5, u_57, hi] using h

theorem f_58 {r : Req} {K : BitVec 32 → Tree α} (hd : Dec k d)
    (hr : r = ⟨pc, 0xF, false, 0⟩)
    (h : ∀ d, Dec k d → Impl F true ⟨u_b5, 182#8, false, false, a, b, (a &&& b), pc, mem, rd,
      ⟨mie, mpie, meie, rb, k.enc⟩, d, c, da, wd⟩ (.bus r K) (n + 0)) :
    Impl F false ⟨u_58, 89#8, false, false, a, b, o, pc, mem, rd, ⟨mie, mpie, meie, rb, pa⟩, d, c, da, wd⟩ (.bus r K) n := by
  refine .firstq 0 rfl rfl hr.symm (fun _ => rfl) fun i hi => ?_
  have h := h (d.step false i.datR) (hd.next _)
  simpa [-BitVec.getLsbD_eq_getElem, gpRamAdr_ne_csr, csrRamAdr_inj, State.step, State.romAdr, State.test, State.exception, State.pending, testOut, rawTest, seqAdr, State.ram, ramCtl, RamCtl.memNext, RamCtl.rdataNext, State.regRAdr, State.regWAdr, State.allowZeroWr, State.csrAdr, CsrState.step, CsrState.datR, csrView, rbNext, State.doDecode, aNext, bNext, aluNext, oMux, modIn, modOut, pcNext, CauseLatch.step, exceptionOut, aluZero, gpSet, gpRamAdr_eq_zero, subUnit_low, hd.srcA, hd.srcB, hd.dst, hd.imm, hd.op, hd.enc, rom_b5, u_58, hi] using h

theorem q_59 (hd : Dec k d)
    (h : ∀ d, Dec k d → Impl F false ⟨u_5a, 91#8, false, false, 0#32, b, (a + b), pc, mem, (mem (gpRamAdr k.srcA)),
      ⟨mie, mpie, meie, rb, k.enc⟩, d, c, da, wd⟩ T (n + 1)) :
    Impl F pv ⟨u_59, 90#8, false, false, a, b, o, pc, mem, rd, ⟨mie, mpie, meie, rb, pa⟩, d, c, da, wd⟩ T n := by
  refine .quietq 1 rfl rfl (fun _ => rfl) fun i => ?_
  have h := h (d.step false i.datR) (hd.next _)
  simpa [-BitVec.getLsbD_eq_getElem, gpRamAdr_ne_csr, csrRamAdr_inj, State.step, State.romAdr, State.test, State.exception, State.pending, testOut, rawTest, seqAdr, State.ram, ramCtl, RamCtl.memNext, RamCtl.rdataNext, State.regRAdr, State.regWAdr, State.allowZeroWr, State.csrAdr, CsrState.step, CsrState.datR, csrView, rbNext, State.doDecode, aNext, bNext, aluNext, oMux, modIn, modOut, pcNext, CauseLatch.step, exceptionOut, aluZero, gpSet, gpRamAdr_eq_zero, subUnit_low, hd.srcA, hd.srcB, hd.dst, hd.imm, hd.op, hd.enc, rom_5a, u_59] using h

theorem q_5a (hd : Dec k d)
    (h : ∀ d, Dec k d → Impl F false ⟨u_5b, 92#8, false, false, rd, k.imm, (a + b), pc, mem, rd,
      ⟨mie, mpie, meie, rb, k.enc⟩, d, c, da, wd⟩ T (n + 1)) :
    Impl F pv ⟨u_5a, 91#8, false, false, a, b, o, pc, mem, rd, ⟨mie, mpie, meie, rb, pa⟩, d, c, da, wd⟩ T n := by
  refine .quietq 1 rfl rfl (fun _ => rfl) fun i => ?_
  have h := h (d.step false i.datR) (hd.next _)
  simpa [-BitVec.getLsbD_eq_getElem, gpRamAdr_ne_csr, csrRamAdr_inj, State.step, State.romAdr, State.test, State.exception, State.pending, testOut, rawTest, seqAdr, State.ram, ramCtl, RamCtl.memNext, RamCtl.rdataNext, State.regRAdr, State.regWAdr, State.allowZeroWr, State.csrAdr, CsrState.step, CsrState.datR, csrView, rbNext, State.doDecode, aNext, bNext, aluNext, oMux, modIn, modOut, pcNext, CauseLatch.step, exceptionOut, aluZero, gpSet, gpRamAdr_eq_zero, subUnit_low, hd.srcA, hd.srcB, hd.dst, hd.imm, hd.op, hd.enc, rom_5b, u_5a] using h

theorem q_5b_z (hd : Dec k d) (hc : o = 0#32)
    (h : ∀ d, Dec k d → Impl F false ⟨u_68, 105#8, false, false, k.imm, 1#32, (a <<< 1), pc, mem, (mem (gpRamAdr k.srcA)),
      ⟨mie, mpie, meie, rb, k.enc⟩, d, c, da, wd⟩ T (n + 1)) :
    Impl F pv ⟨u_5b, 92#8, false, false, a, b, o, pc, mem, rd, ⟨mie, mpie, meie, rb, pa⟩, d, c, da, wd⟩ T n := by
  refine .quietq 1 rfl rfl (fun _ => rfl) fun i => ?_
  have h := h (d.step false i.datR) (hd.next _)
  simpa [-BitVec.getLsbD_eq_getElem, gpRamAdr_ne_csr, csrRamAdr_inj, State.step, State.romAdr, State.test, State.exception, State.pending, testOut, rawTest, seqAdr, State.ram, ramCtl, RamCtl.memNext, RamCtl.rdataNext, State.regRAdr, State.regWAdr, State.allowZeroWr, State.csrAdr, CsrState.step, CsrState.datR, csrView, rbNext, State.doDecode, aNext, bNext, aluNext, oMux, modIn, modOut, pcNext, CauseLatch.step, exceptionOut, aluZero, gpSet, gpRamAdr_eq_zero, subUnit_low, hd.srcA, hd.srcB, hd.dst, hd.imm, hd.op, hd.enc, rom_68, u_5b, hc] using h

theorem q_5b_nz (hd : Dec k d) (hc : ¬ o = 0#32)
    (h : ∀ d, Dec k d → Impl F false ⟨u_5c, 93#8, false, false, k.imm, 1#32, (a <<< 1), pc, mem, (mem (gpRamAdr k.srcA)),
      ⟨mie, mpie, meie, rb, k.enc⟩, d, c, da, wd⟩ T (n + 1)) :
    Impl F pv ⟨u_5b, 92#8, false, false, a, b, o, pc, mem, rd, ⟨mie, mpie, meie, rb, pa⟩, d, c, da, wd⟩ T n := by
  refine .quietq 1 rfl rfl (fun _ => rfl) fun i => ?_
  have h := h (d.step false i.datR) (hd.next _)
  simpa [-BitVec.getLsbD_eq_getElem, gpRamAdr_ne_csr, csrRamAdr_inj, State.step, State.romAdr, State.test, State.exception, State.pending, testOut, rawTest, seqAdr, State.ram, ramCtl, RamCtl.memNext, RamCtl.rdataNext, State.regRAdr, State.regWAdr, State.allowZeroWr, State.csrAdr, CsrState.step, CsrState.datR, csrView, rbNext, State.doDecode, aNext, bNext, aluNext, oMux, modIn, modOut, pcNext, CauseLatch.step, exceptionOut, aluZero, gpSet, gpRamAdr_eq_zero, subUnit_low, hd.srcA, hd.srcB, hd.dst, hd.imm, hd.op, hd.enc, rom_5c, u_5b, hc] using h

theorem q_5c (hd : Dec k d)
    (h : ∀ d, Dec k d → Impl F false ⟨u_5d, 94#8, false, false, o, b, (a - b), pc, (gpSet mem k.dst o), rd,
      ⟨mie, mpie, meie, rb, k.enc⟩, d, c, da, wd⟩ T (n + .w)) :
    Impl F pv ⟨u_5c, 93#8, false, false, a, b, o, pc, mem, rd, ⟨mie, mpie, meie, rb, pa⟩, d, c, da, wd⟩ T n := by
  refine .quietq .w rfl rfl (fun _ => rfl) fun i => ?_
  have h := h (d.step false i.datR) (hd.next _)
  simpa [-BitVec.getLsbD_eq_getElem, gpRamAdr_ne_csr, csrRamAdr_inj, State.step, State.romAdr, State.test, State.exception, State.pending, testOut, rawTest, seqAdr, State.ram, ramCtl, RamCtl.memNext, RamCtl.rdataNext, State.regRAdr, State.regWAdr, State.allowZeroWr, State.csrAdr, CsrState.step, CsrState.datR, csrView, rbNext, State.doDecode, aNext, bNext, aluNext, oMux, modIn, modOut, pcNext, CauseLatch.step, exceptionOut, aluZero, gpSet, gpRamAdr_eq_zero, subUnit_low, hd.srcA, hd.srcB, hd.dst, hd.imm, hd.op, hd.enc, rom_5d, u_5c] using h

theorem q_5d_z (hd : Dec k d) (hc : o = 0#32)
    (h : ∀ d, Dec k d → Impl F false ⟨u_00, 1#8, false, false, o, 1#32, (a <<< 1), pc, mem, rd,
      ⟨mie, mpie, meie, rb, k.enc⟩, d, c, da, wd⟩ T (n + 1)) :
    Impl F pv ⟨u_5d, 94#8, false, false, a, b, o, pc, mem, rd, ⟨mie, mpie, meie, rb, pa⟩, d, c, da, wd⟩ T n := by
  refine .quietq 1 rfl rfl (fun _ => rfl) fun i => ?_
  have h := h (d.step false i.datR) (hd.next _)
  simpa [-BitVec.getLsbD_eq_getElem, gpRamAdr_ne_csr, csrRamAdr_inj, State.step, State.romAdr, State.test, State.exception, State.pending, testOut, rawTest, seqAdr, State.ram, ramCtl, RamCtl.memNext, RamCtl.rdataNext, State.regRAdr, State.regWAdr, State.allowZeroWr, State.csrAdr, CsrState.step, CsrState.datR, csrView, rbNext, State.doDecode, aNext, bNext, aluNext, oMux, modIn, modOut, pcNext, CauseLatch.step, exceptionOut, aluZero, gpSet, gpRamAdr_eq_zero, subUnit_low, hd.srcA, hd.srcB, hd.dst, hd.imm, hd.op, hd.enc, rom_00, u_5d, hc] using h

theorem q_5d_nz (hd : Dec k d) (hc : ¬ o = 0#32)
    (h : ∀ d, Dec k d → Impl F false ⟨u_5c, 93#8, false, false, o, 1#32, (a <<< 1), pc, mem, rd,
      ⟨mie, mpie, meie, rb, k.enc⟩, d, c, da, wd⟩ T (n + 1)) :
    Impl F pv ⟨u_5d, 94#8, false, false, a, b, o, pc, mem, rd, ⟨mie, mpie, meie, rb, pa⟩, d, c, da, wd⟩ T n := by
  refine .quietq 1 rfl rfl (fun _ => rfl) fun i => ?_
  have h := h (d.step false i.datR) (hd.next _)
  simpa [-BitVec.getLsbD_eq_getElem, gpRamAdr_ne_csr, csrRamAdr_inj, State.step, State.romAdr, State.test, State.exception, State.pending, testOut, rawTest, seqAdr, State.ram, ramCtl, RamCtl.memNext, RamCtl.rdataNext, State.regRAdr, State.regWAdr, State.allowZeroWr, State.csrAdr, CsrState.step, CsrState.datR, csrView, rbNext, State.doDecode, aNext, bNext, aluNext, oMux, modIn, modOut, pcNext, CauseLatch.step, exceptionOut, aluZero, gpSet, gpRamAdr_eq_zero, subUnit_low, hd.srcA, hd.srcB, hd.dst, hd.imm, hd.op, hd.enc, rom_5c, u_5d, hc] using h

theorem q_5e (hd : Dec k d)
    (h : ∀ d, Dec k d → Impl F false ⟨u_5f, 96#8, false, false, 0#32, b, (a + b), pc, mem, (mem (gpRamAdr k.srcA)),
      ⟨mie, mpie, meie, rb, k.enc⟩, d, c, da, wd⟩ T (n + 1)) :
    Impl F pv ⟨u_5e, 95#8, false, false, a, b, o, pc, mem, rd, ⟨mie, mpie, meie, rb, pa⟩, d, c, da, wd⟩ T n := by
  refine .quietq 1 rfl rfl (fun _ => rfl) fun i => ?_
  have h := h (d.step false i.datR) (hd.next _)
  simpa [-BitVec.getLsbD_eq_getElem, gpRamAdr_ne_csr, csrRamAdr_inj, State.step, State.romAdr, State.test, State.exception, State.pending, testOut, rawTest, seqAdr, State.ram, ramCtl, RamCtl.memNext, RamCtl.rdataNext, State.regRAdr, State.regWAdr, State.allowZeroWr, State.csrAdr, CsrState.step, CsrState.datR, csrView, rbNext, State.doDecode, aNext, bNext, aluNext, oMux, modIn, modOut, pcNext, CauseLatch.step, exceptionOut, aluZero, gpSet, gpRamAdr_eq_zero, subUnit_low, hd.srcA, hd.srcB, hd.dst, hd.imm, hd.op, hd.enc, rom_5f, u_5e] using h

theorem q_5f (hd : Dec k d)
    (h : ∀ d, Dec k d → Impl F false ⟨u_60, 97#8, false, false, rd, k.imm, (a + b), pc, mem, rd,
      ⟨mie, mpie, meie, rb, k.enc⟩, d, c, da, wd⟩ T (n + 1)) :
    Impl F pv ⟨u_5f, 96#8, false, false, a, b, o, pc, mem, rd, ⟨mie, mpie, meie, rb, pa⟩, d, c, da, wd⟩ T n := by
  refine .quietq 1 rfl rfl (fun _ => rfl) fun i => ?_
  have h := h (d.step false i.datR) (hd.next _)
  simpa [-BitVec.getLsbD_eq_getElem, gpRamAdr_ne_csr, csrRamAdr_inj, State.step, State.romAdr, State.test, State.exception, State.pending, testOut, rawTest, seqAdr, State.ram, ramCtl, RamCtl.memNext, RamCtl.rdataNext, State.regRAdr, State.regWAdr, State.allowZeroWr, State.csrAdr, CsrState.step, CsrState.datR, csrView, rbNext, State.doDecode, aNext, bNext, aluNext, oMux, modIn, modOut, pcNext, CauseLatch.step, exceptionOut, aluZero, gpSet, gpRamAdr_eq_zero, subUnit_low, hd.srcA, hd.srcB, hd.dst, hd.imm, hd.op, hd.enc, rom_60, u_5f] using h

theorem q_60_z (hd : Dec k d) (hc : o = 0#32)
    (h : ∀ d, Dec k d → Impl F false ⟨u_68, 105#8, false, false, k.imm, 1#32, (a >>> 1), pc, mem, (mem (gpRamAdr k.srcA)),
      ⟨mie, mpie, meie, rb, k.enc⟩, d, c, da, wd⟩ T (n + 1)) :
    Impl F pv ⟨u_60, 97#8, false, false, a, b, o, pc, mem, rd, ⟨mie, mpie, meie, rb, pa⟩, d, c, da, wd⟩ T n := by
  refine .quietq 1 rfl rfl (fun _ => rfl) fun i => ?_
  have h := h (d.step false i.datR) (hd.next _)
  simpa [-BitVec.getLsbD_eq_getElem, gpRamAdr_ne_csr, csrRamAdr_inj, State.step, State.romAdr, State.test, State.exception, State.pending, testOut, rawTest, seqAdr, State.ram, ramCtl, RamCtl.memNext, RamCtl.rdataNext, State.regRAdr, State.regWAdr, State.allowZeroWr, State.csrAdr, CsrState.step, CsrState.datR, csrView, rbNext, State.doDecode, aNext, bNext, aluNext, oMux, modIn, modOut, pcNext, CauseLatch.step, exceptionOut, aluZero, gpSet, gpRamAdr_eq_zero, subUnit_low, hd.srcA, hd.srcB, hd.dst, hd.imm, hd.op, hd.enc, rom_68, u_60, hc] using h

theorem q_60_nz (hd : Dec k d) (hc : ¬ o = 0#32)
    (h : ∀ d, Dec k d → Impl F false ⟨u_61, 98#8, false, false, k.imm, 1#32, (a >>> 1), pc, mem, (mem (gpRamAdr k.srcA)),
      ⟨mie, mpie, meie, rb, k.enc⟩, d, c, da, wd⟩ T (n + 1)) :
    Impl F pv ⟨u_60, 97#8, false, false, a, b, o, pc, mem, rd, ⟨mie, mpie, meie, rb, pa⟩, d, c, da, wd⟩ T n := by
  refine .quietq 1 rfl rfl (fun _ => rfl) fun i => ?_
  have h := h (d.step false i.datR) (hd.next _)
  simpa [-BitVec.getLsbD_eq_getElem, gpRamAdr_ne_csr, csrRamAdr_inj, State.step, State.romAdr, State.test, State.exception, State.pending, testOut, rawTest, seqAdr, State.ram, ramCtl, RamCtl.memNext, RamCtl.rdataNext, State.regRAdr, State.regWAdr, State.allowZeroWr, State.csrAdr, CsrState.step, CsrState.datR, csrView, rbNext, State.doDecode, aNext, bNext, aluNext, oMux, modIn, modOut, pcNext, CauseLatch.step, exceptionOut, aluZero, gpSet, gpRamAdr_eq_zero, subUnit_low, hd.srcA, hd.srcB, hd.dst, hd.imm, hd.op, hd.enc, rom_61, u_60, hc] using h

theorem q_61 (hd : Dec k d)
    (h : ∀ d, Dec k d → Impl F false ⟨u_62, 99#8, false, false, o, b, (a - b), pc, (gpSet mem k.dst o), rd,
      ⟨mie, mpie, meie, rb, k.enc⟩, d, c, da, wd⟩ T (n + .w)) :
    Impl F pv ⟨u_61, 98#8, false, false, a, b, o, pc, mem, rd, ⟨mie, mpie, meie, rb, pa⟩, d, c, da, wd⟩ T n := by
  refine .quietq .w rfl rfl (fun _ => rfl) fun i => ?_
  have h := h (d.step false i.datR) (hd.next _)
  simpa [-BitVec.getLsbD_eq_getElem, gpRamAdr_ne_csr, csrRamAdr_inj, State.step, State.romAdr, State.test, State.exception, State.pending, testOut, rawTest, seqAdr, State.ram, ramCtl, RamCtl.memNext, RamCtl.rdataNext, State.regRAdr, State.regWAdr, State.allowZeroWr, State.csrAdr, CsrState.step, CsrState.datR, csrView, rbNext, State.doDecode, aNext, bNext, aluNext, oMux, modIn, modOut, pcNext, CauseLatch.step, exceptionOut, aluZero, gpSet, gpRamAdr_eq_zero, subUnit_low, hd.srcA, hd.srcB, hd.dst, hd.imm, hd.op, hd.enc, rom_62, u_61] using h

theorem q_62_z (hd : Dec k d) (hc : o = 0#32)
    (h : ∀ d, Dec k d → Impl F false ⟨u_00, 1#8, false, false, o, 1#32, (a >>> 1), pc, mem, rd,
      ⟨mie, mpie, meie, rb, k.enc⟩, d, c, da, wd⟩ T (n + 1)) :
    Impl F pv ⟨u_62, 99#8, false, false, a, b, o, pc, mem, rd, ⟨mie, mpie, meie, rb, pa⟩, d, c, da, wd⟩ T n := by
  refine .quietq 1 rfl rfl (fun _ => rfl) fun i => ?_
  have h := h (d.step false i.datR) (hd.next _)
  simpa [-BitVec.getLsbD_eq_getElem, gpRamAdr_ne_csr, csrRamAdr_inj, State.step, State.romAdr, State.test, State.exception, State.pending, testOut, rawTest, seqAdr, State.ram, ramCtl, RamCtl.memNext, RamCtl.rdataNext, State.regRAdr, State.regWAdr, State.allowZeroWr, State.csrAdr, CsrState.step, CsrState.datR, csrView, rbNext, State.doDecode, aNext, bNext, aluNext, oMux, modIn, modOut, pcNext, CauseLatch.step, exceptionOut, aluZero, gpSet, gpRamAdr_eq_zero, subUnit_low, hd.srcA, hd.srcB, hd.dst, hd.imm, hd.op, hd.enc, rom_00, u_62, hc] using h

theorem q_62_nz (hd : Dec k d) (hc : ¬ o = 0#32)
    (h : ∀ d, Dec k d → Impl F false ⟨u_61, 98#8, false, false, o, 1#32, (a >>> 1), pc, mem, rd,
      ⟨mie, mpie, meie, rb, k.enc⟩, d, c, da, wd⟩ T (n + 1)) :
    Impl F pv ⟨u_62, 99#8, false, false, a, b, o, pc, mem, rd, ⟨mie, mpie, meie, rb, pa⟩, d, c, da, wd⟩ T n := by
  refine .quietq 1 rfl rfl (fun _ => rfl) fun i => ?_
  have h := h (d.step false i.datR) (hd.next _)
  simpa [-BitVec.getLsbD_eq_getElem, gpRamAdr_ne_csr, csrRamAdr_inj, State.step, State.romAdr, State.test, State.exception, State.pending, testOut, rawTest, seqAdr, State.ram, ramCtl, RamCtl.memNext, RamCtl.rdataNext, State.regRAdr, State.regWAdr, State.allowZeroWr, State.csrAdr, CsrState.step, CsrState.datR, csrView, rbNext, State.doDecode, aNext, bNext, aluNext, oMux, modIn, modOut, pcNext, CauseLatch.step, exceptionOut, aluZero, gpSet, gpRamAdr_eq_zero, subUnit_low, hd.srcA, hd.srcB, hd.dst, hd.imm, hd.op, hd.enc, rom_61, u_62, hc] using h

theorem q_63 (hd : Dec k d)
    (h : ∀ d, Dec k d → Impl F false ⟨u_64, 101#8, false, false, 31#32, b, (a + b), pc, mem, (mem (gpRamAdr k.srcA)),
      ⟨mie, mpie, meie, rb, k.enc⟩, d, c, da, wd⟩ T (n + 1)) :
    Impl F pv ⟨u_63, 100#8, false, false, a, b, o, pc, mem, rd, ⟨mie, mpie, meie, rb, pa⟩, d, c, da, wd⟩ T n := by
  refine .quietq 1 rfl rfl (fun _ => rfl) fun i => ?_
  have h := h (d.step false i.datR) (hd.next _)
  simpa [-BitVec.getLsbD_eq_getElem, gpRamAdr_ne_csr, csrRamAdr_inj, State.step, State.romAdr, State.test, State.exception, State.pending, testOut, rawTest, seqAdr, State.ram, ramCtl, RamCtl.memNext, RamCtl.rdataNext, State.regRAdr, State.regWAdr, State.allowZeroWr, State.csrAdr, CsrState.step, CsrState.datR, csrView, rbNext, State.doDecode, aNext, bNext, aluNext, oMux, modIn, modOut, pcNext, CauseLatch.step, exceptionOut, aluZero, gpSet, gpRamAdr_eq_zero, subUnit_low, hd.srcA, hd.srcB, hd.dst, hd.imm, hd.op, hd.enc, rom_64, u_63] using h

theorem q_64 (hd : Dec k d)
    (h : ∀ d, Dec k d → Impl F false ⟨u_65, 102#8, false, false, rd, b, (a &&& b), pc, mem, rd,
      ⟨mie, mpie, meie, rb, k.enc⟩, d, c, da, wd⟩ T (n + 1)) :
    Impl F pv ⟨u_64, 101#8, false, false, a, b, o, pc, mem, rd, ⟨mie, mpie, meie, rb, pa⟩, d, c, da, wd⟩ T n := by
  refine .quietq 1 rfl rfl (fun _ => rfl) fun i => ?_
  have h := h (d.step false i.datR) (hd.next _)
  simpa [-BitVec.getLsbD_eq_getElem, gpRamAdr_ne_csr, csrRamAdr_inj, State.step, State.romAdr, State.test, State.exception, State.pending, testOut, rawTest, seqAdr, State.ram, ramCtl, RamCtl.memNext, RamCtl.rdataNext, State.regRAdr, State.regWAdr, State.allowZeroWr, State.csrAdr, CsrState.step, CsrState.datR, csrView, rbNext, State.doDecode, aNext, bNext, aluNext, oMux, modIn, modOut, pcNext, CauseLatch.step, exceptionOut, aluZero, gpSet, gpRamAdr_eq_zero, subUnit_low, hd.srcA, hd.srcB, hd.dst, hd.imm, hd.op, hd.enc, rom_65, u_64] using h

theorem q_65_z (hd : Dec k d) (hc : o = 0#32)
    (h : ∀ d, Dec k d → Impl F false ⟨u_68, 105#8, false, false, o, 1#32, (a.sshiftRight 1), pc, mem, (mem (gpRamAdr k.srcA)),
      ⟨mie, mpie, meie, rb, k.enc⟩, d, c, da, wd⟩ T (n + 1)) :
    Impl F pv ⟨u_65, 102#8, false, false, a, b, o, pc, mem, rd, ⟨mie, mpie, meie, rb, pa⟩, d, c, da, wd⟩ T n := by
  refine .quietq 1 rfl rfl (fun _ => rfl) fun i => ?_
  have h := h (d.step false i.datR) (hd.next _)
  simpa [-BitVec.getLsbD_eq_getElem, gpRamAdr_ne_csr, csrRamAdr_inj, State.step, State.romAdr, State.test, State.exception, State.pending, testOut, rawTest, seqAdr, State.ram, ramCtl, RamCtl.memNext, RamCtl.rdataNext, State.regRAdr, State.regWAdr, State.allowZeroWr, State.csrAdr, CsrState.step, CsrState.datR, csrView, rbNext, State.doDecode, aNext, bNext, aluNext, oMux, modIn, modOut, pcNext, CauseLatch.step, exceptionOut, aluZero, gpSet, gpRamAdr_eq_zero, subUnit_low, hd.srcA, hd.srcB, hd.dst, hd.imm, hd.op, hd.enc, rom_68, u_65, hc] using h

theorem q_65_nz (hd : Dec k d) (hc : ¬ o = 0#32)
    (h : ∀ d, Dec k d → Impl F false ⟨u_66, 103#8, false, false, o, 1#32, (a.sshiftRight 1), pc, mem, (mem (gpRamAdr k.srcA)),
      ⟨mie, mpie, meie, rb, k.enc⟩, d, c, da, wd⟩ T (n + 1)) :
    Impl F pv ⟨u_65, 102#8, false, false, a, b, o, pc, mem, rd, ⟨mie, mpie, meie, rb, pa⟩, d, c, da, wd⟩ T n := by
  refine .quietq 1 rfl rfl (fun _ => rfl) fun i => ?_
  have h := h (d.step false i.datR) (hd.next _)
  simpa [-BitVec.getLsbD_eq_getElem, gpRamAdr_ne_csr, csrRamAdr_inj, State.step, State.romAdr, State.test, State.exception, State.pending, testOut, rawTest, seqAdr, State.ram, ramCtl, RamCtl.memNext, RamCtl.rdataNext, State.regRAdr, State.regWAdr, State.allowZeroWr, State.csrAdr, CsrState.step, CsrState.datR, csrView, rbNext, State.doDecode, aNext, bNext, aluNext, oMux, modIn, modOut, pcNext, CauseLatch.step, exceptionOut, aluZero, gpSet, gpRamAdr_eq_zero, subUnit_low, hd.srcA, hd.srcB, hd.dst, hd.imm, hd.op, hd.enc, rom_66, u_65, hc] using h

theorem q_66 (hd : Dec k d)
    (h : ∀ d, Dec k d → Impl F false ⟨u_67, 104#8, false, false, o, b, (a - b), pc, (gpSet mem k.dst o), rd,
      ⟨mie, mpie, meie, rb, k.enc⟩, d, c, da, wd⟩ T (n + .w)) :
    Impl F pv ⟨u_66, 103#8, false, false, a, b, o, pc, mem, rd, ⟨mie, mpie, meie, rb, pa⟩, d, c, da, wd⟩ T n := by
  refine .quietq .w rfl rfl (fun _ => rfl) fun i => ?_
  have h := h (d.step false i.datR) (hd.next _)
  simpa [-BitVec.getLsbD_eq_getElem, gpRamAdr_ne_csr, csrRamAdr_inj, State.step, State.romAdr, State.test, State.exception, State.pending, testOut, rawTest, seqAdr, State.ram, ramCtl, RamCtl.memNext, RamCtl.rdataNext, State.regRAdr, State.regWAdr, State.allowZeroWr, State.csrAdr, CsrState.step, CsrState.datR, csrView, rbNext, State.doDecode, aNext, bNext, aluNext, oMux, modIn, modOut, pcNext, CauseLatch.step, exceptionOut, aluZero, gpSet, gpRamAdr_eq_zero, subUnit_low, hd.srcA, hd.srcB, hd.dst, hd.imm, hd.op, hd.enc, rom_67, u_66] using h

theorem q_67_z (hd : Dec k d) (hc : o = 0#32)
    (h : ∀ d, Dec k d → Impl F false ⟨u_00, 1#8, false, false, o, 1#32, (a.sshiftRight 1), pc, mem, rd,
      ⟨mie, mpie, meie, rb, k.enc⟩, d, c, da, wd⟩ T (n + 1)) :
    Impl F pv ⟨u_67, 104#8, false, false, a, b, o, pc, mem, rd, ⟨mie, mpie, meie, rb, pa⟩, d, c, da, wd⟩ T n := by
  refine .quietq 1 rfl rfl (fun _ => rfl) fun i => ?_
  have h := h (d.step false i.datR) (hd.next _)
  simpa [-BitVec.getLsbD_eq_getElem, gpRamAdr_ne_csr, csrRamAdr_inj, State.step, State.romAdr, State.test, State.exception, State.pending, testOut, rawTest, seqAdr, State.ram, ramCtl, RamCtl.memNext, RamCtl.rdataNext, State.regRAdr, State.regWAdr, State.allowZeroWr, State.csrAdr, CsrState.step, CsrState.datR, csrView, rbNext, State.doDecode, aNext, bNext, aluNext, oMux, modIn, modOut, pcNext, CauseLatch.step, exceptionOut, aluZero, gpSet, gpRamAdr_eq_zero, subUnit_low, hd.srcA, hd.srcB, hd.dst, hd.imm, hd.op, hd.enc, rom_00, u_67, hc] using h

theorem q_67_nz (hd : Dec k d) (hc : ¬ o = 0#32)
    (h : ∀ d, Dec k d → Impl F false ⟨u_66, 103#8, false, false, o, 1#32, (a.sshiftRight 1), pc, mem, rd,
      ⟨mie, mpie, meie, rb, k.enc⟩, d, c, da, wd⟩ T (n + 1)) :
    Impl F pv ⟨u_67, 104#8, false, false, a, b, o, pc, mem, rd, ⟨mie, mpie, meie, rb, pa⟩, d, c, da, wd⟩ T n := by
  refine .quietq 1 rfl rfl (fun _ => rfl) fun i => ?_
  have h := h (d.step false i.datR) (hd.next _)
  simpa [-BitVec.getLsbD_eq_getElem, gpRamAdr_ne_csr, csrRamAdr_inj, State.step, State.romAdr, State.test, State.exception, State.pending, testOut, rawTest, seqAdr, State.ram, ramCtl, RamCtl.memNext, RamCtl.rdataNext, State.regRAdr, State.regWAdr, State.allowZeroWr, State.csrAdr, CsrState.step, CsrState.datR, csrView, rbNext, State.doDecode, aNext, bNext, aluNext, oMux, modIn, modOut, pcNext, CauseLatch.step, exceptionOut, aluZero, gpSet, gpRamAdr_eq_zero, subUnit_low, hd.srcA, hd.srcB, hd.dst, hd.imm, hd.op, hd.enc, rom_66, u_67, hc] using h

theorem q_68 (hd : Dec k d)
    (h : ∀ d, Dec k d → Impl F false ⟨u_69, 106#8, false, false, 0#32, rd, (a + b), pc, mem, rd,
      ⟨mie, mpie, meie, rb, k.enc⟩, d, c, da, wd⟩ T (n + 1)) :
    Impl F pv ⟨u_68, 105#8, false, false, a, b, o, pc, mem, rd, ⟨mie, mpie, meie, rb, pa⟩, d, c, da, wd⟩ T n := by
  refine .quietq 1 rfl rfl (fun _ => rfl) fun i => ?_
  have h := h (d.step false i.datR) (hd.next _)
  simpa [-BitVec.getLsbD_eq_getElem, gpRamAdr_ne_csr, csrRamAdr_inj, State.step, State.romAdr, State.test, State.exception, State.pending, testOut, rawTest, seqAdr, State.ram, ramCtl, RamCtl.memNext, RamCtl.rdataNext, State.regRAdr, State.regWAdr, State.allowZeroWr, State.csrAdr, CsrState.step, CsrState.datR, csrView, rbNext, State.doDecode, aNext, bNext, aluNext, oMux, modIn, modOut, pcNext, CauseLatch.step, exceptionOut, aluZero, gpSet, gpRamAdr_eq_zero, subUnit_low, hd.srcA, hd.srcB, hd.dst, hd.imm, hd.op, hd.enc, rom_69, u_68] using h

theorem q_69 (hd : Dec k d)
    (h : ∀ d, Dec k d → Impl F false ⟨u_b5, 182#8, false, false, a, b, (a + b), pc, mem, rd,
      ⟨mie, mpie, meie, rb, k.enc⟩, d, c, da, wd⟩ T (n + 1)) :
    Impl F pv ⟨u_69, 106#8, false, false, a, b, o, pc, mem, rd, ⟨mie, mpie, meie, rb, pa⟩, d, c, da, wd⟩ T n := by
  refine .quietq 1 rfl rfl (fun _ => rfl) fun i => ?_
  have h := h (d.step false i.datR) (hd.next _)
  simpa [-BitVec.getLsbD_eq_getElem, gpRamAdr_ne_csr, csrRamAdr_inj, State.step, State.romAdr, State.test, State.exception, State.pending, testOut, rawTest, seqAdr, State.ram, ramCtl, RamCtl.memNext, RamCtl.rdataNext, State.regRAdr, State.regWAdr, State.allowZeroWr, State.csrAdr, CsrState.step, CsrState.datR, csrView, rbNext, State.doDecode, aNext, bNext, aluNext, oMux, modIn, modOut, pcNext, CauseLatch.step, exceptionOut, aluZero, gpSet, gpRamAdr_eq_zero, subUnit_low, hd.srcA, hd.srcB, hd.dst, hd.imm, hd.op, hd.enc, rom_b5, u_69] using h

theorem q_80 (hd : Dec k d)
    (h : ∀ d, Dec k d → Impl F false ⟨u_9d, 158#8, false, false, a, k.imm, (a + b), (pc + 1#30), mem, (mem (gpRamAdr k.srcB)),
      ⟨mie, mpie, meie, rb, k.enc⟩, d, c, da, wd⟩ T (n + 1)) :
    Impl F pv ⟨u_80, 129#8, false, false, a, b, o, pc, mem, rd, ⟨mie, mpie, meie, rb, pa⟩, d, c, da, wd⟩ T n := by
  refine .quietq 1 rfl rfl (fun _ => rfl) fun i => ?_
  have h := h (d.step false i.datR) (hd.next _)
  simpa [-BitVec.getLsbD_eq_getElem, gpRamAdr_ne_csr, csrRamAdr_inj, State.step, State.romAdr, State.test, State.exception, State.pending, testOut, rawTest, seqAdr, State.ram, ramCtl, RamCtl.memNext, RamCtl.rdataNext, State.regRAdr, State.regWAdr, State.allowZeroWr, State.csrAdr, CsrState.step, CsrState.datR, csrView, rbNext, State.doDecode, aNext, bNext, aluNext, oMux, modIn, modOut, pcNext, CauseLatch.step, exceptionOut, aluZero, gpSet, gpRamAdr_eq_zero, subUnit_low, hd.srcA, hd.srcB, hd.dst, hd.imm, hd.op, hd.enc, rom_9d, u_80] using h

theorem q_81 (hd : Dec k d)
    (h : ∀ d, Dec k d → Impl F false ⟨u_a2, 163#8, false, false, a, k.imm, (a + b), pc, mem, (mem (gpRamAdr k.srcB)),
      ⟨mie, mpie, meie, rb, k.enc⟩, d, c, da, wd⟩ T (n + 1)) :
    Impl F pv ⟨u_81, 130#8, false, false, a, b, o, pc, mem, rd, ⟨mie, mpie, meie, rb, pa⟩, d, c, da, wd⟩ T n := by
  refine .quietq 1 rfl rfl (fun _ => rfl) fun i => ?_
  have h := h (d.step false i.datR) (hd.next _)
  simpa [-BitVec.getLsbD_eq_getElem, gpRamAdr_ne_csr, csrRamAdr_inj, State.step, State.romAdr, State.test, State.exception, State.pending, testOut, rawTest, seqAdr, State.ram, ramCtl, RamCtl.memNext, RamCtl.rdataNext, State.regRAdr, State.regWAdr, State.allowZeroWr, State.csrAdr, CsrState.step, CsrState.datR, csrView, rbNext, State.doDecode, aNext, bNext, aluNext, oMux, modIn, modOut, pcNext, CauseLatch.step, exceptionOut, aluZero, gpSet, gpRamAdr_eq_zero, subUnit_low, hd.srcA, hd.srcB, hd.dst, hd.imm, hd.op, hd.enc, rom_a2, u_81] using h

theorem q_82 (hd : Dec k d)
    (h : ∀ d, Dec k d → Impl F false ⟨u_a7, 168#8, false, false, a, k.imm, (a + b), pc, mem, (mem (gpRamAdr k.srcB)),
      ⟨mie, mpie, meie, rb, k.enc⟩, d, c, da, wd⟩ T (n + 1)) :
    Impl F pv ⟨u_82, 131#8, false, false, a, b, o, pc, mem, rd, ⟨mie, mpie, meie, rb, pa⟩, d, c, da, wd⟩ T n := by
  refine .quietq 1 rfl rfl (fun _ => rfl) fun i => ?_
  have h := h (d.step false i.datR) (hd.next _)
  simpa [-BitVec.getLsbD_eq_getElem, gpRamAdr_ne_csr, csrRamAdr_inj, State.step, State.romAdr, State.test, State.exception, State.pending, testOut, rawTest, seqAdr, State.ram, ramCtl, RamCtl.memNext, RamCtl.rdataNext, State.regRAdr, State.regWAdr, State.allowZeroWr, State.csrAdr, CsrState.step, CsrState.datR, csrView, rbNext, State.doDecode, aNext, bNext, aluNext, oMux, modIn, modOut, pcNext, CauseLatch.step, exceptionOut, aluZero, gpSet, gpRamAdr_eq_zero, subUnit_low, hd.srcA, hd.srcB, hd.dst, hd.imm, hd.op, hd.enc, rom_a7, u_82] using h

theorem q_83 (hd : Dec k d)
    (h : ∀ d, Dec k d → Impl F false ⟨u_94, 149#8, false, false, k.imm, (pc ++ 0#2), (a - b), pc, mem, rd,
      ⟨mie, mpie, meie, rb, k.enc⟩, d, c, da, wd⟩ T (n + 1)) :
    Impl F pv ⟨u_83, 132#8, false, false, a, b, o, pc, mem, rd, ⟨mie, mpie, meie, rb, pa⟩, d, c, da, wd⟩ T n := by
  refine .quietq 1 rfl rfl (fun _ => rfl) fun i => ?_
  have h := h (d.step false i.datR) (hd.next _)
  simpa [-BitVec.getLsbD_eq_getElem, gpRamAdr_ne_csr, csrRamAdr_inj, State.step, State.romAdr, State.test, State.exception, State.pending, testOut, rawTest, seqAdr, State.ram, ramCtl, RamCtl.memNext, RamCtl.rdataNext, State.regRAdr, State.regWAdr, State.allowZeroWr, State.csrAdr, CsrState.step, CsrState.datR, csrView, rbNext, State.doDecode, aNext, bNext, aluNext, oMux, modIn, modOut, pcNext, CauseLatch.step, exceptionOut, aluZero, gpSet, gpRamAdr_eq_zero, subUnit_low, hd.srcA, hd.srcB, hd.dst, hd.imm, hd.op, hd.enc, rom_94, u_83] using h

theorem q_84 (hd : Dec k d)
    (h : ∀ d, Dec k d → Impl F false ⟨u_85, 134#8, false, false, k.imm, (pc ++ 0#2), (a - b), pc, mem, rd,
      ⟨mie, mpie, meie, rb, k.enc⟩, d, c, da, wd⟩ T (n + 1)) :
    Impl F pv ⟨u_84, 133#8, false, false, a, b, o, pc, mem, rd, ⟨mie, mpie, meie, rb, pa⟩, d, c, da, wd⟩ T n := by
  refine .quietq 1 rfl rfl (fun _ => rfl) fun i => ?_
  have h := h (d.step false i.datR) (hd.next _)
  simpa [-BitVec.getLsbD_eq_getElem, gpRamAdr_ne_csr, csrRamAdr_inj, State.step, State.romAdr, State.test, State.exception, State.pending, testOut, rawTest, seqAdr, State.ram, ramCtl, RamCtl.memNext, RamCtl.rdataNext, State.regRAdr, State.regWAdr, State.allowZeroWr, State.csrAdr, CsrState.step, CsrState.datR, csrView, rbNext, State.doDecode, aNext, bNext, aluNext, oMux, modIn, modOut, pcNext, CauseLatch.step, exceptionOut, aluZero, gpSet, gpRamAdr_eq_zero, subUnit_low, hd.srcA, hd.srcB, hd.dst, hd.imm, hd.op, hd.enc, rom_85, u_84] using h

theorem q_85_z (hd : Dec k d) (hc : o = 0#32)
    (h : ∀ d, Dec k d → Impl F false ⟨u_86, 135#8, false, false, a, b, (a + b), pc, mem, rd,
      ⟨mie, mpie, meie, rb, k.enc⟩, d, c, da, wd⟩ T (n + 1)) :
    Impl F pv ⟨u_85, 134#8, false, false, a, b, o, pc, mem, rd, ⟨mie, mpie, meie, rb, pa⟩, d, c, da, wd⟩ T n := by
  refine .quietq 1 rfl rfl (fun _ => rfl) fun i => ?_
  have h := h (d.step false i.datR) (hd.next _)
  simpa [-BitVec.getLsbD_eq_getElem, gpRamAdr_ne_csr, csrRamAdr_inj, State.step, State.romAdr, State.test, State.exception, State.pending, testOut, rawTest, seqAdr, State.ram, ramCtl, RamCtl.memNext, RamCtl.rdataNext, State.regRAdr, State.regWAdr, State.allowZeroWr, State.csrAdr, CsrState.step, CsrState.datR, csrView, rbNext, State.doDecode, aNext, bNext, aluNext, oMux, modIn, modOut, pcNext, CauseLatch.step, exceptionOut, aluZero, gpSet, gpRamAdr_eq_zero, subUnit_low, hd.srcA, hd.srcB, hd.dst, hd.imm, hd.op, hd.enc, rom_86, u_85, hc] using h

theorem q_85_nz (hd : Dec k d) (hc : ¬ o = 0#32)
    (h : ∀ d, Dec k d → Impl F false ⟨u_97, 152#8, false, false, a, b, (a + b), pc, mem, rd,
      ⟨mie, mpie, meie, rb, k.enc⟩, d, c, da, wd⟩ T (n + 1)) :
    Impl F pv ⟨u_85, 134#8, false, false, a, b, o, pc, mem, rd, ⟨mie, mpie, meie, rb, pa⟩, d, c, da, wd⟩ T n := by
  refine .quietq 1 rfl rfl (fun _ => rfl) fun i => ?_
  have h := h (d.step false i.datR) (hd.next _)
  simpa [-BitVec.getLsbD_eq_getElem, gpRamAdr_ne_csr, csrRamAdr_inj, State.step, State.romAdr, State.test, State.exception, State.pending, testOut, rawTest, seqAdr, State.ram, ramCtl, RamCtl.memNext, RamCtl.rdataNext, State.regRAdr, State.regWAdr, State.allowZeroWr, State.csrAdr, CsrState.step, CsrState.datR, csrView, rbNext, State.doDecode, aNext, bNext, aluNext, oMux, modIn, modOut, pcNext, CauseLatch.step, exceptionOut, aluZero, gpSet, gpRamAdr_eq_zero, subUnit_low, hd.srcA, hd.srcB, hd.dst, hd.imm, hd.op, hd.enc, rom_97, u_85, hc] using h

theorem q_86_t (hd : Dec k d) (hc : o.getLsbD 1 = true)
    (h : ∀ d, Dec k d → Impl F false ⟨u_f0, 241#8, false, false, a, b, (a + b), pc, mem, rd,
      ⟨mie, mpie, meie, rb, k.enc⟩, d, { c with cause := 0 }, da, wd⟩ T (n + .x)) :
    Impl F pv ⟨u_86, 135#8, false, false, a, b, o, pc, mem, rd, ⟨mie, mpie, meie, rb, pa⟩, d, c, da, wd⟩ T n := by
  refine .quietq .x rfl rfl (by intro i; simp [-BitVec.getLsbD_eq_getElem, State.tally, State.cyc, State.exception, exceptionOut, u_86, hc, Cnt.x]) fun i => ?_
  have h := h (d.step false i.datR) (hd.next _)
  simpa [-BitVec.getLsbD_eq_getElem, gpRamAdr_ne_csr, csrRamAdr_inj, State.step, State.romAdr, State.test, State.exception, State.pending, testOut, rawTest, seqAdr, State.ram, ramCtl, RamCtl.memNext, RamCtl.rdataNext, State.regRAdr, State.regWAdr, State.allowZeroWr, State.csrAdr, CsrState.step, CsrState.datR, csrView, rbNext, State.doDecode, aNext, bNext, aluNext, oMux, modIn, modOut, pcNext, CauseLatch.step, exceptionOut, aluZero, gpSet, gpRamAdr_eq_zero, subUnit_low, hd.srcA, hd.srcB, hd.dst, hd.imm, hd.op, hd.enc, rom_f0, u_86, hc] using h

theorem q_86_f (hd : Dec k d) (hc : o.getLsbD 1 = false)
    (h : ∀ d, Dec k d → Impl F false ⟨u_87, 136#8, false, false, a, b, (a + b), pc, mem, rd,
      ⟨mie, mpie, meie, rb, k.enc⟩, d, c, da, wd⟩ T (n + 1)) :
    Impl F pv ⟨u_86, 135#8, false, false, a, b, o, pc, mem, rd, ⟨mie, mpie, meie, rb, pa⟩, d, c, da, wd⟩ T n := by
  refine .quietq 1 rfl rfl (by intro i; simp [-BitVec.getLsbD_eq_getElem, State.tally, State.cyc, State.exception, exceptionOut, u_86, hc]; rfl) fun i => ?_
  have h := h (d.step false i.datR) (hd.next _)
  simpa [-BitVec.getLsbD_eq_getElem, gpRamAdr_ne_csr, csrRamAdr_inj, State.step, State.romAdr, State.test, State.exception, State.pending, testOut, rawTest, seqAdr, State.ram, ramCtl, RamCtl.memNext, RamCtl.rdataNext, State.regRAdr, State.regWAdr, State.allowZeroWr, State.csrAdr, CsrState.step, CsrState.datR, csrView, rbNext, State.doDecode, aNext, bNext, aluNext, oMux, modIn, modOut, pcNext, CauseLatch.step, exceptionOut, aluZero, gpSet, gpRamAdr_eq_zero, subUnit_low, hd.srcA, hd.srcB, hd.dst, hd.imm, hd.op, hd.enc, rom_87, u_86, hc] using h

theorem q_87 (hd : Dec k d)
    (h : ∀ d, Dec k d → Impl F false ⟨u_00, 1#8, false, false, a, b, (a + b), (o.extractLsb' 2 30), mem, rd,
      ⟨mie, mpie, meie, rb, k.enc⟩, d, c, da, wd⟩ T (n + 1)) :
    Impl F pv ⟨u_87, 136#8, false, false, a, b, o, pc, mem, rd, ⟨mie, mpie, meie, rb, pa⟩, d, c, da, wd⟩ T n := by
  refine .quietq 1 rfl rfl (fun _ => rfl) fun i => ?_
  have h := h (d.step false i.datR) (hd.next _)
  simpa [-BitVec.getLsbD_eq_getElem, gpRamAdr_ne_csr, csrRamAdr_inj, State.step, State.romAdr, State.test, State.exception, State.pending, testOut, rawTest, seqAdr, State.ram, ramCtl, RamCtl.memNext, RamCtl.rdataNext, State.regRAdr, State.regWAdr, State.allowZeroWr, State.csrAdr, CsrState.step, CsrState.datR, csrView, rbNext, State.doDecode, aNext, bNext, aluNext, oMux, modIn, modOut, pcNext, CauseLatch.step, exceptionOut, aluZero, gpSet, gpRamAdr_eq_zero, subUnit_low, hd.srcA, hd.srcB, hd.dst, hd.imm, hd.op, hd.enc, rom_00, u_87] using h

theorem q_88 (hd : Dec k d)
    (h : ∀ d, Dec k d → Impl F false ⟨u_84, 133#8, false, false, a, rd, (a + b), pc, mem, rd,
      ⟨mie, mpie, meie, rb, k.enc⟩, d, c, da, wd⟩ T (n + 1)) :
    Impl F pv ⟨u_88, 137#8, false, false, a, b, o, pc, mem, rd, ⟨mie, mpie, meie, rb, pa⟩, d, c, da, wd⟩ T n := by
  refine .quietq 1 rfl rfl (fun _ => rfl) fun i => ?_
  have h := h (d.step false i.datR) (hd.next _)
  simpa [-BitVec.getLsbD_eq_getElem, gpRamAdr_ne_csr, csrRamAdr_inj, State.step, State.romAdr, State.test, State.exception, State.pending, testOut, rawTest, seqAdr, State.ram, ramCtl, RamCtl.memNext, RamCtl.rdataNext, State.regRAdr, State.regWAdr, State.allowZeroWr, State.csrAdr, CsrState.step, CsrState.datR, csrView, rbNext, State.doDecode, aNext, bNext, aluNext, oMux, modIn, modOut, pcNext, CauseLatch.step, exceptionOut, aluZero, gpSet, gpRamAdr_eq_zero, subUnit_low, hd.srcA, hd.srcB, hd.dst, hd.imm, hd.op, hd.enc, rom_84, u_88] using h

theorem q_89 (hd : Dec k d)
    (h : ∀ d, Dec k d → Impl F false ⟨u_83, 132#8, false, false, a, rd, (a + b), pc, mem, rd,
      ⟨mie, mpie, meie, rb, k.enc⟩, d, c, da, wd⟩ T (n + 1)) :
    Impl F pv ⟨u_89, 138#8, false, false, a, b, o, pc, mem, rd, ⟨mie, mpie, meie, rb, pa⟩, d, c, da, wd⟩ T n := by
  refine .quietq 1 rfl rfl (fun _ => rfl) fun i => ?_
  have h := h (d.step false i.datR) (hd.next _)
  simpa [-BitVec.getLsbD_eq_getElem, gpRamAdr_ne_csr, csrRamAdr_inj, State.step, State.romAdr, State.test, State.exception, State.pending, testOut, rawTest, seqAdr, State.ram, ramCtl, RamCtl.memNext, RamCtl.rdataNext, State.regRAdr, State.regWAdr, State.allowZeroWr, State.csrAdr, CsrState.step, CsrState.datR, csrView, rbNext, State.doDecode, aNext, bNext, aluNext, oMux, modIn, modOut, pcNext, CauseLatch.step, exceptionOut, aluZero, gpSet, gpRamAdr_eq_zero, subUnit_low, hd.srcA, hd.srcB, hd.dst, hd.imm, hd.op, hd.enc, rom_83, u_89] using h

theorem q_8c (hd : Dec k d)
    (h : ∀ d, Dec k d → Impl F false ⟨u_90, 145#8, false, false, a, rd, (a + b), pc, mem, rd,
      ⟨mie, mpie, meie, rb, k.enc⟩, d, c, da, wd⟩ T (n + 1)) :
    Impl F pv ⟨u_8c, 141#8, false, false, a, b, o, pc, mem, rd, ⟨mie, mpie, meie, rb, pa⟩, d, c, da, wd⟩ T n := by
  refine .quietq 1 rfl rfl (fun _ => rfl) fun i => ?_
  have h := h (d.step false i.datR) (hd.next _)
  simpa [-BitVec.getLsbD_eq_getElem, gpRamAdr_ne_csr, csrRamAdr_inj, State.step, State.romAdr, State.test, State.exception, State.pending, testOut, rawTest, seqAdr, State.ram, ramCtl, RamCtl.memNext, RamCtl.rdataNext, State.regRAdr, State.regWAdr, State.allowZeroWr, State.csrAdr, CsrState.step, CsrState.datR, csrView, rbNext, State.doDecode, aNext, bNext, aluNext, oMux, modIn, modOut, pcNext, CauseLatch.step, exceptionOut, aluZero, gpSet, gpRamAdr_eq_zero, subUnit_low, hd.srcA, hd.srcB, hd.dst, hd.imm, hd.op, hd.enc, rom_90, u_8c] using h

theorem q_8d (hd : Dec k d)
    (h : ∀ d, Dec k d → Impl F false ⟨u_91, 146#8, false, false, a, rd, (a + b), pc, mem, rd,
      ⟨mie, mpie, meie, rb, k.enc⟩, d, c, da, wd⟩ T (n + 1)) :
    Impl F pv ⟨u_8d, 142#8, false, false, a, b, o, pc, mem, rd, ⟨mie, mpie, meie, rb, pa⟩, d, c, da, wd⟩ T n := by
  refine .quietq 1 rfl rfl (fun _ => rfl) fun i => ?_
  have h := h (d.step false i.datR) (hd.next _)
  simpa [-BitVec.getLsbD_eq_getElem, gpRamAdr_ne_csr, csrRamAdr_inj, State.step, State.romAdr, State.test, State.exception, State.pending, testOut, rawTest, seqAdr, State.ram, ramCtl, RamCtl.memNext, RamCtl.rdataNext, State.regRAdr, State.regWAdr, State.allowZeroWr, State.csrAdr, CsrState.step, CsrState.datR, csrView, rbNext, State.doDecode, aNext, bNext, aluNext, oMux, modIn, modOut, pcNext, CauseLatch.step, exceptionOut, aluZero, gpSet, gpRamAdr_eq_zero, subUnit_low, hd.srcA, hd.srcB, hd.dst, hd.imm, hd.op, hd.enc, rom_91, u_8d] using h

theorem q_8e (hd : Dec k d)
    (h : ∀ d, Dec k d → Impl F false ⟨u_92, 147#8, false, false, a, rd, (a + b), pc, mem, rd,
      ⟨mie, mpie, meie, rb, k.enc⟩, d, c, da, wd⟩ T (n + 1)) :
    Impl F pv ⟨u_8e, 143#8, false, false, a, b, o, pc, mem, rd, ⟨mie, mpie, meie, rb, pa⟩, d, c, da, wd⟩ T n := by
  refine .quietq 1 rfl rfl (fun _ => rfl) fun i => ?_
  have h := h (d.step false i.datR) (hd.next _)
  simpa [-BitVec.getLsbD_eq_getElem, gpRamAdr_ne_csr, csrRamAdr_inj, State.step, State.romAdr, State.test, State.exception, State.pending, testOut, rawTest, seqAdr, State.ram, ramCtl, RamCtl.memNext, RamCtl.rdataNext, State.regRAdr, State.regWAdr, State.allowZeroWr, State.csrAdr, CsrState.step, CsrState.datR, csrView, rbNext, State.doDecode, aNext, bNext, aluNext, oMux, modIn, modOut, pcNext, CauseLatch.step, exceptionOut, aluZero, gpSet, gpRamAdr_eq_zero, subUnit_low, hd.srcA, hd.srcB, hd.dst, hd.imm, hd.op, hd.enc, rom_92, u_8e] using h

theorem q_8f (hd : Dec k d)
    (h : ∀ d, Dec k d → Impl F false ⟨u_93, 148#8, false, false, a, rd, (a + b), pc, mem, rd,
      ⟨mie, mpie, meie, rb, k.enc⟩, d, c, da, wd⟩ T (n + 1)) :
    Impl F pv ⟨u_8f, 144#8, false, false, a, b, o, pc, mem, rd, ⟨mie, mpie, meie, rb, pa⟩, d, c, da, wd⟩ T n := by
  refine .quietq 1 rfl rfl (fun _ => rfl) fun i => ?_
  have h := h (d.step false i.datR) (hd.next _)
  simpa [-BitVec.getLsbD_eq_getElem, gpRamAdr_ne_csr, csrRamAdr_inj, State.step, State.romAdr, State.test, State.exception, State.pending, testOut, rawTest, seqAdr, State.ram, ramCtl, RamCtl.memNext, RamCtl.rdataNext, State.regRAdr, State.regWAdr, State.allowZeroWr, State.csrAdr, CsrState.step, CsrState.datR, csrView, rbNext, State.doDecode, aNext, bNext, aluNext, oMux, modIn, modOut, pcNext, CauseLatch.step, exceptionOut, aluZero, gpSet, gpRamAdr_eq_zero, subUnit_low, hd.srcA, hd.srcB, hd.dst, hd.imm, hd.op, hd.enc, rom_93, u_8f] using h

theorem q_90 (hd : Dec k d)
    (h : ∀ d, Dec k d → Impl F false ⟨u_94, 149#8, false, false, k.imm, (pc ++ 0#2), (aluNext .cmpLtu .invMsbAB .none a b), pc, mem, rd,
      ⟨mie, mpie, meie, rb, k.enc⟩, d, c, da, wd⟩ T (n + 1)) :
    Impl F pv ⟨u_90, 145#8, false, false, a, b, o, pc, mem, rd, ⟨mie, mpie, meie, rb, pa⟩, d, c, da, wd⟩ T n := by
  refine .quietq 1 rfl rfl (fun _ => rfl) fun i => ?_
  have h := h (d.step false i.datR) (hd.next _)
  simpa [-BitVec.getLsbD_eq_getElem, gpRamAdr_ne_csr, csrRamAdr_inj, State.step, State.romAdr, State.test, State.exception, State.pending, testOut, rawTest, seqAdr, State.ram, ramCtl, RamCtl.memNext, RamCtl.rdataNext, State.regRAdr, State.regWAdr, State.allowZeroWr, State.csrAdr, CsrState.step, CsrState.datR, csrView, rbNext, State.doDecode, aNext, bNext, aluNext, oMux, modIn, modOut, pcNext, CauseLatch.step, exceptionOut, aluZero, gpSet, gpRamAdr_eq_zero, subUnit_low, hd.srcA, hd.srcB, hd.dst, hd.imm, hd.op, hd.enc, rom_94, u_90] using h

theorem q_91 (hd : Dec k d)
    (h : ∀ d, Dec k d → Impl F false ⟨u_94, 149#8, false, false, k.imm, (pc ++ 0#2), (aluNext .cmpLtu .invMsbAB .invLsbO a b), pc, mem, rd,
      ⟨mie, mpie, meie, rb, k.enc⟩, d, c, da, wd⟩ T (n + 1)) :
    Impl F pv ⟨u_91, 146#8, false, false, a, b, o, pc, mem, rd, ⟨mie, mpie, meie, rb, pa⟩, d, c, da, wd⟩ T n := by
  refine .quietq 1 rfl rfl (fun _ => rfl) fun i => ?_
  have h := h (d.step false i.datR) (hd.next _)
  simpa [-BitVec.getLsbD_eq_getElem, gpRamAdr_ne_csr, csrRamAdr_inj, State.step, State.romAdr, State.test, State.exception, State.pending, testOut, rawTest, seqAdr, State.ram, ramCtl, RamCtl.memNext, RamCtl.rdataNext, State.regRAdr, State.regWAdr, State.allowZeroWr, State.csrAdr, CsrState.step, CsrState.datR, csrView, rbNext, State.doDecode, aNext, bNext, aluNext, oMux, modIn, modOut, pcNext, CauseLatch.step, exceptionOut, aluZero, gpSet, gpRamAdr_eq_zero, subUnit_low, hd.srcA, hd.srcB, hd.dst, hd.imm, hd.op, hd.enc, rom_94, u_91] using h

theorem q_92 (hd : Dec k d)
    (h : ∀ d, Dec k d → Impl F false ⟨u_94, 149#8, false, false, k.imm, (pc ++ 0#2), (aluNext .cmpLtu .none .none a b), pc, mem, rd,
      ⟨mie, mpie, meie, rb, k.enc⟩, d, c, da, wd⟩ T (n + 1)) :
    Impl F pv ⟨u_92, 147#8, false, false, a, b, o, pc, mem, rd, ⟨mie, mpie, meie, rb, pa⟩, d, c, da, wd⟩ T n := by
  refine .quietq 1 rfl rfl (fun _ => rfl) fun i => ?_
  have h := h (d.step false i.datR) (hd.next _)
  simpa [-BitVec.getLsbD_eq_getElem, gpRamAdr_ne_csr, csrRamAdr_inj, State.step, State.romAdr, State.test, State.exception, State.pending, testOut, rawTest, seqAdr, State.ram, ramCtl, RamCtl.memNext, RamCtl.rdataNext, State.regRAdr, State.regWAdr, State.allowZeroWr, State.csrAdr, CsrState.step, CsrState.datR, csrView, rbNext, State.doDecode, aNext, bNext, aluNext, oMux, modIn, modOut, pcNext, CauseLatch.step, exceptionOut, aluZero, gpSet, gpRamAdr_eq_zero, subUnit_low, hd.srcA, hd.srcB, hd.dst, hd.imm, hd.op, hd.enc, rom_94, u_92] using h

theorem q_93 (hd : Dec k d)
    (h : ∀ d, Dec k d → Impl F false ⟨u_94, 149#8, false, false, k.imm, (pc ++ 0#2), (aluNext .cmpLtu .none .invLsbO a b), pc, mem, rd,
      ⟨mie, mpie, meie, rb, k.enc⟩, d, c, da, wd⟩ T (n + 1)) :
    Impl F pv ⟨u_93, 148#8, false, false, a, b, o, pc, mem, rd, ⟨mie, mpie, meie, rb, pa⟩, d, c, da, wd⟩ T n := by
  refine .quietq 1 rfl rfl (fun _ => rfl) fun i => ?_
  have h := h (d.step false i.datR) (hd.next _)
  simpa [-BitVec.getLsbD_eq_getElem, gpRamAdr_ne_csr, csrRamAdr_inj, State.step, State.romAdr, State.test, State.exception, State.pending, testOut, rawTest, seqAdr, State.ram, ramCtl, RamCtl.memNext, RamCtl.rdataNext, State.regRAdr, State.regWAdr, State.allowZeroWr, State.csrAdr, CsrState.step, CsrState.datR, csrView, rbNext, State.doDecode, aNext, bNext, aluNext, oMux, modIn, modOut, pcNext, CauseLatch.step, exceptionOut, aluZero, gpSet, gpRamAdr_eq_zero, subUnit_low, hd.srcA, hd.srcB, hd.dst, hd.imm, hd.op, hd.enc, rom_94, u_93] using h

theorem q_94_z (hd : Dec k d) (hc : o = 0#32)
    (h : ∀ d, Dec k d → Impl F false ⟨u_97, 152#8, false, false, a, b, (a + b), pc, mem, rd,
      ⟨mie, mpie, meie, rb, k.enc⟩, d, c, da, wd⟩ T (n + 1)) :
    Impl F pv ⟨u_94, 149#8, false, false, a, b, o, pc, mem, rd, ⟨mie, mpie, meie, rb, pa⟩, d, c, da, wd⟩ T n := by
  refine .quietq 1 rfl rfl (fun _ => rfl) fun i => ?_
  have h := h (d.step false i.datR) (hd.next _)
  simpa [-BitVec.getLsbD_eq_getElem, gpRamAdr_ne_csr, csrRamAdr_inj, State.step, State.romAdr, State.test, State.exception, State.pending, testOut, rawTest, seqAdr, State.ram, ramCtl, RamCtl.memNext, RamCtl.rdataNext, State.regRAdr, State.regWAdr, State.allowZeroWr, State.csrAdr, CsrState.step, CsrState.datR, csrView, rbNext, State.doDecode, aNext, bNext, aluNext, oMux, modIn, modOut, pcNext, CauseLatch.step, exceptionOut, aluZero, gpSet, gpRamAdr_eq_zero, subUnit_low, hd.srcA, hd.srcB, hd.dst, hd.imm, hd.op, hd.enc, rom_97, u_94, hc] using h

theorem q_94_nz (hd : Dec k d) (hc : ¬ o = 0#32)
    (h : ∀ d, Dec k d → Impl F false ⟨u_95, 150#8, false, false, a, b, (a + b), pc, mem, rd,
      ⟨mie, mpie, meie, rb, k.enc⟩, d, c, da, wd⟩ T (n + 1)) :
    Impl F pv ⟨u_94, 149#8, false, false, a, b, o, pc, mem, rd, ⟨mie, mpie, meie, rb, pa⟩, d, c, da, wd⟩ T n := by
  refine .quietq 1 rfl rfl (fun _ => rfl) fun i => ?_
  have h := h (d.step false i.datR) (hd.next _)
  simpa [-BitVec.getLsbD_eq_getElem, gpRamAdr_ne_csr, csrRamAdr_inj, State.step, State.romAdr, State.test, State.exception, State.pending, testOut, rawTest, seqAdr, State.ram, ramCtl, RamCtl.memNext, RamCtl.rdataNext, State.regRAdr, State.regWAdr, State.allowZeroWr, State.csrAdr, CsrState.step, CsrState.datR, csrView, rbNext, State.doDecode, aNext, bNext, aluNext, oMux, modIn, modOut, pcNext, CauseLatch.step, exceptionOut, aluZero, gpSet, gpRamAdr_eq_zero, subUnit_low, hd.srcA, hd.srcB, hd.dst, hd.imm, hd.op, hd.enc, rom_95, u_94, hc] using h

theorem q_95_t (hd : Dec k d) (hc : o.getLsbD 1 = true)
    (h : ∀ d, Dec k d → Impl F false ⟨u_f0, 241#8, false, false, a, b, (a + b), pc, mem, rd,
      ⟨mie, mpie, meie, rb, k.enc⟩, d, { c with cause := 0 }, da, wd⟩ T (n + .x)) :
    Impl F pv ⟨u_95, 150#8, false, false, a, b, o, pc, mem, rd, ⟨mie, mpie, meie, rb, pa⟩, d, c, da, wd⟩ T n := by
  refine .quietq .x rfl rfl (by intro i; simp [-BitVec.getLsbD_eq_getElem, State.tally, State.cyc, State.exception, exceptionOut, u_95, hc, Cnt.x]) fun i => ?_
  have h := h (d.step false i.datR) (hd.next _)
  simpa [-BitVec.getLsbD_eq_getElem, gpRamAdr_ne_csr, csrRamAdr_inj, State.step, State.romAdr, State.test, State.exception, State.pending, testOut, rawTest, seqAdr, State.ram, ramCtl, RamCtl.memNext, RamCtl.rdataNext, State.regRAdr, State.regWAdr, State.allowZeroWr, State.csrAdr, CsrState.step, CsrState.datR, csrView, rbNext, State.doDecode, aNext, bNext, aluNext, oMux, modIn, modOut, pcNext, CauseLatch.step, exceptionOut, aluZero, gpSet, gpRamAdr_eq_zero, subUnit_low, hd.srcA, hd.srcB, hd.dst, hd.imm, hd.op, hd.enc, rom_f0, u_95, hc] using h

theorem q_95_f (hd : Dec k d) (hc : o.getLsbD 1 = false)
    (h : ∀ d, Dec k d → Impl F false ⟨u_96, 151#8, false, false, a, b, (a + b), pc, mem, rd,
      ⟨mie, mpie, meie, rb, k.enc⟩, d, c, da, wd⟩ T (n + 1)) :
    Impl F pv ⟨u_95, 150#8, false, false, a, b, o, pc, mem, rd, ⟨mie, mpie, meie, rb, pa⟩, d, c, da, wd⟩ T n := by
  refine .quietq 1 rfl rfl (by intro i; simp [-BitVec.getLsbD_eq_getElem, State.tally, State.cyc, State.exception, exceptionOut, u_95, hc]; rfl) fun i => ?_
  have h := h (d.step false i.datR) (hd.next _)
  simpa [-BitVec.getLsbD_eq_getElem, gpRamAdr_ne_csr, csrRamAdr_inj, State.step, State.romAdr, State.test, State.exception, State.pending, testOut, rawTest, seqAdr, State.ram, ramCtl, RamCtl.memNext, RamCtl.rdataNext, State.regRAdr, State.regWAdr, State.allowZeroWr, State.csrAdr, CsrState.step, CsrState.datR, csrView, rbNext, State.doDecode, aNext, bNext, aluNext, oMux, modIn, modOut, pcNext, CauseLatch.step, exceptionOut, aluZero, gpSet, gpRamAdr_eq_zero, subUnit_low, hd.srcA, hd.srcB, hd.dst, hd.imm, hd.op, hd.enc, rom_96, u_95, hc] using h

theorem q_96 (hd : Dec k d)
    (h : ∀ d, Dec k d → Impl F false ⟨u_00, 1#8, false, false, a, b, (a + b), (o.extractLsb' 2 30), mem, rd,
      ⟨mie, mpie, meie, rb, k.enc⟩, d, c, da, wd⟩ T (n + 1)) :
    Impl F pv ⟨u_96, 151#8, false, false, a, b, o, pc, mem, rd, ⟨mie, mpie, meie, rb, pa⟩, d, c, da, wd⟩ T n := by
  refine .quietq 1 rfl rfl (fun _ => rfl) fun i => ?_
  have h := h (d.step false i.datR) (hd.next _)
  simpa [-BitVec.getLsbD_eq_getElem, gpRamAdr_ne_csr, csrRamAdr_inj, State.step, State.romAdr, State.test, State.exception, State.pending, testOut, rawTest, seqAdr, State.ram, ramCtl, RamCtl.memNext, RamCtl.rdataNext, State.regRAdr, State.regWAdr, State.allowZeroWr, State.csrAdr, CsrState.step, CsrState.datR, csrView, rbNext, State.doDecode, aNext, bNext, aluNext, oMux, modIn, modOut, pcNext, CauseLatch.step, exceptionOut, aluZero, gpSet, gpRamAdr_eq_zero, subUnit_low, hd.srcA, hd.srcB, hd.dst, hd.imm, hd.op, hd.enc, rom_00, u_96] using h

theorem q_97 (hd : Dec k d)
    (h : ∀ d, Dec k d → Impl F false ⟨u_00, 1#8, false, false, a, b, (a + b), (pc + 1#30), mem, rd,
      ⟨mie, mpie, meie, rb, k.enc⟩, d, c, da, wd⟩ T (n + 1)) :
    Impl F pv ⟨u_97, 152#8, false, false, a, b, o, pc, mem, rd, ⟨mie, mpie, meie, rb, pa⟩, d, c, da, wd⟩ T n := by
  refine .quietq 1 rfl rfl (fun _ => rfl) fun i => ?_
  have h := h (d.step false i.datR) (hd.next _)
  simpa [-BitVec.getLsbD_eq_getElem, gpRamAdr_ne_csr, csrRamAdr_inj, State.step, State.romAdr, State.test, State.exception, State.pending, testOut, rawTest, seqAdr, State.ram, ramCtl, RamCtl.memNext, RamCtl.rdataNext, State.regRAdr, State.regWAdr, State.allowZeroWr, State.csrAdr, CsrState.step, CsrState.datR, csrView, rbNext, State.doDecode, aNext, bNext, aluNext, oMux, modIn, modOut, pcNext, CauseLatch.step, exceptionOut, aluZero, gpSet, gpRamAdr_eq_zero, subUnit_low, hd.srcA, hd.srcB, hd.dst, hd.imm, hd.op, hd.enc, rom_00, u_97] using h

theorem q_98 (hd : Dec k d)
    (h : ∀ d, Dec k d → Impl F false ⟨u_99, 154#8, false, false, a, k.imm, (a + b), pc, mem, rd,
      ⟨mie, mpie, meie, rb, k.enc⟩, d, c, da, wd⟩ T (n + 1)) :
    Impl F pv ⟨u_98, 153#8, false, false, a, b, o, pc, mem, rd, ⟨mie, mpie, meie, rb, pa⟩, d, c, da, wd⟩ T n := by
  refine .quietq 1 rfl rfl (fun _ => rfl) fun i => ?_
  have h := h (d.step false i.datR) (hd.next _)
  simpa [-BitVec.getLsbD_eq_getElem, gpRamAdr_ne_csr, csrRamAdr_inj, State.step, State.romAdr, State.test, State.exception, State.pending, testOut, rawTest, seqAdr, State.ram, ramCtl, RamCtl.memNext, RamCtl.rdataNext, State.regRAdr, State.regWAdr, State.allowZeroWr, State.csrAdr, CsrState.step, CsrState.datR, csrView, rbNext, State.doDecode, aNext, bNext, aluNext, oMux, modIn, modOut, pcNext, CauseLatch.step, exceptionOut, aluZero, gpSet, gpRamAdr_eq_zero, subUnit_low, hd.srcA, hd.srcB, hd.dst, hd.imm, hd.op, hd.enc, rom_99, u_98] using h

theorem q_99 (hd : Dec k d)
    (h : ∀ d, Dec k d → Impl F false ⟨u_9a, 155#8, false, false, a, b, (aluNext .add .none .clearLsbO a b), pc, mem, rd,
      ⟨mie, mpie, meie, rb, k.enc⟩, d, c, da, wd⟩ T (n + 1)) :
    Impl F pv ⟨u_99, 154#8, false, false, a, b, o, pc, mem, rd, ⟨mie, mpie, meie, rb, pa⟩, d, c, da, wd⟩ T n := by
  refine .quietq 1 rfl rfl (fun _ => rfl) fun i => ?_
  have h := h (d.step false i.datR) (hd.next _)
  simpa [-BitVec.getLsbD_eq_getElem, gpRamAdr_ne_csr, csrRamAdr_inj, State.step, State.romAdr, State.test, State.exception, State.pending, testOut, rawTest, seqAdr, State.ram, ramCtl, RamCtl.memNext, RamCtl.rdataNext, State.regRAdr, State.regWAdr, State.allowZeroWr, State.csrAdr, CsrState.step, CsrState.datR, csrView, rbNext, State.doDecode, aNext, bNext, aluNext, oMux, modIn, modOut, pcNext, CauseLatch.step, exceptionOut, aluZero, gpSet, gpRamAdr_eq_zero, subUnit_low, hd.srcA, hd.srcB, hd.dst, hd.imm, hd.op, hd.enc, rom_9a, u_99] using h

theorem q_9a_t (hd : Dec k d) (hc : o.getLsbD 1 = true)
    (h : ∀ d, Dec k d → Impl F false ⟨u_f0, 241#8, false, false, 4#32, (pc ++ 0#2), (a + b), pc, mem, rd,
      ⟨mie, mpie, meie, rb, k.enc⟩, d, { c with cause := 0 }, da, wd⟩ T (n + .x)) :
    Impl F pv ⟨u_9a, 155#8, false, false, a, b, o, pc, mem, rd, ⟨mie, mpie, meie, rb, pa⟩, d, c, da, wd⟩ T n := by
  refine .quietq .x rfl rfl (by intro i; simp [-BitVec.getLsbD_eq_getElem, State.tally, State.cyc, State.exception, exceptionOut, u_9a, hc, Cnt.x]) fun i => ?_
  have h := h (d.step false i.datR) (hd.next _)
  simpa [-BitVec.getLsbD_eq_getElem, gpRamAdr_ne_csr, csrRamAdr_inj, State.step, State.romAdr, State.test, State.exception, State.pending, testOut, rawTest, seqAdr, State.ram, ramCtl, RamCtl.memNext, RamCtl.rdataNext, State.regRAdr, State.regWAdr, State.allowZeroWr, State.csrAdr, CsrState.step, CsrState.datR, csrView, rbNext, State.doDecode, aNext, bNext, aluNext, oMux, modIn, modOut, pcNext, CauseLatch.step, exceptionOut, aluZero, gpSet, gpRamAdr_eq_zero, subUnit_low, hd.srcA, hd.srcB, hd.dst, hd.imm, hd.op, hd.enc, rom_f0, u_9a, hc] using h

theorem q_9a_f (hd : Dec k d) (hc : o.getLsbD 1 = false)
    (h : ∀ d, Dec k d → Impl F false ⟨u_9b, 156#8, false, false, 4#32, (pc ++ 0#2), (a + b), pc, mem, rd,
      ⟨mie, mpie, meie, rb, k.enc⟩, d, c, da, wd⟩ T (n + 1)) :
    Impl F pv ⟨u_9a, 155#8, false, false, a, b, o, pc, mem, rd, ⟨mie, mpie, meie, rb, pa⟩, d, c, da, wd⟩ T n := by
  refine .quietq 1 rfl rfl (by intro i; simp [-BitVec.getLsbD_eq_getElem, State.tally, State.cyc, State.exception, exceptionOut, u_9a, hc]; rfl) fun i => ?_
  have h := h (d.step false i.datR) (hd.next _)
  simpa [-BitVec.getLsbD_eq_getElem, gpRamAdr_ne_csr, csrRamAdr_inj, State.step, State.romAdr, State.test, State.exception, State.pending, testOut, rawTest, seqAdr, State.ram, ramCtl, RamCtl.memNext, RamCtl.rdataNext, State.regRAdr, State.regWAdr, State.allowZeroWr, State.csrAdr, CsrState.step, CsrState.datR, csrView, rbNext, State.doDecode, aNext, bNext, aluNext, oMux, modIn, modOut, pcNext, CauseLatch.step, exceptionOut, aluZero, gpSet, gpRamAdr_eq_zero, subUnit_low, hd.srcA, hd.srcB, hd.dst, hd.imm, hd.op, hd.enc, rom_9b, u_9a, hc] using h

theorem q_9b (hd : Dec k d)
    (h : ∀ d, Dec k d → Impl F false ⟨u_9c, 157#8, false, false, a, b, (a + b), (o.extractLsb' 2 30), mem, rd,
      ⟨mie, mpie, meie, rb, k.enc⟩, d, c, da, wd⟩ T (n + 1)) :
    Impl F pv ⟨u_9b, 156#8, false, false, a, b, o, pc, mem, rd, ⟨mie, mpie, meie, rb, pa⟩, d, c, da, wd⟩ T n := by
  refine .quietq 1 rfl rfl (fun _ => rfl) fun i => ?_
  have h := h (d.step false i.datR) (hd.next _)
  simpa [-BitVec.getLsbD_eq_getElem, gpRamAdr_ne_csr, csrRamAdr_inj, State.step, State.romAdr, State.test, State.exception, State.pending, testOut, rawTest, seqAdr, State.ram, ramCtl, RamCtl.memNext, RamCtl.rdataNext, State.regRAdr, State.regWAdr, State.allowZeroWr, State.csrAdr, CsrState.step, CsrState.datR, csrView, rbNext, State.doDecode, aNext, bNext, aluNext, oMux, modIn, modOut, pcNext, CauseLatch.step, exceptionOut, aluZero, gpSet, gpRamAdr_eq_zero, subUnit_low, hd.srcA, hd.srcB, hd.dst, hd.imm, hd.op, hd.enc, rom_9c, u_9b] using h

theorem f_9c {r : Req} {K : BitVec 32 → Tree α} (hd : Dec k d)
    (hr : r = ⟨pc, 0xF, false, 0⟩)
    (h : ∀ d, Dec k d → Impl F true ⟨u_b5, 182#8, false, false, a, b, (a + b), pc, mem, rd,
      ⟨mie, mpie, meie, rb, k.enc⟩, d, c, da, wd⟩ (.bus r K) (n + 0)) :
    Impl F false ⟨u_9c, 157#8, false, false, a, b, o, pc, mem, rd, ⟨mie, mpie, meie, rb, pa⟩, d, c, da, wd⟩ (.bus r K) n := by
  refine .firstq 0 rfl rfl hr.symm (fun _ => rfl) fun i hi => ?_
  have h := h (d.step false i.datR) (hd.next _)
  simpa [-BitVec.getLsbD_eq_getElem, gpRamAdr_ne_csr, csrRamAdr_inj, State.step, State.romAdr, State.test, State.exception, State.pending, testOut, rawTest, seqAdr, State.ram, ramCtl, RamCtl.memNext, RamCtl.rdataNext, State.regRAdr, State.regWAdr, State.allowZeroWr, State.csrAdr, CsrState.step, CsrState.datR, csrView, rbNext, State.doDecode, aNext, bNext, aluNext, oMux, modIn, modOut, pcNext, CauseLatch.step, exceptionOut, aluZero, gpSet, gpRamAdr_eq_zero, subUnit_low, hd.srcA, hd.srcB, hd.dst, hd.imm, hd.op, hd.enc, rom_b5, u_9c, hi] using h

theorem q_9d (hd : Dec k d)
    (h : ∀ d, Dec k d → Impl F false ⟨u_9e, 159#8, false, false, 0#32, rd, (a + b), pc, mem, rd,
      ⟨mie, mpie, meie, rb, k.enc⟩, d, c, da, wd⟩ T (n + 1)) :
    Impl F pv ⟨u_9d, 158#8, false, false, a, b, o, pc, mem, rd, ⟨mie, mpie, meie, rb, pa⟩, d, c, da, wd⟩ T n := by
  refine .quietq 1 rfl rfl (fun _ => rfl) fun i => ?_
  have h := h (d.step false i.datR) (hd.next _)
  simpa [-BitVec.getLsbD_eq_getElem, gpRamAdr_ne_csr, csrRamAdr_inj, State.step, State.romAdr, State.test, State.exception, State.pending, testOut, rawTest, seqAdr, State.ram, ramCtl, RamCtl.memNext, RamCtl.rdataNext, State.regRAdr, State.regWAdr, State.allowZeroWr, State.csrAdr, CsrState.step, CsrState.datR, csrView, rbNext, State.doDecode, aNext, bNext, aluNext, oMux, modIn, modOut, pcNext, CauseLatch.step, exceptionOut, aluZero, gpSet, gpRamAdr_eq_zero, subUnit_low, hd.srcA, hd.srcB, hd.dst, hd.imm, hd.op, hd.enc, rom_9e, u_9d] using h

theorem q_9e (hd : Dec k d)
    (h : ∀ d, Dec k d → Impl F false ⟨u_9f, 160#8, false, false, a, b, (a + b), pc, mem, rd,
      ⟨mie, mpie, meie, rb, k.enc⟩, d, c, o, wd⟩ T (n + 1)) :
    Impl F pv ⟨u_9e, 159#8, false, false, a, b, o, pc, mem, rd, ⟨mie, mpie, meie, rb, pa⟩, d, c, da, wd⟩ T n := by
  refine .quietq 1 rfl rfl (fun _ => rfl) fun i => ?_
  have h := h (d.step false i.datR) (hd.next _)
  simpa [-BitVec.getLsbD_eq_getElem, gpRamAdr_ne_csr, csrRamAdr_inj, State.step, State.romAdr, State.test, State.exception, State.pending, testOut, rawTest, seqAdr, State.ram, ramCtl, RamCtl.memNext, RamCtl.rdataNext, State.regRAdr, State.regWAdr, State.allowZeroWr, State.csrAdr, CsrState.step, CsrState.datR, csrView, rbNext, State.doDecode, aNext, bNext, aluNext, oMux, modIn, modOut, pcNext, CauseLatch.step, exceptionOut, aluZero, gpSet, gpRamAdr_eq_zero, subUnit_low, hd.srcA, hd.srcB, hd.dst, hd.imm, hd.op, hd.enc, rom_9f, u_9e] using h

theorem q_9f (hd : Dec k d)
    (h : ∀ d, Dec k d → Impl F false ⟨u_a0, 161#8, false, false, a, b, (a + b), pc, mem, rd,
      ⟨mie, mpie, meie, rb, k.enc⟩, d, c, da, (writeDataAlign .byte da o)⟩ T (n + 1)) :
    Impl F pv ⟨u_9f, 160#8, false, false, a, b, o, pc, mem, rd, ⟨mie, mpie, meie, rb, pa⟩, d, c, da, wd⟩ T n := by
  refine .quietq 1 rfl rfl (fun _ => rfl) fun i => ?_
  have h := h (d.step false i.datR) (hd.next _)
  simpa [-BitVec.getLsbD_eq_getElem, gpRamAdr_ne_csr, csrRamAdr_inj, State.step, State.romAdr, State.test, State.exception, State.pending, testOut, rawTest, seqAdr, State.ram, ramCtl, RamCtl.memNext, RamCtl.rdataNext, State.regRAdr, State.regWAdr, State.allowZeroWr, State.csrAdr, CsrState.step, CsrState.datR, csrView, rbNext, State.doDecode, aNext, bNext, aluNext, oMux, modIn, modOut, pcNext, CauseLatch.step, exceptionOut, aluZero, gpSet, gpRamAdr_eq_zero, subUnit_low, hd.srcA, hd.srcB, hd.dst, hd.imm, hd.op, hd.enc, rom_a0, u_9f] using h

theorem q_a1 (hd : Dec k d)
    (h : ∀ d, Dec k d → Impl F false ⟨u_00, 1#8, false, false, a, b, (a + b), pc, mem, rd,
      ⟨mie, mpie, meie, rb, k.enc⟩, d, c, da, wd⟩ T (n + 1)) :
    Impl F pv ⟨u_a1, 162#8, false, false, a, b, o, pc, mem, rd, ⟨mie, mpie, meie, rb, pa⟩, d, c, da, wd⟩ T n := by
  refine .quietq 1 rfl rfl (fun _ => rfl) fun i => ?_
  have h := h (d.step false i.datR) (hd.next _)
  simpa [-BitVec.getLsbD_eq_getElem, gpRamAdr_ne_csr, csrRamAdr_inj, State.step, State.romAdr, State.test, State.exception, State.pending, testOut, rawTest, seqAdr, State.ram, ramCtl, RamCtl.memNext, RamCtl.rdataNext, State.regRAdr, State.regWAdr, State.allowZeroWr, State.csrAdr, CsrState.step, CsrState.datR, csrView, rbNext, State.doDecode, aNext, bNext, aluNext, oMux, modIn, modOut, pcNext, CauseLatch.step, exceptionOut, aluZero, gpSet, gpRamAdr_eq_zero, subUnit_low, hd.srcA, hd.srcB, hd.dst, hd.imm, hd.op, hd.enc, rom_00, u_a1] using h

theorem q_a2 (hd : Dec k d)
    (h : ∀ d, Dec k d → Impl F false ⟨u_a3, 164#8, false, false, 0#32, rd, (a + b), pc, mem, rd,
      ⟨mie, mpie, meie, rb, k.enc⟩, d, c, da, wd⟩ T (n + 1)) :
    Impl F pv ⟨u_a2, 163#8, false, false, a, b, o, pc, mem, rd, ⟨mie, mpie, meie, rb, pa⟩, d, c, da, wd⟩ T n := by
  refine .quietq 1 rfl rfl (fun _ => rfl) fun i => ?_
  have h := h (d.step false i.datR) (hd.next _)
  simpa [-BitVec.getLsbD_eq_getElem, gpRamAdr_ne_csr, csrRamAdr_inj, State.step, State.romAdr, State.test, State.exception, State.pending, testOut, rawTest, seqAdr, State.ram, ramCtl, RamCtl.memNext, RamCtl.rdataNext, State.regRAdr, State.regWAdr, State.allowZeroWr, State.csrAdr, CsrState.step, CsrState.datR, csrView, rbNext, State.doDecode, aNext, bNext, aluNext, oMux, modIn, modOut, pcNext, CauseLatch.step, exceptionOut, aluZero, gpSet, gpRamAdr_eq_zero, subUnit_low, hd.srcA, hd.srcB, hd.dst, hd.imm, hd.op, hd.enc, rom_a3, u_a2] using h

theorem q_a3_t (hd : Dec k d) (hc : dataMisaligned .hword o = true)
    (h : ∀ d, Dec k d → Impl F false ⟨u_f0, 241#8, false, false, a, b, (a + b), pc, mem, rd,
      ⟨mie, mpie, meie, rb, k.enc⟩, d, { c with cause := 6 }, o, wd⟩ T (n + .x)) :
    Impl F pv ⟨u_a3, 164#8, false, false, a, b, o, pc, mem, rd, ⟨mie, mpie, meie, rb, pa⟩, d, c, da, wd⟩ T n := by
  refine .quietq .x rfl rfl (by intro i; simp [-BitVec.getLsbD_eq_getElem, State.tally, State.cyc, State.exception, exceptionOut, u_a3, hc, Cnt.x]) fun i => ?_
  have h := h (d.step false i.datR) (hd.next _)
  simpa [-BitVec.getLsbD_eq_getElem, gpRamAdr_ne_csr, csrRamAdr_inj, State.step, State.romAdr, State.test, State.exception, State.pending, testOut, rawTest, seqAdr, State.ram, ramCtl, RamCtl.memNext, RamCtl.rdataNext, State.regRAdr, State.regWAdr, State.allowZeroWr, State.csrAdr, CsrState.step, CsrState.datR, csrView, rbNext, State.doDecode, aNext, bNext, aluNext, oMux, modIn, modOut, pcNext, CauseLatch.step, exceptionOut, aluZero, gpSet, gpRamAdr_eq_zero, subUnit_low, hd.srcA, hd.srcB, hd.dst, hd.imm, hd.op, hd.enc, rom_f0, u_a3, hc] using h

theorem q_a3_f (hd : Dec k d) (hc : dataMisaligned .hword o = false)
    (h : ∀ d, Dec k d → Impl F false ⟨u_a4, 165#8, false, false, a, b, (a + b), pc, mem, rd,
      ⟨mie, mpie, meie, rb, k.enc⟩, d, c, o, wd⟩ T (n + 1)) :
    Impl F pv ⟨u_a3, 164#8, false, false, a, b, o, pc, mem, rd, ⟨mie, mpie, meie, rb, pa⟩, d, c, da, wd⟩ T n := by
  refine .quietq 1 rfl rfl (by intro i; simp [-BitVec.getLsbD_eq_getElem, State.tally, State.cyc, State.exception, exceptionOut, u_a3, hc]; rfl) fun i => ?_
  have h := h (d.step false i.datR) (hd.next _)
  simpa [-BitVec.getLsbD_eq_getElem, gpRamAdr_ne_csr, csrRamAdr_inj, State.step, State.romAdr, State.test, State.exception, State.pending, testOut, rawTest, seqAdr, State.ram, ramCtl, RamCtl.memNext, RamCtl.rdataNext, State.regRAdr, State.regWAdr, State.allowZeroWr, State.csrAdr, CsrState.step, CsrState.datR, csrView, rbNext, State.doDecode, aNext, bNext, aluNext, oMux, modIn, modOut, pcNext, CauseLatch.step, exceptionOut, aluZero, gpSet, gpRamAdr_eq_zero, subUnit_low, hd.srcA, hd.srcB, hd.dst, hd.imm, hd.op, hd.enc, rom_a4, u_a3, hc] using h

theorem q_a4 (hd : Dec k d)
    (h : ∀ d, Dec k d → Impl F false ⟨u_a5, 166#8, false, false, a, b, (a + b), (pc + 1#30), mem, rd,
      ⟨mie, mpie, meie, rb, k.enc⟩, d, c, da, (writeDataAlign .hword da o)⟩ T (n + 1)) :
    Impl F pv ⟨u_a4, 165#8, false, false, a, b, o, pc, mem, rd, ⟨mie, mpie, meie, rb, pa⟩, d, c, da, wd⟩ T n := by
  refine .quietq 1 rfl rfl (fun _ => rfl) fun i => ?_
  have h := h (d.step false i.datR) (hd.next _)
  simpa [-BitVec.getLsbD_eq_getElem, gpRamAdr_ne_csr, csrRamAdr_inj, State.step, State.romAdr, State.test, State.exception, State.pending, testOut, rawTest, seqAdr, State.ram, ramCtl, RamCtl.memNext, RamCtl.rdataNext, State.regRAdr, State.regWAdr, State.allowZeroWr, State.csrAdr, CsrState.step, CsrState.datR, csrView, rbNext, State.doDecode, aNext, bNext, aluNext, oMux, modIn, modOut, pcNext, CauseLatch.step, exceptionOut, aluZero, gpSet, gpRamAdr_eq_zero, subUnit_low, hd.srcA, hd.srcB, hd.dst, hd.imm, hd.op, hd.enc, rom_a5, u_a4] using h

theorem q_a6 (hd : Dec k d)
    (h : ∀ d, Dec k d → Impl F false ⟨u_00, 1#8, false, false, a, b, (a + b), pc, mem, rd,
      ⟨mie, mpie, meie, rb, k.enc⟩, d, c, da, wd⟩ T (n + 1)) :
    Impl F pv ⟨u_a6, 167#8, false, false, a, b, o, pc, mem, rd, ⟨mie, mpie, meie, rb, pa⟩, d, c, da, wd⟩ T n := by
  refine .quietq 1 rfl rfl (fun _ => rfl) fun i => ?_
  have h := h (d.step false i.datR) (hd.next _)
  simpa [-BitVec.getLsbD_eq_getElem, gpRamAdr_ne_csr, csrRamAdr_inj, State.step, State.romAdr, State.test, State.exception, State.pending, testOut, rawTest, seqAdr, State.ram, ramCtl, RamCtl.memNext, RamCtl.rdataNext, State.regRAdr, State.regWAdr, State.allowZeroWr, State.csrAdr, CsrState.step, CsrState.datR, csrView, rbNext, State.doDecode, aNext, bNext, aluNext, oMux, modIn, modOut, pcNext, CauseLatch.step, exceptionOut, aluZero, gpSet, gpRamAdr_eq_zero, subUnit_low, hd.srcA, hd.srcB, hd.dst, hd.imm, hd.op, hd.enc, rom_00, u_a6] using h

theorem q_a7 (hd : Dec k d)
    (h : ∀ d, Dec k d → Impl F false ⟨u_a8, 169#8, false, false, 0#32, rd, (a + b), pc, mem, rd,
      ⟨mie, mpie, meie, rb, k.enc⟩, d, c, da, wd⟩ T (n + 1)) :
    Impl F pv ⟨u_a7, 168#8, false, false, a, b, o, pc, mem, rd, ⟨mie, mpie, meie, rb, pa⟩, d, c, da, wd⟩ T n := by
  refine .quietq 1 rfl rfl (fun _ => rfl) fun i => ?_
  have h := h (d.step false i.datR) (hd.next _)
  simpa [-BitVec.getLsbD_eq_getElem, gpRamAdr_ne_csr, csrRamAdr_inj, State.step, State.romAdr, State.test, State.exception, State.pending, testOut, rawTest, seqAdr, State.ram, ramCtl, RamCtl.memNext, RamCtl.rdataNext, State.regRAdr, State.regWAdr, State.allowZeroWr, State.csrAdr, CsrState.step, CsrState.datR, csrView, rbNext, State.doDecode, aNext, bNext, aluNext, oMux, modIn, modOut, pcNext, CauseLatch.step, exceptionOut, aluZero, gpSet, gpRamAdr_eq_zero, subUnit_low, hd.srcA, hd.srcB, hd.dst, hd.imm, hd.op, hd.enc, rom_a8, u_a7] using h

theorem q_a8_t (hd : Dec k d) (hc : dataMisaligned .word o = true)
    (h : ∀ d, Dec k d → Impl F false ⟨u_f0, 241#8, false, false, a, b, (a + b), pc, mem, rd,
      ⟨mie, mpie, meie, rb, k.enc⟩, d, { c with cause := 6 }, o, wd⟩ T (n + .x)) :
    Impl F pv ⟨u_a8, 169#8, false, false, a, b, o, pc, mem, rd, ⟨mie, mpie, meie, rb, pa⟩, d, c, da, wd⟩ T n := by
  refine .quietq .x rfl rfl (by intro i; simp [-BitVec.getLsbD_eq_getElem, State.tally, State.cyc, State.exception, exceptionOut, u_a8, hc, Cnt.x]) fun i => ?_
  have h := h (d.step false i.datR) (hd.next _)
  simpa [-BitVec.getLsbD_eq_getElem, gpRamAdr_ne_csr, csrRamAdr_inj, State.step, State.romAdr, State.test, State.exception, State.pending, testOut, rawTest, seqAdr, State.ram, ramCtl, RamCtl.memNext, RamCtl.rdataNext, State.regRAdr, State.regWAdr, State.allowZeroWr, State.csrAdr, CsrState.step, CsrState.datR, csrView, rbNext, State.doDecode, aNext, bNext, aluNext, oMux, modIn, modOut, pcNext, CauseLatch.step, exceptionOut, aluZero, gpSet, gpRamAdr_eq_zero, subUnit_low, hd.srcA, hd.srcB, hd.dst, hd.imm, hd.op, hd.enc, rom_f0, u_a8, hc] using h

theorem q_a8_f (hd : Dec k d) (hc : dataMisaligned .word o = false)
    (h : ∀ d, Dec k d → Impl F false ⟨u_a9, 170#8, false, false, a, b, (a + b), pc, mem, rd,
      ⟨mie, mpie, meie, rb, k.enc⟩, d, c, o, wd⟩ T (n + 1)) :
    Impl F pv ⟨u_a8, 169#8, false, false, a, b, o, pc, mem, rd, ⟨mie, mpie, meie, rb, pa⟩, d, c, da, wd⟩ T n := by
  refine .quietq 1 rfl rfl (by intro i; simp [-BitVec.getLsbD_eq_getElem, State.tally, State.cyc, State.exception, exceptionOut, u_a8, hc]; rfl) fun i => ?_
  have h := h (d.step false i.datR) (hd.next _)
  simpa [-BitVec.getLsbD_eq_getElem, gpRamAdr_ne_csr, csrRamAdr_inj, State.step, State.romAdr, State.test, State.exception, State.pending, testOut, rawTest, seqAdr, State.ram, ramCtl, RamCtl.memNext, RamCtl.rdataNext, State.regRAdr, State.regWAdr, State.allowZeroWr, State.csrAdr, CsrState.step, CsrState.datR, csrView, rbNext, State.doDecode, aNext, bNext, aluNext, oMux, modIn, modOut, pcNext, CauseLatch.step, exceptionOut, aluZero, gpSet, gpRamAdr_eq_zero, subUnit_low, hd.srcA, hd.srcB, hd.dst, hd.imm, hd.op, hd.enc, rom_a9, u_a8, hc] using h

theorem q_a9 (hd : Dec k d)
    (h : ∀ d, Dec k d → Impl F false ⟨u_aa, 171#8, false, false, a, b, (a + b), (pc + 1#30), mem, rd,
      ⟨mie, mpie, meie, rb, k.enc⟩, d, c, da, (writeDataAlign .word da o)⟩ T (n + 1)) :
    Impl F pv ⟨u_a9, 170#8, false, false, a, b, o, pc, mem, rd, ⟨mie, mpie, meie, rb, pa⟩, d, c, da, wd⟩ T n := by
  refine .quietq 1 rfl rfl (fun _ => rfl) fun i => ?_
  have h := h (d.step false i.datR) (hd.next _)
  simpa [-BitVec.getLsbD_eq_getElem, gpRamAdr_ne_csr, csrRamAdr_inj, State.step, State.romAdr, State.test, State.exception, State.pending, testOut, rawTest, seqAdr, State.ram, ramCtl, RamCtl.memNext, RamCtl.rdataNext, State.regRAdr, State.regWAdr, State.allowZeroWr, State.csrAdr, CsrState.step, CsrState.datR, csrView, rbNext, State.doDecode, aNext, bNext, aluNext, oMux, modIn, modOut, pcNext, CauseLatch.step, exceptionOut, aluZero, gpSet, gpRamAdr_eq_zero, subUnit_low, hd.srcA, hd.srcB, hd.dst, hd.imm, hd.op, hd.enc, rom_aa, u_a9] using h

theorem q_ab (hd : Dec k d)
    (h : ∀ d, Dec k d → Impl F false ⟨u_00, 1#8, false, false, a, b, (a + b), pc, mem, rd,
      ⟨mie, mpie, meie, rb, k.enc⟩, d, c, da, wd⟩ T (n + 1)) :
    Impl F pv ⟨u_ab, 172#8, false, false, a, b, o, pc, mem, rd, ⟨mie, mpie, meie, rb, pa⟩, d, c, da, wd⟩ T n := by
  refine .quietq 1 rfl rfl (fun _ => rfl) fun i => ?_
  have h := h (d.step false i.datR) (hd.next _)
  simpa [-BitVec.getLsbD_eq_getElem, gpRamAdr_ne_csr, csrRamAdr_inj, State.step, State.romAdr, State.test, State.exception, State.pending, testOut, rawTest, seqAdr, State.ram, ramCtl, RamCtl.memNext, RamCtl.rdataNext, State.regRAdr, State.regWAdr, State.allowZeroWr, State.csrAdr, CsrState.step, CsrState.datR, csrView, rbNext, State.doDecode, aNext, bNext, aluNext, oMux, modIn, modOut, pcNext, CauseLatch.step, exceptionOut, aluZero, gpSet, gpRamAdr_eq_zero, subUnit_low, hd.srcA, hd.srcB, hd.dst, hd.imm, hd.op, hd.enc, rom_00, u_ab] using h

theorem q_b0 (hd : Dec k d)
    (h : ∀ d, Dec k d → Impl F false ⟨u_b1, 178#8, false, false, k.imm, (pc ++ 0#2), (a + b), pc, mem, rd,
      ⟨mie, mpie, meie, rb, k.enc⟩, d, c, da, wd⟩ T (n + 1)) :
    Impl F pv ⟨u_b0, 177#8, false, false, a, b, o, pc, mem, rd, ⟨mie, mpie, meie, rb, pa⟩, d, c, da, wd⟩ T n := by
  refine .quietq 1 rfl rfl (fun _ => rfl) fun i => ?_
  have h := h (d.step false i.datR) (hd.next _)
  simpa [-BitVec.getLsbD_eq_getElem, gpRamAdr_ne_csr, csrRamAdr_inj, State.step, State.romAdr, State.test, State.exception, State.pending, testOut, rawTest, seqAdr, State.ram, ramCtl, RamCtl.memNext, RamCtl.rdataNext, State.regRAdr, State.regWAdr, State.allowZeroWr, State.csrAdr, CsrState.step, CsrState.datR, csrView, rbNext, State.doDecode, aNext, bNext, aluNext, oMux, modIn, modOut, pcNext, CauseLatch.step, exceptionOut, aluZero, gpSet, gpRamAdr_eq_zero, subUnit_low, hd.srcA, hd.srcB, hd.dst, hd.imm, hd.op, hd.enc, rom_b1, u_b0] using h

theorem q_b1 (hd : Dec k d)
    (h : ∀ d, Dec k d → Impl F false ⟨u_b2, 179#8, false, false, a, b, (a + b), pc, mem, rd,
      ⟨mie, mpie, meie, rb, k.enc⟩, d, c, da, wd⟩ T (n + 1)) :
    Impl F pv ⟨u_b1, 178#8, false, false, a, b, o, pc, mem, rd, ⟨mie, mpie, meie, rb, pa⟩, d, c, da, wd⟩ T n := by
  refine .quietq 1 rfl rfl (fun _ => rfl) fun i => ?_
  have h := h (d.step false i.datR) (hd.next _)
  simpa [-BitVec.getLsbD_eq_getElem, gpRamAdr_ne_csr, csrRamAdr_inj, State.step, State.romAdr, State.test, State.exception, State.pending, testOut, rawTest, seqAdr, State.ram, ramCtl, RamCtl.memNext, RamCtl.rdataNext, State.regRAdr, State.regWAdr, State.allowZeroWr, State.csrAdr, CsrState.step, CsrState.datR, csrView, rbNext, State.doDecode, aNext, bNext, aluNext, oMux, modIn, modOut, pcNext, CauseLatch.step, exceptionOut, aluZero, gpSet, gpRamAdr_eq_zero, subUnit_low, hd.srcA, hd.srcB, hd.dst, hd.imm, hd.op, hd.enc, rom_b2, u_b1] using h

theorem q_b2_t (hd : Dec k d) (hc : o.getLsbD 1 = true)
    (h : ∀ d, Dec k d → Impl F false ⟨u_f0, 241#8, false, false, a, b, (a + b), pc, mem, rd,
      ⟨mie, mpie, meie, rb, k.enc⟩, d, { c with cause := 0 }, da, wd⟩ T (n + .x)) :
    Impl F pv ⟨u_b2, 179#8, false, false, a, b, o, pc, mem, rd, ⟨mie, mpie, meie, rb, pa⟩, d, c, da, wd⟩ T n := by
  refine .quietq .x rfl rfl (by intro i; simp [-BitVec.getLsbD_eq_getElem, State.tally, State.cyc, State.exception, exceptionOut, u_b2, hc, Cnt.x]) fun i => ?_
  have h := h (d.step false i.datR) (hd.next _)
  simpa [-BitVec.getLsbD_eq_getElem, gpRamAdr_ne_csr, csrRamAdr_inj, State.step, State.romAdr, State.test, State.exception, State.pending, testOut, rawTest, seqAdr, State.ram, ramCtl, RamCtl.memNext, RamCtl.rdataNext, State.regRAdr, State.regWAdr, State.allowZeroWr, State.csrAdr, CsrState.step, CsrState.datR, csrView, rbNext, State.doDecode, aNext, bNext, aluNext, oMux, modIn, modOut, pcNext, CauseLatch.step, exceptionOut, aluZero, gpSet, gpRamAdr_eq_zero, subUnit_low, hd.srcA, hd.srcB, hd.dst, hd.imm, hd.op, hd.enc, rom_f0, u_b2, hc] using h

theorem q_b2_f (hd : Dec k d) (hc : o.getLsbD 1 = false)
    (h : ∀ d, Dec k d → Impl F false ⟨u_b3, 180#8, false, false, a, b, (a + b), pc, mem, rd,
      ⟨mie, mpie, meie, rb, k.enc⟩, d, c, da, wd⟩ T (n + 1)) :
    Impl F pv ⟨u_b2, 179#8, false, false, a, b, o, pc, mem, rd, ⟨mie, mpie, meie, rb, pa⟩, d, c, da, wd⟩ T n := by
  refine .quietq 1 rfl rfl (by intro i; simp [-BitVec.getLsbD_eq_getElem, State.tally, State.cyc, State.exception, exceptionOut, u_b2, hc]; rfl) fun i => ?_
  have h := h (d.step false i.datR) (hd.next _)
  simpa [-BitVec.getLsbD_eq_getElem, gpRamAdr_ne_csr, csrRamAdr_inj, State.step, State.romAdr, State.test, State.exception, State.pending, testOut, rawTest, seqAdr, State.ram, ramCtl, RamCtl.memNext, RamCtl.rdataNext, State.regRAdr, State.regWAdr, State.allowZeroWr, State.csrAdr, CsrState.step, CsrState.datR, csrView, rbNext, State.doDecode, aNext, bNext, aluNext, oMux, modIn, modOut, pcNext, CauseLatch.step, exceptionOut, aluZero, gpSet, gpRamAdr_eq_zero, subUnit_low, hd.srcA, hd.srcB, hd.dst, hd.imm, hd.op, hd.enc, rom_b3, u_b2, hc] using h

theorem q_b3 (hd : Dec k d)
    (h : ∀ d, Dec k d → Impl F false ⟨u_b4, 181#8, false, false, 4#32, (pc ++ 0#2), (a + b), (o.extractLsb' 2 30), mem, rd,
      ⟨mie, mpie, meie, rb, k.enc⟩, d, c, da, wd⟩ T (n + 1)) :
    Impl F pv ⟨u_b3, 180#8, false, false, a, b, o, pc, mem, rd, ⟨mie, mpie, meie, rb, pa⟩, d, c, da, wd⟩ T n := by
  refine .quietq 1 rfl rfl (fun _ => rfl) fun i => ?_
  have h := h (d.step false i.datR) (hd.next _)
  simpa [-BitVec.getLsbD_eq_getElem, gpRamAdr_ne_csr, csrRamAdr_inj, State.step, State.romAdr, State.test, State.exception, State.pending, testOut, rawTest, seqAdr, State.ram, ramCtl, RamCtl.memNext, RamCtl.rdataNext, State.regRAdr, State.regWAdr, State.allowZeroWr, State.csrAdr, CsrState.step, CsrState.datR, csrView, rbNext, State.doDecode, aNext, bNext, aluNext, oMux, modIn, modOut, pcNext, CauseLatch.step, exceptionOut, aluZero, gpSet, gpRamAdr_eq_zero, subUnit_low, hd.srcA, hd.srcB, hd.dst, hd.imm, hd.op, hd.enc, rom_b4, u_b3] using h

theorem f_b4 {r : Req} {K : BitVec 32 → Tree α} (hd : Dec k d)
    (hr : r = ⟨pc, 0xF, false, 0⟩)
    (h : ∀ d, Dec k d → Impl F true ⟨u_b5, 182#8, false, false, a, b, (a + b), pc, mem, rd,
      ⟨mie, mpie, meie, rb, k.enc⟩, d, c, da, wd⟩ (.bus r K) (n + 0)) :
    Impl F false ⟨u_b4, 181#8, false, false, a, b, o, pc, mem, rd, ⟨mie, mpie, meie, rb, pa⟩, d, c, da, wd⟩ (.bus r K) n := by
  refine .firstq 0 rfl rfl hr.symm (fun _ => rfl) fun i hi => ?_
  have h := h (d.step false i.datR) (hd.next _)
  simpa [-BitVec.getLsbD_eq_getElem, gpRamAdr_ne_csr, csrRamAdr_inj, State.step, State.romAdr, State.test, State.exception, State.pending, testOut, rawTest, seqAdr, State.ram, ramCtl, RamCtl.memNext, RamCtl.rdataNext, State.regRAdr, State.regWAdr, State.allowZeroWr, State.csrAdr, CsrState.step, CsrState.datR, csrView, rbNext, State.doDecode, aNext, bNext, aluNext, oMux, modIn, modOut, pcNext, CauseLatch.step, exceptionOut, aluZero, gpSet, gpRamAdr_eq_zero, subUnit_low, hd.srcA, hd.srcB, hd.dst, hd.imm, hd.op, hd.enc, rom_b5, u_b4, hi] using h

theorem q_c0 (hd : Dec k d)
    (h : ∀ d, Dec k d → Impl F false ⟨u_d1, 210#8, false, false, a, rd, (a + b), (pc + 1#30), mem, rd,
      ⟨mie, mpie, meie, rb, k.enc⟩, d, c, da, wd⟩ T (n + 1)) :
    Impl F pv ⟨u_c0, 193#8, false, false, a, b, o, pc, mem, rd, ⟨mie, mpie, meie, rb, pa⟩, d, c, da, wd⟩ T n := by
  refine .quietq 1 rfl rfl (fun _ => rfl) fun i => ?_
  have h := h (d.step false i.datR) (hd.next _)
  simpa [-BitVec.getLsbD_eq_getElem, gpRamAdr_ne_csr, csrRamAdr_inj, State.step, State.romAdr, State.test, State.exception, State.pending, testOut, rawTest, seqAdr, State.ram, ramCtl, RamCtl.memNext, RamCtl.rdataNext, State.regRAdr, State.regWAdr, State.allowZeroWr, State.csrAdr, CsrState.step, CsrState.datR, csrView, rbNext, State.doDecode, aNext, bNext, aluNext, oMux, modIn, modOut, pcNext, CauseLatch.step, exceptionOut, aluZero, gpSet, gpRamAdr_eq_zero, subUnit_low, hd.srcA, hd.srcB, hd.dst, hd.imm, hd.op, hd.enc, rom_d1, u_c0] using h

theorem q_c1 (hd : Dec k d)
    (h : ∀ d, Dec k d → Impl F false ⟨u_d8, 217#8, false, false, a, rd, (a + b), (pc + 1#30), mem, rd,
      ⟨mie, mpie, meie, rb, k.enc⟩, d, c, da, wd⟩ T (n + 1)) :
    Impl F pv ⟨u_c1, 194#8, false, false, a, b, o, pc, mem, rd, ⟨mie, mpie, meie, rb, pa⟩, d, c, da, wd⟩ T n := by
  refine .quietq 1 rfl rfl (fun _ => rfl) fun i => ?_
  have h := h (d.step false i.datR) (hd.next _)
  simpa [-BitVec.getLsbD_eq_getElem, gpRamAdr_ne_csr, csrRamAdr_inj, State.step, State.romAdr, State.test, State.exception, State.pending, testOut, rawTest, seqAdr, State.ram, ramCtl, RamCtl.memNext, RamCtl.rdataNext, State.regRAdr, State.regWAdr, State.allowZeroWr, State.csrAdr, CsrState.step, CsrState.datR, csrView, rbNext, State.doDecode, aNext, bNext, aluNext, oMux, modIn, modOut, pcNext, CauseLatch.step, exceptionOut, aluZero, gpSet, gpRamAdr_eq_zero, subUnit_low, hd.srcA, hd.srcB, hd.dst, hd.imm, hd.op, hd.enc, rom_d8, u_c1] using h

theorem q_c2 (hd : Dec k d)
    (h : ∀ d, Dec k d → Impl F false ⟨u_d2, 211#8, false, false, a, rd, (a + b), (pc + 1#30), mem, rd,
      ⟨mie, mpie, meie, rb, k.enc⟩, d, c, da, wd⟩ T (n + 1)) :
    Impl F pv ⟨u_c2, 195#8, false, false, a, b, o, pc, mem, rd, ⟨mie, mpie, meie, rb, pa⟩, d, c, da, wd⟩ T n := by
  refine .quietq 1 rfl rfl (fun _ => rfl) fun i => ?_
  have h := h (d.step false i.datR) (hd.next _)
  simpa [-BitVec.getLsbD_eq_getElem, gpRamAdr_ne_csr, csrRamAdr_inj, State.step, State.romAdr, State.test, State.exception, State.pending, testOut, rawTest, seqAdr, State.ram, ramCtl, RamCtl.memNext, RamCtl.rdataNext, State.regRAdr, State.regWAdr, State.allowZeroWr, State.csrAdr, CsrState.step, CsrState.datR, csrView, rbNext, State.doDecode, aNext, bNext, aluNext, oMux, modIn, modOut, pcNext, CauseLatch.step, exceptionOut, aluZero, gpSet, gpRamAdr_eq_zero, subUnit_low, hd.srcA, hd.srcB, hd.dst, hd.imm, hd.op, hd.enc, rom_d2, u_c2] using h

theorem q_c3 (hd : Dec k d)
    (h : ∀ d, Dec k d → Impl F false ⟨u_d3, 212#8, false, false, a, rd, (a + b), (pc + 1#30), mem, rd,
      ⟨mie, mpie, meie, rb, k.enc⟩, d, c, da, wd⟩ T (n + 1)) :
    Impl F pv ⟨u_c3, 196#8, false, false, a, b, o, pc, mem, rd, ⟨mie, mpie, meie, rb, pa⟩, d, c, da, wd⟩ T n := by
  refine .quietq 1 rfl rfl (fun _ => rfl) fun i => ?_
  have h := h (d.step false i.datR) (hd.next _)
  simpa [-BitVec.getLsbD_eq_getElem, gpRamAdr_ne_csr, csrRamAdr_inj, State.step, State.romAdr, State.test, State.exception, State.pending, testOut, rawTest, seqAdr, State.ram, ramCtl, RamCtl.memNext, RamCtl.rdataNext, State.regRAdr, State.regWAdr, State.allowZeroWr, State.csrAdr, CsrState.step, CsrState.datR, csrView, rbNext, State.doDecode, aNext, bNext, aluNext, oMux, modIn, modOut, pcNext, CauseLatch.step, exceptionOut, aluZero, gpSet, gpRamAdr_eq_zero, subUnit_low, hd.srcA, hd.srcB, hd.dst, hd.imm, hd.op, hd.enc, rom_d3, u_c3] using h

theorem q_c4 (hd : Dec k d)
    (h : ∀ d, Dec k d → Impl F false ⟨u_d4, 213#8, false, false, a, rd, (a + b), (pc + 1#30), mem, rd,
      ⟨mie, mpie, meie, rb, k.enc⟩, d, c, da, wd⟩ T (n + 1)) :
    Impl F pv ⟨u_c4, 197#8, false, false, a, b, o, pc, mem, rd, ⟨mie, mpie, meie, rb, pa⟩, d, c, da, wd⟩ T n := by
  refine .quietq 1 rfl rfl (fun _ => rfl) fun i => ?_
  have h := h (d.step false i.datR) (hd.next _)
  simpa [-BitVec.getLsbD_eq_getElem, gpRamAdr_ne_csr, csrRamAdr_inj, State.step, State.romAdr, State.test, State.exception, State.pending, testOut, rawTest, seqAdr, State.ram, ramCtl, RamCtl.memNext, RamCtl.rdataNext, State.regRAdr, State.regWAdr, State.allowZeroWr, State.csrAdr, CsrState.step, CsrState.datR, csrView, rbNext, State.doDecode, aNext, bNext, aluNext, oMux, modIn, modOut, pcNext, CauseLatch.step, exceptionOut, aluZero, gpSet, gpRamAdr_eq_zero, subUnit_low, hd.srcA, hd.srcB, hd.dst, hd.imm, hd.op, hd.enc, rom_d4, u_c4] using h

theorem q_c5 (hd : Dec k d)
    (h : ∀ d, Dec k d → Impl F false ⟨u_dc, 221#8, false, false, a, rd, (a + b), (pc + 1#30), mem, rd,
      ⟨mie, mpie, meie, rb, k.enc⟩, d, c, da, wd⟩ T (n + 1)) :
    Impl F pv ⟨u_c5, 198#8, false, false, a, b, o, pc, mem, rd, ⟨mie, mpie, meie, rb, pa⟩, d, c, da, wd⟩ T n := by
  refine .quietq 1 rfl rfl (fun _ => rfl) fun i => ?_
  have h := h (d.step false i.datR) (hd.next _)
  simpa [-BitVec.getLsbD_eq_getElem, gpRamAdr_ne_csr, csrRamAdr_inj, State.step, State.romAdr, State.test, State.exception, State.pending, testOut, rawTest, seqAdr, State.ram, ramCtl, RamCtl.memNext, RamCtl.rdataNext, State.regRAdr, State.regWAdr, State.allowZeroWr, State.csrAdr, CsrState.step, CsrState.datR, csrView, rbNext, State.doDecode, aNext, bNext, aluNext, oMux, modIn, modOut, pcNext, CauseLatch.step, exceptionOut, aluZero, gpSet, gpRamAdr_eq_zero, subUnit_low, hd.srcA, hd.srcB, hd.dst, hd.imm, hd.op, hd.enc, rom_dc, u_c5] using h

theorem q_c6 (hd : Dec k d)
    (h : ∀ d, Dec k d → Impl F false ⟨u_d5, 214#8, false, false, a, rd, (a + b), (pc + 1#30), mem, rd,
      ⟨mie, mpie, meie, rb, k.enc⟩, d, c, da, wd⟩ T (n + 1)) :
    Impl F pv ⟨u_c6, 199#8, false, false, a, b, o, pc, mem, rd, ⟨mie, mpie, meie, rb, pa⟩, d, c, da, wd⟩ T n := by
  refine .quietq 1 rfl rfl (fun _ => rfl) fun i => ?_
  have h := h (d.step false i.datR) (hd.next _)
  simpa [-BitVec.getLsbD_eq_getElem, gpRamAdr_ne_csr, csrRamAdr_inj, State.step, State.romAdr, State.test, State.exception, State.pending, testOut, rawTest, seqAdr, State.ram, ramCtl, RamCtl.memNext, RamCtl.rdataNext, State.regRAdr, State.regWAdr, State.allowZeroWr, State.csrAdr, CsrState.step, CsrState.datR, csrView, rbNext, State.doDecode, aNext, bNext, aluNext, oMux, modIn, modOut, pcNext, CauseLatch.step, exceptionOut, aluZero, gpSet, gpRamAdr_eq_zero, subUnit_low, hd.srcA, hd.srcB, hd.dst, hd.imm, hd.op, hd.enc, rom_d5, u_c6] using h

theorem q_c7 (hd : Dec k d)
    (h : ∀ d, Dec k d → Impl F false ⟨u_d6, 215#8, false, false, a, rd, (a + b), (pc + 1#30), mem, rd,
      ⟨mie, mpie, meie, rb, k.enc⟩, d, c, da, wd⟩ T (n + 1)) :
    Impl F pv ⟨u_c7, 200#8, false, false, a, b, o, pc, mem, rd, ⟨mie, mpie, meie, rb, pa⟩, d, c, da, wd⟩ T n := by
  refine .quietq 1 rfl rfl (fun _ => rfl) fun i => ?_
  have h := h (d.step false i.datR) (hd.next _)
  simpa [-BitVec.getLsbD_eq_getElem, gpRamAdr_ne_csr, csrRamAdr_inj, State.step, State.romAdr, State.test, State.exception, State.pending, testOut, rawTest, seqAdr, State.ram, ramCtl, RamCtl.memNext, RamCtl.rdataNext, State.regRAdr, State.regWAdr, State.allowZeroWr, State.csrAdr, CsrState.step, CsrState.datR, csrView, rbNext, State.doDecode, aNext, bNext, aluNext, oMux, modIn, modOut, pcNext, CauseLatch.step, exceptionOut, aluZero, gpSet, gpRamAdr_eq_zero, subUnit_low, hd.srcA, hd.srcB, hd.dst, hd.imm, hd.op, hd.enc, rom_d6, u_c7] using h

theorem q_c8 (hd : Dec k d)
    (h : ∀ d, Dec k d → Impl F false ⟨u_d7, 216#8, false, false, a, rd, (a + b), (pc + 1#30), mem, rd,
      ⟨mie, mpie, meie, rb, k.enc⟩, d, c, da, wd⟩ T (n + 1)) :
    Impl F pv ⟨u_c8, 201#8, false, false, a, b, o, pc, mem, rd, ⟨mie, mpie, meie, rb, pa⟩, d, c, da, wd⟩ T n := by
  refine .quietq 1 rfl rfl (fun _ => rfl) fun i => ?_
  have h := h (d.step false i.datR) (hd.next _)
  simpa [-BitVec.getLsbD_eq_getElem, gpRamAdr_ne_csr, csrRamAdr_inj, State.step, State.romAdr, State.test, State.exception, State.pending, testOut, rawTest, seqAdr, State.ram, ramCtl, RamCtl.memNext, RamCtl.rdataNext, State.regRAdr, State.regWAdr, State.allowZeroWr, State.csrAdr, CsrState.step, CsrState.datR, csrView, rbNext, State.doDecode, aNext, bNext, aluNext, oMux, modIn, modOut, pcNext, CauseLatch.step, exceptionOut, aluZero, gpSet, gpRamAdr_eq_zero, subUnit_low, hd.srcA, hd.srcB, hd.dst, hd.imm, hd.op, hd.enc, rom_d7, u_c8] using h

theorem q_cd (hd : Dec k d)
    (h : ∀ d, Dec k d → Impl F false ⟨u_e0, 225#8, false, false, a, rd, (a + b), (pc + 1#30), mem, rd,
      ⟨mie, mpie, meie, rb, k.enc⟩, d, c, da, wd⟩ T (n + 1)) :
    Impl F pv ⟨u_cd, 206#8, false, false, a, b, o, pc, mem, rd, ⟨mie, mpie, meie, rb, pa⟩, d, c, da, wd⟩ T n := by
  refine .quietq 1 rfl rfl (fun _ => rfl) fun i => ?_
  have h := h (d.step false i.datR) (hd.next _)
  simpa [-BitVec.getLsbD_eq_getElem, gpRamAdr_ne_csr, csrRamAdr_inj, State.step, State.romAdr, State.test, State.exception, State.pending, testOut, rawTest, seqAdr, State.ram, ramCtl, RamCtl.memNext, RamCtl.rdataNext, State.regRAdr, State.regWAdr, State.allowZeroWr, State.csrAdr, CsrState.step, CsrState.datR, csrView, rbNext, State.doDecode, aNext, bNext, aluNext, oMux, modIn, modOut, pcNext, CauseLatch.step, exceptionOut, aluZero, gpSet, gpRamAdr_eq_zero, subUnit_low, hd.srcA, hd.srcB, hd.dst, hd.imm, hd.op, hd.enc, rom_e0, u_cd] using h

theorem q_d0 (hd : Dec k d)
    (h : ∀ d, Dec k d → Impl F false ⟨u_53, 84#8, false, false, 0#32, k.imm, (a + b), (pc + 1#30), mem, rd,
      ⟨mie, mpie, meie, rb, k.enc⟩, d, c, da, wd⟩ T (n + 1)) :
    Impl F pv ⟨u_d0, 209#8, false, false, a, b, o, pc, mem, rd, ⟨mie, mpie, meie, rb, pa⟩, d, c, da, wd⟩ T n := by
  refine .quietq 1 rfl rfl (fun _ => rfl) fun i => ?_
  have h := h (d.step false i.datR) (hd.next _)
  simpa [-BitVec.getLsbD_eq_getElem, gpRamAdr_ne_csr, csrRamAdr_inj, State.step, State.romAdr, State.test, State.exception, State.pending, testOut, rawTest, seqAdr, State.ram, ramCtl, RamCtl.memNext, RamCtl.rdataNext, State.regRAdr, State.regWAdr, State.allowZeroWr, State.csrAdr, CsrState.step, CsrState.datR, csrView, rbNext, State.doDecode, aNext, bNext, aluNext, oMux, modIn, modOut, pcNext, CauseLatch.step, exceptionOut, aluZero, gpSet, gpRamAdr_eq_zero, subUnit_low, hd.srcA, hd.srcB, hd.dst, hd.imm, hd.op, hd.enc, rom_53, u_d0] using h

theorem f_d1 {r : Req} {K : BitVec 32 → Tree α} (hd : Dec k d)
    (hr : r = ⟨pc, 0xF, false, 0⟩)
    (h : ∀ d, Dec k d → Impl F true ⟨u_b5, 182#8, false, false, a, b, (a + b), pc, mem, rd,
      ⟨mie, mpie, meie, rb, k.enc⟩, d, c, da, wd⟩ (.bus r K) (n + 0)) :
    Impl F false ⟨u_d1, 210#8, false, false, a, b, o, pc, mem, rd, ⟨mie, mpie, meie, rb, pa⟩, d, c, da, wd⟩ (.bus r K) n := by
  refine .firstq 0 rfl rfl hr.symm (fun _ => rfl) fun i hi => ?_
  have h := h (d.step false i.datR) (hd.next _)
  simpa [-BitVec.getLsbD_eq_getElem, gpRamAdr_ne_csr, csrRamAdr_inj, State.step, State.romAdr, State.test, State.exception, State.pending, testOut, rawTest, seqAdr, State.ram, ramCtl, RamCtl.memNext, RamCtl.rdataNext, State.regRAdr, State.regWAdr, State.allowZeroWr, State.csrAdr, CsrState.step, CsrState.datR, csrView, rbNext, State.doDecode, aNext, bNext, aluNext, oMux, modIn, modOut, pcNext, CauseLatch.step, exceptionOut, aluZero, gpSet, gpRamAdr_eq_zero, subUnit_low, hd.srcA, hd.srcB, hd.dst, hd.imm, hd.op, hd.enc, rom_b5, u_d1, hi] using h

theorem f_d2 {r : Req} {K : BitVec 32 → Tree α} (hd : Dec k d)
    (hr : r = ⟨pc, 0xF, false, 0⟩)
    (h : ∀ d, Dec k d → Impl F true ⟨u_b5, 182#8, false, false, a, b, (aluNext .cmpLtu .invMsbAB .none a b), pc, mem, rd,
      ⟨mie, mpie, meie, rb, k.enc⟩, d, c, da, wd⟩ (.bus r K) (n + 0)) :
    Impl F false ⟨u_d2, 211#8, false, false, a, b, o, pc, mem, rd, ⟨mie, mpie, meie, rb, pa⟩, d, c, da, wd⟩ (.bus r K) n := by
  refine .firstq 0 rfl rfl hr.symm (fun _ => rfl) fun i hi => ?_
  have h := h (d.step false i.datR) (hd.next _)
  simpa [-BitVec.getLsbD_eq_getElem, gpRamAdr_ne_csr, csrRamAdr_inj, State.step, State.romAdr, State.test, State.exception, State.pending, testOut, rawTest, seqAdr, State.ram, ramCtl, RamCtl.memNext, RamCtl.rdataNext, State.regRAdr, State.regWAdr, State.allowZeroWr, State.csrAdr, CsrState.step, CsrState.datR, csrView, rbNext, State.doDecode, aNext, bNext, aluNext, oMux, modIn, modOut, pcNext, CauseLatch.step, exceptionOut, aluZero, gpSet, gpRamAdr_eq_zero, subUnit_low, hd.srcA, hd.srcB, hd.dst, hd.imm, hd.op, hd.enc, rom_b5, u_d2, hi] using h

theorem f_d3 {r : Req} {K : BitVec 32 → Tree α} (hd : Dec k d)
    (hr : r = ⟨pc, 0xF, false, 0⟩)
    (h : ∀ d, Dec k d → Impl F true ⟨u_b5, 182#8, false, false, a, b, (aluNext .cmpLtu .none .none a b), pc, mem, rd,
      ⟨mie, mpie, meie, rb, k.enc⟩, d, c, da, wd⟩ (.bus r K) (n + 0)) :
    Impl F false ⟨u_d3, 212#8, false, false, a, b, o, pc, mem, rd, ⟨mie, mpie, meie, rb, pa⟩, d, c, da, wd⟩ (.bus r K) n := by
  refine .firstq 0 rfl rfl hr.symm (fun _ => rfl) fun i hi => ?_
  have h := h (d.step false i.datR) (hd.next _)
  simpa [-BitVec.getLsbD_eq_getElem, gpRamAdr_ne_csr, csrRamAdr_inj, State.step, State.romAdr, State.test, State.exception, State.pending, testOut, rawTest, seqAdr, State.ram, ramCtl, RamCtl.memNext, RamCtl.rdataNext, State.regRAdr, State.regWAdr, State.allowZeroWr, State.csrAdr, CsrState.step, CsrState.datR, csrView, rbNext, State.doDecode, aNext, bNext, aluNext, oMux, modIn, modOut, pcNext, CauseLatch.step, exceptionOut, aluZero, gpSet, gpRamAdr_eq_zero, subUnit_low, hd.srcA, hd.srcB, hd.dst, hd.imm, hd.op, hd.enc, rom_b5, u_d3, hi] using h

theorem f_d4 {r : Req} {K : BitVec 32 → Tree α} (hd : Dec k d)
    (hr : r = ⟨pc, 0xF, false, 0⟩)
    (h : ∀ d, Dec k d → Impl F true ⟨u_b5, 182#8, false, false, a, b, (a ^^^ b), pc, mem, rd,
      ⟨mie, mpie, meie, rb, k.enc⟩, d, c, da, wd⟩ (.bus r K) (n + 0)) :
    Impl F false ⟨u_d4, 213#8, false, false, a, b, o, pc, mem, rd, ⟨mie, mpie, meie, rb, pa⟩, d, c, da, wd⟩ (.bus r K) n := by
  refine .firstq 0 rfl rfl hr.symm (fun _ => rfl) fun i hi => ?_
  have h := h (d.step false i.datR) (hd.next _)
  simpa [-BitVec.getLsbD_eq_getElem, gpRamAdr_ne_csr, csrRamAdr_inj, State.step, State.romAdr, State.test, State.exception, State.pending, testOut, rawTest, seqAdr, State.ram, ramCtl, RamCtl.memNext, RamCtl.rdataNext, State.regRAdr, State.regWAdr, State.allowZeroWr, State.csrAdr, CsrState.step, CsrState.datR, csrView, rbNext, State.doDecode, aNext, bNext, aluNext, oMux, modIn, modOut, pcNext, CauseLatch.step, exceptionOut, aluZero, gpSet, gpRamAdr_eq_zero, subUnit_low, hd.srcA, hd.srcB, hd.dst, hd.imm, hd.op, hd.enc, rom_b5, u_d4, hi] using h

theorem f_d5 {r : Req} {K : BitVec 32 → Tree α} (hd : Dec k d)
    (hr : r = ⟨pc, 0xF, false, 0⟩)
    (h : ∀ d, Dec k d → Impl F true ⟨u_b5, 182#8, false, false, a, b, (a ||| b), pc, mem, rd,
      ⟨mie, mpie, meie, rb, k.enc⟩, d, c, da, wd⟩ (.bus r K) (n + 0)) :
    Impl F false ⟨u_d5, 214#8, false, false, a, b, o, pc, mem, rd, ⟨mie, mpie, meie, rb, pa⟩, d, c, da, wd⟩ (.bus r K) n := by
  refine .firstq 0 rfl rfl hr.symm (fun _ => rfl) fun i hi => ?_
  have h := h (d.step false i.datR) (hd.next _)
  simpa [-BitVec.getLsbD_eq_getElem, gpRamAdr_ne_csr, csrRamAdr_inj, State.step, State.romAdr, State.test, State.exception, State.pending, testOut, rawTest, seqAdr, State.ram, ramCtl, RamCtl.memNext, RamCtl.rdataNext, State.regRAdr, State.regWAdr, State.allowZeroWr, State.csrAdr, CsrState.step, CsrState.datR, csrView, rbNext, State.doDecode, aNext, bNext, aluNext, oMux, modIn, modOut, pcNext, CauseLatch.step, exceptionOut, aluZero, gpSet, gpRamAdr_eq_zero, subUnit_low, hd.srcA, hd.srcB, hd.dst, hd.imm, hd.op, hd.enc, rom_b5, u_d5, hi] using h

theorem f_d6 {r : Req} {K : BitVec 32 → Tree α} (hd : Dec k d)
    (hr : r = ⟨pc, 0xF, false, 0⟩)
    (h : ∀ d, Dec k d → Impl F true ⟨u_b5, 182#8, false, false, a, b, (a &&& b), pc, mem, rd,
      ⟨mie, mpie, meie, rb, k.enc⟩, d, c, da, wd⟩ (.bus r K) (n + 0)) :
    Impl F false ⟨u_d6, 215#8, false, false, a, b, o, pc, mem, rd, ⟨mie, mpie, meie, rb, pa⟩, d, c, da, wd⟩ (.bus r K) n := by
  refine .firstq 0 rfl rfl hr.symm (fun _ => rfl) fun i hi => ?_
  have h := h (d.step false i.datR) (hd.next _)
  simpa [-BitVec.getLsbD_eq_getElem, gpRamAdr_ne_csr, csrRamAdr_inj, State.step, State.romAdr, State.test, State.exception, State.pending, testOut, rawTest, seqAdr, State.ram, ramCtl, RamCtl.memNext, RamCtl.rdataNext, State.regRAdr, State.regWAdr, State.allowZeroWr, State.csrAdr, CsrState.step, CsrState.datR, csrView, rbNext, State.doDecode, aNext, bNext, aluNext, oMux, modIn, modOut, pcNext, CauseLatch.step, exceptionOut, aluZero, gpSet, gpRamAdr_eq_zero, subUnit_low, hd.srcA, hd.srcB, hd.dst, hd.imm, hd.op, hd.enc, rom_b5, u_d6, hi] using h

theorem f_d7 {r : Req} {K : BitVec 32 → Tree α} (hd : Dec k d)
    (hr : r = ⟨pc, 0xF, false, 0⟩)
    (h : ∀ d, Dec k d → Impl F true ⟨u_b5, 182#8, false, false, a, b, (a - b), pc, mem, rd,
      ⟨mie, mpie, meie, rb, k.enc⟩, d, c, da, wd⟩ (.bus r K) (n + 0)) :
    Impl F false ⟨u_d7, 216#8, false, false, a, b, o, pc, mem, rd, ⟨mie, mpie, meie, rb, pa⟩, d, c, da, wd⟩ (.bus r K) n := by
  refine .firstq 0 rfl rfl hr.symm (fun _ => rfl) fun i hi => ?_
  have h := h (d.step false i.datR) (hd.next _)
  simpa [-BitVec.getLsbD_eq_getElem, gpRamAdr_ne_csr, csrRamAdr_inj, State.step, State.romAdr, State.test, State.exception, State.pending, testOut, rawTest, seqAdr, State.ram, ramCtl, RamCtl.memNext, RamCtl.rdataNext, State.regRAdr, State.regWAdr, State.allowZeroWr, State.csrAdr, CsrState.step, CsrState.datR, csrView, rbNext, State.doDecode, aNext, bNext, aluNext, oMux, modIn, modOut, pcNext, CauseLatch.step, exceptionOut, aluZero, gpSet, gpRamAdr_eq_zero, subUnit_low, hd.srcA, hd.srcB, hd.dst, hd.imm, hd.op, hd.enc, rom_b5, u_d7, hi] using h

theorem q_d8 (hd : Dec k d)
    (h : ∀ d, Dec k d → Impl F false ⟨u_d9, 218#8, false, false, 31#32, b, (a + b), pc, mem, (mem (gpRamAdr k.srcA)),
      ⟨mie, mpie, meie, rb, k.enc⟩, d, c, da, wd⟩ T (n + 1)) :
    Impl F pv ⟨u_d8, 217#8, false, false, a, b, o, pc, mem, rd, ⟨mie, mpie, meie, rb, pa⟩, d, c, da, wd⟩ T n := by
  refine .quietq 1 rfl rfl (fun _ => rfl) fun i => ?_
  have h := h (d.step false i.datR) (hd.next _)
  simpa [-BitVec.getLsbD_eq_getElem, gpRamAdr_ne_csr, csrRamAdr_inj, State.step, State.romAdr, State.test, State.exception, State.pending, testOut, rawTest, seqAdr, State.ram, ramCtl, RamCtl.memNext, RamCtl.rdataNext, State.regRAdr, State.regWAdr, State.allowZeroWr, State.csrAdr, CsrState.step, CsrState.datR, csrView, rbNext, State.doDecode, aNext, bNext, aluNext, oMux, modIn, modOut, pcNext, CauseLatch.step, exceptionOut, aluZero, gpSet, gpRamAdr_eq_zero, subUnit_low, hd.srcA, hd.srcB, hd.dst, hd.imm, hd.op, hd.enc, rom_d9, u_d8] using h

theorem q_d9 (hd : Dec k d)
    (h : ∀ d, Dec k d → Impl F false ⟨u_da, 219#8, false, false, rd, b, (a &&& b), pc, mem, (mem (gpRamAdr k.srcB)),
      ⟨mie, mpie, meie, rb, k.enc⟩, d, c, da, wd⟩ T (n + 1)) :
    Impl F pv ⟨u_d9, 218#8, false, false, a, b, o, pc, mem, rd, ⟨mie, mpie, meie, rb, pa⟩, d, c, da, wd⟩ T n := by
  refine .quietq 1 rfl rfl (fun _ => rfl) fun i => ?_
  have h := h (d.step false i.datR) (hd.next _)
  simpa [-BitVec.getLsbD_eq_getElem, gpRamAdr_ne_csr, csrRamAdr_inj, State.step, State.romAdr, State.test, State.exception, State.pending, testOut, rawTest, seqAdr, State.ram, ramCtl, RamCtl.memNext, RamCtl.rdataNext, State.regRAdr, State.regWAdr, State.allowZeroWr, State.csrAdr, CsrState.step, CsrState.datR, csrView, rbNext, State.doDecode, aNext, bNext, aluNext, oMux, modIn, modOut, pcNext, CauseLatch.step, exceptionOut, aluZero, gpSet, gpRamAdr_eq_zero, subUnit_low, hd.srcA, hd.srcB, hd.dst, hd.imm, hd.op, hd.enc, rom_da, u_d9] using h

theorem q_da_z (hd : Dec k d) (hc : o = 0#32)
    (h : ∀ d, Dec k d → Impl F false ⟨u_db, 220#8, false, false, o, 1#32, (a <<< 1), pc, mem, rd,
      ⟨mie, mpie, meie, rb, k.enc⟩, d, c, da, wd⟩ T (n + 1)) :
    Impl F pv ⟨u_da, 219#8, false, false, a, b, o, pc, mem, rd, ⟨mie, mpie, meie, rb, pa⟩, d, c, da, wd⟩ T n := by
  refine .quietq 1 rfl rfl (fun _ => rfl) fun i => ?_
  have h := h (d.step false i.datR) (hd.next _)
  simpa [-BitVec.getLsbD_eq_getElem, gpRamAdr_ne_csr, csrRamAdr_inj, State.step, State.romAdr, State.test, State.exception, State.pending, testOut, rawTest, seqAdr, State.ram, ramCtl, RamCtl.memNext, RamCtl.rdataNext, State.regRAdr, State.regWAdr, State.allowZeroWr, State.csrAdr, CsrState.step, CsrState.datR, csrView, rbNext, State.doDecode, aNext, bNext, aluNext, oMux, modIn, modOut, pcNext, CauseLatch.step, exceptionOut, aluZero, gpSet, gpRamAdr_eq_zero, subUnit_low, hd.srcA, hd.srcB, hd.dst, hd.imm, hd.op, hd.enc, rom_db, u_da, hc] using h

theorem q_da_nz (hd : Dec k d) (hc : ¬ o = 0#32)
    (h : ∀ d, Dec k d → Impl F false ⟨u_5c, 93#8, false, false, o, 1#32, (a <<< 1), pc, mem, rd,
      ⟨mie, mpie, meie, rb, k.enc⟩, d, c, da, wd⟩ T (n + 1)) :
    Impl F pv ⟨u_da, 219#8, false, false, a, b, o, pc, mem, rd, ⟨mie, mpie, meie, rb, pa⟩, d, c, da, wd⟩ T n := by
  refine .quietq 1 rfl rfl (fun _ => rfl) fun i => ?_
  have h := h (d.step false i.datR) (hd.next _)
  simpa [-BitVec.getLsbD_eq_getElem, gpRamAdr_ne_csr, csrRamAdr_inj, State.step, State.romAdr, State.test, State.exception, State.pending, testOut, rawTest, seqAdr, State.ram, ramCtl, RamCtl.memNext, RamCtl.rdataNext, State.regRAdr, State.regWAdr, State.allowZeroWr, State.csrAdr, CsrState.step, CsrState.datR, csrView, rbNext, State.doDecode, aNext, bNext, aluNext, oMux, modIn, modOut, pcNext, CauseLatch.step, exceptionOut, aluZero, gpSet, gpRamAdr_eq_zero, subUnit_low, hd.srcA, hd.srcB, hd.dst, hd.imm, hd.op, hd.enc, rom_5c, u_da, hc] using h

theorem q_db (hd : Dec k d)
    (h : ∀ d, Dec k d → Impl F false ⟨u_68, 105#8, false, false, a, b, (a + b), pc, mem, (mem (gpRamAdr k.srcA)),
      ⟨mie, mpie, meie, rb, k.enc⟩, d, c, da, wd⟩ T (n + 1)) :
    Impl F pv ⟨u_db, 220#8, false, false, a, b, o, pc, mem, rd, ⟨mie, mpie, meie, rb, pa⟩, d, c, da, wd⟩ T n := by
  refine .quietq 1 rfl rfl (fun _ => rfl) fun i => ?_
  have h := h (d.step false i.datR) (hd.next _)
  simpa [-BitVec.getLsbD_eq_getElem, gpRamAdr_ne_csr, csrRamAdr_inj, State.step, State.romAdr, State.test, State.exception, State.pending, testOut, rawTest, seqAdr, State.ram, ramCtl, RamCtl.memNext, RamCtl.rdataNext, State.regRAdr, State.regWAdr, State.allowZeroWr, State.csrAdr, CsrState.step, CsrState.datR, csrView, rbNext, State.doDecode, aNext, bNext, aluNext, oMux, modIn, modOut, pcNext, CauseLatch.step, exceptionOut, aluZero, gpSet, gpRamAdr_eq_zero, subUnit_low, hd.srcA, hd.srcB, hd.dst, hd.imm, hd.op, hd.enc, rom_68, u_db] using h

theorem q_dc (hd : Dec k d)
    (h : ∀ d, Dec k d → Impl F false ⟨u_dd, 222#8, false, false, 31#32, b, (a + b), pc, mem, (mem (gpRamAdr k.srcA)),
      ⟨mie, mpie, meie, rb, k.enc⟩, d, c, da, wd⟩ T (n + 1)) :
    Impl F pv ⟨u_dc, 221#8, false, false, a, b, o, pc, mem, rd, ⟨mie, mpie, meie, rb, pa⟩, d, c, da, wd⟩ T n := by
  refine .quietq 1 rfl rfl (fun _ => rfl) fun i => ?_
  have h := h (d.step false i.datR) (hd.next _)
  simpa [-BitVec.getLsbD_eq_getElem, gpRamAdr_ne_csr, csrRamAdr_inj, State.step, State.romAdr, State.test, State.exception, State.pending, testOut, rawTest, seqAdr, State.ram, ramCtl, RamCtl.memNext, RamCtl.rdataNext, State.regRAdr, State.regWAdr, State.allowZeroWr, State.csrAdr, CsrState.step, CsrState.datR, csrView, rbNext, State.doDecode, aNext, bNext, aluNext, oMux, modIn, modOut, pcNext, CauseLatch.step, exceptionOut, aluZero, gpSet, gpRamAdr_eq_zero, subUnit_low, hd.srcA, hd.srcB, hd.dst, hd.imm, hd.op, hd.enc, rom_dd, u_dc] using h

theorem q_dd (hd : Dec k d)
    (h : ∀ d, Dec k d → Impl F false ⟨u_de, 223#8, false, false, rd, b, (a &&& b), pc, mem, (mem (gpRamAdr k.srcB)),
      ⟨mie, mpie, meie, rb, k.enc⟩, d, c, da, wd⟩ T (n + 1)) :
    Impl F pv ⟨u_dd, 222#8, false, false, a, b, o, pc, mem, rd, ⟨mie, mpie, meie, rb, pa⟩, d, c, da, wd⟩ T n := by
  refine .quietq 1 rfl rfl (fun _ => rfl) fun i => ?_
  have h := h (d.step false i.datR) (hd.next _)
  simpa [-BitVec.getLsbD_eq_getElem, gpRamAdr_ne_csr, csrRamAdr_inj, State.step, State.romAdr, State.test, State.exception, State.pending, testOut, rawTest, seqAdr, State.ram, ramCtl, RamCtl.memNext, RamCtl.rdataNext, State.regRAdr, State.regWAdr, State.allowZeroWr, State.csrAdr, CsrState.step, CsrState.datR, csrView, rbNext, State.doDecode, aNext, bNext, aluNext, oMux, modIn, modOut, pcNext, CauseLatch.step, exceptionOut, aluZero, gpSet, gpRamAdr_eq_zero, subUnit_low, hd.srcA, hd.srcB, hd.dst, hd.imm, hd.op, hd.enc, rom_de, u_dd] using h

theorem q_de_z (hd : Dec k d) (hc : o = 0#32)
    (h : ∀ d, Dec k d → Impl F false ⟨u_df, 224#8, false, false, o, 1#32, (a >>> 1), pc, mem, rd,
      ⟨mie, mpie, meie, rb, k.enc⟩, d, c, da, wd⟩ T (n + 1)) :
    Impl F pv ⟨u_de, 223#8, false, false, a, b, o, pc, mem, rd, ⟨mie, mpie, meie, rb, pa⟩, d, c, da, wd⟩ T n := by
  refine .quietq 1 rfl rfl (fun _ => rfl) fun i => ?_
  have h := h (d.step false i.datR) (hd.next _)
  simpa [-BitVec.getLsbD_eq_getElem, gpRamAdr_ne_csr, csrRamAdr_inj, State.step, State.romAdr, State.test, State.exception, State.pending, testOut, rawTest, seqAdr, State.ram, ramCtl, RamCtl.memNext, RamCtl.rdataNext, State.regRAdr, State.regWAdr, State.allowZeroWr, State.csrAdr, CsrState.step, CsrState.datR, csrView, rbNext, State.doDecode, aNext, bNext, aluNext, oMux, modIn, modOut, pcNext, CauseLatch.step, exceptionOut, aluZero, gpSet, gpRamAdr_eq_zero, subUnit_low, hd.srcA, hd.srcB, hd.dst, hd.imm, hd.op, hd.enc, rom_df, u_de, hc] using h

theorem q_de_nz (hd : Dec k d) (hc : ¬ o = 0#32)
    (h : ∀ d, Dec k d → Impl F false ⟨u_61, 98#8, false, false, o, 1#32, (a >>> 1), pc, mem, rd,
      ⟨mie, mpie, meie, rb, k.enc⟩, d, c, da, wd⟩ T (n + 1)) :
    Impl F pv ⟨u_de, 223#8, false, false, a, b, o, pc, mem, rd, ⟨mie, mpie, meie, rb, pa⟩, d, c, da, wd⟩ T n := by
  refine .quietq 1 rfl rfl (fun _ => rfl) fun i => ?_
  have h := h (d.step false i.datR) (hd.next _)
  simpa [-BitVec.getLsbD_eq_getElem, gpRamAdr_ne_csr, csrRamAdr_inj, State.step, State.romAdr, State.test, State.exception, State.pending, testOut, rawTest, seqAdr, State.ram, ramCtl, RamCtl.memNext, RamCtl.rdataNext, State.regRAdr, State.regWAdr, State.allowZeroWr, State.csrAdr, CsrState.step, CsrState.datR, csrView, rbNext, State.doDecode, aNext, bNext, aluNext, oMux, modIn, modOut, pcNext, CauseLatch.step, exceptionOut, aluZero, gpSet, gpRamAdr_eq_zero, subUnit_low, hd.srcA, hd.srcB, hd.dst, hd.imm, hd.op, hd.enc, rom_61, u_de, hc] using h

theorem q_df (hd : Dec k d)
    (h : ∀ d, Dec k d → Impl F false ⟨u_68, 105#8, false, false, a, b, (a + b), pc, mem, (mem (gpRamAdr k.srcA)),
      ⟨mie, mpie, meie, rb, k.enc⟩, d, c, da, wd⟩ T (n + 1)) :
    Impl F pv ⟨u_df, 224#8, false, false, a, b, o, pc, mem, rd, ⟨mie, mpie, meie, rb, pa⟩, d, c, da, wd⟩ T n := by
  refine .quietq 1 rfl rfl (fun _ => rfl) fun i => ?_
  have h := h (d.step false i.datR) (hd.next _)
  simpa [-BitVec.getLsbD_eq_getElem, gpRamAdr_ne_csr, csrRamAdr_inj, State.step, State.romAdr, State.test, State.exception, State.pending, testOut, rawTest, seqAdr, State.ram, ramCtl, RamCtl.memNext, RamCtl.rdataNext, State.regRAdr, State.regWAdr, State.allowZeroWr, State.csrAdr, CsrState.step, CsrState.datR, csrView, rbNext, State.doDecode, aNext, bNext, aluNext, oMux, modIn, modOut, pcNext, CauseLatch.step, exceptionOut, aluZero, gpSet, gpRamAdr_eq_zero, subUnit_low, hd.srcA, hd.srcB, hd.dst, hd.imm, hd.op, hd.enc, rom_68, u_df] using h

theorem q_e0 (hd : Dec k d)
    (h : ∀ d, Dec k d → Impl F false ⟨u_e1, 226#8, false, false, 31#32, b, (a + b), pc, mem, (mem (gpRamAdr k.srcA)),
      ⟨mie, mpie, meie, rb, k.enc⟩, d, c, da, wd⟩ T (n + 1)) :
    Impl F pv ⟨u_e0, 225#8, false, false, a, b, o, pc, mem, rd, ⟨mie, mpie, meie, rb, pa⟩, d, c, da, wd⟩ T n := by
  refine .quietq 1 rfl rfl (fun _ => rfl) fun i => ?_
  have h := h (d.step false i.datR) (hd.next _)
  simpa [-BitVec.getLsbD_eq_getElem, gpRamAdr_ne_csr, csrRamAdr_inj, State.step, State.romAdr, State.test, State.exception, State.pending, testOut, rawTest, seqAdr, State.ram, ramCtl, RamCtl.memNext, RamCtl.rdataNext, State.regRAdr, State.regWAdr, State.allowZeroWr, State.csrAdr, CsrState.step, CsrState.datR, csrView, rbNext, State.doDecode, aNext, bNext, aluNext, oMux, modIn, modOut, pcNext, CauseLatch.step, exceptionOut, aluZero, gpSet, gpRamAdr_eq_zero, subUnit_low, hd.srcA, hd.srcB, hd.dst, hd.imm, hd.op, hd.enc, rom_e1, u_e0] using h

theorem q_e1 (hd : Dec k d)
    (h : ∀ d, Dec k d → Impl F false ⟨u_e2, 227#8, false, false, rd, b, (a &&& b), pc, mem, (mem (gpRamAdr k.srcB)),
      ⟨mie, mpie, meie, rb, k.enc⟩, d, c, da, wd⟩ T (n + 1)) :
    Impl F pv ⟨u_e1, 226#8, false, false, a, b, o, pc, mem, rd, ⟨mie, mpie, meie, rb, pa⟩, d, c, da, wd⟩ T n := by
  refine .quietq 1 rfl rfl (fun _ => rfl) fun i => ?_
  have h := h (d.step false i.datR) (hd.next _)
  simpa [-BitVec.getLsbD_eq_getElem, gpRamAdr_ne_csr, csrRamAdr_inj, State.step, State.romAdr, State.test, State.exception, State.pending, testOut, rawTest, seqAdr, State.ram, ramCtl, RamCtl.memNext, RamCtl.rdataNext, State.regRAdr, State.regWAdr, State.allowZeroWr, State.csrAdr, CsrState.step, CsrState.datR, csrView, rbNext, State.doDecode, aNext, bNext, aluNext, oMux, modIn, modOut, pcNext, CauseLatch.step, exceptionOut, aluZero, gpSet, gpRamAdr_eq_zero, subUnit_low, hd.srcA, hd.srcB, hd.dst, hd.imm, hd.op, hd.enc, rom_e2, u_e1] using h

theorem q_e2_z (hd : Dec k d) (hc : o = 0#32)
    (h : ∀ d, Dec k d → Impl F false ⟨u_e3, 228#8, false, false, o, 1#32, (a.sshiftRight 1), pc, mem, rd,
      ⟨mie, mpie, meie, rb, k.enc⟩, d, c, da, wd⟩ T (n + 1)) :
    Impl F pv ⟨u_e2, 227#8, false, false, a, b, o, pc, mem, rd, ⟨mie, mpie, meie, rb, pa⟩, d, c, da, wd⟩ T n := by
  refine .quietq 1 rfl rfl (fun _ => rfl) fun i => ?_
  have h := h (d.step false i.datR) (hd.next _)
  simpa [-BitVec.getLsbD_eq_getElem, gpRamAdr_ne_csr, csrRamAdr_inj, State.step, State.romAdr, State.test, State.exception, State.pending, testOut, rawTest, seqAdr, State.ram, ramCtl, RamCtl.memNext, RamCtl.rdataNext, State.regRAdr, State.regWAdr, State.allowZeroWr, State.csrAdr, CsrState.step, CsrState.datR, csrView, rbNext, State.doDecode, aNext, bNext, aluNext, oMux, modIn, modOut, pcNext, CauseLatch.step, exceptionOut, aluZero, gpSet, gpRamAdr_eq_zero, subUnit_low, hd.srcA, hd.srcB, hd.dst, hd.imm, hd.op, hd.enc, rom_e3, u_e2, hc] using h

theorem q_e2_nz (hd : Dec k d) (hc : ¬ o = 0#32)
    (h : ∀ d, Dec k d → Impl F false ⟨u_66, 103#8, false, false, o, 1#32, (a.sshiftRight 1), pc, mem, rd,
      ⟨mie, mpie, meie, rb, k.enc⟩, d, c, da, wd⟩ T (n + 1)) :
    Impl F pv ⟨u_e2, 227#8, false, false, a, b, o, pc, mem, rd, ⟨mie, mpie, meie, rb, pa⟩, d, c, da, wd⟩ T n := by
  refine .quietq 1 rfl rfl (fun _ => rfl) fun i => ?_
  have h := h (d.step false i.datR) (hd.next _)
  simpa [-BitVec.getLsbD_eq_getElem, gpRamAdr_ne_csr, csrRamAdr_inj, State.step, State.romAdr, State.test, State.exception, State.pending, testOut, rawTest, seqAdr, State.ram, ramCtl, RamCtl.memNext, RamCtl.rdataNext, State.regRAdr, State.regWAdr, State.allowZeroWr, State.csrAdr, CsrState.step, CsrState.datR, csrView, rbNext, State.doDecode, aNext, bNext, aluNext, oMux, modIn, modOut, pcNext, CauseLatch.step, exceptionOut, aluZero, gpSet, gpRamAdr_eq_zero, subUnit_low, hd.srcA, hd.srcB, hd.dst, hd.imm, hd.op, hd.enc, rom_66, u_e2, hc] using h

theorem q_e3 (hd : Dec k d)
    (h : ∀ d, Dec k d → Impl F false ⟨u_68, 105#8, false, false, a, b, (a + b), pc, mem, (mem (gpRamAdr k.srcA)),
      ⟨mie, mpie, meie, rb, k.enc⟩, d, c, da, wd⟩ T (n + 1)) :
    Impl F pv ⟨u_e3, 228#8, false, false, a, b, o, pc, mem, rd, ⟨mie, mpie, meie, rb, pa⟩, d, c, da, wd⟩ T n := by
  refine .quietq 1 rfl rfl (fun _ => rfl) fun i => ?_
  have h := h (d.step false i.datR) (hd.next _)
  simpa [-BitVec.getLsbD_eq_getElem, gpRamAdr_ne_csr, csrRamAdr_inj, State.step, State.romAdr, State.test, State.exception, State.pending, testOut, rawTest, seqAdr, State.ram, ramCtl, RamCtl.memNext, RamCtl.rdataNext, State.regRAdr, State.regWAdr, State.allowZeroWr, State.csrAdr, CsrState.step, CsrState.datR, csrView, rbNext, State.doDecode, aNext, bNext, aluNext, oMux, modIn, modOut, pcNext, CauseLatch.step, exceptionOut, aluZero, gpSet, gpRamAdr_eq_zero, subUnit_low, hd.srcA, hd.srcB, hd.dst, hd.imm, hd.op, hd.enc, rom_68, u_e3] using h

theorem q_f0 (hd : Dec k d)
    (h : ∀ d, Dec k d → Impl F false ⟨u_f1, 242#8, false, false, 0#32, (pc ++ 0#2), (a + b), pc, mem, (mem (csrRamAdr 5#4)),
      ⟨false, mie, meie, (rbNext 5#4 mie mpie meie false rb), 5#4⟩, d, c, da, wd⟩ T (n + (.stk 1))) :
    Impl F pv ⟨u_f0, 241#8, false, false, a, b, o, pc, mem, rd, ⟨mie, mpie, meie, rb, pa⟩, d, c, da, wd⟩ T n := by
  refine .quietq (.stk 1) rfl rfl (fun _ => rfl) fun i => ?_
  have h := h (d.step false i.datR) (hd.next _)
  simpa [-BitVec.getLsbD_eq_getElem, gpRamAdr_ne_csr, csrRamAdr_inj, State.step, State.romAdr, State.test, State.exception, State.pending, testOut, rawTest, seqAdr, State.ram, ramCtl, RamCtl.memNext, RamCtl.rdataNext, State.regRAdr, State.regWAdr, State.allowZeroWr, State.csrAdr, CsrState.step, CsrState.datR, csrView, rbNext, State.doDecode, aNext, bNext, aluNext, oMux, modIn, modOut, pcNext, CauseLatch.step, exceptionOut, aluZero, gpSet, gpRamAdr_eq_zero, subUnit_low, hd.srcA, hd.srcB, hd.dst, hd.imm, hd.op, hd.enc, rom_f1, u_f0] using h

theorem q_f1 (hd : Dec k d)
    (h : ∀ d, Dec k d → Impl F false ⟨u_f2, 243#8, false, false, a, (csrView pa rb rd), (a + b), pc, mem, rd,
      ⟨mie, mpie, meie, rb, k.enc⟩, d, c, da, wd⟩ T (n + 1)) :
    Impl F pv ⟨u_f1, 242#8, false, false, a, b, o, pc, mem, rd, ⟨mie, mpie, meie, rb, pa⟩, d, c, da, wd⟩ T n := by
  refine .quietq 1 rfl rfl (fun _ => rfl) fun i => ?_
  have h := h (d.step false i.datR) (hd.next _)
  simpa [-BitVec.getLsbD_eq_getElem, gpRamAdr_ne_csr, csrRamAdr_inj, State.step, State.romAdr, State.test, State.exception, State.pending, testOut, rawTest, seqAdr, State.ram, ramCtl, RamCtl.memNext, RamCtl.rdataNext, State.regRAdr, State.regWAdr, State.allowZeroWr, State.csrAdr, CsrState.step, CsrState.datR, csrView, rbNext, State.doDecode, aNext, bNext, aluNext, oMux, modIn, modOut, pcNext, CauseLatch.step, exceptionOut, aluZero, gpSet, gpRamAdr_eq_zero, subUnit_low, hd.srcA, hd.srcB, hd.dst, hd.imm, hd.op, hd.enc, rom_f2, u_f1] using h

theorem q_f2 (hd : Dec k d)
    (h : ∀ d, Dec k d → Impl F false ⟨u_f3, 244#8, false, false, a, c.word, (a + b), pc, (memSet mem (csrRamAdr 9#4) (csrWriteData 9#4 o)), (mem (gpRamAdr k.srcA)),
      ⟨mie, mpie, meie, rb, 9#4⟩, d, c, da, wd⟩ T (n + 1)) :
    Impl F pv ⟨u_f2, 243#8, false, false, a, b, o, pc, mem, rd, ⟨mie, mpie, meie, rb, pa⟩, d, c, da, wd⟩ T n := by
  refine .quietq 1 rfl rfl (fun _ => rfl) fun i => ?_
  have h := h (d.step false i.datR) (hd.next _)
  simpa [-BitVec.getLsbD_eq_getElem, gpRamAdr_ne_csr, csrRamAdr_inj, State.step, State.romAdr, State.test, State.exception, State.pending, testOut, rawTest, seqAdr, State.ram, ramCtl, RamCtl.memNext, RamCtl.rdataNext, State.regRAdr, State.regWAdr, State.allowZeroWr, State.csrAdr, CsrState.step, CsrState.datR, csrView, rbNext, State.doDecode, aNext, bNext, aluNext, oMux, modIn, modOut, pcNext, CauseLatch.step, exceptionOut, aluZero, gpSet, gpRamAdr_eq_zero, subUnit_low, hd.srcA, hd.srcB, hd.dst, hd.imm, hd.op, hd.enc, rom_f3, u_f2] using h

theorem q_f3 (hd : Dec k d)
    (h : ∀ d, Dec k d → Impl F false ⟨u_f4, 245#8, false, false, a, b, (a + b), (o.extractLsb' 2 30), mem, rd,
      ⟨mie, mpie, meie, rb, k.enc⟩, d, c, da, wd⟩ T (n + 1)) :
    Impl F pv ⟨u_f3, 244#8, false, false, a, b, o, pc, mem, rd, ⟨mie, mpie, meie, rb, pa⟩, d, c, da, wd⟩ T n := by
  refine .quietq 1 rfl rfl (fun _ => rfl) fun i => ?_
  have h := h (d.step false i.datR) (hd.next _)
  simpa [-BitVec.getLsbD_eq_getElem, gpRamAdr_ne_csr, csrRamAdr_inj, State.step, State.romAdr, State.test, State.exception, State.pending, testOut, rawTest, seqAdr, State.ram, ramCtl, RamCtl.memNext, RamCtl.rdataNext, State.regRAdr, State.regWAdr, State.allowZeroWr, State.csrAdr, CsrState.step, CsrState.datR, csrView, rbNext, State.doDecode, aNext, bNext, aluNext, oMux, modIn, modOut, pcNext, CauseLatch.step, exceptionOut, aluZero, gpSet, gpRamAdr_eq_zero, subUnit_low, hd.srcA, hd.srcB, hd.dst, hd.imm, hd.op, hd.enc, rom_f4, u_f3] using h

theorem f_f4 {r : Req} {K : BitVec 32 → Tree α} (hd : Dec k d)
    (hr : r = ⟨pc, 0xF, false, 0⟩)
    (h : ∀ d rd, Dec k d → Impl F true ⟨u_00, 1#8, false, false, a, b, (a + b), pc, (memSet mem (csrRamAdr 10#4) (csrWriteData 10#4 o)), rd,
      ⟨mie, mpie, meie, rb, 10#4⟩, d, c, da, wd⟩ (.bus r K) (n + 0)) :
    Impl F false ⟨u_f4, 245#8, false, false, a, b, o, pc, mem, rd, ⟨mie, mpie, meie, rb, pa⟩, d, c, da, wd⟩ (.bus r K) n := by
  refine .firstq 0 rfl rfl hr.symm (fun _ => rfl) fun i hi => ?_
  have h := h (d.step false i.datR) (mem (gpRamAdr (insnRs1 i.datR))) (hd.next _)
  simpa [-BitVec.getLsbD_eq_getElem, gpRamAdr_ne_csr, csrRamAdr_inj, State.step, State.romAdr, State.test, State.exception, State.pending, testOut, rawTest, seqAdr, State.ram, ramCtl, RamCtl.memNext, RamCtl.rdataNext, State.regRAdr, State.regWAdr, State.allowZeroWr, State.csrAdr, CsrState.step, CsrState.datR, csrView, rbNext, State.doDecode, aNext, bNext, aluNext, oMux, modIn, modOut, pcNext, CauseLatch.step, exceptionOut, aluZero, gpSet, gpRamAdr_eq_zero, subUnit_low, hd.srcA, hd.srcB, hd.dst, hd.imm, hd.op, hd.enc, rom_00, u_f4, hi] using h

theorem q_f8 (hd : Dec k d)
    (h : ∀ d, Dec k d → Impl F false ⟨u_f9, 250#8, false, false, 0#32, b, (a + b), pc, mem, (mem (csrRamAdr 9#4)),
      ⟨mie, mpie, meie, (rbNext 9#4 mie mpie meie false rb), 9#4⟩, d, c, da, wd⟩ T (n + 1)) :
    Impl F pv ⟨u_f8, 249#8, false, false, a, b, o, pc, mem, rd, ⟨mie, mpie, meie, rb, pa⟩, d, c, da, wd⟩ T n := by
  refine .quietq 1 rfl rfl (fun _ => rfl) fun i => ?_
  have h := h (d.step false i.datR) (hd.next _)
  simpa [-BitVec.getLsbD_eq_getElem, gpRamAdr_ne_csr, csrRamAdr_inj, State.step, State.romAdr, State.test, State.exception, State.pending, testOut, rawTest, seqAdr, State.ram, ramCtl, RamCtl.memNext, RamCtl.rdataNext, State.regRAdr, State.regWAdr, State.allowZeroWr, State.csrAdr, CsrState.step, CsrState.datR, csrView, rbNext, State.doDecode, aNext, bNext, aluNext, oMux, modIn, modOut, pcNext, CauseLatch.step, exceptionOut, aluZero, gpSet, gpRamAdr_eq_zero, subUnit_low, hd.srcA, hd.srcB, hd.dst, hd.imm, hd.op, hd.enc, rom_f9, u_f8] using h

theorem q_f9 (hd : Dec k d)
    (h : ∀ d, Dec k d → Impl F false ⟨u_fa, 251#8, false, false, a, (csrView pa rb rd), (a + b), pc, mem, rd,
      ⟨mie, mpie, meie, rb, k.enc⟩, d, c, da, wd⟩ T (n + 1)) :
    Impl F pv ⟨u_f9, 250#8, false, false, a, b, o, pc, mem, rd, ⟨mie, mpie, meie, rb, pa⟩, d, c, da, wd⟩ T n := by
  refine .quietq 1 rfl rfl (fun _ => rfl) fun i => ?_
  have h := h (d.step false i.datR) (hd.next _)
  simpa [-BitVec.getLsbD_eq_getElem, gpRamAdr_ne_csr, csrRamAdr_inj, State.step, State.romAdr, State.test, State.exception, State.pending, testOut, rawTest, seqAdr, State.ram, ramCtl, RamCtl.memNext, RamCtl.rdataNext, State.regRAdr, State.regWAdr, State.allowZeroWr, State.csrAdr, CsrState.step, CsrState.datR, csrView, rbNext, State.doDecode, aNext, bNext, aluNext, oMux, modIn, modOut, pcNext, CauseLatch.step, exceptionOut, aluZero, gpSet, gpRamAdr_eq_zero, subUnit_low, hd.srcA, hd.srcB, hd.dst, hd.imm, hd.op, hd.enc, rom_fa, u_f9] using h

theorem q_fa (hd : Dec k d)
    (h : ∀ d, Dec k d → Impl F false ⟨u_fb, 252#8, false, false, a, b, (a + b), pc, mem, rd,
      ⟨mie, mpie, meie, rb, k.enc⟩, d, c, da, wd⟩ T (n + 1)) :
    Impl F pv ⟨u_fa, 251#8, false, false, a, b, o, pc, mem, rd, ⟨mie, mpie, meie, rb, pa⟩, d, c, da, wd⟩ T n := by
  refine .quietq 1 rfl rfl (fun _ => rfl) fun i => ?_
  have h := h (d.step false i.datR) (hd.next _)
  simpa [-BitVec.getLsbD_eq_getElem, gpRamAdr_ne_csr, csrRamAdr_inj, State.step, State.romAdr, State.test, State.exception, State.pending, testOut, rawTest, seqAdr, State.ram, ramCtl, RamCtl.memNext, RamCtl.rdataNext, State.regRAdr, State.regWAdr, State.allowZeroWr, State.csrAdr, CsrState.step, CsrState.datR, csrView, rbNext, State.doDecode, aNext, bNext, aluNext, oMux, modIn, modOut, pcNext, CauseLatch.step, exceptionOut, aluZero, gpSet, gpRamAdr_eq_zero, subUnit_low, hd.srcA, hd.srcB, hd.dst, hd.imm, hd.op, hd.enc, rom_fb, u_fa] using h

theorem q_fb (hd : Dec k d)
    (h : ∀ d, Dec k d → Impl F false ⟨u_fc, 253#8, false, false, a, b, (a + b), (o.extractLsb' 2 30), mem, rd,
      ⟨mie, mpie, meie, rb, k.enc⟩, d, c, da, wd⟩ T (n + 1)) :
    Impl F pv ⟨u_fb, 252#8, false, false, a, b, o, pc, mem, rd, ⟨mie, mpie, meie, rb, pa⟩, d, c, da, wd⟩ T n := by
  refine .quietq 1 rfl rfl (fun _ => rfl) fun i => ?_
  have h := h (d.step false i.datR) (hd.next _)
  simpa [-BitVec.getLsbD_eq_getElem, gpRamAdr_ne_csr, csrRamAdr_inj, State.step, State.romAdr, State.test, State.exception, State.pending, testOut, rawTest, seqAdr, State.ram, ramCtl, RamCtl.memNext, RamCtl.rdataNext, State.regRAdr, State.regWAdr, State.allowZeroWr, State.csrAdr, CsrState.step, CsrState.datR, csrView, rbNext, State.doDecode, aNext, bNext, aluNext, oMux, modIn, modOut, pcNext, CauseLatch.step, exceptionOut, aluZero, gpSet, gpRamAdr_eq_zero, subUnit_low, hd.srcA, hd.srcB, hd.dst, hd.imm, hd.op, hd.enc, rom_fc, u_fb] using h

theorem f_fc {r : Req} {K : BitVec 32 → Tree α} (hd : Dec k d)
    (hr : r = ⟨pc, 0xF, false, 0⟩)
    (h : ∀ d, Dec k d → Impl F true ⟨u_00, 1#8, false, false, a, b, (a + b), pc, mem, rd,
      ⟨mpie, true, meie, rb, k.enc⟩, d, c, da, wd⟩ (.bus r K) (n + (.stk 0))) :
    Impl F false ⟨u_fc, 253#8, false, false, a, b, o, pc, mem, rd, ⟨mie, mpie, meie, rb, pa⟩, d, c, da, wd⟩ (.bus r K) n := by
  refine .firstq (.stk 0) rfl rfl hr.symm (fun _ => rfl) fun i hi => ?_
  have h := h (d.step false i.datR) (hd.next _)
  simpa [-BitVec.getLsbD_eq_getElem, gpRamAdr_ne_csr, csrRamAdr_inj, State.step, State.romAdr, State.test, State.exception, State.pending, testOut, rawTest, seqAdr, State.ram, ramCtl, RamCtl.memNext, RamCtl.rdataNext, State.regRAdr, State.regWAdr, State.allowZeroWr, State.csrAdr, CsrState.step, CsrState.datR, csrView, rbNext, State.doDecode, aNext, bNext, aluNext, oMux, modIn, modOut, pcNext, CauseLatch.step, exceptionOut, aluZero, gpSet, gpRamAdr_eq_zero, subUnit_low, hd.srcA, hd.srcB, hd.dst, hd.imm, hd.op, hd.enc, rom_00, u_fc, hi] using h

theorem w_10 {r : Req} {K : BitVec 32 → Tree α} (hd : Dec k d)
    (hr : r = ⟨da.extractLsb' 2 30, wbSel true false .byte da, false, 0⟩)
    (h : ∀ x o d, Dec k d → Impl F true ⟨u_11, 18#8, false, false, 0#32, (readDataAlign .byte .sign da x), o, pc, mem, rd,
      ⟨mie, mpie, meie, rb, k.enc⟩, d, c, da, wd⟩ (K x) n) :
    Impl F pv ⟨u_10, 17#8, false, false, a, b, o, pc, mem, rd, ⟨mie, mpie, meie, rb, pa⟩, d, c, da, wd⟩ (.bus r K) n := by
  refine .wait (fun s => ∃ a b o pa d, Dec k d ∧ s = ⟨u_10, 17#8, false, false, a, b, o, pc, mem, rd,
    ⟨mie, mpie, meie, rb, pa⟩, d, c, da, wd⟩) ⟨_, _, _, _, _, hd, rfl⟩ ?_ ?_ ?_ ?_
  · rintro _ ⟨a, b, o, pa, d, hd, rfl⟩; exact ⟨rfl, rfl, hr.symm⟩
  · rintro _ i ⟨a, b, o, pa, d, hd, rfl⟩; rfl
  · rintro _ i ⟨a, b, o, pa, d, hd, rfl⟩ hi
    refine ⟨0#32, readDataAlign .byte .sign da i.datR, a + b, k.enc, d.step false i.datR, hd.next _, ?_⟩
    simp [-BitVec.getLsbD_eq_getElem, gpRamAdr_ne_csr, csrRamAdr_inj, State.step, State.romAdr, State.test, State.exception, State.pending, testOut, rawTest, seqAdr, State.ram, ramCtl, RamCtl.memNext, RamCtl.rdataNext, State.regRAdr, State.regWAdr, State.allowZeroWr, State.csrAdr, CsrState.step, CsrState.datR, csrView, rbNext, State.doDecode, aNext, bNext, aluNext, oMux, modIn, modOut, pcNext, CauseLatch.step, exceptionOut, aluZero, gpSet, gpRamAdr_eq_zero, subUnit_low, hd.srcA, hd.srcB, hd.dst, hd.imm, hd.op, hd.enc, rom_10, u_10, hi]
  · rintro _ i ⟨a, b, o, pa, d, hd, rfl⟩ hi
    have h := h i.datR (a + b) (d.step false i.datR) (hd.next _)
    simpa [-BitVec.getLsbD_eq_getElem, gpRamAdr_ne_csr, csrRamAdr_inj, State.step, State.romAdr, State.test, State.exception, State.pending, testOut, rawTest, seqAdr, State.ram, ramCtl, RamCtl.memNext, RamCtl.rdataNext, State.regRAdr, State.regWAdr, State.allowZeroWr, State.csrAdr, CsrState.step, CsrState.datR, csrView, rbNext, State.doDecode, aNext, bNext, aluNext, oMux, modIn, modOut, pcNext, CauseLatch.step, exceptionOut, aluZero, gpSet, gpRamAdr_eq_zero, subUnit_low, hd.srcA, hd.srcB, hd.dst, hd.imm, hd.op, hd.enc, rom_11, u_10, hi] using h

theorem w_14 {r : Req} {K : BitVec 32 → Tree α} (hd : Dec k d)
    (hr : r = ⟨da.extractLsb' 2 30, wbSel true false .hword da, false, 0⟩)
    (h : ∀ x o d, Dec k d → Impl F true ⟨u_15, 22#8, false, false, 0#32, (readDataAlign .hword .sign da x), o, pc, mem, rd,
      ⟨mie, mpie, meie, rb, k.enc⟩, d, c, da, wd⟩ (K x) n) :
    Impl F pv ⟨u_14, 21#8, false, false, a, b, o, pc, mem, rd, ⟨mie, mpie, meie, rb, pa⟩, d, c, da, wd⟩ (.bus r K) n := by
  refine .wait (fun s => ∃ a b o pa d, Dec k d ∧ s = ⟨u_14, 21#8, false, false, a, b, o, pc, mem, rd,
    ⟨mie, mpie, meie, rb, pa⟩, d, c, da, wd⟩) ⟨_, _, _, _, _, hd, rfl⟩ ?_ ?_ ?_ ?_
  · rintro _ ⟨a, b, o, pa, d, hd, rfl⟩; exact ⟨rfl, rfl, hr.symm⟩
  · rintro _ i ⟨a, b, o, pa, d, hd, rfl⟩; rfl
  · rintro _ i ⟨a, b, o, pa, d, hd, rfl⟩ hi
    refine ⟨0#32, readDataAlign .hword .sign da i.datR, a + b, k.enc, d.step false i.datR, hd.next _, ?_⟩
    simp [-BitVec.getLsbD_eq_getElem, gpRamAdr_ne_csr, csrRamAdr_inj, State.step, State.romAdr, State.test, State.exception, State.pending, testOut, rawTest, seqAdr, State.ram, ramCtl, RamCtl.memNext, RamCtl.rdataNext, State.regRAdr, State.regWAdr, State.allowZeroWr, State.csrAdr, CsrState.step, CsrState.datR, csrView, rbNext, State.doDecode, aNext, bNext, aluNext, oMux, modIn, modOut, pcNext, CauseLatch.step, exceptionOut, aluZero, gpSet, gpRamAdr_eq_zero, subUnit_low, hd.srcA, hd.srcB, hd.dst, hd.imm, hd.op, hd.enc, rom_14, u_14, hi]
  · rintro _ i ⟨a, b, o, pa, d, hd, rfl⟩ hi
    have h := h i.datR (a + b) (d.step false i.datR) (hd.next _)
    simpa [-BitVec.getLsbD_eq_getElem, gpRamAdr_ne_csr, csrRamAdr_inj, State.step, State.romAdr, State.test, State.exception, State.pending, testOut, rawTest, seqAdr, State.ram, ramCtl, RamCtl.memNext, RamCtl.rdataNext, State.regRAdr, State.regWAdr, State.allowZeroWr, State.csrAdr, CsrState.step, CsrState.datR, csrView, rbNext, State.doDecode, aNext, bNext, aluNext, oMux, modIn, modOut, pcNext, CauseLatch.step, exceptionOut, aluZero, gpSet, gpRamAdr_eq_zero, subUnit_low, hd.srcA, hd.srcB, hd.dst, hd.imm, hd.op, hd.enc, rom_15, u_14, hi] using h

theorem w_18 {r : Req} {K : BitVec 32 → Tree α} (hd : Dec k d)
    (hr : r = ⟨da.extractLsb' 2 30, wbSel true false .word da, false, 0⟩)
    (h : ∀ x o d, Dec k d → Impl F true ⟨u_19, 26#8, false, false, 0#32, (readDataAlign .word .zero da x), o, pc, mem, rd,
      ⟨mie, mpie, meie, rb, k.enc⟩, d, c, da, wd⟩ (K x) n) :
    Impl F pv ⟨u_18, 25#8, false, false, a, b, o, pc, mem, rd, ⟨mie, mpie, meie, rb, pa⟩, d, c, da, wd⟩ (.bus r K) n := by
  refine .wait (fun s => ∃ a b o pa d, Dec k d ∧ s = ⟨u_18, 25#8, false, false, a, b, o, pc, mem, rd,
    ⟨mie, mpie, meie, rb, pa⟩, d, c, da, wd⟩) ⟨_, _, _, _, _, hd, rfl⟩ ?_ ?_ ?_ ?_
  · rintro _ ⟨a, b, o, pa, d, hd, rfl⟩; exact ⟨rfl, rfl, hr.symm⟩
  · rintro _ i ⟨a, b, o, pa, d, hd, rfl⟩; rfl
  · rintro _ i ⟨a, b, o, pa, d, hd, rfl⟩ hi
    refine ⟨0#32, readDataAlign .word .zero da i.datR, a + b, k.enc, d.step false i.datR, hd.next _, ?_⟩
    simp [-BitVec.getLsbD_eq_getElem, gpRamAdr_ne_csr, csrRamAdr_inj, State.step, State.romAdr, State.test, State.exception, State.pending, testOut, rawTest, seqAdr, State.ram, ramCtl, RamCtl.memNext, RamCtl.rdataNext, State.regRAdr, State.regWAdr, State.allowZeroWr, State.csrAdr, CsrState.step, CsrState.datR, csrView, rbNext, State.doDecode, aNext, bNext, aluNext, oMux, modIn, modOut, pcNext, CauseLatch.step, exceptionOut, aluZero, gpSet, gpRamAdr_eq_zero, subUnit_low, hd.srcA, hd.srcB, hd.dst, hd.imm, hd.op, hd.enc, rom_18, u_18, hi]
  · rintro _ i ⟨a, b, o, pa, d, hd, rfl⟩ hi
    have h := h i.datR (a + b) (d.step false i.datR) (hd.next _)
    simpa [-BitVec.getLsbD_eq_getElem, gpRamAdr_ne_csr, csrRamAdr_inj, State.step, State.romAdr, State.test, State.exception, State.pending, testOut, rawTest, seqAdr, State.ram, ramCtl, RamCtl.memNext, RamCtl.rdataNext, State.regRAdr, State.regWAdr, State.allowZeroWr, State.csrAdr, CsrState.step, CsrState.datR, csrView, rbNext, State.doDecode, aNext, bNext, aluNext, oMux, modIn, modOut, pcNext, CauseLatch.step, exceptionOut, aluZero, gpSet, gpRamAdr_eq_zero, subUnit_low, hd.srcA, hd.srcB, hd.dst, hd.imm, hd.op, hd.enc, rom_19, u_18, hi] using h

theorem w_1c {r : Req} {K : BitVec 32 → Tree α} (hd : Dec k d)
    (hr : r = ⟨da.extractLsb' 2 30, wbSel true false .byte da, false, 0⟩)
    (h : ∀ x o d, Dec k d → Impl F true ⟨u_1d, 30#8, false, false, 0#32, (readDataAlign .byte .zero da x), o, pc, mem, rd,
      ⟨mie, mpie, meie, rb, k.enc⟩, d, c, da, wd⟩ (K x) n) :
    Impl F pv ⟨u_1c, 29#8, false, false, a, b, o, pc, mem, rd, ⟨mie, mpie, meie, rb, pa⟩, d, c, da, wd⟩ (.bus r K) n := by
  refine .wait (fun s => ∃ a b o pa d, Dec k d ∧ s = ⟨u_1c, 29#8, false, false, a, b, o, pc, mem, rd,
    ⟨mie, mpie, meie, rb, pa⟩, d, c, da, wd⟩) ⟨_, _, _, _, _, hd, rfl⟩ ?_ ?_ ?_ ?_
  · rintro _ ⟨a, b, o, pa, d, hd, rfl⟩; exact ⟨rfl, rfl, hr.symm⟩
  · rintro _ i ⟨a, b, o, pa, d, hd, rfl⟩; rfl
  · rintro _ i ⟨a, b, o, pa, d, hd, rfl⟩ hi
    refine ⟨0#32, readDataAlign .byte .zero da i.datR, a + b, k.enc, d.step false i.datR, hd.next _, ?_⟩
    simp [-BitVec.getLsbD_eq_getElem, gpRamAdr_ne_csr, csrRamAdr_inj, State.step, State.romAdr, State.test, State.exception, State.pending, testOut, rawTest, seqAdr, State.ram, ramCtl, RamCtl.memNext, RamCtl.rdataNext, State.regRAdr, State.regWAdr, State.allowZeroWr, State.csrAdr, CsrState.step, CsrState.datR, csrView, rbNext, State.doDecode, aNext, bNext, aluNext, oMux, modIn, modOut, pcNext, CauseLatch.step, exceptionOut, aluZero, gpSet, gpRamAdr_eq_zero, subUnit_low, hd.srcA, hd.srcB, hd.dst, hd.imm, hd.op, hd.enc, rom_1c, u_1c, hi]
  · rintro _ i ⟨a, b, o, pa, d, hd, rfl⟩ hi
    have h := h i.datR (a + b) (d.step false i.datR) (hd.next _)
    simpa [-BitVec.getLsbD_eq_getElem, gpRamAdr_ne_csr, csrRamAdr_inj, State.step, State.romAdr, State.test, State.exception, State.pending, testOut, rawTest, seqAdr, State.ram, ramCtl, RamCtl.memNext, RamCtl.rdataNext, State.regRAdr, State.regWAdr, State.allowZeroWr, State.csrAdr, CsrState.step, CsrState.datR, csrView, rbNext, State.doDecode, aNext, bNext, aluNext, oMux, modIn, modOut, pcNext, CauseLatch.step, exceptionOut, aluZero, gpSet, gpRamAdr_eq_zero, subUnit_low, hd.srcA, hd.srcB, hd.dst, hd.imm, hd.op, hd.enc, rom_1d, u_1c, hi] using h

theorem w_20 {r : Req} {K : BitVec 32 → Tree α} (hd : Dec k d)
    (hr : r = ⟨da.extractLsb' 2 30, wbSel true false .hword da, false, 0⟩)
    (h : ∀ x o d, Dec k d → Impl F true ⟨u_21, 34#8, false, false, 0#32, (readDataAlign .hword .zero da x), o, pc, mem, rd,
      ⟨mie, mpie, meie, rb, k.enc⟩, d, c, da, wd⟩ (K x) n) :
    Impl F pv ⟨u_20, 33#8, false, false, a, b, o, pc, mem, rd, ⟨mie, mpie, meie, rb, pa⟩, d, c, da, wd⟩ (.bus r K) n := by
  refine .wait (fun s => ∃ a b o pa d, Dec k d ∧ s = ⟨u_20, 33#8, false, false, a, b, o, pc, mem, rd,
    ⟨mie, mpie, meie, rb, pa⟩, d, c, da, wd⟩) ⟨_, _, _, _, _, hd, rfl⟩ ?_ ?_ ?_ ?_
  · rintro _ ⟨a, b, o, pa, d, hd, rfl⟩; exact ⟨rfl, rfl, hr.symm⟩
  · rintro _ i ⟨a, b, o, pa, d, hd, rfl⟩; rfl
  · rintro _ i ⟨a, b, o, pa, d, hd, rfl⟩ hi
    refine ⟨0#32, readDataAlign .hword .zero da i.datR, a + b, k.enc, d.step false i.datR, hd.next _, ?_⟩
    simp [-BitVec.getLsbD_eq_getElem, gpRamAdr_ne_csr, csrRamAdr_inj, State.step, State.romAdr, State.test, State.exception, State.pending, testOut, rawTest, seqAdr, State.ram, ramCtl, RamCtl.memNext, RamCtl.rdataNext, State.regRAdr, State.regWAdr, State.allowZeroWr, State.csrAdr, CsrState.step, CsrState.datR, csrView, rbNext, State.doDecode, aNext, bNext, aluNext, oMux, modIn, modOut, pcNext, CauseLatch.step, exceptionOut, aluZero, gpSet, gpRamAdr_eq_zero, subUnit_low, hd.srcA, hd.srcB, hd.dst, hd.imm, hd.op, hd.enc, rom_20, u_20, hi]
  · rintro _ i ⟨a, b, o, pa, d, hd, rfl⟩ hi
    have h := h i.datR (a + b) (d.step false i.datR) (hd.next _)
    simpa [-BitVec.getLsbD_eq_getElem, gpRamAdr_ne_csr, csrRamAdr_inj, State.step, State.romAdr, State.test, State.exception, State.pending, testOut, rawTest, seqAdr, State.ram, ramCtl, RamCtl.memNext, RamCtl.rdataNext, State.regRAdr, State.regWAdr, State.allowZeroWr, State.csrAdr, CsrState.step, CsrState.datR, csrView, rbNext, State.doDecode, aNext, bNext, aluNext, oMux, modIn, modOut, pcNext, CauseLatch.step, exceptionOut, aluZero, gpSet, gpRamAdr_eq_zero, subUnit_low, hd.srcA, hd.srcB, hd.dst, hd.imm, hd.op, hd.enc, rom_21, u_20, hi] using h

theorem w_a0 {r : Req} {K : BitVec 32 → Tree α} (hd : Dec k d)
    (hr : r = ⟨da.extractLsb' 2 30, wbSel true false .byte da, true, wd &&& laneMask (wbSel true false .byte da)⟩)
    (h : ∀ x o d, Dec k d → Impl F true ⟨u_a1, 162#8, false, false, a, b, o, pc, mem, rd,
      ⟨mie, mpie, meie, rb, k.enc⟩, d, c, da, wd⟩ (K x) n) :
    Impl F pv ⟨u_a0, 161#8, false, false, a, b, o, pc, mem, rd, ⟨mie, mpie, meie, rb, pa⟩, d, c, da, wd⟩ (.bus r K) n := by
  refine .wait (fun s => ∃ o pa d, Dec k d ∧ s = ⟨u_a0, 161#8, false, false, a, b, o, pc, mem, rd,
    ⟨mie, mpie, meie, rb, pa⟩, d, c, da, wd⟩) ⟨_, _, _, hd, rfl⟩ ?_ ?_ ?_ ?_
  · rintro _ ⟨o, pa, d, hd, rfl⟩; exact ⟨rfl, rfl, hr.symm⟩
  · rintro _ i ⟨o, pa, d, hd, rfl⟩; rfl
  · rintro _ i ⟨o, pa, d, hd, rfl⟩ hi
    refine ⟨a + b, k.enc, d.step false i.datR, hd.next _, ?_⟩
    simp [-BitVec.getLsbD_eq_getElem, gpRamAdr_ne_csr, csrRamAdr_inj, State.step, State.romAdr, State.test, State.exception, State.pending, testOut, rawTest, seqAdr, State.ram, ramCtl, RamCtl.memNext, RamCtl.rdataNext, State.regRAdr, State.regWAdr, State.allowZeroWr, State.csrAdr, CsrState.step, CsrState.datR, csrView, rbNext, State.doDecode, aNext, bNext, aluNext, oMux, modIn, modOut, pcNext, CauseLatch.step, exceptionOut, aluZero, gpSet, gpRamAdr_eq_zero, subUnit_low, hd.srcA, hd.srcB, hd.dst, hd.imm, hd.op, hd.enc, rom_a0, u_a0, hi]
  · rintro _ i ⟨o, pa, d, hd, rfl⟩ hi
    have h := h i.datR (a + b) (d.step false i.datR) (hd.next _)
    simpa [-BitVec.getLsbD_eq_getElem, gpRamAdr_ne_csr, csrRamAdr_inj, State.step, State.romAdr, State.test, State.exception, State.pending, testOut, rawTest, seqAdr, State.ram, ramCtl, RamCtl.memNext, RamCtl.rdataNext, State.regRAdr, State.regWAdr, State.allowZeroWr, State.csrAdr, CsrState.step, CsrState.datR, csrView, rbNext, State.doDecode, aNext, bNext, aluNext, oMux, modIn, modOut, pcNext, CauseLatch.step, exceptionOut, aluZero, gpSet, gpRamAdr_eq_zero, subUnit_low, hd.srcA, hd.srcB, hd.dst, hd.imm, hd.op, hd.enc, rom_a1, u_a0, hi] using h

theorem w_a5 {r : Req} {K : BitVec 32 → Tree α} (hd : Dec k d)
    (hr : r = ⟨da.extractLsb' 2 30, wbSel true false .hword da, true, wd &&& laneMask (wbSel true false .hword da)⟩)
    (h : ∀ x o d, Dec k d → Impl F true ⟨u_a6, 167#8, false, false, a, b, o, pc, mem, rd,
      ⟨mie, mpie, meie, rb, k.enc⟩, d, c, da, wd⟩ (K x) n) :
    Impl F pv ⟨u_a5, 166#8, false, false, a, b, o, pc, mem, rd, ⟨mie, mpie, meie, rb, pa⟩, d, c, da, wd⟩ (.bus r K) n := by
  refine .wait (fun s => ∃ o pa d, Dec k d ∧ s = ⟨u_a5, 166#8, false, false, a, b, o, pc, mem, rd,
    ⟨mie, mpie, meie, rb, pa⟩, d, c, da, wd⟩) ⟨_, _, _, hd, rfl⟩ ?_ ?_ ?_ ?_
  · rintro _ ⟨o, pa, d, hd, rfl⟩; exact ⟨rfl, rfl, hr.symm⟩
  · rintro _ i ⟨o, pa, d, hd, rfl⟩; rfl
  · rintro _ i ⟨o, pa, d, hd, rfl⟩ hi
    refine ⟨a + b, k.enc, d.step false i.datR, hd.next _, ?_⟩
    simp [-BitVec.getLsbD_eq_getElem, gpRamAdr_ne_csr, csrRamAdr_inj, State.step, State.romAdr, State.test, State.exception, State.pending, testOut, rawTest, seqAdr, State.ram, ramCtl, RamCtl.memNext, RamCtl.rdataNext, State.regRAdr, State.regWAdr, State.allowZeroWr, State.csrAdr, CsrState.step, CsrState.datR, csrView, rbNext, State.doDecode, aNext, bNext, aluNext, oMux, modIn, modOut, pcNext, CauseLatch.step, exceptionOut, aluZero, gpSet, gpRamAdr_eq_zero, subUnit_low, hd.srcA, hd.srcB, hd.dst, hd.imm, hd.op, hd.enc, rom_a5, u_a5, hi]
  · rintro _ i ⟨o, pa, d, hd, rfl⟩ hi
    have h := h i.datR (a + b) (d.step false i.datR) (hd.next _)
    simpa [-BitVec.getLsbD_eq_getElem, gpRamAdr_ne_csr, csrRamAdr_inj, State.step, State.romAdr, State.test, State.exception, State.pending, testOut, rawTest, seqAdr, State.ram, ramCtl, RamCtl.memNext, RamCtl.rdataNext, State.regRAdr, State.regWAdr, State.allowZeroWr, State.csrAdr, CsrState.step, CsrState.datR, csrView, rbNext, State.doDecode, aNext, bNext, aluNext, oMux, modIn, modOut, pcNext, CauseLatch.step, exceptionOut, aluZero, gpSet, gpRamAdr_eq_zero, subUnit_low, hd.srcA, hd.srcB, hd.dst, hd.imm, hd.op, hd.enc, rom_a6, u_a5, hi] using h

theorem w_aa {r : Req} {K : BitVec 32 → Tree α} (hd : Dec k d)
    (hr : r = ⟨da.extractLsb' 2 30, wbSel true false .word da, true, wd &&& laneMask (wbSel true false .word da)⟩)
    (h : ∀ x o d, Dec k d → Impl F true ⟨u_ab, 172#8, false, false, a, b, o, pc, mem, rd,
      ⟨mie, mpie, meie, rb, k.enc⟩, d, c, da, wd⟩ (K x) n) :
    Impl F pv ⟨u_aa, 171#8, false, false, a, b, o, pc, mem, rd, ⟨mie, mpie, meie, rb, pa⟩, d, c, da, wd⟩ (.bus r K) n := by
  refine .wait (fun s => ∃ o pa d, Dec k d ∧ s = ⟨u_aa, 171#8, false, false, a, b, o, pc, mem, rd,
    ⟨mie, mpie, meie, rb, pa⟩, d, c, da, wd⟩) ⟨_, _, _, hd, rfl⟩ ?_ ?_ ?_ ?_
  · rintro _ ⟨o, pa, d, hd, rfl⟩; exact ⟨rfl, rfl, hr.symm⟩
  · rintro _ i ⟨o, pa, d, hd, rfl⟩; rfl
  · rintro _ i ⟨o, pa, d, hd, rfl⟩ hi
    refine ⟨a + b, k.enc, d.step false i.datR, hd.next _, ?_⟩
    simp [-BitVec.getLsbD_eq_getElem, gpRamAdr_ne_csr, csrRamAdr_inj, State.step, State.romAdr, State.test, State.exception, State.pending, testOut, rawTest, seqAdr, State.ram, ramCtl, RamCtl.memNext, RamCtl.rdataNext, State.regRAdr, State.regWAdr, State.allowZeroWr, State.csrAdr, CsrState.step, CsrState.datR, csrView, rbNext, State.doDecode, aNext, bNext, aluNext, oMux, modIn, modOut, pcNext, CauseLatch.step, exceptionOut, aluZero, gpSet, gpRamAdr_eq_zero, subUnit_low, hd.srcA, hd.srcB, hd.dst, hd.imm, hd.op, hd.enc, rom_aa, u_aa, hi]
  · rintro _ i ⟨o, pa, d, hd, rfl⟩ hi
    have h := h i.datR (a + b) (d.step false i.datR) (hd.next _)
    simpa [-BitVec.getLsbD_eq_getElem, gpRamAdr_ne_csr, csrRamAdr_inj, State.step, State.romAdr, State.test, State.exception, State.pending, testOut, rawTest, seqAdr, State.ram, ramCtl, RamCtl.memNext, RamCtl.rdataNext, State.regRAdr, State.regWAdr, State.allowZeroWr, State.csrAdr, CsrState.step, CsrState.datR, csrView, rbNext, State.doDecode, aNext, bNext, aluNext, oMux, modIn, modOut, pcNext, CauseLatch.step, exceptionOut, aluZero, gpSet, gpRamAdr_eq_zero, subUnit_low, hd.srcA, hd.srcB, hd.dst, hd.imm, hd.op, hd.enc, rom_ab, u_aa, hi] using h

end Sentinel
