import Verif.Proof.InvStep
import Verif.Proof.Main
/-!
# The first cycles after reset
-/

set_option linter.unusedSimpArgs false

namespace Sentinel
open Ucode Spec

variable {a b o rd rb da wd : BitVec 32} {pc : BitVec 30} {mem : BitVec 6 → BitVec 32}
  {mie mpie meie : Bool} {pa : BitVec 4} {d : DecState} {c : CauseLatch}

theorem boot_step_02 (i : Input) : ∃ o' d' pa',
    (bootState u_02 3#8 a b o pc mem rd mie mpie meie rb pa d c da wd).step i =
      bootState u_03 4#8 0#32 1#32 o' pc mem rd mie mpie meie rb pa' d' c da wd := by
  refine ⟨a + b, d.step false i.datR, d.map.csrEncoding, ?_⟩
  simp [State.step, State.romAdr, State.test, State.exception, State.pending, testOut, rawTest, seqAdr, State.ram, ramCtl, RamCtl.memNext, RamCtl.rdataNext, State.regRAdr, State.regWAdr, State.allowZeroWr, State.csrAdr, CsrState.step, State.doDecode, aNext, bNext, aluNext, oMux, modIn, modOut, pcNext, CauseLatch.step, exceptionOut, rom_03, u_02]

theorem boot_step_03 (i : Input) : ∃ d' pa',
    (bootState u_03 4#8 0#32 1#32 o pc mem rd mie mpie meie rb pa d c da wd).step i =
      bootState u_04 5#8 0#32 1#32 0#32 pc mem rd mie mpie meie rb pa' d' c da wd := by
  refine ⟨d.step false i.datR, d.map.csrEncoding, ?_⟩
  simp [State.step, State.romAdr, State.test, State.exception, State.pending, testOut, rawTest, seqAdr, State.ram, ramCtl, RamCtl.memNext, RamCtl.rdataNext, State.regRAdr, State.regWAdr, State.allowZeroWr, State.csrAdr, CsrState.step, State.doDecode, aNext, bNext, aluNext, oMux, modIn, modOut, pcNext, CauseLatch.step, exceptionOut, rom_04, u_03]

theorem boot_step_04 (i : Input) : ∃ d' pa',
    (bootState u_04 5#8 0#32 1#32 0#32 pc mem rd mie mpie meie rb pa d c da wd).step i =
      bootState u_05 6#8 0#32 1#32 0#32 pc (memSet mem 0#6 0#32) rd mie mpie meie rb pa' d' c da wd := by
  refine ⟨d.step false i.datR, d.map.csrEncoding, ?_⟩
  simp [State.step, State.romAdr, State.test, State.exception, State.pending, testOut, rawTest, seqAdr, State.ram, ramCtl, RamCtl.memNext, RamCtl.rdataNext, State.regRAdr, State.regWAdr, State.allowZeroWr, State.csrAdr, CsrState.step, State.doDecode, aNext, bNext, aluNext, oMux, modIn, modOut, pcNext, CauseLatch.step, exceptionOut, rom_05, u_04]

theorem boot_step_05 (i : Input) : ∃ d' pa' rd' o',
    (bootState u_05 6#8 0#32 1#32 0#32 pc mem rd mie mpie meie rb pa d c da wd).step i =
      bootState u_00 1#8 0#32 1#32 o' 0#30 (memSet mem (csrRamAdr CSR_MCAUSE) 0#32) rd'
        mie mpie meie rb pa' d' c da wd := by
  refine ⟨d.step false i.datR, 10#4,
    (if gpRamAdr d.srcA = csrRamAdr CSR_MCAUSE then 0 else mem (gpRamAdr d.srcA)), 1#32, ?_⟩
  simp [-BitVec.getLsbD_eq_getElem, State.step, State.romAdr, State.test, State.exception, State.pending, testOut, rawTest, seqAdr, State.ram, ramCtl, RamCtl.memNext, RamCtl.rdataNext, State.regRAdr, State.regWAdr, State.allowZeroWr, State.csrAdr, CsrState.step, State.doDecode, aNext, bNext, aluNext, oMux, modIn, modOut, pcNext, CauseLatch.step, exceptionOut, csrWriteData, rom_00, u_05]

/-- The first five cycles after reset: no request, then the first fetch. -/
theorem boot_run {s : State} (h : ∃ u mem rd, s = State.resetRegs u mem rd) (inp : Nat → Input) :
    (∀ t, t ≤ 4 → (s.run inp t).cyc = false) ∧
    (s.run inp 5).uop = u_00 ∧ (s.run inp 5).memGuard = false ∧ (s.run inp 5).pc = 0#30 ∧
    (s.run inp 5).arch = s.boot (inp 0) ∧
    (∀ r, r ≠ 0#5 → (s.run inp 1).mem (gpRamAdr r) = s.mem (gpRamAdr r)) := by
  obtain ⟨u, mem, rd, rfl⟩ := h
  obtain ⟨h1, h2, h3, h4, h5, h6, h7⟩ := boot_first u mem rd (inp 0)
  -- the stale microinstruction changes no register
  have hx : ∀ r, r ≠ 0#5 → ((State.resetRegs u mem rd).step (inp 0)).mem (gpRamAdr r) =
      mem (gpRamAdr r) := by
    intro r hr
    rw [mem_gp_step, if_neg]
    · rfl
    · rintro ⟨-, -, h, h'⟩
      rcases h' with h' | h'
      · have h' : u.regWSel = .zero := h'
        have e : (State.resetRegs u mem rd).regWAdr = 0#6 := by
          simp [State.regWAdr, State.resetRegs, h']
        rw [e] at h
        exact hr ((gpRamAdr_eq_zero r).1 h.symm)
      · have e : (State.resetRegs u mem rd).regWAdr = gpRamAdr 0#5 := by
          simp only [State.regWAdr, State.resetRegs]
          cases u.regWSel <;> decide
        rw [e] at h
        exact hr ((gpRamAdr_inj _ _).1 h).symm
  have e1 : (State.resetRegs u mem rd).run inp 1 = (State.resetRegs u mem rd).step (inp 0) := rfl
  generalize hb : (State.resetRegs u mem rd).boot (inp 0) = ba
  have hb' := hb
  unfold State.boot at hb
  generalize hs1 : (State.resetRegs u mem rd).step (inp 0) = s1 at *
  have r1 := e1
  rw [State.eta s1, h1, h2, h3, h4, h5, h6, h7] at r1
  obtain ⟨o2, d2, p2, s2⟩ := boot_step_02 (a := s1.a) (b := s1.b) (o := s1.aluO) (pc := s1.pc)
    (mem := s1.mem) (rd := s1.rdata) (mie := false) (mpie := s1.csr.mpie) (meie := false)
    (rb := s1.csr.readBuf) (pa := s1.csr.prevAdr) (d := s1.dec) (c := {}) (da := s1.dataAdr)
    (wd := s1.writeData) (inp 1)
  have r2 := (congrArg (fun σ => State.step σ (inp 1)) r1).trans s2
  change (State.resetRegs u mem rd).run inp 2 = _ at r2
  obtain ⟨d3, p3, s3⟩ := boot_step_03 (o := o2) (pc := s1.pc)
    (mem := s1.mem) (rd := s1.rdata) (mie := false) (mpie := s1.csr.mpie) (meie := false)
    (rb := s1.csr.readBuf) (pa := p2) (d := d2) (c := {}) (da := s1.dataAdr)
    (wd := s1.writeData) (inp 2)
  have r3 := (congrArg (fun σ => State.step σ (inp 2)) r2).trans s3
  change (State.resetRegs u mem rd).run inp 3 = _ at r3
  obtain ⟨d4, p4, s4⟩ := boot_step_04 (pc := s1.pc)
    (mem := s1.mem) (rd := s1.rdata) (mie := false) (mpie := s1.csr.mpie) (meie := false)
    (rb := s1.csr.readBuf) (pa := p3) (d := d3) (c := {}) (da := s1.dataAdr)
    (wd := s1.writeData) (inp 3)
  have r4 := (congrArg (fun σ => State.step σ (inp 3)) r3).trans s4
  change (State.resetRegs u mem rd).run inp 4 = _ at r4
  obtain ⟨d5, p5, rd5, o5, s5⟩ := boot_step_05 (pc := s1.pc)
    (mem := memSet s1.mem 0#6 0#32) (rd := s1.rdata) (mie := false) (mpie := s1.csr.mpie) (meie := false)
    (rb := s1.csr.readBuf) (pa := p4) (d := d4) (c := {}) (da := s1.dataAdr)
    (wd := s1.writeData) (inp 4)
  have r5 := (congrArg (fun σ => State.step σ (inp 4)) r4).trans s5
  change (State.resetRegs u mem rd).run inp 5 = _ at r5
  refine ⟨?_, by rw [r5], by rw [r5], by rw [r5], ?_, ?_⟩
  · intro t ht
    obtain rfl | rfl | rfl | rfl | rfl : t = 0 ∨ t = 1 ∨ t = 2 ∨ t = 3 ∨ t = 4 := by omega
    · exact cyc_resetRegs u mem rd
    · rw [r1]; rfl
    · rw [r2]; rfl
    · rw [r3]; rfl
    · rw [r4]; rfl
  · have z : ∀ c, csrRamAdr c ≠ 0#6 := by decide
    rw [r5, ← hb]
    simp only [State.arch, bootArch, Arch.mk.injEq, true_and]
    refine ⟨by decide, ?_, ?_⟩
    · funext r
      by_cases hr : r = 0#5
      · subst hr; simp only [memSet, gpRamAdr_ne_csr, if_false]; rfl
      · simp only [memSet, gpRamAdr_ne_csr, if_false, gpRamAdr_eq_zero, hr]
        exact (if_neg hr).symm
    · simp [memSet, csrRamAdr_inj, z]
  · intro r hr; rw [e1]; exact hx r hr

theorem trg_writes : used.all (fun k => !((romT k).csrOp = .writeCsr && (romT k).csrSel = .trgCsr) ||
    ((romT k).target.extractLsb' 0 4 = CSR_MEPC || (romT k).target.extractLsb' 0 4 = CSR_MCAUSE)) = true := by
  decide +kernel

/-- The microinstruction in the read latch is always a word of the ROM. -/
theorem Reach.uop {s : State} (h : Reach s) : ∃ a, s.uop = rom a := by
  induction h with
  | powerOn => exact ⟨6#8, by rw [rom_hole 6#8 (by decide)]; rfl⟩
  | tick rst en i _ ih =>
    cases rst <;> cases en
    · exact ih
    · exact ⟨_, rfl⟩
    · exact ih
    · exact ⟨_, rfl⟩

/-- The stale microinstruction executed as reset is released does not touch mtvec and mscratch. -/
theorem stale_csr {s : State} (h : AfterReset s) (i : Input) {c : BitVec 4}
    (hc : c = CSR_MTVEC ∨ c = CSR_MSCRATCH) :
    (s.step i).mem (csrRamAdr c) = s.mem (csrRamAdr c) := by
  have hr : (∃ a, s.uop = rom a) ∧ s.dec.map.csrEncoding = 0#4 := by
    rcases h with rfl | ⟨σ, en, i, hσ, rfl⟩
    · exact ⟨Reach.powerOn.uop, rfl⟩
    · exact ⟨(hσ.tick true en i).uop, rfl⟩
  obtain ⟨⟨a, ha⟩, henc⟩ := hr
  rw [mem_csr_step, if_neg]
  rintro ⟨hw, hadr⟩
  cases hsel : s.uop.csrSel
  · simp only [State.csrAdr, hsel, henc] at hadr
    subst hadr
    rcases hc with hc | hc <;> exact absurd hc (by decide)
  · simp only [State.csrAdr, hsel] at hadr
    by_cases hu : a.toNat ∈ used
    · have := List.all_eq_true.mp trg_writes _ hu
      rw [← rom_eq, ← ha] at this
      simp only [hw, hsel, decide_true, Bool.and_true, Bool.not_true, Bool.false_or, Bool.or_eq_true,
        decide_eq_true_eq, hadr] at this
      rcases hc with rfl | rfl <;> exact absurd this (by decide)
    · rw [rom_hole a hu] at ha
      rw [ha] at hsel
      exact absurd hsel (by decide)

end Sentinel
