import Verif.Proof.ExecCsr
/-!
# Reset: from any state to the first instruction fetch
-/

set_option linter.unusedSimpArgs false

namespace Sentinel
open Ucode Spec

/-- The low two bits of MTVEC and MEPC in the RAM are clear. -/
def RamOk (mem : BitVec 6 → BitVec 32) : Prop :=
  (mem (csrRamAdr CSR_MTVEC)).extractLsb' 0 2 = 0#2 ∧ (mem (csrRamAdr CSR_MEPC)).extractLsb' 0 2 = 0#2

theorem csrWriteData_low {adr : BitVec 4} (h : adr = CSR_MTVEC ∨ adr = CSR_MEPC) (v : BitVec 32) :
    (csrWriteData adr v).extractLsb' 0 2 = 0#2 := by
  rw [csrWriteData, if_pos h]; exact low_clear v

theorem regWAdr_gp (s : State) : ∃ r, s.regWAdr = gpRamAdr r := by
  unfold State.regWAdr
  cases s.uop.regWSel
  · exact ⟨_, rfl⟩
  · exact ⟨0#5, rfl⟩

theorem RamCtl.memNext_at (c : RamCtl) (m : BitVec 6 → BitVec 32) (k : BitVec 6) :
    c.memNext m k = if c.wEn = true ∧ k = c.wAdr then c.wDat else m k := by
  unfold RamCtl.memNext
  by_cases h : c.wEn = true
  · simp [h, memSet]
  · simp [h]

theorem mem_step (s : State) (i : Input) (k : BitVec 6) :
    (s.step i).mem k = if (s.ram i).wEn = true ∧ k = (s.ram i).wAdr then (s.ram i).wDat
      else s.mem k := RamCtl.memNext_at _ _ _

theorem ram_none {s : State} {i : Input} (h : s.uop.csrOp = .none) :
    (s.ram i).wEn = (s.uop.regWrite && !(s.regWAdr == (BitVec.ofBool s.allowZeroWr).setWidth 6)) ∧
      (s.ram i).wAdr = s.regWAdr ∧ (s.ram i).wDat = s.aluO := by
  simp [State.ram, ramCtl, h]

theorem ram_read {s : State} {i : Input} (h : s.uop.csrOp = .readCsr) : (s.ram i).wEn = false := by
  simp [State.ram, ramCtl, h]

theorem ram_write {s : State} {i : Input} (h : s.uop.csrOp = .writeCsr) :
    (s.ram i).wEn = true ∧ (s.ram i).wAdr = csrRamAdr s.csrAdr ∧
      (s.ram i).wDat = csrWriteData s.csrAdr s.aluO := by
  simp [State.ram, ramCtl, h]

/-- A CSR cell of the RAM after a cycle. -/
theorem mem_csr_step (s : State) (i : Input) (c : BitVec 4) :
    (s.step i).mem (csrRamAdr c) =
      if s.uop.csrOp = .writeCsr ∧ s.csrAdr = c then csrWriteData c s.aluO
      else s.mem (csrRamAdr c) := by
  obtain ⟨r, hr⟩ := regWAdr_gp s
  rw [mem_step]
  cases hop : s.uop.csrOp
  · obtain ⟨-, h2, -⟩ := ram_none (i := i) hop
    simp [h2, hr, csrRamAdr_ne_gp]
  · simp [ram_read hop]
  · obtain ⟨h1, h2, h3⟩ := ram_write (i := i) hop
    simp only [h1, h2, h3, csrRamAdr_inj, true_and]
    by_cases e : s.csrAdr = c
    · subst e; simp
    · simp only [e, if_false]; rw [if_neg fun h => e h.symm]

/-- A general-purpose cell of the RAM after a cycle. -/
theorem mem_gp_step (s : State) (i : Input) (r : BitVec 5) :
    (s.step i).mem (gpRamAdr r) =
      if s.uop.csrOp = .none ∧ s.uop.regWrite = true ∧ s.regWAdr = gpRamAdr r ∧
          (s.uop.regWSel = .zero ∨ r ≠ 0#5) then s.aluO
      else s.mem (gpRamAdr r) := by
  rw [mem_step]
  cases hop : s.uop.csrOp
  · obtain ⟨h1, h2, h3⟩ := ram_none (i := i) hop
    simp only [h2, h3, true_and]
    congr 1
    rw [h1]
    cases hs : s.uop.regWSel
    · have e : s.regWAdr = gpRamAdr s.dec.dst := by simp [State.regWAdr, hs]
      have hz : s.allowZeroWr = false := by simp [State.allowZeroWr, hs]
      simp only [e, hz, gpRamAdr_inj]
      have : (BitVec.ofBool false).setWidth 6 = gpRamAdr 0#5 := by decide
      rw [this]
      simp only [Bool.and_eq_true, Bool.not_eq_true', beq_eq_false_iff_ne, ne_eq, gpRamAdr_inj,
        reduceCtorEq, false_or, eq_iff_iff]
      constructor
      · rintro ⟨⟨a, b⟩, rfl⟩; exact ⟨a, rfl, b⟩
      · rintro ⟨a, rfl, b⟩; exact ⟨⟨a, b⟩, rfl⟩
    · have e : s.regWAdr = 0#6 := by simp [State.regWAdr, hs]
      have hz : s.allowZeroWr = true := by simp [State.allowZeroWr, hs]
      simp only [e, hz]
      have : (!(0#6 == (BitVec.ofBool true).setWidth 6)) = true := by decide
      rw [this, Bool.and_true, eq_comm (a := 0#6)]
      simp
  · simp [ram_read hop]
  · obtain ⟨h1, h2, h3⟩ := ram_write (i := i) hop
    simp [h2, gpRamAdr_ne_csr]

theorem RamOk.step {s : State} (h : RamOk s.mem) (i : Input) : RamOk (s.step i).mem := by
  constructor
  · rw [mem_csr_step]
    split
    · exact csrWriteData_low (.inl rfl) _
    · exact h.1
  · rw [mem_csr_step]
    split
    · exact csrWriteData_low (.inr rfl) _
    · exact h.2

theorem RamOk.tick {s : State} (h : RamOk s.mem) (rst en : Bool) (i : Input) :
    RamOk (s.tick rst en i).mem := by
  have hs := h.step i
  cases rst <;> cases en <;> simpa [State.tick, State.resetRegs] using by assumption

theorem RamOk.powerOn : RamOk powerOn.mem := by
  constructor <;> decide

/-- The instruction-set state after reset: program counter 0, interrupts disabled, `mcause` 0; the
other registers are in the RAM, which is not reset, and MPIE is that of the state given. -/
def bootArch (mem : BitVec 6 → BitVec 32) (mpie : Bool) : Arch where
  pc := 0
  x r := if r = 0 then 0 else mem (gpRamAdr r)
  mie := false
  mpie := mpie
  meie := false
  mtvec := mem (csrRamAdr CSR_MTVEC)
  mscratch := mem (csrRamAdr CSR_MSCRATCH)
  mepc := mem (csrRamAdr CSR_MEPC)
  mcause := 0
  irqTaken := false

theorem cyc_resetRegs (u : UInsn) (mem : BitVec 6 → BitVec 32) (rd : BitVec 32) :
    (State.resetRegs u mem rd).cyc = false := by
  simp [State.cyc, State.resetRegs]

/-- The cycle in which reset is released executes a stale microinstruction `u`. -/
theorem boot_first (u : UInsn) (mem : BitVec 6 → BitVec 32) (rd : BitVec 32) (i : Input) :
    let s := (State.resetRegs u mem rd).step i
    s.uop = u_02 ∧ s.nextAdr = 3#8 ∧ s.rstGuard = false ∧ s.memGuard = false ∧
      s.csr.mie = false ∧ s.csr.meie = false ∧ s.cause = {} := by
  refine ⟨?_, ?_, rfl, rfl, ?_, ?_, ?_⟩
  · simp [State.step, State.romAdr, State.resetRegs, seqAdr, rom_02]
  · simp [State.step, State.romAdr, State.resetRegs, seqAdr]
  · simp only [State.step, CsrState.step, State.resetRegs]
    cases u.exceptCtl <;> simp
  · simp [State.step, CsrState.step, State.resetRegs]
  · simp only [State.step, CauseLatch.step, State.resetRegs, State.pending, intPending,
      dataMisaligned]
    cases u.exceptCtl <;> simp

variable {α : Type} {F : α → State → Cnt → Prop} {pv : Bool} {T : Tree α} {n : Cnt}
  {a b o rd rb da wd : BitVec 32} {pc : BitVec 30} {mem : BitVec 6 → BitVec 32}
  {mie mpie meie : Bool} {pa : BitVec 4} {d : DecState} {c : CauseLatch}

/-- The state written out, for the reset microroutine. -/
abbrev bootState (u : UInsn) (na : BitVec 8) (a b o : BitVec 32) (pc : BitVec 30)
    (mem : BitVec 6 → BitVec 32) (rd : BitVec 32) (mie mpie meie : Bool) (rb : BitVec 32)
    (pa : BitVec 4) (d : DecState) (c : CauseLatch) (da wd : BitVec 32) : State :=
  ⟨u, na, false, false, a, b, o, pc, mem, rd, ⟨mie, mpie, meie, rb, pa⟩, d, c, da, wd⟩

theorem boot_02
    (h : ∀ o rd rb pa d da wd pc,
      Impl F false (bootState u_03 4#8 0#32 1#32 o pc mem rd mie mpie meie rb pa d c da wd) T (n + 1)) :
    Impl F pv (bootState u_02 3#8 a b o pc mem rd mie mpie meie rb pa d c da wd) T n := by
  refine .quietq 1 rfl rfl (fun _ => rfl) fun i => ?_
  have h := h (a + b) rd rb d.map.csrEncoding (d.step false i.datR) da wd pc
  simpa [State.step, State.romAdr, State.test, State.exception, State.pending, testOut, rawTest, seqAdr, State.ram, ramCtl, RamCtl.memNext, RamCtl.rdataNext, State.regRAdr, State.regWAdr, State.allowZeroWr, State.csrAdr, CsrState.step, State.doDecode, aNext, bNext, aluNext, oMux, modIn, modOut, pcNext, CauseLatch.step, exceptionOut, rom_03, u_02] using h

theorem boot_03
    (h : ∀ rb pa d,
      Impl F false (bootState u_04 5#8 0#32 1#32 0#32 pc mem rd mie mpie meie rb pa d c da wd) T (n + 1)) :
    Impl F pv (bootState u_03 4#8 0#32 1#32 o pc mem rd mie mpie meie rb pa d c da wd) T n := by
  refine .quietq 1 rfl rfl (fun _ => rfl) fun i => ?_
  have h := h rb d.map.csrEncoding (d.step false i.datR)
  simpa [State.step, State.romAdr, State.test, State.exception, State.pending, testOut, rawTest, seqAdr, State.ram, ramCtl, RamCtl.memNext, RamCtl.rdataNext, State.regRAdr, State.regWAdr, State.allowZeroWr, State.csrAdr, CsrState.step, State.doDecode, aNext, bNext, aluNext, oMux, modIn, modOut, pcNext, CauseLatch.step, exceptionOut, rom_04, u_03] using h

theorem boot_04
    (h : ∀ rb pa d,
      Impl F false (bootState u_05 6#8 0#32 1#32 0#32 pc (memSet mem 0#6 0#32) rd mie mpie meie rb pa d c
        da wd) T (n + .w)) :
    Impl F pv (bootState u_04 5#8 0#32 1#32 0#32 pc mem rd mie mpie meie rb pa d c da wd) T n := by
  refine .quietq .w rfl rfl (fun _ => rfl) fun i => ?_
  have h := h rb d.map.csrEncoding (d.step false i.datR)
  simpa [State.step, State.romAdr, State.test, State.exception, State.pending, testOut, rawTest, seqAdr, State.ram, ramCtl, RamCtl.memNext, RamCtl.rdataNext, State.regRAdr, State.regWAdr, State.allowZeroWr, State.csrAdr, CsrState.step, State.doDecode, aNext, bNext, aluNext, oMux, modIn, modOut, pcNext, CauseLatch.step, exceptionOut, rom_05, u_04] using h

theorem boot_05
    (h : ∀ rd rb pa d o, d.map.fwd = false → d.exc.fwd = false →
      Impl F false (bootState u_00 1#8 0#32 1#32 o 0#30 (memSet mem (csrRamAdr CSR_MCAUSE) 0#32) rd
        mie mpie meie rb pa d c da wd) T (n + 1)) :
    Impl F pv (bootState u_05 6#8 0#32 1#32 0#32 pc mem rd mie mpie meie rb pa d c da wd) T n := by
  refine .quietq 1 rfl rfl (fun _ => rfl) fun i => ?_
  have h := h (if gpRamAdr d.srcA = csrRamAdr CSR_MCAUSE then 0 else mem (gpRamAdr d.srcA)) rb 10#4 (d.step false i.datR) 1#32
    (by simp [DecState.step, MapState.step]) (by simp [DecState.step, ExcState.step])
  simpa [-BitVec.getLsbD_eq_getElem, State.step, State.romAdr, State.test, State.exception, State.pending, testOut, rawTest, seqAdr, State.ram, ramCtl, RamCtl.memNext, RamCtl.rdataNext, State.regRAdr, State.regWAdr, State.allowZeroWr, State.csrAdr, CsrState.step, State.doDecode, aNext, bNext, aluNext, oMux, modIn, modOut, pcNext, CauseLatch.step, exceptionOut, csrWriteData, rom_00, u_05] using h

/-- From the second cycle after reset to the first dispatch. -/
theorem boot_impl {s : State} (h1 : s.uop = u_02) (h2 : s.nextAdr = 3#8) (h3 : s.rstGuard = false)
    (h4 : s.memGuard = false) (h5 : s.csr.mie = false) (h6 : s.csr.meie = false)
    (h7 : s.cause = {}) (hm : RamOk s.mem) :
    Impl (fun p s n => AtDispatch p s ∧ n.idle = 4) pv s (fetch (bootArch s.mem s.csr.mpie)) 0 := by
  rw [State.eta s, h1, h2, h3, h4, h5, h6, h7]
  refine boot_02 fun o rd rb pa d da wd pc => ?_
  refine boot_03 fun rb pa d => ?_
  refine boot_04 fun rb pa d => ?_
  refine boot_05 fun rd rb pa d o f1 f2 => ?_
  refine Fetching.impl ⟨rfl, rfl, rfl, rfl, ?_, ?_, f1, f2⟩ fun w s hs => .done ⟨hs, rfl⟩
  · simp [bootArch]
  · have z : ∀ c, csrRamAdr c ≠ 0#6 := by decide
    refine ⟨?_, ?_, ?_, ?_, ?_, ?_, rfl, rfl, rfl, rfl, hm.1, hm.2⟩
    · intro r
      simp only [memSet, bootArch, gpRamAdr_ne_csr, if_false, gpRamAdr_eq_zero]
      rfl
    · simp [bootArch]
    all_goals simp [memSet, bootArch, csrRamAdr_inj, z]

end Sentinel
