import Verif.Proof.RvfiRun
/-!
# What the RVFI harness reports about registers
-/

set_option linter.unusedSimpArgs false

namespace Sentinel
open Ucode Spec

variable {s : State} {inp : Nat → Input} {t m : Nat} {w : Word} {r : Rvfi}

/-! ## Operands -/

theorem mem_arch (h : AfterReset s) (hr : s.RegisteredAck inp) (hd : s.Dispatches inp t w) (q : Reg) :
    (s.run inp t).mem (gpRamAdr q) = (s.run inp t).arch.reg q := (hd.at h hr).rel.reg q

theorem insn_report (h : AfterReset s) (hr : s.RegisteredAck inp) (he : s.Executes inp t w m) {j : Nat}
    (hj : j < m) : (r.run s inp (t + j)).insn = w ∧ (r.run s inp (t + j)).rs1Addr = insnRs1 w ∧
      (r.run s inp (t + j)).rs2Addr = insnRs2 w ∧
      (r.run s inp (t + j)).pcRdata = (s.run inp t).arch.pc := by
  have ht := he.1.1.1
  have hw : (inp (t - 1)).datR = w :=
    dispatched_word h hr (by rw [show t - 1 + 1 = t by omega]; exact he.1)
  have e1 := latched (f := fun T => (r.run s inp T).insn) (g := fun T => (inp T).datR) h hr
    (fun _ => rfl) he hj
  have e2 := latched (f := fun T => (r.run s inp T).rs1Addr) (g := fun T => insnRs1 (inp T).datR) h hr
    (fun _ => rfl) he hj
  have e3 := latched (f := fun T => (r.run s inp T).rs2Addr) (g := fun T => insnRs2 (inp T).datR) h hr
    (fun _ => rfl) he hj
  have e4 := latched (f := fun T => (r.run s inp T).pcRdata) (g := fun T => (s.run inp T).pc ++ 0#2) h hr
    (fun _ => rfl) he hj
  simp only [hw] at e1 e2 e3 e4
  refine ⟨e1, e2, e3, ?_⟩
  rw [e4]
  have hc := first_commits h hr he.1
  obtain ⟨-, -, -, -, -, -, -, hpc⟩ := committing h hr hc
  have e : (s.run inp (t - 1 + 1)).pc = (s.run inp (t - 1)).pc := by
    show pcNext _ _ _ = _
    rw [hpc]; rfl
  rw [show t - 1 + 1 = t by omega] at e
  simp [State.arch, e]

theorem justCommitted_at (h : AfterReset s) (hr : s.RegisteredAck inp) (he : s.Executes inp t w m)
    {j : Nat} (hj : j < m) : (r.run s inp (t + j)).justCommitted = decide (j = 0) := by
  have ht := he.1.1.1
  cases j with
  | zero =>
    have e : (r.run s inp (t - 1 + 1)).justCommitted = (s.run inp (t - 1)).committed (inp (t - 1)) := rfl
    rw [show t - 1 + 1 = t by omega, first_commits h hr he.1] at e
    simpa using e
  | succ j =>
    have e : (r.run s inp (t + (j + 1))).justCommitted = (s.run inp (t + j)).committed (inp (t + j)) := rfl
    rw [e, Executes.step h hr he hj]; simp

theorem rs_report (h : AfterReset s) (hr : s.RegisteredAck inp) (he : s.Executes inp t w m) {j : Nat}
    (hj : j + 1 < m) :
    (r.run s inp (t + (j + 1))).rs1Rdata = (s.run inp t).arch.reg (insnRs1 w) ∧
      (r.run s inp (t + (j + 1))).rs2Rdata = (s.run inp t).arch.reg (insnRs2 w) := by
  have ht := he.1.1.1
  have e1 : (r.run s inp (t + (j + 1))).rs1Rdata = if (r.run s inp (t + j)).justCommitted then
    (r.run s inp (t + j)).rs1Port else (r.run s inp (t + j)).rs1Rdata := rfl
  have e2 : (r.run s inp (t + (j + 1))).rs2Rdata = if (r.run s inp (t + j)).justCommitted then
    (r.run s inp (t + j)).rs2Port else (r.run s inp (t + j)).rs2Rdata := rfl
  rw [e1, e2, justCommitted_at h hr he (by omega)]
  cases j with
  | zero =>
    have hw : (inp (t - 1)).datR = w :=
      dispatched_word h hr (by rw [show t - 1 + 1 = t by omega]; exact he.1)
    have g1 := latched (f := fun T => (r.run s inp T).rs1Port)
      (g := fun T => (s.run inp (T + 1)).mem (gpRamAdr (insnRs1 (inp T).datR))) h hr
      (fun _ => rfl) he (j := 0) (by omega)
    have g2 := latched (f := fun T => (r.run s inp T).rs2Port)
      (g := fun T => (s.run inp (T + 1)).mem (gpRamAdr (insnRs2 (inp T).datR))) h hr
      (fun _ => rfl) he (j := 0) (by omega)
    simp only [hw, show t - 1 + 1 = t by omega, mem_arch h hr he.1] at g1 g2
    simpa using ⟨g1, g2⟩
  | succ j => simpa using rs_report h hr he (j := j) (by omega)

/-! ## The destination register -/

theorem rdAddr_at (h : AfterReset s) (hr : s.RegisteredAck inp) (he : s.Executes inp t w m) {j : Nat}
    (hj : j < m) (hx : (s.tallies inp t j).exc = false) :
    (r.run s inp (t + j)).rdAddr = if rdValid w then insnRd w else 0 := by
  induction j with
  | zero =>
    have ht := he.1.1.1
    have hc := first_commits h hr he.1
    obtain ⟨-, hx, -⟩ := committing h hr hc
    have hw : (inp (t - 1)).datR = w :=
      dispatched_word h hr (by rw [show t - 1 + 1 = t by omega]; exact he.1)
    have e : r.run s inp (t - 1 + 1) = (r.run s inp (t - 1)).step (s.run inp (t - 1)) (inp (t - 1)) := rfl
    rw [show t - 1 + 1 = t by omega] at e
    rw [Nat.add_zero, e]
    simp [Rvfi.step, exception_none hx, hc, hw]
  | succ j ih =>
    have hc := Executes.step h hr he hj
    rw [State.tallies_snoc] at hx
    simp only [Cnt.exc_add, Bool.or_eq_false_iff] at hx
    have hxx : (s.run inp (t + j)).exception (inp (t + j)) = false := hx.1
    have e : r.run s inp (t + (j + 1)) = (r.run s inp (t + j)).step (s.run inp (t + j)) (inp (t + j)) := rfl
    rw [e, ← ih (by omega) hx.2]
    simp [Rvfi.step, hxx, hc]

theorem write_none : live.all (fun k => !(romT k).regWrite || (romT k).csrOp = .none) = true := by
  decide +kernel

/-- Dispatch is not before the fifth cycle. -/
theorem dispatch_late (h : AfterReset s) (hd : s.Dispatching inp t) : 4 ≤ t := by
  have hs : ∃ u mem rd, s = State.resetRegs u mem rd := by
    rcases h with rfl | ⟨σ, en, i, -, rfl⟩ <;> exact ⟨_, _, _, rfl⟩
  rcases Nat.lt_or_ge t 4 with hlt | hge
  · exfalso
    obtain ⟨ht, hu⟩ := hd
    have h0 := live_run h inp 0
    obtain ⟨u, mem, rd, rfl⟩ := hs
    have a1 : (State.resetRegs u mem rd).romAdr (inp 0) = 2#8 := first_romAdr h inp
    have k1 : LiveAt 2#8 ((State.resetRegs u mem rd).run inp 1) := by
      obtain ⟨k, hk⟩ := h0
      have e : k = 2#8 := by rw [← a1]; exact hk.unique (σ := State.resetRegs u mem rd) (i := inp 0)
      exact e ▸ hk
    have a2 := (k1.romAdr_live (inp 1)).2.2.1.2 rfl
    have k2 := k1.step (inp 1)
    rw [a2] at k2
    have a3 := (k2.romAdr_live (inp 2)).2.2.2.1.2 rfl
    have k3 := k2.step (inp 2)
    have k3 : LiveAt 4#8 ((State.resetRegs u mem rd).run inp 3) := a3 ▸ k3
    rcases (show t = 1 ∨ t = 2 ∨ t = 3 by omega) with rfl | rfl | rfl
    · rw [k1.uop, rom_01, rom_02] at hu; simp [u_01, u_02] at hu
    · have k2 : LiveAt 3#8 ((State.resetRegs u mem rd).run inp 2) := k2
      rw [k2.uop, rom_01, rom_03] at hu; simp [u_01, u_03] at hu
    · rw [k3.uop, rom_01, rom_04] at hu; simp [u_01, u_04] at hu
  · exact hge

/-- Destination register and the value the harness holds back. -/
theorem datW_at (h : AfterReset s) (hr : s.RegisteredAck inp) (he : s.Executes inp t w m) {j : Nat}
    (hj : j ≤ m) (h0 : insnRd w ≠ 0#5) (hx : (s.tallies inp t j).wr = true) :
    (r.run s inp (t + j)).datWReg = (s.run inp (t + j)).mem (gpRamAdr (insnRd w)) := by
  induction j with
  | zero => simp [State.tallies] at hx
  | succ j ih =>
    have ht := dispatch_late h he.1.1
    obtain ⟨T, hT⟩ : ∃ T, t + j = T + 4 := ⟨t + j - 4, by omega⟩
    obtain ⟨k, hk, -, -, k4⟩ := late_k h inp T
    have hd := (dec_at h hr he (j := j) (by omega)).1
    rw [← hT] at hk
    have hsel : (s.run inp (t + j)).uop.regWSel = .rd := by
      cases hs : (s.run inp (t + j)).uop.regWSel
      · rfl
      · exact absurd (BitVec.eq_of_toNat_eq (hk.node.zero.1 hs)) k4
    have hwa : (s.run inp (t + j)).regWAdr = gpRamAdr (insnRd w) := by
      simp [State.regWAdr, hsel, hd]
    have e1 : (r.run s inp (t + (j + 1))).datWReg = if (s.run inp (t + j)).gpWrite then
      (s.run inp (t + j)).aluO else (r.run s inp (t + j)).datWReg := rfl
    have e2 : (s.run inp (t + (j + 1))).mem (gpRamAdr (insnRd w)) = _ :=
      mem_gp_step (s.run inp (t + j)) (inp (t + j)) (insnRd w)
    have hn := List.all_eq_true.mp write_none _ hk.live
    rw [← rom_eq, ← hk.uop] at hn
    rw [State.tallies_snoc] at hx
    rw [e1, e2]
    cases hw : (s.run inp (t + j)).uop.regWrite
    · simp only [State.gpWrite, hw, Bool.false_and, Bool.false_eq_true, if_false, false_and, and_false]
      refine ih (by omega) ?_
      simpa [State.tally, hw] using hx
    · simp only [hw, Bool.not_true, Bool.false_or, decide_eq_true_eq] at hn
      simp [State.gpWrite, hw, hn, hwa, h0]

theorem datW_keep {j : Nat} (hx : (s.tallies inp t j).wr = false) :
    (r.run s inp (t + j)).datWReg = (r.run s inp t).datWReg := by
  induction j with
  | zero => rfl
  | succ j ih =>
    rw [State.tallies_snoc] at hx
    simp only [Cnt.wr_add, Bool.or_eq_false_iff] at hx
    have e1 : (r.run s inp (t + (j + 1))).datWReg = if (s.run inp (t + j)).gpWrite then
      (s.run inp (t + j)).aluO else (r.run s inp (t + j)).datWReg := rfl
    have hg : (s.run inp (t + j)).gpWrite = false := by
      have := hx.1
      simpa [State.tally, State.gpWrite] using this
    rw [e1, hg]
    exact ih hx.2

theorem insnRd_const : insnRd 0x00000073#32 = 0#5 ∧ insnRd 0x00100073#32 = 0#5 ∧
    insnRd 0x30200073#32 = 0#5 ∧ insnRd 0x10500073#32 = 0#5 := by decide

/-- The destination register in the instruction word. -/
theorem decode_rd {ins : Instr} (h : decode w = some ins) :
    (if rdValid w then insnRd w else 0) = (destReg ins).getD 0 := by
  revert h
  unfold decode
  simp only
  repeat' (refine ite_intro ?_ ?_ <;> intro _)
  all_goals intro h
  all_goals first | (cases h; done) | skip
  all_goals
    injection h with h
    subst h
    obtain ⟨h1, h2⟩ := opc_fields (by assumption)
    simp (config := { decide := true }) only [opcodeOf, if_true, if_false] at h1
    simp_all [rdValid, destReg, insnRd, insnRd_const]

theorem reg_mem (h : AfterReset s) (hr : s.RegisteredAck inp) (hd : s.Dispatching inp t) (q : Reg) :
    (s.run inp t).mem (gpRamAdr q) = (s.run inp t).arch.reg q := by
  obtain ⟨w, h1, -⟩ := at_dispatch h hr hd
  exact h1.rel.reg q

theorem rd_report (h : AfterReset s) (hr : s.RegisteredAck inp) (he : s.Executes inp t w m)
    {ins : Instr} (hw : decode w = some ins)
    (hx : traps (s.run inp t).arch w (s.events inp t m) = false) :
    (r.run s inp (t + m - 1)).rdAddr = (destReg ins).getD 0 ∧
      (r.run s inp (t + m - 1)).rdWdata (s.run inp (t + m - 1)) (inp (t + m - 1)) =
        (s.run inp (t + m)).arch.reg ((destReg ins).getD 0) := by
  obtain ⟨w', -, -, -, h1, -, h2, -⟩ := executes_tally h hr he
  have hm := two_cycles h hr he
  rw [hx] at h1
  obtain ⟨h2, -⟩ := h2 h1 ins hw
  have hx' : (s.tallies inp t (m - 1)).exc = false := by rw [← tallies_last h hr he]; exact h1
  have ha := rdAddr_at (r := r) h hr he (j := m - 1) (by omega) hx'
  rw [decode_rd hw, show t + (m - 1) = t + m - 1 by omega] at ha
  refine ⟨ha, ?_⟩
  simp only [Rvfi.rdWdata, last_commits h hr he, if_true, ha]
  split
  · next h0 => rw [h0]; rfl
  · next h0 =>
    have hq : ∃ q, destReg ins = some q := by
      cases hd : destReg ins
      · rw [hd] at h0; exact absurd rfl h0
      · exact ⟨_, rfl⟩
    obtain ⟨q, hq⟩ := hq
    have hrd := decode_rd hw
    rw [hq] at h0 hrd ⊢
    simp only [Option.getD_some] at h0 hrd ⊢
    have hq' : insnRd w = q := by
      by_cases hv : rdValid w = true
      · rw [if_pos hv] at hrd; exact hrd
      · rw [if_neg hv] at hrd; exact absurd hrd.symm h0
    have hwr := h2 q hq h0
    have e := datW_at (r := r) h hr he (j := m) (Nat.le_refl _) (by rw [hq']; exact h0) hwr
    have e' : (r.run s inp (t + m - 1 + 1)).datWReg =
      (r.run s inp (t + m - 1)).datWMux (s.run inp (t + m - 1)) := rfl
    rw [show t + m - 1 + 1 = t + m by omega] at e'
    rw [← e', e, hq', reg_mem h hr he.2.2.1]

/-- A trapping instruction other than one whose exception is found in the second decode cycle. -/
theorem rd_trap (h : AfterReset s) (hr : s.RegisteredAck inp) (he : s.Executes inp t w m)
    (hx : traps (s.run inp t).arch w (s.events inp t m) = true) :
    (r.run s inp (t + m - 1)).datWMux (s.run inp (t + m - 1)) = (r.run s inp t).datWReg := by
  obtain ⟨w', -, -, -, h1, -, -, h3⟩ := executes_tally h hr he
  have hm := two_cycles h hr he
  have h4 := (h3 (by rw [h1]; exact hx)).1
  have e' : (r.run s inp (t + m - 1 + 1)).datWReg =
    (r.run s inp (t + m - 1)).datWMux (s.run inp (t + m - 1)) := rfl
  rw [show t + m - 1 + 1 = t + m by omega] at e'
  rw [← e']
  exact datW_keep h4

/-! ## Second decode cycle -/

theorem doing_iff (h : AfterReset s) {T : Nat}
    (hd : (s.run inp (T + 1)).romAdr (inp (T + 1)) = 0x24#8) : s.Dispatching inp (T + 1) := by
  obtain ⟨k, hk⟩ := live_run h inp T
  by_cases hm : (s.run inp (T + 1)).uop.jmpType = .map
  · rcases hk.map_k hm with rfl | rfl
    · exact ⟨by omega, hk.uop⟩
    · exfalso
      obtain ⟨h1, h2⟩ := hk.romAdr_map hm (inp (T + 1))
      rcases hk.tramp rfl with hv | hx
      · rw [h2 hv] at hd; exact absurd hd (by decide)
      · rcases h1 with h1 | h1
        · rw [h1] at hd; exact absurd hd (by decide)
        · exact csr24 hx (h1 ▸ hd)
  · exact absurd hd (hk.romAdr hm _).ne24

/-- Only the second cycle of an instruction can be the second decode cycle. -/
theorem doing_at (h : AfterReset s) (hr : s.RegisteredAck inp) (he : s.Executes inp t w m)
    {j : Nat} (hj : j < m) (hj1 : j ≠ 1) : (r.run s inp (t + j)).doingCsrDecode = false := by
  have ht := dispatch_late h he.1.1
  obtain ⟨T, hT⟩ : ∃ T, t + j = T + 1 + 1 := ⟨t + j - 2, by omega⟩
  have e : (r.run s inp (T + 1 + 1)).doingCsrDecode =
    decide ((s.run inp (T + 1)).romAdr (inp (T + 1)) = 0x24#8) := rfl
  rw [hT, e]
  by_cases hx : (s.run inp (T + 1)).romAdr (inp (T + 1)) = 0x24#8
  · exfalso
    have hd := doing_iff h hx
    rcases Nat.eq_zero_or_pos j with rfl | hj0
    · have hc := first_commits h hr he.1
      rw [show t - 1 = T + 1 by omega] at hc
      simp only [State.committed, Bool.and_eq_true, decide_eq_true_eq] at hc
      rw [hc.2] at hx; exact absurd hx (by decide)
    · refine he.2.2.2 (j - 1) (by omega) (by omega) ?_
      rw [show t + (j - 1) = T + 1 by omega]; exact hd
  · simp [hx]

/-! ## Read-only-zero CSRs -/

/-- Without a second decode cycle nothing is reported as written. -/
theorem zeroW_keep (h : AfterReset s) (hr : s.RegisteredAck inp) (he : s.Executes inp t w m)
    {a : BitVec 12} {j : Nat} (hj : j < m)
    (ha : (r.run s inp (t + 1)).doingCsrDecode = true → (r.run s inp (t + 1)).csrAddrShadow ≠ a) :
    (r.run s inp (t + j)).zeroW a = (r.run s inp t).zeroW a := by
  induction j with
  | zero => rfl
  | succ j ih =>
    have e : (r.run s inp (t + (j + 1))).zeroW a = if (r.run s inp (t + j)).doingCsrDecode &&
        (r.run s inp (t + j)).csrAddrShadow = a && rvfiZeroCsrs.contains a
      then (r.run s inp (t + j)).zeroVal else (r.run s inp (t + j)).zeroW a := rfl
    rw [e, ih (by omega)]
    by_cases hj1 : j = 1
    · subst hj1
      cases hd : (r.run s inp (t + 1)).doingCsrDecode
      · simp
      · simp [ha hd]
    · simp [doing_at (r := r) h hr he (j := j) (by omega) hj1]

theorem shadow_at (h : AfterReset s) (hr : s.RegisteredAck inp) (he : s.Executes inp t w m)
    {j : Nat} (hj : j < m) : (r.run s inp (t + j)).csrAddrShadow = insnFunct12 w ∧
      (r.run s inp (t + j)).csrOpShadow = insnFunct3 w := by
  have ht := dispatch_late h he.1.1
  have hw : (inp (t - 1)).datR = w :=
    dispatched_word h hr (by rw [show t - 1 + 1 = t by omega]; exact he.1)
  induction j with
  | zero =>
    obtain ⟨T, hT⟩ : ∃ T, t - 1 = T + 1 := ⟨t - 2, by omega⟩
    have hd := doDecode_iff h hr T
    rw [← hT, first_commits h hr he.1] at hd
    have e : r.run s inp (t - 1 + 1) = (r.run s inp (t - 1)).step (s.run inp (t - 1)) (inp (t - 1)) := rfl
    rw [show t - 1 + 1 = t by omega] at e
    rw [Nat.add_zero, e]
    simp [Rvfi.step, hd, hw]
  | succ j ih =>
    obtain ⟨T, hT⟩ : ∃ T, t + j = T + 1 := ⟨t + j - 1, by omega⟩
    have hd := doDecode_iff h hr T
    rw [← hT, Executes.step h hr he hj] at hd
    have e : r.run s inp (t + (j + 1)) = (r.run s inp (t + j)).step (s.run inp (t + j)) (inp (t + j)) := rfl
    rw [e]
    simpa [Rvfi.step, hd] using ih (by omega)

/-- Fields of the word of a CSR instruction. -/
theorem decode_csr {op rd src adr} (h : decode w = some (.csr op rd src adr)) :
    insnFunct12 w = adr ∧ insnFunct3 w = csrF3 op src ∧ insnRs1 w = srcField src ∧
      isCsrInsn w = true := by
  obtain ⟨-, h0, -, h1, h2, h3⟩ := decoded h
  exact ⟨h3, h2, h1, h0⟩

theorem csr_three {op rd src adr} (h : OneInstr s inp t w m) (hi : ¬ s.IrqTaken inp t)
    (hw : decode w = some (.csr op rd src adr)) : 3 ≤ m := by
  have h2 := two_cycles h.reset h.ack h.runs
  rcases Nat.lt_or_ge m 3 with hlt | hge
  · have hm : m = 2 := by omega
    subst hm
    have hc := last_commits h.reset h.ack h.runs
    rw [show t + 2 - 1 = t + 1 by omega] at hc
    have hu := (csr_second h hi hw).1
    simp [State.committed, hu, u_24] at hc
  · exact hge

/-- What is reported as written to a read-only-zero CSR. -/
theorem zero_report {op rd src adr} (h : OneInstr s inp t w m) (hi : ¬ s.IrqTaken inp t)
    (hw : decode w = some (.csr op rd src adr)) (ha : rvfiZeroCsrs.contains adr = true) :
    (r.run s inp (t + m - 1)).zeroW adr = csrNew op 0 ((s.run inp t).arch.csrOperand src) := by
  have hm := csr_three h hi hw
  have he := h.runs
  have hd : (r.run s inp (t + 1)).doingCsrDecode = true := by
    have e : (r.run s inp (t + 1)).doingCsrDecode =
      decide ((s.run inp t).romAdr (inp t) = 0x24#8) := rfl
    rw [e, csr_adr h hi hw]; rfl
  obtain ⟨e1, e2⟩ := shadow_at (r := r) h.reset h.ack he (j := 1) (by omega)
  obtain ⟨-, e3, -, -⟩ := insn_report (r := r) h.reset h.ack he (j := 1) (by omega)
  have e4 := (rs_report (r := r) h.reset h.ack he (j := 0) (by omega)).1
  obtain ⟨g1, g2, g3, -⟩ := decode_csr hw
  have hz : ∀ j, j + 2 < m → (r.run s inp (t + (j + 2))).zeroW adr = (r.run s inp (t + 1)).zeroVal := by
    intro j hj
    induction j with
    | zero =>
      have e : (r.run s inp (t + 2)).zeroW adr = if (r.run s inp (t + 1)).doingCsrDecode &&
          (r.run s inp (t + 1)).csrAddrShadow = adr && rvfiZeroCsrs.contains adr
        then (r.run s inp (t + 1)).zeroVal else (r.run s inp (t + 1)).zeroW adr := rfl
      rw [Nat.zero_add, e, hd, e1, g1, ha]; simp
    | succ j ih =>
      have e : (r.run s inp (t + (j + 1 + 2))).zeroW adr = if (r.run s inp (t + (j + 2))).doingCsrDecode &&
          (r.run s inp (t + (j + 2))).csrAddrShadow = adr && rvfiZeroCsrs.contains adr
        then (r.run s inp (t + (j + 2))).zeroVal else (r.run s inp (t + (j + 2))).zeroW adr := rfl
      rw [e, doing_at (r := r) h.reset h.ack he (j := j + 2) (by omega) (by omega), ← ih (by omega)]
      simp
  have := hz (m - 3) (by omega)
  rw [show t + (m - 3 + 2) = t + m - 1 by omega] at this
  rw [this]
  simp only [Nat.zero_add] at e4
  simp only [Rvfi.zeroVal, e2, e3, e4]
  rw [g2, g3]
  cases op <;> cases src <;> simp [csrF3, srcField, csrNew, Arch.csrOperand]
  all_goals
    intro hq
    have hq := of_decide_eq_false hq
    simp [Classical.not_not.mp hq, Arch.reg]

end Sentinel
