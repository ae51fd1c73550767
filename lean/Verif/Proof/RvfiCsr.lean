import Verif.Proof.RvfiRegs
/-!
# What the RVFI harness reports about control and status registers
-/

set_option linter.unusedSimpArgs false

namespace Sentinel
open Ucode Spec

variable {s : State} {inp : Nat → Input} {t m : Nat} {w : Word} {r : Rvfi} {c : Csr}

/-- In this cycle the interrupt-enable stack is pushed or popped. -/
def State.stacks (σ : State) : Bool := σ.uop.exceptCtl = .enterInt || σ.uop.exceptCtl = .leaveInt

/-- A CSR that is not written in a cycle keeps its value. -/
theorem csrRead_step (σ : State) (i : Input) (hc : c ≠ .mip) (hw : σ.csrWriteTo c = false)
    (hs : c = .mstatus → σ.stacks = false) :
    (σ.step i).arch.csrRead false c = σ.arch.csrRead false c := by
  have key : ∀ c : Csr, σ.csrWriteTo c = false →
      (σ.step i).mem (csrRamAdr (csrNo c)) = σ.mem (csrRamAdr (csrNo c)) := by
    intro c hw
    rw [mem_csr_step]
    simp only [State.csrWriteTo, Bool.and_eq_false_iff, decide_eq_false_iff_not] at hw
    rw [if_neg]
    rintro ⟨h1, h2⟩
    rcases hw with h | h
    · exact h h1
    · exact h h2
  cases c
  case mtvec => exact key .mtvec hw
  case mscratch => exact key .mscratch hw
  case mepc => exact key .mepc hw
  case mcause => exact key .mcause hw
  case mip => exact absurd rfl hc
  case mie =>
    have : (σ.step i).csr.meie = σ.csr.meie := by
      have hw : (decide (σ.uop.csrOp = .writeCsr) && decide (σ.csrAdr = CSR_MIE)) = false := hw
      simp only [State.step, CsrState.step, hw, Bool.false_eq_true, if_false]
    have e : (σ.step i).arch.meie = σ.arch.meie := this
    simp only [Arch.csrRead, e]
  case mstatus =>
    have hs := hs rfl
    have h1 : (σ.step i).csr.mie = σ.csr.mie ∧ (σ.step i).csr.mpie = σ.csr.mpie := by
      have hw : (decide (σ.uop.csrOp = .writeCsr) && decide (σ.csrAdr = CSR_MSTATUS)) = false := hw
      simp only [State.step, CsrState.step, hw]
      simp only [State.stacks, Bool.or_eq_false_iff, decide_eq_false_iff_not] at hs
      cases he : σ.uop.exceptCtl <;> simp [he] at hs ⊢
    have e1 : (σ.step i).arch.mie = σ.arch.mie := h1.1
    have e2 : (σ.step i).arch.mpie = σ.arch.mpie := h1.2
    simp only [Arch.csrRead, e1, e2]

/-- The read report after a cycle. -/
theorem csrStep_rdata (v : Rvfi) (σ : State) (i : Input) (hc : c ≠ .mip)
    (hs : c = .mstatus → σ.stacks = false) (hh : (v.csr c).hold = false) :
    (v.csrStep σ i c).rdata = if σ.csrWriteTo c then
        match c with
        | .mie => σ.arch.csrRead false c
        | .mstatus => σ.arch.csrRead false c
        | _ => (v.csr c).rdata
      else σ.arch.csrRead false c := by
  have key := csrRead_step (c := c) σ i hc
  cases hw : σ.csrWriteTo c
  · have key := key hw hs
    cases c <;> simp [Rvfi.csrStep, hh, hw]
    case mip => exact absurd rfl hc
    case mie => exact meiView_eq _
    case mstatus => exact mstatusView_eq _ _
    all_goals exact key
  · cases c <;> simp [Rvfi.csrStep, hh, hw]
    case mip => exact absurd rfl hc
    case mie => exact meiView_eq _
    case mstatus => exact mstatusView_eq _ _

theorem hold_first (h : AfterReset s) (hr : s.RegisteredAck inp) (hd : s.Dispatches inp t w) :
    ((r.run s inp t).csr c).hold = false := by
  have ht := hd.1.1
  have hc := first_commits h hr hd
  obtain ⟨-, -, hop, -⟩ := committing h hr hc
  have e : (r.run s inp (t - 1 + 1)).csr c = (r.run s inp (t - 1)).csrStep (s.run inp (t - 1)) (inp (t - 1)) c := rfl
  rw [show t - 1 + 1 = t by omega] at e
  rw [e]
  simp [Rvfi.csrStep, hc, State.csrWriteTo, hop]

theorem csr_at (h : AfterReset s) (hr : s.RegisteredAck inp) (he : s.Executes inp t w m)
    (hc : c ≠ .mip) {j : Nat} (hj : j < m)
    (hs : c = .mstatus → (s.tallies inp t j).st = false) :
    (j = 0 ∨ ((r.run s inp (t + j)).csr c).rdata = (s.run inp t).arch.csrRead false c) ∧
      (((r.run s inp (t + j)).csr c).hold = false →
        (s.run inp (t + j)).arch.csrRead false c = (s.run inp t).arch.csrRead false c) := by
  induction j with
  | zero => exact ⟨.inl rfl, fun _ => rfl⟩
  | succ j ih =>
    have hs' : c = .mstatus → (s.tallies inp t j).st = false ∧ (s.run inp (t + j)).stacks = false := by
      intro e
      have := hs e
      rw [State.tallies_snoc] at this
      simp only [Cnt.st_add, Bool.or_eq_false_iff] at this
      exact ⟨this.2, this.1⟩
    obtain ⟨i1, i2⟩ := ih (by omega) fun e => (hs' e).1
    have hcm := Executes.step h hr he hj
    have e : (r.run s inp (t + (j + 1))).csr c =
      (r.run s inp (t + j)).csrStep (s.run inp (t + j)) (inp (t + j)) c := rfl
    have e2 : s.run inp (t + (j + 1)) = (s.run inp (t + j)).step (inp (t + j)) := rfl
    have hno : j = 0 → (s.run inp (t + j)).csrWriteTo c = false := by
      rintro rfl
      have := (he.1.at h hr).uop
      simp [State.csrWriteTo, this, u_01]
    have hh0 : j = 0 → ((r.run s inp (t + j)).csr c).hold = false := by
      rintro rfl; exact hold_first h hr he.1
    have hstep := csrRead_step (c := c) (s.run inp (t + j)) (inp (t + j)) hc
    have hrd := csrStep_rdata (c := c) (r.run s inp (t + j)) (s.run inp (t + j)) (inp (t + j)) hc
      (fun e => (hs' e).2)
    rw [e, e2]
    generalize hσ : s.run inp (t + j) = σ at *
    generalize hv : r.run s inp (t + j) = v at *
    cases hw : σ.csrWriteTo c
    · cases hh : (v.csr c).hold
      · have i2 := i2 hh
        rw [hw] at hrd
        simp only [Bool.false_eq_true, if_false] at hrd
        refine ⟨.inr ((hrd hh).trans i2), fun _ => ?_⟩
        rw [hstep hw fun e => (hs' e).2]; exact i2
      · have hj0 : j ≠ 0 := fun e => by rw [hh0 e] at hh; cases hh
        refine ⟨.inr ?_, fun hx => ?_⟩
        · rw [← i1.resolve_left hj0]
          cases c <;> simp [Rvfi.csrStep, hh, hw]
        · simp [Rvfi.csrStep, hh, hw, hcm] at hx
    · have hj0 : j ≠ 0 := fun e => by rw [hno e] at hw; cases hw
      have i1 := i1.resolve_left hj0
      refine ⟨.inr ?_, fun hx => ?_⟩
      · cases hh : (v.csr c).hold
        · have i2 := i2 hh
          rw [hrd hh, hw]
          simp only [if_true]
          cases c <;> first | exact i1 | exact i2
        · rw [← i1]
          cases c <;> simp [Rvfi.csrStep, hh, hw]
      · simp [Rvfi.csrStep, hw] at hx

theorem tallies_st_mono {j k : Nat} (hjk : j ≤ k) (h : (s.tallies inp t k).st = false) :
    (s.tallies inp t j).st = false := by
  obtain ⟨d, rfl⟩ : ∃ d, k = j + d := ⟨k - j, by omega⟩
  rw [State.tallies_add] at h
  simp only [Cnt.st_add, Bool.or_eq_false_iff] at h
  exact h.2

/-- The interrupt-enable stack is left alone by an instruction that neither traps nor returns. -/
theorem st_false (h : AfterReset s) (hr : s.RegisteredAck inp) (he : s.Executes inp t w m)
    (hx : traps (s.run inp t).arch w (s.events inp t m) = false) (hw : decode w ≠ some .mret) :
    (s.tallies inp t m).st = false := by
  obtain ⟨w', -, -, -, h1, h2, -⟩ := executes_tally h hr he
  rw [hx] at h1
  cases hst : (s.tallies inp t m).st
  · rfl
  · rcases h2 hst with h3 | h3
    · rw [h1] at h3; cases h3
    · exact absurd h3 hw

theorem csr_report (h : AfterReset s) (hr : s.RegisteredAck inp) (he : s.Executes inp t w m)
    (hc : c ≠ .mip) (hs : c = .mstatus → traps (s.run inp t).arch w (s.events inp t m) = false ∧
      decode w ≠ some .mret) :
    ((r.run s inp (t + m - 1)).csr c).rdata = (s.run inp t).arch.csrRead false c := by
  have hm := two_cycles h hr he
  have := (csr_at (r := r) h hr he hc (j := m - 1) (by omega) fun e =>
    tallies_st_mono (k := m) (by omega) (st_false h hr he (hs e).1 (hs e).2)).1.resolve_left (by omega)
  rw [show t + (m - 1) = t + m - 1 by omega] at this
  exact this

/-- The report about `mip` was sampled during the instruction. -/
theorem mip_at (h : AfterReset s) (hr : s.RegisteredAck inp) (he : s.Executes inp t w m) {j : Nat}
    (hj : j + 1 < m) :
    ∃ T, t ≤ T ∧ T ≤ t + j ∧ ((r.run s inp (t + (j + 1))).csr .mip).rdata =
      (s.run inp t).arch.csrRead (inp T).irq .mip := by
  induction j with
  | zero =>
    refine ⟨t, by omega, by omega, ?_⟩
    have hh := hold_first (r := r) (c := .mip) h hr he.1
    have e : (r.run s inp (t + 1)).csr .mip = (r.run s inp t).csrStep (s.run inp t) (inp t) .mip := rfl
    rw [Nat.zero_add, e]
    simp only [Rvfi.csrStep, hh, Bool.false_eq_true, if_false]
    exact meiView_eq _
  | succ j ih =>
    obtain ⟨T, h1, h2, h3⟩ := ih (by omega)
    have e : (r.run s inp (t + (j + 1 + 1))).csr .mip =
      (r.run s inp (t + (j + 1))).csrStep (s.run inp (t + (j + 1))) (inp (t + (j + 1))) .mip := rfl
    rw [e]
    cases hh : ((r.run s inp (t + (j + 1))).csr .mip).hold
    · refine ⟨t + (j + 1), by omega, by omega, ?_⟩
      simp only [Rvfi.csrStep, hh, Bool.false_eq_true, if_false]
      exact meiView_eq _
    · refine ⟨T, h1, by omega, ?_⟩
      simp only [Rvfi.csrStep, hh, if_true]
      exact h3

/-! ## Written values -/

/-- The value last reported as written is what the CSR holds. -/
def CsrHolds (c : Csr) (v : Rvfi) (σ : State) : Prop := σ.arch.csrWrite (v.csr c).wdata c = σ.arch

theorem holds_write (v : Rvfi) (σ : State) (i : Input) (hw : σ.csrWriteTo c = true)
    (hs : c = .mstatus → σ.stacks = false) : CsrHolds c (v.step σ i) (σ.step i) := by
  have ed : ((v.step σ i).csr c).wdata = σ.aluO := by simp [Rvfi.step, Rvfi.csrStep, hw]
  unfold CsrHolds
  rw [ed]
  have hw' := hw
  simp only [State.csrWriteTo, Bool.and_eq_true, decide_eq_true_eq] at hw'
  have key : (σ.step i).mem (csrRamAdr (csrNo c)) = csrWriteData (csrNo c) σ.aluO := by
    rw [mem_csr_step, if_pos hw']
  obtain ⟨w1, w2⟩ := hw'
  cases c
  case mtvec =>
    have e : (σ.step i).arch.mtvec = σ.aluO &&& ~~~3#32 := key
    simp only [Arch.csrWrite, ← e]
  case mscratch =>
    have e : (σ.step i).arch.mscratch = σ.aluO := key
    simp only [Arch.csrWrite, ← e]
  case mepc =>
    have e : (σ.step i).arch.mepc = σ.aluO &&& ~~~3#32 := key
    simp only [Arch.csrWrite, ← e]
  case mcause =>
    have e : (σ.step i).arch.mcause = σ.aluO := key
    simp only [Arch.csrWrite, ← e]
  case mip => rfl
  case mie =>
    have e : (σ.step i).arch.meie = σ.aluO.getLsbD 11 := by
      have w2 : σ.csrAdr = CSR_MIE := w2
      simp [-BitVec.getLsbD_eq_getElem, State.arch, State.step, CsrState.step, w1, w2]
    simp only [Arch.csrWrite, ← e]
  case mstatus =>
    have hs := hs rfl
    have w2 : σ.csrAdr = CSR_MSTATUS := w2
    have e : (σ.step i).arch.mie = σ.aluO.getLsbD 3 ∧ (σ.step i).arch.mpie = σ.aluO.getLsbD 7 := by
      simp only [State.stacks, Bool.or_eq_false_iff, decide_eq_false_iff_not] at hs
      simp only [State.arch, State.step, CsrState.step, w1, w2]
      cases he : σ.uop.exceptCtl <;> simp [-BitVec.getLsbD_eq_getElem, he] at hs ⊢
    simp only [Arch.csrWrite, ← e.1, ← e.2]

/-- What a CSR holds, as a proposition about the parts of the state that back it. -/
theorem holds_iff (a : Arch) (v : Word) : a.csrWrite v c = a ↔
    match c with
    | .mstatus => a.mie = v.getLsbD 3 ∧ a.mpie = v.getLsbD 7
    | .mie => a.meie = v.getLsbD 11
    | .mtvec => a.mtvec = v &&& ~~~3#32
    | .mscratch => a.mscratch = v
    | .mepc => a.mepc = v &&& ~~~3#32
    | .mcause => a.mcause = v
    | .mip => True := by
  obtain ⟨pc, x, mie, mpie, meie, mtvec, mscratch, mepc, mcause, it⟩ := a
  cases c <;> simp [-BitVec.getLsbD_eq_getElem, Arch.csrWrite, eq_comm]

theorem holds_step (v : Rvfi) (σ : State) (i : Input) (hh : CsrHolds c v σ)
    (hs : c = .mstatus → σ.stacks = false) : CsrHolds c (v.step σ i) (σ.step i) := by
  cases hw : σ.csrWriteTo c
  · have ed : ((v.step σ i).csr c).wdata = (v.csr c).wdata := by simp [Rvfi.step, Rvfi.csrStep, hw]
    by_cases hc : c = .mip
    · subst hc; rfl
    have hk := csrRead_step (c := c) σ i hc hw hs
    unfold CsrHolds at hh ⊢
    rw [ed]
    rw [holds_iff] at hh ⊢
    cases c
    case mip => trivial
    case mtvec => rw [← hh]; exact hk
    case mscratch => rw [← hh]; exact hk
    case mepc => rw [← hh]; exact hk
    case mcause => rw [← hh]; exact hk
    case mie =>
      change σ.arch.meie = (v.csr .mie).wdata.getLsbD 11 at hh
      show (σ.step i).arch.meie = (v.csr .mie).wdata.getLsbD 11
      simp only [Arch.csrRead] at hk
      rw [← hh]
      generalize (σ.step i).arch.meie = a at *
      generalize σ.arch.meie = b at *
      revert hk; cases a <;> cases b <;> decide
    case mstatus =>
      change σ.arch.mie = (v.csr .mstatus).wdata.getLsbD 3 ∧
        σ.arch.mpie = (v.csr .mstatus).wdata.getLsbD 7 at hh
      show (σ.step i).arch.mie = (v.csr .mstatus).wdata.getLsbD 3 ∧
        (σ.step i).arch.mpie = (v.csr .mstatus).wdata.getLsbD 7
      simp only [Arch.csrRead] at hk
      rw [← hh.1, ← hh.2]
      generalize (σ.step i).arch.mie = a at *
      generalize σ.arch.mie = b at *
      generalize (σ.step i).arch.mpie = a' at *
      generalize σ.arch.mpie = b' at *
      revert hk; cases a <;> cases b <;> cases a' <;> cases b' <;> decide
  · exact holds_write v σ i hw hs

/-- A CSR that was written at `T0` or agreed then agrees later. -/
theorem holds_later (hc : c ≠ .mstatus) {T0 : Nat} (hh : CsrHolds c (r.run s inp T0) (s.run inp T0))
    {T : Nat} (hT : T0 ≤ T) : CsrHolds c (r.run s inp T) (s.run inp T) := by
  obtain ⟨d, rfl⟩ : ∃ d, T = T0 + d := ⟨T - T0, by omega⟩
  clear hT
  induction d with
  | zero => exact hh
  | succ d ih => exact holds_step _ _ _ ih fun e => absurd e hc

theorem csrNo_eq (c : Csr) : csrNo c = encOf c := by cases c <;> rfl

/-- Some write of the CSR that the instruction names is noticed. -/
theorem holds_of_cw (h : AfterReset s) (hr : s.RegisteredAck inp) (he : s.Executes inp t w m)
    (hcsr : isCsrInsn w = true) (henc : csrEncode w = csrNo c) {j : Nat} (hj : j ≤ m)
    (hs : c = .mstatus → (s.tallies inp t j).st = false) (hw : (s.tallies inp t j).cw = true) :
    CsrHolds c (r.run s inp (t + j)) (s.run inp (t + j)) := by
  induction j with
  | zero => simp [State.tallies] at hw
  | succ j ih =>
    have hs' : c = .mstatus → (s.tallies inp t j).st = false ∧ (s.run inp (t + j)).stacks = false := by
      intro e
      have := hs e
      rw [State.tallies_snoc] at this
      simp only [Cnt.st_add, Bool.or_eq_false_iff] at this
      exact ⟨this.2, this.1⟩
    have e1 : r.run s inp (t + (j + 1)) =
      (r.run s inp (t + j)).step (s.run inp (t + j)) (inp (t + j)) := rfl
    have e2 : s.run inp (t + (j + 1)) = (s.run inp (t + j)).step (inp (t + j)) := rfl
    rw [e1, e2]
    rw [State.tallies_snoc] at hw
    simp only [Cnt.cw_add, Bool.or_eq_true] at hw
    rcases hw with hw | hw
    · refine holds_write _ _ _ ?_ fun e => (hs' e).2
      have hd := (dec_at h hr he (j := j) (by omega)).2 hcsr
      simp only [State.tally, Bool.and_eq_true, decide_eq_true_eq] at hw
      simp [State.csrWriteTo, hw.1, State.csrAdr, hw.2, hd, henc]
    · exact holds_step _ _ _ (ih (by omega) (fun e => (hs' e).1) hw) fun e => (hs' e).2

/-- Nothing is written in the last cycle of an instruction. -/
theorem wdata_last (h : AfterReset s) (hr : s.RegisteredAck inp) (he : s.Executes inp t w m) :
    ((r.run s inp (t + m)).csr c).wdata = ((r.run s inp (t + m - 1)).csr c).wdata := by
  have hm := two_cycles h hr he
  obtain ⟨-, -, hop, -⟩ := committing h hr (last_commits h hr he)
  have e : (r.run s inp (t + m - 1 + 1)).csr c =
    (r.run s inp (t + m - 1)).csrStep (s.run inp (t + m - 1)) (inp (t + m - 1)) c := rfl
  rw [show t + m - 1 + 1 = t + m by omega] at e
  rw [e]
  simp [Rvfi.csrStep, State.csrWriteTo, hop]

/-- The encoding of an implemented CSR. -/
theorem csrEncode_of {op rd src adr} (hw : decode w = some (.csr op rd src adr))
    (hk : csrKind adr = .impl c) : csrEncode w = csrNo c := by
  obtain ⟨h1, -⟩ := decode_csr hw
  have := csrTable adr
  simp only [csrTableOk, hk, Bool.and_eq_true, decide_eq_true_eq] at this
  rw [csrNo_eq, ← this.2, ← h1]
  rfl

/-- The CSR that an instruction writes without trapping holds the value reported. -/
theorem written_report (h : AfterReset s) (hr : s.RegisteredAck inp) (he : s.Executes inp t w m)
    {ins : Instr} (hw : decode w = some ins) (hd : destCsr ins = some c)
    (hx : traps (s.run inp t).arch w (s.events inp t m) = false) :
    (s.run inp (t + m)).arch.csrWrite ((r.run s inp (t + m - 1)).csr c).wdata c =
      (s.run inp (t + m)).arch := by
  have hst : decode w ≠ some .mret := by
    rintro e; rw [hw] at e; cases e; cases hd
  have h0 := st_false h hr he hx hst
  obtain ⟨w', -, -, -, h1, -, h2, -⟩ := executes_tally h hr he
  rw [hx] at h1
  have h3 := (h2 h1 ins hw).2 c hd
  obtain ⟨op, rd, src, adr, rfl, hk⟩ : ∃ op rd src adr, ins = .csr op rd src adr ∧ csrKind adr = .impl c := by
    cases ins <;> simp only [destCsr] at hd <;> try cases hd
    next op rd src adr =>
      refine ⟨op, rd, src, adr, rfl, ?_⟩
      split at hd
      · split at hd
        · next h => rw [h]; cases hd; rfl
        · cases hd
      · cases hd
  have := holds_of_cw (r := r) h hr he (decode_csr hw).2.2.2 (csrEncode_of hw hk) (Nat.le_refl m) (fun _ => h0) h3
  unfold CsrHolds at this
  rw [wdata_last h hr he] at this
  exact this

/-- From power-on, what was last reported as written is what a CSR other than `mstatus` holds. -/
theorem holds_always (hr : r.AfterReset) (hc : c ≠ .mstatus) (T : Nat) :
    CsrHolds c (r.run powerOn inp T) (powerOn.run inp T) := by
  refine holds_later hc (T0 := 0) ?_ (Nat.zero_le _)
  obtain ⟨p1, p2, q, rfl, -⟩ := hr
  show powerOn.arch.csrWrite 0 c = powerOn.arch
  rw [holds_iff]
  cases c <;> trivial

/-- The external interrupt enable is cleared by every reset. -/
theorem holds_mie (h : AfterReset s) (hr : r.AfterReset) (T : Nat) :
    CsrHolds .mie (r.run s inp T) (s.run inp T) := by
  refine holds_later (by decide) (T0 := 0) ?_ (Nat.zero_le _)
  obtain ⟨p1, p2, q, rfl, -⟩ := hr
  obtain ⟨u, mem, rd, rfl, -⟩ := h.eq
  show (State.resetRegs u mem rd).arch.csrWrite 0 .mie = _
  rfl

end Sentinel
