import Verif.Proof.Class
/-!
# The second sample of the interrupt line by CSR instructions
-/

set_option linter.unusedSimpArgs false

namespace Sentinel
open Ucode Spec

variable {s : State} {inp : Nat → Input} {t m : Nat} {w : Word}

/-- What a CSR instruction does after its second sample. -/
def csrTail (a : Arch) (op : CsrOp) (rd : Reg) (src : CsrSrc) (adr : BitVec 12) (irq : Bool) :
    Tree Arch :=
  if irq && a.intEnabled then .ret (a.takeInterrupt .asBuilt)
  else match csrKind adr with
    | .absent => .ret (a.exception .asBuilt 2)
    | .zero =>
      if csrReadOnly adr ∧ csrWrites op src then .ret (a.exception .asBuilt 2)
      else .ret (a.setReg rd 0).next
    | .impl c => execCsr a op rd src c

theorem csr_adr {op rd src adr} (h : OneInstr s inp t w m) (hi : ¬ s.IrqTaken inp t)
    (hw : decode w = some (.csr op rd src adr)) : (s.run inp t).romAdr (inp t) = 0x24#8 := by
  have h0 := h.runs.1.at h.reset h.ack
  obtain ⟨g1, g2, -⟩ := decoded hw
  have hb : ((inp t).irq && (s.run inp t).arch.intEnabled) = false := by
    simpa [State.IrqTaken, Arch.intEnabled] using hi
  generalize s.run inp t = σ at *
  obtain ⟨h1, h2, h3, h4, h5, h6, h7, d0, f1, f2, hd⟩ := h0
  have hpend : σ.pending (inp t) = false := by
    rw [← hb]
    simp only [State.pending, intPending, Arch.intEnabled, h6.mie, h6.meie]
    cases σ.arch.mie <;> cases σ.arch.meie <;> cases (inp t).irq <;> rfl
  have hvalid : σ.dec.exc.valid = false := by
    rw [← g1]; simp [hd, DecState.step, ExcState.step, f2]
  have hop : σ.dec.map.requestedOp = mapOp w d0.map.requestedOp := by
    simp [hd, DecState.step, MapState.step, f1]
  have hop' : mapOp w d0.map.requestedOp = 0x24#8 := by
    simp only [isCsrInsn, Bool.and_eq_true, Bool.not_eq_true', decide_eq_true_eq,
      decide_eq_false_iff_not] at g2
    obtain ⟨⟨⟨⟨c1, c2⟩, c3⟩, c4⟩, c5⟩ := g2
    simp [mapOp, c1, c2, c3, c4, c5]
  simp [State.romAdr, State.test, State.exception, exceptionOut, testOut, rawTest, seqAdr, h1, h3,
      u_01, hpend, hvalid, hop, hop']

theorem csr_second {op rd src adr} (h : OneInstr s inp t w m) (hi : ¬ s.IrqTaken inp t)
    (hw : decode w = some (.csr op rd src adr)) :
    (s.run inp (t + 1)).uop = u_24 ∧ (s.run inp (t + 1)).csr.mie = (s.run inp t).csr.mie ∧
      (s.run inp (t + 1)).csr.meie = (s.run inp t).csr.meie := by
  have hadr := csr_adr h hi hw
  have h1 := (h.runs.1.at h.reset h.ack).uop
  have e : s.run inp (t + 1) = (s.run inp t).step (inp t) := rfl
  rw [e]
  generalize s.run inp t = σ at *
  refine ⟨?_, ?_, ?_⟩
  · show rom (σ.romAdr (inp t)) = _
    rw [hadr, rom_24]
  · simp [State.step, CsrState.step, h1, u_01]
  · simp [State.step, CsrState.step, h1, u_01]

theorem excFwd_csr (hc : isCsrInsn w = true) : excFwd w = true := by
  simp only [isCsrInsn, Bool.and_eq_true, Bool.not_eq_true', decide_eq_true_eq,
    decide_eq_false_iff_not] at hc
  obtain ⟨⟨⟨⟨c1, c2⟩, c3⟩, c4⟩, c5⟩ := hc
  have e1 : ¬ w.extractLsb' 7 25 = ECALL.extractLsb' 7 25 := by
    intro e
    apply c4
    have := congrArg (fun (v : BitVec 25) => v.extractLsb' 5 3) e
    rw [extract_extract _ _ _ _ _ (by omega)] at this
    exact this
  have e2 : ¬ w = EBREAK := by
    intro e
    apply c4; rw [e]; rfl
  simp [excFwd, c1, c2, c3, c4, c5, e1, e2]

/-- The exception signal in the second cycle of a CSR instruction. -/
theorem csr_exc {op rd src adr} (h : OneInstr s inp t w m) (hi : ¬ s.IrqTaken inp t)
    (hw : decode w = some (.csr op rd src adr)) :
    (s.run inp (t + 1)).exception (inp (t + 1)) =
      (csrBad w || ((inp (t + 1)).irq && (s.run inp t).arch.intEnabled)) := by
  obtain ⟨hu, hm1, hm2⟩ := csr_second h hi hw
  have h0 := h.runs.1.at h.reset h.ack
  obtain ⟨g1, g2, -⟩ := decoded hw
  have hv : (s.run inp (t + 1)).dec.exc.valid = csrBad w := by
    have e : s.run inp (t + 1) = (s.run inp t).step (inp t) := rfl
    rw [e]
    generalize s.run inp t = σ at *
    obtain ⟨h1, h2, h3, h4, h5, h6, h7, d0, f1, f2, hd⟩ := h0
    have : (σ.step (inp t)).dec = σ.dec.step (σ.doDecode (inp t)) (inp t).datR := rfl
    rw [this, hd]
    simp [csrBad, DecState.step, MapState.step, ExcState.step, f1, f2, g2, excFwd_csr g2, State.doDecode, h1, u_01]
  simp only [State.exception, exceptionOut, hu, u_24, hv, State.pending, intPending, hm1, hm2, Arch.intEnabled,
    State.arch]
  cases csrBad w <;> cases (s.run inp t).csr.mie <;> cases (s.run inp t).csr.meie <;> cases (inp (t + 1)).irq <;> rfl

/-- A read of mip samples the interrupt line in the third cycle of the instruction. -/
theorem csr_third {op rd src adr} (h : OneInstr s inp t w m) (hi : ¬ s.IrqTaken inp t) (hi' : ¬ s.IrqTaken inp (t + 1))
    (hw : decode w = some (.csr op rd src adr)) (hk : csrKind adr = .impl .mip) (hr : csrReads op rd = true) :
    (s.run inp (t + 2)).polls = true ∧ (s.run inp (t + 2)).cyc = false ∧ (s.run inp (t + 2)).uop ≠ u_01 := by
  obtain ⟨hu, hm1, hm2⟩ := csr_second h hi hw
  have hx := csr_exc h hi hw
  have h0 := h.runs.1.at h.reset h.ack
  obtain ⟨g1, g2, h1, h2, h3, h4⟩ := decoded hw
  have htab := csrTable adr
  simp only [csrTableOk, hk, Bool.and_eq_true, decide_eq_true_eq, Bool.not_eq_true', decide_eq_false_iff_not] at htab
  obtain ⟨⟨⟨t1, t2⟩, t3⟩, t4⟩ := htab
  have hbad : csrBad w = false := by
    simp only [csrBad, insnAccess, insnQuadrant, h2, h3, h4, t1]
    simp [csrValid, t2, t3, Attr.implemented]
  have hirq : ((inp (t + 1)).irq && (s.run inp t).arch.intEnabled) = false := by
    have : ¬ (((inp (t + 1)).irq && (s.run inp t).arch.intEnabled) = true) := by
      intro hh
      apply hi'
      simp only [State.IrqTaken, Arch.intEnabled, State.arch, hm1, hm2, Bool.and_eq_true] at hh ⊢
      exact hh
    simpa using this
  rw [hbad, hirq] at hx
  have hdec : ∃ d0, Dec (keepCsr w d0) (s.run inp (t + 1)).dec := by
    have e : s.run inp (t + 1) = (s.run inp t).step (inp t) := rfl
    rw [e]
    generalize s.run inp t = σ at *
    obtain ⟨k1, k2, k3, k4, k5, k6, k7, d0, f1, f2, hd⟩ := h0
    refine ⟨d0, ?_⟩
    have hop' : mapOp w d0.map.requestedOp = 0x24#8 := by
      simp only [isCsrInsn, Bool.and_eq_true, Bool.not_eq_true', decide_eq_true_eq,
        decide_eq_false_iff_not] at g2
      obtain ⟨⟨⟨⟨c1, c2⟩, c3⟩, c4⟩, c5⟩ := g2
      simp [mapOp, c1, c2, c3, c4, c5]
    have : (σ.step (inp t)).dec = σ.dec.step (σ.doDecode (inp t)) (inp t).datR := rfl
    rw [this, hd]
    constructor <;>
      simp [keepCsr, DecState.step, MapState.step, ExcState.step, f1, f2, g2, excFwd_csr g2, hop', State.doDecode, k1, u_01]
  obtain ⟨d0, hD⟩ := hdec
  have hg : (s.run inp (t + 1)).rstGuard = false := by
    have e : s.run inp (t + 1) = (s.run inp t).step (inp t) := rfl
    rw [e]; rfl
  have hadr : (s.run inp (t + 2)).uop = rom (keepCsr w d0).op := by
    show rom ((s.run inp (t + 1)).romAdr (inp (t + 1))) = _
    rw [← hD.op]
    congr 1
    simp [State.romAdr, State.test, testOut, rawTest, seqAdr, hx, hg, hu, u_24]
  have henc : (s.run inp (t + 2)).dec.map.csrEncoding = CSR_MIP := by
    have hD' := hD.next (inp (t + 1)).datR
    have : (s.run inp (t + 2)).dec = (s.run inp (t + 1)).dec.step false (inp (t + 1)).datR := by
      show ((s.run inp (t + 1)).step (inp (t + 1))).dec = _
      have : ((s.run inp (t + 1)).step (inp (t + 1))).dec =
        (s.run inp (t + 1)).dec.step ((s.run inp (t + 1)).doDecode (inp (t + 1))) (inp (t + 1)).datR := rfl
      rw [this]
      simp [State.doDecode, hu, u_24]
    rw [this, hD'.enc]
    simp only [keepCsr, csrEncode, h4]
    exact t4
  have e3 : (keepCsr w d0).op = mapCsr (csrF3 op src) rd (srcField src) (csrAttrOf adr) 0x24#8 := by
    simp only [keepCsr, h1, h2, h3, h4]
  rw [e3, t1] at hadr
  suffices key : (s.run inp (t + 2)).uop.csrOp = .readCsr ∧ (s.run inp (t + 2)).uop.csrSel = .insnCsr ∧
      (s.run inp (t + 2)).uop.memReq = false ∧ (s.run inp (t + 2)).uop ≠ u_01 by
    obtain ⟨k1, k2, k3, k4⟩ := key
    refine ⟨?_, ?_, k4⟩
    · simp [State.polls, State.csrAdr, k1, k2, henc]
    · simp [State.cyc, k3]
  rw [hadr]
  clear hadr e3 henc
  revert hr
  cases op <;> cases src <;>
    simp (config := { decide := true }) only [csrReads, csrF3, mapCsr, Attr.implemented, if_false, if_true, true_and, false_and, srcField]
  all_goals intro hr
  all_goals
    repeat' split
  all_goals first
    | (exfalso; simp_all; done)
    | (rw [rom_27]; simp [u_27, u_01]; done)
    | (rw [rom_28]; simp [u_28, u_01]; done)
    | (rw [rom_29]; simp [u_29, u_01]; done)
    | (rw [rom_2a]; simp [u_2a, u_01]; done)
    | (rw [rom_2c]; simp [u_2c, u_01]; done)
    | (rw [rom_2d]; simp [u_2d, u_01]; done)
    | (rw [rom_2e]; simp [u_2e, u_01]; done)

theorem OneInstr.csr {op rd src adr} (h : OneInstr s inp t w m) (hi : ¬ s.IrqTaken inp t)
    (hw : decode w = some (.csr op rd src adr)) :
    ∃ l, (csrTail (s.run inp t).arch op rd src adr (inp (t + 1)).irq).Path l (s.run inp (t + m)).arch ∧
      s.Effect inp t m (s.run inp (t + m)).arch (.poll (inp (t + 1)).irq :: l) ∧
      (s.IrqTaken inp (t + 1) ↔ ((inp (t + 1)).irq && (s.run inp t).arch.intEnabled) = true) := by
  obtain ⟨hu, hm1, hm2⟩ := csr_second h hi hw
  have hirq : s.IrqTaken inp (t + 1) ↔
      ((inp (t + 1)).irq && (s.run inp t).arch.intEnabled) = true := by
    simp only [State.IrqTaken, Arch.intEnabled, State.arch, hm1, hm2, Bool.and_eq_true]
  have hut : (s.run inp t).uop = u_01 := by rw [← rom_01]; exact h.runs.1.1.2
  obtain ⟨l, hp, hE⟩ := h.ofSome hi hw
  -- the second event
  have h2 : 2 ≤ m := by
    rcases Nat.lt_or_ge m 2 with hlt | hge
    · exfalso
      have hm := h.runs.2.1
      obtain rfl : m = 1 := by omega
      have := h.runs.2.2.1.2
      rw [hu, rom_01] at this
      simp [u_24, u_01] at this
    · exact hge
  obtain ⟨m', rfl⟩ : ∃ m', m = m' + 2 := ⟨m - 2, by omega⟩
  have hev : s.events inp t (m' + 2) =
      .poll (inp t).irq :: .poll (inp (t + 1)).irq :: s.events inp (t + 2) m' := by
    simp only [State.events, State.obs_dispatch hut]
    simp [State.obs, State.cyc, State.polls, hu, u_24]
  simp only [execInstr] at hp
  cases hp with
  | @poll _ b l x hp =>
    obtain ⟨_, w', he, hd⟩ := hE
    rw [hev] at he
    simp at he
    obtain ⟨rfl, he⟩ := he
    exact ⟨l, hp, ⟨rfl, w', by rw [hev]; simpa using he, hd⟩, hirq⟩

end Sentinel
