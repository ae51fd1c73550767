import Verif.Proof.CsrRoutines
import Verif.Proof.Shifts
import Verif.Spec.Timing
/-!
# Dispatch: microaddress 1, and the CSR trampoline at 0x24
-/

set_option linter.unusedSimpArgs false

namespace Sentinel
open Ucode Spec

variable {α : Type} {F : α → State → Cnt → Prop} {pv : Bool} {T : Tree α} {n : Cnt}
  {ar : Arch} {w : Word} {s : State} {K : Bool → Tree α}

theorem excFwd_eq (w : Word) (h : isCsrInsn w = false) : excFwd w = false := by
  simp only [excFwd, isCsrInsn] at *
  revert h
  generalize decide (insnOpcode w = .system) = x1, decide (w = MRET) = x2, decide (w = WFI) = x3,
    decide (insnFunct3 w = 0#3) = x4, decide (insnFunct3 w = 4#3) = x5, decide (w = EBREAK) = x6,
    decide (w.extractLsb' 7 25 = ECALL.extractLsb' 7 25) = x7
  revert x1 x2 x3 x4 x5 x6 x7
  decide

/-- A field of a field. -/
theorem extract_extract {n : Nat} (v : BitVec n) (a b c d : Nat) (h : c + d ≤ b) :
    (v.extractLsb' a b).extractLsb' c d = v.extractLsb' (a + c) d := by
  apply BitVec.eq_of_getLsbD_eq
  intro i hi
  simp only [BitVec.getLsbD_extractLsb', hi, show c + i < b by omega, decide_true, Bool.true_and,
    Nat.add_assoc]

/-- A state without a name for each register. -/
theorem State.eta (s : State) : s = ⟨s.uop, s.nextAdr, s.rstGuard, s.memGuard, s.a, s.b, s.aluO,
    s.pc, s.mem, s.rdata, ⟨s.csr.mie, s.csr.mpie, s.csr.meie, s.csr.readBuf, s.csr.prevAdr⟩, s.dec,
    s.cause, s.dataAdr, s.writeData⟩ := rfl

theorem dec_of_step (d : DecState) (x : Word) :
    Dec (Keep.of (d.step false x)) (d.step false x) := by
  constructor <;> simp [Keep.of, DecState.step, MapState.step, ExcState.step]

/-- The decoder outputs after dispatch of a word that is not a CSR instruction. -/
def keepOf (w : Word) (d0 : DecState) : Keep :=
  ⟨insnRs1 w, insnRs2 w, insnRd w, immNext w d0.imm, mapOp w d0.map.requestedOp, d0.map.csrEncoding⟩

/-- The decoder outputs of a CSR instruction after its second decode cycle. -/
def keepCsr (w : Word) (d0 : DecState) : Keep :=
  ⟨insnRs1 w, insnRs2 w, insnRd w, immNext w d0.imm,
    mapCsr (insnFunct3 w) (insnRd w) (insnRs1 w) (csrAttrOf (insnFunct12 w)) 0x24#8, csrEncode w⟩

/-- Does the second decode cycle of a CSR instruction flag an exception? -/
def csrBad (w : Word) : Bool :=
  csrValid (csrAttrOf (insnFunct12 w)) (insnAccess w = 3#2) (insnFunct3 w) (insnRs1 w)
    (insnQuadrant w)

theorem dispatch (h : AtDispatch (ar, w) s) (hn : n = 0)
    (hint : ar.intEnabled = true → Fin F (ar.takeInterrupt .asBuilt) (n + .trap 5) (K true))
    (hexc : ∀ irq, (irq && ar.intEnabled) = false → decodeValid w = true →
      Fin F (ar.exception .asBuilt (decodeEType w)) (n + .trap 5) (K irq))
    (hgo : ∀ irq, (irq && ar.intEnabled) = false → decodeValid w = false → isCsrInsn w = false →
      ∀ d0 b o mem mie mpie meie rb pa d c da wd pc, Dec (keepOf w d0) d →
        Rel ar mem mie mpie meie c → ar.pc = pc ++ 0#2 →
        Impl F false ⟨rom (mapOp w d0.map.requestedOp), mapOp w d0.map.requestedOp + 1#8, false,
          false, ar.reg (insnRs1 w), b, o, pc, mem, ar.reg (insnRs2 w), ⟨mie, mpie, meie, rb, pa⟩, d,
          c, da, wd⟩ (K irq) (n + 1))
    (hcsr : ∀ irq, (irq && ar.intEnabled) = false → decodeValid w = false → isCsrInsn w = true →
      ∃ K', K irq = .poll K' ∧
        (ar.intEnabled = true → Fin F (ar.takeInterrupt .asBuilt) (n + .trap 6) (K' true)) ∧
        (∀ irq', (irq' && ar.intEnabled) = false → csrBad w = true →
          Fin F (ar.exception .asBuilt 2) (n + .trap 6) (K' irq')) ∧
        (∀ irq', (irq' && ar.intEnabled) = false → csrBad w = false →
          ∀ d0 b o mem mie mpie meie rb pa d c da wd pc, Dec (keepCsr w d0) d →
          Rel ar mem mie mpie meie c → ar.pc = pc ++ 0#2 →
          Impl F false ⟨rom (keepCsr w d0).op, (keepCsr w d0).op + 1#8, false, false,
            ar.reg (insnRs1 w), b, o, pc, mem, ar.reg (insnRs1 w), ⟨mie, mpie, meie, rb, pa⟩, d,
            c, da, wd⟩ (K' irq') (n + 2))) :
    Impl F pv s (.poll K) n := by
  obtain ⟨h1, h2, h3, h4, h5, h6, h7, d0, f1, f2, hd⟩ := h
  have hpend : ∀ i : Input, s.pending i = (i.irq && ar.intEnabled) := by
    intro i
    simp only [State.pending, intPending, Arch.intEnabled, h6.mie, h6.meie]
    cases ar.mie <;> cases ar.meie <;> cases i.irq <;> rfl
  have hvalid : s.dec.exc.valid = decodeValid w := by
    simp [hd, DecState.step, ExcState.step, f2]
  have hetype : s.dec.exc.eType = decodeEType w := by
    simp [hd, DecState.step, ExcState.step, f2]
  have hop : s.dec.map.requestedOp = mapOp w d0.map.requestedOp := by
    simp [hd, DecState.step, MapState.step, f1]
  refine .poll (by simp [State.cyc, h1, u_01]) (by simp [State.polls, h1, u_01]) (fun _ => by rw [hn]; rfl) fun i => ?_
  have htal : s.tally i = ⟨1, decodeValid w || (i.irq && ar.intEnabled), false, false, false⟩ := by
    simp [State.tally, State.cyc, State.exception, exceptionOut, h1, u_01, hvalid, hpend]
  rw [htal]
  have hmem : (s.step i).mem = s.mem := by
    simp [State.step, State.ram, ramCtl, RamCtl.memNext, h1, u_01]
  have hrd : (s.step i).rdata = ar.reg (insnRs2 w) := by
    rw [← h6.reg]
    simp [State.step, State.ram, ramCtl, RamCtl.rdataNext, State.regRAdr, h1, u_01, hd, DecState.step]
  have hcs : (s.step i).csr = ⟨s.csr.mie, s.csr.mpie, s.csr.meie, s.csr.readBuf, s.csrAdr⟩ := by
    simp [State.step, CsrState.step, h1, u_01]
  have hdec : (s.step i).dec = s.dec.step false i.datR := by
    simp [State.step, State.doDecode, h1, u_01]
  have hdec' : Dec (Keep.of (s.step i).dec) (s.step i).dec := by
    rw [hdec]; exact dec_of_step _ _
  have hpc : (s.step i).pc = s.pc := by simp [State.step, pcNext, h1, u_01]
  have hg1 : (s.step i).rstGuard = false := rfl
  have hg2 : (s.step i).memGuard = false := rfl
  have ha : (s.step i).a = ar.reg (insnRs1 w) := by
    simp [State.step, aNext, h1, u_01, h7]
  have hcause : (s.step i).cause = if (i.irq && ar.intEnabled) then ⟨11, true⟩
      else if decodeValid w then { s.cause with cause := decodeEType w } else s.cause := by
    simp [State.step, CauseLatch.step, h1, u_01, hpend, hvalid, hetype]
  have hadr : s.romAdr i = if (decodeValid w || (i.irq && ar.intEnabled)) then 0xf0#8
      else mapOp w d0.map.requestedOp := by
    simp [State.romAdr, State.test, State.exception, exceptionOut, testOut, rawTest, seqAdr, h1, h3,
      u_01, hpend, hvalid, hop]
  have hu : (s.step i).uop = rom (s.romAdr i) := rfl
  have hn : (s.step i).nextAdr = s.romAdr i + 1#8 := rfl
  have hpc' : ar.pc = (s.step i).pc ++ 0#2 := by rw [hpc]; exact h5
  generalize hs' : s.step i = s' at *
  rw [State.eta s', hu, hn, hadr, hg1, hg2, ha, hmem, hrd, hcs, hcause]
  cases hint' : (i.irq && ar.intEnabled) with
  | true =>
    have hi : i.irq = true ∧ ar.intEnabled = true := by simpa using hint'
    rw [hi.1]
    simp only [Bool.or_true, if_true, rom_f0]
    exact fin_trap hdec' h6 hpc' (int := true) (by simp) rfl (hint hi.2)
  | false =>
    cases hv : decodeValid w with
    | true =>
      simp only [Bool.or_false, if_true, rom_f0, Bool.false_eq_true, if_false]
      exact fin_exc _ hdec' h6 hpc' (hexc _ hint' hv)
    | false =>
      simp only [Bool.or_false, Bool.false_eq_true, if_false]
      cases hc : isCsrInsn w with
      | false =>
        refine hgo _ hint' hv hc d0 _ _ _ _ _ _ _ _ _ _ _ _ _ ?_ h6 hpc'
        rw [hdec, hd]
        have := excFwd_eq w hc
        constructor <;>
          simp [keepOf, DecState.step, MapState.step, ExcState.step, f1, f2, hc, this]
      | true =>
        obtain ⟨K', hK, k1, k2, k3⟩ := hcsr _ hint' hv hc
        rw [hK]
        have hop' : mapOp w d0.map.requestedOp = 0x24#8 := by
          simp only [isCsrInsn, Bool.and_eq_true, Bool.not_eq_true', decide_eq_true_eq,
            decide_eq_false_iff_not] at hc
          obtain ⟨⟨⟨⟨c1, c2⟩, c3⟩, c4⟩, c5⟩ := hc
          simp [mapOp, c1, c2, c3, c4, c5]
        have hfw : excFwd w = true := by
          simp only [isCsrInsn, Bool.and_eq_true, Bool.not_eq_true', decide_eq_true_eq,
            decide_eq_false_iff_not] at hc
          obtain ⟨⟨⟨⟨c1, c2⟩, c3⟩, c4⟩, c5⟩ := hc
          have e1 : ¬ w.extractLsb' 7 25 = ECALL.extractLsb' 7 25 := by
            intro e
            apply c4
            have := congrArg (fun (v : BitVec 25) => v.extractLsb' 5 3) e
            rw [extract_extract _ _ _ _ _ (by omega)] at this
            exact this
          have e2 : ¬ w = EBREAK := by
            intro e
            apply c4; rw [e]; rfl
          simp [excFwd, c1, c2, c3, c4, c5, e1, e2]
        rw [hop']
        simp only [rom_24]
        -- the state at the trampoline
        have hdx : ∃ d, (s'.dec : DecState) = d ∧ Dec (keepCsr w d0) d ∧ d.exc.valid = csrBad w ∧
            d.exc.eType = causeIllegal := by
          refine ⟨_, rfl, ?_, ?_, ?_⟩
          · rw [hdec, hd]
            constructor <;>
              simp [keepCsr, DecState.step, MapState.step, ExcState.step, f1, f2, hc, hfw, hop']
          · rw [hdec, hd]
            simp [csrBad, DecState.step, MapState.step, ExcState.step, f1, f2, hc, hfw]
          · rw [hdec, hd]
            simp [DecState.step, MapState.step, ExcState.step, f1, f2, hc, hfw]
        obtain ⟨d, hde, hD, hvd, het⟩ := hdx
        rw [hde]
        generalize s'.b = b', s'.aluO = o', s'.pc = pc' at *
        generalize s.csr.readBuf = rb', s.csrAdr = pa', s'.dataAdr = da', s'.writeData = wd' at *
        generalize s.csr.mie = mie, s.csr.mpie = mpie, s.csr.meie = meie, s.cause = c at *
        generalize s.mem = mem at *
        have hpend' : ∀ j : Input, intPending mie j.irq meie = (j.irq && ar.intEnabled) := by
          intro j
          simp only [intPending, Arch.intEnabled, h6.mie, h6.meie]
          cases ar.mie <;> cases ar.meie <;> cases j.irq <;> rfl
        refine .poll rfl rfl (by simp [u_24, u_01]) fun j => ?_
        rw [show State.tally _ j = ⟨1, csrBad w || (j.irq && ar.intEnabled), false, false, false⟩ by
          simp [State.tally, State.cyc, State.exception, State.pending, exceptionOut, u_24, hvd,
            hpend']]
        rw [State.eta (State.step _ j)]
        simp only [State.step, State.romAdr, State.test, State.exception, State.pending, testOut,
          rawTest, seqAdr, State.ram, ramCtl, RamCtl.memNext, RamCtl.rdataNext, State.regRAdr,
          State.regWAdr, State.allowZeroWr, State.csrAdr, CsrState.step, State.doDecode, aNext,
          bNext, pcNext, CauseLatch.step, exceptionOut, u_24, hpend', hvd, het, hD.op, hD.srcA]
        simp only [Bool.false_and, Bool.false_eq_true, if_false, if_true, Bool.true_and]
        have hD' := hD.next j.datR
        have hreg : mem (gpRamAdr (keepCsr w d0).srcA) = ar.reg (insnRs1 w) := h6.reg _
        cases hj : (j.irq && ar.intEnabled) with
        | true =>
          have hji : j.irq = true ∧ ar.intEnabled = true := by simpa using hj
          rw [hji.1]
          simp only [Bool.or_true, if_true, rom_f0]
          exact fin_trap hD' h6 hpc' (int := true) (by simp) rfl (k1 hji.2)
        | false =>
          cases hb : csrBad w with
          | true =>
            simp only [Bool.or_false, if_true, rom_f0, Bool.false_eq_true, if_false]
            exact fin_exc _ hD' h6 hpc' (k2 _ hj hb)
          | false =>
            simp only [Bool.or_false, Bool.false_eq_true, if_false]
            rw [hreg]
            exact k3 _ hj hb d0 _ _ _ _ _ _ _ _ _ _ _ _ _ hD' h6 hpc'

end Sentinel
