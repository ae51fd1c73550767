import Verif.Proof.Exec
/-!
# CSR instructions, and the whole instruction set
-/

set_option linter.unusedSimpArgs false

namespace Sentinel
open Ucode Spec

variable {ar : Arch} {w : Word} {s : State} {pv : Bool}

/-- The tree of a CSR instruction after its second interrupt sample. -/
def csrRest (ar : Arch) (op : CsrOp) (rd : Reg) (src : CsrSrc) (adr : BitVec 12) (irq irq' : Bool) :
    Tree ((Arch × Word) × List Event) :=
  ((if irq' && ar.intEnabled then Tree.ret (ar.takeInterrupt .asBuilt)
    else match csrKind adr with
      | .absent => .ret (ar.exception .asBuilt 2)
      | .zero =>
        if csrReadOnly adr ∧ csrWrites op src then .ret (ar.exception .asBuilt 2)
        else .ret (ar.setReg rd 0).next
      | .impl c => execCsr ar op rd src c).bind fetch).tag ([.poll irq] ++ [.poll irq'])

theorem idle_csr {op rd src adr} {irq irq' : Bool} {l : List Event}
    (hdec : decode w = some (.csr op rd src adr)) (hi : (irq && ar.intEnabled) = false) :
    idleCycles ar w ([.poll irq] ++ [.poll irq'] ++ l) = 2 +
      if irq' && ar.intEnabled then 4
        else match csrKind adr with
          | .absent => 4
          | .zero => if csrReadOnly adr ∧ csrWrites op src then 4 else 2
          | .impl _ => csrCycles op rd src := by
  simp only [idleCycles, List.cons_append, List.nil_append, hi, hdec, instrCycles,
    Bool.false_eq_true, if_false]
  rw [← Nat.add_assoc]; rfl

theorem traps_csr {op rd src adr} {irq irq' : Bool} {l : List Event}
    (hdec : decode w = some (.csr op rd src adr)) (hi : (irq && ar.intEnabled) = false) :
    traps ar w ([.poll irq] ++ [.poll irq'] ++ l) =
      (decide (csrKind adr = .absent ∨ (csrReadOnly adr = true ∧ csrWrites op src = true)) ||
        (irq' && ar.intEnabled)) := by
  simp only [List.cons_append, List.nil_append, traps_some hi hdec, instrTraps]

/-- The count of a CSR instruction that traps at its second cycle. -/
theorem tally_csr_trap {op rd src adr} {irq irq' : Bool} {l : List Event}
    (hdec : decode w = some (.csr op rd src adr)) (hi : (irq && ar.intEnabled) = false)
    (h : (irq' && ar.intEnabled) = true ∨
      csrKind adr = .absent ∨ (csrKind adr = .zero ∧ csrReadOnly adr ∧ csrWrites op src)) :
    Tally ar w ([.poll irq] ++ [.poll irq'] ++ l) (0 + .trap 6) := by
  refine ⟨?_, ?_, by simp⟩
  · rw [idle_csr hdec hi]
    rcases h with h | h | ⟨h, h'⟩
    · simp [h]
    · simp [h]
    · simp [h, h']
  · rw [traps_csr hdec hi]
    rcases h with h | h | ⟨h, h'⟩
    · simp [h]
    · simp [h]
    · simp [h']

/-- The count of a CSR instruction that completes. -/
theorem tally_csr {op rd src adr r} {irq irq' : Bool} {l : List Event} {n : Cnt}
    (hdec : decode w = some (.csr op rd src adr)) (hi : (irq && ar.intEnabled) = false)
    (hi' : (irq' && ar.intEnabled) = false) (hk : csrKind adr = .impl r)
    (hro : csrReadOnly adr = false)
    (h1 : n.idle = 2 + csrCycles op rd src) (h2 : n.exc = false) (h5 : n.st = false) (h3 : rd = 0 ∨ n.wr = true)
    (h4 : csrWrites op src = false ∨ n.cw = true) :
    Tally ar w ([.poll irq] ++ [.poll irq'] ++ l) n := by
  refine ⟨?_, ?_, fun h => (by rw [h5] at h; cases h), ?_, fun h => (by rw [h2] at h; cases h)⟩
  · rw [idle_csr hdec hi, h1]; simp [hi', hk]
  · rw [traps_csr hdec hi, h2]; simp [hi', hk, hro]
  · intro _ ins he
    rw [hdec] at he
    cases he
    refine ⟨fun q hq hq0 => ?_, fun q hq => ?_⟩
    · simp only [destReg, Option.some.injEq] at hq
      subst hq
      exact h3.resolve_left hq0
    · simp only [destCsr, hk] at hq
      rcases h4 with h | h
      · rw [h] at hq; cases hq
      · exact h

theorem csrWrites_eq (op : CsrOp) (src : CsrSrc) :
    csrWrites op src = (csrF3 op src = 1#3 || csrF3 op src = 5#3 || !(srcField src = 0#5)) := by
  cases op <;> cases src <;> simp [csrWrites, csrF3, srcField] <;> rfl

/-- End of a CSR instruction on an implemented CSR with old value `old`. -/
def csrFin (a : Arch) (op : CsrOp) (rd : Reg) (src : CsrSrc) (c : Csr) (old : Word) : Arch :=
  (if csrWrites op src then (a.setReg rd old).csrWrite (csrNew op old (a.csrOperand src)) c
    else a.setReg rd old).next

theorem csrFin_w {a : Arch} {op rd src c old} (h : csrWrites op src = true) :
    csrFin a op rd src c old =
      ((a.setReg rd old).csrWrite (csrNew op old (a.csrOperand src)) c).next := by
  rw [csrFin, if_pos h]

theorem csrFin_r {a : Arch} {op rd src c old} (h : csrWrites op src = false) :
    csrFin a op rd src c old = (a.setReg rd old).next := by
  rw [csrFin, h]; rfl

theorem execCsr_plain {a : Arch} {op rd src c} (h : c ≠ .mip) :
    execCsr a op rd src c = .ret (csrFin a op rd src c (a.csrRead false c)) := by
  simp only [execCsr, h, false_and, if_false]; rfl

theorem execCsr_noread {a : Arch} {op rd src c} (h : csrReads op rd = false) :
    execCsr a op rd src c = .ret (csrFin a op rd src c (a.csrRead false c)) := by
  simp only [execCsr, h, Bool.false_eq_true, and_false, if_false]; rfl

theorem execCsr_mip {a : Arch} {op rd src} (h : csrReads op rd = true)
    (h2 : ¬ (op = .rc ∧ csrWrites op src = true)) :
    execCsr a op rd src .mip = .poll fun irq => .ret (csrFin a op rd src .mip (a.csrRead irq .mip)) := by
  simp only [execCsr, h, and_self, if_true, h2, if_false]; rfl

theorem execCsr_mip2 {a : Arch} {rd src} (h : csrReads .rc rd = true)
    (h2 : csrWrites .rc src = true) :
    execCsr a .rc rd src .mip =
      .poll fun irq => .poll fun _ => .ret (csrFin a .rc rd src .mip (a.csrRead irq .mip)) := by
  simp only [execCsr, h, and_self, if_true, h2, csrFin]

theorem Arch.setReg_zero (a : Arch) (v : Word) : a.setReg 0 v = a := by simp [Arch.setReg]

theorem exec_csr {op rd src adr} (h : AtDispatch (ar, w) s)
    (hdec : decode w = some (.csr op rd src adr)) :
    Impl (Timed ar w) pv s (.poll (rest ar w)) 0 := by
  obtain ⟨g1, g2, h1, h2, h3, h4⟩ := decoded hdec
  have htab := csrTable adr
  have hbad : csrBad w = csrValid (csrAttrOf adr) (adr.extractLsb' 10 2 = 3#2) (csrF3 op src)
      (srcField src) (adr.extractLsb' 8 2) := by
    simp only [csrBad, insnAccess, insnQuadrant, h2, h3, h4]
  refine dispatch h rfl ?_ ?_ ?_ ?_
  · intro hi
    simp only [rest, hi, Bool.true_and, if_true]
    refine fin_tag fun d => ?_
    exact tally_irq hi
  · intro irq _ hv; rw [g1] at hv; cases hv
  · intro irq _ _ hc; rw [g2] at hc; cases hc
  · intro irq hi _ _
    refine ⟨csrRest ar op rd src adr irq, ?_, ?_, ?_, ?_⟩
    · rw [rest_some hi hdec]; rfl
    · intro he
      simp only [csrRest, he, Bool.true_and, if_true]
      refine fin_tag fun d => ?_
      exact tally_csr_trap hdec hi (.inl he)
    · intro irq' hi' hb
      simp only [csrRest, hi', Bool.false_eq_true, if_false]
      have hx : csrKind adr = .absent ∨ (csrKind adr = .zero ∧ csrReadOnly adr ∧ csrWrites op src) := by
        rw [hbad] at hb
        cases hk : csrKind adr with
        | absent => exact .inl rfl
        | zero =>
          refine .inr ⟨rfl, ?_⟩
          simp only [csrTableOk, hk, Bool.and_eq_true, decide_eq_true_eq] at htab
          rw [csrWrites_eq, csrReadOnly]
          simpa [csrValid, htab.1, htab.2, Attr.ro0'] using hb
        | impl c =>
          simp only [csrTableOk, hk, Bool.and_eq_true, decide_eq_true_eq, Bool.not_eq_true',
            decide_eq_false_iff_not] at htab
          simp [csrValid, htab, Attr.implemented] at hb
      rcases hx with hk | ⟨hk, hw⟩
      · simp only [hk]
        refine fin_tag fun d => ?_
        exact tally_csr_trap hdec hi (.inr (.inl hk))
      · simp only [hk, hw, if_true, and_self]
        refine fin_tag fun d => ?_
        exact tally_csr_trap hdec hi (.inr (.inr ⟨hk, hw⟩))
    · intro irq' hi' hb d0 b o mem mie mpie meie rb pa d c da wd pc hd hrel hpc
      simp only [csrRest, hi', Bool.false_eq_true, if_false]
      have e1 : (keepCsr w d0).dst = rd := h1
      have e2 : (keepCsr w d0).srcA = srcField src := h2
      have e3 : (keepCsr w d0).op = mapCsr (csrF3 op src) rd (srcField src) (csrAttrOf adr) 0x24#8 := by
        simp only [keepCsr, h1, h2, h3, h4]
      have hreg : ar.reg (insnRs1 w) = ar.reg (srcField src) := by rw [h2]
      rw [hreg]
      rw [hbad] at hb
      cases hk : csrKind adr with
      | absent =>
        simp only [csrTableOk, hk, Bool.or_eq_true, decide_eq_false_iff_not, Bool.not_eq_true'] at htab
        exfalso
        rcases htab with e | e <;> simp [csrValid, e] at hb
      | zero =>
        have hw : ¬ (csrReadOnly adr = true ∧ csrWrites op src = true) := by
          simp only [csrTableOk, hk, Bool.and_eq_true, decide_eq_true_eq] at htab
          rw [csrWrites_eq, csrReadOnly]
          simpa [csrValid, htab.1, htab.2, Attr.ro0'] using hb
        have e4 : (keepCsr w d0).op = 0x25#8 := by
          simp only [csrTableOk, hk, Bool.and_eq_true, decide_eq_true_eq] at htab
          rw [e3]; simp [mapCsr, htab.1, Attr.ro0']
        rw [e4, rom_25]
        simp only [hw, if_false]
        refine r_25 hd hrel hpc ?_
        rw [e1]
        refine fin_tag fun d => ?_
        refine ⟨?_, ?_, ?_⟩
        · rw [idle_csr hdec hi]; simp [hi', hk, hw]
        · rw [traps_csr hdec hi]; simp [hi', hk, hw]
        · simp [hdec, destReg, destCsr, hk]
      | impl r =>
        simp only [csrTableOk, hk, Bool.and_eq_true, decide_eq_true_eq, Bool.not_eq_true',
          decide_eq_false_iff_not] at htab
        obtain ⟨⟨⟨t1, t2⟩, t3⟩, t4⟩ := htab
        have hE : (keepCsr w d0).enc = encOf r := by
          simp only [keepCsr, csrEncode, h4]; exact t4
        have hro : csrReadOnly adr = false := by simpa [csrReadOnly] using t3
        have hidle : ∀ (l : List Event) (n : Cnt), n.idle = 2 + csrCycles op rd src → n.exc = false → n.st = false →
            (rd = 0 ∨ n.wr = true) → (csrWrites op src = false ∨ n.cw = true) →
            Tally ar w ([.poll irq] ++ [.poll irq'] ++ l) n :=
          fun l n => tally_csr hdec hi hi' hk hro
        have hidle2 : ∀ (l l' : List Event) (n : Cnt), n.idle = 2 + csrCycles op rd src → n.exc = false → n.st = false →
            (rd = 0 ∨ n.wr = true) → (csrWrites op src = false ∨ n.cw = true) →
            Tally ar w ([.poll irq] ++ [.poll irq'] ++ l ++ l') n := by
          intro l l'; rw [List.append_assoc]; exact hidle _
        have hidle3 : ∀ (l l' l'' : List Event) (n : Cnt), n.idle = 2 + csrCycles op rd src → n.exc = false → n.st = false →
            (rd = 0 ∨ n.wr = true) → (csrWrites op src = false ∨ n.cw = true) →
            Tally ar w ([.poll irq] ++ [.poll irq'] ++ l ++ l' ++ l'') n := by
          intro l l' l''; rw [List.append_assoc, List.append_assoc]; exact hidle _
        simp only [mapCsr, t1, Attr.implemented, Bool.false_eq_true, if_false] at e3
        dsimp only
        cases op <;> cases src
        case rw.reg x =>
          by_cases hz : rd = 0#5
          · have hz' : rd = 0 := hz
            simp (config := { decide := true }) only [csrF3, srcField, hz, if_true, if_false, and_true, and_false, true_and, false_and, ne_eq, not_true, not_false_eq_true] at e3
            rw [e3, rom_26]
            have hR : csrReads .rw rd = false := by simp [csrReads, hz]
            have hW : csrWrites .rw (.reg x) = true := by simp [csrWrites, hz]
            refine r_26 hd hrel hpc hE ?_
            rw [execCsr_noread hR, csrFin_w hW]
            simp only [e1, e2, srcField, csrNew, Arch.csrOperand, hz', Arch.setReg_zero, Tree.bind_poll, Tree.bind_ret, Tree.tag]
            refine fin_tag fun d => ?_
            apply hidle <;> simp [csrCycles, hz, hW]
          · have hz' : ¬ rd = 0 := hz
            simp (config := { decide := true }) only [csrF3, srcField, hz, if_true, if_false, and_true, and_false, true_and, false_and, ne_eq, not_true, not_false_eq_true] at e3
            rw [e3, rom_27]
            have hR : csrReads .rw rd = true := by simp [csrReads, hz]
            have hW : csrWrites .rw (.reg x) = true := by simp [csrWrites, hz]
            by_cases hm : r = .mip
            · subst hm
              rw [execCsr_mip hR (by simp [hW])]
              simp only [csrFin_w hW, csrNew, Arch.csrOperand, Tree.bind_poll, Tree.bind_ret, Tree.tag]
              refine r_27_mip hd hrel hpc hE fun i1 => ?_
              simp only [e1, e2, srcField]
              refine fin_tag fun d => ?_
              apply hidle2 <;> simp [csrCycles, hz, hW]
            · refine r_27 hd hrel hpc hE hm ?_
              rw [execCsr_plain hm, csrFin_w hW]
              simp only [e1, e2, srcField, csrNew, Arch.csrOperand, Tree.bind_poll, Tree.bind_ret, Tree.tag]
              refine fin_tag fun d => ?_
              apply hidle <;> simp [csrCycles, hz, hW]
        case rs.reg x =>
          by_cases hz : x = 0#5
          · have hz' : x = 0 := hz
            simp (config := { decide := true }) only [csrF3, srcField, hz, if_true, if_false, and_true, and_false, true_and, false_and, ne_eq, not_true, not_false_eq_true] at e3
            rw [e3, rom_28]
            have hR : csrReads .rs rd = true := by simp [csrReads, hz]
            have hW : csrWrites .rs (.reg x) = false := by simp [csrWrites, hz]
            by_cases hm : r = .mip
            · subst hm
              rw [execCsr_mip hR (by simp [hW])]
              simp only [csrFin_r hW, csrNew, Arch.csrOperand, Tree.bind_poll, Tree.bind_ret, Tree.tag]
              refine r_28_mip hd hrel hpc hE fun i1 => ?_
              simp only [e1, e2, srcField]
              refine fin_tag fun d => ?_
              apply hidle2 <;> simp [csrCycles, hW]
            · refine r_28 hd hrel hpc hE hm ?_
              rw [execCsr_plain hm, csrFin_r hW]
              simp only [e1, e2, srcField, csrNew, Arch.csrOperand, Tree.bind_poll, Tree.bind_ret, Tree.tag]
              refine fin_tag fun d => ?_
              apply hidle <;> simp [csrCycles, hW]
          · have hz' : ¬ x = 0 := hz
            simp (config := { decide := true }) only [csrF3, srcField, hz, if_true, if_false, and_true, and_false, true_and, false_and, ne_eq, not_true, not_false_eq_true] at e3
            rw [e3, rom_29]
            have hR : csrReads .rs rd = true := by simp [csrReads, hz]
            have hW : csrWrites .rs (.reg x) = true := by simp [csrWrites, hz]
            by_cases hm : r = .mip
            · subst hm
              rw [execCsr_mip hR (by simp [hW])]
              simp only [csrFin_w hW, csrNew, Arch.csrOperand, Tree.bind_poll, Tree.bind_ret, Tree.tag]
              refine r_29_mip hd hrel hpc hE fun i1 => ?_
              simp only [e1, e2, srcField]
              refine fin_tag fun d => ?_
              apply hidle2 <;> simp [csrCycles, hW]
            · refine r_29 hd hrel hpc hE hm ?_
              rw [execCsr_plain hm, csrFin_w hW]
              simp only [e1, e2, srcField, csrNew, Arch.csrOperand, Tree.bind_poll, Tree.bind_ret, Tree.tag]
              refine fin_tag fun d => ?_
              apply hidle <;> simp [csrCycles, hW]
        case rc.reg x =>
          by_cases hz : x = 0#5
          · have hz' : x = 0 := hz
            simp (config := { decide := true }) only [csrF3, srcField, hz, if_true, if_false, and_true, and_false, true_and, false_and, ne_eq, not_true, not_false_eq_true] at e3
            rw [e3, rom_28]
            have hR : csrReads .rc rd = true := by simp [csrReads, hz]
            have hW : csrWrites .rc (.reg x) = false := by simp [csrWrites, hz]
            by_cases hm : r = .mip
            · subst hm
              rw [execCsr_mip hR (by simp [hW])]
              simp only [csrFin_r hW, csrNew, Arch.csrOperand, Tree.bind_poll, Tree.bind_ret, Tree.tag]
              refine r_28_mip hd hrel hpc hE fun i1 => ?_
              simp only [e1, e2, srcField]
              refine fin_tag fun d => ?_
              apply hidle2 <;> simp [csrCycles, hW]
            · refine r_28 hd hrel hpc hE hm ?_
              rw [execCsr_plain hm, csrFin_r hW]
              simp only [e1, e2, srcField, csrNew, Arch.csrOperand, Tree.bind_poll, Tree.bind_ret, Tree.tag]
              refine fin_tag fun d => ?_
              apply hidle <;> simp [csrCycles, hW]
          · have hz' : ¬ x = 0 := hz
            simp (config := { decide := true }) only [csrF3, srcField, hz, if_true, if_false, and_true, and_false, true_and, false_and, ne_eq, not_true, not_false_eq_true] at e3
            rw [e3, rom_2a]
            have hR : csrReads .rc rd = true := by simp [csrReads, hz]
            have hW : csrWrites .rc (.reg x) = true := by simp [csrWrites, hz]
            by_cases hm : r = .mip
            · subst hm
              rw [execCsr_mip2 hR hW]
              simp only [csrFin_w hW, csrNew, Arch.csrOperand, Tree.bind_poll, Tree.bind_ret, Tree.tag]
              refine r_2a_mip hd hrel hpc hE fun i1 i2 => ?_
              simp only [e1, e2, srcField]
              refine fin_tag fun d => ?_
              apply hidle3 <;> simp [csrCycles, hW]
            · refine r_2a hd hrel hpc hE hm ?_
              rw [execCsr_plain hm, csrFin_w hW]
              simp only [e1, e2, srcField, csrNew, Arch.csrOperand, Tree.bind_poll, Tree.bind_ret, Tree.tag]
              refine fin_tag fun d => ?_
              apply hidle <;> simp [csrCycles, hW]
        case rw.imm x =>
          by_cases hz : rd = 0#5
          · have hz' : rd = 0 := hz
            simp (config := { decide := true }) only [csrF3, srcField, hz, if_true, if_false, and_true, and_false, true_and, false_and, ne_eq, not_true, not_false_eq_true] at e3
            rw [e3, rom_2b]
            have hR : csrReads .rw rd = false := by simp [csrReads, hz]
            have hW : csrWrites .rw (.imm x) = true := by simp [csrWrites, hz]
            refine r_2b hd hrel hpc hE ?_
            rw [execCsr_noread hR, csrFin_w hW]
            simp only [e1, e2, srcField, csrNew, Arch.csrOperand, hz', Arch.setReg_zero, Tree.bind_poll, Tree.bind_ret, Tree.tag]
            refine fin_tag fun d => ?_
            apply hidle <;> simp [csrCycles, hz, hW]
          · have hz' : ¬ rd = 0 := hz
            simp (config := { decide := true }) only [csrF3, srcField, hz, if_true, if_false, and_true, and_false, true_and, false_and, ne_eq, not_true, not_false_eq_true] at e3
            rw [e3, rom_2c]
            have hR : csrReads .rw rd = true := by simp [csrReads, hz]
            have hW : csrWrites .rw (.imm x) = true := by simp [csrWrites, hz]
            by_cases hm : r = .mip
            · subst hm
              rw [execCsr_mip hR (by simp [hW])]
              simp only [csrFin_w hW, csrNew, Arch.csrOperand, Tree.bind_poll, Tree.bind_ret, Tree.tag]
              refine r_2c_mip hd hrel hpc hE fun i1 => ?_
              simp only [e1, e2, srcField]
              refine fin_tag fun d => ?_
              apply hidle2 <;> simp [csrCycles, hz, hW]
            · refine r_2c hd hrel hpc hE hm ?_
              rw [execCsr_plain hm, csrFin_w hW]
              simp only [e1, e2, srcField, csrNew, Arch.csrOperand, Tree.bind_poll, Tree.bind_ret, Tree.tag]
              refine fin_tag fun d => ?_
              apply hidle <;> simp [csrCycles, hz, hW]
        case rs.imm x =>
          by_cases hz : x = 0#5
          · have hz' : x = 0 := hz
            simp (config := { decide := true }) only [csrF3, srcField, hz, if_true, if_false, and_true, and_false, true_and, false_and, ne_eq, not_true, not_false_eq_true] at e3
            rw [e3, rom_28]
            have hR : csrReads .rs rd = true := by simp [csrReads, hz]
            have hW : csrWrites .rs (.imm x) = false := by simp [csrWrites, hz]
            by_cases hm : r = .mip
            · subst hm
              rw [execCsr_mip hR (by simp [hW])]
              simp only [csrFin_r hW, csrNew, Arch.csrOperand, Tree.bind_poll, Tree.bind_ret, Tree.tag]
              refine r_28_mip hd hrel hpc hE fun i1 => ?_
              simp only [e1, e2, srcField]
              refine fin_tag fun d => ?_
              apply hidle2 <;> simp [csrCycles, hW]
            · refine r_28 hd hrel hpc hE hm ?_
              rw [execCsr_plain hm, csrFin_r hW]
              simp only [e1, e2, srcField, csrNew, Arch.csrOperand, Tree.bind_poll, Tree.bind_ret, Tree.tag]
              refine fin_tag fun d => ?_
              apply hidle <;> simp [csrCycles, hW]
          · have hz' : ¬ x = 0 := hz
            simp (config := { decide := true }) only [csrF3, srcField, hz, if_true, if_false, and_true, and_false, true_and, false_and, ne_eq, not_true, not_false_eq_true] at e3
            rw [e3, rom_2d]
            have hR : csrReads .rs rd = true := by simp [csrReads, hz]
            have hW : csrWrites .rs (.imm x) = true := by simp [csrWrites, hz]
            by_cases hm : r = .mip
            · subst hm
              rw [execCsr_mip hR (by simp [hW])]
              simp only [csrFin_w hW, csrNew, Arch.csrOperand, Tree.bind_poll, Tree.bind_ret, Tree.tag]
              refine r_2d_mip hd hrel hpc hE fun i1 => ?_
              simp only [e1, e2, srcField]
              refine fin_tag fun d => ?_
              apply hidle2 <;> simp [csrCycles, hW]
            · refine r_2d hd hrel hpc hE hm ?_
              rw [execCsr_plain hm, csrFin_w hW]
              simp only [e1, e2, srcField, csrNew, Arch.csrOperand, Tree.bind_poll, Tree.bind_ret, Tree.tag]
              refine fin_tag fun d => ?_
              apply hidle <;> simp [csrCycles, hW]
        case rc.imm x =>
          by_cases hz : x = 0#5
          · have hz' : x = 0 := hz
            simp (config := { decide := true }) only [csrF3, srcField, hz, if_true, if_false, and_true, and_false, true_and, false_and, ne_eq, not_true, not_false_eq_true] at e3
            rw [e3, rom_28]
            have hR : csrReads .rc rd = true := by simp [csrReads, hz]
            have hW : csrWrites .rc (.imm x) = false := by simp [csrWrites, hz]
            by_cases hm : r = .mip
            · subst hm
              rw [execCsr_mip hR (by simp [hW])]
              simp only [csrFin_r hW, csrNew, Arch.csrOperand, Tree.bind_poll, Tree.bind_ret, Tree.tag]
              refine r_28_mip hd hrel hpc hE fun i1 => ?_
              simp only [e1, e2, srcField]
              refine fin_tag fun d => ?_
              apply hidle2 <;> simp [csrCycles, hW]
            · refine r_28 hd hrel hpc hE hm ?_
              rw [execCsr_plain hm, csrFin_r hW]
              simp only [e1, e2, srcField, csrNew, Arch.csrOperand, Tree.bind_poll, Tree.bind_ret, Tree.tag]
              refine fin_tag fun d => ?_
              apply hidle <;> simp [csrCycles, hW]
          · have hz' : ¬ x = 0 := hz
            simp (config := { decide := true }) only [csrF3, srcField, hz, if_true, if_false, and_true, and_false, true_and, false_and, ne_eq, not_true, not_false_eq_true] at e3
            rw [e3, rom_2e]
            have hR : csrReads .rc rd = true := by simp [csrReads, hz]
            have hW : csrWrites .rc (.imm x) = true := by simp [csrWrites, hz]
            by_cases hm : r = .mip
            · subst hm
              rw [execCsr_mip2 hR hW]
              simp only [csrFin_w hW, csrNew, Arch.csrOperand, Tree.bind_poll, Tree.bind_ret, Tree.tag]
              refine r_2e_mip hd hrel hpc hE fun i1 i2 => ?_
              simp only [e1, e2, srcField]
              refine fin_tag fun d => ?_
              apply hidle3 <;> simp [csrCycles, hW]
            · refine r_2e hd hrel hpc hE hm ?_
              rw [execCsr_plain hm, csrFin_w hW]
              simp only [e1, e2, srcField, csrNew, Arch.csrOperand, Tree.bind_poll, Tree.bind_ret, Tree.tag]
              refine fin_tag fun d => ?_
              apply hidle <;> simp [csrCycles, hW]

/-- **One instruction.**  From dispatch of the word `w` in the state `ar`, the core takes part in the
events of the instruction and of the fetch of the next word, reaches dispatch of that word in the
state the instruction leads to, and spends `idleCycles` cycles without a bus request. -/
theorem exec_impl (h : AtDispatch (ar, w) s) :
    Impl (Timed ar w) pv s ((cycle .asBuilt (ar, w)).tag []) 0 := by
  rw [cycle_tag]
  cases hdec : decode w with
  | none => exact exec_none h hdec
  | some ins =>
    cases ins with
    | lui => exact exec_lui h hdec
    | auipc => exact exec_auipc h hdec
    | jal => exact exec_jal h hdec
    | jalr => exact exec_jalr h hdec
    | branch => exact exec_branch h hdec
    | load => exact exec_load h hdec
    | store => exact exec_store h hdec
    | opImm => exact exec_opImm h hdec
    | op => exact exec_op h hdec
    | fence => exact exec_fence h hdec
    | ecall => exact exec_ecall h hdec
    | ebreak => exact exec_ebreak h hdec
    | mret => exact exec_mret h hdec
    | wfi => exact exec_wfi h hdec
    | csr => exact exec_csr h hdec

end Sentinel
