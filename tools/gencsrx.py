out=['''import Verif.Proof.Exec
/-!
# CSR instructions, and the whole instruction set
-/

set_option linter.unusedSimpArgs false

namespace Sentinel
open Ucode Spec

variable {ar : Arch} {w : Word} {s : State} {pv : Bool}

/-- The tree of a CSR instruction after its second interrupt sample. -/
def csrRest (ar : Arch) (op : CsrOp) (rd : Reg) (src : CsrSrc) (adr : BitVec 12) (irq irq' : Bool) :
    Tree ((Arch × Word) × List Event) :=
  ((if irq' && ar.intEnabled then Tree.ret (ar.takeInterrupt .asBuilt)
    else match csrKind adr with
      | .absent => .ret (ar.exception .asBuilt 2)
      | .zero =>
        if csrReadOnly adr ∧ csrWrites op src then .ret (ar.exception .asBuilt 2)
        else .ret (ar.setReg rd 0).next
      | .impl c => execCsr ar op rd src c).bind fetch).tag ([.poll irq] ++ [.poll irq'])

theorem idle_csr {op rd src adr} {irq irq' : Bool} {l : List Event}
    (hdec : decode w = some (.csr op rd src adr)) (hi : (irq && ar.intEnabled) = false) :
    idleCycles ar w ([.poll irq] ++ [.poll irq'] ++ l) = 2 +
      if irq' && ar.intEnabled then 4
        else match csrKind adr with
          | .absent => 4
          | .zero => if csrReadOnly adr ∧ csrWrites op src then 4 else 2
          | .impl _ => csrCycles op rd src := by
  simp only [idleCycles, List.cons_append, List.nil_append, hi, hdec, instrCycles,
    Bool.false_eq_true, if_false]
  rw [← Nat.add_assoc]; rfl

theorem csrWrites_eq (op : CsrOp) (src : CsrSrc) :
    csrWrites op src = (csrF3 op src = 1#3 || csrF3 op src = 5#3 || !(srcField src = 0#5)) := by
  cases op <;> cases src <;> simp [csrWrites, csrF3, srcField] <;> rfl

/-- End of a CSR instruction on an implemented CSR with old value `old`. -/
def csrFin (a : Arch) (op : CsrOp) (rd : Reg) (src : CsrSrc) (c : Csr) (old : Word) : Arch :=
  (if csrWrites op src then (a.setReg rd old).csrWrite (csrNew op old (a.csrOperand src)) c
    else a.setReg rd old).next

theorem csrFin_w {a : Arch} {op rd src c old} (h : csrWrites op src = true) :
    csrFin a op rd src c old =
      ((a.setReg rd old).csrWrite (csrNew op old (a.csrOperand src)) c).next := by
  rw [csrFin, if_pos h]

theorem csrFin_r {a : Arch} {op rd src c old} (h : csrWrites op src = false) :
    csrFin a op rd src c old = (a.setReg rd old).next := by
  rw [csrFin, h]; rfl

theorem execCsr_plain {a : Arch} {op rd src c} (h : c ≠ .mip) :
    execCsr a op rd src c = .ret (csrFin a op rd src c (a.csrRead false c)) := by
  simp only [execCsr, h, false_and, if_false]; rfl

theorem execCsr_noread {a : Arch} {op rd src c} (h : csrReads op rd = false) :
    execCsr a op rd src c = .ret (csrFin a op rd src c (a.csrRead false c)) := by
  simp only [execCsr, h, Bool.false_eq_true, and_false, if_false]; rfl

theorem execCsr_mip {a : Arch} {op rd src} (h : csrReads op rd = true)
    (h2 : ¬ (op = .rc ∧ csrWrites op src = true)) :
    execCsr a op rd src .mip = .poll fun irq => .ret (csrFin a op rd src .mip (a.csrRead irq .mip)) := by
  simp only [execCsr, h, and_self, if_true, h2, if_false]; rfl

theorem execCsr_mip2 {a : Arch} {rd src} (h : csrReads .rc rd = true)
    (h2 : csrWrites .rc src = true) :
    execCsr a .rc rd src .mip =
      .poll fun irq => .poll fun _ => .ret (csrFin a .rc rd src .mip (a.csrRead irq .mip)) := by
  simp only [execCsr, h, and_self, if_true, h2, csrFin]

theorem Arch.setReg_zero (a : Arch) (v : Word) : a.setReg 0 v = a := by simp [Arch.setReg]

theorem exec_csr {op rd src adr} (h : AtDispatch (ar, w) s)
    (hdec : decode w = some (.csr op rd src adr)) :
    Impl (Timed ar w) pv s (.poll (rest ar w)) 0 := by
  obtain ⟨g1, g2, h1, h2, h3, h4⟩ := decoded hdec
  have htab := csrTable adr
  have hbad : csrBad w = csrValid (csrAttrOf adr) (adr.extractLsb' 10 2 = 3#2) (csrF3 op src)
      (srcField src) (adr.extractLsb' 8 2) := by
    simp only [csrBad, insnAccess, insnQuadrant, h2, h3, h4]
  refine dispatch h rfl ?_ ?_ ?_ ?_
  · intro hi
    simp only [rest, hi, Bool.true_and, if_true]
    refine fin_tag fun d => ?_
    simp [idleCycles, hi]
  · intro irq _ hv; rw [g1] at hv; cases hv
  · intro irq _ _ hc; rw [g2] at hc; cases hc
  · intro irq hi _ _
    refine ⟨csrRest ar op rd src adr irq, ?_, ?_, ?_, ?_⟩
    · rw [rest_some hi hdec]; rfl
    · intro he
      simp only [csrRest, he, Bool.true_and, if_true]
      refine fin_tag fun d => ?_
      rw [idle_csr hdec hi]; simp [he]
    · intro irq' hi' hb
      simp only [csrRest, hi', Bool.false_eq_true, if_false]
      have hx : csrKind adr = .absent ∨ (csrKind adr = .zero ∧ csrReadOnly adr ∧ csrWrites op src) := by
        rw [hbad] at hb
        cases hk : csrKind adr with
        | absent => exact .inl rfl
        | zero =>
          refine .inr ⟨rfl, ?_⟩
          simp only [csrTableOk, hk, Bool.and_eq_true, decide_eq_true_eq] at htab
          rw [csrWrites_eq, csrReadOnly]
          simpa [csrValid, htab.1, htab.2, Attr.ro0'] using hb
        | impl c =>
          simp only [csrTableOk, hk, Bool.and_eq_true, decide_eq_true_eq, Bool.not_eq_true',
            decide_eq_false_iff_not] at htab
          simp [csrValid, htab, Attr.implemented] at hb
      rcases hx with hk | ⟨hk, hw⟩
      · simp only [hk]
        refine fin_tag fun d => ?_
        rw [idle_csr hdec hi]; simp [hi', hk]
      · simp only [hk, hw, if_true, and_self]
        refine fin_tag fun d => ?_
        rw [idle_csr hdec hi]; simp [hi', hk, hw]
    · intro irq' hi' hb d0 b o mem mie mpie meie rb pa d c da wd pc hd hrel hpc
      simp only [csrRest, hi', Bool.false_eq_true, if_false]
      have e1 : (keepCsr w d0).dst = rd := h1
      have e2 : (keepCsr w d0).srcA = srcField src := h2
      have e3 : (keepCsr w d0).op = mapCsr (csrF3 op src) rd (srcField src) (csrAttrOf adr) 0x24#8 := by
        simp only [keepCsr, h1, h2, h3, h4]
      have hreg : ar.reg (insnRs1 w) = ar.reg (srcField src) := by rw [h2]
      rw [hreg]
      rw [hbad] at hb
      cases hk : csrKind adr with
      | absent =>
        simp only [csrTableOk, hk, Bool.or_eq_true, decide_eq_false_iff_not, Bool.not_eq_true'] at htab
        exfalso
        rcases htab with e | e <;> simp [csrValid, e] at hb
      | zero =>
        have hw : ¬ (csrReadOnly adr = true ∧ csrWrites op src = true) := by
          simp only [csrTableOk, hk, Bool.and_eq_true, decide_eq_true_eq] at htab
          rw [csrWrites_eq, csrReadOnly]
          simpa [csrValid, htab.1, htab.2, Attr.ro0'] using hb
        have e4 : (keepCsr w d0).op = 0x25#8 := by
          simp only [csrTableOk, hk, Bool.and_eq_true, decide_eq_true_eq] at htab
          rw [e3]; simp [mapCsr, htab.1, Attr.ro0']
        rw [e4, rom_25]
        simp only [hw, if_false]
        refine r_25 hd hrel hpc ?_
        rw [e1]
        refine fin_tag fun d => ?_
        rw [idle_csr hdec hi]; simp [hi', hk, hw]
      | impl r =>
        simp only [csrTableOk, hk, Bool.and_eq_true, decide_eq_true_eq, Bool.not_eq_true',
          decide_eq_false_iff_not] at htab
        obtain ⟨⟨⟨t1, t2⟩, t3⟩, t4⟩ := htab
        have hE : (keepCsr w d0).enc = encOf r := by
          simp only [keepCsr, csrEncode, h4]; exact t4
        have hidle : ∀ l, idleCycles ar w ([.poll irq] ++ [.poll irq'] ++ l) = 2 + csrCycles op rd src := by
          intro l; rw [idle_csr hdec hi]; simp [hi', hk]
        have hidle2 : ∀ l l', idleCycles ar w ([.poll irq] ++ [.poll irq'] ++ l ++ l') =
            2 + csrCycles op rd src := by
          intro l l'; rw [List.append_assoc]; exact hidle _
        have hidle3 : ∀ l l' l'', idleCycles ar w ([.poll irq] ++ [.poll irq'] ++ l ++ l' ++ l'') =
            2 + csrCycles op rd src := by
          intro l l' l''; rw [List.append_assoc, List.append_assoc]; exact hidle _
        simp only [mapCsr, t1, Attr.implemented, Bool.false_eq_true, if_false] at e3
        dsimp only
        cases op <;> cases src
''']
P=out.append

D="simp (config := { decide := true }) only [csrF3, srcField, hz, if_true, if_false, and_true, and_false, true_and, false_and, ne_eq, not_true, not_false_eq_true] at e3"
def case(entry, op, src, z):
    I='            '; J=I+'  '
    s=f"{I}rw [e3, rom_{entry}]\n"
    reads = not (op=='rw' and z)
    writes = op=='rw' or not z
    s+=f"{I}have hR : csrReads .{op} rd = {'true' if reads else 'false'} := by simp [csrReads, hz]\n"
    s+=f"{I}have hW : csrWrites .{op} (.{src} x) = {'true' if writes else 'false'} := by simp [csrWrites, hz]\n"
    cyc="simp [csrCycles, hz]" if op=='rw' else "simp [csrCycles, hW]"
    fin="csrFin_w hW" if writes else "csrFin_r hW"
    T="Tree.bind_poll, Tree.bind_ret, Tree.tag"
    if not reads:
        s+=f"{I}refine r_{entry} hd hrel hpc hE ?_\n"
        s+=f"{I}rw [execCsr_noread hR, {fin}]\n"
        s+=f"{I}simp only [e1, e2, srcField, csrNew, Arch.csrOperand, hz', Arch.setReg_zero, {T}]\n"
        s+=f"{I}refine fin_tag fun d => ?_\n{I}rw [hidle]; {cyc}\n"
        return s
    s+=f"{I}by_cases hm : r = .mip\n{I}· subst hm\n"
    dbl = op=='rc' and writes
    if dbl:
        s+=f"{J}rw [execCsr_mip2 hR hW]\n{J}simp only [{fin}, csrNew, Arch.csrOperand, {T}]\n"
        s+=f"{J}refine r_{entry}_mip hd hrel hpc hE fun i1 i2 => ?_\n"
        h='hidle3'
    else:
        s+=f"{J}rw [execCsr_mip hR (by simp [hW])]\n{J}simp only [{fin}, csrNew, Arch.csrOperand, {T}]\n"
        s+=f"{J}refine r_{entry}_mip hd hrel hpc hE fun i1 => ?_\n"
        h='hidle2'
    s+=f"{J}simp only [e1, e2, srcField]\n{J}refine fin_tag fun d => ?_\n{J}rw [{h}]; {cyc}\n"
    s+=f"{I}· refine r_{entry} hd hrel hpc hE hm ?_\n"
    s+=f"{J}rw [execCsr_plain hm, {fin}]\n"
    s+=f"{J}simp only [e1, e2, srcField, csrNew, Arch.csrOperand, {T}]\n"
    s+=f"{J}refine fin_tag fun d => ?_\n{J}rw [hidle]; {cyc}\n"
    return s
for (op,src,var,ez,enz) in [('rw','reg','rd','26','27'),('rs','reg','x','28','29'),('rc','reg','x','28','2a'),('rw','imm','rd','2b','2c'),('rs','imm','x','28','2d'),('rc','imm','x','28','2e')]:
    P(f"        case {op}.{src} x =>\n          by_cases hz : {var} = 0#5\n")
    P(f"          · have hz' : {var} = 0 := hz\n            {D}\n"+case(ez,op,src,True))
    P(f"          · have hz' : ¬ {var} = 0 := hz\n            {D}\n"+case(enz,op,src,False))
P('''
/-- **One instruction.**  From dispatch of the word `w` in the state `ar`, the core takes part in the
events of the instruction and of the fetch of the next word, reaches dispatch of that word in the
state the instruction leads to, and spends `idleCycles` cycles without a bus request. -/
theorem exec_impl (h : AtDispatch (ar, w) s) :
    Impl (Timed ar w) pv s ((cycle .asBuilt (ar, w)).tag []) 0 := by
  rw [cycle_tag]
  cases hdec : decode w with
  | none => exact exec_none h hdec
  | some ins =>
    cases ins with
    | lui => exact exec_lui h hdec
    | auipc => exact exec_auipc h hdec
    | jal => exact exec_jal h hdec
    | jalr => exact exec_jalr h hdec
    | branch => exact exec_branch h hdec
    | load => exact exec_load h hdec
    | store => exact exec_store h hdec
    | opImm => exact exec_opImm h hdec
    | op => exact exec_op h hdec
    | fence => exact exec_fence h hdec
    | ecall => exact exec_ecall h hdec
    | ebreak => exact exec_ebreak h hdec
    | mret => exact exec_mret h hdec
    | wfi => exact exec_wfi h hdec
    | csr => exact exec_csr h hdec

end Sentinel
''')
open('/tmp/w/ExecCsr.lean','w').write(''.join(out))
