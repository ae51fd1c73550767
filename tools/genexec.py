HEAD = open('/verif/lean/Verif/Proof/Exec.lean').read()
HEAD = HEAD[:HEAD.index("theorem exec_opImm")]
HEAD = HEAD.replace("then .ret (ar.take","then Tree.ret (ar.take")
HEAD = HEAD.replace("    exact fin_tag fun d => by simp [idleCycles, hi]","    refine fin_tag fun d => ?_\n    simp [idleCycles, hi]")
HEAD = HEAD.replace("    exact fin_tag fun d => by rw [List.singleton_append, hn irq _ hirq]","    refine fin_tag fun d => ?_\n    rw [List.singleton_append, hn irq _ hirq]")
HEAD = HEAD.replace("  simp [show 0 + i < 32 by omega, show 0 + i < 12 by omega]","  simp [hi, show i < 32 by omega, show i < 12 by omega]")
out=[HEAD]
P=out.append
LAM="fun irq d0 b o mem mie mpie meie rb pa d c da wd pc hi hd hrel hpc => ?_"
FT="    refine fin_tag fun d => ?_\n    simp [idleCycles, hi, hdec, instrCycles, shiftCycles]\n"
P('''theorem exec_opImm {op rd rs1 imm} (h : AtDispatch (ar, w) s)
    (hdec : decode w = some (.opImm op rd rs1 imm)) :
    Impl (Timed ar w) pv s (.poll (rest ar w)) 0 := by
  obtain ⟨hg, h1, h2, h3, h4, h5⟩ := decoded hdec
  cases op <;> first | exact absurd rfl h4 | skip
''')
for op,e in [('add','40'),('sll','41'),('slt','42'),('sltu','43'),('xor','44'),('srl','45'),('sra','4d'),('or','46'),('and','47')]:
    P(f"  case {op} =>\n    refine exec_go h hdec hg rom_{e} {LAM}\n")
    if op in('sll','srl'):
        P(f"    refine r_{e} hd hrel hpc (by simp only [keepOf, h3]; exact shamt_small (h5 (by decide))) ?_\n")
    else: P(f"    refine r_{e} hd hrel hpc ?_\n")
    P("    simp only [keepOf, h1, h2, h3, ofNat_shamt]\n")
    if op in('sll','srl','sra'): P("    rw [← ofNat_shamt]\n")
    P(FT.replace("shiftCycles]","shiftCycles, ofNat_shamt]") if op in('sll','srl','sra') else FT)
P('''
theorem exec_op {op rd rs1 rs2} (h : AtDispatch (ar, w) s)
    (hdec : decode w = some (.op op rd rs1 rs2)) :
    Impl (Timed ar w) pv s (.poll (rest ar w)) 0 := by
  obtain ⟨hg, h1, h2, h3⟩ := decoded hdec
  cases op
''')
for op,e in [('add','c0'),('sub','c8'),('sll','c1'),('slt','c2'),('sltu','c3'),('xor','c4'),('srl','c5'),('sra','cd'),('or','c6'),('and','c7')]:
    P(f"  case {op} =>\n    refine exec_go h hdec hg rom_{e} {LAM}\n    refine r_{e} hd hrel hpc ?_\n    simp only [keepOf, h1, h2, h3]\n"+FT)
P(f'''
theorem exec_lui {{rd imm}} (h : AtDispatch (ar, w) s) (hdec : decode w = some (.lui rd imm)) :
    Impl (Timed ar w) pv s (.poll (rest ar w)) 0 := by
  obtain ⟨hg, h1, h3⟩ := decoded hdec
  · refine exec_go h hdec hg rom_d0 {LAM}
    refine r_d0 hd hrel hpc ?_
    simp only [keepOf, h1, h3, BitVec.zero_add]
{FT}
theorem exec_auipc {{rd imm}} (h : AtDispatch (ar, w) s) (hdec : decode w = some (.auipc rd imm)) :
    Impl (Timed ar w) pv s (.poll (rest ar w)) 0 := by
  obtain ⟨hg, h1, h3⟩ := decoded hdec
  · refine exec_go h hdec hg rom_50 {LAM}
    refine r_50 hd hrel hpc ?_
    simp only [keepOf, h1, h3]
    rw [BitVec.add_comm]
{FT}
theorem jal_even (imm : BitVec 20) {{p : Word}} {{q : BitVec 30}} (hp : p = q ++ 0#2) :
    (p + (imm ++ 0#1 : BitVec 21).signExtend 32).getLsbD 0 = false := by
  rw [bit0_add, hp, BitVec.getLsbD_append, BitVec.getLsbD_signExtend, BitVec.getLsbD_append]
  rfl

theorem br_even (imm : BitVec 12) {{p : Word}} {{q : BitVec 30}} (hp : p = q ++ 0#2) :
    (p + (imm ++ 0#1 : BitVec 13).signExtend 32).getLsbD 0 = false := by
  rw [bit0_add, hp, BitVec.getLsbD_append, BitVec.getLsbD_signExtend, BitVec.getLsbD_append]
  rfl

theorem exec_jal {{rd imm}} (h : AtDispatch (ar, w) s) (hdec : decode w = some (.jal rd imm)) :
    Impl (Timed ar w) pv s (.poll (rest ar w)) 0 := by
  obtain ⟨hg, h1, h3⟩ := decoded hdec
  · refine exec_go h hdec hg rom_b0 {LAM}
    have e : (keepOf w d0).imm + ar.pc = ar.pc + (imm ++ 0#1 : BitVec 21).signExtend 32 := by
      simp only [keepOf, h3]; rw [BitVec.add_comm]
    refine r_b0 hd hrel hpc (by rw [e]; exact jal_even imm hpc) (fun ht => ?_) (fun ht => ?_)
    all_goals
      rw [e] at ht
      simp only [e, execInstr, ht, if_true, if_false, Bool.false_eq_true, Tree.bind_ret]
    · rw [BitVec.add_comm 4#32 ar.pc]
      simp only [keepOf, h1]
      refine fin_tag fun d => ?_
      simp [idleCycles, hi, hdec, instrCycles, ht]
    · refine fin_tag fun d => ?_
      simp [idleCycles, hi, hdec, instrCycles, ht]

theorem exec_jalr {{rd rs1 imm}} (h : AtDispatch (ar, w) s)
    (hdec : decode w = some (.jalr rd rs1 imm)) :
    Impl (Timed ar w) pv s (.poll (rest ar w)) 0 := by
  obtain ⟨hg, h1, h2, h3⟩ := decoded hdec
  · refine exec_go h hdec hg rom_98 {LAM}
    have e : ar.reg (insnRs1 w) + (keepOf w d0).imm = ar.reg rs1 + imm.signExtend 32 := by
      simp only [keepOf, h3, h2]
    refine r_98 hd hrel hpc (fun ht => ?_) (fun ht => ?_)
    all_goals
      rw [e] at ht
      simp only [e, execInstr, ht, if_true, if_false, Bool.false_eq_true, Tree.bind_ret]
    · rw [BitVec.add_comm 4#32 ar.pc]
      simp only [keepOf, h1]
      refine fin_tag fun d => ?_
      simp only [idleCycles, hi, hdec, instrCycles, ht, List.singleton_append, if_true, if_false,
        Bool.false_eq_true]
    · refine fin_tag fun d => ?_
      simp only [idleCycles, hi, hdec, instrCycles, ht, List.singleton_append, if_true, if_false,
        Bool.false_eq_true]

theorem exec_branch {{op rs1 rs2 imm}} (h : AtDispatch (ar, w) s)
    (hdec : decode w = some (.branch op rs1 rs2 imm)) :
    Impl (Timed ar w) pv s (.poll (rest ar w)) 0 := by
  obtain ⟨hg, h1, h2, h3⟩ := decoded hdec
  have e : ∀ d0, (keepOf w d0).imm + ar.pc = ar.pc + (imm ++ 0#1 : BitVec 13).signExtend 32 := by
    intro d0; simp only [keepOf, h3]; rw [BitVec.add_comm]
  cases op
''')
for op,e in [('beq','88'),('bne','89'),('blt','8c'),('bge','8d'),('bltu','8e'),('bgeu','8f')]:
    P(f'''  case {op} =>
    refine exec_go h hdec hg rom_{e} {LAM}
    refine r_{e} hd hrel hpc (by rw [e]; exact br_even imm hpc) (fun hn => ?_) (fun hn ht => ?_)
      (fun hn ht => ?_)
    all_goals
      simp only [h1, h2] at hn
      first | rw [e] at ht | skip
      simp only [e, execInstr, hn, if_true, if_false, Bool.false_eq_true, Tree.bind_ret]
      first | simp only [ht, if_true, if_false, Bool.false_eq_true, Tree.bind_ret] | skip
      refine fin_tag fun d => ?_
      first
        | simp [idleCycles, hi, hdec, instrCycles, hn, ht]
        | simp [idleCycles, hi, hdec, instrCycles, hn]
''')
P('''
theorem exec_load {op rd rs1 imm} (h : AtDispatch (ar, w) s)
    (hdec : decode w = some (.load op rd rs1 imm)) :
    Impl (Timed ar w) pv s (.poll (rest ar w)) 0 := by
  obtain ⟨hg, h1, h2, h3⟩ := decoded hdec
  have e : ∀ d0, ar.reg (insnRs1 w) + (keepOf w d0).imm = ar.reg rs1 + imm.signExtend 32 := by
    intro d0; simp only [keepOf, h3, h2]
  cases op
''')
for op,e,sz in [('lb','08',1),('lbu','0c',1),('lh','09',2),('lhu','0d',2),('lw','0a',4)]:
    P(f"  case {op} =>\n    refine exec_go h hdec hg rom_{e} {LAM}\n")
    if sz==1:
        P(f'''    have ha : aligned (ar.reg rs1 + imm.signExtend 32) (LdOp.size .{op}) = true := by
      simp [aligned, LdOp.size, Nat.mod_one]
    simp only [execInstr, ha, if_true, Tree.bind_bus, Tree.tag, Tree.bind_ret]
    rw [← e d0]
    refine r_{e} hd hrel hpc fun x => ?_
    simp only [e]
    simp only [keepOf, h1]
    refine fin_tag fun d => ?_
    simp [idleCycles, hi, hdec, instrCycles, ha]
''')
    else:
        P(f'''    refine r_{e} hd hrel hpc (fun ha => ?_) (fun ha => ?_)
    · simp only [e] at ha ⊢
      refine ⟨fun x => (fetch (ar.setReg rd (loadValue .{op} (ar.reg rs1 + imm.signExtend 32) x)).next).tag
        ([.poll irq] ++ [.bus (readReq (ar.reg rs1 + imm.signExtend 32) {sz}) x]), ?_, fun x => ?_⟩
      · simp only [execInstr, LdOp.size, ha, if_true, Tree.bind_bus, Tree.tag, Tree.bind_ret]
      · simp only [keepOf, h1]
        refine fin_tag fun d => ?_
        simp [idleCycles, hi, hdec, instrCycles, ha, LdOp.size]
    · simp only [e] at ha
      simp only [execInstr, LdOp.size, ha, if_false, Bool.false_eq_true, Tree.bind_ret]
      refine fin_tag fun d => ?_
      simp [idleCycles, hi, hdec, instrCycles, ha, LdOp.size]
''')
P('''
theorem exec_store {op rs1 rs2 imm} (h : AtDispatch (ar, w) s)
    (hdec : decode w = some (.store op rs1 rs2 imm)) :
    Impl (Timed ar w) pv s (.poll (rest ar w)) 0 := by
  obtain ⟨hg, h1, h2, h3⟩ := decoded hdec
  have e : ∀ d0, ar.reg (insnRs1 w) + (keepOf w d0).imm = ar.reg rs1 + imm.signExtend 32 := by
    intro d0; simp only [keepOf, h3, h1]
  have e2 : ∀ d0, (keepOf w d0).srcB = rs2 := by intro d0; simp only [keepOf, h2]
  cases op
''')
for op,e,sz in [('sb','80',1),('sh','81',2),('sw','82',4)]:
    P(f"  case {op} =>\n    refine exec_go h hdec hg rom_{e} {LAM}\n")
    if sz==1:
        P(f'''    have ha : aligned (ar.reg rs1 + imm.signExtend 32) (StOp.size .{op}) = true := by
      simp [aligned, StOp.size, Nat.mod_one]
    simp only [execInstr, ha, if_true, Tree.bind_bus, Tree.tag, Tree.bind_ret]
    rw [← e d0, ← e2 d0]
    refine r_{e} hd hrel hpc fun x => ?_
    simp only [e]
    refine fin_tag fun d => ?_
    simp [idleCycles, hi, hdec, instrCycles, ha]
''')
    else:
        P(f'''    refine r_{e} hd hrel hpc (fun ha => ?_) (fun ha => ?_)
    · simp only [e, e2] at ha ⊢
      refine ⟨fun x => (fetch ar.next).tag ([.poll irq] ++
        [.bus (writeReq (ar.reg rs1 + imm.signExtend 32) {sz} (ar.reg rs2)) x]), ?_, fun x => ?_⟩
      · simp only [execInstr, StOp.size, ha, if_true, Tree.bind_bus, Tree.tag, Tree.bind_ret]
      · refine fin_tag fun d => ?_
        simp [idleCycles, hi, hdec, instrCycles, ha, StOp.size]
    · simp only [e] at ha
      simp only [execInstr, StOp.size, ha, if_false, Bool.false_eq_true, Tree.bind_ret]
      refine fin_tag fun d => ?_
      simp [idleCycles, hi, hdec, instrCycles, ha, StOp.size]
''')
P(f'''
theorem exec_fence (h : AtDispatch (ar, w) s) (hdec : decode w = some .fence) :
    Impl (Timed ar w) pv s (.poll (rest ar w)) 0 := by
  refine exec_go h hdec (decoded hdec) rom_30 {LAM}
  · refine r_30 hd hrel hpc ?_
{FT}
theorem exec_wfi (h : AtDispatch (ar, w) s) (hdec : decode w = some .wfi) :
    Impl (Timed ar w) pv s (.poll (rest ar w)) 0 := by
  refine exec_go h hdec (decoded hdec) rom_30 {LAM}
  · refine r_30 hd hrel hpc ?_
{FT}
theorem exec_mret (h : AtDispatch (ar, w) s) (hdec : decode w = some .mret) :
    Impl (Timed ar w) pv s (.poll (rest ar w)) 0 := by
  refine exec_go h hdec (decoded hdec) rom_f8 {LAM}
  · refine r_f8 hd hrel ?_
{FT}
theorem exec_none (h : AtDispatch (ar, w) s) (hdec : decode w = none) :
    Impl (Timed ar w) pv s (.poll (rest ar w)) 0 := by
  obtain ⟨h1, h2⟩ := undecoded hdec
  exact exec_exc h h1 h2 (fun irq hi => rest_none hi hdec)
    (fun irq l hi => by simp [idleCycles, hi, hdec])

theorem exec_ecall (h : AtDispatch (ar, w) s) (hdec : decode w = some .ecall) :
    Impl (Timed ar w) pv s (.poll (rest ar w)) 0 := by
  obtain ⟨h1, h2⟩ := decoded hdec
  exact exec_exc h h1 h2 (fun irq hi => by rw [rest_some hi hdec]; rfl)
    (fun irq l hi => by simp [idleCycles, hi, hdec])

theorem exec_ebreak (h : AtDispatch (ar, w) s) (hdec : decode w = some .ebreak) :
    Impl (Timed ar w) pv s (.poll (rest ar w)) 0 := by
  obtain ⟨h1, h2⟩ := decoded hdec
  exact exec_exc h h1 h2 (fun irq hi => by rw [rest_some hi hdec]; rfl)
    (fun irq l hi => by simp [idleCycles, hi, hdec])

end Sentinel
''')
t=''.join(out)
t=t.replace("theorem ofNat_shamt",'''theorem bit0_add (x y : Word) : (x + y).getLsbD 0 = (x.getLsbD 0 ^^ y.getLsbD 0) := by
  rw [BitVec.getLsbD_add (by omega)]; simp [BitVec.carry, Nat.mod_one]

theorem ofNat_shamt''') if 'theorem bit0_add' not in t else t
open('/tmp/w/Exec.lean','w').write(t)
