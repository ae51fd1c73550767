out=[]
w=out.append
w('''import Verif.Proof.Trap
import Verif.Proof.Arith
import Verif.Proof.AlignLemmas
/-!
# Microroutines: arithmetic, upper immediates, jumps, branches, loads, stores, no-ops, MRET

Each theorem `r_xx` runs the routine that starts at microaddress `0xxx` to the next instruction
fetch.
-/

set_option linter.unusedSimpArgs false

namespace Sentinel
open Ucode Spec

/-- `T` fetches the next instruction in the state `ar`, and goes on well if it is reached after `m`
request-free cycles. -/
def Fin {α : Type} (F : α → State → Nat → Prop) (ar : Arch) (m : Nat) (T : Tree α) : Prop :=
  ∃ K, T = .bus (fetchReq ar) K ∧ ∀ w s, AtDispatch (ar, w) s → Impl F true s (K w) m

variable {α : Type} {F : α → State → Nat → Prop} {pv : Bool} {T : Tree α} {n : Nat} {k : Keep}
  {a b o rd rb da wd : BitVec 32} {pc : BitVec 30} {mem : BitVec 6 → BitVec 32}
  {mie mpie meie : Bool} {pa : BitVec 4} {d : DecState} {c : CauseLatch} {ar : Arch}

@[simp] theorem Arch.setReg_pc (ar : Arch) (r : Reg) (v : Word) : (ar.setReg r v).pc = ar.pc := by
  unfold Arch.setReg; split <;> rfl

theorem fin_00 (hd : Dec k d) (hrel : Rel ar mem mie mpie meie c) (hpc : ar.pc = pc ++ 0#2)
    (h : Fin F ar n T) :
    Impl F pv ⟨u_00, 1#8, false, false, a, b, o, pc, mem, rd, ⟨mie, mpie, meie, rb, pa⟩, d, c, da, wd⟩
      T n := by
  obtain ⟨K, rfl, h⟩ := h
  exact w_00 hd hrel hpc h

theorem fin_b5 (hd : Dec k d) (hrel : Rel ar mem mie mpie meie c) {p : Word} (hp : p = pc ++ 0#2)
    (h : Fin F { ar.setReg k.dst o with pc := p } n T) :
    Impl F pv ⟨u_b5, 182#8, false, false, a, b, o, pc, mem, rd, ⟨mie, mpie, meie, rb, pa⟩, d, c, da, wd⟩
      T n := by
  obtain ⟨K, rfl, h⟩ := h
  exact w_b5 hd hrel p hp h

/-- `fast_epilog` of an instruction that goes on with the next word. -/
theorem fin_b5_next (hd : Dec k d) (hrel : Rel ar mem mie mpie meie c)
    (hpc : ar.pc + 4 = pc ++ 0#2) (h : Fin F (ar.setReg k.dst o).next n T) :
    Impl F pv ⟨u_b5, 182#8, false, false, a, b, o, pc, mem, rd, ⟨mie, mpie, meie, rb, pa⟩, d, c, da, wd⟩
      T n :=
  fin_b5 hd hrel (p := (ar.setReg k.dst o).pc + 4) (by rw [Arch.setReg_pc]; exact hpc) h

theorem Fin.req {p : BitVec 30} (h : Fin F ar n T) (hp : ar.pc = p ++ 0#2) :
    ∃ K, T = .bus ⟨p, 0xF, false, 0⟩ K := by
  obtain ⟨K, rfl, -⟩ := h
  exact ⟨K, by rw [fetchReq_eq hp]⟩

theorem fin_trap {c0 : CauseLatch} {int : Bool} {cause : BitVec 31} (hd : Dec k d)
    (hrel : Rel ar mem mie mpie meie c0) (hpc : ar.pc = pc ++ 0#2)
    (hi : c.interrupt = (ar.irqTaken || int)) (hc : c.cause = cause)
    (h : Fin F (ar.trap .asBuilt int cause) (n + 4) T) :
    Impl F pv ⟨u_f0, 241#8, false, false, a, b, o, pc, mem, rd, ⟨mie, mpie, meie, rb, pa⟩, d, c, da, wd⟩
      T n := by
  subst hc
  obtain ⟨K, rfl, h⟩ := h
  exact q_trap hd hrel hpc hi h

/-- Synchronous exception. -/
theorem fin_exc (x : BitVec 31) (hd : Dec k d)
    (hrel : Rel ar mem mie mpie meie c) (hpc : ar.pc = pc ++ 0#2)
    (h : Fin F (ar.exception .asBuilt x) (n + 4) T) :
    Impl F pv ⟨u_f0, 241#8, false, false, a, b, o, pc, mem, rd, ⟨mie, mpie, meie, rb, pa⟩, d,
      { c with cause := x }, da, wd⟩ T n :=
  fin_trap hd hrel hpc (int := false) (by simpa using hrel.irq) rfl h

theorem hpc_next (hpc : ar.pc = pc ++ 0#2) : ar.pc + 4 = (pc + 1#30) ++ 0#2 := by
  rw [hpc]; exact pc_inc pc

theorem setReg_next_pc (hpc : ar.pc = pc ++ 0#2) (r : Reg) (v : Word) :
    (ar.setReg r v).next.pc = (pc + 1#30) ++ 0#2 := by
  simp only [Arch.next, Arch.setReg_pc]; exact hpc_next hpc

/-! ## Arithmetic -/
''')
ST=lambda x: f'⟨u_{x:02x}, {x+1}#8, false, false, a, b, o, pc, mem, rd, ⟨mie, mpie, meie, rb, pa⟩, d, c, da, wd⟩'
HD='(hd : Dec k d) (hrel : Rel ar mem mie mpie meie c) (hpc : ar.pc = pc ++ 0#2)'
LT='(if a.toInt < %s.toInt then 1 else 0)'; LTU='(if a.toNat < %s.toNat then 1 else 0)'
fam=[(0x40,0x53,'a + k.imm',''),(0x42,0x54,LT%'k.imm','cmp_lt'),(0x43,0x55,LTU%'k.imm','cmp_ltu'),
 (0x44,0x56,'a ^^^ k.imm',''),(0x46,0x57,'a ||| k.imm',''),(0x47,0x58,'a &&& k.imm',''),
 (0xc0,0xd1,'a + rd',''),(0xc2,0xd2,LT%'rd','cmp_lt'),(0xc3,0xd3,LTU%'rd','cmp_ltu'),(0xc4,0xd4,'a ^^^ rd',''),
 (0xc6,0xd5,'a ||| rd',''),(0xc7,0xd6,'a &&& rd',''),(0xc8,0xd7,'a - rd',''),(0xd0,0x53,'0#32 + k.imm','')]
for x,y,v,l in fam:
    w(f'''theorem r_{x:02x} {HD}
    (h : Fin F (ar.setReg k.dst ({v})).next (n + 1) T) :
    Impl F pv {ST(x)} T n := by
  refine q_{x:02x} hd fun d hd => ?_
  obtain ⟨K, rfl⟩ := h.req (setReg_next_pc hpc _ _)
  refine f_{y:02x} hd rfl fun d hd => ?_
  refine fin_b5_next hd hrel (hpc_next hpc) ?_
  {f'rw [{l}]; ' if l else ''}exact h
''')
w(f'''/-- AUIPC -/
theorem r_50 {HD}
    (h : Fin F (ar.setReg k.dst (k.imm + ar.pc)).next (n + 3) T) :
    Impl F pv {ST(0x50)} T n := by
  refine q_50 hd fun d hd => ?_
  refine q_51 hd fun d hd => ?_
  refine q_52 hd fun d hd => ?_
  rw [← hpc]
  exact fin_00 hd (hrel.setReg _ _).next (setReg_next_pc hpc _ _) h

/-- FENCE, WFI -/
theorem r_30 {HD}
    (h : Fin F ar.next (n + 1) T) : Impl F pv {ST(0x30)} T n := by
  refine q_30 hd fun d hd => ?_
  exact fin_00 hd hrel.next (hpc_next hpc) h

/-! ## Jumps and branches -/

theorem target_split {{t : Word}} (h0 : t.getLsbD 0 = false) (h1 : t.getLsbD 1 = false) :
    t = t.extractLsb' 2 30 ++ 0#2 := by
  refine (extract_append_low ?_).symm
  ext i hi
  have : i = 0 ∨ i = 1 := by omega
  rcases this with rfl | rfl
  · simpa using h0
  · simpa using h1

theorem targetOk_eq {{t : Word}} (h0 : t.getLsbD 0 = false) : targetOk t = !t.getLsbD 1 := by
  have := lane_lt t
  have e0 := bit0_lane t
  have e1 := bit1_lane t
  rw [h0] at e0
  rw [e1, targetOk, aligned]
  simp only [lane] at *
  have e0 : ¬ t.toNat % 4 % 2 = 1 := by simpa using e0.symm
  have : t.toNat % 4 = 0 ∨ t.toNat % 4 = 2 := by omega
  rcases this with h | h <;> simp [h]

/-- JAL -/
theorem r_b0 {HD} (h0 : (k.imm + ar.pc).getLsbD 0 = false)
    (ht : targetOk (k.imm + ar.pc) = true →
      Fin F {{ ar.setReg k.dst (4#32 + ar.pc) with pc := k.imm + ar.pc }} (n + 4) T)
    (hf : targetOk (k.imm + ar.pc) = false → Fin F (ar.exception .asBuilt 0) (n + 7) T) :
    Impl F pv {ST(0xb0)} T n := by
  refine q_b0 hd fun d hd => ?_
  refine q_b1 hd fun d hd => ?_
  rw [← hpc]
  rw [targetOk_eq h0] at ht hf
  cases h1 : (k.imm + ar.pc).getLsbD 1 with
  | true =>
    refine q_b2_t hd h1 fun d hd => ?_
    exact fin_exc 0 hd hrel hpc (hf (by rw [h1]; rfl))
  | false =>
    have ht := ht (by rw [h1]; rfl)
    have hp := target_split h0 h1
    refine q_b2_f hd h1 fun d hd => ?_
    refine q_b3 hd fun d hd => ?_
    obtain ⟨K, rfl⟩ := ht.req hp
    refine f_b4 hd rfl fun d hd => ?_
    rw [← hpc]
    exact fin_b5 hd hrel hp ht

/-- JALR -/
theorem r_98 {HD}
    (ht : targetOk ((a + k.imm) &&& ~~~1#32) = true →
      Fin F {{ ar.setReg k.dst (4#32 + ar.pc) with pc := (a + k.imm) &&& ~~~1#32 }} (n + 4) T)
    (hf : targetOk ((a + k.imm) &&& ~~~1#32) = false → Fin F (ar.exception .asBuilt 0) (n + 7) T) :
    Impl F pv {ST(0x98)} T n := by
  refine q_98 hd fun d hd => ?_
  refine q_99 hd fun d hd => ?_
  have e : aluNext .add .none .clearLsbO a k.imm = (a + k.imm) &&& ~~~1#32 := rfl
  rw [e]
  have h0 : ((a + k.imm) &&& ~~~1#32).getLsbD 0 = false := by simp
  have hx : (a + k.imm).extractLsb' 2 30 = ((a + k.imm) &&& ~~~1#32).extractLsb' 2 30 := by
    apply BitVec.eq_of_getLsbD_eq
    intro i hi
    simp only [BitVec.getLsbD_extractLsb', BitVec.getLsbD_and, BitVec.getLsbD_not]
    have : (1#32).getLsbD (2 + i) = false := by
      simp [BitVec.getLsbD_one]
    simp [this, show 2 + i < 32 by omega]
  generalize (a + k.imm) &&& ~~~1#32 = t at *
  rw [targetOk_eq h0] at ht hf
  cases h1 : t.getLsbD 1 with
  | true =>
    refine q_9a_t hd h1 fun d hd => ?_
    exact fin_exc 0 hd hrel hpc (hf (by rw [h1]; rfl))
  | false =>
    have ht := ht (by rw [h1]; rfl)
    have hp := target_split h0 h1
    refine q_9a_f hd h1 fun d hd => ?_
    refine q_9b hd fun d hd => ?_
    rw [hx]
    obtain ⟨K, rfl⟩ := ht.req hp
    refine f_9c hd rfl fun d hd => ?_
    rw [← hpc]
    exact fin_b5 hd hrel hp ht

/-- Branch not taken. -/
theorem r_97 {HD} (h : Fin F ar.next (n + 1) T) : Impl F pv {ST(0x97)} T n := by
  refine q_97 hd fun d hd => ?_
  exact fin_00 hd hrel.next (hpc_next hpc) h
''')
for x in (0x86,0x95):
    w(f'''/-- Branch taken. -/
theorem r_{x:02x} {HD} (ho : o = a + b) (h0 : o.getLsbD 0 = false)
    (ht : targetOk o = true → Fin F {{ ar with pc := o }} (n + 2) T)
    (hf : targetOk o = false → Fin F (ar.exception .asBuilt 0) (n + 5) T) :
    Impl F pv {ST(x)} T n := by
  rw [targetOk_eq h0] at ht hf
  cases h1 : o.getLsbD 1 with
  | true =>
    refine q_{x:02x}_t hd h1 fun d hd => ?_
    exact fin_exc 0 hd hrel hpc (hf (by rw [h1]; rfl))
  | false =>
    have ht := ht (by rw [h1]; rfl)
    have hp := target_split h0 h1
    refine q_{x:02x}_f hd h1 fun d hd => ?_
    refine q_{x+1:02x} hd fun d hd => ?_
    rw [← ho]
    exact fin_00 hd (hrel.withPc o) hp ht
''')
BR=[(0x88,0x84,'beq','a - rd','nz','z',0x85,0x86),(0x89,0x83,'bne','a - rd','z','nz',0x94,0x95)]
w('''theorem sub_eq_zero {x y : Word} : x - y = 0#32 ↔ x = y := by
  constructor
  · intro h
    have := congrArg (· + y) h
    simpa [BitVec.sub_add_cancel] using this
  · rintro rfl; simp
''')
for x,y,op,l,z,nz in [(0x88,0x84,'beq','sub_eq_zero','nz','z'),(0x89,0x83,'bne','sub_eq_zero','z','nz'),
  (0x8c,0x90,'blt','cmp_lt','z','nz'),(0x8d,0x91,'bge','cmp_ge','z','nz'),(0x8e,0x92,'bltu','cmp_ltu','z','nz'),(0x8f,0x93,'bgeu','cmp_geu','z','nz')]:
    tst,tk=(0x85,0x86) if op=='beq' else (0x94,0x95)
    if op=='beq':
        nt_h='(by rw [sub_eq_zero]; simpa [brTaken] using hb)'; tk_h='(by rw [sub_eq_zero]; simpa [brTaken] using hb)'
    elif op=='bne':
        nt_h='(by rw [sub_eq_zero]; simpa [brTaken] using hb)'; tk_h='(by rw [sub_eq_zero]; simpa [brTaken] using hb)'
    else:
        nt_h=f'(by rw [{l}]; simp [brTaken] at hb; simp [hb])'; tk_h=f'(by rw [{l}]; simp [brTaken] at hb; simp [hb])'
    w(f'''/-- {op.upper()} -/
theorem r_{x:02x} {HD} (h0 : (k.imm + ar.pc).getLsbD 0 = false)
    (hn : brTaken .{op} a rd = false → Fin F ar.next (n + 4) T)
    (ht : brTaken .{op} a rd = true → targetOk (k.imm + ar.pc) = true →
      Fin F {{ ar with pc := k.imm + ar.pc }} (n + 5) T)
    (hf : brTaken .{op} a rd = true → targetOk (k.imm + ar.pc) = false →
      Fin F (ar.exception .asBuilt 0) (n + 8) T) :
    Impl F pv {ST(x)} T n := by
  refine q_{x:02x} hd fun d hd => ?_
  refine q_{y:02x} hd fun d hd => ?_
  rw [← hpc]
  cases hb : brTaken .{op} a rd with
  | false =>
    refine q_{tst:02x}_{z} hd {nt_h} fun d hd => ?_
    exact r_97 hd hrel hpc (hn hb)
  | true =>
    refine q_{tst:02x}_{nz} hd {tk_h} fun d hd => ?_
    exact r_{tk:02x} hd hrel hpc rfl h0 (ht hb) (hf hb)
''')
w('''/-! ## Loads and stores -/
''')
for x,st,op in [(0x08,0x0e,'lb'),(0x0c,0x1a,'lbu')]:
    w(f'''/-- {op.upper()} -/
theorem r_{x:02x} {{K : Word → Tree α}} {HD}
    (h : ∀ x, Fin F (ar.setReg k.dst (loadValue .{op} (a + k.imm) x)).next (n + 4) (K x)) :
    Impl F pv {ST(x)} (.bus (readReq (a + k.imm) 1) K) n := by
  have ha : aligned (a + k.imm) (LdOp.size .{op}) = true := by simp [aligned, LdOp.size, Nat.mod_one]
  refine q_{x:02x} hd fun d hd => ?_
  refine q_{st:02x} hd fun d hd => ?_
  refine q_{st+1:02x} hd fun d hd => ?_
  refine w_{st+2:02x} hd ?_ fun x o d hd => ?_
  · rw [show MemSel.byte = selOfSize 1 from rfl, wbSel_eq 1 (by simp) _ ha]; rfl
  refine q_{st+3:02x} hd fun d hd => ?_
  refine fin_b5_next hd hrel (hpc_next hpc) ?_
  have e := readDataAlign_eq .{op} _ x ha
  simp only [selOf, selOfSize, extOf, LdOp.size] at e
  rw [e]; simpa using h x
''')
for x,st,op,sz,nm in [(0x09,0x12,'lh',2,'hword'),(0x0d,0x1e,'lhu',2,'hword'),(0x0a,0x16,'lw',4,'word')]:
    w(f'''/-- {op.upper()} -/
theorem r_{x:02x} {HD}
    (ht : aligned (a + k.imm) {sz} = true → ∃ K : Word → Tree α, T = .bus (readReq (a + k.imm) {sz}) K ∧
      ∀ x, Fin F (ar.setReg k.dst (loadValue .{op} (a + k.imm) x)).next (n + 4) (K x))
    (hf : aligned (a + k.imm) {sz} = false → Fin F (ar.exception .asBuilt 4) (n + 7) T) :
    Impl F pv {ST(x)} T n := by
  refine q_{x:02x} hd fun d hd => ?_
  refine q_{st:02x} hd fun d hd => ?_
  cases ha : aligned (a + k.imm) {sz} with
  | false =>
    refine q_{st+1:02x}_t hd (by rw [dataMisaligned_{nm}, ha]; rfl) fun d hd => ?_
    exact fin_exc 4 hd hrel hpc (hf ha)
  | true =>
    obtain ⟨K, rfl, h⟩ := ht ha
    refine q_{st+1:02x}_f hd (by rw [dataMisaligned_{nm}, ha]; rfl) fun d hd => ?_
    refine w_{st+2:02x} hd ?_ fun x o d hd => ?_
    · rw [show MemSel.{nm} = selOfSize {sz} from rfl, wbSel_eq {sz} (by simp) _ ha]; rfl
    refine q_{st+3:02x} hd fun d hd => ?_
    refine fin_b5_next hd hrel (hpc_next hpc) ?_
    have e := readDataAlign_eq .{op} _ x ha
    simp only [selOf, selOfSize, extOf, LdOp.size] at e
    rw [e]; simpa using h x
''')
w(f'''/-- SB -/
theorem r_80 {{K : Word → Tree α}} {HD}
    (h : ∀ x, Fin F ar.next (n + 5) (K x)) :
    Impl F pv {ST(0x80)} (.bus (writeReq (a + k.imm) 1 (ar.reg k.srcB)) K) n := by
  have ha : aligned (a + k.imm) 1 = true := by simp [aligned, Nat.mod_one]
  refine q_80 hd fun d hd => ?_
  refine q_9d hd fun d hd => ?_
  refine q_9e hd fun d hd => ?_
  refine q_9f hd fun d hd => ?_
  refine w_a0 hd ?_ fun x o d hd => ?_
  · rw [show MemSel.byte = selOfSize 1 from rfl, wbSel_eq 1 (by simp) _ ha, hrel.reg,
      BitVec.zero_add, writeDataAlign_eq 1 (by simp) _ _ ha]; rfl
  refine q_a1 hd fun d hd => ?_
  exact fin_00 hd hrel.next (hpc_next hpc) (h x)
''')
for x,st,op,sz,nm in [(0x81,0xa2,'sh',2,'hword'),(0x82,0xa7,'sw',4,'word')]:
    w(f'''/-- {op.upper()} -/
theorem r_{x:02x} {HD}
    (ht : aligned (a + k.imm) {sz} = true → ∃ K : Word → Tree α,
      T = .bus (writeReq (a + k.imm) {sz} (ar.reg k.srcB)) K ∧ ∀ x, Fin F ar.next (n + 5) (K x))
    (hf : aligned (a + k.imm) {sz} = false → Fin F (ar.exception .asBuilt 6) (n + 7) T) :
    Impl F pv {ST(x)} T n := by
  refine q_{x:02x} hd fun d hd => ?_
  refine q_{st:02x} hd fun d hd => ?_
  cases ha : aligned (a + k.imm) {sz} with
  | false =>
    refine q_{st+1:02x}_t hd (by rw [dataMisaligned_{nm}, ha]; rfl) fun d hd => ?_
    exact fin_exc 6 hd hrel hpc (hf ha)
  | true =>
    obtain ⟨K, rfl, h⟩ := ht ha
    refine q_{st+1:02x}_f hd (by rw [dataMisaligned_{nm}, ha]; rfl) fun d hd => ?_
    refine q_{st+2:02x} hd fun d hd => ?_
    refine w_{st+3:02x} hd ?_ fun x o d hd => ?_
    · rw [show MemSel.{nm} = selOfSize {sz} from rfl, wbSel_eq {sz} (by simp) _ ha, hrel.reg,
        BitVec.zero_add, writeDataAlign_eq {sz} (by simp) _ _ ha]; rfl
    refine q_{st+4:02x} hd fun d hd => ?_
    exact fin_00 hd hrel.next (hpc_next hpc) (h x)
''')
w(f'''/-! ## MRET -/

theorem r_f8 (hd : Dec k d) (hrel : Rel ar mem mie mpie meie c)
    (h : Fin F {{ ar with pc := ar.mepc, mie := ar.mpie, mpie := true }} (n + 4) T) :
    Impl F pv {ST(0xf8)} T n := by
  have hv : (0#32 + csrView 9#4 rb (mem (csrRamAdr 9#4)) : Word) = ar.mepc := by
    simpa [csrView] using hrel.mepc
  have hp : ar.mepc = ar.mepc.extractLsb' 2 30 ++ 0#2 := (extract_append_low hrel.ep).symm
  refine q_f8 hd fun d hd => ?_
  refine q_f9 hd fun d hd => ?_
  simp only [show rbNext 9#4 mie mpie meie false rb = rb from rfl]
  refine q_fa hd fun d hd => ?_
  rw [hv]
  refine q_fb hd fun d hd => ?_
  obtain ⟨K, rfl⟩ := h.req hp
  refine f_fc hd rfl fun d hd => ?_
  refine fin_00 hd ?_ hp h
  obtain ⟨h1, h2, h3, h4, h5, h6, h7, h8, h9, h10, h11, h12⟩ := hrel
  exact ⟨h1, h2, h3, h4, h5, h6, h8, rfl, h9, h10, h11, h12⟩

end Sentinel''')
open('/verif/lean/Verif/Proof/Routines.lean','w').write('\n'.join(out)+'\n')
