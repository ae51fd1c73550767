out=[]
w=out.append
ST=lambda x,o='o',a='a',b='b': f'⟨u_{x:02x}, {x+1}#8, false, false, {a}, {b}, {o}, pc, mem, rd, ⟨mie, mpie, meie, rb, pa⟩, d, c, da, wd⟩'
HD='(hd : Dec k d) (hrel : Rel ar mem mie mpie meie c) (hpc : ar.pc + 4 = pc ++ 0#2)'
HD0='(hd : Dec k d) (hrel : Rel ar mem mie mpie meie c) (hpc : ar.pc = pc ++ 0#2)'
w(f'''import Verif.Proof.Shifts
/-!
# Microroutines: CSR instructions
-/

set_option linter.unusedSimpArgs false

namespace Sentinel
open Ucode Spec

variable {{α : Type}} {{F : α → State → Nat → Prop}} {{pv : Bool}} {{T : Tree α}} {{n : Nat}} {{k : Keep}}
  {{a b o rd rb da wd : BitVec 32}} {{pc : BitVec 30}} {{mem : BitVec 6 → BitVec 32}}
  {{mie mpie meie : Bool}} {{pa : BitVec 4}} {{d : DecState}} {{c : CauseLatch}} {{ar : Arch}}

@[simp] theorem Arch.csrWrite_pc (ar : Arch) (v : Word) (r : Csr) : (ar.csrWrite v r).pc = ar.pc := by
  cases r <;> rfl

theorem Arch.csrWrite_setReg (ar : Arch) (v : Word) (r : Csr) (q : Reg) (x : Word) :
    (ar.csrWrite v r).setReg q x = (ar.setReg q x).csrWrite v r := by
  cases r <;> simp only [Arch.csrWrite, Arch.setReg] <;> split <;> rfl

theorem mstatusView_eq (mie mpie : Bool) :
    mstatusView mie mpie =
      (if mie then 0x8#32 else 0#32) ||| (if mpie then 0x80#32 else 0#32) ||| 0x1800#32 := by
  cases mie <;> cases mpie <;> rfl

theorem meiView_eq (b : Bool) : meiView b = if b then 0x800#32 else 0#32 := by
  cases b <;> rfl

/-- A CSR read returns the value of the CSR. -/
theorem csrView_eq (hrel : Rel ar mem mie mpie meie c) (irq : Bool) {{r : Csr}} (hk : k.enc = encOf r) :
    csrView k.enc (rbNext k.enc mie mpie meie irq rb) (mem (csrRamAdr k.enc)) = ar.csrRead irq r := by
  obtain ⟨h1, h2, h3, h4, h5, h6, h7, h8, h9, h10, h11, h12⟩ := hrel
  subst h7 h8 h9
  rw [hk]
  cases r
  · exact mstatusView_eq _ _
  · exact meiView_eq _
  · exact h3
  · exact h4
  · exact h5
  · exact h6
  · exact meiView_eq _

theorem csrView_mip (irq : Bool) : csrView CSR_MIP (meiView irq) rd = ar.csrRead irq .mip :=
  meiView_eq _

theorem encOf_ne_mip {{r : Csr}} (h : r ≠ .mip) : encOf r ≠ CSR_MIP := by
  cases r <;> simp [encOf] at *

theorem fin_b6_next {HD} {{r : Csr}} (hk : k.enc = encOf r)
    (h : Fin F (ar.csrWrite o r).next n T) : Impl F pv {ST(0xb6)} T n := by
  obtain ⟨K, rfl, h⟩ := h
  exact w_b6 hd hrel _ (by rw [Arch.csrWrite_pc]; exact hpc) hk h

/-- CSR instruction on a CSR that reads as zero. -/
theorem r_25 {HD0}
    (h : Fin F (ar.setReg k.dst 0).next (n + 2) T) : Impl F pv {ST(0x25)} T n := by
  refine q_25 hd fun d hd => ?_
  refine q_31 hd fun d hd => ?_
  exact fin_b5_next hd hrel (hpc_next hpc) h

/-- CSRRW without a read -/
theorem r_26 {HD0} {{r : Csr}} (hk : k.enc = encOf r)
    (h : Fin F (ar.csrWrite rd r).next (n + 2) T) : Impl F pv {ST(0x26)} T n := by
  refine q_26 hd fun d hd => ?_
  refine q_34 hd fun d hd => ?_
  rw [BitVec.zero_add]
  exact fin_b6_next hd hrel (hpc_next hpc) hk h

/-- CSRRWI without a read -/
theorem r_2b {HD0} {{r : Csr}} (hk : k.enc = encOf r)
    (h : Fin F (ar.csrWrite (k.srcA.setWidth 32) r).next (n + 2) T) : Impl F pv {ST(0x2b)} T n := by
  refine q_2b hd fun d hd => ?_
  refine q_34 hd fun d hd => ?_
  rw [BitVec.zero_add]
  exact fin_b6_next hd hrel (hpc_next hpc) hk h

/-! ## After the first read: `v` is the old value -/

theorem t_32 {HD} {{v : Word}} (hv : csrView pa rb rd = v)
    (h : Fin F (ar.setReg k.dst v).next (n + 2) T) : Impl F pv {ST(0x32,a='0#32')} T n := by
  refine q_32 hd fun d hd => ?_
  refine q_33 hd fun d hd => ?_
  rw [hv, BitVec.zero_add]
  exact fin_b5_next hd hrel hpc h

theorem t_35 {HD} {{v x : Word}} {{r : Csr}} (hk : k.enc = encOf r) (hv : csrView pa rb rd = v)
    (h : Fin F ((ar.setReg k.dst v).csrWrite x r).next (n + 2) T) :
    Impl F pv {ST(0x35,a='0#32',b='x')} T n := by
  refine q_35 hd fun d hd => ?_
  refine q_36 hd fun d hd => ?_
  rw [hv, BitVec.zero_add, BitVec.zero_add, hk]
  refine fin_b5_next hd (hrel.csrWrite r x) (by rw [Arch.csrWrite_pc]; exact hpc) ?_
  rw [Arch.csrWrite_setReg]; exact h

theorem t_39 {HD} {{v x : Word}} {{r : Csr}} (hk : k.enc = encOf r)
    (h : Fin F ((ar.setReg k.dst v).csrWrite (v ||| x) r).next (n + 2) T) :
    Impl F pv {ST(0x39,o='v',b='x')} T n := by
  refine q_39 hd fun d hd => ?_
  refine q_3a hd fun d hd => ?_
  exact fin_b6_next hd (hrel.setReg _ _) (by rw [Arch.setReg_pc]; exact hpc) hk h

theorem t_37 {HD} {{v : Word}} {{r : Csr}} (hk : k.enc = encOf r) (hv : csrView pa rb rd = v)
    (h : Fin F ((ar.setReg k.dst v).csrWrite (v ||| k.srcA.setWidth 32) r).next (n + 4) T) :
    Impl F pv {ST(0x37,a='0#32')} T n := by
  refine q_37 hd fun d hd => ?_
  refine q_38 hd fun d hd => ?_
  rw [hv, BitVec.zero_add]
  exact t_39 hd hrel hpc hk h

theorem t_49 {HD} {{v : Word}} {{r : Csr}} (hk : k.enc = encOf r) (hv : csrView pa rb rd = v)
    (h : Fin F ((ar.setReg k.dst v).csrWrite (v ||| ar.reg k.srcA) r).next (n + 4) T) :
    Impl F pv {ST(0x49,a='0#32')} T n := by
  refine q_49 hd fun d hd => ?_
  refine q_4a hd fun d hd => ?_
  rw [hv, BitVec.zero_add, hrel.reg]
  exact t_39 hd hrel hpc hk h

theorem csr_clear (v x : Word) : (0xFFFFFFFF#32 ^^^ x) &&& v = v &&& ~~~x := by
  rw [show (0xFFFFFFFF#32 : Word) = BitVec.allOnes 32 from rfl, BitVec.allOnes_xor, BitVec.and_comm]

/-- Bit clear; `v'` is the value of the second read. -/
theorem t_3d {HD} {{v v' x : Word}} {{r : Csr}} (hk : k.enc = encOf r) (hv : csrView pa rb rd = v')
    (h : Fin F ((ar.setReg k.dst v).csrWrite (v' &&& ~~~x) r).next (n + 3) T) :
    Impl F pv {ST(0x3d,o='v',a='0xFFFFFFFF#32',b='x')} T n := by
  refine q_3d hd fun d hd => ?_
  refine q_3e hd fun d hd => ?_
  refine q_3f hd fun d hd => ?_
  rw [hv, csr_clear]
  exact fin_b6_next hd (hrel.setReg _ _) (by rw [Arch.setReg_pc]; exact hpc) hk h
''')
for s,opd in [(0x3b,'k.srcA.setWidth 32'),(0x4b,'ar.reg k.srcA')]:
    rr = ', hrel.reg' if s==0x4b else ''
    w(f'''theorem t_{s:02x} {HD} {{v : Word}} {{r : Csr}} (hk : k.enc = encOf r) (hm : r ≠ .mip)
    (hv : csrView pa rb rd = v) (hv' : v = ar.csrRead false r)
    (h : Fin F ((ar.setReg k.dst v).csrWrite (v &&& ~~~({opd})) r).next (n + 5) T) :
    Impl F pv {ST(s,a='0#32')} T n := by
  refine q_{s:02x} hd fun d hd => ?_
  refine q_{s+1:02x} hd (by rw [hk]; exact encOf_ne_mip hm) fun d hd => ?_
  rw [hv, BitVec.zero_add{rr}]
  refine t_3d hd hrel hpc hk (csrView_eq hrel false hk) ?_
  rw [← hv']; exact h

theorem t_{s:02x}_mip {{K : Bool → Tree α}} {HD} {{v : Word}} (hk : k.enc = encOf .mip)
    (hv : csrView pa rb rd = v)
    (h : ∀ irq, Fin F ((ar.setReg k.dst v).csrWrite (v &&& ~~~({opd})) .mip).next (n + 5) (K irq)) :
    Impl F pv {ST(s,a='0#32')} (.poll K) n := by
  refine q_{s:02x} hd fun d hd => ?_
  refine p_{s+1:02x} hd hk fun d irq hd => ?_
  rw [hv, BitVec.zero_add{rr}]
  exact t_3d hd hrel hpc hk rfl (h irq)
''')
# first reads
for x,t,res,cost,wr in [(0x27,0x35,'((ar.setReg k.dst V).csrWrite rd r).next',3,True),
    (0x28,0x32,'(ar.setReg k.dst V).next',3,False),
    (0x29,0x49,'((ar.setReg k.dst V).csrWrite (V ||| ar.reg k.srcA) r).next',5,True),
    (0x2c,0x35,'((ar.setReg k.dst V).csrWrite (k.srcA.setWidth 32) r).next',3,True),
    (0x2d,0x37,'((ar.setReg k.dst V).csrWrite (V ||| k.srcA.setWidth 32) r).next',5,True)]:
    hk=' hk' if wr else ''
    w(f'''theorem r_{x:02x} {HD0} {{r : Csr}} (hk : k.enc = encOf r) (hm : r ≠ .mip)
    (h : Fin F {res.replace('V','(ar.csrRead false r)')} (n + {cost}) T) :
    Impl F pv {ST(x)} T n := by
  refine q_{x:02x} hd (by rw [hk]; exact encOf_ne_mip hm) fun d hd => ?_
  exact t_{t:02x} hd hrel (hpc_next hpc){hk} (csrView_eq hrel false hk) h

theorem r_{x:02x}_mip {{K : Bool → Tree α}} {HD0} (hk : k.enc = encOf .mip)
    (h : ∀ irq, Fin F {res.replace('V','(ar.csrRead irq .mip)').replace(' r)',' .mip)')} (n + {cost}) (K irq)) :
    Impl F pv {ST(x)} (.poll K) n := by
  refine p_{x:02x} hd hk fun d irq hd => ?_
  exact t_{t:02x} hd hrel (hpc_next hpc){hk} (by rw [hk]; exact csrView_mip irq) (h irq)
''')
for x,t,opd in [(0x2a,0x4b,'ar.reg k.srcA'),(0x2e,0x3b,'k.srcA.setWidth 32')]:
    w(f'''theorem r_{x:02x} {HD0} {{r : Csr}} (hk : k.enc = encOf r) (hm : r ≠ .mip)
    (h : Fin F ((ar.setReg k.dst (ar.csrRead false r)).csrWrite
      (ar.csrRead false r &&& ~~~({opd})) r).next (n + 6) T) :
    Impl F pv {ST(x)} T n := by
  refine q_{x:02x} hd (by rw [hk]; exact encOf_ne_mip hm) fun d hd => ?_
  exact t_{t:02x} hd hrel (hpc_next hpc) hk hm (csrView_eq hrel false hk) rfl h

theorem r_{x:02x}_mip {{K : Bool → Bool → Tree α}} {HD0} (hk : k.enc = encOf .mip)
    (h : ∀ irq irq', Fin F ((ar.setReg k.dst (ar.csrRead irq .mip)).csrWrite
      (ar.csrRead irq .mip &&& ~~~({opd})) .mip).next (n + 6) (K irq irq')) :
    Impl F pv {ST(x)} (.poll fun irq => .poll (K irq)) n := by
  refine p_{x:02x} hd hk fun d irq hd => ?_
  exact t_{t:02x}_mip hd hrel (hpc_next hpc) hk (by rw [hk]; exact csrView_mip irq) (h irq)
''')
w('end Sentinel')
open('/verif/lean/Verif/Proof/CsrRoutines.lean','w').write('\n'.join(out)+'\n')
