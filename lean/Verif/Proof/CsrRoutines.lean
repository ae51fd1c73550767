import Verif.Proof.Shifts
/-!
# Microroutines: CSR instructions
-/

set_option linter.unusedSimpArgs false

namespace Sentinel
open Ucode Spec

variable {α : Type} {F : α → State → Cnt → Prop} {pv : Bool} {T : Tree α} {n : Cnt} {k : Keep}
  {a b o rd rb da wd : BitVec 32} {pc : BitVec 30} {mem : BitVec 6 → BitVec 32}
  {mie mpie meie : Bool} {pa : BitVec 4} {d : DecState} {c : CauseLatch} {ar : Arch}

@[simp] theorem Arch.csrWrite_pc (ar : Arch) (v : Word) (r : Csr) : (ar.csrWrite v r).pc = ar.pc := by
  cases r <;> rfl

theorem Arch.csrWrite_setReg (ar : Arch) (v : Word) (r : Csr) (q : Reg) (x : Word) :
    (ar.csrWrite v r).setReg q x = (ar.setReg q x).csrWrite v r := by
  cases r <;> simp only [Arch.csrWrite, Arch.setReg] <;> split <;> rfl

theorem mstatusView_eq (mie mpie : Bool) :
    mstatusView mie mpie =
      (if mie then 0x8#32 else 0#32) ||| (if mpie then 0x80#32 else 0#32) ||| 0x1800#32 := by
  cases mie <;> cases mpie <;> rfl

theorem meiView_eq (b : Bool) : meiView b = if b then 0x800#32 else 0#32 := by
  cases b <;> rfl

/-- A CSR read returns the value of the CSR. -/
theorem csrView_eq (hrel : Rel ar mem mie mpie meie c) (irq : Bool) {r : Csr} (hk : k.enc = encOf r) :
    csrView k.enc (rbNext k.enc mie mpie meie irq rb) (mem (csrRamAdr k.enc)) = ar.csrRead irq r := by
  obtain ⟨h1, h2, h3, h4, h5, h6, h7, h8, h9, h10, h11, h12⟩ := hrel
  subst h7 h8 h9
  rw [hk]
  cases r
  · exact mstatusView_eq _ _
  · exact meiView_eq _
  · exact h3
  · exact h4
  · exact h5
  · exact h6
  · exact meiView_eq _

theorem csrView_mip (irq : Bool) : csrView CSR_MIP (meiView irq) rd = ar.csrRead irq .mip :=
  meiView_eq _

theorem encOf_ne_mip {r : Csr} (h : r ≠ .mip) : encOf r ≠ CSR_MIP := by
  cases r <;> simp [encOf] at *

theorem fin_b6_next (hd : Dec k d) (hrel : Rel ar mem mie mpie meie c) (hpc : ar.pc + 4 = pc ++ 0#2) {r : Csr} (hk : k.enc = encOf r)
    (h : Fin F (ar.csrWrite o r).next (n + .c0) T) : Impl F pv ⟨u_b6, 183#8, false, false, a, b, o, pc, mem, rd, ⟨mie, mpie, meie, rb, pa⟩, d, c, da, wd⟩ T n := by
  obtain ⟨K, rfl, h⟩ := h
  exact w_b6 hd hrel _ (by rw [Arch.csrWrite_pc]; exact hpc) hk h

/-- CSR instruction on a CSR that reads as zero. -/
theorem r_25 (hd : Dec k d) (hrel : Rel ar mem mie mpie meie c) (hpc : ar.pc = pc ++ 0#2)
    (h : Fin F (ar.setReg k.dst 0).next (n + .gw 2) T) : Impl F pv ⟨u_25, 38#8, false, false, a, b, o, pc, mem, rd, ⟨mie, mpie, meie, rb, pa⟩, d, c, da, wd⟩ T n := by
  refine q_25 hd fun d hd => ?_
  refine q_31 hd fun d hd => ?_
  exact fin_b5_next hd hrel (hpc_next hpc) h

/-- CSRRW without a read -/
theorem r_26 (hd : Dec k d) (hrel : Rel ar mem mie mpie meie c) (hpc : ar.pc = pc ++ 0#2) {r : Csr} (hk : k.enc = encOf r)
    (h : Fin F (ar.csrWrite rd r).next (n + .cs 2) T) : Impl F pv ⟨u_26, 39#8, false, false, a, b, o, pc, mem, rd, ⟨mie, mpie, meie, rb, pa⟩, d, c, da, wd⟩ T n := by
  refine q_26 hd fun d hd => ?_
  refine q_34 hd fun d hd => ?_
  rw [BitVec.zero_add]
  exact fin_b6_next hd hrel (hpc_next hpc) hk h

/-- CSRRWI without a read -/
theorem r_2b (hd : Dec k d) (hrel : Rel ar mem mie mpie meie c) (hpc : ar.pc = pc ++ 0#2) {r : Csr} (hk : k.enc = encOf r)
    (h : Fin F (ar.csrWrite (k.srcA.setWidth 32) r).next (n + .cs 2) T) : Impl F pv ⟨u_2b, 44#8, false, false, a, b, o, pc, mem, rd, ⟨mie, mpie, meie, rb, pa⟩, d, c, da, wd⟩ T n := by
  refine q_2b hd fun d hd => ?_
  refine q_34 hd fun d hd => ?_
  rw [BitVec.zero_add]
  exact fin_b6_next hd hrel (hpc_next hpc) hk h

/-! ## After the first read: `v` is the old value -/

theorem t_32 (hd : Dec k d) (hrel : Rel ar mem mie mpie meie c) (hpc : ar.pc + 4 = pc ++ 0#2) {v : Word} (hv : csrView pa rb rd = v)
    (h : Fin F (ar.setReg k.dst v).next (n + .gw 2) T) : Impl F pv ⟨u_32, 51#8, false, false, 0#32, b, o, pc, mem, rd, ⟨mie, mpie, meie, rb, pa⟩, d, c, da, wd⟩ T n := by
  refine q_32 hd fun d hd => ?_
  refine q_33 hd fun d hd => ?_
  rw [hv, BitVec.zero_add]
  exact fin_b5_next hd hrel hpc h

theorem t_35 (hd : Dec k d) (hrel : Rel ar mem mie mpie meie c) (hpc : ar.pc + 4 = pc ++ 0#2) {v x : Word} {r : Csr} (hk : k.enc = encOf r) (hv : csrView pa rb rd = v)
    (h : Fin F ((ar.setReg k.dst v).csrWrite x r).next (n + .gc 2) T) :
    Impl F pv ⟨u_35, 54#8, false, false, 0#32, x, o, pc, mem, rd, ⟨mie, mpie, meie, rb, pa⟩, d, c, da, wd⟩ T n := by
  refine q_35 hd fun d hd => ?_
  refine q_36 hd fun d hd => ?_
  rw [hv, BitVec.zero_add, BitVec.zero_add, hk]
  refine fin_b5_next hd (hrel.csrWrite r x) (by rw [Arch.csrWrite_pc]; exact hpc) ?_
  rw [Arch.csrWrite_setReg]; exact h

theorem t_39 (hd : Dec k d) (hrel : Rel ar mem mie mpie meie c) (hpc : ar.pc + 4 = pc ++ 0#2) {v x : Word} {r : Csr} (hk : k.enc = encOf r)
    (h : Fin F ((ar.setReg k.dst v).csrWrite (v ||| x) r).next (n + .gc 2) T) :
    Impl F pv ⟨u_39, 58#8, false, false, a, x, v, pc, mem, rd, ⟨mie, mpie, meie, rb, pa⟩, d, c, da, wd⟩ T n := by
  refine q_39 hd fun d hd => ?_
  refine q_3a hd fun d hd => ?_
  exact fin_b6_next hd (hrel.setReg _ _) (by rw [Arch.setReg_pc]; exact hpc) hk h

theorem t_37 (hd : Dec k d) (hrel : Rel ar mem mie mpie meie c) (hpc : ar.pc + 4 = pc ++ 0#2) {v : Word} {r : Csr} (hk : k.enc = encOf r) (hv : csrView pa rb rd = v)
    (h : Fin F ((ar.setReg k.dst v).csrWrite (v ||| k.srcA.setWidth 32) r).next (n + .gc 4) T) :
    Impl F pv ⟨u_37, 56#8, false, false, 0#32, b, o, pc, mem, rd, ⟨mie, mpie, meie, rb, pa⟩, d, c, da, wd⟩ T n := by
  refine q_37 hd fun d hd => ?_
  refine q_38 hd fun d hd => ?_
  rw [hv, BitVec.zero_add]
  exact t_39 hd hrel hpc hk h

theorem t_49 (hd : Dec k d) (hrel : Rel ar mem mie mpie meie c) (hpc : ar.pc + 4 = pc ++ 0#2) {v : Word} {r : Csr} (hk : k.enc = encOf r) (hv : csrView pa rb rd = v)
    (h : Fin F ((ar.setReg k.dst v).csrWrite (v ||| ar.reg k.srcA) r).next (n + .gc 4) T) :
    Impl F pv ⟨u_49, 74#8, false, false, 0#32, b, o, pc, mem, rd, ⟨mie, mpie, meie, rb, pa⟩, d, c, da, wd⟩ T n := by
  refine q_49 hd fun d hd => ?_
  refine q_4a hd fun d hd => ?_
  rw [hv, BitVec.zero_add, hrel.reg]
  exact t_39 hd hrel hpc hk h

theorem csr_clear (v x : Word) : (0xFFFFFFFF#32 ^^^ x) &&& v = v &&& ~~~x := by
  rw [show (0xFFFFFFFF#32 : Word) = BitVec.allOnes 32 from rfl, BitVec.allOnes_xor, BitVec.and_comm]

/-- Bit clear; `v'` is the value of the second read. -/
theorem t_3d (hd : Dec k d) (hrel : Rel ar mem mie mpie meie c) (hpc : ar.pc + 4 = pc ++ 0#2) {v v' x : Word} {r : Csr} (hk : k.enc = encOf r) (hv : csrView pa rb rd = v')
    (h : Fin F ((ar.setReg k.dst v).csrWrite (v' &&& ~~~x) r).next (n + .gc 3) T) :
    Impl F pv ⟨u_3d, 62#8, false, false, 0xFFFFFFFF#32, x, v, pc, mem, rd, ⟨mie, mpie, meie, rb, pa⟩, d, c, da, wd⟩ T n := by
  refine q_3d hd fun d hd => ?_
  refine q_3e hd fun d hd => ?_
  refine q_3f hd fun d hd => ?_
  rw [hv, csr_clear]
  exact fin_b6_next hd (hrel.setReg _ _) (by rw [Arch.setReg_pc]; exact hpc) hk h

theorem t_3b (hd : Dec k d) (hrel : Rel ar mem mie mpie meie c) (hpc : ar.pc + 4 = pc ++ 0#2) {v : Word} {r : Csr} (hk : k.enc = encOf r) (hm : r ≠ .mip)
    (hv : csrView pa rb rd = v) (hv' : v = ar.csrRead false r)
    (h : Fin F ((ar.setReg k.dst v).csrWrite (v &&& ~~~(k.srcA.setWidth 32)) r).next (n + .gc 5) T) :
    Impl F pv ⟨u_3b, 60#8, false, false, 0#32, b, o, pc, mem, rd, ⟨mie, mpie, meie, rb, pa⟩, d, c, da, wd⟩ T n := by
  refine q_3b hd fun d hd => ?_
  refine q_3c hd (by rw [hk]; exact encOf_ne_mip hm) fun d hd => ?_
  rw [hv, BitVec.zero_add]
  refine t_3d hd hrel hpc hk (csrView_eq hrel false hk) ?_
  rw [← hv']; exact h

theorem t_3b_mip {K : Bool → Tree α} (hd : Dec k d) (hrel : Rel ar mem mie mpie meie c) (hpc : ar.pc + 4 = pc ++ 0#2) {v : Word} (hk : k.enc = encOf .mip)
    (hv : csrView pa rb rd = v)
    (h : ∀ irq, Fin F ((ar.setReg k.dst v).csrWrite (v &&& ~~~(k.srcA.setWidth 32)) .mip).next (n + .gc 5) (K irq)) :
    Impl F pv ⟨u_3b, 60#8, false, false, 0#32, b, o, pc, mem, rd, ⟨mie, mpie, meie, rb, pa⟩, d, c, da, wd⟩ (.poll K) n := by
  refine q_3b hd fun d hd => ?_
  refine p_3c hd hk fun d irq hd => ?_
  rw [hv, BitVec.zero_add]
  exact t_3d hd hrel hpc hk rfl (h irq)

theorem t_4b (hd : Dec k d) (hrel : Rel ar mem mie mpie meie c) (hpc : ar.pc + 4 = pc ++ 0#2) {v : Word} {r : Csr} (hk : k.enc = encOf r) (hm : r ≠ .mip)
    (hv : csrView pa rb rd = v) (hv' : v = ar.csrRead false r)
    (h : Fin F ((ar.setReg k.dst v).csrWrite (v &&& ~~~(ar.reg k.srcA)) r).next (n + .gc 5) T) :
    Impl F pv ⟨u_4b, 76#8, false, false, 0#32, b, o, pc, mem, rd, ⟨mie, mpie, meie, rb, pa⟩, d, c, da, wd⟩ T n := by
  refine q_4b hd fun d hd => ?_
  refine q_4c hd (by rw [hk]; exact encOf_ne_mip hm) fun d hd => ?_
  rw [hv, BitVec.zero_add, hrel.reg]
  refine t_3d hd hrel hpc hk (csrView_eq hrel false hk) ?_
  rw [← hv']; exact h

theorem t_4b_mip {K : Bool → Tree α} (hd : Dec k d) (hrel : Rel ar mem mie mpie meie c) (hpc : ar.pc + 4 = pc ++ 0#2) {v : Word} (hk : k.enc = encOf .mip)
    (hv : csrView pa rb rd = v)
    (h : ∀ irq, Fin F ((ar.setReg k.dst v).csrWrite (v &&& ~~~(ar.reg k.srcA)) .mip).next (n + .gc 5) (K irq)) :
    Impl F pv ⟨u_4b, 76#8, false, false, 0#32, b, o, pc, mem, rd, ⟨mie, mpie, meie, rb, pa⟩, d, c, da, wd⟩ (.poll K) n := by
  refine q_4b hd fun d hd => ?_
  refine p_4c hd hk fun d irq hd => ?_
  rw [hv, BitVec.zero_add, hrel.reg]
  exact t_3d hd hrel hpc hk rfl (h irq)

theorem r_27 (hd : Dec k d) (hrel : Rel ar mem mie mpie meie c) (hpc : ar.pc = pc ++ 0#2) {r : Csr} (hk : k.enc = encOf r) (hm : r ≠ .mip)
    (h : Fin F ((ar.setReg k.dst (ar.csrRead false r)).csrWrite rd r).next (n + .gc 3) T) :
    Impl F pv ⟨u_27, 40#8, false, false, a, b, o, pc, mem, rd, ⟨mie, mpie, meie, rb, pa⟩, d, c, da, wd⟩ T n := by
  refine q_27 hd (by rw [hk]; exact encOf_ne_mip hm) fun d hd => ?_
  exact t_35 hd hrel (hpc_next hpc) hk (csrView_eq hrel false hk) h

theorem r_27_mip {K : Bool → Tree α} (hd : Dec k d) (hrel : Rel ar mem mie mpie meie c) (hpc : ar.pc = pc ++ 0#2) (hk : k.enc = encOf .mip)
    (h : ∀ irq, Fin F ((ar.setReg k.dst (ar.csrRead irq .mip)).csrWrite rd .mip).next (n + .gc 3) (K irq)) :
    Impl F pv ⟨u_27, 40#8, false, false, a, b, o, pc, mem, rd, ⟨mie, mpie, meie, rb, pa⟩, d, c, da, wd⟩ (.poll K) n := by
  refine p_27 hd hk fun d irq hd => ?_
  exact t_35 hd hrel (hpc_next hpc) hk (by rw [hk]; exact csrView_mip irq) (h irq)

theorem r_28 (hd : Dec k d) (hrel : Rel ar mem mie mpie meie c) (hpc : ar.pc = pc ++ 0#2) {r : Csr} (hk : k.enc = encOf r) (hm : r ≠ .mip)
    (h : Fin F (ar.setReg k.dst (ar.csrRead false r)).next (n + .gw 3) T) :
    Impl F pv ⟨u_28, 41#8, false, false, a, b, o, pc, mem, rd, ⟨mie, mpie, meie, rb, pa⟩, d, c, da, wd⟩ T n := by
  refine q_28 hd (by rw [hk]; exact encOf_ne_mip hm) fun d hd => ?_
  exact t_32 hd hrel (hpc_next hpc) (csrView_eq hrel false hk) h

theorem r_28_mip {K : Bool → Tree α} (hd : Dec k d) (hrel : Rel ar mem mie mpie meie c) (hpc : ar.pc = pc ++ 0#2) (hk : k.enc = encOf .mip)
    (h : ∀ irq, Fin F (ar.setReg k.dst (ar.csrRead irq .mip)).next (n + .gw 3) (K irq)) :
    Impl F pv ⟨u_28, 41#8, false, false, a, b, o, pc, mem, rd, ⟨mie, mpie, meie, rb, pa⟩, d, c, da, wd⟩ (.poll K) n := by
  refine p_28 hd hk fun d irq hd => ?_
  exact t_32 hd hrel (hpc_next hpc) (by rw [hk]; exact csrView_mip irq) (h irq)

theorem r_29 (hd : Dec k d) (hrel : Rel ar mem mie mpie meie c) (hpc : ar.pc = pc ++ 0#2) {r : Csr} (hk : k.enc = encOf r) (hm : r ≠ .mip)
    (h : Fin F ((ar.setReg k.dst (ar.csrRead false r)).csrWrite ((ar.csrRead false r) ||| ar.reg k.srcA) r).next (n + .gc 5) T) :
    Impl F pv ⟨u_29, 42#8, false, false, a, b, o, pc, mem, rd, ⟨mie, mpie, meie, rb, pa⟩, d, c, da, wd⟩ T n := by
  refine q_29 hd (by rw [hk]; exact encOf_ne_mip hm) fun d hd => ?_
  exact t_49 hd hrel (hpc_next hpc) hk (csrView_eq hrel false hk) h

theorem r_29_mip {K : Bool → Tree α} (hd : Dec k d) (hrel : Rel ar mem mie mpie meie c) (hpc : ar.pc = pc ++ 0#2) (hk : k.enc = encOf .mip)
    (h : ∀ irq, Fin F ((ar.setReg k.dst (ar.csrRead irq .mip)).csrWrite ((ar.csrRead irq .mip) ||| ar.reg k.srcA) .mip).next (n + .gc 5) (K irq)) :
    Impl F pv ⟨u_29, 42#8, false, false, a, b, o, pc, mem, rd, ⟨mie, mpie, meie, rb, pa⟩, d, c, da, wd⟩ (.poll K) n := by
  refine p_29 hd hk fun d irq hd => ?_
  exact t_49 hd hrel (hpc_next hpc) hk (by rw [hk]; exact csrView_mip irq) (h irq)

theorem r_2c (hd : Dec k d) (hrel : Rel ar mem mie mpie meie c) (hpc : ar.pc = pc ++ 0#2) {r : Csr} (hk : k.enc = encOf r) (hm : r ≠ .mip)
    (h : Fin F ((ar.setReg k.dst (ar.csrRead false r)).csrWrite (k.srcA.setWidth 32) r).next (n + .gc 3) T) :
    Impl F pv ⟨u_2c, 45#8, false, false, a, b, o, pc, mem, rd, ⟨mie, mpie, meie, rb, pa⟩, d, c, da, wd⟩ T n := by
  refine q_2c hd (by rw [hk]; exact encOf_ne_mip hm) fun d hd => ?_
  exact t_35 hd hrel (hpc_next hpc) hk (csrView_eq hrel false hk) h

theorem r_2c_mip {K : Bool → Tree α} (hd : Dec k d) (hrel : Rel ar mem mie mpie meie c) (hpc : ar.pc = pc ++ 0#2) (hk : k.enc = encOf .mip)
    (h : ∀ irq, Fin F ((ar.setReg k.dst (ar.csrRead irq .mip)).csrWrite (k.srcA.setWidth 32) .mip).next (n + .gc 3) (K irq)) :
    Impl F pv ⟨u_2c, 45#8, false, false, a, b, o, pc, mem, rd, ⟨mie, mpie, meie, rb, pa⟩, d, c, da, wd⟩ (.poll K) n := by
  refine p_2c hd hk fun d irq hd => ?_
  exact t_35 hd hrel (hpc_next hpc) hk (by rw [hk]; exact csrView_mip irq) (h irq)

theorem r_2d (hd : Dec k d) (hrel : Rel ar mem mie mpie meie c) (hpc : ar.pc = pc ++ 0#2) {r : Csr} (hk : k.enc = encOf r) (hm : r ≠ .mip)
    (h : Fin F ((ar.setReg k.dst (ar.csrRead false r)).csrWrite ((ar.csrRead false r) ||| k.srcA.setWidth 32) r).next (n + .gc 5) T) :
    Impl F pv ⟨u_2d, 46#8, false, false, a, b, o, pc, mem, rd, ⟨mie, mpie, meie, rb, pa⟩, d, c, da, wd⟩ T n := by
  refine q_2d hd (by rw [hk]; exact encOf_ne_mip hm) fun d hd => ?_
  exact t_37 hd hrel (hpc_next hpc) hk (csrView_eq hrel false hk) h

theorem r_2d_mip {K : Bool → Tree α} (hd : Dec k d) (hrel : Rel ar mem mie mpie meie c) (hpc : ar.pc = pc ++ 0#2) (hk : k.enc = encOf .mip)
    (h : ∀ irq, Fin F ((ar.setReg k.dst (ar.csrRead irq .mip)).csrWrite ((ar.csrRead irq .mip) ||| k.srcA.setWidth 32) .mip).next (n + .gc 5) (K irq)) :
    Impl F pv ⟨u_2d, 46#8, false, false, a, b, o, pc, mem, rd, ⟨mie, mpie, meie, rb, pa⟩, d, c, da, wd⟩ (.poll K) n := by
  refine p_2d hd hk fun d irq hd => ?_
  exact t_37 hd hrel (hpc_next hpc) hk (by rw [hk]; exact csrView_mip irq) (h irq)

theorem r_2a (hd : Dec k d) (hrel : Rel ar mem mie mpie meie c) (hpc : ar.pc = pc ++ 0#2) {r : Csr} (hk : k.enc = encOf r) (hm : r ≠ .mip)
    (h : Fin F ((ar.setReg k.dst (ar.csrRead false r)).csrWrite
      (ar.csrRead false r &&& ~~~(ar.reg k.srcA)) r).next (n + .gc 6) T) :
    Impl F pv ⟨u_2a, 43#8, false, false, a, b, o, pc, mem, rd, ⟨mie, mpie, meie, rb, pa⟩, d, c, da, wd⟩ T n := by
  refine q_2a hd (by rw [hk]; exact encOf_ne_mip hm) fun d hd => ?_
  exact t_4b hd hrel (hpc_next hpc) hk hm (csrView_eq hrel false hk) rfl h

theorem r_2a_mip {K : Bool → Bool → Tree α} (hd : Dec k d) (hrel : Rel ar mem mie mpie meie c) (hpc : ar.pc = pc ++ 0#2) (hk : k.enc = encOf .mip)
    (h : ∀ irq irq', Fin F ((ar.setReg k.dst (ar.csrRead irq .mip)).csrWrite
      (ar.csrRead irq .mip &&& ~~~(ar.reg k.srcA)) .mip).next (n + .gc 6) (K irq irq')) :
    Impl F pv ⟨u_2a, 43#8, false, false, a, b, o, pc, mem, rd, ⟨mie, mpie, meie, rb, pa⟩, d, c, da, wd⟩ (.poll fun irq => .poll (K irq)) n := by
  refine p_2a hd hk fun d irq hd => ?_
  exact t_4b_mip hd hrel (hpc_next hpc) hk (by rw [hk]; exact csrView_mip irq) (h irq)

theorem r_2e (hd : Dec k d) (hrel : Rel ar mem mie mpie meie c) (hpc : ar.pc = pc ++ 0#2) {r : Csr} (hk : k.enc = encOf r) (hm : r ≠ .mip)
    (h : Fin F ((ar.setReg k.dst (ar.csrRead false r)).csrWrite
      (ar.csrRead false r &&& ~~~(k.srcA.setWidth 32)) r).next (n + .gc 6) T) :
    Impl F pv ⟨u_2e, 47#8, false, false, a, b, o, pc, mem, rd, ⟨mie, mpie, meie, rb, pa⟩, d, c, da, wd⟩ T n := by
  refine q_2e hd (by rw [hk]; exact encOf_ne_mip hm) fun d hd => ?_
  exact t_3b hd hrel (hpc_next hpc) hk hm (csrView_eq hrel false hk) rfl h

theorem r_2e_mip {K : Bool → Bool → Tree α} (hd : Dec k d) (hrel : Rel ar mem mie mpie meie c) (hpc : ar.pc = pc ++ 0#2) (hk : k.enc = encOf .mip)
    (h : ∀ irq irq', Fin F ((ar.setReg k.dst (ar.csrRead irq .mip)).csrWrite
      (ar.csrRead irq .mip &&& ~~~(k.srcA.setWidth 32)) .mip).next (n + .gc 6) (K irq irq')) :
    Impl F pv ⟨u_2e, 47#8, false, false, a, b, o, pc, mem, rd, ⟨mie, mpie, meie, rb, pa⟩, d, c, da, wd⟩ (.poll fun irq => .poll (K irq)) n := by
  refine p_2e hd hk fun d irq hd => ?_
  exact t_3b_mip hd hrel (hpc_next hpc) hk (by rw [hk]; exact csrView_mip irq) (h irq)

end Sentinel
