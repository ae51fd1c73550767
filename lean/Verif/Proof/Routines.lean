import Verif.Proof.Trap
import Verif.Proof.Arith
import Verif.Proof.AlignLemmas
/-!
# Microroutines: arithmetic, upper immediates, jumps, branches, loads, stores, no-ops, MRET

Each theorem `r_xx` runs the routine that starts at microaddress `0xxx` to the next instruction
fetch.
-/

set_option linter.unusedSimpArgs false

namespace Sentinel
open Ucode Spec

/-- `T` fetches the next instruction in the state `ar`, and goes on well if it is reached after `m`
request-free cycles. -/
def Fin {α : Type} (F : α → State → Cnt → Prop) (ar : Arch) (m : Cnt) (T : Tree α) : Prop :=
  ∃ K, T = .bus (fetchReq ar) K ∧ ∀ w s, AtDispatch (ar, w) s → Impl F true s (K w) m

variable {α : Type} {F : α → State → Cnt → Prop} {pv : Bool} {T : Tree α} {n : Cnt} {k : Keep}
  {a b o rd rb da wd : BitVec 32} {pc : BitVec 30} {mem : BitVec 6 → BitVec 32}
  {mie mpie meie : Bool} {pa : BitVec 4} {d : DecState} {c : CauseLatch} {ar : Arch}

@[simp] theorem Arch.setReg_pc (ar : Arch) (r : Reg) (v : Word) : (ar.setReg r v).pc = ar.pc := by
  unfold Arch.setReg; split <;> rfl

theorem fin_00 (hd : Dec k d) (hrel : Rel ar mem mie mpie meie c) (hpc : ar.pc = pc ++ 0#2)
    (h : Fin F ar n T) :
    Impl F pv ⟨u_00, 1#8, false, false, a, b, o, pc, mem, rd, ⟨mie, mpie, meie, rb, pa⟩, d, c, da, wd⟩
      T n := by
  obtain ⟨K, rfl, h⟩ := h
  exact w_00 hd hrel hpc h

theorem fin_b5 (hd : Dec k d) (hrel : Rel ar mem mie mpie meie c) {p : Word} (hp : p = pc ++ 0#2)
    (h : Fin F { ar.setReg k.dst o with pc := p } (n + .w0) T) :
    Impl F pv ⟨u_b5, 182#8, false, false, a, b, o, pc, mem, rd, ⟨mie, mpie, meie, rb, pa⟩, d, c, da, wd⟩
      T n := by
  obtain ⟨K, rfl, h⟩ := h
  exact w_b5 hd hrel p hp h

/-- `fast_epilog` of an instruction that goes on with the next word. -/
theorem fin_b5_next (hd : Dec k d) (hrel : Rel ar mem mie mpie meie c)
    (hpc : ar.pc + 4 = pc ++ 0#2) (h : Fin F (ar.setReg k.dst o).next (n + .w0) T) :
    Impl F pv ⟨u_b5, 182#8, false, false, a, b, o, pc, mem, rd, ⟨mie, mpie, meie, rb, pa⟩, d, c, da, wd⟩
      T n :=
  fin_b5 hd hrel (p := (ar.setReg k.dst o).pc + 4) (by rw [Arch.setReg_pc]; exact hpc) h

theorem Fin.req {p : BitVec 30} (h : Fin F ar n T) (hp : ar.pc = p ++ 0#2) :
    ∃ K, T = .bus ⟨p, 0xF, false, 0⟩ K := by
  obtain ⟨K, rfl, -⟩ := h
  exact ⟨K, by rw [fetchReq_eq hp]⟩

theorem fin_trap {c0 : CauseLatch} {int : Bool} {cause : BitVec 31} (hd : Dec k d)
    (hrel : Rel ar mem mie mpie meie c0) (hpc : ar.pc = pc ++ 0#2)
    (hi : c.interrupt = (ar.irqTaken || int)) (hc : c.cause = cause)
    (h : Fin F (ar.trap .asBuilt int cause) (n + .stk 4) T) :
    Impl F pv ⟨u_f0, 241#8, false, false, a, b, o, pc, mem, rd, ⟨mie, mpie, meie, rb, pa⟩, d, c, da, wd⟩
      T n := by
  subst hc
  obtain ⟨K, rfl, h⟩ := h
  exact q_trap hd hrel hpc hi h

/-- Synchronous exception. -/
theorem fin_exc (x : BitVec 31) (hd : Dec k d)
    (hrel : Rel ar mem mie mpie meie c) (hpc : ar.pc = pc ++ 0#2)
    (h : Fin F (ar.exception .asBuilt x) (n + .stk 4) T) :
    Impl F pv ⟨u_f0, 241#8, false, false, a, b, o, pc, mem, rd, ⟨mie, mpie, meie, rb, pa⟩, d,
      { c with cause := x }, da, wd⟩ T n :=
  fin_trap hd hrel hpc (int := false) (by simpa using hrel.irq) rfl h

theorem hpc_next (hpc : ar.pc = pc ++ 0#2) : ar.pc + 4 = (pc + 1#30) ++ 0#2 := by
  rw [hpc]; exact pc_inc pc

theorem setReg_next_pc (hpc : ar.pc = pc ++ 0#2) (r : Reg) (v : Word) :
    (ar.setReg r v).next.pc = (pc + 1#30) ++ 0#2 := by
  simp only [Arch.next, Arch.setReg_pc]; exact hpc_next hpc

/-! ## Arithmetic -/

theorem r_40 (hd : Dec k d) (hrel : Rel ar mem mie mpie meie c) (hpc : ar.pc = pc ++ 0#2)
    (h : Fin F (ar.setReg k.dst (a + k.imm)).next (n + .gw 1) T) :
    Impl F pv ⟨u_40, 65#8, false, false, a, b, o, pc, mem, rd, ⟨mie, mpie, meie, rb, pa⟩, d, c, da, wd⟩ T n := by
  refine q_40 hd fun d hd => ?_
  obtain ⟨K, rfl⟩ := h.req (setReg_next_pc hpc _ _)
  refine f_53 hd rfl fun d hd => ?_
  refine fin_b5_next hd hrel (hpc_next hpc) ?_
  exact h

theorem r_42 (hd : Dec k d) (hrel : Rel ar mem mie mpie meie c) (hpc : ar.pc = pc ++ 0#2)
    (h : Fin F (ar.setReg k.dst ((if a.toInt < k.imm.toInt then 1 else 0))).next (n + .gw 1) T) :
    Impl F pv ⟨u_42, 67#8, false, false, a, b, o, pc, mem, rd, ⟨mie, mpie, meie, rb, pa⟩, d, c, da, wd⟩ T n := by
  refine q_42 hd fun d hd => ?_
  obtain ⟨K, rfl⟩ := h.req (setReg_next_pc hpc _ _)
  refine f_54 hd rfl fun d hd => ?_
  refine fin_b5_next hd hrel (hpc_next hpc) ?_
  rw [cmp_lt]; exact h

theorem r_43 (hd : Dec k d) (hrel : Rel ar mem mie mpie meie c) (hpc : ar.pc = pc ++ 0#2)
    (h : Fin F (ar.setReg k.dst ((if a.toNat < k.imm.toNat then 1 else 0))).next (n + .gw 1) T) :
    Impl F pv ⟨u_43, 68#8, false, false, a, b, o, pc, mem, rd, ⟨mie, mpie, meie, rb, pa⟩, d, c, da, wd⟩ T n := by
  refine q_43 hd fun d hd => ?_
  obtain ⟨K, rfl⟩ := h.req (setReg_next_pc hpc _ _)
  refine f_55 hd rfl fun d hd => ?_
  refine fin_b5_next hd hrel (hpc_next hpc) ?_
  rw [cmp_ltu]; exact h

theorem r_44 (hd : Dec k d) (hrel : Rel ar mem mie mpie meie c) (hpc : ar.pc = pc ++ 0#2)
    (h : Fin F (ar.setReg k.dst (a ^^^ k.imm)).next (n + .gw 1) T) :
    Impl F pv ⟨u_44, 69#8, false, false, a, b, o, pc, mem, rd, ⟨mie, mpie, meie, rb, pa⟩, d, c, da, wd⟩ T n := by
  refine q_44 hd fun d hd => ?_
  obtain ⟨K, rfl⟩ := h.req (setReg_next_pc hpc _ _)
  refine f_56 hd rfl fun d hd => ?_
  refine fin_b5_next hd hrel (hpc_next hpc) ?_
  exact h

theorem r_46 (hd : Dec k d) (hrel : Rel ar mem mie mpie meie c) (hpc : ar.pc = pc ++ 0#2)
    (h : Fin F (ar.setReg k.dst (a ||| k.imm)).next (n + .gw 1) T) :
    Impl F pv ⟨u_46, 71#8, false, false, a, b, o, pc, mem, rd, ⟨mie, mpie, meie, rb, pa⟩, d, c, da, wd⟩ T n := by
  refine q_46 hd fun d hd => ?_
  obtain ⟨K, rfl⟩ := h.req (setReg_next_pc hpc _ _)
  refine f_57 hd rfl fun d hd => ?_
  refine fin_b5_next hd hrel (hpc_next hpc) ?_
  exact h

theorem r_47 (hd : Dec k d) (hrel : Rel ar mem mie mpie meie c) (hpc : ar.pc = pc ++ 0#2)
    (h : Fin F (ar.setReg k.dst (a &&& k.imm)).next (n + .gw 1) T) :
    Impl F pv ⟨u_47, 72#8, false, false, a, b, o, pc, mem, rd, ⟨mie, mpie, meie, rb, pa⟩, d, c, da, wd⟩ T n := by
  refine q_47 hd fun d hd => ?_
  obtain ⟨K, rfl⟩ := h.req (setReg_next_pc hpc _ _)
  refine f_58 hd rfl fun d hd => ?_
  refine fin_b5_next hd hrel (hpc_next hpc) ?_
  exact h

theorem r_c0 (hd : Dec k d) (hrel : Rel ar mem mie mpie meie c) (hpc : ar.pc = pc ++ 0#2)
    (h : Fin F (ar.setReg k.dst (a + rd)).next (n + .gw 1) T) :
    Impl F pv ⟨u_c0, 193#8, false, false, a, b, o, pc, mem, rd, ⟨mie, mpie, meie, rb, pa⟩, d, c, da, wd⟩ T n := by
  refine q_c0 hd fun d hd => ?_
  obtain ⟨K, rfl⟩ := h.req (setReg_next_pc hpc _ _)
  refine f_d1 hd rfl fun d hd => ?_
  refine fin_b5_next hd hrel (hpc_next hpc) ?_
  exact h

theorem r_c2 (hd : Dec k d) (hrel : Rel ar mem mie mpie meie c) (hpc : ar.pc = pc ++ 0#2)
    (h : Fin F (ar.setReg k.dst ((if a.toInt < rd.toInt then 1 else 0))).next (n + .gw 1) T) :
    Impl F pv ⟨u_c2, 195#8, false, false, a, b, o, pc, mem, rd, ⟨mie, mpie, meie, rb, pa⟩, d, c, da, wd⟩ T n := by
  refine q_c2 hd fun d hd => ?_
  obtain ⟨K, rfl⟩ := h.req (setReg_next_pc hpc _ _)
  refine f_d2 hd rfl fun d hd => ?_
  refine fin_b5_next hd hrel (hpc_next hpc) ?_
  rw [cmp_lt]; exact h

theorem r_c3 (hd : Dec k d) (hrel : Rel ar mem mie mpie meie c) (hpc : ar.pc = pc ++ 0#2)
    (h : Fin F (ar.setReg k.dst ((if a.toNat < rd.toNat then 1 else 0))).next (n + .gw 1) T) :
    Impl F pv ⟨u_c3, 196#8, false, false, a, b, o, pc, mem, rd, ⟨mie, mpie, meie, rb, pa⟩, d, c, da, wd⟩ T n := by
  refine q_c3 hd fun d hd => ?_
  obtain ⟨K, rfl⟩ := h.req (setReg_next_pc hpc _ _)
  refine f_d3 hd rfl fun d hd => ?_
  refine fin_b5_next hd hrel (hpc_next hpc) ?_
  rw [cmp_ltu]; exact h

theorem r_c4 (hd : Dec k d) (hrel : Rel ar mem mie mpie meie c) (hpc : ar.pc = pc ++ 0#2)
    (h : Fin F (ar.setReg k.dst (a ^^^ rd)).next (n + .gw 1) T) :
    Impl F pv ⟨u_c4, 197#8, false, false, a, b, o, pc, mem, rd, ⟨mie, mpie, meie, rb, pa⟩, d, c, da, wd⟩ T n := by
  refine q_c4 hd fun d hd => ?_
  obtain ⟨K, rfl⟩ := h.req (setReg_next_pc hpc _ _)
  refine f_d4 hd rfl fun d hd => ?_
  refine fin_b5_next hd hrel (hpc_next hpc) ?_
  exact h

theorem r_c6 (hd : Dec k d) (hrel : Rel ar mem mie mpie meie c) (hpc : ar.pc = pc ++ 0#2)
    (h : Fin F (ar.setReg k.dst (a ||| rd)).next (n + .gw 1) T) :
    Impl F pv ⟨u_c6, 199#8, false, false, a, b, o, pc, mem, rd, ⟨mie, mpie, meie, rb, pa⟩, d, c, da, wd⟩ T n := by
  refine q_c6 hd fun d hd => ?_
  obtain ⟨K, rfl⟩ := h.req (setReg_next_pc hpc _ _)
  refine f_d5 hd rfl fun d hd => ?_
  refine fin_b5_next hd hrel (hpc_next hpc) ?_
  exact h

theorem r_c7 (hd : Dec k d) (hrel : Rel ar mem mie mpie meie c) (hpc : ar.pc = pc ++ 0#2)
    (h : Fin F (ar.setReg k.dst (a &&& rd)).next (n + .gw 1) T) :
    Impl F pv ⟨u_c7, 200#8, false, false, a, b, o, pc, mem, rd, ⟨mie, mpie, meie, rb, pa⟩, d, c, da, wd⟩ T n := by
  refine q_c7 hd fun d hd => ?_
  obtain ⟨K, rfl⟩ := h.req (setReg_next_pc hpc _ _)
  refine f_d6 hd rfl fun d hd => ?_
  refine fin_b5_next hd hrel (hpc_next hpc) ?_
  exact h

theorem r_c8 (hd : Dec k d) (hrel : Rel ar mem mie mpie meie c) (hpc : ar.pc = pc ++ 0#2)
    (h : Fin F (ar.setReg k.dst (a - rd)).next (n + .gw 1) T) :
    Impl F pv ⟨u_c8, 201#8, false, false, a, b, o, pc, mem, rd, ⟨mie, mpie, meie, rb, pa⟩, d, c, da, wd⟩ T n := by
  refine q_c8 hd fun d hd => ?_
  obtain ⟨K, rfl⟩ := h.req (setReg_next_pc hpc _ _)
  refine f_d7 hd rfl fun d hd => ?_
  refine fin_b5_next hd hrel (hpc_next hpc) ?_
  exact h

theorem r_d0 (hd : Dec k d) (hrel : Rel ar mem mie mpie meie c) (hpc : ar.pc = pc ++ 0#2)
    (h : Fin F (ar.setReg k.dst (0#32 + k.imm)).next (n + .gw 1) T) :
    Impl F pv ⟨u_d0, 209#8, false, false, a, b, o, pc, mem, rd, ⟨mie, mpie, meie, rb, pa⟩, d, c, da, wd⟩ T n := by
  refine q_d0 hd fun d hd => ?_
  obtain ⟨K, rfl⟩ := h.req (setReg_next_pc hpc _ _)
  refine f_53 hd rfl fun d hd => ?_
  refine fin_b5_next hd hrel (hpc_next hpc) ?_
  exact h

/-- AUIPC -/
theorem r_50 (hd : Dec k d) (hrel : Rel ar mem mie mpie meie c) (hpc : ar.pc = pc ++ 0#2)
    (h : Fin F (ar.setReg k.dst (k.imm + ar.pc)).next (n + .gw 3) T) :
    Impl F pv ⟨u_50, 81#8, false, false, a, b, o, pc, mem, rd, ⟨mie, mpie, meie, rb, pa⟩, d, c, da, wd⟩ T n := by
  refine q_50 hd fun d hd => ?_
  refine q_51 hd fun d hd => ?_
  refine q_52 hd fun d hd => ?_
  rw [← hpc]
  exact fin_00 hd (hrel.setReg _ _).next (setReg_next_pc hpc _ _) h

/-- FENCE, WFI -/
theorem r_30 (hd : Dec k d) (hrel : Rel ar mem mie mpie meie c) (hpc : ar.pc = pc ++ 0#2)
    (h : Fin F ar.next (n + 1) T) : Impl F pv ⟨u_30, 49#8, false, false, a, b, o, pc, mem, rd, ⟨mie, mpie, meie, rb, pa⟩, d, c, da, wd⟩ T n := by
  refine q_30 hd fun d hd => ?_
  exact fin_00 hd hrel.next (hpc_next hpc) h

/-! ## Jumps and branches -/

theorem target_split {t : Word} (h0 : t.getLsbD 0 = false) (h1 : t.getLsbD 1 = false) :
    t = t.extractLsb' 2 30 ++ 0#2 := by
  refine (extract_append_low ?_).symm
  ext i hi
  have : i = 0 ∨ i = 1 := by omega
  rcases this with rfl | rfl
  · simpa using h0
  · simpa using h1

theorem targetOk_eq {t : Word} (h0 : t.getLsbD 0 = false) : targetOk t = !t.getLsbD 1 := by
  have := lane_lt t
  have e0 := bit0_lane t
  have e1 := bit1_lane t
  rw [h0] at e0
  rw [e1, targetOk, aligned]
  simp only [lane] at *
  have e0 : ¬ t.toNat % 4 % 2 = 1 := by simpa using e0.symm
  have : t.toNat % 4 = 0 ∨ t.toNat % 4 = 2 := by omega
  rcases this with h | h <;> simp [h]

/-- JAL -/
theorem r_b0 (hd : Dec k d) (hrel : Rel ar mem mie mpie meie c) (hpc : ar.pc = pc ++ 0#2) (h0 : (k.imm + ar.pc).getLsbD 0 = false)
    (ht : targetOk (k.imm + ar.pc) = true →
      Fin F { ar.setReg k.dst (4#32 + ar.pc) with pc := k.imm + ar.pc } (n + .gw 4) T)
    (hf : targetOk (k.imm + ar.pc) = false → Fin F (ar.exception .asBuilt 0) (n + .trap 7) T) :
    Impl F pv ⟨u_b0, 177#8, false, false, a, b, o, pc, mem, rd, ⟨mie, mpie, meie, rb, pa⟩, d, c, da, wd⟩ T n := by
  refine q_b0 hd fun d hd => ?_
  refine q_b1 hd fun d hd => ?_
  rw [← hpc]
  rw [targetOk_eq h0] at ht hf
  cases h1 : (k.imm + ar.pc).getLsbD 1 with
  | true =>
    refine q_b2_t hd h1 fun d hd => ?_
    exact fin_exc 0 hd hrel hpc (hf (by rw [h1]; rfl))
  | false =>
    have ht := ht (by rw [h1]; rfl)
    have hp := target_split h0 h1
    refine q_b2_f hd h1 fun d hd => ?_
    refine q_b3 hd fun d hd => ?_
    obtain ⟨K, rfl⟩ := ht.req hp
    refine f_b4 hd rfl fun d hd => ?_
    rw [← hpc]
    exact fin_b5 hd hrel hp ht

/-- JALR -/
theorem r_98 (hd : Dec k d) (hrel : Rel ar mem mie mpie meie c) (hpc : ar.pc = pc ++ 0#2)
    (ht : targetOk ((a + k.imm) &&& ~~~1#32) = true →
      Fin F { ar.setReg k.dst (4#32 + ar.pc) with pc := (a + k.imm) &&& ~~~1#32 } (n + .gw 4) T)
    (hf : targetOk ((a + k.imm) &&& ~~~1#32) = false → Fin F (ar.exception .asBuilt 0) (n + .trap 7) T) :
    Impl F pv ⟨u_98, 153#8, false, false, a, b, o, pc, mem, rd, ⟨mie, mpie, meie, rb, pa⟩, d, c, da, wd⟩ T n := by
  refine q_98 hd fun d hd => ?_
  refine q_99 hd fun d hd => ?_
  have e : aluNext .add .none .clearLsbO a k.imm = (a + k.imm) &&& ~~~1#32 := rfl
  rw [e]
  have h0 : ((a + k.imm) &&& ~~~1#32).getLsbD 0 = false := by simp
  have hx : (a + k.imm).extractLsb' 2 30 = ((a + k.imm) &&& ~~~1#32).extractLsb' 2 30 := by
    apply BitVec.eq_of_getLsbD_eq
    intro i hi
    simp only [BitVec.getLsbD_extractLsb', BitVec.getLsbD_and, BitVec.getLsbD_not]
    have : (1#32).getLsbD (2 + i) = false := by
      simp [BitVec.getLsbD_one]
    simp [this, show 2 + i < 32 by omega]
  generalize (a + k.imm) &&& ~~~1#32 = t at *
  rw [targetOk_eq h0] at ht hf
  cases h1 : t.getLsbD 1 with
  | true =>
    refine q_9a_t hd h1 fun d hd => ?_
    exact fin_exc 0 hd hrel hpc (hf (by rw [h1]; rfl))
  | false =>
    have ht := ht (by rw [h1]; rfl)
    have hp := target_split h0 h1
    refine q_9a_f hd h1 fun d hd => ?_
    refine q_9b hd fun d hd => ?_
    rw [hx]
    obtain ⟨K, rfl⟩ := ht.req hp
    refine f_9c hd rfl fun d hd => ?_
    rw [← hpc]
    exact fin_b5 hd hrel hp ht

/-- Branch not taken. -/
theorem r_97 (hd : Dec k d) (hrel : Rel ar mem mie mpie meie c) (hpc : ar.pc = pc ++ 0#2) (h : Fin F ar.next (n + 1) T) : Impl F pv ⟨u_97, 152#8, false, false, a, b, o, pc, mem, rd, ⟨mie, mpie, meie, rb, pa⟩, d, c, da, wd⟩ T n := by
  refine q_97 hd fun d hd => ?_
  exact fin_00 hd hrel.next (hpc_next hpc) h

/-- Branch taken. -/
theorem r_86 (hd : Dec k d) (hrel : Rel ar mem mie mpie meie c) (hpc : ar.pc = pc ++ 0#2) (ho : o = a + b) (h0 : o.getLsbD 0 = false)
    (ht : targetOk o = true → Fin F { ar with pc := o } (n + 2) T)
    (hf : targetOk o = false → Fin F (ar.exception .asBuilt 0) (n + .trap 5) T) :
    Impl F pv ⟨u_86, 135#8, false, false, a, b, o, pc, mem, rd, ⟨mie, mpie, meie, rb, pa⟩, d, c, da, wd⟩ T n := by
  rw [targetOk_eq h0] at ht hf
  cases h1 : o.getLsbD 1 with
  | true =>
    refine q_86_t hd h1 fun d hd => ?_
    exact fin_exc 0 hd hrel hpc (hf (by rw [h1]; rfl))
  | false =>
    have ht := ht (by rw [h1]; rfl)
    have hp := target_split h0 h1
    refine q_86_f hd h1 fun d hd => ?_
    refine q_87 hd fun d hd => ?_
    rw [← ho]
    exact fin_00 hd (hrel.withPc o) hp ht

/-- Branch taken. -/
theorem r_95 (hd : Dec k d) (hrel : Rel ar mem mie mpie meie c) (hpc : ar.pc = pc ++ 0#2) (ho : o = a + b) (h0 : o.getLsbD 0 = false)
    (ht : targetOk o = true → Fin F { ar with pc := o } (n + 2) T)
    (hf : targetOk o = false → Fin F (ar.exception .asBuilt 0) (n + .trap 5) T) :
    Impl F pv ⟨u_95, 150#8, false, false, a, b, o, pc, mem, rd, ⟨mie, mpie, meie, rb, pa⟩, d, c, da, wd⟩ T n := by
  rw [targetOk_eq h0] at ht hf
  cases h1 : o.getLsbD 1 with
  | true =>
    refine q_95_t hd h1 fun d hd => ?_
    exact fin_exc 0 hd hrel hpc (hf (by rw [h1]; rfl))
  | false =>
    have ht := ht (by rw [h1]; rfl)
    have hp := target_split h0 h1
    refine q_95_f hd h1 fun d hd => ?_
    refine q_96 hd fun d hd => ?_
    rw [← ho]
    exact fin_00 hd (hrel.withPc o) hp ht

theorem sub_eq_zero {x y : Word} : x - y = 0#32 ↔ x = y := by
  constructor
  · intro h
    have := congrArg (· + y) h
    simpa [BitVec.sub_add_cancel] using this
  · rintro rfl; simp

/-- BEQ -/
theorem r_88 (hd : Dec k d) (hrel : Rel ar mem mie mpie meie c) (hpc : ar.pc = pc ++ 0#2) (h0 : (k.imm + ar.pc).getLsbD 0 = false)
    (hn : brTaken .beq a rd = false → Fin F ar.next (n + 4) T)
    (ht : brTaken .beq a rd = true → targetOk (k.imm + ar.pc) = true →
      Fin F { ar with pc := k.imm + ar.pc } (n + 5) T)
    (hf : brTaken .beq a rd = true → targetOk (k.imm + ar.pc) = false →
      Fin F (ar.exception .asBuilt 0) (n + .trap 8) T) :
    Impl F pv ⟨u_88, 137#8, false, false, a, b, o, pc, mem, rd, ⟨mie, mpie, meie, rb, pa⟩, d, c, da, wd⟩ T n := by
  refine q_88 hd fun d hd => ?_
  refine q_84 hd fun d hd => ?_
  rw [← hpc]
  cases hb : brTaken .beq a rd with
  | false =>
    refine q_85_nz hd (by rw [sub_eq_zero]; simpa [brTaken] using hb) fun d hd => ?_
    exact r_97 hd hrel hpc (hn hb)
  | true =>
    refine q_85_z hd (by rw [sub_eq_zero]; simpa [brTaken] using hb) fun d hd => ?_
    exact r_86 hd hrel hpc rfl h0 (ht hb) (hf hb)

/-- BNE -/
theorem r_89 (hd : Dec k d) (hrel : Rel ar mem mie mpie meie c) (hpc : ar.pc = pc ++ 0#2) (h0 : (k.imm + ar.pc).getLsbD 0 = false)
    (hn : brTaken .bne a rd = false → Fin F ar.next (n + 4) T)
    (ht : brTaken .bne a rd = true → targetOk (k.imm + ar.pc) = true →
      Fin F { ar with pc := k.imm + ar.pc } (n + 5) T)
    (hf : brTaken .bne a rd = true → targetOk (k.imm + ar.pc) = false →
      Fin F (ar.exception .asBuilt 0) (n + .trap 8) T) :
    Impl F pv ⟨u_89, 138#8, false, false, a, b, o, pc, mem, rd, ⟨mie, mpie, meie, rb, pa⟩, d, c, da, wd⟩ T n := by
  refine q_89 hd fun d hd => ?_
  refine q_83 hd fun d hd => ?_
  rw [← hpc]
  cases hb : brTaken .bne a rd with
  | false =>
    refine q_94_z hd (by rw [sub_eq_zero]; simpa [brTaken] using hb) fun d hd => ?_
    exact r_97 hd hrel hpc (hn hb)
  | true =>
    refine q_94_nz hd (by rw [sub_eq_zero]; simpa [brTaken] using hb) fun d hd => ?_
    exact r_95 hd hrel hpc rfl h0 (ht hb) (hf hb)

/-- BLT -/
theorem r_8c (hd : Dec k d) (hrel : Rel ar mem mie mpie meie c) (hpc : ar.pc = pc ++ 0#2) (h0 : (k.imm + ar.pc).getLsbD 0 = false)
    (hn : brTaken .blt a rd = false → Fin F ar.next (n + 4) T)
    (ht : brTaken .blt a rd = true → targetOk (k.imm + ar.pc) = true →
      Fin F { ar with pc := k.imm + ar.pc } (n + 5) T)
    (hf : brTaken .blt a rd = true → targetOk (k.imm + ar.pc) = false →
      Fin F (ar.exception .asBuilt 0) (n + .trap 8) T) :
    Impl F pv ⟨u_8c, 141#8, false, false, a, b, o, pc, mem, rd, ⟨mie, mpie, meie, rb, pa⟩, d, c, da, wd⟩ T n := by
  refine q_8c hd fun d hd => ?_
  refine q_90 hd fun d hd => ?_
  rw [← hpc]
  cases hb : brTaken .blt a rd with
  | false =>
    refine q_94_z hd (by rw [cmp_lt]; simp [brTaken] at hb; simp [hb]) fun d hd => ?_
    exact r_97 hd hrel hpc (hn hb)
  | true =>
    refine q_94_nz hd (by rw [cmp_lt]; simp [brTaken] at hb; simp [hb]) fun d hd => ?_
    exact r_95 hd hrel hpc rfl h0 (ht hb) (hf hb)

/-- BGE -/
theorem r_8d (hd : Dec k d) (hrel : Rel ar mem mie mpie meie c) (hpc : ar.pc = pc ++ 0#2) (h0 : (k.imm + ar.pc).getLsbD 0 = false)
    (hn : brTaken .bge a rd = false → Fin F ar.next (n + 4) T)
    (ht : brTaken .bge a rd = true → targetOk (k.imm + ar.pc) = true →
      Fin F { ar with pc := k.imm + ar.pc } (n + 5) T)
    (hf : brTaken .bge a rd = true → targetOk (k.imm + ar.pc) = false →
      Fin F (ar.exception .asBuilt 0) (n + .trap 8) T) :
    Impl F pv ⟨u_8d, 142#8, false, false, a, b, o, pc, mem, rd, ⟨mie, mpie, meie, rb, pa⟩, d, c, da, wd⟩ T n := by
  refine q_8d hd fun d hd => ?_
  refine q_91 hd fun d hd => ?_
  rw [← hpc]
  cases hb : brTaken .bge a rd with
  | false =>
    refine q_94_z hd (by rw [cmp_ge]; simp [brTaken] at hb; simp [hb]) fun d hd => ?_
    exact r_97 hd hrel hpc (hn hb)
  | true =>
    refine q_94_nz hd (by rw [cmp_ge]; simp [brTaken] at hb; simp [hb]) fun d hd => ?_
    exact r_95 hd hrel hpc rfl h0 (ht hb) (hf hb)

/-- BLTU -/
theorem r_8e (hd : Dec k d) (hrel : Rel ar mem mie mpie meie c) (hpc : ar.pc = pc ++ 0#2) (h0 : (k.imm + ar.pc).getLsbD 0 = false)
    (hn : brTaken .bltu a rd = false → Fin F ar.next (n + 4) T)
    (ht : brTaken .bltu a rd = true → targetOk (k.imm + ar.pc) = true →
      Fin F { ar with pc := k.imm + ar.pc } (n + 5) T)
    (hf : brTaken .bltu a rd = true → targetOk (k.imm + ar.pc) = false →
      Fin F (ar.exception .asBuilt 0) (n + .trap 8) T) :
    Impl F pv ⟨u_8e, 143#8, false, false, a, b, o, pc, mem, rd, ⟨mie, mpie, meie, rb, pa⟩, d, c, da, wd⟩ T n := by
  refine q_8e hd fun d hd => ?_
  refine q_92 hd fun d hd => ?_
  rw [← hpc]
  cases hb : brTaken .bltu a rd with
  | false =>
    refine q_94_z hd (by rw [cmp_ltu]; simp [brTaken] at hb; simp [hb]) fun d hd => ?_
    exact r_97 hd hrel hpc (hn hb)
  | true =>
    refine q_94_nz hd (by rw [cmp_ltu]; simp [brTaken] at hb; simp [hb]) fun d hd => ?_
    exact r_95 hd hrel hpc rfl h0 (ht hb) (hf hb)

/-- BGEU -/
theorem r_8f (hd : Dec k d) (hrel : Rel ar mem mie mpie meie c) (hpc : ar.pc = pc ++ 0#2) (h0 : (k.imm + ar.pc).getLsbD 0 = false)
    (hn : brTaken .bgeu a rd = false → Fin F ar.next (n + 4) T)
    (ht : brTaken .bgeu a rd = true → targetOk (k.imm + ar.pc) = true →
      Fin F { ar with pc := k.imm + ar.pc } (n + 5) T)
    (hf : brTaken .bgeu a rd = true → targetOk (k.imm + ar.pc) = false →
      Fin F (ar.exception .asBuilt 0) (n + .trap 8) T) :
    Impl F pv ⟨u_8f, 144#8, false, false, a, b, o, pc, mem, rd, ⟨mie, mpie, meie, rb, pa⟩, d, c, da, wd⟩ T n := by
  refine q_8f hd fun d hd => ?_
  refine q_93 hd fun d hd => ?_
  rw [← hpc]
  cases hb : brTaken .bgeu a rd with
  | false =>
    refine q_94_z hd (by rw [cmp_geu]; simp [brTaken] at hb; simp [hb]) fun d hd => ?_
    exact r_97 hd hrel hpc (hn hb)
  | true =>
    refine q_94_nz hd (by rw [cmp_geu]; simp [brTaken] at hb; simp [hb]) fun d hd => ?_
    exact r_95 hd hrel hpc rfl h0 (ht hb) (hf hb)

/-! ## Loads and stores -/

/-- LB -/
theorem r_08 {K : Word → Tree α} (hd : Dec k d) (hrel : Rel ar mem mie mpie meie c) (hpc : ar.pc = pc ++ 0#2)
    (h : ∀ x, Fin F (ar.setReg k.dst (loadValue .lb (a + k.imm) x)).next (n + .gw 4) (K x)) :
    Impl F pv ⟨u_08, 9#8, false, false, a, b, o, pc, mem, rd, ⟨mie, mpie, meie, rb, pa⟩, d, c, da, wd⟩ (.bus (readReq (a + k.imm) 1) K) n := by
  have ha : aligned (a + k.imm) (LdOp.size .lb) = true := by simp [aligned, LdOp.size, Nat.mod_one]
  refine q_08 hd fun d hd => ?_
  refine q_0e hd fun d hd => ?_
  refine q_0f hd fun d hd => ?_
  refine w_10 hd ?_ fun x o d hd => ?_
  · rw [show MemSel.byte = selOfSize 1 from rfl, wbSel_eq 1 (by simp) _ ha]; rfl
  refine q_11 hd fun d hd => ?_
  refine fin_b5_next hd hrel (hpc_next hpc) ?_
  have e := readDataAlign_eq .lb _ x ha
  simp only [selOf, selOfSize, extOf, LdOp.size] at e
  rw [e, BitVec.zero_add]; exact h x

/-- LBU -/
theorem r_0c {K : Word → Tree α} (hd : Dec k d) (hrel : Rel ar mem mie mpie meie c) (hpc : ar.pc = pc ++ 0#2)
    (h : ∀ x, Fin F (ar.setReg k.dst (loadValue .lbu (a + k.imm) x)).next (n + .gw 4) (K x)) :
    Impl F pv ⟨u_0c, 13#8, false, false, a, b, o, pc, mem, rd, ⟨mie, mpie, meie, rb, pa⟩, d, c, da, wd⟩ (.bus (readReq (a + k.imm) 1) K) n := by
  have ha : aligned (a + k.imm) (LdOp.size .lbu) = true := by simp [aligned, LdOp.size, Nat.mod_one]
  refine q_0c hd fun d hd => ?_
  refine q_1a hd fun d hd => ?_
  refine q_1b hd fun d hd => ?_
  refine w_1c hd ?_ fun x o d hd => ?_
  · rw [show MemSel.byte = selOfSize 1 from rfl, wbSel_eq 1 (by simp) _ ha]; rfl
  refine q_1d hd fun d hd => ?_
  refine fin_b5_next hd hrel (hpc_next hpc) ?_
  have e := readDataAlign_eq .lbu _ x ha
  simp only [selOf, selOfSize, extOf, LdOp.size] at e
  rw [e, BitVec.zero_add]; exact h x

/-- LH -/
theorem r_09 (hd : Dec k d) (hrel : Rel ar mem mie mpie meie c) (hpc : ar.pc = pc ++ 0#2)
    (ht : aligned (a + k.imm) 2 = true → ∃ K : Word → Tree α, T = .bus (readReq (a + k.imm) 2) K ∧
      ∀ x, Fin F (ar.setReg k.dst (loadValue .lh (a + k.imm) x)).next (n + .gw 4) (K x))
    (hf : aligned (a + k.imm) 2 = false → Fin F (ar.exception .asBuilt 4) (n + .trap 7) T) :
    Impl F pv ⟨u_09, 10#8, false, false, a, b, o, pc, mem, rd, ⟨mie, mpie, meie, rb, pa⟩, d, c, da, wd⟩ T n := by
  refine q_09 hd fun d hd => ?_
  refine q_12 hd fun d hd => ?_
  cases ha : aligned (a + k.imm) 2 with
  | false =>
    refine q_13_t hd (by rw [dataMisaligned_hword, ha]; rfl) fun d hd => ?_
    exact fin_exc 4 hd hrel hpc (hf ha)
  | true =>
    obtain ⟨K, rfl, h⟩ := ht ha
    refine q_13_f hd (by rw [dataMisaligned_hword, ha]; rfl) fun d hd => ?_
    refine w_14 hd ?_ fun x o d hd => ?_
    · rw [show MemSel.hword = selOfSize 2 from rfl, wbSel_eq 2 (by simp) _ ha]; rfl
    refine q_15 hd fun d hd => ?_
    refine fin_b5_next hd hrel (hpc_next hpc) ?_
    have e := readDataAlign_eq .lh _ x ha
    simp only [selOf, selOfSize, extOf, LdOp.size] at e
    rw [e, BitVec.zero_add]; exact h x

/-- LHU -/
theorem r_0d (hd : Dec k d) (hrel : Rel ar mem mie mpie meie c) (hpc : ar.pc = pc ++ 0#2)
    (ht : aligned (a + k.imm) 2 = true → ∃ K : Word → Tree α, T = .bus (readReq (a + k.imm) 2) K ∧
      ∀ x, Fin F (ar.setReg k.dst (loadValue .lhu (a + k.imm) x)).next (n + .gw 4) (K x))
    (hf : aligned (a + k.imm) 2 = false → Fin F (ar.exception .asBuilt 4) (n + .trap 7) T) :
    Impl F pv ⟨u_0d, 14#8, false, false, a, b, o, pc, mem, rd, ⟨mie, mpie, meie, rb, pa⟩, d, c, da, wd⟩ T n := by
  refine q_0d hd fun d hd => ?_
  refine q_1e hd fun d hd => ?_
  cases ha : aligned (a + k.imm) 2 with
  | false =>
    refine q_1f_t hd (by rw [dataMisaligned_hword, ha]; rfl) fun d hd => ?_
    exact fin_exc 4 hd hrel hpc (hf ha)
  | true =>
    obtain ⟨K, rfl, h⟩ := ht ha
    refine q_1f_f hd (by rw [dataMisaligned_hword, ha]; rfl) fun d hd => ?_
    refine w_20 hd ?_ fun x o d hd => ?_
    · rw [show MemSel.hword = selOfSize 2 from rfl, wbSel_eq 2 (by simp) _ ha]; rfl
    refine q_21 hd fun d hd => ?_
    refine fin_b5_next hd hrel (hpc_next hpc) ?_
    have e := readDataAlign_eq .lhu _ x ha
    simp only [selOf, selOfSize, extOf, LdOp.size] at e
    rw [e, BitVec.zero_add]; exact h x

/-- LW -/
theorem r_0a (hd : Dec k d) (hrel : Rel ar mem mie mpie meie c) (hpc : ar.pc = pc ++ 0#2)
    (ht : aligned (a + k.imm) 4 = true → ∃ K : Word → Tree α, T = .bus (readReq (a + k.imm) 4) K ∧
      ∀ x, Fin F (ar.setReg k.dst (loadValue .lw (a + k.imm) x)).next (n + .gw 4) (K x))
    (hf : aligned (a + k.imm) 4 = false → Fin F (ar.exception .asBuilt 4) (n + .trap 7) T) :
    Impl F pv ⟨u_0a, 11#8, false, false, a, b, o, pc, mem, rd, ⟨mie, mpie, meie, rb, pa⟩, d, c, da, wd⟩ T n := by
  refine q_0a hd fun d hd => ?_
  refine q_16 hd fun d hd => ?_
  cases ha : aligned (a + k.imm) 4 with
  | false =>
    refine q_17_t hd (by rw [dataMisaligned_word, ha]; rfl) fun d hd => ?_
    exact fin_exc 4 hd hrel hpc (hf ha)
  | true =>
    obtain ⟨K, rfl, h⟩ := ht ha
    refine q_17_f hd (by rw [dataMisaligned_word, ha]; rfl) fun d hd => ?_
    refine w_18 hd ?_ fun x o d hd => ?_
    · rw [show MemSel.word = selOfSize 4 from rfl, wbSel_eq 4 (by simp) _ ha]; rfl
    refine q_19 hd fun d hd => ?_
    refine fin_b5_next hd hrel (hpc_next hpc) ?_
    have e := readDataAlign_eq .lw _ x ha
    simp only [selOf, selOfSize, extOf, LdOp.size] at e
    rw [e, BitVec.zero_add]; exact h x

/-- SB -/
theorem r_80 {K : Word → Tree α} (hd : Dec k d) (hrel : Rel ar mem mie mpie meie c) (hpc : ar.pc = pc ++ 0#2)
    (h : ∀ x, Fin F ar.next (n + 5) (K x)) :
    Impl F pv ⟨u_80, 129#8, false, false, a, b, o, pc, mem, rd, ⟨mie, mpie, meie, rb, pa⟩, d, c, da, wd⟩ (.bus (writeReq (a + k.imm) 1 (ar.reg k.srcB)) K) n := by
  have ha : aligned (a + k.imm) 1 = true := by simp [aligned, Nat.mod_one]
  refine q_80 hd fun d hd => ?_
  refine q_9d hd fun d hd => ?_
  refine q_9e hd fun d hd => ?_
  refine q_9f hd fun d hd => ?_
  refine w_a0 hd ?_ fun x o d hd => ?_
  · rw [show MemSel.byte = selOfSize 1 from rfl, wbSel_eq 1 (by simp) _ ha, hrel.reg,
      BitVec.zero_add, writeDataAlign_eq 1 (by simp) _ _ ha]; rfl
  refine q_a1 hd fun d hd => ?_
  exact fin_00 hd hrel.next (hpc_next hpc) (h x)

/-- SH -/
theorem r_81 (hd : Dec k d) (hrel : Rel ar mem mie mpie meie c) (hpc : ar.pc = pc ++ 0#2)
    (ht : aligned (a + k.imm) 2 = true → ∃ K : Word → Tree α,
      T = .bus (writeReq (a + k.imm) 2 (ar.reg k.srcB)) K ∧ ∀ x, Fin F ar.next (n + 5) (K x))
    (hf : aligned (a + k.imm) 2 = false → Fin F (ar.exception .asBuilt 6) (n + .trap 7) T) :
    Impl F pv ⟨u_81, 130#8, false, false, a, b, o, pc, mem, rd, ⟨mie, mpie, meie, rb, pa⟩, d, c, da, wd⟩ T n := by
  refine q_81 hd fun d hd => ?_
  refine q_a2 hd fun d hd => ?_
  cases ha : aligned (a + k.imm) 2 with
  | false =>
    refine q_a3_t hd (by rw [dataMisaligned_hword, ha]; rfl) fun d hd => ?_
    exact fin_exc 6 hd hrel hpc (hf ha)
  | true =>
    obtain ⟨K, rfl, h⟩ := ht ha
    refine q_a3_f hd (by rw [dataMisaligned_hword, ha]; rfl) fun d hd => ?_
    refine q_a4 hd fun d hd => ?_
    refine w_a5 hd ?_ fun x o d hd => ?_
    · rw [show MemSel.hword = selOfSize 2 from rfl, wbSel_eq 2 (by simp) _ ha, hrel.reg,
        BitVec.zero_add, writeDataAlign_eq 2 (by simp) _ _ ha]; rfl
    refine q_a6 hd fun d hd => ?_
    exact fin_00 hd hrel.next (hpc_next hpc) (h x)

/-- SW -/
theorem r_82 (hd : Dec k d) (hrel : Rel ar mem mie mpie meie c) (hpc : ar.pc = pc ++ 0#2)
    (ht : aligned (a + k.imm) 4 = true → ∃ K : Word → Tree α,
      T = .bus (writeReq (a + k.imm) 4 (ar.reg k.srcB)) K ∧ ∀ x, Fin F ar.next (n + 5) (K x))
    (hf : aligned (a + k.imm) 4 = false → Fin F (ar.exception .asBuilt 6) (n + .trap 7) T) :
    Impl F pv ⟨u_82, 131#8, false, false, a, b, o, pc, mem, rd, ⟨mie, mpie, meie, rb, pa⟩, d, c, da, wd⟩ T n := by
  refine q_82 hd fun d hd => ?_
  refine q_a7 hd fun d hd => ?_
  cases ha : aligned (a + k.imm) 4 with
  | false =>
    refine q_a8_t hd (by rw [dataMisaligned_word, ha]; rfl) fun d hd => ?_
    exact fin_exc 6 hd hrel hpc (hf ha)
  | true =>
    obtain ⟨K, rfl, h⟩ := ht ha
    refine q_a8_f hd (by rw [dataMisaligned_word, ha]; rfl) fun d hd => ?_
    refine q_a9 hd fun d hd => ?_
    refine w_aa hd ?_ fun x o d hd => ?_
    · rw [show MemSel.word = selOfSize 4 from rfl, wbSel_eq 4 (by simp) _ ha, hrel.reg,
        BitVec.zero_add, writeDataAlign_eq 4 (by simp) _ _ ha]; rfl
    refine q_ab hd fun d hd => ?_
    exact fin_00 hd hrel.next (hpc_next hpc) (h x)

/-! ## MRET -/

theorem r_f8 (hd : Dec k d) (hrel : Rel ar mem mie mpie meie c)
    (h : Fin F { ar with pc := ar.mepc, mie := ar.mpie, mpie := true } (n + .stk 4) T) :
    Impl F pv ⟨u_f8, 249#8, false, false, a, b, o, pc, mem, rd, ⟨mie, mpie, meie, rb, pa⟩, d, c, da, wd⟩ T n := by
  have hv : (0#32 + csrView 9#4 rb (mem (csrRamAdr 9#4)) : Word) = ar.mepc := by
    simpa [csrView] using hrel.mepc
  have hp : ar.mepc = ar.mepc.extractLsb' 2 30 ++ 0#2 := (extract_append_low hrel.ep).symm
  refine q_f8 hd fun d hd => ?_
  refine q_f9 hd fun d hd => ?_
  simp only [show rbNext 9#4 mie mpie meie false rb = rb from rfl]
  refine q_fa hd fun d hd => ?_
  rw [hv]
  refine q_fb hd fun d hd => ?_
  obtain ⟨K, rfl⟩ := h.req hp
  refine f_fc hd rfl fun d hd => ?_
  refine fin_00 hd ?_ hp h
  obtain ⟨h1, h2, h3, h4, h5, h6, h7, h8, h9, h10, h11, h12⟩ := hrel
  exact ⟨h1, h2, h3, h4, h5, h6, h8, rfl, h9, h10, h11, h12⟩

end Sentinel
