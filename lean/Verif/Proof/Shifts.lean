import Verif.Proof.Routines
/-!
# Microroutines: shifts (loops)
-/

set_option linter.unusedSimpArgs false

namespace Sentinel
open Ucode Spec

variable {α : Type} {F : α → State → Cnt → Prop} {pv : Bool} {T : Tree α} {n : Cnt} {k : Keep}
  {a b o rd rb da wd : BitVec 32} {pc : BitVec 30} {mem : BitVec 6 → BitVec 32}
  {mie mpie meie : Bool} {pa : BitVec 4} {d : DecState} {c : CauseLatch} {ar : Arch}

theorem Arch.setReg_setReg (ar : Arch) (r : Reg) (v v' : Word) :
    (ar.setReg r v).setReg r v' = ar.setReg r v' := by
  unfold Arch.setReg
  split
  · rfl
  · simp; funext q; split <;> rfl

theorem and31 (y : Word) : (31#32 &&& y).toNat = y.toNat % 32 := by
  rw [BitVec.toNat_and, Nat.and_comm, show (31#32 : Word).toNat = 2 ^ 5 - 1 from rfl, Nat.and_two_pow_sub_one_eq_mod]

theorem ne_zero_toNat {x : Word} (h : ¬ x = 0#32) : ∃ m, x.toNat = m + 1 := by
  have : x.toNat ≠ 0 := fun e => h (BitVec.eq_of_toNat_eq (by simpa using e))
  exact ⟨x.toNat - 1, by omega⟩

theorem sub_one_toNat {x : Word} {m : Nat} (h : x.toNat = m + 1) : (x - 1#32).toNat = m := by
  have := x.isLt
  rw [BitVec.toNat_sub]; simp; omega

/-- Shift by zero: copy rs1 to rd. -/
theorem r_68 (hd : Dec k d) (hrel : Rel ar mem mie mpie meie c) (hpc : ar.pc + 4 = pc ++ 0#2)
    (h : Fin F (ar.setReg k.dst rd).next (n + .gw 2) T) :
    Impl F pv ⟨u_68, 105#8, false, false, a, b, o, pc, mem, rd, ⟨mie, mpie, meie, rb, pa⟩, d, c, da, wd⟩ T n := by
  refine q_68 hd fun d hd => ?_
  refine q_69 hd fun d hd => ?_
  refine fin_b5_next hd hrel hpc ?_
  rw [BitVec.zero_add]; exact h

theorem cnt_loop (n : Cnt) (m : Nat) :
    n + .w + 1 + .gw (2 * (m + 1)) = n + .gw (2 * (m + 1 + 1)) := by
  apply Cnt.ext'
  · show n.idle + 1 + 1 + 2 * (m + 1) = n.idle + 2 * (m + 1 + 1); omega
  all_goals rfl

theorem cnt_enter (n : Cnt) (m : Nat) :
    n + 1 + 1 + 1 + 1 + .gw (2 * (m + 1)) = n + .gw (4 + 2 * (m + 1)) := by
  apply Cnt.ext'
  · show n.idle + 1 + 1 + 1 + 1 + 2 * (m + 1) = n.idle + (4 + 2 * (m + 1)); omega
  all_goals rfl

/-- The sll loop. -/
theorem loop_sll (m : Nat) : ∀ {F : α → State → Cnt → Prop} {pv : Bool} {T : Tree α} {n : Cnt}
    {a rd rb x : BitVec 32} {mem : BitVec 6 → BitVec 32} {pa : BitVec 4} {d : DecState} {ar : Arch}
    (_ : Dec k d) (_ : Rel ar mem mie mpie meie c) (_ : ar.pc + 4 = pc ++ 0#2)
    (_ : a.toNat = m + 1) (_ : Fin F (ar.setReg k.dst (x <<< (m + 1))).next (n + .gw (2 * (m + 1))) T),
    Impl F pv ⟨u_5c, 93#8, false, false, a, 1#32, (x <<< 1), pc, mem, rd, ⟨mie, mpie, meie, rb, pa⟩, d, c, da, wd⟩ T n := by
  induction m with
  | zero =>
    intro F pv T n a rd rb x mem pa d ar hd hrel hpc ha h
    refine q_5c hd fun d hd => ?_
    refine q_5d_z hd ?_ fun d hd => ?_
    · apply BitVec.eq_of_toNat_eq; rw [sub_one_toNat ha]; rfl
    exact fin_00 hd (hrel.setReg _ _).next (by simp only [Arch.next, Arch.setReg_pc]; exact hpc) h
  | succ m ih =>
    intro F pv T n a rd rb x mem pa d ar hd hrel hpc ha h
    refine q_5c hd fun d hd => ?_
    refine q_5d_nz hd ?_ fun d hd => ?_
    · intro e
      have := sub_one_toNat ha
      rw [e] at this; simp at this
    refine ih hd (hrel.setReg _ _) (by rw [Arch.setReg_pc]; exact hpc) (sub_one_toNat ha) ?_
    rw [Arch.setReg_setReg, ← BitVec.shiftLeft_add, show n + .w + 1 + .gw (2 * (m + 1)) = n + .gw (2 * (m + 1 + 1)) from cnt_loop n m,
      show 1 + (m + 1) = m + 1 + 1 by omega]
    exact h

/-- SLLI -/
theorem r_41 (hd : Dec k d) (hrel : Rel ar mem mie mpie meie c) (hpc : ar.pc = pc ++ 0#2) (hi : k.imm.toNat < 32)
    (h : Fin F (ar.setReg k.dst ((ar.reg k.srcA) <<< (k.imm.toNat % 32))).next
      (n + .gw (if k.imm.toNat % 32 = 0 then 6 else 4 + 2 * (k.imm.toNat % 32))) T) :
    Impl F pv ⟨u_41, 66#8, false, false, a, b, o, pc, mem, rd, ⟨mie, mpie, meie, rb, pa⟩, d, c, da, wd⟩ T n := by
  rw [Nat.mod_eq_of_lt hi] at h
  have hpc' := hpc_next hpc
  refine q_41 hd fun d hd => ?_
  refine q_59 hd fun d hd => ?_
  refine q_5a hd fun d hd => ?_
  rw [BitVec.zero_add]
  by_cases h0 : k.imm = 0#32
  · refine q_5b_z hd h0 fun d hd => ?_
    refine r_68 hd hrel hpc' ?_
    rw [hrel.reg]
    rw [h0] at h; simp at h; exact h
  · refine q_5b_nz hd h0 fun d hd => ?_
    obtain ⟨m, hm⟩ := ne_zero_toNat h0
    rw [hrel.reg]
    refine loop_sll m hd hrel hpc' hm ?_
    rw [hm] at h; simp only [Nat.succ_ne_zero, if_false] at h; rw [cnt_enter]; exact h

/-- SLL -/
theorem r_c1 (hd : Dec k d) (hrel : Rel ar mem mie mpie meie c) (hpc : ar.pc = pc ++ 0#2)
    (h : Fin F (ar.setReg k.dst ((ar.reg k.srcA) <<< (rd.toNat % 32))).next
      (n + .gw (if rd.toNat % 32 = 0 then 7 else 4 + 2 * (rd.toNat % 32))) T) :
    Impl F pv ⟨u_c1, 194#8, false, false, a, b, o, pc, mem, rd, ⟨mie, mpie, meie, rb, pa⟩, d, c, da, wd⟩ T n := by
  rw [← and31] at h
  have hpc' := hpc_next hpc
  refine q_c1 hd fun d hd => ?_
  refine q_d8 hd fun d hd => ?_
  refine q_d9 hd fun d hd => ?_
  by_cases h0 : 31#32 &&& rd = 0#32
  · refine q_da_z hd h0 fun d hd => ?_
    refine q_db hd fun d hd => ?_
    refine r_68 hd hrel hpc' ?_
    rw [hrel.reg]
    rw [h0] at h; simp at h; exact h
  · refine q_da_nz hd h0 fun d hd => ?_
    obtain ⟨m, hm⟩ := ne_zero_toNat h0
    rw [hrel.reg]
    refine loop_sll m hd hrel hpc' hm ?_
    rw [hm] at h; simp only [Nat.succ_ne_zero, if_false] at h; rw [cnt_enter]; exact h

/-- The srl loop. -/
theorem loop_srl (m : Nat) : ∀ {F : α → State → Cnt → Prop} {pv : Bool} {T : Tree α} {n : Cnt}
    {a rd rb x : BitVec 32} {mem : BitVec 6 → BitVec 32} {pa : BitVec 4} {d : DecState} {ar : Arch}
    (_ : Dec k d) (_ : Rel ar mem mie mpie meie c) (_ : ar.pc + 4 = pc ++ 0#2)
    (_ : a.toNat = m + 1) (_ : Fin F (ar.setReg k.dst (x >>> (m + 1))).next (n + .gw (2 * (m + 1))) T),
    Impl F pv ⟨u_61, 98#8, false, false, a, 1#32, (x >>> 1), pc, mem, rd, ⟨mie, mpie, meie, rb, pa⟩, d, c, da, wd⟩ T n := by
  induction m with
  | zero =>
    intro F pv T n a rd rb x mem pa d ar hd hrel hpc ha h
    refine q_61 hd fun d hd => ?_
    refine q_62_z hd ?_ fun d hd => ?_
    · apply BitVec.eq_of_toNat_eq; rw [sub_one_toNat ha]; rfl
    exact fin_00 hd (hrel.setReg _ _).next (by simp only [Arch.next, Arch.setReg_pc]; exact hpc) h
  | succ m ih =>
    intro F pv T n a rd rb x mem pa d ar hd hrel hpc ha h
    refine q_61 hd fun d hd => ?_
    refine q_62_nz hd ?_ fun d hd => ?_
    · intro e
      have := sub_one_toNat ha
      rw [e] at this; simp at this
    refine ih hd (hrel.setReg _ _) (by rw [Arch.setReg_pc]; exact hpc) (sub_one_toNat ha) ?_
    rw [Arch.setReg_setReg, ← BitVec.shiftRight_add, show n + .w + 1 + .gw (2 * (m + 1)) = n + .gw (2 * (m + 1 + 1)) from cnt_loop n m,
      show 1 + (m + 1) = m + 1 + 1 by omega]
    exact h

/-- SRLI -/
theorem r_45 (hd : Dec k d) (hrel : Rel ar mem mie mpie meie c) (hpc : ar.pc = pc ++ 0#2) (hi : k.imm.toNat < 32)
    (h : Fin F (ar.setReg k.dst ((ar.reg k.srcA) >>> (k.imm.toNat % 32))).next
      (n + .gw (if k.imm.toNat % 32 = 0 then 6 else 4 + 2 * (k.imm.toNat % 32))) T) :
    Impl F pv ⟨u_45, 70#8, false, false, a, b, o, pc, mem, rd, ⟨mie, mpie, meie, rb, pa⟩, d, c, da, wd⟩ T n := by
  rw [Nat.mod_eq_of_lt hi] at h
  have hpc' := hpc_next hpc
  refine q_45 hd fun d hd => ?_
  refine q_5e hd fun d hd => ?_
  refine q_5f hd fun d hd => ?_
  rw [BitVec.zero_add]
  by_cases h0 : k.imm = 0#32
  · refine q_60_z hd h0 fun d hd => ?_
    refine r_68 hd hrel hpc' ?_
    rw [hrel.reg]
    rw [h0] at h; simp at h; exact h
  · refine q_60_nz hd h0 fun d hd => ?_
    obtain ⟨m, hm⟩ := ne_zero_toNat h0
    rw [hrel.reg]
    refine loop_srl m hd hrel hpc' hm ?_
    rw [hm] at h; simp only [Nat.succ_ne_zero, if_false] at h; rw [cnt_enter]; exact h

/-- SRL -/
theorem r_c5 (hd : Dec k d) (hrel : Rel ar mem mie mpie meie c) (hpc : ar.pc = pc ++ 0#2)
    (h : Fin F (ar.setReg k.dst ((ar.reg k.srcA) >>> (rd.toNat % 32))).next
      (n + .gw (if rd.toNat % 32 = 0 then 7 else 4 + 2 * (rd.toNat % 32))) T) :
    Impl F pv ⟨u_c5, 198#8, false, false, a, b, o, pc, mem, rd, ⟨mie, mpie, meie, rb, pa⟩, d, c, da, wd⟩ T n := by
  rw [← and31] at h
  have hpc' := hpc_next hpc
  refine q_c5 hd fun d hd => ?_
  refine q_dc hd fun d hd => ?_
  refine q_dd hd fun d hd => ?_
  by_cases h0 : 31#32 &&& rd = 0#32
  · refine q_de_z hd h0 fun d hd => ?_
    refine q_df hd fun d hd => ?_
    refine r_68 hd hrel hpc' ?_
    rw [hrel.reg]
    rw [h0] at h; simp at h; exact h
  · refine q_de_nz hd h0 fun d hd => ?_
    obtain ⟨m, hm⟩ := ne_zero_toNat h0
    rw [hrel.reg]
    refine loop_srl m hd hrel hpc' hm ?_
    rw [hm] at h; simp only [Nat.succ_ne_zero, if_false] at h; rw [cnt_enter]; exact h

/-- The sra loop. -/
theorem loop_sra (m : Nat) : ∀ {F : α → State → Cnt → Prop} {pv : Bool} {T : Tree α} {n : Cnt}
    {a rd rb x : BitVec 32} {mem : BitVec 6 → BitVec 32} {pa : BitVec 4} {d : DecState} {ar : Arch}
    (_ : Dec k d) (_ : Rel ar mem mie mpie meie c) (_ : ar.pc + 4 = pc ++ 0#2)
    (_ : a.toNat = m + 1) (_ : Fin F (ar.setReg k.dst (x.sshiftRight (m + 1))).next (n + .gw (2 * (m + 1))) T),
    Impl F pv ⟨u_66, 103#8, false, false, a, 1#32, (x.sshiftRight 1), pc, mem, rd, ⟨mie, mpie, meie, rb, pa⟩, d, c, da, wd⟩ T n := by
  induction m with
  | zero =>
    intro F pv T n a rd rb x mem pa d ar hd hrel hpc ha h
    refine q_66 hd fun d hd => ?_
    refine q_67_z hd ?_ fun d hd => ?_
    · apply BitVec.eq_of_toNat_eq; rw [sub_one_toNat ha]; rfl
    exact fin_00 hd (hrel.setReg _ _).next (by simp only [Arch.next, Arch.setReg_pc]; exact hpc) h
  | succ m ih =>
    intro F pv T n a rd rb x mem pa d ar hd hrel hpc ha h
    refine q_66 hd fun d hd => ?_
    refine q_67_nz hd ?_ fun d hd => ?_
    · intro e
      have := sub_one_toNat ha
      rw [e] at this; simp at this
    refine ih hd (hrel.setReg _ _) (by rw [Arch.setReg_pc]; exact hpc) (sub_one_toNat ha) ?_
    rw [Arch.setReg_setReg, ← BitVec.sshiftRight_add, show n + .w + 1 + .gw (2 * (m + 1)) = n + .gw (2 * (m + 1 + 1)) from cnt_loop n m,
      show 1 + (m + 1) = m + 1 + 1 by omega]
    exact h

/-- SRAI -/
theorem r_4d (hd : Dec k d) (hrel : Rel ar mem mie mpie meie c) (hpc : ar.pc = pc ++ 0#2)
    (h : Fin F (ar.setReg k.dst ((ar.reg k.srcA).sshiftRight (k.imm.toNat % 32))).next
      (n + .gw (if k.imm.toNat % 32 = 0 then 6 else 4 + 2 * (k.imm.toNat % 32))) T) :
    Impl F pv ⟨u_4d, 78#8, false, false, a, b, o, pc, mem, rd, ⟨mie, mpie, meie, rb, pa⟩, d, c, da, wd⟩ T n := by
  rw [← and31] at h
  have hpc' := hpc_next hpc
  refine q_4d hd fun d hd => ?_
  refine q_63 hd fun d hd => ?_
  refine q_64 hd fun d hd => ?_
  by_cases h0 : 31#32 &&& k.imm = 0#32
  · refine q_65_z hd h0 fun d hd => ?_
    refine r_68 hd hrel hpc' ?_
    rw [hrel.reg]
    rw [h0] at h; simp at h; exact h
  · refine q_65_nz hd h0 fun d hd => ?_
    obtain ⟨m, hm⟩ := ne_zero_toNat h0
    rw [hrel.reg]
    refine loop_sra m hd hrel hpc' hm ?_
    rw [hm] at h; simp only [Nat.succ_ne_zero, if_false] at h; rw [cnt_enter]; exact h

/-- SRA -/
theorem r_cd (hd : Dec k d) (hrel : Rel ar mem mie mpie meie c) (hpc : ar.pc = pc ++ 0#2)
    (h : Fin F (ar.setReg k.dst ((ar.reg k.srcA).sshiftRight (rd.toNat % 32))).next
      (n + .gw (if rd.toNat % 32 = 0 then 7 else 4 + 2 * (rd.toNat % 32))) T) :
    Impl F pv ⟨u_cd, 206#8, false, false, a, b, o, pc, mem, rd, ⟨mie, mpie, meie, rb, pa⟩, d, c, da, wd⟩ T n := by
  rw [← and31] at h
  have hpc' := hpc_next hpc
  refine q_cd hd fun d hd => ?_
  refine q_e0 hd fun d hd => ?_
  refine q_e1 hd fun d hd => ?_
  by_cases h0 : 31#32 &&& rd = 0#32
  · refine q_e2_z hd h0 fun d hd => ?_
    refine q_e3 hd fun d hd => ?_
    refine r_68 hd hrel hpc' ?_
    rw [hrel.reg]
    rw [h0] at h; simp at h; exact h
  · refine q_e2_nz hd h0 fun d hd => ?_
    obtain ⟨m, hm⟩ := ne_zero_toNat h0
    rw [hrel.reg]
    refine loop_sra m hd hrel hpc' hm ?_
    rw [hm] at h; simp only [Nat.succ_ne_zero, if_false] at h; rw [cnt_enter]; exact h

end Sentinel
