out=[]
w=out.append
w('''import Verif.Proof.Routines
/-!
# Microroutines: shifts (loops)
-/

set_option linter.unusedSimpArgs false

namespace Sentinel
open Ucode Spec

variable {α : Type} {F : α → State → Nat → Prop} {pv : Bool} {T : Tree α} {n : Nat} {k : Keep}
  {a b o rd rb da wd : BitVec 32} {pc : BitVec 30} {mem : BitVec 6 → BitVec 32}
  {mie mpie meie : Bool} {pa : BitVec 4} {d : DecState} {c : CauseLatch} {ar : Arch}

theorem Arch.setReg_setReg (ar : Arch) (r : Reg) (v v' : Word) :
    (ar.setReg r v).setReg r v' = ar.setReg r v' := by
  unfold Arch.setReg
  split
  · rfl
  · simp; funext q; split <;> rfl

theorem and31 (y : Word) : (31#32 &&& y).toNat = y.toNat % 32 := by
  rw [BitVec.toNat_and, Nat.and_comm, show (31#32 : Word).toNat = 2 ^ 5 - 1 from rfl, Nat.and_two_pow_sub_one_eq_mod]

theorem ne_zero_toNat {x : Word} (h : ¬ x = 0#32) : ∃ m, x.toNat = m + 1 := by
  have : x.toNat ≠ 0 := fun e => h (BitVec.eq_of_toNat_eq (by simpa using e))
  exact ⟨x.toNat - 1, by omega⟩

theorem sub_one_toNat {x : Word} {m : Nat} (h : x.toNat = m + 1) : (x - 1#32).toNat = m := by
  have := x.isLt
  rw [BitVec.toNat_sub]; simp; omega

/-- Shift by zero: copy rs1 to rd. -/
theorem r_68 (hd : Dec k d) (hrel : Rel ar mem mie mpie meie c) (hpc : ar.pc + 4 = pc ++ 0#2)
    (h : Fin F (ar.setReg k.dst rd).next (n + 2) T) :
    Impl F pv ⟨u_68, 105#8, false, false, a, b, o, pc, mem, rd, ⟨mie, mpie, meie, rb, pa⟩, d, c, da, wd⟩ T n := by
  refine q_68 hd fun d hd => ?_
  refine q_69 hd fun d hd => ?_
  refine fin_b5_next hd hrel hpc ?_
  rw [BitVec.zero_add]; exact h
''')
ST=lambda x,o='o',a='a',b='b': f'⟨u_{x:02x}, {x+1}#8, false, false, {a}, {b}, {o}, pc, mem, rd, ⟨mie, mpie, meie, rb, pa⟩, d, c, da, wd⟩'
HD='(hd : Dec k d) (hrel : Rel ar mem mie mpie meie c) (hpc : ar.pc = pc ++ 0#2)'
for nm,l,one,sh,comp,imm,immseq,op,opseq in [
  ('sll',0x5c,'x <<< 1','x <<< %s','BitVec.shiftLeft_add',0x41,0x59,0xc1,0xd8),
  ('srl',0x61,'x >>> 1','x >>> %s','BitVec.shiftRight_add',0x45,0x5e,0xc5,0xdc),
  ('sra',0x66,'x.sshiftRight 1','x.sshiftRight %s','BitVec.sshiftRight_add',0x4d,0x63,0xcd,0xe0)]:
    P=lambda s:'('+s+')'
    w(f'''/-- The {nm} loop. -/
theorem loop_{nm} (m : Nat) : ∀ {{F : α → State → Nat → Prop}} {{pv : Bool}} {{T : Tree α}} {{n : Nat}}
    {{a rd rb x : BitVec 32}} {{mem : BitVec 6 → BitVec 32}} {{pa : BitVec 4}} {{d : DecState}} {{ar : Arch}}
    (_ : Dec k d) (_ : Rel ar mem mie mpie meie c) (_ : ar.pc + 4 = pc ++ 0#2)
    (_ : a.toNat = m + 1) (_ : Fin F (ar.setReg k.dst ({sh % '(m + 1)'})).next (n + 2 * (m + 1)) T),
    Impl F pv {ST(l,P(one),'a','1#32')} T n := by
  induction m with
  | zero =>
    intro F pv T n a rd rb x mem pa d ar hd hrel hpc ha h
    refine q_{l:02x} hd fun d hd => ?_
    refine q_{l+1:02x}_z hd ?_ fun d hd => ?_
    · apply BitVec.eq_of_toNat_eq; rw [sub_one_toNat ha]; rfl
    exact fin_00 hd (hrel.setReg _ _).next (by simp only [Arch.next, Arch.setReg_pc]; exact hpc) h
  | succ m ih =>
    intro F pv T n a rd rb x mem pa d ar hd hrel hpc ha h
    refine q_{l:02x} hd fun d hd => ?_
    refine q_{l+1:02x}_nz hd ?_ fun d hd => ?_
    · intro e
      have := sub_one_toNat ha
      rw [e] at this; simp at this
    refine ih hd (hrel.setReg _ _) (by rw [Arch.setReg_pc]; exact hpc) (sub_one_toNat ha) ?_
    rw [Arch.setReg_setReg, ← {comp}, show n + 1 + 1 + 2 * (m + 1) = n + 2 * (m + 1 + 1) by omega,
      show 1 + (m + 1) = m + 1 + 1 by omega]
    exact h
''')
    rr=sh.replace('x','(ar.reg k.srcA)')
    if nm!='sra':
        w(f'''/-- {nm.upper()}I -/
theorem r_{imm:02x} {HD} (hi : k.imm.toNat < 32)
    (h : Fin F (ar.setReg k.dst ({rr % '(k.imm.toNat % 32)'})).next
      (n + if k.imm.toNat % 32 = 0 then 6 else 4 + 2 * (k.imm.toNat % 32)) T) :
    Impl F pv {ST(imm)} T n := by
  rw [Nat.mod_eq_of_lt hi] at h
  have hpc' := hpc_next hpc
  refine q_{imm:02x} hd fun d hd => ?_
  refine q_{immseq:02x} hd fun d hd => ?_
  refine q_{immseq+1:02x} hd fun d hd => ?_
  rw [BitVec.zero_add]
  by_cases h0 : k.imm = 0#32
  · refine q_{immseq+2:02x}_z hd h0 fun d hd => ?_
    refine r_68 hd hrel hpc' ?_
    rw [hrel.reg]
    simpa [h0] using h
  · refine q_{immseq+2:02x}_nz hd h0 fun d hd => ?_
    obtain ⟨m, hm⟩ := ne_zero_toNat h0
    rw [hrel.reg]
    refine loop_{nm} m hd hrel hpc' hm ?_
    simpa [hm, Nat.add_assoc] using h
''')
    else:
        w(f'''/-- {nm.upper()}I -/
theorem r_{imm:02x} {HD}
    (h : Fin F (ar.setReg k.dst ({rr % '(k.imm.toNat % 32)'})).next
      (n + if k.imm.toNat % 32 = 0 then 6 else 4 + 2 * (k.imm.toNat % 32)) T) :
    Impl F pv {ST(imm)} T n := by
  rw [← and31] at h
  have hpc' := hpc_next hpc
  refine q_{imm:02x} hd fun d hd => ?_
  refine q_{immseq:02x} hd fun d hd => ?_
  refine q_{immseq+1:02x} hd fun d hd => ?_
  by_cases h0 : 31#32 &&& k.imm = 0#32
  · refine q_{immseq+2:02x}_z hd h0 fun d hd => ?_
    refine r_68 hd hrel hpc' ?_
    rw [hrel.reg]
    simpa [h0] using h
  · refine q_{immseq+2:02x}_nz hd h0 fun d hd => ?_
    obtain ⟨m, hm⟩ := ne_zero_toNat h0
    rw [hrel.reg]
    refine loop_{nm} m hd hrel hpc' hm ?_
    simpa [hm, Nat.add_assoc] using h
''')
    w(f'''/-- {nm.upper()} -/
theorem r_{op:02x} {HD}
    (h : Fin F (ar.setReg k.dst ({rr % '(rd.toNat % 32)'})).next
      (n + if rd.toNat % 32 = 0 then 7 else 4 + 2 * (rd.toNat % 32)) T) :
    Impl F pv {ST(op)} T n := by
  rw [← and31] at h
  have hpc' := hpc_next hpc
  refine q_{op:02x} hd fun d hd => ?_
  refine q_{opseq:02x} hd fun d hd => ?_
  refine q_{opseq+1:02x} hd fun d hd => ?_
  by_cases h0 : 31#32 &&& rd = 0#32
  · refine q_{opseq+2:02x}_z hd h0 fun d hd => ?_
    refine q_{opseq+3:02x} hd fun d hd => ?_
    refine r_68 hd hrel hpc' ?_
    rw [hrel.reg]
    simpa [h0] using h
  · refine q_{opseq+2:02x}_nz hd h0 fun d hd => ?_
    obtain ⟨m, hm⟩ := ne_zero_toNat h0
    rw [hrel.reg]
    refine loop_{nm} m hd hrel hpc' hm ?_
    simpa [hm, Nat.add_assoc] using h
''')
w('end Sentinel')
open('/verif/lean/Verif/Proof/Shifts.lean','w').write('\n'.join(out)+'\n')
