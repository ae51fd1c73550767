import Verif.Props.Mem
/-!
# C06, C07, C16: branches and jumps
-/

set_option linter.unusedSimpArgs false

namespace Sentinel
open Ucode Spec

variable {s : State} {inp : Nat → Input} {t m : Nat} {w : Word}

theorem target_ok {x : Word} (h : x.toNat % 4 = 0) : targetOk x = true := decide_eq_true h
theorem target_bad {x : Word} (h : x.toNat % 4 ≠ 0) : ¬ targetOk x = true := by
  simpa only [targetOk, aligned, decide_eq_true_eq] using h

/-- **C06.** The branch conditions, on the values as signed and unsigned numbers. -/
theorem C06_cond (x y : Word) :
    (brTaken .beq x y = true ↔ x = y) ∧ (brTaken .bne x y = true ↔ x ≠ y) ∧
    (brTaken .blt x y = true ↔ x.toInt < y.toInt) ∧ (brTaken .bge x y = true ↔ ¬ x.toInt < y.toInt) ∧
    (brTaken .bltu x y = true ↔ x.toNat < y.toNat) ∧ (brTaken .bgeu x y = true ↔ ¬ x.toNat < y.toNat) := by
  simp [brTaken]

/-- **C06.** A branch whose condition holds goes to PC + imm (if that is a multiple of 4). -/
theorem C06_taken {op : BrOp} {rs1 rs2 : Reg} {imm : BitVec 12} (h : OneInstr s inp t w m)
    (hi : ¬ s.IrqTaken inp t) (hw : decode w = some (.branch op rs1 rs2 imm))
    (hb : brTaken op ((s.run inp t).arch.reg rs1) ((s.run inp t).arch.reg rs2) = true)
    (ha : ((s.run inp t).arch.pc + (imm ++ 0#1 : BitVec 13).signExtend 32).toNat % 4 = 0) :
    let a := (s.run inp t).arch
    s.Effect inp t m { a with pc := a.pc + (imm ++ 0#1 : BitVec 13).signExtend 32 } [] := by
  intro a
  refine h.pure hi hw ?_
  simp only [execInstr]
  rw [if_pos hb, if_pos (target_ok ha)]

/-- **C06, C16.** A branch whose condition does not hold goes to PC + 4, whatever its target. -/
theorem C06_notTaken {op : BrOp} {rs1 rs2 : Reg} {imm : BitVec 12} (h : OneInstr s inp t w m)
    (hi : ¬ s.IrqTaken inp t) (hw : decode w = some (.branch op rs1 rs2 imm))
    (hb : brTaken op ((s.run inp t).arch.reg rs1) ((s.run inp t).arch.reg rs2) = false) :
    let a := (s.run inp t).arch
    s.Effect inp t m { a with pc := a.pc + 4 } [] := by
  intro a
  refine h.pure hi hw ?_
  simp only [execInstr]
  rw [if_neg (by rw [hb]; decide)]
  rfl

/-- **C16.** A taken branch to a target that is not a multiple of 4 traps with cause 0. -/
theorem C16_branch {op : BrOp} {rs1 rs2 : Reg} {imm : BitVec 12} (h : OneInstr s inp t w m)
    (hi : ¬ s.IrqTaken inp t) (hw : decode w = some (.branch op rs1 rs2 imm))
    (hb : brTaken op ((s.run inp t).arch.reg rs1) ((s.run inp t).arch.reg rs2) = true)
    (ha : ((s.run inp t).arch.pc + (imm ++ 0#1 : BitVec 13).signExtend 32).toNat % 4 ≠ 0) :
    let a := (s.run inp t).arch
    s.Effect inp t m (a.enterTrap (a.excWord 0)) [] := by
  intro a
  rw [← exception_eq]
  refine h.pure hi hw ?_
  simp only [execInstr]
  rw [if_pos hb, if_neg (target_bad ha)]

/-- `blt x1, x2, -4` with x1 = -8, x2 = 33; the same with `bltu`; `bne x1, x2, 6`. -/
example : decode 0xFE20CEE3#32 = some (.branch .blt 1 2 0xFFE) ∧
    (∃ s inp t m, OneInstr s inp t 0xFE20CEE3#32 m ∧ ¬ s.IrqTaken inp t ∧
      brTaken .blt ((s.run inp t).arch.reg 1) ((s.run inp t).arch.reg 2) = true ∧
      ((s.run inp t).arch.pc + (0xFFE#12 ++ 0#1 : BitVec 13).signExtend 32).toNat % 4 = 0) ∧
    decode 0xFE20EEE3#32 = some (.branch .bltu 1 2 0xFFE) ∧
    (∃ s inp t m, OneInstr s inp t 0xFE20EEE3#32 m ∧ ¬ s.IrqTaken inp t ∧
      brTaken .bltu ((s.run inp t).arch.reg 1) ((s.run inp t).arch.reg 2) = false) ∧
    decode 0x00209363#32 = some (.branch .bne 1 2 3) ∧
    (∃ s inp t m, OneInstr s inp t 0x00209363#32 m ∧ ¬ s.IrqTaken inp t ∧
      brTaken .bne ((s.run inp t).arch.reg 1) ((s.run inp t).arch.reg 2) = true ∧
      ((s.run inp t).arch.pc + (3#12 ++ 0#1 : BitVec 13).signExtend 32).toNat % 4 ≠ 0) :=
  ⟨by decide, demo_quiet (P := fun a => brTaken .blt (a.reg 1) (a.reg 2) = true ∧
      (a.pc + (0xFFE#12 ++ 0#1 : BitVec 13).signExtend 32).toNat % 4 = 0)
    [0xFF800093#32, 0x02100113#32, 0xFE20CEE3#32] 2 (by decide +kernel) (by decide +kernel),
   by decide, demo_quiet (P := fun a => brTaken .bltu (a.reg 1) (a.reg 2) = false)
    [0xFF800093#32, 0x02100113#32, 0xFE20EEE3#32] 2 (by decide +kernel) (by decide +kernel),
   by decide, demo_quiet (P := fun a => brTaken .bne (a.reg 1) (a.reg 2) = true ∧
      (a.pc + (3#12 ++ 0#1 : BitVec 13).signExtend 32).toNat % 4 ≠ 0)
    [0xFF800093#32, 0x02100113#32, 0x00209363#32] 2 (by decide +kernel) (by decide +kernel)⟩

/-- **C07.** JAL to a multiple of 4: the link goes to rd, and control to PC + imm. -/
theorem C07_jal {rd : Reg} {imm : BitVec 20} (h : OneInstr s inp t w m)
    (hi : ¬ s.IrqTaken inp t) (hw : decode w = some (.jal rd imm))
    (ha : ((s.run inp t).arch.pc + (imm ++ 0#1 : BitVec 21).signExtend 32).toNat % 4 = 0) :
    let a := (s.run inp t).arch
    s.Effect inp t m
      { a.setReg rd (a.pc + 4) with pc := a.pc + (imm ++ 0#1 : BitVec 21).signExtend 32 } [] := by
  intro a
  refine h.pure hi hw ?_
  simp only [execInstr]
  rw [if_pos (target_ok ha)]

/-- **C07.** JALR to a multiple of 4: control goes to rs1 + imm with bit 0 cleared, where rs1 is read
before rd is written (so rd = rs1 is allowed). -/
theorem C07_jalr {rd rs1 : Reg} {imm : BitVec 12} (h : OneInstr s inp t w m)
    (hi : ¬ s.IrqTaken inp t) (hw : decode w = some (.jalr rd rs1 imm))
    (ha : (((s.run inp t).arch.reg rs1 + imm.signExtend 32) &&& ~~~1#32).toNat % 4 = 0) :
    let a := (s.run inp t).arch
    s.Effect inp t m
      { a.setReg rd (a.pc + 4) with pc := (a.reg rs1 + imm.signExtend 32) &&& ~~~1#32 } [] := by
  intro a
  refine h.pure hi hw ?_
  simp only [execInstr]
  rw [if_pos (target_ok ha)]

/-- **C16.** JAL to an address that is not a multiple of 4 traps with cause 0; rd is unchanged. -/
theorem C16_jal {rd : Reg} {imm : BitVec 20} (h : OneInstr s inp t w m)
    (hi : ¬ s.IrqTaken inp t) (hw : decode w = some (.jal rd imm))
    (ha : ((s.run inp t).arch.pc + (imm ++ 0#1 : BitVec 21).signExtend 32).toNat % 4 ≠ 0) :
    let a := (s.run inp t).arch
    s.Effect inp t m (a.enterTrap (a.excWord 0)) [] := by
  intro a
  rw [← exception_eq]
  refine h.pure hi hw ?_
  simp only [execInstr]
  rw [if_neg (target_bad ha)]

/-- **C16.** JALR to an address that is not a multiple of 4 traps with cause 0; rd is unchanged. -/
theorem C16_jalr {rd rs1 : Reg} {imm : BitVec 12} (h : OneInstr s inp t w m)
    (hi : ¬ s.IrqTaken inp t) (hw : decode w = some (.jalr rd rs1 imm))
    (ha : (((s.run inp t).arch.reg rs1 + imm.signExtend 32) &&& ~~~1#32).toNat % 4 ≠ 0) :
    let a := (s.run inp t).arch
    s.Effect inp t m (a.enterTrap (a.excWord 0)) [] := by
  intro a
  rw [← exception_eq]
  refine h.pure hi hw ?_
  simp only [execInstr]
  rw [if_neg (target_bad ha)]

/-- `jal x1, -4` and `jal x1, 6` at address 4; `jalr x1, 4(x1)` with x1 = 5 (bit 0 is dropped) and
`jalr x1, 5(x1)` with x1 = 6. -/
example : decode 0xFFDFF0EF#32 = some (.jal 1 0xFFFFE) ∧
    (∃ s inp t m, OneInstr s inp t 0xFFDFF0EF#32 m ∧ ¬ s.IrqTaken inp t ∧
      ((s.run inp t).arch.pc + (0xFFFFE#20 ++ 0#1 : BitVec 21).signExtend 32).toNat % 4 = 0) ∧
    decode 0x006000EF#32 = some (.jal 1 3) ∧
    (∃ s inp t m, OneInstr s inp t 0x006000EF#32 m ∧ ¬ s.IrqTaken inp t ∧
      ((s.run inp t).arch.pc + (3#20 ++ 0#1 : BitVec 21).signExtend 32).toNat % 4 ≠ 0) ∧
    decode 0x004080E7#32 = some (.jalr 1 1 4) ∧
    (∃ s inp t m, OneInstr s inp t 0x004080E7#32 m ∧ ¬ s.IrqTaken inp t ∧
      (((s.run inp t).arch.reg 1 + (4#12).signExtend 32) &&& ~~~1#32).toNat % 4 = 0) ∧
    decode 0x005080E7#32 = some (.jalr 1 1 5) ∧
    (∃ s inp t m, OneInstr s inp t 0x005080E7#32 m ∧ ¬ s.IrqTaken inp t ∧
      (((s.run inp t).arch.reg 1 + (5#12).signExtend 32) &&& ~~~1#32).toNat % 4 ≠ 0) :=
  ⟨by decide, demo_quiet (P := fun a => (a.pc + (0xFFFFE#20 ++ 0#1 : BitVec 21).signExtend 32).toNat % 4 = 0)
    [0x00500093#32, 0xFFDFF0EF#32] 1 (by decide +kernel) (by decide +kernel),
   by decide, demo_quiet (P := fun a => (a.pc + (3#20 ++ 0#1 : BitVec 21).signExtend 32).toNat % 4 ≠ 0)
    [0x00500093#32, 0x006000EF#32] 1 (by decide +kernel) (by decide +kernel),
   by decide, demo_quiet (P := fun a => ((a.reg 1 + (4#12).signExtend 32) &&& ~~~1#32).toNat % 4 = 0)
    [0x00500093#32, 0x004080E7#32] 1 (by decide +kernel) (by decide +kernel),
   by decide, demo_quiet (P := fun a => ((a.reg 1 + (5#12).signExtend 32) &&& ~~~1#32).toNat % 4 ≠ 0)
    [0x00600093#32, 0x005080E7#32] 1 (by decide +kernel) (by decide +kernel)⟩

end Sentinel
