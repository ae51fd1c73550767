import Verif.Props.Demo
/-!
# C02, C03, C08, C09: instructions that only compute

Setting of every theorem (`OneInstr`): the core was reset, the bus never acknowledges in the first
cycle of a request, and in cycle `t` the word `w` is dispatched, the next dispatch being in cycle
`t + m`.  `¬ IrqTaken`: no enabled interrupt is pending in cycle `t`.  `Effect a' l`: the whole
architectural state in cycle `t + m` is `a'` and the bus/interrupt-line events of the `m` cycles are
one sample of the interrupt line, `l`, and the fetch at the new program counter.  So `l = []` says
that there is no data access.
-/

set_option linter.unusedSimpArgs false

namespace Sentinel
open Ucode Spec

variable {s : State} {inp : Nat → Input} {t m : Nat} {w : Word}

theorem setReg_next (a : Arch) (rd : Reg) (v : Word) :
    (a.setReg rd v).next = { a.setReg rd v with pc := a.pc + 4 } := by
  unfold Arch.setReg; split <;> rfl

theorem shift_append (imm : BitVec 20) : imm.setWidth 32 <<< 12 = imm ++ 0#12 := by
  apply BitVec.eq_of_getLsbD_eq; intro i hi
  simp only [BitVec.getLsbD_shiftLeft, BitVec.getLsbD_append, BitVec.getLsbD_setWidth,
    BitVec.getLsbD_zero]
  by_cases h : i < 12
  · simp [h]
  · simp [h, hi]; omega

/-- The operations that are not shifts. -/
def AluOp.plain : List AluOp := [.add, .sub, .slt, .sltu, .xor, .or, .and]
/-- The shifts. -/
def AluOp.shifts : List AluOp := [.sll, .srl, .sra]

/-- **C02.** Register-register arithmetic. -/
theorem C02_op {op : AluOp} {rd rs1 rs2 : Reg} (h : OneInstr s inp t w m) (hi : ¬ s.IrqTaken inp t)
    (_ : op ∈ AluOp.plain) (hw : decode w = some (.op op rd rs1 rs2)) :
    let a := (s.run inp t).arch
    s.Effect inp t m { a.setReg rd (alu op (a.reg rs1) (a.reg rs2)) with pc := a.pc + 4 } [] := by
  intro a
  rw [← setReg_next]
  exact h.pure hi hw rfl

/-- **C02.** Register-immediate arithmetic. -/
theorem C02_opImm {op : AluOp} {rd rs1 : Reg} {imm : BitVec 12} (h : OneInstr s inp t w m)
    (hi : ¬ s.IrqTaken inp t) (_ : op ∈ AluOp.plain) (hw : decode w = some (.opImm op rd rs1 imm)) :
    let a := (s.run inp t).arch
    s.Effect inp t m
      { a.setReg rd (alu op (a.reg rs1) (imm.signExtend 32)) with pc := a.pc + 4 } [] := by
  intro a
  rw [← setReg_next]
  exact h.pure hi hw rfl

/-- `sub x3, x1, x2` with x1 = 5 and x2 = 7. -/
example : decode 0x402081B3#32 = some (.op .sub 3 1 2) ∧ .sub ∈ AluOp.plain ∧
    ∃ s inp t m, OneInstr s inp t 0x402081B3#32 m ∧ ¬ s.IrqTaken inp t ∧
      ((s.run inp t).arch.x 1 = 5 ∧ (s.run inp t).arch.x 2 = 7) :=
  ⟨by decide, by decide, demo_quiet (P := fun a => a.x 1 = 5 ∧ a.x 2 = 7)
    [0x00500093#32, 0x00700113#32, 0x402081B3#32] 2 (by decide +kernel) (by decide +kernel)⟩

/-- `sltiu x1, x1, -1` with x1 = 5. -/
example : decode 0xFFF0B093#32 = some (.opImm .sltu 1 1 0xFFF) ∧ .sltu ∈ AluOp.plain ∧
    ∃ s inp t m, OneInstr s inp t 0xFFF0B093#32 m ∧ ¬ s.IrqTaken inp t ∧ (s.run inp t).arch.x 1 = 5 :=
  ⟨by decide, by decide, demo_quiet (P := fun a => a.x 1 = 5)
    [0x00500093#32, 0xFFF0B093#32] 1 (by decide +kernel) (by decide +kernel)⟩

/-- **C03.** Register shifts: the low five bits of rs2 are the amount. -/
theorem C03_op {op : AluOp} {rd rs1 rs2 : Reg} (h : OneInstr s inp t w m) (hi : ¬ s.IrqTaken inp t)
    (hop : op ∈ AluOp.shifts) (hw : decode w = some (.op op rd rs1 rs2)) :
    let a := (s.run inp t).arch
    let n := (a.reg rs2).toNat % 32
    let v := match op with
      | .sll => a.reg rs1 <<< n
      | .srl => a.reg rs1 >>> n
      | _ => (a.reg rs1).sshiftRight n
    s.Effect inp t m { a.setReg rd v with pc := a.pc + 4 } [] := by
  intro a n v
  rw [← setReg_next]
  simp only [AluOp.shifts, List.mem_cons, List.not_mem_nil, or_false] at hop
  rcases hop with rfl | rfl | rfl <;> exact h.pure hi hw rfl

/-- **C03.** Immediate shifts: the low five bits of the immediate field are the amount. -/
theorem C03_opImm {op : AluOp} {rd rs1 : Reg} {imm : BitVec 12} (h : OneInstr s inp t w m)
    (hi : ¬ s.IrqTaken inp t) (hop : op ∈ AluOp.shifts) (hw : decode w = some (.opImm op rd rs1 imm)) :
    let a := (s.run inp t).arch
    let n := imm.toNat % 32
    let v := match op with
      | .sll => a.reg rs1 <<< n
      | .srl => a.reg rs1 >>> n
      | _ => (a.reg rs1).sshiftRight n
    s.Effect inp t m { a.setReg rd v with pc := a.pc + 4 } [] := by
  intro a n v
  rw [← setReg_next]
  have e := ofNat_shamt imm
  simp only [AluOp.shifts, List.mem_cons, List.not_mem_nil, or_false] at hop
  rcases hop with rfl | rfl | rfl <;> refine h.pure hi hw ?_ <;>
    simp only [execInstr, alu, e] <;> rfl

/-- `sra x1, x1, x2` with x1 = -8 and x2 = 33: amount 1, destination the same as the source. -/
example : decode 0x4020D0B3#32 = some (.op .sra 1 1 2) ∧ .sra ∈ AluOp.shifts ∧
    ∃ s inp t m, OneInstr s inp t 0x4020D0B3#32 m ∧ ¬ s.IrqTaken inp t ∧
      ((s.run inp t).arch.x 1 = 0xFFFFFFF8 ∧ (s.run inp t).arch.x 2 = 33) :=
  ⟨by decide, by decide, demo_quiet (P := fun a => a.x 1 = 0xFFFFFFF8 ∧ a.x 2 = 33)
    [0xFF800093#32, 0x02100113#32, 0x4020D0B3#32] 2 (by decide +kernel) (by decide +kernel)⟩

/-- `slli x1, x1, 31` with x1 = 5, and `srai x1, x1, 0`. -/
example : decode 0x01F09093#32 = some (.opImm .sll 1 1 31) ∧ .sll ∈ AluOp.shifts ∧
    (∃ s inp t m, OneInstr s inp t 0x01F09093#32 m ∧ ¬ s.IrqTaken inp t ∧
      (s.run inp t).arch.x 1 = 5) ∧
    decode 0x4000D093#32 = some (.opImm .sra 1 1 0x400) ∧
    ∃ s inp t m, OneInstr s inp t 0x4000D093#32 m ∧ ¬ s.IrqTaken inp t ∧
      (s.run inp t).arch.x 1 = 0x80000000 :=
  ⟨by decide, by decide, demo_quiet (P := fun a => a.x 1 = 5)
    [0x00500093#32, 0x01F09093#32, 0x4000D093#32] 1 (by decide +kernel) (by decide +kernel),
   by decide, demo_quiet (P := fun a => a.x 1 = 0x80000000)
    [0x00500093#32, 0x01F09093#32, 0x4000D093#32] 2 (by decide +kernel) (by decide +kernel)⟩

/-- **C08.** LUI. -/
theorem C08_lui {rd : Reg} {imm : BitVec 20} (h : OneInstr s inp t w m) (hi : ¬ s.IrqTaken inp t)
    (hw : decode w = some (.lui rd imm)) :
    let a := (s.run inp t).arch
    s.Effect inp t m { a.setReg rd (imm.setWidth 32 <<< 12) with pc := a.pc + 4 } [] := by
  intro a
  rw [← setReg_next, shift_append]
  exact h.pure hi hw rfl

/-- **C08.** AUIPC. -/
theorem C08_auipc {rd : Reg} {imm : BitVec 20} (h : OneInstr s inp t w m) (hi : ¬ s.IrqTaken inp t)
    (hw : decode w = some (.auipc rd imm)) :
    let a := (s.run inp t).arch
    s.Effect inp t m { a.setReg rd (a.pc + (imm.setWidth 32 <<< 12)) with pc := a.pc + 4 } [] := by
  intro a
  rw [← setReg_next, shift_append]
  exact h.pure hi hw rfl

/-- `lui x1, 0xABCDE` and `auipc x1, 0x80000` at address 4. -/
example : decode 0xABCDE0B7#32 = some (.lui 1 0xABCDE) ∧
    (∃ s inp t m, OneInstr s inp t 0xABCDE0B7#32 m ∧ ¬ s.IrqTaken inp t ∧ True) ∧
    decode 0x80000097#32 = some (.auipc 1 0x80000) ∧
    ∃ s inp t m, OneInstr s inp t 0x80000097#32 m ∧ ¬ s.IrqTaken inp t ∧ (s.run inp t).arch.pc = 4 :=
  ⟨by decide, demo_quiet (P := fun _ => True) [0xABCDE0B7#32] 0 (by decide +kernel) trivial,
   by decide, demo_quiet (P := fun a => a.pc = 4) [0xABCDE0B7#32, 0x80000097#32] 1
    (by decide +kernel) (by decide +kernel)⟩

/-- **C09.** FENCE and WFI only advance the program counter. -/
theorem C09_nop (h : OneInstr s inp t w m) (hi : ¬ s.IrqTaken inp t)
    (hw : decode w = some .fence ∨ decode w = some .wfi) :
    let a := (s.run inp t).arch
    s.Effect inp t m { a with pc := a.pc + 4 } [] := by
  rcases hw with hw | hw <;> exact h.pure hi hw rfl

/-- `fence`, and a `fence` with all operand fields set. -/
example : decode 0x0FF0000F#32 = some .fence ∧ decode 0xFFFF8F8F#32 = some .fence ∧
    decode 0x10500073#32 = some .wfi ∧
    (∃ s inp t m, OneInstr s inp t 0xFFFF8F8F#32 m ∧ ¬ s.IrqTaken inp t ∧ True) ∧
    ∃ s inp t m, OneInstr s inp t 0x10500073#32 m ∧ ¬ s.IrqTaken inp t ∧ (s.run inp t).arch.pc = 4 :=
  ⟨by decide, by decide, by decide,
   demo_quiet (P := fun _ => True) [0xFFFF8F8F#32] 0 (by decide +kernel) trivial,
   demo_quiet (P := fun a => a.pc = 4) [0x0FF0000F#32, 0x10500073#32] 1
    (by decide +kernel) (by decide +kernel)⟩

end Sentinel
