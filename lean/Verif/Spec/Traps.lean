import Verif.Spec.Isa
/-!
# Traps, spelled out

Nothing here refers to the model of the core or to `execInstr`.
-/

namespace Sentinel.Spec

/-- Trap entry with a given value for mcause. -/
def Arch.enterTrap (a : Arch) (mcause : Word) : Arch :=
  { a with pc := a.mtvec, mepc := a.pc, mcause := mcause, mpie := a.mie, mie := false }

/-- mcause of a synchronous exception as the code reports it: bit 31 is set if an interrupt has been
taken since reset (deviation D1). -/
def Arch.excWord (a : Arch) (cause : BitVec 31) : Word := BitVec.ofBool a.irqTaken ++ cause

/-- The exceptions an instruction word raises by itself: cause code, if any.  (Does not depend on
interrupts.)  Causes: 0 misaligned jump, 2 illegal instruction, 3 breakpoint, 4 misaligned load,
6 misaligned store, 11 environment call. -/
def excCause (a : Arch) (w : Word) : Option (BitVec 31) :=
  match decode w with
  | none => some 2
  | some .ecall => some 11
  | some .ebreak => some 3
  | some (.jal _ imm) =>
    if (a.pc + (imm ++ 0#1 : BitVec 21).signExtend 32).toNat % 4 ≠ 0 then some 0 else none
  | some (.jalr _ rs1 imm) =>
    if ((a.reg rs1 + imm.signExtend 32) &&& ~~~1#32).toNat % 4 ≠ 0 then some 0 else none
  | some (.branch op rs1 rs2 imm) =>
    if brTaken op (a.reg rs1) (a.reg rs2) = true ∧
        (a.pc + (imm ++ 0#1 : BitVec 13).signExtend 32).toNat % 4 ≠ 0 then some 0 else none
  | some (.load op _ rs1 imm) =>
    if (a.reg rs1 + imm.signExtend 32).toNat % op.size ≠ 0 then some 4 else none
  | some (.store op rs1 _ imm) =>
    if (a.reg rs1 + imm.signExtend 32).toNat % op.size ≠ 0 then some 6 else none
  | some (.csr op _ src adr) =>
    if csrKind adr = .absent ∨ (csrReadOnly adr = true ∧ csrWrites op src = true) then some 2 else none
  | some _ => none

/-- Is the word a CSR instruction? -/
def isCsr (w : Word) : Bool :=
  match decode w with
  | some (.csr ..) => true
  | _ => false

end Sentinel.Spec
