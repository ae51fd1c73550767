import Verif.Spec.Isa
/-!
# Causes of traps

The causes that the core can report (`doc/development/internals.md`, CSRs).  Nothing here refers to the model of the core.
-/

namespace Sentinel.Spec

/-- The codes of the traps of the documentation: instruction address misaligned, illegal instruction, breakpoint, load address misaligned, store address misaligned,
environment call from M-mode or machine external interrupt (both 11). -/
def causeCodes : List (BitVec 31) := [0, 2, 3, 4, 6, 11]

/-- The word is a CSR instruction that writes `c`. -/
def writesCsr (c : Csr) (w : Word) : Bool :=
  match decode w with
  | some (.csr op _ src adr) => csrWrites op src && csrKind adr = .impl c
  | _ => false

/-- The word is an instruction with destination register `r`. -/
def writesReg (r : Reg) (w : Word) : Bool :=
  match decode w with
  | some (.lui rd _) | some (.auipc rd _) | some (.jal rd _) | some (.jalr rd _ _) | some (.load _ rd _ _) | some (.opImm _ rd _ _)
  | some (.op _ rd _ _) | some (.csr _ rd _ _) => rd = r
  | _ => false

end Sentinel.Spec
