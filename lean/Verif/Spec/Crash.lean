import Verif.Spec.Memory
import Verif.Spec.Retire
/-!
# Resets at any time

What registers and memory may be like when a machine is stopped at an arbitrary time and started again.
Nothing here refers to the model of the core.
-/

namespace Sentinel.Spec

/-- The shift instructions. -/
def isShift : Instr → Bool
  | .op .sll _ _ _ | .op .srl _ _ _ | .op .sra _ _ _ => true
  | .opImm .sll _ _ _ | .opImm .srl _ _ _ | .opImm .sra _ _ _ => true
  | _ => false

/-- Memory `M` and registers `R` are those of the flat-memory machine (`flat`) after `n` instructions, or, if the instruction after
these is a shift, the same but for its destination register. -/
def Stopped {k : Nat} (b : Bool) (M0 : Mem k) (a0 : Arch) (n : Nat) (M : Mem k) (R : Reg → Word) : Prop :=
  M = (flat .asBuilt b M0 a0 n).2 ∧
    ((∀ r, R r = (flat .asBuilt b M0 a0 n).1.1.reg r) ∨
      ∃ ins rd, decode (flat .asBuilt b M0 a0 n).1.2 = some ins ∧ isShift ins = true ∧ destReg ins = some rd ∧
        ∀ r, r ≠ rd → R r = (flat .asBuilt b M0 a0 n).1.1.reg r)

/-- `Restarted M R M' R'`: memory and registers are `M'` and `R'` after any number of runs that began with `M` and `R`.  Each run
starts at address 0 with interrupts disabled and `mcause` 0, with the memory and registers the last one left, and is stopped after
some number of instructions, or in a shift; the interrupt line does not change during a run. -/
inductive Restarted {k : Nat} (M : Mem k) (R : Reg → Word) : Mem k → (Reg → Word) → Prop
  | refl : Restarted M R M R
  | run {M1 : Mem k} {R1 : Reg → Word} {M2 : Mem k} {R2 : Reg → Word} (b : Bool) (a : Arch) (n : Nat) : Restarted M R M1 R1 →
      a.pc = 0 → a.mie = false → a.meie = false → a.mcause = 0 → (∀ r, a.reg r = R1 r) → Stopped b M1 a n M2 R2 →
      Restarted M R M2 R2

end Sentinel.Spec
