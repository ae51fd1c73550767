import Verif.Spec.Isa
/-!
# Critical sections

The instructions that may not be used between turning interrupts off and turning them on again.  Nothing here refers to the model of the core.
-/

namespace Sentinel.Spec

/-- An instruction that may turn interrupts on or tell the level of the interrupt line: MRET, and CSR instructions on mstatus, mie and mip. -/
def touchesIrq (w : Word) : Bool :=
  match decode w with
  | some .mret => true
  | some (.csr _ _ _ adr) => csrKind adr = .impl .mstatus || csrKind adr = .impl .mie || csrKind adr = .impl .mip
  | _ => false

end Sentinel.Spec
