import Verif.Spec.Platform
/-!
# Programs that run on either kind of peripherals

A machine of its own: RAM, LEDs and GPIO outputs, nothing else.  It gives up (`none`) as soon as the program does anything that could
tell one example SoC from another, or one environment from another: an access to anything but RAM and the three output registers, a read
of an output register, interrupts enabled, a CSR instruction on mip.  Nothing here refers to the model of the hardware.
-/

namespace Sentinel.Spec

/-- An access to RAM, or a write to the LEDs, the GPIO outputs or the GPIO output enables at their documented addresses
(`sentinel-rt/examples/attosoc.rs` 83-95: the same with either kind of peripherals). -/
def Req.Portable (r : Req) : Prop :=
  r.byteAdr < 0x02000000 ∨ r.we = true ∧ r.byteAdr ∈ [0x02000000, 0x02000004, 0x02000008]

instance (r : Req) : Decidable r.Portable := inferInstanceAs (Decidable (_ ∨ _))

/-- The word is a CSR instruction on mip, the register that shows the interrupt line. -/
def usesMip (w : Word) : Bool :=
  match decode w with
  | some (.csr _ _ _ adr) => csrKind adr = .impl .mip
  | _ => false

/-- A computation on the machine, with its interrupt line low. -/
def Tree.onPlat {α : Type} {k : Nat} : Tree α → Plat k → Option (α × Plat k)
  | .ret x, P => some (x, P)
  | .poll f, P => (f false).onPlat P
  | .bus r f, P => if r.Portable then (f (if r.we then 0 else P.ram (r.adr.setWidth k))).onPlat (P.after r) else none

/-- One instruction. -/
def portableStep {k : Nat} (q : (Arch × Word) × Plat k) : Option ((Arch × Word) × Plat k) :=
  if q.1.1.intEnabled || usesMip q.1.2 then none else (cycle .asBuilt q.1).onPlat q.2

/-- The machine after `n` instructions, started in `a` on platform `P`: architectural state, the word about to be executed, RAM and
outputs. -/
def portableRun {k : Nat} (P : Plat k) (a : Arch) : Nat → Option ((Arch × Word) × Plat k)
  | 0 => (fetch a).onPlat P
  | n + 1 => (portableRun P a n).bind portableStep

/-- A portable program: one with which the machine never gives up. -/
def Portable {k : Nat} (P : Plat k) (a : Arch) : Prop := ∀ n, (portableRun P a n).isSome = true

end Sentinel.Spec
