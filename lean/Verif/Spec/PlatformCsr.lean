import Verif.Spec.Platform
/-!
# The platform a program on the example SoC sees, with the peripherals on the CSR bus

Addresses from `sentinel-rt/examples/attosoc.rs` 91-95.  Nothing here refers to the model of the hardware.
-/

namespace Sentinel.Spec

/-- What answers at an address: RAM in the first 32 MiB, the peripherals in the next 32 MiB. -/
inductive CsrTarget | ram | periph
  deriving DecidableEq, Repr

def csrTarget (byteAdr : Nat) : Option CsrTarget :=
  if byteAdr < 0x02000000 then some .ram
  else if byteAdr < 0x04000000 then some .periph
  else none

/-- What a request is for. -/
def Req.csrTarget (r : Req) : Option CsrTarget := Spec.csrTarget r.byteAdr

/-- Effect of a write to a byte of the peripherals: LEDs, GPIO outputs and output enables. -/
def Plat.setCsr {k : Nat} (P : Plat k) (byteAdr : Nat) (v : BitVec 8) : Plat k :=
  if byteAdr = 0x02000000 then { P with leds := v }
  else if byteAdr = 0x02000004 then { P with gpioO := v }
  else if byteAdr = 0x02000008 then { P with gpioOe := v }
  else P

/-- Effect of a request on the platform. -/
def Plat.afterCsr {k : Nat} (P : Plat k) (r : Req) : Plat k :=
  if r.we = true then
    match r.csrTarget with
    | some .ram => { P with ram := P.ram.after r }
    | some .periph => if r.sel.getLsbD 0 then P.setCsr r.byteAdr (byteOf r.data 0) else P
    | none => P
  else P

/-- The platform after a trace. -/
def Plat.afterAllCsr {k : Nat} (P : Plat k) : List Event → Plat k
  | [] => P
  | .poll _ :: l => P.afterAllCsr l
  | .bus r _ :: l => (P.afterCsr r).afterAllCsr l

/-- The data `d` is a possible answer to the request `r`: something is there, a read of RAM returns its contents, a read of a
peripheral returns a byte, which is 0 if there is no register that can be read. -/
def Plat.AnswersCsr {k : Nat} (P : Plat k) (r : Req) (d : Word) : Prop :=
  ∃ t, r.csrTarget = some t ∧ (r.we = false →
    if t = .ram then d = P.ram (r.adr.setWidth k)
    else d.toNat < 256 ∧ (¬ (r.sel.getLsbD 0 = true ∧ r.byteAdr ∈ [0x02000004, 0x02800000, 0x03000000, 0x03000004]) → d = 0))

/-- `PlatTraceCsr P l`: the trace `l` is one of the platform, started in `P`. -/
def PlatTraceCsr {k : Nat} : Plat k → List Event → Prop
  | _, [] => True
  | P, .poll _ :: l => PlatTraceCsr P l
  | P, .bus r d :: l => P.AnswersCsr r d ∧ PlatTraceCsr (P.afterCsr r) l

theorem Plat.afterAllCsr_append {k : Nat} (P : Plat k) (l l' : List Event) :
    P.afterAllCsr (l ++ l') = (P.afterAllCsr l).afterAllCsr l' := by
  induction l generalizing P with
  | nil => rfl
  | cons e l ih => cases e <;> exact ih _

theorem PlatTraceCsr.append {k : Nat} {P : Plat k} {l l' : List Event} :
    PlatTraceCsr P (l ++ l') ↔ PlatTraceCsr P l ∧ PlatTraceCsr (P.afterAllCsr l) l' := by
  induction l generalizing P with
  | nil => simp [PlatTraceCsr, Plat.afterAllCsr]
  | cons e l ih =>
    cases e with
    | poll b => exact ih
    | bus r d => simp only [List.cons_append, PlatTraceCsr, Plat.afterAllCsr, ih, and_assoc]

end Sentinel.Spec
