import Verif.Spec.Memory
/-!
# The platform a program on the example SoC sees

Memory map of `AttoSoC` with Wishbone peripherals, in byte addresses (`sentinel-rt/examples/attosoc.rs`
83-90 and the comments of `examples/attosoc.py`), and what it means for a trace of bus events to come
from that platform.  Nothing here refers to the model of the hardware.
-/

namespace Sentinel.Spec

/-- What answers at an address. -/
inductive Target | ram | leds | timer | serial
  deriving DecidableEq, Repr

/-- Memory map: RAM in the first 32 MiB, LEDs and GPIO from 0x02000000, timer from 0x40000000,
serial port from 0x80000000. -/
def target (byteAdr : Nat) : Option Target :=
  if byteAdr < 0x02000000 then some .ram
  else if byteAdr < 0x04000000 then some .leds
  else if byteAdr < 0x40000000 then none
  else if byteAdr < 0x80000000 then some .timer
  else if byteAdr < 0xC0000000 then some .serial
  else none

/-- Byte address of the word a request is for. -/
def Req.byteAdr (r : Req) : Nat := 4 * r.adr.toNat

/-- What a request is for. -/
def Req.target (r : Req) : Option Target := Spec.target r.byteAdr

/-- State of the platform that only programs change: RAM of `2 ^ k` words, LEDs, GPIO outputs and
output enables. -/
structure Plat (k : Nat) where
  ram : Mem k
  leds : BitVec 8
  gpioO : BitVec 8
  gpioOe : BitVec 8

/-- Effect of a write to LED register `n` (byte address 0x02000000 + 4 `n`, repeated every 16 bytes). -/
def Plat.setLeds {k : Nat} (P : Plat k) (n : Nat) (v : BitVec 8) : Plat k :=
  match n with
  | 0 => { P with leds := v }
  | 1 => { P with gpioO := v }
  | 2 => { P with gpioOe := v }
  | _ => P

/-- Effect of a request on the platform.  The device registers are one byte wide: the lowest byte of
the word. -/
def Plat.after {k : Nat} (P : Plat k) (r : Req) : Plat k :=
  if r.we = true then
    match r.target with
    | some .ram => { P with ram := P.ram.after r }
    | some .leds => if r.sel.getLsbD 0 then P.setLeds (r.byteAdr / 4 % 4) (byteOf r.data 0) else P
    | _ => P
  else P

/-- The platform after a trace. -/
def Plat.afterAll {k : Nat} (P : Plat k) : List Event → Plat k
  | [] => P
  | .poll _ :: l => P.afterAll l
  | .bus r _ :: l => (P.after r).afterAll l

/-- The data `d` is a possible answer to the request `r`: something is there, a read of RAM returns
its contents, a read of a device returns a byte. -/
def Plat.Answers {k : Nat} (P : Plat k) (r : Req) (d : Word) : Prop :=
  ∃ t, r.target = some t ∧ (r.we = false →
    if t = .ram then d = P.ram (r.adr.setWidth k) else d.toNat < 256)

/-- `PlatTrace P l`: the trace `l` is one of the platform, started in `P`. -/
def PlatTrace {k : Nat} : Plat k → List Event → Prop
  | _, [] => True
  | P, .poll _ :: l => PlatTrace P l
  | P, .bus r d :: l => P.Answers r d ∧ PlatTrace (P.after r) l

/-- The value a request writes to the LED register, if it does. -/
def Req.ledWrite (r : Req) : Option (BitVec 8) :=
  if r.we = true ∧ r.target = some .leds ∧ r.sel.getLsbD 0 = true ∧ r.byteAdr / 4 % 4 = 0 then
    some (byteOf r.data 0)
  else none

/-- The values written to the LED register in the course of a trace, in order. -/
def ledOut : List Event → List (BitVec 8)
  | [] => []
  | .poll _ :: l => ledOut l
  | .bus r _ :: l => r.ledWrite.toList ++ ledOut l

theorem ledOut_append (l l' : List Event) : ledOut (l ++ l') = ledOut l ++ ledOut l' := by
  induction l with
  | nil => rfl
  | cons e l ih => cases e <;> simp [ledOut, ih]

theorem Plat.afterAll_append {k : Nat} (P : Plat k) (l l' : List Event) :
    P.afterAll (l ++ l') = (P.afterAll l).afterAll l' := by
  induction l generalizing P with
  | nil => rfl
  | cons e l ih => cases e <;> exact ih _

theorem PlatTrace.append {k : Nat} {P : Plat k} {l l' : List Event} :
    PlatTrace P (l ++ l') ↔ PlatTrace P l ∧ PlatTrace (P.afterAll l) l' := by
  induction l generalizing P with
  | nil => simp [PlatTrace, Plat.afterAll]
  | cons e l ih =>
    cases e with
    | poll b => exact ih
    | bus r d => simp only [List.cons_append, PlatTrace, Plat.afterAll, ih, and_assoc]

end Sentinel.Spec
