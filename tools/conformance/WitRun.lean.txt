import Verif.Core.Top
open Sentinel

@[noinline] def ofArr (a : Array (BitVec 32)) (k : BitVec 6) : BitVec 32 := a[k.toNat]!
@[noinline] def toArr (m : BitVec 6 → BitVec 32) : Array (BitVec 32) := (Array.range 64).map fun i => m (BitVec.ofNat 6 i)
def b2n (b : Bool) : Nat := if b then 1 else 0

/-- args: ack dat_r ack dat_r ...; one cycle each from power-on; prints registers, pc, CSRs -/
def main (args : List String) : IO Unit := do
  let a := args.toArray.map String.toNat!
  let mut s := powerOn
  for k in [0 : a.size / 2] do
    s := s.step { ack := a[2*k]! == 1, datR := BitVec.ofNat 32 a[2*k+1]! }
    let arr := toArr s.mem
    s := { s with mem := ofArr arr }
  let regs := (List.range 32).map fun i => (s.mem (BitVec.ofNat 6 i)).toNat
  let csr := [(s.mem 0x28).toNat, 0x1800 + 128 * b2n s.csr.mpie + 8 * b2n s.csr.mie, (s.mem 0x25).toNat, (s.mem 0x29).toNat, (s.mem 0x2a).toNat, 0, 2048 * b2n s.csr.meie]
  IO.println (String.intercalate " " ((regs ++ [s.pc.toNat] ++ csr).map toString))
