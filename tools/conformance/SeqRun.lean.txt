import Verif.Core.Top
open Sentinel

structure Sim where
  s : State
  ack : Bool := false
  datR : BitVec 32 := 0
  mem : Array UInt32
  cycles : Nat := 0

@[noinline] def ofArr (a : Array (BitVec 32)) (k : BitVec 6) : BitVec 32 := a[k.toNat]!
@[noinline] def toArr (m : BitVec 6 → BitVec 32) : Array (BitVec 32) := (Array.range 64).map fun i => m (BitVec.ofNat 6 i)

def merge (sel : BitVec 4) (old new : UInt32) : UInt32 :=
  let m : UInt32 := (if sel.getLsbD 0 then 0xff else 0) ||| (if sel.getLsbD 1 then 0xff00 else 0) ||| (if sel.getLsbD 2 then 0xff0000 else 0) ||| (if sel.getLsbD 3 then 0xff000000 else 0)
  (old &&& (~~~ m)) ||| (new &&& m)

def tick (x : Sim) (irq : Bool) : Sim := Id.run do
  let s := x.s
  let i : Input := { datR := x.datR, ack := x.ack, irq := irq }
  let mut mem := x.mem
  let mut ack := false
  let mut datR := x.datR
  if s.cyc && s.stb && !x.ack then
    let a := s.adr.toNat
    if a < mem.size then
      if s.we then mem := mem.set! a (merge s.sel mem[a]! (UInt32.ofNat s.datW.toNat))
      else datR := BitVec.ofNat 32 mem[a]!.toNat
      ack := true
  let s' := s.step i
  let arr := toArr s'.mem
  let s' := { s' with mem := ofArr arr }
  return { s := s', ack, datR, mem, cycles := x.cycles + 1 }

/-- run until an instruction fetch is acknowledged; the state in the cycle after that -/
partial def insn (x : Sim) : Sim :=
  if x.cycles > 20000 then x else
  if x.s.cyc && x.s.uop.insnFetch && x.ack then tick x false else insn (tick x false)

def b2n (b : Bool) : Nat := if b then 1 else 0

/-- args: number of checks, words (decimal)... ; prints, per check: 32 registers, pc, csrs, then the memory -/
def main (args : List String) : IO Unit := do
  let n := args.head!.toNat!
  let ws := args.tail!.map fun w => UInt32.ofNat w.toNat!
  let mut mem := (Array.range 400).map fun _ => (0 : UInt32)
  for (w, i) in ws.zipIdx do mem := mem.set! i w
  let mut x : Sim := { s := powerOn, mem }
  for _ in [0:n] do
    x := insn x
    let s := x.s
    let regs := (List.range 32).map fun i => (s.mem (BitVec.ofNat 6 i)).toNat
    let csr := [(s.mem 0x28).toNat, 0x1800 + 128 * b2n s.csr.mpie + 8 * b2n s.csr.mie, (s.mem 0x25).toNat, (s.mem 0x29).toNat, (s.mem 0x2a).toNat, 0, 2048 * b2n s.csr.meie]
    IO.println (String.intercalate " " ((regs ++ [s.pc.toNat] ++ csr ++ x.mem.toList.map (·.toNat)).map toString))
