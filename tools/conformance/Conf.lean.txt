import Verif.Core.Top
open Sentinel

structure Sim where
  s : State
  ack : Bool := false
  datR : BitVec 32 := 0
  mem : Array UInt32
  host : Array (Nat × UInt32) := #[]
  cycles : Nat := 0

@[noinline] def ofArr (a : Array (BitVec 32)) (k : BitVec 6) : BitVec 32 := a[k.toNat]!
@[noinline] def toArr (m : BitVec 6 → BitVec 32) : Array (BitVec 32) := (Array.range 64).map fun i => m (BitVec.ofNat 6 i)

def merge (sel : BitVec 4) (old new : UInt32) : UInt32 :=
  let m : UInt32 := (if sel.getLsbD 0 then 0xff else 0) ||| (if sel.getLsbD 1 then 0xff00 else 0) ||| (if sel.getLsbD 2 then 0xff0000 else 0) ||| (if sel.getLsbD 3 then 0xff000000 else 0)
  (old &&& (~~~ m)) ||| (new &&& m)

def tick (x : Sim) (irq : Bool) : Sim := Id.run do
  let s := x.s
  let i : Input := { datR := x.datR, ack := x.ack, irq := irq }
  let mut mem := x.mem
  let mut ack := false
  let mut datR := x.datR
  let mut host := x.host
  if s.cyc && s.stb && !x.ack then
    let a := s.adr.toNat
    if a < mem.size then
      if s.we then mem := mem.set! a (merge s.sel mem[a]! (UInt32.ofNat s.datW.toNat))
      else datR := BitVec.ofNat 32 mem[a]!.toNat
      ack := true
    else if s.we && s.sel == 15#4 && (a == 0x4000000 / 4 || a == 0x4000004 / 4) then
      host := host.push (a, UInt32.ofNat s.datW.toNat)
      ack := true
  let s' := s.step i
  let arr := toArr s'.mem
  let s' := { s' with mem := ofArr arr }
  return { s := s', ack, datR, mem, host, cycles := x.cycles + 1 }

partial def runHost (x : Sim) : Sim :=
  if x.host.size ≥ 2 || x.cycles > 65535 then x else runHost (tick x false)

def load (f : String) (size : Nat) : IO (Array UInt32) := do
  let b ← IO.FS.readBinFile f
  let mut a := (Array.range size).map fun _ => (0 : UInt32)
  for i in [0 : b.size / 4] do
    let w := (b.get! (4*i)).toUInt32 ||| ((b.get! (4*i+1)).toUInt32 <<< 8) ||| ((b.get! (4*i+2)).toUInt32 <<< 16) ||| ((b.get! (4*i+3)).toUInt32 <<< 24)
    a := a.set! i w
  return a

def main (args : List String) : IO Unit := do
  for n in args do
    let mem ← load s!"/repo/tests/upstream/binaries/{n}" 4096
    let r := runHost { s := powerOn, mem }
    IO.println s!"{n}: cycles {r.cycles} host {r.host}"
    (← IO.getStdout).flush
