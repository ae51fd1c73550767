import Verif.Soc.Serial
/-!
# The serial driver of the Rust firmware — `sentinel-rt/examples/attosoc.rs`

The firmware has two threads: `main` and the interrupt handler `MachineExternal`, which share `RX`,
`TX_IN_PROGRESS`, `COUNT` and a queue.  The model is a system of the firmware, at the level of its
Rust source, and the Wishbone peripherals of the SoC (`Soc/Serial.lean`, `Soc/Timer.lean`), clock
by clock.  In each cycle

* the firmware waits (`Env.act = none`): the processor is executing instructions that have no effect
  on anything shared.  There is no bound on how long it waits;
* or it does its next action (`Env.act = some op`).  If interrupts are enabled and one is pending, that
  is entering the handler (the core samples the interrupt line before every instruction: C17, C58);
* or a bus access is going on: its request is on the bus until the peripheral acknowledges it.

`main` is arbitrary code that uses `write_char`, `RX`, `COUNT`, the LEDs and the input port in the way the
functions of the source do: which operation (`Op`) comes next is chosen by the environment.  One write
of `Op` is one byte of `write_char` (185-198).

Not modelled: `get_bases` (C59 is about it; the Wishbone addresses are taken here), and the panic
handler.  `heapless::spsc::Queue<u8, 64>` (external) is a FIFO that holds 63 bytes; `critical_section::with`
(external, for this target) disables interrupts and restores them to what they were.
-/

namespace Sentinel.Fw

/-- Bytes that `Queue<u8, 64>` holds (`attosoc.rs` 33, 371: one slot less than its parameter). -/
def capacity : Nat := 63

/-- Accesses to peripherals (`attosoc.rs` 109-131). -/
inductive Access where
  /-- `read_timer_int` (109) -/
  | timer
  /-- `read_serial_int` (113) -/
  | serInt
  /-- `read_serial_rx` (117) -/
  | serRx
  /-- `write_serial_tx` (121) -/
  | serTx (b : BitVec 8)
  /-- `read_inp_port` (125) -/
  | gpio
  /-- `write_leds` (129) -/
  | leds (b : BitVec 8)

/-- What `main` does next, when it is not inside `write_char` (`sentinel-rt/examples/attosoc.rs` 182-365). -/
inductive Op where
  /-- one byte of `write_char` -/
  | write (b : BitVec 8)
  /-- enter `critical_section::with` (217, 335) -/
  | lock
  /-- leave it -/
  | unlock
  /-- `RX.borrow(cs).set(None)` (224, 337, 341); only inside a critical section -/
  | clearRx
  /-- `COUNT.store(0, SeqCst)` (315) -/
  | zeroCount
  /-- `read_inp_port` (319, 324) -/
  | readGpio
  /-- `write_leds` (360) -/
  | writeLeds (b : BitVec 8)
  /-- anything without effect on shared state, such as reading `RX` (218, 335) or `COUNT` (322) -/
  | other

/-- Where `main` is.  `nested`: `write_char` was called from inside a critical section (220) (`sentinel-rt/examples/attosoc.rs` 182-236). -/
inductive Main where
  /-- before interrupts are enabled (399-400) -/
  | start
  /-- outside critical sections -/
  | app
  /-- inside a critical section of its own -/
  | locked
  /-- in `write_char`, at `while queue_full` (187) -/
  | retry (nested : Bool) (b : BitVec 8)
  /-- in `write_char`, inside the critical section (189) -/
  | crit (nested : Bool) (b : BitVec 8)
  /-- in `write_char`, `write_serial_tx` (192) is on the bus -/
  | send (nested : Bool) (b : BitVec 8)
  /-- in `write_char`, before `TX_IN_PROGRESS.store(true)` (193) -/
  | flag (nested : Bool) (b : BitVec 8)
  /-- reading the input port; `nested`: inside a critical section -/
  | gpio (nested : Bool)
  /-- writing the LEDs -/
  | leds (nested : Bool) (b : BitVec 8)

/-- Where the interrupt handler is (`attosoc.rs` 135-180); `v` is `ser_int`. -/
inductive Isr where
  /-- before 141 -/
  | enter
  /-- `read_timer_int` (141) is on the bus -/
  | rdTimer
  /-- it has returned `v` -/
  | gotTimer (v : BitVec 8)
  /-- `read_serial_int` (146) is on the bus -/
  | rdInt
  /-- before 147 -/
  | gotInt (v : BitVec 8)
  /-- `read_serial_rx` (148) is on the bus -/
  | rdRx (v : BitVec 8)
  /-- it has returned `d`, before 149 -/
  | gotRx (v d : BitVec 8)
  /-- before 152 -/
  | tx (v : BitVec 8)
  /-- `dequeue` has returned `m`, before 164 -/
  | deq (m : Option (BitVec 8))
  /-- `write_serial_tx` (167) is on the bus -/
  | send (b : BitVec 8)
  /-- before the return from the trap -/
  | leave

/-- State of the firmware (`sentinel-rt/examples/attosoc.rs` 28-33 and 102-104: the static variables). -/
structure Soft where
  /-- the queue between `TX_PROD` and `TX_CONS`, oldest byte first (33, 371-382) -/
  queue : List (BitVec 8) := []
  /-- `TX_IN_PROGRESS` (29) -/
  busy : Bool := false
  /-- `RX` (28) -/
  rxBox : Option (BitVec 8) := none
  /-- `COUNT` (30) -/
  count : BitVec 8 := 0
  main : Main := .start
  /-- the interrupt handler, if it is running -/
  isr : Option Isr := none

/-- State of the system (`sentinel-rt/examples/attosoc.rs` on `examples/attosoc.py` 766-922). -/
structure Sys where
  soft : Soft := {}
  ser : WbSerial := WbSerial.reset
  timer : WbTimer := {}
  leds : WbLeds := {}

/-- What happens in a cycle: the next action, if any, and the input pins (`sentinel-rt/examples/attosoc.rs` 182-410, and the pins of `examples/attosoc.py` 857-861 and 893-896). -/
structure Env where
  act : Option Op := none
  rx : Bool := true
  gpioI : BitVec 8 := 0
  /-- `false` for the system with Wishbone peripherals.  `true` makes a variant of it (timer read once per access, other reset values), which the proofs about
  `Soc/FirmwareCsr.lean` compare that system with; the theorems about this system hold for both -/
  csr : Bool := false

/-- The access that the handler has on the bus (`sentinel-rt/examples/attosoc.rs` 135-180). -/
def Isr.access : Isr → Option Access
  | .rdTimer => some .timer
  | .rdInt => some .serInt
  | .rdRx _ => some .serRx
  | .send b => some (.serTx b)
  | _ => none

/-- The access that `main` has on the bus (`sentinel-rt/examples/attosoc.rs` 182-199, 319, 324 and 360). -/
def Main.access : Main → Option Access
  | .send _ b => some (.serTx b)
  | .gpio _ => some .gpio
  | .leds _ b => some (.leds b)
  | _ => none

/-- Are interrupts enabled in `main`?  Not before 399, and not in a critical section (`sentinel-rt/examples/attosoc.rs`). -/
def Main.enabled : Main → Bool
  | .app | .retry false _ | .gpio false | .leds false _ => true
  | _ => false

/-- The access on the bus (`sentinel-rt/examples/attosoc.rs` 109-131). -/
def Soft.access (f : Soft) : Option Access :=
  match f.isr with
  | some i => i.access
  | none => f.main.access

/-- Where `write_char` and the accesses of `main` return to (`sentinel-rt/examples/attosoc.rs` 182-199). -/
def Main.back (nested : Bool) : Main := if nested then .locked else .app

/-- Request to the serial port: byte accesses to 0x80000000 (data) and 0x80000004 (interrupts) (`sentinel-rt/examples/attosoc.rs` 113-123 and 88). -/
def serReq : Option Access → WbReq
  | some .serInt => { cyc := true, stb := true, sel := true, adr := 1 }
  | some .serRx => { cyc := true, stb := true, sel := true, adr := 0 }
  | some (.serTx b) => { cyc := true, stb := true, sel := true, we := true, adr := 0, datW := b }
  | _ => {}

/-- Request to the timer: byte accesses to 0x40000000 (`sentinel-rt/examples/attosoc.rs` 109-111 and 87). -/
def timerReq : Option Access → WbReq
  | some .timer => { cyc := true, stb := true, sel := true, adr := 0 }
  | _ => {}

/-- Request to the LEDs and GPIO: byte accesses to 0x02000000 and 0x02000004 (`sentinel-rt/examples/attosoc.rs` 125-131 and 86). -/
def ledsReq : Option Access → WbReq
  | some .gpio => { cyc := true, stb := true, sel := true, adr := 1 }
  | some (.leds b) => { cyc := true, stb := true, sel := true, we := true, adr := 0, datW := b }
  | _ => {}

/-- A bus access of the handler has returned `d` (`sentinel-rt/examples/attosoc.rs` 141-172). -/
def Isr.done (d : BitVec 8) : Isr → Isr
  | .rdTimer => .gotTimer d
  | .rdInt => .gotInt d
  | .rdRx v => .gotRx v d
  | .send _ => .leave
  | i => i

/-- A bus access of `main` is done; what it returned does not matter for the shared state (`sentinel-rt/examples/attosoc.rs` 182-199, 319, 324 and 360). -/
def Main.done : Main → Main
  | .send n b => .flag n b
  | .gpio n => .back n
  | .leds n _ => .back n
  | m => m

/-- A bus access has returned `d` (`sentinel-rt/examples/attosoc.rs` 109-131). -/
def Soft.done (f : Soft) (d : BitVec 8) : Soft :=
  match f.isr with
  | some i => { f with isr := some (i.done d) }
  | none => { f with main := f.main.done }

/-- The next action of the handler (`attosoc.rs` 135-180). -/
def Soft.isrAct (f : Soft) : Isr → Soft
  | .enter => { f with isr := some .rdTimer }
  | .gotTimer v => { f with count := if v.getLsbD 0 then f.count + 1 else f.count, isr := some .rdInt }
  | .gotInt v => if v.getLsbD 0 then { f with isr := some (.rdRx v) } else { f with isr := some (.tx v) }
  | .gotRx v d => { f with rxBox := some d, isr := some (.tx v) }
  | .tx v => if v.getLsbD 1 then { f with queue := f.queue.tail, isr := some (.deq f.queue.head?) }
    else { f with isr := some .leave }
  | .deq m => if f.busy then
      match m with
      | some b => { f with isr := some (.send b) }
      | none => { f with busy := false, isr := some .leave }
    else { f with isr := some .leave }
  | .leave => { f with isr := none }
  | i => { f with isr := some i }

/-- An operation of `main` outside `write_char`; `locked`: inside a critical section (`sentinel-rt/examples/attosoc.rs` 217-226, 315-324, 335-345 and 360). -/
def Soft.opAct (f : Soft) (locked : Bool) : Op → Soft
  | .write b => { f with main := .retry locked b }
  | .lock => { f with main := .locked }
  | .unlock => { f with main := .app }
  | .clearRx => if locked then { f with rxBox := none } else f
  | .zeroCount => { f with count := 0 }
  | .readGpio => { f with main := .gpio locked }
  | .writeLeds b => { f with main := .leds locked b }
  | .other => f

/-- The next action of `main`, no interrupt being taken (`write_char`: `attosoc.rs` 182-199). -/
def Soft.mainAct (f : Soft) (op : Op) : Soft :=
  match f.main with
  | .start => { f with main := .app }
  | .app => f.opAct false op
  | .locked => f.opAct true op
  | .retry n b => { f with main := .crit n b }
  | .crit n b => if f.busy then
      if f.queue.length < capacity then { f with queue := f.queue ++ [b], main := .back n }
      else { f with main := .retry n b }
    else { f with main := .send n b }
  | .flag n _ => { f with busy := true, main := .back n }
  | _ => f

namespace Sys

/-- The interrupt line (`attosoc.py` 898). -/
def irq (s : Sys) : Bool := s.timer.irq || s.ser.irq

/-- The acknowledgement of the access on the bus, and the data it returns (`examples/attosoc.py` 863-872). -/
def reply (s : Sys) : Access → Bool × BitVec 8
  | .timer => (s.timer.ack, s.timer.datR)
  | .serInt | .serRx | .serTx _ => (s.ser.ack, s.ser.datR)
  | .gpio | .leds _ => (s.leds.ack, s.leds.datR)

/-- The firmware after a cycle (`sentinel-rt/examples/attosoc.rs` 135-410). -/
def softNext (s : Sys) (act : Option Op) : Soft :=
  match s.soft.access with
  | some a => if (s.reply a).1 then s.soft.done (s.reply a).2 else s.soft
  | none =>
    match act with
    | none => s.soft
    | some op =>
      match s.soft.isr with
      | some i => s.soft.isrAct i
      | none =>
        if s.soft.main.enabled && s.irq then { s.soft with isr := some .enter }
        else s.soft.mainAct op

/-- The request that the timer sees.  With `csr`, in the first cycle of an access only (`examples/attosoc.py` 374 and 446). -/
def timerSees (s : Sys) (csr : Bool) : WbReq := if csr && s.timer.ack then {} else timerReq s.soft.access

/-- One clock; `D` is the divisor of the serial port (`sentinel-rt/examples/attosoc.rs` on `examples/attosoc.py` 833-919). -/
def step (D : Nat) (s : Sys) (e : Env) : Sys :=
  { soft := s.softNext e.act
    ser := s.ser.step D (serReq s.soft.access) e.rx
    timer := s.timer.step (s.timerSees e.csr)
    leds := s.leds.step (ledsReq s.soft.access) e.gpioI }

/-- The system after `n` cycles (iterates `sentinel-rt/examples/attosoc.rs` on `examples/attosoc.py` 833-919). -/
def run (D : Nat) (s : Sys) (e : Nat → Env) : Nat → Sys
  | 0 => s
  | n + 1 => (run D s e n).step D (e n)

/-- The system at power-on: everything has its reset value; with `csr`, those of the serial port that the interrupts are made from are 1 (`examples/attosoc.py` 597-600 and 713-716). -/
def init (csr : Bool) : Sys := { ser := { WbSerial.reset with rxPrev := csr, txPrev := csr } }

/-- The system `n` cycles after power-on (iterates `sentinel-rt/examples/attosoc.rs` on `examples/attosoc.py` 833-919). -/
def at_ (D : Nat) (e : Nat → Env) (n : Nat) : Sys := run D (init (e 0).csr) e n

end Sys

end Sentinel.Fw
