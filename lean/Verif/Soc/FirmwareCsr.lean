import Verif.Soc.App
import Verif.Soc.AttoCsr
/-!
# The Rust firmware with the peripherals on the CSR bus — `sentinel-rt/examples/attosoc.rs`, `AttoSoC(bus_type=BusType.CSR)`

The firmware of `Soc/Firmware.lean` and its application (`Soc/App.lean`) with `CSRLeds`, `CSRTimer` and `CSRSerial` behind amaranth-soc's CSR
bridge (`Soc/AttoCsr.lean`, where what is assumed of amaranth-soc is written down).  The source of the firmware is the same: `get_bases` (C74) makes it use other
addresses.  A bus access takes six cycles instead of two; everything else is as in `Soc/Firmware.lean`.
-/

namespace Sentinel.FwCsr

open Spec (Word)
open Fw (Access Op Main Isr Soft Env App Pins)

/-- The byte address of an access (`attosoc.rs` 91-95, 109-131). -/
def address : Access → Word
  | .timer => 0x02800000
  | .serInt => 0x03000004
  | .serRx => 0x03000000
  | .serTx _ => 0x03000000
  | .gpio => 0x02000004
  | .leds _ => 0x02000000

/-- The byte that an access writes, if it does (`attosoc.rs` 109-131). -/
def data : Access → Option (BitVec 8)
  | .serTx b => some b
  | .leds b => some b
  | _ => none

/-- State of the system (`sentinel-rt/examples/attosoc.rs` on `examples/attosoc.py` 874-890). -/
structure Sys where
  soft : Soft := {}
  bridge : WbCsr := {}
  bus : CsrBus := {}
  leds : CsrLeds := {}
  timer : CsrTimer := {}
  ser : CsrSerial := CsrSerial.reset

namespace Sys

/-- The interrupt line (`attosoc.py` 898). -/
def irq (s : Sys) : Bool := s.timer.irq || s.ser.irq

/-- The CSR bus (`attosoc.py` 890): byte accesses to addresses that are multiples of 4 select byte 0. -/
def req (s : Sys) : CsrReq :=
  match s.soft.access with
  | some a => s.bridge.req true (data a).isSome ((address a).extractLsb' 2 30) 0b0001 (((data a).getD 0).setWidth 32)
  | none => s.bridge.req false false 0 0 0

/-- The register with a read strobe in this cycle (`examples/attosoc.py` 876-881). -/
def reads (s : Sys) : Option CsrReg := if s.req.rStb then csrReg s.req.addr else none

/-- The data of a register (`attosoc.py` 322-323, 437, 730-732; registers that are write-only have none). -/
def value (s : Sys) (gpioI : BitVec 8) : CsrReg → BitVec 8
  | .inout => CsrLeds.inoutData gpioI
  | .timer => if s.timer.irq then 1 else 0
  | .txrx => s.ser.data
  | .irq => s.ser.irqData.setWidth 8
  | .leds | .oe => 0

/-- The data of the write strobe of a register, if it has one (`examples/attosoc.py` 876-881). -/
def written (s : Sys) (r : CsrReg) : Option (BitVec 8) :=
  match s.bus.w with
  | some (r', d) => if r' = r then some d else none
  | none => none

/-- Strobes of the LEDs and GPIO (`attosoc.py` 308-331). -/
def ledStb (s : Sys) : LedStb := { leds := s.written .leds, inout := s.written .inout, oe := s.written .oe }

/-- Strobes of the serial port (`attosoc.py` 704-752). -/
def serStb (s : Sys) : SerialStb :=
  { wStb := (s.written .txrx).isSome, wData := (s.written .txrx).getD 0
    rStb := s.reads = some .txrx, irqStb := s.reads = some .irq }

/-- The firmware after a cycle: an access ends when the bridge acknowledges it (`attosoc.py` 890) and returns the byte at the address; otherwise
as in `Fw.Sys.softNext`. -/
def softNext (s : Sys) (act : Option Op) : Soft :=
  match s.soft.access with
  | some _ => if s.bridge.ack then s.soft.done s.bridge.b0 else s.soft
  | none =>
    match act with
    | none => s.soft
    | some op =>
      match s.soft.isr with
      | some i => s.soft.isrAct i
      | none =>
        if s.soft.main.enabled && s.irq then { s.soft with isr := some .enter }
        else s.soft.mainAct op

/-- One clock (`attosoc.py` 876-898); `D` is the divisor of the serial port. -/
def step (D : Nat) (s : Sys) (e : Env) : Sys :=
  { soft := s.softNext e.act
    bridge := s.bridge.step s.soft.access.isSome s.bus.rData
    bus :=
      { rData := match s.reads with
          | some r => s.value e.gpioI r
          | none => 0
        w := if s.req.wStb then (csrReg s.req.addr).map fun r => (r, s.req.wData) else none }
    leds := s.leds.step s.ledStb
    timer := s.timer.step (s.reads = some .timer)
    ser := s.ser.step D s.serStb e.rx }

/-- The system `n` cycles after power-on, when everything has its reset value (iterates `sentinel-rt/examples/attosoc.rs` on `examples/attosoc.py` 833-919). -/
def at_ (D : Nat) (e : Nat → Env) : Nat → Sys
  | 0 => {}
  | n + 1 => (at_ D e n).step D (e n)

end Sys

/-- The system and the application (`sentinel-rt/examples/attosoc.rs` 367-410 on `examples/attosoc.py` 874-890). -/
structure Machine where
  sys : Sys := {}
  app : App := {}

namespace Machine

/-- What the application makes the system do (`sentinel-rt/examples/attosoc.rs` 207-410). -/
def env (s : Machine) (p : Pins) : Env :=
  { act := if p.go then some s.app.op else none, rx := p.rx, gpioI := p.gpioI }

/-- The application does its next operation, as in `Fw.Machine.asks` (`sentinel-rt/examples/attosoc.rs` 207-410). -/
def asks (s : Machine) (p : Pins) : Bool :=
  p.go && s.sys.soft.access.isNone && s.sys.soft.isr.isNone && !(s.sys.soft.main.enabled && s.sys.irq) &&
    match s.sys.soft.main with
    | .app | .locked => true
    | _ => false

/-- What `read_inp_port` has returned (`attosoc.rs` 125-127, 319, 324). -/
def input (s : Machine) : BitVec 8 :=
  match s.sys.soft.isr, s.sys.soft.main with
  | none, .gpio _ => if s.sys.bridge.ack then s.sys.bridge.b0 else s.app.inp
  | _, _ => s.app.inp

/-- One clock (`sentinel-rt/examples/attosoc.rs` 207-410). -/
def step (D : Nat) (s : Machine) (p : Pins) : Machine :=
  { sys := s.sys.step D (s.env p)
    app := if s.asks p then s.app.next s.sys.soft.rxBox s.sys.soft.count else { s.app with inp := s.input } }

/-- The machine after `n` cycles, from power-on (iterates `sentinel-rt/examples/attosoc.rs` on `examples/attosoc.py` 833-919). -/
def at_ (D : Nat) (p : Nat → Pins) : Nat → Machine
  | 0 => {}
  | n + 1 => (at_ D p n).step D (p n)

/-- What the application makes the system do in cycle `n` (iterates `sentinel-rt/examples/attosoc.rs` 367-410). -/
def envs (D : Nat) (p : Nat → Pins) (n : Nat) : Env := (at_ D p n).env (p n)

end Machine

end Sentinel.FwCsr
