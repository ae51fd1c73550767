import Mathlib.Data.Nat.Basic
/-!
# Timers and LEDs of the example SoC — `examples/attosoc.py`

The Wishbone inputs of a peripheral in one cycle are a `WbReq`.  The peripherals are 8 bits wide and
are added to the SoC's decoder with `sparse=True`.  The registers behind amaranth-soc's CSR bus
(`CSRTimer`) see read strobes; the bus in between is external and not modelled.
-/

namespace Sentinel

/-- Wishbone request signals as an 8-bit peripheral sees them (`attosoc.py` 113-119, 353-359 and 575-583: `bus`). -/
structure WbReq where
  cyc : Bool := false
  stb : Bool := false
  we : Bool := false
  sel : Bool := false
  adr : BitVec 2 := 0
  datW : BitVec 8 := 0

/-- State of `WBTimer` (`attosoc.py` 333-386). -/
structure WbTimer where
  prescalar : BitVec 15 := 0
  datR : BitVec 8 := 0
  ack : Bool := false

namespace WbTimer

/-- `attosoc.py` 372: `irq` is bit 14 of the counter. -/
def irq (s : WbTimer) : Bool := s.prescalar.getLsbD 14

/-- One clock of `WBTimer` (`attosoc.py` 366-386): the later assignment to bit 14 wins over the
increment, for that bit only. -/
def step (s : WbTimer) (r : WbReq) : WbTimer :=
  let inc := s.prescalar + 1
  { prescalar :=
      if r.stb && r.cyc && !r.we && r.sel && s.irq then 0#1 ++ inc.extractLsb' 0 14 else inc
    datR := if r.stb && r.cyc && !r.we && r.sel then (BitVec.ofBool s.irq).setWidth 8 else s.datR
    ack := r.stb && r.cyc && !s.ack }

/-- The timer after `n` cycles with requests `r` (iterates `attosoc.py` 366-386). -/
def run (s : WbTimer) (r : Nat → WbReq) : Nat → WbTimer
  | 0 => s
  | n + 1 => (run s r n).step (r n)

end WbTimer

/-- State of `CSRTimer` (`attosoc.py` 389-450). -/
structure CsrTimer where
  prescaler : BitVec 15 := 0

namespace CsrTimer

/-- `attosoc.py` 440-443: `irq`, also the read data of the register. -/
def irq (s : CsrTimer) : Bool := s.prescaler.getLsbD 14

/-- One clock of `CSRTimer` (`attosoc.py` 432-450); `rStb` is the read strobe of the IRQ register, in
the cycle in which its read data is taken. -/
def step (s : CsrTimer) (rStb : Bool) : CsrTimer :=
  let inc := s.prescaler + 1
  { prescaler := if rStb && s.irq then 0#1 ++ inc.extractLsb' 0 14 else inc }

/-- The timer after `n` cycles (iterates `attosoc.py` 432-450). -/
def run (s : CsrTimer) (rStb : Nat → Bool) : Nat → CsrTimer
  | 0 => s
  | n + 1 => (run s rStb n).step (rStb n)

end CsrTimer

/-- State of `WBLeds` (`attosoc.py` 112-194). -/
structure WbLeds where
  leds : BitVec 8 := 0
  gpioO : BitVec 8 := 0
  gpioOe : BitVec 8 := 0
  datR : BitVec 8 := 0
  ack : Bool := false

namespace WbLeds

/-- One clock of `WBLeds` (`attosoc.py` 168-194); `gpioI` are the input pins. -/
def step (s : WbLeds) (r : WbReq) (gpioI : BitVec 8) : WbLeds :=
  { leds := if r.stb && r.cyc && s.ack && r.we && r.adr == 0 && r.sel then r.datW else s.leds
    datR := if r.stb && r.cyc && !s.ack && r.adr == 1 && r.sel && !r.we then gpioI else s.datR
    gpioO := if r.stb && r.cyc && !s.ack && r.adr == 1 && r.sel && r.we then r.datW else s.gpioO
    gpioOe := if r.stb && r.cyc && !s.ack && r.we && r.adr == 2 && r.sel then r.datW else s.gpioOe
    ack := r.stb && r.cyc && !s.ack }

/-- The peripheral after `n` cycles (iterates `attosoc.py` 168-194). -/
def run (s : WbLeds) (r : Nat → WbReq) (gpioI : Nat → BitVec 8) : Nat → WbLeds
  | 0 => s
  | n + 1 => (run s r gpioI n).step (r n) (gpioI n)

end WbLeds

/-- Write strobes of the registers of `CSRLeds` in one cycle, each with its data (`attosoc.py` 264-330). -/
structure LedStb where
  leds : Option (BitVec 8) := none
  inout : Option (BitVec 8) := none
  oe : Option (BitVec 8) := none

/-- State of `CSRLeds` (`attosoc.py` 239-331). -/
structure CsrLeds where
  leds : BitVec 8 := 0
  gpioO : BitVec 8 := 0
  gpioOe : BitVec 8 := 0

namespace CsrLeds

/-- One clock of `CSRLeds` (`attosoc.py` 308-331); a strobe with its data is an `Option`. -/
def step (s : CsrLeds) (r : LedStb) : CsrLeds :=
  { leds := r.leds.getD s.leds
    gpioO := r.inout.getD s.gpioO
    gpioOe := r.oe.getD s.gpioOe }

/-- `attosoc.py` 322-323: read data of the `inout` register. -/
def inoutData (gpioI : BitVec 8) : BitVec 8 := gpioI

/-- The peripheral after `n` cycles (iterates `attosoc.py` 238-330). -/
def run (s : CsrLeds) (r : Nat → LedStb) : Nat → CsrLeds
  | 0 => s
  | n + 1 => (run s r n).step (r n)

end CsrLeds

end Sentinel
