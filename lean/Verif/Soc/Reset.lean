import Verif.Soc.AttoCsr
/-!
# The reset button of the boards — `examples/attosoc.py` 992, 1013

`plat.default_rst = "button"`: Amaranth's platform then makes a button the reset of the clock domain.  The synchronizer between button and
reset is external; what is modelled is a clock edge with reset asserted.  Every register of the domain takes its reset value; memory arrays
and the latches of their read ports have no reset and are clocked as in any cycle.  (A reset that is held is a run of such edges.)
-/

namespace Sentinel

/-- A clock edge of `AttoSoC(bus_type=BusType.WB)` with reset asserted (`attosoc.py` 992, 1013, 845-917; see `Atto.step`). -/
def Atto.resetEdge {k : Nat} (D : Nat) (s : Atto k) (p : AttoIn) : Atto k :=
  { cpu := s.cpu.tick true true s.input
    ram := { (s.step D p).ram with ack := false }
    leds := {}
    timer := {}
    ser := WbSerial.reset }

/-- A clock edge of `AttoSoC(bus_type=BusType.CSR)` with reset asserted (`attosoc.py` 992, 1013, 845-917; see `AttoCsr.step`). -/
def AttoCsr.resetEdge {k : Nat} (D : Nat) (s : AttoCsr k) (p : AttoIn) : AttoCsr k :=
  { cpu := s.cpu.tick true true s.input
    ram := { (s.step D p).ram with ack := false }
    bridge := {}
    bus := {}
    leds := {}
    timer := {}
    ser := CsrSerial.reset }

end Sentinel
