/-!
# UART of the example SoC — `examples/attosoc.py` 454-543

Shift registers are lists of bits, least significant first, so that Python's slices and `Cat` read the
same; phases and counts are natural numbers (`C88` in
`Props/UartBits.lean` shows that the declared widths suffice).  Transmitter and receiver share nothing but the parameters, and
are separate definitions.
-/

namespace Sentinel

/-- Transmitter of `UART` (`attosoc.py` 489-510). -/
structure UartTx where
  phase : Nat := 0
  shreg : List Bool
  count : Nat := 0
  deriving DecidableEq

namespace UartTx

/-- `attosoc.py` 489-491: reset values; `dataBits` is a parameter of the class. -/
def reset (dataBits : Nat) : UartTx := { shreg := List.replicate (1 + dataBits + 1) true }

/-- `attosoc.py` 493 `tx_o`. -/
def out (s : UartTx) : Bool := s.shreg.headD false

/-- `attosoc.py` 494-495 `tx_ack`. -/
def ack (s : UartTx) : Bool := s.count == 0

/-- One clock of the transmitter (`attosoc.py` 494-510); `data` is `tx_data`, `rdy` is `tx_rdy`. -/
def step (divisor : Nat) (s : UartTx) (rdy : Bool) (data : List Bool) : UartTx :=
  if s.count = 0 then
    if rdy then
      { shreg := false :: (data ++ [true]), count := s.shreg.length, phase := divisor - 1 }
    else s
  else if s.phase ≠ 0 then { s with phase := s.phase - 1 }
  else { shreg := s.shreg.tail ++ [true], count := s.count - 1, phase := divisor - 1 }

/-- The transmitter after `n` cycles (iterates `attosoc.py` 489-510). -/
def run (divisor : Nat) (s : UartTx) (rdy : Nat → Bool) (data : Nat → List Bool) : Nat → UartTx
  | 0 => s
  | n + 1 => (run divisor s rdy data n).step divisor (rdy n) (data n)

end UartTx

/-- Receiver of `UART` (`attosoc.py` 512-541). -/
structure UartRx where
  phase : Nat := 0
  shreg : List Bool
  count : Nat := 0
  rdy : Bool := false
  ovf : Bool := false
  deriving DecidableEq

namespace UartRx

/-- `attosoc.py` 512-514: reset values. -/
def reset (dataBits : Nat) : UartRx := { shreg := List.replicate (1 + dataBits + 1) true }

/-- `attosoc.py` 516 `rx_data` (`rx_shreg[1:-1]`). -/
def data (s : UartRx) : List Bool := s.shreg.tail.dropLast

/-- `attosoc.py` 517-518 `rx_err`. -/
def err (s : UartRx) : Bool := s.count == 0 && !(!s.shreg.headD false && s.shreg.getLastD false)

/-- One clock of the receiver (`attosoc.py` 517-541); `rxI` is the line, `ack` is `rx_ack`.  `rx_ack`
also clears `rx_rdy` when no frame starts (`attosoc.py` 529-530; in the overflow branch the two
conditions exclude each other). -/
def step (divisor : Nat) (s : UartRx) (rxI ack : Bool) : UartRx :=
  if s.count = 0 then
    if !rxI then
      if ack || !s.rdy then
        { s with rdy := false, ovf := false, count := s.shreg.length, phase := divisor / 2 }
      else { s with ovf := true }
    else if ack then { s with rdy := false }
    else s
  else if s.phase ≠ 0 then { s with phase := s.phase - 1 }
  else
    { s with
      shreg := s.shreg.tail ++ [rxI]
      count := s.count - 1
      phase := divisor - 1
      rdy := if s.count = 1 then true else s.rdy }

/-- The receiver after `n` cycles (iterates `attosoc.py` 512-541). -/
def run (divisor : Nat) (s : UartRx) (rxI ack : Nat → Bool) : Nat → UartRx
  | 0 => s
  | n + 1 => (run divisor s rxI ack n).step divisor (rxI n) (ack n)

end UartRx

end Sentinel
