import Verif.Soc.Uart
/-!
# UART of the example SoC, bit by bit — `examples/attosoc.py` 454-543

The registers have the widths they are declared with, and arithmetic and assignments cut off what does
not fit, as in the circuit.  `Soc/Uart.lean`, on which the other claims rest, has natural numbers and
lists instead; that the two do the same is `C88`.
-/

namespace Sentinel

/-- The width of `Signal(range(k))`, for a `k` of at least 2 (Amaranth's `bits_for(k - 1)`) (`attosoc.py` 489, 491, 512 and 514). -/
def rangeBits (k : Nat) : Nat := Nat.log2 (k - 1) + 1

/-- Transmitter of `UART`: registers (`attosoc.py` 489-491). -/
structure UartTxBits (divisor dataBits : Nat) where
  phase : BitVec (rangeBits divisor)
  shreg : BitVec (1 + dataBits + 1)
  count : BitVec (rangeBits ((1 + dataBits + 1) + 1))

namespace UartTxBits
variable {divisor dataBits : Nat}

/-- `attosoc.py` 489-491: reset values (`reset=-1` are all ones). -/
def reset (divisor dataBits : Nat) : UartTxBits divisor dataBits := ⟨0, BitVec.allOnes _, 0⟩

/-- `attosoc.py` 493 `tx_o`. -/
def out (s : UartTxBits divisor dataBits) : Bool := s.shreg.getLsbD 0

/-- `attosoc.py` 494-495 `tx_ack`. -/
def ack (s : UartTxBits divisor dataBits) : Bool := s.count == 0

/-- One clock (`attosoc.py` 494-510). -/
def step (s : UartTxBits divisor dataBits) (rdy : Bool) (data : BitVec dataBits) : UartTxBits divisor dataBits :=
  if s.count = 0 then
    if rdy then
      { shreg := (1#1 ++ (data ++ 0#1)).cast (by omega), count := BitVec.ofNat _ (1 + dataBits + 1), phase := BitVec.ofNat _ (divisor - 1) }
    else s
  else if s.phase ≠ 0 then { s with phase := s.phase - 1 }
  else
    { shreg := (1#1 ++ s.shreg.extractLsb' 1 (1 + dataBits)).cast (by omega)
      count := s.count - 1
      phase := BitVec.ofNat _ (divisor - 1) }

/-- The transmitter after `n` cycles (iterates `attosoc.py` 489-510). -/
def run (s : UartTxBits divisor dataBits) (rdy : Nat → Bool) (data : Nat → BitVec dataBits) : Nat → UartTxBits divisor dataBits
  | 0 => s
  | n + 1 => (run s rdy data n).step (rdy n) (data n)

end UartTxBits

/-- Receiver of `UART`: registers (`attosoc.py` 482-483, 512-514). -/
structure UartRxBits (divisor dataBits : Nat) where
  phase : BitVec (rangeBits divisor)
  shreg : BitVec (1 + dataBits + 1)
  count : BitVec (rangeBits ((1 + dataBits + 1) + 1))
  rdy : Bool
  ovf : Bool

namespace UartRxBits
variable {divisor dataBits : Nat}

/-- `attosoc.py` 482-483, 512-514: reset values. -/
def reset (divisor dataBits : Nat) : UartRxBits divisor dataBits := ⟨0, BitVec.allOnes _, 0, false, false⟩

/-- `attosoc.py` 516 `rx_data`. -/
def data (s : UartRxBits divisor dataBits) : BitVec dataBits := s.shreg.extractLsb' 1 dataBits

/-- `attosoc.py` 517-518 `rx_err`. -/
def err (s : UartRxBits divisor dataBits) : Bool := s.count == 0 && !(!s.shreg.getLsbD 0 && s.shreg.msb)

/-- One clock (`attosoc.py` 517-541).  The assignment of 529-530 comes after those of 519-528 and so wins over them. -/
def step (s : UartRxBits divisor dataBits) (rxI ack : Bool) : UartRxBits divisor dataBits :=
  if s.count = 0 then
    let s1 :=
      if !rxI then
        if ack || !s.rdy then
          { s with rdy := false, ovf := false, count := BitVec.ofNat _ (1 + dataBits + 1), phase := BitVec.ofNat _ (divisor / 2) }
        else { s with ovf := true }
      else s
    if ack then { s1 with rdy := false } else s1
  else if s.phase ≠ 0 then { s with phase := s.phase - 1 }
  else
    { s with
      shreg := (BitVec.ofBool rxI ++ s.shreg.extractLsb' 1 (1 + dataBits)).cast (by omega)
      count := s.count - 1
      phase := BitVec.ofNat _ (divisor - 1)
      rdy := if s.count = 1 then true else s.rdy }

/-- The receiver after `n` cycles (iterates `attosoc.py` 512-541). -/
def run (s : UartRxBits divisor dataBits) (rxI ack : Nat → Bool) : Nat → UartRxBits divisor dataBits
  | 0 => s
  | n + 1 => (run s rxI ack n).step (rxI n) (ack n)

end UartRxBits

end Sentinel
