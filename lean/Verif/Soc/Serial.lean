import Verif.Soc.Timer
import Verif.Soc.Uart
/-!
# Serial ports of the example SoC — `examples/attosoc.py` 546-752

Both wrap a `UART` with 8 data bits; the divisor is 12000000 // 9600 in the source and a parameter
here.  The CSR-bus version sees the strobes of its registers; the bus in between is external.
-/

namespace Sentinel

/-- The bits of a byte, least significant first (`attosoc.py` 498: `tx_data`). -/
def byteBits (d : BitVec 8) : List Bool := (List.range 8).map d.getLsbD

/-- The byte with the given bits, least significant first (`attosoc.py` 516: `rx_data`). -/
def bitsByte (l : List Bool) : BitVec 8 := BitVec.ofNat 8 (l.foldr (fun b n => b.toNat + 2 * n) 0)

/-- State of `WBSerial` (`attosoc.py` 546-644). -/
structure WbSerial where
  tx : UartTx
  rx : UartRx
  datR : BitVec 8 := 0
  ack : Bool := false
  rxIrq : Bool := false
  rxPrev : Bool := false
  txIrq : Bool := false
  txPrev : Bool := false

namespace WbSerial

/-- `attosoc.py` 597-600: reset values (`rx_rdy_prev` and `tx_ack_prev` are 0). -/
def reset : WbSerial := { tx := UartTx.reset 8, rx := UartRx.reset 8 }

/-- `attosoc.py` 603: the interrupt line. -/
def irq (s : WbSerial) : Bool := s.rxIrq || s.txIrq

/-- `attosoc.py` 604: the serial output. -/
def txO (s : WbSerial) : Bool := s.tx.out

/-- `attosoc.py` 613-614: a request for the data register. -/
def dataReq (r : WbReq) : Bool := r.stb && r.cyc && r.sel && !r.adr.getLsbD 0

/-- `attosoc.py` 616-617: `rx_ack`. -/
def rxAck (r : WbReq) : Bool := dataReq r && !r.we

/-- `attosoc.py` 619-623: `tx_rdy`. -/
def txRdy (s : WbSerial) (r : WbReq) : Bool := dataReq r && s.ack && r.we

/-- `attosoc.py` 625-626: a read of the IRQ register that clears it. -/
def irqRead (s : WbSerial) (r : WbReq) : Bool :=
  r.stb && r.cyc && r.sel && r.adr.getLsbD 0 && !r.we && !s.ack

/-- One clock of `WBSerial` (`attosoc.py` 591-644); `rxI` is the serial input.  The statements that set
the interrupt bits come last and win over the read that clears them. -/
def step (D : Nat) (s : WbSerial) (r : WbReq) (rxI : Bool) : WbSerial :=
  { tx := s.tx.step D (s.txRdy r) (byteBits r.datW)
    rx := s.rx.step D rxI (rxAck r)
    datR := if s.irqRead r then 0#6 ++ BitVec.ofBool s.txIrq ++ BitVec.ofBool s.rxIrq
      else if dataReq r then bitsByte s.rx.data else s.datR
    ack := r.stb && r.cyc && !s.ack
    rxPrev := s.rx.rdy
    txPrev := s.tx.ack
    rxIrq := if s.rx.rdy && !s.rxPrev then true else if s.irqRead r then false else s.rxIrq
    txIrq := if s.tx.ack && !s.txPrev then true else if s.irqRead r then false else s.txIrq }

/-- The serial port after `n` cycles (iterates `attosoc.py` 591-644). -/
def run (D : Nat) (s : WbSerial) (r : Nat → WbReq) (rxI : Nat → Bool) : Nat → WbSerial
  | 0 => s
  | n + 1 => (run D s r rxI n).step D (r n) (rxI n)

end WbSerial

/-- Register strobes of `CSRSerial` in one cycle (`attosoc.py` 730-740). -/
structure SerialStb where
  /-- write strobe and data of the `txrx` register -/
  wStb : Bool := false
  wData : BitVec 8 := 0
  /-- read strobe of the `txrx` register -/
  rStb : Bool := false
  /-- read strobe of the `irq` register -/
  irqStb : Bool := false

/-- State of `CSRSerial` (`attosoc.py` 647-752). -/
structure CsrSerial where
  tx : UartTx
  rx : UartRx
  rxIrq : Bool := false
  rxPrev : Bool := true
  txIrq : Bool := false
  txPrev : Bool := true

namespace CsrSerial

/-- `attosoc.py` 713-716: reset values (`rx_rdy_prev` and `tx_ack_prev` are 1). -/
def reset : CsrSerial := { tx := UartTx.reset 8, rx := UartRx.reset 8 }

/-- `attosoc.py` 719: the interrupt line. -/
def irq (s : CsrSerial) : Bool := s.rxIrq || s.txIrq

/-- `attosoc.py` 732: read data of the IRQ register. -/
def irqData (s : CsrSerial) : BitVec 2 := BitVec.ofBool s.txIrq ++ BitVec.ofBool s.rxIrq

/-- `attosoc.py` 731: read data of the `txrx` register. -/
def data (s : CsrSerial) : BitVec 8 := bitsByte s.rx.data

/-- The serial output (`attosoc.py` 720). -/
def txO (s : CsrSerial) : Bool := s.tx.out

/-- One clock of `CSRSerial` (`attosoc.py` 704-752). -/
def step (D : Nat) (s : CsrSerial) (r : SerialStb) (rxI : Bool) : CsrSerial :=
  { tx := s.tx.step D r.wStb (byteBits r.wData)
    rx := s.rx.step D rxI r.rStb
    rxPrev := s.rx.rdy
    txPrev := s.tx.ack
    rxIrq := if s.rx.rdy && !s.rxPrev then true else if r.irqStb then false else s.rxIrq
    txIrq := if s.tx.ack && !s.txPrev then true else if r.irqStb then false else s.txIrq }

/-- The serial port after `n` cycles (iterates `attosoc.py` 704-752). -/
def run (D : Nat) (s : CsrSerial) (r : Nat → SerialStb) (rxI : Nat → Bool) : Nat → CsrSerial
  | 0 => s
  | n + 1 => (run D s r rxI n).step D (r n) (rxI n)

end CsrSerial

end Sentinel
