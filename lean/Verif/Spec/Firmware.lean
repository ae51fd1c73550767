import Verif.Soc.Firmware
/-!
# What is observed of a run of the Rust firmware

`D` is the divisor of the serial port and `e` says, cycle by cycle, what happens (`Env`).
-/

namespace Sentinel.Fw

variable (D : Nat) (e : Nat → Env)

/-- The byte that `write_char` is busy with, if `main` is inside `write_char`. -/
def Main.writing : Main → Option (BitVec 8)
  | .retry _ b | .crit _ b | .send _ b | .flag _ b => some b
  | _ => none

/-- The byte that `main` is writing in cycle `n`. -/
def writing (n : Nat) : Option (BitVec 8) := (Sys.at_ D e n).soft.main.writing

/-- The bytes that `main` has called `write_char` with, in the first `n` cycles. -/
def calls : Nat → List (BitVec 8)
  | 0 => []
  | n + 1 => calls n ++
    match writing D e n, writing D e (n + 1) with
    | none, some b => [b]
    | _, _ => []

/-- The bytes whose call of `write_char` has returned, in the first `n` cycles. -/
def returned : Nat → List (BitVec 8)
  | 0 => []
  | n + 1 => returned n ++
    match writing D e n, writing D e (n + 1) with
    | some b, none => [b]
    | _, _ => []

/-- The serial output. -/
def line (n : Nat) : Bool := (Sys.at_ D e n).ser.txO

/-- A frame begins on the line in cycle `n + 1`: the transmitter was ready in cycle `n` and is not now. -/
def frameStarts (n : Nat) : Bool :=
  (Sys.at_ D e n).ser.tx.ack && !(Sys.at_ D e (n + 1)).ser.tx.ack

/-- The byte that is on the line after a start bit that begins in cycle `n`, least significant bit first,
each bit `D` cycles long. -/
def lineByte (n : Nat) : BitVec 8 := bitsByte ((List.range 8).map fun i => line D e (n + (i + 1) * D))

/-- The bytes of the frames that have begun on the line in the first `n` cycles. -/
def frames : Nat → List (BitVec 8)
  | 0 => []
  | n + 1 => frames n ++ if frameStarts D e n then [lineByte D e (n + 1)] else []

/-- A terminal at the other end of the line: a receiver with the same divisor; `take` says when it takes
the character it has. -/
def terminal (take : Nat → Bool) (n : Nat) : UartRx := (UartRx.reset 8).run D (line D e) take n

/-- The characters that the terminal has received in the first `n` cycles. -/
def shown (take : Nat → Bool) : Nat → List (BitVec 8)
  | 0 => []
  | n + 1 => shown take n ++
    if !(terminal D e take n).rdy && (terminal D e take (n + 1)).rdy then
      [bitsByte (terminal D e take (n + 1)).data] else []

/-- The terminal takes each character before the next one begins. -/
def TerminalKeepsUp (take : Nat → Bool) : Prop :=
  ∀ n, frameStarts D e n = true → (terminal D e take (n + 1)).rdy = false ∨ take (n + 1) = true

/-! ## Receiving -/

/-- The characters that have become available in the serial port in the first `n` cycles. -/
def received : Nat → List (BitVec 8)
  | 0 => []
  | n + 1 => received n ++
    if !(Sys.at_ D e n).ser.rx.rdy && (Sys.at_ D e (n + 1)).ser.rx.rdy then
      [bitsByte (Sys.at_ D e (n + 1)).ser.rx.data] else []

/-- The character that the handler stores in `RX` in cycle `n`: it is before line 149 and after it in the
next cycle. -/
def storing (n : Nat) : Option (BitVec 8) :=
  match (Sys.at_ D e n).soft.isr, (Sys.at_ D e (n + 1)).soft.isr with
  | some (.gotRx _ d), some (.tx _) => some d
  | _, _ => none

/-- The characters that the handler has stored in `RX` in the first `n` cycles. -/
def stores : Nat → List (BitVec 8)
  | 0 => []
  | n + 1 => stores n ++ (storing D e n).toList

/-- The content of `RX`. -/
def mailbox (n : Nat) : Option (BitVec 8) := (Sys.at_ D e n).soft.rxBox

/-- `main` empties `RX` in cycle `n`; it is in a critical section. -/
def Clearing (n : Nat) : Prop := (Sys.at_ D e n).soft.main = .locked ∧ (e n).act = some .clearRx

/-- The characters that `main` has taken out of `RX` in the first `n` cycles. -/
def taken : Nat → List (BitVec 8)
  | 0 => []
  | n + 1 => taken n ++
    match (Sys.at_ D e n).soft.main, (e n).act with
    | .locked, some .clearRx => (mailbox D e n).toList
    | _, _ => []

/-- A keyboard: a transmitter with the same divisor; `keys n` is the character it is asked to send in cycle
`n`, which it does if it is not busy. -/
def keyboard (keys : Nat → Option (BitVec 8)) (n : Nat) : UartTx :=
  (UartTx.reset 8).run D (fun k => (keys k).isSome) (fun k => byteBits ((keys k).getD 0)) n

/-- The characters that the keyboard has begun to send in the first `n` cycles. -/
def typed (keys : Nat → Option (BitVec 8)) : Nat → List (BitVec 8)
  | 0 => []
  | n + 1 => typed keys n ++ if (keyboard D keys n).ack then (keys n).toList else []

/-- The keyboard is connected to the serial input. -/
def Wired (keys : Nat → Option (BitVec 8)) : Prop := ∀ n, (e n).rx = (keyboard D keys n).out

/-- The firmware keeps up: when a character begins, it has read the one before. -/
def DriverKeepsUp (keys : Nat → Option (BitVec 8)) : Prop :=
  ∀ n, (keyboard D keys n).ack = true → (keys n).isSome = true → (Sys.at_ D e (n + 1)).ser.rx.rdy = false

end Sentinel.Fw
