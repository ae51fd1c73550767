import Verif.Soc.FirmwareCsr
import Verif.Spec.App
/-!
# What is observed of a run of the Rust firmware on the CSR bus

The same observations as in `Spec/Firmware.lean` and `Spec/App.lean`, of the system of `Soc/FirmwareCsr.lean`.

`D` is the divisor of the serial port and `e` says, cycle by cycle, what happens (`Env`).
-/

namespace Sentinel.FwCsr

open Fw (Env Main Pins keyboard typed utf8 session keysOf)

variable (D : Nat) (e : Nat → Env)

/-- The byte that `main` is writing in cycle `n`. -/
def writing (n : Nat) : Option (BitVec 8) := (Sys.at_ D e n).soft.main.writing

/-- The bytes that `main` has called `write_char` with, in the first `n` cycles. -/
def calls : Nat → List (BitVec 8)
  | 0 => []
  | n + 1 => calls n ++
    match writing D e n, writing D e (n + 1) with
    | none, some b => [b]
    | _, _ => []

/-- The bytes whose call of `write_char` has returned, in the first `n` cycles. -/
def returned : Nat → List (BitVec 8)
  | 0 => []
  | n + 1 => returned n ++
    match writing D e n, writing D e (n + 1) with
    | some b, none => [b]
    | _, _ => []

/-- The serial output. -/
def line (n : Nat) : Bool := (Sys.at_ D e n).ser.txO

/-- A frame begins on the line in cycle `n + 1`: the transmitter was ready in cycle `n` and is not now. -/
def frameStarts (n : Nat) : Bool :=
  (Sys.at_ D e n).ser.tx.ack && !(Sys.at_ D e (n + 1)).ser.tx.ack

/-- The byte that is on the line after a start bit that begins in cycle `n`, least significant bit first,
each bit `D` cycles long. -/
def lineByte (n : Nat) : BitVec 8 := bitsByte ((List.range 8).map fun i => line D e (n + (i + 1) * D))

/-- The bytes of the frames that have begun on the line in the first `n` cycles. -/
def frames : Nat → List (BitVec 8)
  | 0 => []
  | n + 1 => frames n ++ if frameStarts D e n then [lineByte D e (n + 1)] else []

/-- A terminal at the other end of the line: a receiver with the same divisor; `take` says when it takes
the character it has. -/
def terminal (take : Nat → Bool) (n : Nat) : UartRx := (UartRx.reset 8).run D (line D e) take n

/-- The characters that the terminal has received in the first `n` cycles. -/
def shown (take : Nat → Bool) : Nat → List (BitVec 8)
  | 0 => []
  | n + 1 => shown take n ++
    if !(terminal D e take n).rdy && (terminal D e take (n + 1)).rdy then
      [bitsByte (terminal D e take (n + 1)).data] else []

/-- The terminal takes each character before the next one begins. -/
def TerminalKeepsUp (take : Nat → Bool) : Prop :=
  ∀ n, frameStarts D e n = true → (terminal D e take (n + 1)).rdy = false ∨ take (n + 1) = true

/-! ## Receiving -/

/-- The characters that have become available in the serial port in the first `n` cycles. -/
def received : Nat → List (BitVec 8)
  | 0 => []
  | n + 1 => received n ++
    if !(Sys.at_ D e n).ser.rx.rdy && (Sys.at_ D e (n + 1)).ser.rx.rdy then
      [bitsByte (Sys.at_ D e (n + 1)).ser.rx.data] else []

/-- The character that the handler stores in `RX` in cycle `n`: it is before line 149 and after it in the
next cycle. -/
def storing (n : Nat) : Option (BitVec 8) :=
  match (Sys.at_ D e n).soft.isr, (Sys.at_ D e (n + 1)).soft.isr with
  | some (.gotRx _ d), some (.tx _) => some d
  | _, _ => none

/-- The characters that the handler has stored in `RX` in the first `n` cycles. -/
def stores : Nat → List (BitVec 8)
  | 0 => []
  | n + 1 => stores n ++ (storing D e n).toList

/-- The content of `RX`. -/
def mailbox (n : Nat) : Option (BitVec 8) := (Sys.at_ D e n).soft.rxBox

/-- `main` empties `RX` in cycle `n`; it is in a critical section. -/
def Clearing (n : Nat) : Prop := (Sys.at_ D e n).soft.main = .locked ∧ (e n).act = some .clearRx

/-- The characters that `main` has taken out of `RX` in the first `n` cycles. -/
def taken : Nat → List (BitVec 8)
  | 0 => []
  | n + 1 => taken n ++
    match (Sys.at_ D e n).soft.main, (e n).act with
    | .locked, some .clearRx => (mailbox D e n).toList
    | _, _ => []

/-- The firmware keeps up: when a character begins, it has read the one before. -/
def DriverKeepsUp (keys : Nat → Option (BitVec 8)) : Prop :=
  ∀ n, (keyboard D keys n).ack = true → (keys n).isSome = true → (Sys.at_ D e (n + 1)).ser.rx.rdy = false

/-- What `main` has read from bit 0 of the input port (the button), in the first `n` cycles, since it last wrote something: when
a read ends, it is what the pin was in its first cycle, 5 cycles before. -/
def samples (D : Nat) (e : Nat → Env) : Nat → List Bool
  | 0 => []
  | n + 1 =>
    if (writing D e (n + 1)).isSome then []
    else samples D e n ++
      if (Sys.at_ D e n).soft.main.reading && !(Sys.at_ D e (n + 1)).soft.main.reading then [(e (n - 5)).gpioI.getLsbD 0] else []

/-- `h n` are the inputs of the first `n` cycles of the run: it is a history that explains what is observed. -/
structure Explains (D : Nat) (p : Nat → Pins) (h : Nat → List Fw.Input) : Prop where
  /-- Inputs come one at a time. -/
  start : h 0 = []
  grows : ∀ n, h (n + 1) = h n ∨ ∃ i, h (n + 1) = h n ++ [i]
  /-- An input is taken by an action of the processor. -/
  acts : ∀ n i, h (n + 1) = h n ++ [i] → (p n).go = true
  /-- What has been written is what the session is to say, so far... -/
  said : ∀ n, calls D (Machine.envs D p) n <+: utf8 (session (h n)).said
  /-- ... and all of it, but what belongs to the last input. -/
  before : ∀ n is i, h n = is ++ [i] → utf8 (session is).said <+: calls D (Machine.envs D p) n
  /-- The character of an input is what is in `RX` at that time, -/
  box : ∀ n i, h (n + 1) = h n ++ [i] → i.key = mailbox D (Machine.envs D p) n
  /-- and it is taken out: those taken are those of the inputs, but that of the last one perhaps. -/
  keys : ∀ n, taken D (Machine.envs D p) n <+: keysOf (h n)
  keysBefore : ∀ n is i, h n = is ++ [i] → keysOf is <+: taken D (Machine.envs D p) n
  /-- When everything has been said, the LEDs are as they are to be. -/
  leds : ∀ n, calls D (Machine.envs D p) n = utf8 (session (h n)).said → (Machine.at_ D p n).sys.leds.leds = (session (h n)).leds
  /-- The button was pressed if it was each time `main` has looked, and it has looked. -/
  button : ∀ n i rule style gen, h (n + 1) = h n ++ [i] → (session (h n)).phase = .demo rule style gen →
    samples D (Machine.envs D p) n ≠ [] ∧ i.press = (samples D (Machine.envs D p) n).all id
  /-- A line of a demonstration stays the last one for more than 142 * 2^14 cycles. -/
  apart : ∀ n i rule style gen, h (n + 1) = h n ++ [i] → (session (h n)).phase = .demo rule style gen →
    ∃ m, m + 142 * 2 ^ 14 < n ∧ ∀ k, m ≤ k → k ≤ n → writing D (Machine.envs D p) k = none

end Sentinel.FwCsr
