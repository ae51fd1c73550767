import Verif.Spec.Line
import Verif.Soc.UartBits
import Verif.Soc.Serial
import Verif.Spec.App
/-!
# A terminal with its own clock

At the other end of the cable from the demo board: a receiver like `UART` of `attosoc.py`, with any number of cycles per bit, run by a clock
that has nothing to do with that of the board.
-/

namespace Sentinel

/-- `D`: cycles per bit; `x`: the levels it samples, in each of its cycles; `take`: when whatever is behind it takes the character
it presents; `a`, `c`: cycle `j` of the board begins at time `a + c * j`, in cycles of the terminal. -/
structure Terminal where
  D : Nat
  x : Nat → Bool
  take : Nat → Bool
  a : ℝ
  c : ℝ

namespace Terminal

/-- The receiver. -/
def rx (t : Terminal) (n : Nat) : UartRx := (UartRx.reset 8).run t.D t.x t.take n

/-- What it has shown in its first `n` cycles. -/
def shown (t : Terminal) : Nat → List (BitVec 8)
  | 0 => []
  | n + 1 => t.shown n ++ if !(t.rx n).rdy && (t.rx (n + 1)).rdy then [bitsByte (t.rx (n + 1)).data] else []

/-- The terminal is connected to the output `line` of a board with `D` cycles per bit: it samples this output, which is high before the
board's first cycle; its bits are as long as the board's, over a frame, up to half a bit less `W + 3` cycles; and what is behind it takes each
character within `W` cycles. -/
structure Connected (t : Terminal) (D : Nat) (line : Nat → Bool) (W : Nat) : Prop where
  start : 0 ≤ t.a
  clock : 0 < t.c
  rest : ∀ n : Nat, n < t.a → t.x n = true
  sees : ∀ n j : Nat, t.a + t.c * j ≤ n → n < t.a + t.c * (j + 1 : Nat) → t.x n = line j
  near : 10 * |t.c * D - t.D| + (W + 3 : Nat) ≤ (t.D : ℝ) / 2
  takes : ∀ n, (t.rx n).rdy = true → ∃ m ≥ n, m ≤ n + W ∧ (t.rx m).rdy = false

/-- Somebody sits at the terminal and types, on the line `l`, ctrl-c and then a number: the characters `b`. Each key but the first is pressed only
when the terminal has shown the prompt, followed by the echo of what has been typed after ctrl-c. -/
def Watched (t : Terminal) (l : Line) (b : Nat → BitVec 8) : Prop :=
  ∀ k, l.sent (k + 1) → ∃ n : Nat, n ≤ t.a + t.c * l.edge (k + 1) 0 ∧
    Fw.utf8 ("ctrl-c hit\nrule (default 110)? ".toList ++ (List.range k).map fun i => Char.ofNat (b (i + 1)).toNat) <:+: t.shown n

end Terminal

end Sentinel
