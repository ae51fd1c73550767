import Mathlib.Algebra.Order.Archimedean.Real.Basic
import Mathlib.Algebra.Order.Floor.Semiring
/-!
# A serial line, as seen by a receiver

Cycles are those of the receiver.  Nothing is said of what drives the line: another clock, a cable, a
keyboard.  Every frame is a start bit (low), the bits of the character (least significant first), a stop
bit (high); between frames the line is high.
-/

namespace Sentinel

/-- What was sent over a line: `sent k` says that there is a `k`-th character, `char k` is it, and
`edge k i` is the first cycle of the `i`-th bit of its frame; `edge k (n + 2)`, where `n` is the number of
bits of a character, is the first cycle after the stop bit. -/
structure Line where
  sent : Nat → Prop
  char : Nat → List Bool
  edge : Nat → Nat → Nat

namespace Line

/-- Bit `i` of the frame of `d`. -/
def bit (d : List Bool) (i : Nat) : Bool := if i = 0 then false else d.getD (i - 1) true

/-- The levels `x` of the line are those of what was sent, characters having `n` bits. -/
structure Levels (l : Line) (n : Nat) (x : Nat → Bool) : Prop where
  /-- the characters have `n` bits -/
  len : ∀ k, l.sent k → (l.char k).length = n
  /-- a frame begins when the one before has ended -/
  order : ∀ k, l.sent (k + 1) → l.sent k ∧ l.edge k (n + 2) ≤ l.edge (k + 1) 0
  /-- bit `i` is on the line from its edge to the next -/
  bits : ∀ k i t, l.sent k → i < n + 2 → l.edge k i ≤ t → t < l.edge k (i + 1) → x t = bit (l.char k) i
  /-- the line is high where there is no frame -/
  high : ∀ t, (∀ k, l.sent k → t < l.edge k 0 ∨ l.edge k (n + 2) ≤ t) → x t = true

/-- No edge is half a bit (`D` cycles long, for the receiver) away from where it should be, counting from
the first cycle of the frame: it is less than half a bit early, with a cycle to spare, and not more than
half a bit and a cycle late. -/
def Fits (l : Line) (n D : Nat) : Prop :=
  ∀ k i, l.sent k → 0 < i → i ≤ n + 2 →
    l.edge k 0 + i * D + 2 + D / 2 ≤ l.edge k i + D ∧ (i < n + 2 → l.edge k i ≤ l.edge k 0 + i * D + D / 2 + 1)

/-- The cycle in which a receiver with `D` cycles per bit presents character `k`. -/
def done (l : Line) (n D k : Nat) : Nat := l.edge k 0 + (2 + D / 2 + (n + 1) * D)

/-- The reader takes every character before the next frame begins, or in its first cycle. -/
def Taken (l : Line) (n D : Nat) (take : Nat → Bool) : Prop :=
  ∀ k, l.sent (k + 1) → ∃ a, l.done n D k ≤ a ∧ a ≤ l.edge (k + 1) 0 ∧ take a = true

end Line

/-- What was sent over a line, in real time, whose unit is the clock period of the receiver: cycle `t` of
the receiver is at time `t`.  `edge k i` is when bit `i` of frame `k` begins. -/
structure Wave where
  sent : Nat → Prop
  char : Nat → List Bool
  edge : Nat → Nat → ℝ

namespace Wave

/-- `x` are the levels of the line, sampled by the receiver's clock. -/
structure Levels (w : Wave) (n : Nat) (x : Nat → Bool) : Prop where
  len : ∀ k, w.sent k → (w.char k).length = n
  order : ∀ k, w.sent (k + 1) → w.sent k ∧ w.edge k (n + 2) ≤ w.edge (k + 1) 0
  bits : ∀ k i (t : Nat), w.sent k → i < n + 2 → w.edge k i ≤ t → t < w.edge k (i + 1) → x t = Line.bit (w.char k) i
  high : ∀ t : Nat, (∀ k, w.sent k → t < w.edge k 0 ∨ w.edge k (n + 2) ≤ t) → x t = true

/-- Every edge is within half a bit less three cycles of where it should be, counting from the first edge of
its frame. -/
def Fits (w : Wave) (n D : Nat) : Prop :=
  ∀ k i, w.sent k → 0 < i → i ≤ n + 2 → |w.edge k i - (w.edge k 0 + i * D)| ≤ D / 2 - 3

/-- The same line in cycles of the receiver. -/
noncomputable def line (w : Wave) : Line := ⟨w.sent, w.char, fun k i => ⌈w.edge k i⌉₊⟩

end Wave

end Sentinel
