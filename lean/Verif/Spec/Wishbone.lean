/-!
# Wishbone, the subordinate's side

Nothing here refers to the models.  `act` says in which cycles the master makes a request (CYC and STB), `ack` in which cycles the subordinate asserts ACK.
-/

namespace Sentinel.Spec

/-- The subordinate answers every request within `W` cycles, once, and nothing else. -/
structure Answers (W : Nat) (act ack : Nat → Bool) : Prop where
  /-- There is no ACK before the first request. -/
  start : ack 0 = false
  /-- An ACK follows a request in the cycle before: none comes in the first cycle of a request, or without a request. -/
  only : ∀ n, ack (n + 1) = true → act n = true
  /-- An ACK lasts for one cycle. -/
  single : ∀ n, ack n = true → ack (n + 1) = false
  /-- A request that is not withdrawn is answered, `W` cycles later at the latest. -/
  prompt : ∀ n, (∀ j, j < W → act (n + j) = true) → ∃ j, j ≤ W ∧ ack (n + j) = true

end Sentinel.Spec
