import Verif.Spec.Leak
import Verif.Core.Reach
/-!
# Bus traffic

What can be seen of the bus of the core but for the data, and what it means that it follows a script.
-/

namespace Sentinel
open Spec

/-- What is on the bus in a cycle, but for the data: nothing unless `CYC_O` is asserted (`top.py` 254-261). -/
def State.traffic (s : State) : Option Traffic := if s.cyc then some ⟨s.adr, s.sel, s.we⟩ else none

/-- From cycle `t` on the bus follows the script: for each entry, so many cycles without a request, and then the request until it is
answered; and in the cycle after the last answer an instruction is dispatched.  `d` says whether cycle `t` is one in which an
instruction is dispatched; no other is, up to the end of the script (vocabulary of the theorems about the bus of `top.py` 254-261). -/
def State.Follows (s : State) (inp : Nat → Input) (d : Bool) : List (Nat × Traffic) → Nat → Prop
  | [], t => s.Dispatching inp t
  | (n, r) :: l, t =>
    (∀ j, j < n → (s.run inp (t + j)).traffic = none ∧ (s.Dispatching inp (t + j) ↔ d = true ∧ j = 0)) ∧
    (∀ j, n ≤ j → (∀ i, n ≤ i → i < j → (inp (t + i)).ack = false) →
      (s.run inp (t + j)).traffic = some r ∧ ¬ s.Dispatching inp (t + j) ∧
      ((inp (t + j)).ack = true → Follows s inp false l (t + j + 1)))

end Sentinel
