import Verif.Spec.Memory
/-!
# What can be seen of a run but for its times

Nothing here refers to the model of the core.
-/

namespace Sentinel.Spec

/-- An event without what the data lines to the core carry when a write is answered. -/
def seen : Event → Event
  | .bus r d => .bus r (if r.we then 0 else d)
  | .poll b => .poll b

/-- The samples of the interrupt line, in order. -/
def samples : List Event → List Bool
  | [] => []
  | .poll b :: l => b :: samples l
  | .bus _ _ :: l => samples l

/-- One of the two is a beginning of the other. -/
def Agree {α : Type} (l l' : List α) : Prop := l <+: l' ∨ l' <+: l

end Sentinel.Spec
