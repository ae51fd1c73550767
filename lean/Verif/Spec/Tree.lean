/-!
# Interaction trees and traces

The language in which the instruction set is specified: a computation that, step by step, asks the
outside world for something and continues with the answer.  Nothing here refers to the model of the
core.
-/

namespace Sentinel.Spec

/-- A bus request: word address, byte lanes, direction, and for a write the data on the selected
lanes (unselected lanes are 0; for a read the data field is 0). -/
structure Req where
  adr : BitVec 30
  sel : BitVec 4
  we : Bool
  data : BitVec 32
  deriving DecidableEq, Repr

/-- What an observer of the core sees: a completed bus transaction with the data returned (for a
write: whatever DAT_I was), or the interrupt line being sampled. -/
inductive Event
  | bus (r : Req) (d : BitVec 32)
  | poll (b : Bool)
  deriving DecidableEq, Repr

/-- Interactive computations. -/
inductive Tree (α : Type)
  | ret (x : α)
  | poll (k : Bool → Tree α)
  | bus (r : Req) (k : BitVec 32 → Tree α)

namespace Tree

/-- Sequential composition. -/
def bind {α β} : Tree α → (α → Tree β) → Tree β
  | ret x, f => f x
  | poll k, f => poll fun b => (k b).bind f
  | bus r k, f => bus r fun d => (k d).bind f

@[simp] theorem bind_ret {α β} (x : α) (f : α → Tree β) : (ret x).bind f = f x := rfl
@[simp] theorem bind_poll {α β} (k : Bool → Tree α) (f : α → Tree β) :
    (poll k).bind f = poll fun b => (k b).bind f := rfl
@[simp] theorem bind_bus {α β} (r : Req) (k : BitVec 32 → Tree α) (f : α → Tree β) :
    (bus r k).bind f = bus r fun d => (k d).bind f := rfl

/-- `Path t l x`: the computation `t`, having taken part in exactly the events `l`, returns `x`. -/
inductive Path {α} : Tree α → List Event → α → Prop
  | ret (x : α) : Path (ret x) [] x
  | poll {k : Bool → Tree α} {b l x} : Path (k b) l x → Path (poll k) (.poll b :: l) x
  | bus {r} {k : BitVec 32 → Tree α} {d l x} : Path (k d) l x → Path (bus r k) (.bus r d :: l) x

end Tree

/-- `Behaves next t l`: `l` is a possible finite prefix of the events of the non-terminating machine
that first runs `t` and, each time a computation returns `x`, goes on with `next x`. -/
inductive Behaves {α} (next : α → Tree α) : Tree α → List Event → Prop
  | stop (t : Tree α) : Behaves next t []
  | ret {x l} : Behaves next (next x) l → Behaves next (.ret x) l
  | poll {k : Bool → Tree α} {b l} : Behaves next (k b) l → Behaves next (.poll k) (.poll b :: l)
  | bus {r} {k : BitVec 32 → Tree α} {d l} :
      Behaves next (k d) l → Behaves next (.bus r k) (.bus r d :: l)

/-- `Runs next t l x`: the machine, started with `t`, has taken part in exactly the events `l` and
some computation has just returned `x`. -/
inductive Runs {α} (next : α → Tree α) : Tree α → List Event → α → Prop
  | here {t l x} : Tree.Path t l x → Runs next t l x
  | more {t l x l' y} : Tree.Path t l x → Runs next (next x) l' y → Runs next t (l ++ l') y

end Sentinel.Spec
