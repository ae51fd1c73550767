import Verif.Spec.Isa
/-!
# Flat memory

What it means for a trace of bus events to come from a memory of 32-bit words.  Nothing here refers
to the model of the core or of the memory.
-/

namespace Sentinel.Spec

/-- A memory of `2 ^ k` words; a word address is taken modulo `2 ^ k`. -/
abbrev Mem (k : Nat) := BitVec k → Word

/-- Byte `n` of a word. -/
def byteOf (w : Word) (n : Nat) : BitVec 8 := w.extractLsb' (8 * n) 8

/-- A word whose selected bytes come from `new` and the others from `old`. -/
def mergeBytes (sel : BitVec 4) (old new : Word) : Word :=
  let pick (n : Nat) : BitVec 8 := if sel.getLsbD n then byteOf new n else byteOf old n
  pick 3 ++ pick 2 ++ pick 1 ++ pick 0

/-- Effect of a request on the memory. -/
def Mem.after {k : Nat} (M : Mem k) (r : Req) : Mem k :=
  if r.we then fun a => if a = r.adr.setWidth k then mergeBytes r.sel (M a) r.data else M a else M

/-- `MemTrace M l`: every read in the trace `l` returns what the memory holds, which is `M` to begin
with and is then changed by the writes of the trace. -/
def MemTrace {k : Nat} : Mem k → List Event → Prop
  | _, [] => True
  | M, .poll _ :: l => MemTrace M l
  | M, .bus r d :: l => (r.we = false → d = M (r.adr.setWidth k)) ∧ MemTrace (M.after r) l

/-- The memory after a trace. -/
def Mem.afterAll {k : Nat} (M : Mem k) : List Event → Mem k
  | [] => M
  | .poll _ :: l => M.afterAll l
  | .bus r _ :: l => (M.after r).afterAll l

theorem Mem.afterAll_append {k : Nat} (M : Mem k) (l l' : List Event) :
    M.afterAll (l ++ l') = (M.afterAll l).afterAll l' := by
  induction l generalizing M with
  | nil => rfl
  | cons e l ih => cases e <;> exact ih _

theorem MemTrace.append {k : Nat} {M : Mem k} {l l' : List Event} :
    MemTrace M (l ++ l') ↔ MemTrace M l ∧ MemTrace (M.afterAll l) l' := by
  induction l generalizing M with
  | nil => simp [MemTrace, Mem.afterAll]
  | cons e l ih =>
    cases e with
    | poll b => exact ih
    | bus r d => simp only [List.cons_append, MemTrace, Mem.afterAll, ih, and_assoc]

/-- Run a computation on a memory with the interrupt line held at `b`. -/
def Tree.onMem {α : Type} {k : Nat} (b : Bool) : Tree α → Mem k → α × Mem k
  | .ret x, M => (x, M)
  | .poll f, M => (f b).onMem b M
  | .bus r f, M => (f (if r.we then 0 else M (r.adr.setWidth k))).onMem b (M.after r)

/-- The flat-memory machine: the architectural state, the word about to be executed, and the memory,
after `n` instructions, started in `a0` with memory `M0` and the interrupt line held at `b`. -/
def flat {k : Nat} (cfg : Cfg) (b : Bool) (M0 : Mem k) (a0 : Arch) : Nat → (Arch × Word) × Mem k
  | 0 => (fetch a0).onMem b M0
  | n + 1 => (cycle cfg (flat cfg b M0 a0 n).1).onMem b (flat cfg b M0 a0 n).2

end Sentinel.Spec
