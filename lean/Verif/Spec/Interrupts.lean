import Verif.Spec.Memory
import Verif.Spec.Traps
/-!
# Programs that are interrupted

What an interrupt handler has to do, and what a program has to leave alone, so that the program does not notice interrupts.  Nothing here refers to
the model of the core.
-/

namespace Sentinel.Spec

variable {k : Nat}

/-- Index of the word at a byte address. -/
def wordIdx (k : Nat) (adr : Word) : BitVec k := (wordAdr adr).setWidth k

/-- The word at a byte address. -/
def Mem.word (M : Mem k) (adr : Word) : Word := M (wordIdx k adr)

/-- The word for MRET. -/
def mretWord : Word := 0x30200073

/-- One instruction of the instruction-set machine on a memory, whatever the interrupt line does. -/
def Step (a : Arch) (M : Mem k) (a' : Arch) (M' : Mem k) : Prop :=
  ∃ l, (exec .asBuilt a (M.word a.pc)).Path l a' ∧ MemTrace M l ∧ M' = M.afterAll l

/-- Started in `a` with memory `M`, the machine comes to an MRET, whatever the interrupt line does, and `Q` holds after it. -/
inductive Returns (Q : Arch → Mem k → Prop) : Arch → Mem k → Prop
  | mret {a M} : M.word a.pc = mretWord → (∀ a' M', Step a M a' M' → Q a' M') → Returns Q a M
  | step {a M} : M.word a.pc ≠ mretWord → (∀ a' M', Step a M a' M' → Returns Q a' M') → Returns Q a M

/-- The state `b` differs from `a` in nothing but mepc, mcause and mstatus.MPIE (and the flag of deviation D1). -/
def Arch.Same (a b : Arch) : Prop :=
  b = { a with mpie := b.mpie, mepc := b.mepc, mcause := b.mcause, irqTaken := b.irqTaken }

/-- A handler at the address `entry`, with the memory `R` to itself (for its code and its data).  `I c` says that this memory is as it is to be after `c` interrupts; it depends
on nothing else.  Whatever is interrupted, the handler returns to the same place with everything restored, and has changed nothing outside of `R`. -/
structure Handler (R : BitVec k → Prop) (I : Nat → Mem k → Prop) (entry : Word) : Prop where
  own : ∀ c M M', (∀ i, R i → M' i = M i) → I c M → I c M'
  returns : ∀ c (a : Arch) (M : Mem k), I c M → a.mtvec = entry → a.mie = true → a.meie = true →
    Returns (fun a' M' => a.Same a' ∧ a'.mpie = true ∧ (∀ i, ¬ R i → M' i = M i) ∧ I (c + 1) M') (a.takeInterrupt .asBuilt) M

/-- The byte address that a word accesses if it is a load or store. -/
def dataAdr (a : Arch) (w : Word) : Option Word :=
  match decode w with
  | some (.load _ _ rs1 imm) => some (a.reg rs1 + imm.signExtend 32)
  | some (.store _ rs1 _ imm) => some (a.reg rs1 + imm.signExtend 32)
  | _ => none

/-- The instruction `w`, about to be executed in state `a`, leaves alone what belongs to the handler: its memory, the address of the handler (once interrupts
are enabled), mepc, mcause, and MRET.  It does not read mip, and reads mstatus only if MPIE is set; it raises no exception. -/
structure Apart (R : BitVec k → Prop) (entry : Word) (a : Arch) (w : Word) : Prop where
  vec : a.mie = true → a.meie = true → a.mtvec = entry
  fetch : ¬ R (wordIdx k a.pc)
  data : ∀ adr, dataAdr a w = some adr → ¬ R (wordIdx k adr)
  exc : excCause a w = none
  mret : decode w ≠ some .mret
  csr : ∀ op rd src adr, decode w = some (.csr op rd src adr) →
    csrKind adr ≠ .impl .mepc ∧ csrKind adr ≠ .impl .mcause ∧ csrKind adr ≠ .impl .mip ∧ (csrKind adr = .impl .mstatus → rd = 0 ∨ a.mpie = true)

end Sentinel.Spec
