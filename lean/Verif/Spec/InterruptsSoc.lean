import Verif.Spec.Interrupts
import Verif.Spec.PlatformCsr
import Verif.Spec.Portable
/-!
# Programs on the example SoC that are interrupted

As `Spec/Interrupts`, for a platform with peripherals: the program keeps to RAM, LEDs and GPIO outputs; the interrupt handler may use every peripheral.
Nothing here refers to the model of the hardware.
-/

namespace Sentinel.Spec

variable {k : Nat}

/-- A kind of peripherals: what may be answered to a request, what a request does, and at which byte addresses something is. -/
structure Kind (k : Nat) where
  answers : Plat k → Req → Word → Prop
  after : Plat k → Req → Plat k
  mapped : Nat → Prop

/-- Wishbone peripherals. -/
def Kind.wb : Kind k := ⟨Plat.Answers, Plat.after, fun b => (Spec.target b).isSome = true⟩

/-- Peripherals on the CSR bus. -/
def Kind.csr : Kind k := ⟨Plat.AnswersCsr, Plat.afterCsr, fun b => (Spec.csrTarget b).isSome = true⟩

/-- Traces of a platform. -/
def Kind.Trace (K : Kind k) : Plat k → List Event → Prop
  | _, [] => True
  | P, .poll _ :: l => K.Trace P l
  | P, .bus r d :: l => K.answers P r d ∧ K.Trace (K.after P r) l

/-- The platform after a trace. -/
def Kind.afterAll (K : Kind k) : Plat k → List Event → Plat k
  | P, [] => P
  | P, .poll _ :: l => K.afterAll P l
  | P, .bus r _ :: l => K.afterAll (K.after P r) l

/-- The output registers: LEDs, GPIO outputs, GPIO output enables. -/
def Plat.out (P : Plat k) : Nat → BitVec 8
  | 0 => P.leds
  | 1 => P.gpioO
  | 2 => P.gpioOe
  | _ => 0

/-- The machine with RAM and outputs only (`none` as soon as the program does anything else) after `n` instructions of a program that is never interrupted: the architectural
state, the word about to be executed, and the platform. -/
def quietRun (P : Plat k) (a : Arch) : Nat → Option ((Arch × Word) × Plat k)
  | 0 => (fetch a).onPlat P
  | n + 1 => (quietRun P a n).bind fun q => (cycle .asBuilt q.1).onPlat q.2

/-- One instruction, fetched from RAM, whatever the interrupt line does and whatever the peripherals answer. -/
def Kind.Step (K : Kind k) (a : Arch) (P : Plat k) (a' : Arch) (P' : Plat k) : Prop :=
  ∃ l, (exec .asBuilt a (P.ram.word a.pc)).Path l a' ∧ K.Trace P l ∧ P' = K.afterAll P l

/-- Started in `a` on the platform `P`, the machine comes to an MRET, whatever the interrupt line does and whatever the peripherals answer, and `Q` holds after it. Until then it
fetches from RAM, and loads and stores where something is. -/
inductive Kind.Returns (K : Kind k) (Q : Arch → Plat k → Prop) : Arch → Plat k → Prop
  | mret {a P} : a.pc.toNat < 0x02000000 → P.ram.word a.pc = mretWord → (∀ a' P', K.Step a P a' P' → Q a' P') → K.Returns Q a P
  | step {a P} : a.pc.toNat < 0x02000000 → P.ram.word a.pc ≠ mretWord →
      (∀ adr, dataAdr a (P.ram.word a.pc) = some adr → K.mapped adr.toNat) →
      (∀ a' P', K.Step a P a' P' → K.Returns Q a' P') → K.Returns Q a P

/-- A handler at the address `entry` that has the words `R` of RAM and the output registers `V` to itself.  `I c` says that they are as they are to be after `c` interrupts.
Whatever is interrupted, the handler returns to the same place with everything restored, and has changed nothing else. -/
structure HandlerSoc (K : Kind k) (R : BitVec k → Prop) (V : Nat → Prop) (I : Nat → Plat k → Prop) (entry : Word) : Prop where
  own : ∀ c P P', (∀ i, R i → P'.ram i = P.ram i) → (∀ n, V n → P'.out n = P.out n) → I c P → I c P'
  returns : ∀ c (a : Arch) (P : Plat k), I c P → a.mtvec = entry → a.mie = true → a.meie = true →
    K.Returns (fun a' P' => a.Same a' ∧ a'.mpie = true ∧ (∀ i, ¬ R i → P'.ram i = P.ram i) ∧ (∀ n, ¬ V n → P'.out n = P.out n) ∧ I (c + 1) P')
      (a.takeInterrupt .asBuilt) P

/-- The instruction `w`, about to be executed in state `a`, leaves alone what belongs to the handler: as `Apart`, and also its output registers. -/
structure ApartSoc (R : BitVec k → Prop) (V : Nat → Prop) (entry : Word) (a : Arch) (w : Word) : Prop where
  vec : a.mie = true → a.meie = true → a.mtvec = entry
  fetch : ¬ R (wordIdx k a.pc)
  ram : ∀ adr, dataAdr a w = some adr → adr.toNat < 0x02000000 → ¬ R (wordIdx k adr)
  out : ∀ adr n, dataAdr a w = some adr → n < 3 → adr.toNat / 4 = 0x02000000 / 4 + n → ¬ V n
  exc : excCause a w = none
  mret : decode w ≠ some .mret
  csr : ∀ op rd src adr, decode w = some (.csr op rd src adr) →
    csrKind adr ≠ .impl .mepc ∧ csrKind adr ≠ .impl .mcause ∧ csrKind adr ≠ .impl .mip ∧ (csrKind adr = .impl .mstatus → rd = 0 ∨ a.mpie = true)

/-- A program and a handler that keep apart: the program, started in state `a` on the platform `P` and never interrupted, keeps to RAM and outputs and leaves alone what belongs
to the handler. -/
structure SetupSoc (K : Kind k) (P : Plat k) (a : Arch) (R : BitVec k → Prop) (V : Nat → Prop) (I : Nat → Plat k → Prop) (entry : Word) : Prop where
  handler : HandlerSoc K R V I entry
  data : I 0 P
  apart : ∀ n, ∃ q, quietRun P a n = some q ∧ ApartSoc R V entry q.1.1 q.1.2

end Sentinel.Spec
