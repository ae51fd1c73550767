import Verif.Props.Crash
/-!
# C22, continued: mstatus after a reset

The domain's reset does not act on the read latch of the microcode ROM, so in the first cycle after a reset of one cycle a
microinstruction that was under way is still executed once, with the registers already reset.
-/

namespace Sentinel
open Spec Ucode

/-- **C22** (mstatus): after any reset mstatus is 0x1800, or 0x1880, i.e. but for MPIE it does not depend on what the core was doing. -/
theorem C22_mstatus {s : State} (h : AfterReset s) (inp : Nat → Input) (b : Bool) :
    (s.run inp 5).arch.csrRead b .mstatus = 0x1800 ∨ (s.run inp 5).arch.csrRead b .mstatus = 0x1880 := by
  have hs : ∃ u mem rd, s = State.resetRegs u mem rd := by
    rcases h with h | ⟨σ, en, i, -, h⟩ <;> exact ⟨_, _, _, h⟩
  rw [(boot_run hs inp).2.2.2.2.1]
  cases hp : (s.step (inp 0)).csr.mpie
  · left; simp [State.boot, bootArch, Arch.csrRead, hp]
  · right; simp [State.boot, bootArch, Arch.csrRead, hp]

/-- **C22** (mstatus): if reset is held for two cycles, whatever the state before, mstatus is 0x1800. -/
theorem C22_held (σ : State) (en : Bool) (i i' : Input) (inp : Nat → Input) (b : Bool) :
    (((σ.tick true en i).tick true true i').run inp 5).arch.csrRead b .mstatus = 0x1800 := by
  have hs : (σ.tick true en i).tick true true i' =
      State.resetRegs u_02 ((σ.tick true en i).step i').mem ((σ.tick true en i).step i').rdata := by
    have hu : ((σ.tick true en i).step i').uop = u_02 := by
      rw [show σ.tick true en i = State.resetRegs _ _ _ from rfl]; exact (boot_first _ _ _ i').1
    rw [← hu]; rfl
  rw [(boot_run ⟨_, _, _, hs⟩ inp).2.2.2.2.1, hs]
  generalize ((σ.tick true en i).step i').mem = mem
  generalize ((σ.tick true en i).step i').rdata = rd
  have hp : ((State.resetRegs u_02 mem rd).step (inp 0)).csr.mpie = false := rfl
  simp [State.boot, bootArch, Arch.csrRead, hp]

/-- **C22** (mepc): after any reset mepc is what it was as reset was released, or 0. -/
theorem C22_mepc {s : State} (h : AfterReset s) (inp : Nat → Input) :
    (s.run inp 5).arch.mepc = s.arch.mepc ∨ (s.run inp 5).arch.mepc = 0 := by
  have hs : ∃ u mem rd, s = State.resetRegs u mem rd := by
    rcases h with h | ⟨σ, en, i, -, h⟩ <;> exact ⟨_, _, _, h⟩
  rw [(boot_run hs inp).2.2.2.2.1]
  show (s.step (inp 0)).mem (csrRamAdr CSR_MEPC) = s.mem (csrRamAdr CSR_MEPC) ∨ (s.step (inp 0)).mem (csrRamAdr CSR_MEPC) = 0
  rw [mem_csr_step]
  split
  · right
    obtain ⟨u, mem, rd, rfl⟩ := hs
    show csrWriteData CSR_MEPC 0#32 = 0
    decide
  · left; rfl

theorem resetRegs_keep {s : State} (h : AfterReset s) (i : Input) : (∀ r, r ≠ 0#5 → (s.step i).arch.x r = s.arch.x r) ∧
    (s.step i).arch.mtvec = s.arch.mtvec ∧ (s.step i).arch.mscratch = s.arch.mscratch := by
  have hs : ∃ u mem rd, s = State.resetRegs u mem rd := by
    rcases h with h | ⟨σ, en, i, -, h⟩ <;> exact ⟨_, _, _, h⟩
  exact ⟨(boot_run hs (fun _ => i)).2.2.2.2.2, stale_csr h i (.inl rfl), stale_csr h i (.inr rfl)⟩

theorem hold_keep {s : State} (h : AfterReset s) (l : List (Bool × Input)) : (∀ r, r ≠ 0#5 → (s.hold l).arch.x r = s.arch.x r) ∧
    (s.hold l).arch.mtvec = s.arch.mtvec ∧ (s.hold l).arch.mscratch = s.arch.mscratch := by
  have hr : Reach s := by
    rcases h with rfl | ⟨σ, en, i, hσ, rfl⟩
    · exact .powerOn
    · exact .tick _ _ _ hσ
  induction l generalizing s with
  | nil => exact ⟨fun _ _ => rfl, rfl, rfl⟩
  | cons p l ih =>
    obtain ⟨en, i⟩ := p
    obtain ⟨h1, h2, h3⟩ := ih (s := s.tick true en i) (.inr ⟨s, en, i, hr, rfl⟩) (.tick _ _ _ hr)
    obtain ⟨k1, k2, k3⟩ := resetRegs_keep h i
    cases en
    · exact ⟨h1, h2, h3⟩
    · exact ⟨fun r hx => (h1 r hx).trans (k1 r hx), h2.trans k2, h3.trans k3⟩

/-- **C22** (kept): x1-x31, mtvec and mscratch are, when the first instruction is fetched after a reset of any length, what they would
have been after the first cycle of it if reset had not been asserted. -/
theorem C22_keep {σ : State} (hσ : Reach σ) (en : Bool) (i : Input) (l : List (Bool × Input)) (inp : Nat → Input) (b a : Arch)
    (hb : (σ.tick false en i).arch = b) (ha : ((σ.hold ((en, i) :: l)).run inp 5).arch = a) :
    (∀ r, r ≠ 0 → a.x r = b.x r) ∧ a.mtvec = b.mtvec ∧ a.mscratch = b.mscratch := by
  obtain ⟨-, -, -, -, h⟩ := C22_reset hσ ((en, i) :: l) (by simp) inp
  obtain ⟨-, -, -, -, -, h1, h2, h3⟩ := h a ha
  obtain ⟨k1, k2, k3⟩ := hold_keep (s := σ.tick true en i) (.inr ⟨σ, en, i, hσ, rfl⟩) l
  subst hb
  cases en <;> exact ⟨fun r hr => (h1 r hr).trans (k1 r hr), h2.trans k2, h3.trans k3⟩

namespace Soc

/-- A program of MRET instructions. -/
def mretProgram : List Word := [0x30200073#32, 0x30200073#32]

/-- **C22** (mstatus): a reset of one cycle may leave MPIE set: mstatus is 0x1880 if it comes in the middle of MRET (and 0x1800 if it comes
a cycle later). -/
theorem C22_mret : ((((demo mretProgram).run (fun _ => false) 11).resetEdge false).run (fun _ => false) 5).cpu.arch.csrRead false .mstatus = 0x1880 ∧
    ((((demo mretProgram).run (fun _ => false) 12).resetEdge false).run (fun _ => false) 5).cpu.arch.csrRead false .mstatus = 0x1800 := by
  decide +kernel

/-- Jumps to 8, where there is an illegal instruction; mtvec is 0, so that this goes on for ever. -/
def badProgram : List Word := [0x0080006F#32, 0x00000013#32, 0x00000000#32]

/-- **C22** (mepc): a reset of one cycle may clear mepc: once the instruction at 8 has been executed mepc is 8, also if reset comes in
cycle 29 or 31, but it is 0 if reset comes in cycle 30, when the second exception is being taken. -/
theorem C22_trap : ((demo badProgram).run (fun _ => false) 30).cpu.arch.mepc = 8 ∧
    ((((demo badProgram).run (fun _ => false) 29).resetEdge false).run (fun _ => false) 5).cpu.arch.mepc = 8 ∧
    ((((demo badProgram).run (fun _ => false) 30).resetEdge false).run (fun _ => false) 5).cpu.arch.mepc = 0 ∧
    ((((demo badProgram).run (fun _ => false) 31).resetEdge false).run (fun _ => false) 5).cpu.arch.mepc = 8 := by
  decide +kernel

end Soc

end Sentinel
