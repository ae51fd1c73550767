import Verif.Proof.Primes
import Verif.Proof.AttoCsrProg
/-!
# C75: the prime number firmware on the example SoC with the CSR bus; programs for C72-C74
-/

namespace Sentinel.AttoCsr
open Spec Primes

variable {k D : Nat} {s : AttoCsr k} {p : Nat → AttoIn}

theorem primes_start (h : s.AfterReset) : PrimesInv s.ram.mem (s.run D p 5).cpu.arch s.plat [] := by
  obtain ⟨h1, h2, -⟩ := C01_trace h.cpu (registered (D := D) (p := p) h) 0
  rw [← run_cpu] at h1 h2
  exact ⟨rfl, h2, 0, by decide, h1, rfl⟩

/-- **C75** (LEDs): with the prime number firmware in RAM and the peripherals on the CSR bus, whatever happens on the pins, there is a count of
primes shown that starts at 0, grows by at most one per cycle, and grows for ever, and the LEDs show the last of them: in each cycle the LEDs
are off if the count is 0 and otherwise show the prime of that number in the sequence 3, 5, 7, ..., 251, 2, 3, ... -/
theorem C75_leds (h : s.AfterReset) (hM : HoldsProgram s.ram.mem primesProgram) :
    ∃ c : Nat → Nat, c 0 = 0 ∧ (∀ t, c (t + 1) = c t ∨ c (t + 1) = c t + 1) ∧ (∀ n, ∃ t, n ≤ c t) ∧
      ∀ t, (s.run D p t).leds.leds = if c t = 0 then 0 else BitVec.ofNat 8 (shown (c t - 1)) := by
  have hI := primes_ok hM
  obtain ⟨-, hG⟩ := prog_safe (D := D) (p := p) hI h (primes_start h)
  refine ⟨fun t => (outputs s D p t).length, ?_, fun t => ?_, prog_live hI h (primes_start h), fun t => ?_⟩
  · show (outputs s D p 0).length = 0
    unfold outputs
    rw [show s.run D p 0 = s from rfl, pend_zero h]; rfl
  · obtain ⟨l, hl, e⟩ := outputs_succ (s := s) (D := D) (p := p) h t
    simp only [e, List.length_append]; omega
  · rw [leds_eq h, hG t]
    show _ = if (outputs s D p t).length = 0 then _ else BitVec.ofNat 8 (shown ((outputs s D p t).length - 1))
    generalize (outputs s D p t).length = n
    cases n with
    | zero => rfl
    | succ n => simp [List.range_succ]

/-- **C75** (accesses): the firmware never accesses an address where nothing is, and instructions are executed for ever, each in at most 69 cycles
if the next one is in RAM (C72). -/
theorem C75_safe (h : s.AfterReset) (hM : HoldsProgram s.ram.mem primesProgram) :
    (∀ t, (s.run D p t).cpu.cyc = true → (s.run D p t).cpu.req.csrTarget.isSome = true) ∧
      ∀ n, ∃ t w m, n ≤ t ∧ s.cpu.Executes (s.inputs D p) t w m :=
  C72_safe h (prog_safe (D := D) (p := p) (primes_ok hM) h (primes_start h)).1

/-- The hypotheses of `C75_leds` and `C75_safe` hold of 32 words of RAM. -/
example : (csrDemo primesProgram).AfterReset ∧ HoldsProgram (csrDemo primesProgram).ram.mem primesProgram := by
  refine ⟨csrDemo_reset _, fun i hi => ?_⟩
  have : ∀ i : _root_.Fin 28, (csrDemo primesProgram).ram.mem (BitVec.ofNat 5 i) = primesProgram[i.val]'i.isLt := by
    decide +kernel
  exact this ⟨i, hi⟩

/-! ### Programs for C72-C74 -/

/-- Send 0x55, read the interrupt register, loop. -/
def serialProgram : List Word := [0x030000B7#32, 0x05500113#32, 0x00208023#32, 0x0040A183#32, 0x0000006F#32]

/-- The hypotheses of `C73_send` hold of the store, completed in cycle 25; the transmitter starts in cycle 21. -/
example : Completes (csrDemo serialProgram) 4 idlePins 25 ∧
    ((csrDemo serialProgram).run 4 idlePins 25).cpu.req.we = true ∧
    ((csrDemo serialProgram).run 4 idlePins 25).cpu.req.sel.getLsbD 0 = true ∧
    ((csrDemo serialProgram).run 4 idlePins 25).cpu.req.byteAdr = 0x03000000 ∧
    ((csrDemo serialProgram).run 4 idlePins 21).ser.tx.ack = true ∧
    ((csrDemo serialProgram).run 4 idlePins 22).ser.tx.ack = false := by
  refine ⟨⟨?_, ?_, ?_⟩, ?_, ?_, ?_, ?_, ?_⟩ <;> decide +kernel

/-- Read the GPIO pins, then the timer. -/
def gpioProgram : List Word := [0x020000B7#32, 0x0040A103#32, 0x028000B7#32, 0x0000A183#32]

/-- Pins with a pattern. -/
def gpioPins : Nat → AttoIn := fun n => { gpioI := BitVec.ofNat 8 (0xA0 + n) }

/-- The hypotheses of `C73_read` hold of the load, completed in cycle 20, and the strobe is in cycle 15: it returns the pins of cycle 15. -/
example : Completes (csrDemo gpioProgram) 4 gpioPins 20 ∧
    ((csrDemo gpioProgram).run 4 gpioPins 20).cpu.req.we = false ∧
    ((csrDemo gpioProgram).run 4 gpioPins 20).cpu.req.sel.getLsbD 0 = true ∧
    ((csrDemo gpioProgram).run 4 gpioPins 20).cpu.req.byteAdr = 0x02000004 ∧
    ((csrDemo gpioProgram).run 4 gpioPins 15).reads = some .inout ∧
    ((csrDemo gpioProgram).run 4 gpioPins 20).datR = 0xAF := by
  refine ⟨⟨?_, ?_, ?_⟩, ?_, ?_, ?_, ?_, ?_⟩ <;> decide +kernel

/-- The hypotheses of `C72_cycles` hold of that load: with its access to the peripherals and the fetch it takes 13 cycles. -/
example : ∃ w, (csrDemo gpioProgram).cpu.Executes ((csrDemo gpioProgram).inputs 4 gpioPins) 11 w 13 :=
  ⟨0x0040A103#32, runsCheck_sound (r := ⟨1, 15, false, 0⟩) (by decide +kernel)⟩

open Atto (irqInv irqInv_ok)

/-- `irqProgram` is safe, so `C72_safe` applies. -/
theorem irqProgram_safe (p : Nat → AttoIn) :
    Safe (csrDemo Atto.irqProgram).plat ((csrDemo Atto.irqProgram).run 4 p 5).cpu.arch := by
  have e : ((csrDemo Atto.irqProgram).run 4 p 5).cpu.arch = a0 := by
    rw [run_cpu, show (csrDemo Atto.irqProgram).cpu = powerOn from rfl,
      (boot_run (s := powerOn) ⟨_, _, _, rfl⟩ _).2.2.2.2.1]
    rfl
  refine (prog_safe irqInv_ok (csrDemo_reset _) ?_).1
  rw [e]
  exact ⟨rfl, rfl, .inl rfl⟩

/-- A byte arrives on the serial line. -/
def rxPins : Nat → AttoIn := fun n => { rx := decide (n < 5 ∨ 9 ≤ n) }

/-- The hypotheses of `C74_taken` hold in cycle 46: the serial interrupt is pending since the byte has arrived, and the next dispatch is in cycle
47. -/
example : (csrDemo Atto.irqProgram).cpu.Dispatching ((csrDemo Atto.irqProgram).inputs 4 rxPins) 40 ∧
    ((csrDemo Atto.irqProgram).run 4 rxPins 45).ser.irq = false ∧
    ((csrDemo Atto.irqProgram).run 4 rxPins 46).ser.irq = true ∧
    (csrDemo Atto.irqProgram).cpu.Dispatching ((csrDemo Atto.irqProgram).inputs 4 rxPins) 47 ∧
    ((csrDemo Atto.irqProgram).run 4 rxPins 47).cpu.arch.mie = true ∧
    ((csrDemo Atto.irqProgram).run 4 rxPins 47).cpu.arch.meie = true ∧
    (∀ t, ((csrDemo Atto.irqProgram).run 4 rxPins t).cpu.cyc = true →
      ((csrDemo Atto.irqProgram).run 4 rxPins t).cpu.req.csrTarget.isSome = true) := by
  refine ⟨⟨?_, ?_⟩, ?_, ?_, ⟨?_, ?_⟩, ?_, ?_, ?_⟩
  · decide
  · decide +kernel
  · decide +kernel
  · decide +kernel
  · decide
  · decide +kernel
  · decide +kernel
  · decide +kernel
  · exact (C72_safe (csrDemo_reset _) (irqProgram_safe rxPins)).1

/-- The hypotheses of `C74_mip` hold of a program whose first instruction is `csrr x1, mip`. -/
example : CsrRuns (csrDemo [0x344020F3#32]).cpu ((csrDemo [0x344020F3#32]).inputs 4 idlePins) 7 0x344020F3#32 7 ∧
    decode 0x344020F3#32 = some (.csr .rs 1 (.reg 0) 0x344) ∧ csrKind 0x344 = .impl .mip ∧
    (∀ j < 14, ¬ WritesReg (csrDemo [0x344020F3#32]) 4 idlePins 0x03000000 j ∧ (idlePins j).rx = true) ∧
    ((csrDemo [0x344020F3#32]).run 4 idlePins 14).cpu.arch.reg 1 = 0 := by
  have hr := csrDemo_reset [0x344020F3#32]
  have hx : CsrRuns (csrDemo [0x344020F3#32]).cpu ((csrDemo [0x344020F3#32]).inputs 4 idlePins) 7 0x344020F3#32 7 := by
    refine ⟨⟨hr.cpu, registered hr, runsCheck_sound (r := ⟨0, 15, false, 0⟩) (by decide +kernel)⟩, ?_, ?_⟩
    · rintro ⟨-, h, -⟩; rw [← run_cpu] at h; exact absurd h (by decide +kernel)
    · rintro ⟨-, h, -⟩; rw [← run_cpu] at h; exact absurd h (by decide +kernel)
  have hn : ∀ j < 14, ¬ WritesReg (csrDemo [0x344020F3#32]) 4 idlePins 0x03000000 j ∧ (idlePins j).rx = true := by
    refine fun j hj => ⟨?_, rfl⟩
    rintro ⟨h1, h2, -⟩
    revert h1 h2
    have : ∀ i : _root_.Fin 14, ((csrDemo [0x344020F3#32]).run 4 idlePins i).cpu.cyc = true →
        ¬ ((csrDemo [0x344020F3#32]).run 4 idlePins i).cpu.req.byteAdr = 0x03000000 := by decide +kernel
    exact fun h1 h2 => this ⟨j, hj⟩ h1 h2
  exact ⟨hx, rfl, rfl, hn, C74_mip (t := 7) (m := 7) hr hx (rd := 1) rfl rfl (by decide) fun j hj => hn j (by omega)⟩

end Sentinel.AttoCsr
