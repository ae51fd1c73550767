import Verif.Proof.SocRun
/-!
# Concrete programs

Used beside the theorems to show that their hypotheses are met: a core just powered on, attached to
a memory that holds a small program, really executes each instruction in question.
-/

set_option linter.unusedSimpArgs false

namespace Sentinel
open Ucode Spec

/-- A memory of 32 words holding a program, followed by `ebreak`. -/
def romOf (p : List Word) : Mem 5 := fun a => p.getD a.toNat 0x00100073#32

/-- The core at power-on with a memory that holds the program `p`. -/
def demo (p : List Word) : Soc 5 := ⟨powerOn, ⟨romOf p, 0, false⟩⟩

theorem demo_reset (p : List Word) : (demo p).AfterReset := ⟨.inl rfl, rfl⟩

/-- The inputs of the core when it runs the program `p` with the interrupt line held at `b`. -/
def demoIn (p : List Word) (b : Bool) : Nat → Input := (demo p).inputs fun _ => b

/-- The state after the reset routine. -/
def a0 : Arch := powerOn.boot { datR := 0, ack := false, irq := false }

/-- What the flat-memory machine says about the `n`-th instruction of program `p`. -/
def demoAt (p : List Word) (b : Bool) (n : Nat) : (Arch × Word) × Mem 5 :=
  flat .asBuilt b (romOf p) a0 n

theorem demo_boot (p : List Word) (b : Bool) : (powerOn.run (demoIn p b) 5).arch = a0 := by
  rw [(boot_run (s := powerOn) ⟨_, _, _, rfl⟩ _).2.2.2.2.1]
  have e : (demoIn p b) 0 = ⟨0, false, b⟩ := rfl
  rw [e]
  cases b <;> rfl

/-- The core really executes the program. -/
theorem demo_seq (p : List Word) (b : Bool) : ∃ T : Nat → Nat, ∀ n,
    OneInstr powerOn (demoIn p b) (T n) (demoAt p b n).1.2 (T (n + 1) - T n) ∧ T n < T (n + 1) ∧
      (powerOn.run (demoIn p b) (T n)).arch = (demoAt p b n).1.1 := by
  obtain ⟨T, hT⟩ := Soc.seq (demo_reset p) b
  refine ⟨T, fun n => ?_⟩
  obtain ⟨w, h1, h2, h3⟩ := hT n
  have e : (powerOn.run ((demo p).inputs fun _ => b) 5).arch = a0 := demo_boot p b
  have h3 : flat .asBuilt b (romOf p) (powerOn.run ((demo p).inputs fun _ => b) 5).arch n = _ := h3
  rw [e] at h3
  have hd : demoAt p b n = _ := h3
  refine ⟨⟨.inl rfl, Soc.registered (demo_reset p), ?_⟩, h1, ?_⟩
  · rw [hd]; exact h2
  · rw [hd, Soc.run_cpu]; rfl

/-- The `n`-th instruction of the program is `w`, and is executed in a state that satisfies `P`. -/
theorem demo_case (p : List Word) (b : Bool) (n : Nat) {w : Word} {P : Arch → Prop}
    (hw : (demoAt p b n).1.2 = w) (hP : P (demoAt p b n).1.1) :
    ∃ s inp t m, OneInstr s inp t w m ∧ (∀ t, (inp t).irq = b) ∧ P (s.run inp t).arch := by
  obtain ⟨T, hT⟩ := demo_seq p b
  obtain ⟨h1, h2, h3⟩ := hT n
  exact ⟨powerOn, demoIn p b, T n, _, hw ▸ h1, fun _ => rfl, h3 ▸ hP⟩

/-- The same with the interrupt line low: no interrupt is taken. -/
theorem demo_quiet (p : List Word) (n : Nat) {w : Word} {P : Arch → Prop}
    (hw : (demoAt p false n).1.2 = w) (hP : P (demoAt p false n).1.1) :
    ∃ s inp t m, OneInstr s inp t w m ∧ ¬ s.IrqTaken inp t ∧ P (s.run inp t).arch := by
  obtain ⟨s, inp, t, m, h1, h2, h3⟩ := demo_case p false n hw hP
  exact ⟨s, inp, t, m, h1, fun h => absurd h.1 (by rw [h2]; decide), h3⟩

/-- Two instructions in a row, with the interrupt line low. -/
theorem demo_pair (p : List Word) (n : Nat) {w w' : Word} {P : Arch → Prop}
    (hw : (demoAt p false n).1.2 = w) (hw' : (demoAt p false (n + 1)).1.2 = w')
    (hP : P (demoAt p false n).1.1) :
    ∃ s inp t m m', OneInstr s inp t w m ∧ OneInstr s inp (t + m) w' m' ∧
      (∀ t, ¬ s.IrqTaken inp t) ∧ P (s.run inp t).arch := by
  obtain ⟨T, hT⟩ := demo_seq p false
  obtain ⟨h1, h2, h3⟩ := hT n
  obtain ⟨h1', -, -⟩ := hT (n + 1)
  refine ⟨powerOn, demoIn p false, T n, T (n + 1) - T n, T (n + 1 + 1) - T (n + 1), hw ▸ h1, ?_,
    fun t h => ?_, h3 ▸ hP⟩
  · rw [show T n + (T (n + 1) - T n) = T (n + 1) by omega]; exact hw' ▸ h1'
  · have : (demoIn p false t).irq = false := rfl
    rw [h.1] at this; cases this

end Sentinel
