import Verif.Props.Trace
/-!
# C38: the core with the memory of the example SoC
-/

set_option linter.unusedSimpArgs false

namespace Sentinel.Soc
open Ucode Spec

variable {k : Nat} {s : Soc k}

/-- **C38.** For every memory contents and every interrupt waveform: what the core does on the bus is
a behaviour of the instruction-set machine in which every read returns what the memory holds, that
is, the initial contents changed by the earlier writes; at each dispatch the memory is in the state
the events before it lead to; and instructions are executed for ever. -/
theorem C38_trace (h : s.AfterReset) (irq : Nat → Bool) (n : Nat) :
    Behaves (cycle .asBuilt) (fetch (s.run irq 5).cpu.arch) (s.cpu.events (s.inputs irq) 1 n) ∧
    MemTrace s.ram.mem (s.cpu.events (s.inputs irq) 1 n) ∧
    (∀ t w, s.cpu.Dispatches (s.inputs irq) t w →
      (s.run irq t).ram.mem = s.ram.mem.afterAll (s.cpu.events (s.inputs irq) 1 (t - 1))) ∧
    ∃ t w m, n ≤ t ∧ s.cpu.Executes (s.inputs irq) t w m := by
  refine ⟨?_, (inv h n).1, fun t w hd => dispatch_ram h hd, ?_⟩
  · rw [run_cpu]; exact (C01_trace h.cpu (registered h) n).2.2.2.2
  · exact (C27_progress h.cpu (registered h) (fair s irq)).1 n

/-- The first cycle of an execution of a system: cycle 5 holds the state the machine starts in. -/
theorem start_mem (h : s.AfterReset) (irq : Nat → Bool) (t : Nat) (ht : t ≤ 5) :
    (s.run irq t).ram.mem = s.ram.mem := by
  have hs : ∃ u mem rd, s.cpu = State.resetRegs u mem rd := by
    rcases h.cpu with h | ⟨σ, en, i, -, h⟩ <;> exact ⟨_, _, _, h⟩
  induction t with
  | zero => rfl
  | succ t ih =>
    have hc := (boot_run hs (s.inputs irq)).1 t (by omega)
    rw [← run_cpu] at hc
    rw [← ih (by omega)]
    exact ram_mem_idle _ _ hc

/-- **C38.** With a constant interrupt line: there is an infinite sequence of dispatches, one after
the other, and the architectural state, the word executed and the whole memory at the `n`-th one are
those of the flat-memory instruction-set machine (`Spec.flat`) after `n` instructions, started in the
state of cycle 5, in which the program counter is 0. -/
theorem C38_flat (h : s.AfterReset) (b : Bool) :
    (s.run (fun _ => b) 5).cpu.arch.pc = 0 ∧ (s.run (fun _ => b) 5).ram.mem = s.ram.mem ∧
    ∃ T : Nat → Nat, ∀ n, ∃ w,
      T n < T (n + 1) ∧ s.cpu.Executes (s.inputs fun _ => b) (T n) w (T (n + 1) - T n) ∧
      flat .asBuilt b s.ram.mem (s.run (fun _ => b) 5).cpu.arch n =
        (((s.run (fun _ => b) (T n)).cpu.arch, w), (s.run (fun _ => b) (T n)).ram.mem) := by
  refine ⟨?_, start_mem h _ 5 (by omega), ?_⟩
  · rw [run_cpu]; exact (C01_trace h.cpu (registered h) 0).1
  · rw [run_cpu]; exact seq h b

/-- A program for which the flat-memory machine (and so the core) ends with 42 at byte address 96:
it stores 42, loads it back, adds it to itself and stores that at 100. -/
def sumProgram : List Word :=
  [0x02A00093#32,  -- addi x1, x0, 42
   0x06102023#32,  -- sw x1, 96(x0)
   0x06002103#32,  -- lw x2, 96(x0)
   0x00110133#32,  -- add x2, x2, x1
   0x06202223#32]  -- sw x2, 100(x0)

example : (demo sumProgram).AfterReset ∧
    (flat .asBuilt false (demo sumProgram).ram.mem ((demo sumProgram).run (fun _ => false) 5).cpu.arch
      5).2 24 = 42 ∧
    (flat .asBuilt false (demo sumProgram).ram.mem ((demo sumProgram).run (fun _ => false) 5).cpu.arch
      5).2 25 = 84 :=
  ⟨demo_reset _, by decide +kernel, by decide +kernel⟩

end Sentinel.Soc
