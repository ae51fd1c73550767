import Verif.Proof.CrashSoc
import Verif.Props.Leak
/-!
# C89: a reset at any time

Reset may be asserted in any cycle.  Registers and memory survive it; what they hold then is what they held between two
instructions, unless the core was in a shift, of which the destination register may then hold an intermediate result.
-/

set_option linter.unusedSimpArgs false

namespace Sentinel

/-- A clock edge with reset asserted.  The domain's reset acts on the registers of the core and on the memory's `ack`
(`attosoc.py` 105-107); memory arrays and the latches of their ports are written as in any cycle (`Soc.step`). -/
def Soc.resetEdge {k : Nat} (s : Soc k) (irq : Bool) : Soc k :=
  { cpu := s.cpu.tick true true (s.input irq), ram := { (s.step irq).ram with ack := false } }

namespace Soc
open Ucode Spec
variable {k : Nat} {s : Soc k}

theorem reach_run {s : State} (h : Sentinel.AfterReset s) (inp : Nat → Input) : ∀ n, Reach (s.run inp n) := by
  intro n
  induction n with
  | zero =>
    rcases h with rfl | ⟨σ, en, i, hσ, rfl⟩
    · exact .powerOn
    · exact .tick _ _ _ hσ
  | succ n ih => exact .tick false true (inp n) ih

theorem resetEdge_regs (s : Soc k) (irq : Bool) (q : Reg) : (s.resetEdge irq).cpu.arch.reg q = (s.step irq).cpu.arch.reg q := rfl

theorem resetEdge_mem (s : Soc k) (irq : Bool) : (s.resetEdge irq).ram.mem = (s.step irq).ram.mem := rfl

/-- **C89.** The system has been reset, is run for `t` cycles with any interrupt waveform, and then reset.  It is then as after any
reset; and its registers and memory are those it had before the last reset (no instruction has been dispatched), or those at a dispatch, or
those at the next dispatch; or the instruction was a shift, and all but its destination register is as at its dispatch. -/
theorem C89_boundary (h : s.AfterReset) (irq : Nat → Bool) (t : Nat) : ((s.run irq t).resetEdge (irq t)).AfterReset ∧
    ∀ s', (s.run irq t).resetEdge (irq t) = s' →
      ((∀ u ≤ t + 1, ¬ s.cpu.Dispatching (s.inputs irq) u) ∧ (∀ q, s'.cpu.arch.reg q = s.cpu.arch.reg q) ∧ s'.ram.mem = s.ram.mem) ∨
      ∃ v w m, v ≤ t + 1 ∧ t + 1 ≤ v + m ∧ s.cpu.Executes (s.inputs irq) v w m ∧
        (((∀ q, s'.cpu.arch.reg q = (s.run irq v).cpu.arch.reg q) ∧ s'.ram.mem = (s.run irq v).ram.mem) ∨
        ((∀ q, s'.cpu.arch.reg q = (s.run irq (v + m)).cpu.arch.reg q) ∧ s'.ram.mem = (s.run irq (v + m)).ram.mem) ∨
        ∃ ins rd, decode w = some ins ∧ isShift ins = true ∧ destReg ins = some rd ∧
          (∀ q, q ≠ rd → s'.cpu.arch.reg q = (s.run irq v).cpu.arch.reg q) ∧ s'.ram.mem = (s.run irq v).ram.mem) := by
  refine ⟨⟨.inr ⟨_, true, _, ?_, rfl⟩, rfl⟩, ?_⟩
  · rw [run_cpu]; exact reach_run h.cpu _ t
  rintro s' rfl
  have e1 : ∀ q, ((s.run irq t).resetEdge (irq t)).cpu.arch.reg q = (s.run irq (t + 1)).cpu.arch.reg q := fun _ => rfl
  have e2 : ((s.run irq t).resetEdge (irq t)).ram.mem = (s.run irq (t + 1)).ram.mem := rfl
  simp only [e1, e2]
  rcases last_dispatch (irq := irq) h (t + 1) with hb | ⟨v, w, m, h1, h2, he⟩
  · exact .inl ⟨hb, window_boot h (t + 1) hb⟩
  · right
    refine ⟨v, w, m, h1, h2, he, ?_⟩
    obtain ⟨j, hj⟩ := Nat.exists_eq_add_of_le h1
    have := window h he (j := j) (by omega)
    rw [← hj] at this
    exact this

/-- The state the flat-memory machine starts in. -/
theorem boot_arch (h : s.AfterReset) (irq : Nat → Bool) : ∀ a, (s.run irq 5).cpu.arch = a →
    a.pc = 0 ∧ a.mie = false ∧ a.meie = false ∧ a.mcause = 0 ∧ ∀ r, a.reg r = s.cpu.arch.reg r := by
  have hs : ∃ u mem rd, s.cpu = State.resetRegs u mem rd := by
    rcases h.cpu with h | ⟨σ, en, i, -, h⟩ <;> exact ⟨_, _, _, h⟩
  obtain ⟨b1, b2, b3, b4, b5, b6⟩ := boot_run hs (s.inputs irq)
  rintro a rfl
  rw [run_cpu, b5]
  refine ⟨rfl, rfl, rfl, rfl, fun r => ?_⟩
  unfold Arch.reg
  split
  · rfl
  · next hr =>
    show (if r = 0 then 0 else (s.cpu.run (s.inputs irq) 1).mem (gpRamAdr r)) = _
    rw [if_neg hr]; exact b6 r hr

/-- **C89.** With a constant interrupt line: in whichever cycle the system is reset, its memory and registers are then those of the
flat-memory machine after some number of instructions, but for the destination register of a shift. -/
theorem C89_flat (h : s.AfterReset) (b : Bool) (t : Nat) : ∃ n,
    Stopped b s.ram.mem (s.run (fun _ => b) 5).cpu.arch n ((s.run (fun _ => b) t).resetEdge b).ram.mem
      ((s.run (fun _ => b) t).resetEdge b).cpu.arch.reg := by
  have e5 : (s.run (fun _ => b) 5).cpu.arch = (s.cpu.run (s.inputs fun _ => b) 5).arch := by rw [run_cpu]
  obtain ⟨-, hc⟩ := C89_boundary h (fun _ => b) t
  rcases hc _ rfl with ⟨hb, h1, h2⟩ | ⟨v, w, m, hv, hv', he, hc⟩
  · refine ⟨0, ?_, .inl fun r => ?_⟩
    · rw [h2]
      show s.ram.mem = s.ram.mem.after (fetchReq (s.run (fun _ => b) 5).cpu.arch)
      exact (after_read _ _ rfl).symm
    · rw [h1]
      exact ((boot_arch h (fun _ => b) _ rfl).2.2.2.2 r).symm
  · obtain ⟨w1, hd1, a1⟩ := at_nth h b v he.1.1
    obtain ⟨m', w2, he2, a2, -⟩ := AtNth.succ h ⟨w1, hd1, a1⟩
    rw [← e5] at a1
    have em : m' = m := by
      rcases Nat.lt_trichotomy m' m with h | h | h
      · exact absurd he2.2.2.1 (he.2.2.2 m' he2.2.1 h)
      · exact h
      · exact absurd he.2.2.1 (he2.2.2.2 m he.2.1 h)
    subst em
    obtain ⟨w3, hd3, a3⟩ := a2
    rw [← e5] at a3
    rcases hc with ⟨c1, c2⟩ | ⟨c1, c2⟩ | ⟨ins, rd, i1, i2, i3, c1, c2⟩
    · exact ⟨_, by rw [a1]; exact c2, .inl (by rw [a1]; exact c1)⟩
    · exact ⟨_, by rw [a3]; exact c2, .inl (by rw [a3]; exact c1)⟩
    · refine ⟨_, by rw [a1]; exact c2, .inr ⟨ins, rd, ?_, i2, i3, by rw [a1]; exact c1⟩⟩
      rw [a1]
      show decode w1 = _
      rw [hd1.unique he.1]; exact i1

/-- Systems that come about from `s` by running it for any number of cycles with a constant interrupt line, resetting it, and so
on. -/
inductive ResetHistory (s : Soc k) : Soc k → Prop
  | refl : ResetHistory s s
  | reset {s' : Soc k} (b : Bool) (t : Nat) : ResetHistory s s' → ResetHistory s ((s'.run (fun _ => b) t).resetEdge b)

/-- **C89.** After any number of resets, at whatever times: the system is as after any reset, and its memory and registers are those
left by as many runs of the flat-memory machine, each from address 0 on what the one before it left and each stopped after some number of
instructions, but for shifts.  (A reset that is held for several cycles counts as so many resets.) -/
theorem C89_history (h : s.AfterReset) {s' : Soc k} (hh : ResetHistory s s') :
    s'.AfterReset ∧ Restarted s.ram.mem s.cpu.arch.reg s'.ram.mem s'.cpu.arch.reg := by
  induction hh with
  | refl => exact ⟨h, .refl⟩
  | @reset s' b t _ ih =>
    obtain ⟨h', ih⟩ := ih
    obtain ⟨n, hn⟩ := C89_flat h' b t
    obtain ⟨b1, b2, b3, b4, b5⟩ := boot_arch h' (fun _ => b) _ rfl
    exact ⟨(C89_boundary h' (fun _ => b) t).1, .run b _ n ih b1 b2 b3 b4 b5 hn⟩

/-! ## Shifts are not atomic -/

/-- A shift by four, and an endless loop. -/
def tearProgram : List Word :=
  [0x00100093#32,  -- addi x1, x0, 1
   0x00409093#32,  -- slli x1, x1, 4
   0x0000006F#32]  -- jal x0, 0

/-- The flat-memory machine in the endless loop. -/
structure TearInv (x : (Arch × Word) × Mem 5) : Prop where
  pc : x.1.1.pc = 8
  word : x.1.2 = 0x0000006F#32
  reg : x.1.1.reg 1 = 16
  mie : x.1.1.mie = false
  code : x.2 2 = 0x0000006F#32

theorem tear_step {x : (Arch × Word) × Mem 5} (h : TearInv x) : TearInv ((cycle .asBuilt x.1).onMem false x.2) := by
  obtain ⟨⟨a, w⟩, M⟩ := x
  obtain ⟨h1, h2, h3, h4, h5⟩ := h
  simp only at h1 h2 h3 h4 h5
  subst h2
  have hd : decode 0x0000006F#32 = some (.jal 0 0) := by decide +kernel
  have e : (cycle .asBuilt (a, 0x0000006F#32)).onMem false M = (({ a with pc := 8 }, M 2), M) := by
    simp [cycle, exec, Tree.bind, Tree.onMem, hd, execInstr, fetch, fetchReq, Mem.after, Arch.setReg, h1, wordAdr, targetOk, show aligned (8#32) 4 = true by decide]
  rw [e]
  exact ⟨rfl, h5, h3, h4, h5⟩

theorem tear_flat (n : Nat) : TearInv (flat .asBuilt false (romOf tearProgram) a0 (n + 2)) := by
  induction n with
  | zero => exact ⟨by decide +kernel, by decide +kernel, by decide +kernel, by decide +kernel, by decide +kernel⟩
  | succ n ih => exact tear_step ih

/-- **C89** (shifts are not atomic): when the system is reset in the middle of `slli x1, x1, 4`, register x1 may hold a value that it
does not hold before or after any instruction of the program. -/
theorem C89_shift : (((demo tearProgram).run (fun _ => false) 18).resetEdge false).cpu.arch.reg 1 = 4 ∧
    ∀ n, (flat .asBuilt false (romOf tearProgram) ((demo tearProgram).run (fun _ => false) 5).cpu.arch n).1.1.reg 1 ≠ 4 := by
  refine ⟨by decide +kernel, fun n => ?_⟩
  rw [run_cpu, show (demo tearProgram).cpu.run ((demo tearProgram).inputs fun _ => false) 5 = powerOn.run (demoIn tearProgram false) 5 from rfl,
    demo_boot]
  rcases n with _ | _ | n
  · decide +kernel
  · decide +kernel
  · rw [(tear_flat n).reg]; decide

/-- A program is reset while its store waits for the answer, and again in the next run before that store: memory holds what was stored in the
first run. -/
example : ResetHistory (demo sumProgram) (((((demo sumProgram).run (fun _ => false) 16).resetEdge false).run (fun _ => false) 12).resetEdge false) ∧
    ((demo sumProgram).run (fun _ => false) 16).cpu.we = true ∧ ((demo sumProgram).run (fun _ => false) 16).ram.ack = false ∧
    ((demo sumProgram).run (fun _ => false) 16).ram.mem 24 ≠ 42 ∧
    (((((demo sumProgram).run (fun _ => false) 16).resetEdge false).run (fun _ => false) 12).resetEdge false).ram.mem 24 = 42 := by
  refine ⟨.reset false 12 (.reset false 16 .refl), ?_⟩
  decide +kernel

end Soc

end Sentinel
