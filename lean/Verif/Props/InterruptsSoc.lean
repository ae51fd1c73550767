import Verif.Proof.InterruptsSocRun
import Verif.Props.Portable
/-!
# C107: on the example SoC, a program does not notice that it is interrupted

Whatever happens on the pins.  The handler may use the timer, the serial port and GPIO; the program keeps to RAM and the output registers.
-/

set_option linter.unusedSimpArgs false

namespace Sentinel
open Ucode Spec

variable {k : Nat} {R : BitVec k → Prop} {V : Nat → Prop} {I : Nat → Plat k → Prop} {entry : Word}

namespace Atto
variable {D : Nat} {s : Atto k} {p : Nat → AttoIn} {t0 t n c : Nat}

/-- **C107** (Wishbone peripherals, nothing hangs): every request of the core is answered in its second cycle, and instructions are executed for ever. -/
theorem C107_wb_safe (h : s.AfterReset) (H : SetupSoc .wb s.plat (s.run D p 5).cpu.arch R V I entry) :
    s.cpu.TwoCycleAck (s.inputs D p) ∧ ∀ n, ∃ t w m, n ≤ t ∧ s.cpu.Executes (s.inputs D p) t w m := by
  have := C56_safe h fun l r d hb ht => safe_soc std_wb H l r d hb (kTrace_wb.2 ht)
  exact ⟨this.1, this.2.1⟩

theorem on_wb (h : s.AfterReset) (H : SetupSoc .wb s.plat (s.run D p 5).cpu.arch R V I entry) :
    s.cpu.On (s.inputs D p) .wb s.plat ∧ SetupSoc .wb s.plat (s.cpu.boot (s.inputs D p 0)) R V I entry := by
  refine ⟨⟨h.cpu, registered h, (C107_wb_safe h H).1.fair, fun n => kTrace_wb.2 (inv h n).1⟩, ?_⟩
  rw [run_cpu, boot5 h.cpu] at H
  exact H

theorem plat_wb (h : s.AfterReset) (hd : s.cpu.Dispatching (s.inputs D p) t) : platAt s.cpu (s.inputs D p) .wb s.plat t = (s.run D p t).plat := by
  rw [dispatch_plat h hd, platAt, kAfter_wb]

/-- **C107** (Wishbone peripherals): when `n` instructions of the program have been executed and the handler has returned `c` times (and the core is not in the handler), then the
state is that of the same program after `n` instructions without interrupts, but for mepc, mcause and mstatus.MPIE; so is the instruction that comes next, and so are RAM and
outputs but for those of the handler, which are as they are to be after `c` interrupts. -/
theorem C107_wb (h : s.AfterReset) (H : SetupSoc .wb s.plat (s.run D p 5).cpu.arch R V I entry) (h0 : s.cpu.First (s.inputs D p) t0)
    (hT : s.cpu.Thread (s.inputs D p) t0 t false n c) : ∃ q, quietRun s.plat (s.run D p 5).cpu.arch n = some q ∧
      q.1.1.Same (s.run D p t).cpu.arch ∧ s.cpu.Dispatches (s.inputs D p) t q.1.2 ∧ (∀ i, ¬ R i → (s.run D p t).plat.ram i = q.2.ram i) ∧
      (∀ i, ¬ V i → (s.run D p t).plat.out i = q.2.out i) ∧ I c (s.run D p t).plat := by
  obtain ⟨hO, H'⟩ := on_wb h H
  obtain ⟨q, h1, h2, h3, h4, h5, h6⟩ := soc_transparent std_wb hO H' h0 hT
  rw [plat_wb h h3.1] at h4 h5 h6
  rw [run_cpu, boot5 h.cpu, run_cpu]
  exact ⟨q, h1, h2, h3, h4, h5, h6⟩

/-- **C107** (Wishbone peripherals): every instruction dispatched belongs to the program or to the handler. -/
theorem C107_wb_thread (h : s.AfterReset) (H : SetupSoc .wb s.plat (s.run D p 5).cpu.arch R V I entry) (h0 : s.cpu.First (s.inputs D p) t0)
    (hd : s.cpu.Dispatching (s.inputs D p) t) : ∃ b n c, s.cpu.Thread (s.inputs D p) t0 t b n c := by
  obtain ⟨hO, H'⟩ := on_wb h H
  exact soc_thread std_wb hO H' h0 hd

/-- **C107** (Wishbone peripherals): the handler returns. -/
theorem C107_wb_return (h : s.AfterReset) (H : SetupSoc .wb s.plat (s.run D p 5).cpu.arch R V I entry) (h0 : s.cpu.First (s.inputs D p) t0)
    (hT : s.cpu.Thread (s.inputs D p) t0 t true n c) : ∃ t', t < t' ∧ s.cpu.Thread (s.inputs D p) t0 t' false n (c + 1) := by
  obtain ⟨hO, H'⟩ := on_wb h H
  exact soc_return std_wb hO H' h0 hT

/-- **C107** (Wishbone peripherals): once the interrupt line of the SoC stays low, the program goes on for ever. -/
theorem C107_wb_progress (h : s.AfterReset) (H : SetupSoc .wb s.plat (s.run D p 5).cpu.arch R V I entry) (h0 : s.cpu.First (s.inputs D p) t0) {b : Bool}
    (hT : s.cpu.Thread (s.inputs D p) t0 t b n c) (hq : ∀ u, t ≤ u → (s.inputs D p u).irq = false) (n' : Nat) (hn : n < n') :
    ∃ t' c', t < t' ∧ s.cpu.Thread (s.inputs D p) t0 t' false n' c' := by
  obtain ⟨hO, H'⟩ := on_wb h H
  exact soc_progress std_wb hO H' h0 hT hq n' hn

/-- The first dispatch. -/
theorem first_wb (h : s.AfterReset) : s.cpu.First (s.inputs D p) 7 := ⟨dispatch_seven h, seven_le h.cpu (registered h) (five h)⟩

end Atto

namespace AttoCsr
variable {D : Nat} {s : AttoCsr k} {p : Nat → AttoIn} {t0 t n c : Nat}

/-- **C107** (CSR bus, nothing hangs): every request of the core is for an address where something is, and instructions are executed for ever. -/
theorem C107_csr_safe (h : s.AfterReset) (H : SetupSoc .csr s.plat (s.run D p 5).cpu.arch R V I entry) :
    (∀ t, (s.run D p t).cpu.cyc = true → (s.run D p t).cpu.req.csrTarget.isSome = true) ∧
      ∀ n, ∃ t w m, n ≤ t ∧ s.cpu.Executes (s.inputs D p) t w m :=
  C72_safe h fun l r d hb ht => safe_soc std_csr H l r d hb (kTrace_csr.2 ht)

theorem on_csr (h : s.AfterReset) (H : SetupSoc .csr s.plat (s.run D p 5).cpu.arch R V I entry) :
    s.cpu.On (s.inputs D p) .csr s.plat ∧ SetupSoc .csr s.plat (s.cpu.boot (s.inputs D p 0)) R V I entry := by
  refine ⟨⟨h.cpu, registered h, fair h fun t hc => by rw [dev_some]; exact (C107_csr_safe h H).1 t hc, fun n => kTrace_csr.2 (inv h n).1⟩, ?_⟩
  rw [run_cpu, boot5 h.cpu] at H
  exact H

theorem plat_csr (h : s.AfterReset) (hd : s.cpu.Dispatching (s.inputs D p) t) : platAt s.cpu (s.inputs D p) .csr s.plat t = (s.run D p t).plat := by
  rw [dispatch_plat h hd, platAt, kAfter_csr]

/-- **C107** (CSR bus): as `Atto.C107_wb`. -/
theorem C107_csr (h : s.AfterReset) (H : SetupSoc .csr s.plat (s.run D p 5).cpu.arch R V I entry) (h0 : s.cpu.First (s.inputs D p) t0)
    (hT : s.cpu.Thread (s.inputs D p) t0 t false n c) : ∃ q, quietRun s.plat (s.run D p 5).cpu.arch n = some q ∧
      q.1.1.Same (s.run D p t).cpu.arch ∧ s.cpu.Dispatches (s.inputs D p) t q.1.2 ∧ (∀ i, ¬ R i → (s.run D p t).plat.ram i = q.2.ram i) ∧
      (∀ i, ¬ V i → (s.run D p t).plat.out i = q.2.out i) ∧ I c (s.run D p t).plat := by
  obtain ⟨hO, H'⟩ := on_csr h H
  obtain ⟨q, h1, h2, h3, h4, h5, h6⟩ := soc_transparent std_csr hO H' h0 hT
  rw [plat_csr h h3.1] at h4 h5 h6
  rw [run_cpu, boot5 h.cpu, run_cpu]
  exact ⟨q, h1, h2, h3, h4, h5, h6⟩

/-- **C107** (CSR bus): every instruction dispatched belongs to the program or to the handler. -/
theorem C107_csr_thread (h : s.AfterReset) (H : SetupSoc .csr s.plat (s.run D p 5).cpu.arch R V I entry) (h0 : s.cpu.First (s.inputs D p) t0)
    (hd : s.cpu.Dispatching (s.inputs D p) t) : ∃ b n c, s.cpu.Thread (s.inputs D p) t0 t b n c := by
  obtain ⟨hO, H'⟩ := on_csr h H
  exact soc_thread std_csr hO H' h0 hd

/-- **C107** (CSR bus): the handler returns. -/
theorem C107_csr_return (h : s.AfterReset) (H : SetupSoc .csr s.plat (s.run D p 5).cpu.arch R V I entry) (h0 : s.cpu.First (s.inputs D p) t0)
    (hT : s.cpu.Thread (s.inputs D p) t0 t true n c) : ∃ t', t < t' ∧ s.cpu.Thread (s.inputs D p) t0 t' false n (c + 1) := by
  obtain ⟨hO, H'⟩ := on_csr h H
  exact soc_return std_csr hO H' h0 hT

/-- **C107** (CSR bus): once the interrupt line of the SoC stays low, the program goes on for ever. -/
theorem C107_csr_progress (h : s.AfterReset) (H : SetupSoc .csr s.plat (s.run D p 5).cpu.arch R V I entry) (h0 : s.cpu.First (s.inputs D p) t0) {b : Bool}
    (hT : s.cpu.Thread (s.inputs D p) t0 t b n c) (hq : ∀ u, t ≤ u → (s.inputs D p u).irq = false) (n' : Nat) (hn : n < n') :
    ∃ t' c', t < t' ∧ s.cpu.Thread (s.inputs D p) t0 t' false n' c' := by
  obtain ⟨hO, H'⟩ := on_csr h H
  exact soc_progress std_csr hO H' h0 hT hq n' hn

/-- There is a first dispatch. -/
theorem first_csr (h : s.AfterReset) (H : SetupSoc .csr s.plat (s.run D p 5).cpu.arch R V I entry) : ∃ t0, s.cpu.First (s.inputs D p) t0 := by
  obtain ⟨hO, -⟩ := on_csr h H
  obtain ⟨T, w, h1, -, h3⟩ := dispatch_times hO.reset hO.ack hO.fair
  have hmono : ∀ n, T 0 ≤ T n := by
    intro n
    induction n with
    | zero => exact Nat.le_refl _
    | succ n ih => have := (h3 n).2.1; omega
  refine ⟨T 0, (h1 _).2 ⟨0, rfl⟩, fun t hd => ?_⟩
  obtain ⟨n, rfl⟩ := (h1 t).1 hd
  exact hmono n

end AttoCsr

end Sentinel
