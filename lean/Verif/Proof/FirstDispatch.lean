import Verif.Proof.BootRun
/-!
# The cycle of the first dispatch
-/

set_option linter.unusedSimpArgs false

namespace Sentinel
open Ucode Spec

/-- In the fifth cycle after reset the core waits for the first instruction. -/
theorem boot_five {s : State} (h : ∃ u mem rd, s = State.resetRegs u mem rd) (inp : Nat → Input) :
    (s.run inp 5).uop = u_00 ∧ (s.run inp 5).nextAdr = 1#8 ∧ (s.run inp 5).rstGuard = false := by
  obtain ⟨u, mem, rd, rfl⟩ := h
  obtain ⟨h1, h2, h3, h4, h5, h6, h7⟩ := boot_first u mem rd (inp 0)
  have r1 : (State.resetRegs u mem rd).run inp 1 = (State.resetRegs u mem rd).step (inp 0) := rfl
  generalize hs1 : (State.resetRegs u mem rd).step (inp 0) = s1 at *
  rw [State.eta s1, h1, h2, h3, h4, h5, h6, h7] at r1
  obtain ⟨o2, d2, p2, s2⟩ := boot_step_02 (a := s1.a) (b := s1.b) (o := s1.aluO) (pc := s1.pc)
    (mem := s1.mem) (rd := s1.rdata) (mie := false) (mpie := s1.csr.mpie) (meie := false)
    (rb := s1.csr.readBuf) (pa := s1.csr.prevAdr) (d := s1.dec) (c := {}) (da := s1.dataAdr)
    (wd := s1.writeData) (inp 1)
  have r2 := (congrArg (fun σ => State.step σ (inp 1)) r1).trans s2
  change (State.resetRegs u mem rd).run inp 2 = _ at r2
  obtain ⟨d3, p3, s3⟩ := boot_step_03 (o := o2) (pc := s1.pc)
    (mem := s1.mem) (rd := s1.rdata) (mie := false) (mpie := s1.csr.mpie) (meie := false)
    (rb := s1.csr.readBuf) (pa := p2) (d := d2) (c := {}) (da := s1.dataAdr)
    (wd := s1.writeData) (inp 2)
  have r3 := (congrArg (fun σ => State.step σ (inp 2)) r2).trans s3
  change (State.resetRegs u mem rd).run inp 3 = _ at r3
  obtain ⟨d4, p4, s4⟩ := boot_step_04 (pc := s1.pc)
    (mem := s1.mem) (rd := s1.rdata) (mie := false) (mpie := s1.csr.mpie) (meie := false)
    (rb := s1.csr.readBuf) (pa := p3) (d := d3) (c := {}) (da := s1.dataAdr)
    (wd := s1.writeData) (inp 3)
  have r4 := (congrArg (fun σ => State.step σ (inp 3)) r3).trans s4
  change (State.resetRegs u mem rd).run inp 4 = _ at r4
  obtain ⟨d5, p5, rd5, o5, s5⟩ := boot_step_05 (pc := s1.pc)
    (mem := memSet s1.mem 0#6 0#32) (rd := s1.rdata) (mie := false) (mpie := s1.csr.mpie) (meie := false)
    (rb := s1.csr.readBuf) (pa := p4) (d := d4) (c := {}) (da := s1.dataAdr)
    (wd := s1.writeData) (inp 4)
  have r5 := (congrArg (fun σ => State.step σ (inp 4)) r4).trans s5
  change (State.resetRegs u mem rd).run inp 5 = _ at r5
  rw [r5]
  exact ⟨rfl, rfl, rfl⟩

theorem wait_step {s : State} {i : Input} (h1 : s.uop = u_00) (h2 : s.nextAdr = 1#8) (h3 : s.rstGuard = false) (hi : i.ack = false) :
    (s.step i).uop = u_00 ∧ (s.step i).nextAdr = 1#8 ∧ (s.step i).rstGuard = false := by
  simp [State.step, State.romAdr, State.test, testOut, rawTest, seqAdr, h1, h2, h3, u_00, hi, rom_00]

theorem wait_ack {s : State} {i : Input} (h1 : s.uop = u_00) (h2 : s.nextAdr = 1#8) (h3 : s.rstGuard = false) (hi : i.ack = true) :
    (s.step i).uop = rom 1#8 := by
  simp [State.step, State.romAdr, State.test, testOut, rawTest, seqAdr, h1, h2, h3, u_00, hi, rom_01]

/-- The first instruction is dispatched in the cycle after the first request has been answered. -/
theorem dispatch_after_ack {s : State} (h : AfterReset s) {inp : Nat → Input} {n : Nat} (hn : ∀ j < n, (inp (5 + j)).ack = false)
    (ha : (inp (5 + n)).ack = true) : s.Dispatching inp (6 + n) := by
  have hs : ∃ u mem rd, s = State.resetRegs u mem rd := by
    rcases h with h | ⟨σ, en, i, -, h⟩ <;> exact ⟨_, _, _, h⟩
  have key : ∀ j ≤ n, (s.run inp (5 + j)).uop = u_00 ∧ (s.run inp (5 + j)).nextAdr = 1#8 ∧ (s.run inp (5 + j)).rstGuard = false := by
    intro j hj
    induction j with
    | zero => exact boot_five hs inp
    | succ j ih =>
      obtain ⟨i1, i2, i3⟩ := ih (by omega)
      exact wait_step i1 i2 i3 (hn j (by omega))
  obtain ⟨k1, k2, k3⟩ := key n (Nat.le_refl _)
  refine ⟨by omega, ?_⟩
  rw [show 6 + n = 5 + n + 1 by omega]
  exact wait_ack k1 k2 k3 ha

end Sentinel
