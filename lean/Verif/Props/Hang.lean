import Verif.Proof.Hang
import Verif.Props.Button
/-!
# C94, for every program: the reset button while the core hangs
-/

set_option linter.unusedSimpArgs false

namespace Sentinel
open Ucode Spec

/-- **C89** (any bus): the core alone, with any bus that registers its acknowledgements, also one that does not answer any more: after a reset in any cycle the registers are
those from before the run, or those at the last dispatch, or what the instruction dispatched last makes of them, whatever the bus would still
answer to it; or that is a shift, and all but its destination register are as at the dispatch. -/
theorem C89_any {s : State} {inp : Nat → Input} (h : AfterReset s) (hr : s.RegisteredAck inp) (t : Nat) :
    ∀ s', (s.run inp t).tick true true (inp t) = s' → AfterReset s' ∧
      (((∀ u ≤ t + 1, ¬ s.Dispatching inp u) ∧ ∀ q, s'.arch.reg q = s.arch.reg q) ∨
      ∃ v w, v ≤ t + 1 ∧ s.Dispatches inp v w ∧ (∀ u, v < u → u ≤ t + 1 → ¬ s.Dispatching inp u) ∧
        ((∀ q, s'.arch.reg q = (s.run inp v).arch.reg q) ∨
        (∀ d, ∃ l x, (∀ r y, Event.bus r y ∈ l → y = d) ∧
          (cycle .asBuilt ((s.run inp v).arch, w)).Path (s.events inp v (t + 2 - v) ++ l) x ∧ ∀ q, s'.arch.reg q = x.1.reg q) ∨
        ∃ ins rd, decode w = some ins ∧ isShift ins = true ∧ destReg ins = some rd ∧
          ∀ q, q ≠ rd → s'.arch.reg q = (s.run inp v).arch.reg q)) := by
  rintro s' rfl
  refine ⟨.inr ⟨_, true, _, reach_run_of h inp t, rfl⟩, ?_⟩
  have e1 : ∀ q, ((s.run inp t).tick true true (inp t)).arch.reg q = (s.run inp (t + 1)).arch.reg q := fun _ => rfl
  simp only [e1]
  rcases last_dispatch_any h hr (t + 1) with hb | ⟨v, w, hv, hd, hno⟩
  · refine .inl ⟨hb, fun q => ?_⟩
    unfold Arch.reg
    split
    · rfl
    · next hq => exact (gp_boot h inp (t + 1) hb).1 q hq
  · refine .inr ⟨v, w, hv, hd, hno, ?_⟩
    obtain ⟨n, hn⟩ := Nat.exists_eq_add_of_le hv
    rw [show t + 2 - v = n + 1 by omega, hn]
    rcases window_any (act := fun (m : Unit) _ => m) (π := id) (m0 := ()) (X := fun _ => ()) (fun _ _ => rfl) (fun _ _ _ _ => rfl) h hr hd (n := n)
      (by rw [← hn]; exact hno) (fun j _ => .inl rfl) rfl with x | x | ⟨ins, rd, x1, x2, x3, x4, -⟩
    · exact .inl x.1
    · refine .inr (.inl fun d => ?_)
      obtain ⟨l, x, x1, x2, x3, -⟩ := x d
      exact ⟨l, x, x2, x1, x3⟩
    · exact .inr (.inr ⟨ins, rd, x1, x2, x3, x4⟩)

namespace Atto
variable {k D : Nat} {s : Atto k} {p : Nat → AttoIn}

/-- The RAM in a cycle after a dispatch is the RAM after the accesses completed before, or after these and the one that is completed in that cycle. -/
theorem ram_after (h : s.AfterReset) {t : Nat} (hd : s.cpu.Dispatching (s.inputs D p) t) (j : Nat) :
    (s.run D p (t + j)).ram.mem = ((s.run D p t).plat.afterAll (s.cpu.events (s.inputs D p) t j)).ram ∨
    (s.cpu.run (s.inputs D p) (t + j)).cyc = true ∧
      (s.run D p (t + j)).ram.mem = ((s.run D p t).plat.afterAll (s.cpu.events (s.inputs D p) t (j + 1))).ram := by
  have ht := hd.1
  have h0 := dispatch_plat h hd
  have hinv := inv (D := D) (p := p) h (t - 1 + j)
  rw [show t - 1 + j + 1 = t + j by omega, events_from_one _ _ ht, Plat.afterAll_append, ← h0] at hinv
  cases ha : (s.run D p (t + j)).ack
  · exact .inl (congrArg Plat.ram (hinv.2.1 ha))
  · obtain ⟨hc, hm, -⟩ := hinv.2.2 ha
    refine .inr ⟨by rw [← run_cpu]; exact hc, ?_⟩
    rw [State.events_snoc, Plat.afterAll_append, plat_obs, ← run_cpu, hc, show (s.inputs D p (t + j)).ack = true from ha]
    exact congrArg Plat.ram hm

/-- **C94** (any program): also if the program asks for an address where nothing is, and the core hangs: if the button is pressed in some cycle, then
registers and RAM are as before that run (nothing had been dispatched); or as at the last dispatch; or they are what the instruction dispatched last
makes of them, whatever the bus would still answer to it (if the core hangs, it then does so when it fetches the next instruction); or the instruction is a
shift, and all but its destination register is as at the dispatch. -/
theorem C94_any (h : s.AfterReset) (t : Nat) :
    ∀ s', (s.run D p t).resetEdge D (p t) = s' →
      ((∀ u ≤ t + 1, ¬ s.cpu.Dispatching (s.inputs D p) u) ∧ (∀ q, s'.cpu.arch.reg q = s.cpu.arch.reg q) ∧ s'.ram.mem = s.ram.mem) ∨
      ∃ v w, v ≤ t + 1 ∧ s.cpu.Dispatches (s.inputs D p) v w ∧ (∀ u, v < u → u ≤ t + 1 → ¬ s.cpu.Dispatching (s.inputs D p) u) ∧
        (((∀ q, s'.cpu.arch.reg q = (s.run D p v).cpu.arch.reg q) ∧ s'.ram.mem = (s.run D p v).ram.mem) ∨
        (∀ d, ∃ l x, (∀ r y, Event.bus r y ∈ l → y = d) ∧
          (cycle .asBuilt ((s.run D p v).cpu.arch, w)).Path (s.cpu.events (s.inputs D p) v (t + 2 - v) ++ l) x ∧
          (∀ q, s'.cpu.arch.reg q = x.1.reg q) ∧
          s'.ram.mem = ((s.run D p v).plat.afterAll (s.cpu.events (s.inputs D p) v (t + 2 - v) ++ l)).ram) ∨
        ∃ ins rd, decode w = some ins ∧ isShift ins = true ∧ destReg ins = some rd ∧
          (∀ q, q ≠ rd → s'.cpu.arch.reg q = (s.run D p v).cpu.arch.reg q) ∧ s'.ram.mem = (s.run D p v).ram.mem) := by
  rintro s' rfl
  have e1 : ∀ q, ((s.run D p t).resetEdge D (p t)).cpu.arch.reg q = (s.run D p (t + 1)).cpu.arch.reg q := fun _ => rfl
  have e2 : ((s.run D p t).resetEdge D (p t)).ram.mem = (s.run D p (t + 1)).ram.mem := rfl
  simp only [e1, e2]
  have hr := registered (D := D) (p := p) h
  rcases last_dispatch_any h.cpu hr (t + 1) with hb | ⟨v, w, hv, hd, hno⟩
  · exact .inl ⟨hb, window_boot h (t + 1) hb⟩
  · refine .inr ⟨v, w, hv, hd, hno, ?_⟩
    obtain ⟨n, hn⟩ := Nat.exists_eq_add_of_le hv
    rw [show t + 2 - v = n + 1 by omega, hn]
    have := window_any (act := Plat.act) (π := Plat.ram) (m0 := (s.run D p v).plat) (X := fun j => (s.run D p (v + j)).ram.mem)
      (fun _ _ => rfl) (fun m r d hw => by simp [Plat.act, Plat.after, hw]) h.cpu hr hd (n := n) (by rw [← hn]; exact hno)
      (fun j _ => by simp only [Plat.foldl_act]; exact ram_after h hd.1 j) rfl
    simp only [Plat.foldl_act, ← run_cpu] at this
    rcases this with x | x | x
    · exact .inl x
    · refine .inr (.inl fun d => ?_)
      obtain ⟨l, x, x1, x2, x3, x4⟩ := x d
      exact ⟨l, x, x2, x1, x3, x4⟩
    · exact .inr (.inr x)

end Atto

namespace AttoCsr
variable {k D : Nat} {s : AttoCsr k} {p : Nat → AttoIn}

/-- The RAM in a cycle after a dispatch is the RAM after the accesses completed before, or after these and the one that is completed in that cycle. -/
theorem ram_after (h : s.AfterReset) {t : Nat} (hd : s.cpu.Dispatching (s.inputs D p) t) (j : Nat) :
    (s.run D p (t + j)).ram.mem = ((s.run D p t).plat.afterAllCsr (s.cpu.events (s.inputs D p) t j)).ram ∨
    (s.cpu.run (s.inputs D p) (t + j)).cyc = true ∧
      (s.run D p (t + j)).ram.mem = ((s.run D p t).plat.afterAllCsr (s.cpu.events (s.inputs D p) t (j + 1))).ram := by
  have ht := hd.1
  have h0 := dispatch_plat h hd
  have hinv := (inv (D := D) (p := p) h (t - 1 + j)).2.plat
  rw [show t - 1 + j + 1 = t + j by omega, events_from_one _ _ ht, Plat.afterAllCsr_append, ← h0] at hinv
  have hb := busInv (D := D) (p := p) h (t + j)
  cases ha : (s.run D p (t + j)).ram.ack
  · left
    have := congrArg Plat.ram hinv
    rw [show (s.run D p (t + j)).ram.mem = (s.run D p (t + j)).plat.ram from rfl, this]
    split
    · rename_i hd
      refine ram_periph _ fun hx => ?_
      rcases hd with hd | hd
      · rw [ha] at hd; cases hd
      · cases hdc : (s.run D p (t + j)).devCyc .periph with
        | false => rw [hb.cycle_zero hdc] at hd; omega
        | true =>
          have := (ack_periph hdc).2.1
          rw [req_target, this] at hx; cases hx
    · rfl
  · rw [if_pos (.inl ha)] at hinv
    cases hdc : (s.run D p (t + j)).devCyc .ram with
    | false => rw [hb.ack_none hdc] at ha; cases ha
    | true =>
      simp only [devCyc, Bool.and_eq_true, decide_eq_true_eq] at hdc
      obtain ⟨hc, hd⟩ := hdc
      have hack : (s.run D p (t + j)).ack = true := by simp [AttoCsr.ack, hd, ha]
      refine .inr ⟨by rw [← run_cpu]; exact hc, ?_⟩
      rw [State.events_snoc, Plat.afterAllCsr_append, plat_obs, ← run_cpu, hc, show (s.inputs D p (t + j)).ack = true from hack]
      exact congrArg Plat.ram hinv

/-- **C94** (any program, CSR bus): as `Atto.C94_any`. -/
theorem C94_any (h : s.AfterReset) (t : Nat) :
    ∀ s', (s.run D p t).resetEdge D (p t) = s' →
      ((∀ u ≤ t + 1, ¬ s.cpu.Dispatching (s.inputs D p) u) ∧ (∀ q, s'.cpu.arch.reg q = s.cpu.arch.reg q) ∧ s'.ram.mem = s.ram.mem) ∨
      ∃ v w, v ≤ t + 1 ∧ s.cpu.Dispatches (s.inputs D p) v w ∧ (∀ u, v < u → u ≤ t + 1 → ¬ s.cpu.Dispatching (s.inputs D p) u) ∧
        (((∀ q, s'.cpu.arch.reg q = (s.run D p v).cpu.arch.reg q) ∧ s'.ram.mem = (s.run D p v).ram.mem) ∨
        (∀ d, ∃ l x, (∀ r y, Event.bus r y ∈ l → y = d) ∧
          (cycle .asBuilt ((s.run D p v).cpu.arch, w)).Path (s.cpu.events (s.inputs D p) v (t + 2 - v) ++ l) x ∧
          (∀ q, s'.cpu.arch.reg q = x.1.reg q) ∧
          s'.ram.mem = ((s.run D p v).plat.afterAllCsr (s.cpu.events (s.inputs D p) v (t + 2 - v) ++ l)).ram) ∨
        ∃ ins rd, decode w = some ins ∧ isShift ins = true ∧ destReg ins = some rd ∧
          (∀ q, q ≠ rd → s'.cpu.arch.reg q = (s.run D p v).cpu.arch.reg q) ∧ s'.ram.mem = (s.run D p v).ram.mem) := by
  rintro s' rfl
  have e1 : ∀ q, ((s.run D p t).resetEdge D (p t)).cpu.arch.reg q = (s.run D p (t + 1)).cpu.arch.reg q := fun _ => rfl
  have e2 : ((s.run D p t).resetEdge D (p t)).ram.mem = (s.run D p (t + 1)).ram.mem := rfl
  simp only [e1, e2]
  have hr := registered (D := D) (p := p) h
  rcases last_dispatch_any h.cpu hr (t + 1) with hb | ⟨v, w, hv, hd, hno⟩
  · exact .inl ⟨hb, window_boot h (t + 1) hb⟩
  · refine .inr ⟨v, w, hv, hd, hno, ?_⟩
    obtain ⟨n, hn⟩ := Nat.exists_eq_add_of_le hv
    rw [show t + 2 - v = n + 1 by omega, hn]
    have := window_any (act := Plat.actCsr) (π := Plat.ram) (m0 := (s.run D p v).plat) (X := fun j => (s.run D p (v + j)).ram.mem)
      (fun _ _ => rfl) (fun m r d hw => by simp [Plat.actCsr, Plat.afterCsr, hw]) h.cpu hr hd (n := n) (by rw [← hn]; exact hno)
      (fun j _ => by simp only [Plat.foldl_actCsr]; exact ram_after h hd.1 j) rfl
    simp only [Plat.foldl_actCsr, ← run_cpu] at this
    rcases this with x | x | x
    · exact .inl x
    · refine .inr (.inl fun d => ?_)
      obtain ⟨l, x, x1, x2, x3, x4⟩ := x d
      exact ⟨l, x, x2, x1, x3, x4⟩
    · exact .inr (.inr x)

end AttoCsr

/-- A program that hangs in a load (`lui x1, 0x8000; lw x2, 0(x1)`): in cycle 40 the load has been dispatched and its request is on the bus, where it is never
answered; `C94_any` applies, and after the press `x1` is as at the dispatch. -/
example : ∀ s, Atto.attoDemo [0x080000B7#32, 0x0000A103#32] = s → s.AfterReset ∧
    (s.run 4 Atto.idlePins 40).cpu.cyc = true ∧ (s.run 4 Atto.idlePins 40).cpu.req = Spec.readReq 0x08000000 4 ∧
    (s.run 4 Atto.idlePins 40).cpu.req.target = none ∧
    ((s.run 4 Atto.idlePins 40).resetEdge 4 {}).cpu.arch.reg 1 = 0x08000000#32 ∧
    ((s.run 4 Atto.idlePins 40).resetEdge 4 {}).cpu.arch.reg 2 = 0 := by
  rintro s rfl
  refine ⟨Atto.attoDemo_reset _, ?_⟩
  decide +kernel

/-- A program that hangs in a fetch (`lui x1, 0x8000; jalr x2, 0(x1)`): the link register has been written. -/
example : ∀ s, AttoCsr.csrDemo [0x080000B7#32, 0x00008167#32] = s → s.AfterReset ∧
    (s.run 4 Atto.idlePins 40).cpu.cyc = true ∧ (s.run 4 Atto.idlePins 40).cpu.req = Spec.readReq 0x08000000 4 ∧
    (s.run 4 Atto.idlePins 40).cpu.req.csrTarget = none ∧
    ((s.run 4 Atto.idlePins 40).resetEdge 4 {}).cpu.arch.reg 2 = 8 := by
  rintro s rfl
  refine ⟨AttoCsr.csrDemo_reset _, ?_⟩
  decide +kernel

end Sentinel
