import Verif.Proof.Critical
import Verif.Proof.Frame
import Verif.Proof.FirstDispatch
import Verif.Proof.BootRun
import Verif.Spec.Causes
/-!
# From one instruction to the next, and the next

Induction over the dispatches, and what an instruction does to mcause and mepc.
-/

set_option linter.unusedSimpArgs false

namespace Sentinel
open Ucode Spec

variable {s : State} {inp : Nat → Input} {t m : Nat} {w : Word}

/-- Every dispatch after another one is at the end of an instruction. -/
theorem prev_dispatch (h : AfterReset s) (hr : s.RegisteredAck inp) {v : Nat} (hd : s.Dispatching inp t) (hlt : t < v) (hdv : s.Dispatching inp v) :
    ∃ d x, t ≤ d ∧ d < v ∧ OneInstr s inp d x (v - d) := by
  obtain ⟨d, hd1, hd2, hd3, hno⟩ : ∃ d, t ≤ d ∧ d < v ∧ s.Dispatching inp d ∧ ∀ u, d < u → u < v → ¬ s.Dispatching inp u := by
    classical
    have hP : ∃ k, k ≤ v - 1 - t ∧ s.Dispatching inp (v - 1 - k) := ⟨v - 1 - t, Nat.le_refl _, by
      rw [show v - 1 - (v - 1 - t) = t by omega]; exact hd⟩
    have h1 := (Nat.find_spec hP).1
    refine ⟨v - 1 - Nat.find hP, by omega, by omega, (Nat.find_spec hP).2, fun u h2 h3 h4 => ?_⟩
    refine Nat.find_min hP (m := v - 1 - u) (by omega) ⟨by omega, ?_⟩
    rw [show v - 1 - (v - 1 - u) = u by omega]; exact h4
  obtain ⟨x, -, -, hx⟩ := at_dispatch h hr hd3
  exact ⟨d, x, hd1, hd2, h, hr, hx, by omega, by rw [show d + (v - d) = v by omega]; exact hdv, fun k h1 h2 => hno _ (by omega) (by omega)⟩

/-- Induction over dispatches: what every instruction in an interval preserves is preserved over the interval. -/
theorem along (h : AfterReset s) (hr : s.RegisteredAck inp) (hd : s.Dispatching inp t) {P : Arch → Prop} (h0 : P (s.run inp t).arch) {u : Nat}
    (hs : ∀ d x m, t ≤ d → d < u → OneInstr s inp d x m → P (s.run inp d).arch → P (s.run inp (d + m)).arch) :
    ∀ v, t ≤ v → v ≤ u → s.Dispatching inp v → P (s.run inp v).arch := by
  intro v
  induction v using Nat.strong_induction_on with
  | _ v ih =>
    intro hv hu hdv
    rcases Nat.eq_or_lt_of_le hv with rfl | hlt
    · exact h0
    · obtain ⟨d, x, h1, h2, ho⟩ := prev_dispatch h hr hd hlt hdv
      have := hs d x _ h1 (by omega) ho (ih d h2 h1 (by omega) ho.runs.1.1)
      rwa [show d + (v - d) = v by omega] at this

theorem wait_arch {s : State} {i : Input} (h1 : s.uop = u_00) : (s.step i).arch = s.arch := by
  simp [State.arch, State.step, State.ram, ramCtl, RamCtl.memNext, CsrState.step, pcNext, CauseLatch.step, h1, u_00]

/-- Up to the first dispatch the architectural state is the one reached by the reset routine. -/
theorem first_arch (h : AfterReset s) (hr : s.RegisteredAck inp) (hd : s.Dispatching inp t) (hno : ∀ u < t, ¬ s.Dispatching inp u) : (s.run inp t).arch = s.boot (inp 0) := by
  have hs : ∃ u mem rd, s = State.resetRegs u mem rd := by
    rcases h with h | ⟨σ, en, i, -, h⟩ <;> exact ⟨_, _, _, h⟩
  have hb := boot_run hs inp
  have h5 := boot_five hs inp
  have ht : 6 ≤ t := by
    obtain ⟨w, -, -, hd⟩ := at_dispatch h hr hd
    by_contra hlt
    have hu := hd.1.2
    rw [rom_01] at hu
    obtain rfl | hlt : t = 5 ∨ t < 5 := by omega
    · rw [hb.2.1] at hu; simp [u_00, u_01] at hu
    · obtain ⟨l, r, hl⟩ := hd.2
      have : ∀ m t0, t0 + m ≤ 5 → Event.bus r w ∉ s.events inp t0 m := by
        intro m
        induction m with
        | zero => intro t0 _; simp [State.events]
        | succ m ih =>
          intro t0 ht0
          simp only [State.events, List.mem_append, not_or]
          refine ⟨?_, ih _ (by omega)⟩
          unfold State.obs
          rw [hb.1 t0 (by omega)]
          cases (s.run inp t0).polls <;> simp
      exact this (t - 1) 1 (by omega) (by rw [hl]; simp)
  obtain ⟨n, rfl⟩ : ∃ n, t = 6 + n := ⟨t - 6, by omega⟩
  have hna : ∀ j < n, (inp (5 + j)).ack = false := by
    intro j
    induction j using Nat.strong_induction_on with
    | _ j ih =>
      intro hj
      by_contra ha
      exact hno (6 + j) (by omega) (dispatch_after_ack h (fun i hi => ih i hi (by omega)) (by simpa using ha))
  have key : ∀ j ≤ n, (s.run inp (5 + j)).uop = u_00 ∧ (s.run inp (5 + j)).nextAdr = 1#8 ∧ (s.run inp (5 + j)).rstGuard = false ∧
      (s.run inp (5 + j)).arch = s.boot (inp 0) := by
    intro j hj
    induction j with
    | zero => exact ⟨h5.1, h5.2.1, h5.2.2, hb.2.2.2.2.1⟩
    | succ j ih =>
      obtain ⟨k1, k2, k3, k4⟩ := ih (by omega)
      obtain ⟨e1, e2, e3⟩ := wait_step k1 k2 k3 (hna j (by omega))
      exact ⟨e1, e2, e3, (wait_arch k1).trans k4⟩
  obtain ⟨k1, -, -, k4⟩ := key n (Nat.le_refl _)
  rw [show 6 + n = 5 + n + 1 by omega]
  exact (wait_arch k1).trans k4

/-- Induction over all dispatches. -/
theorem from_reset (h : AfterReset s) (hr : s.RegisteredAck inp) {P : Nat → Arch → Prop} (h0 : ∀ t, P t (s.boot (inp 0)))
    (hs : ∀ d x m, OneInstr s inp d x m → P d (s.run inp d).arch → P (d + m) (s.run inp (d + m)).arch) :
    ∀ v, s.Dispatching inp v → P v (s.run inp v).arch := by
  intro v
  induction v using Nat.strong_induction_on with
  | _ v ih =>
    intro hdv
    by_cases hno : ∀ u < v, ¬ s.Dispatching inp u
    · rw [first_arch h hr hdv hno]; exact h0 v
    · push Not at hno
      obtain ⟨u, hu, hdu⟩ := hno
      obtain ⟨d, x, h1, h2, ho⟩ := prev_dispatch h hr hdu hu hdv
      have := hs d x _ ho (ih d h2 ho.runs.1.1)
      rwa [show d + (v - d) = v by omega] at this

/-- All results of a computation have a property. -/
def Tree.Leaves {α : Type} (P : α → Prop) : Tree α → Prop
  | .ret x => P x
  | .poll k => ∀ b, Leaves P (k b)
  | .bus _ k => ∀ d, Leaves P (k d)

theorem Tree.Leaves.path {α : Type} {P : α → Prop} {T : Tree α} (h : Leaves P T) {l : List Event} {x : α} (hp : T.Path l x) : P x := by
  induction hp with
  | ret => exact h
  | poll _ ih => exact ih (h _)
  | bus _ ih => exact ih (h _)

/-- What an instruction does to mcause and mepc: nothing; or it is a CSR instruction that writes it; or there is a trap, with one of the documented causes. -/
def CauseOk (a : Arch) (w : Word) (a' : Arch) : Prop :=
  (∃ i c, c ∈ causeCodes ∧ (i = true → c = 11 ∧ a.intEnabled = true) ∧ a' = a.trap .asBuilt i c) ∨
    ((a'.mcause = a.mcause ∨ writesCsr .mcause w = true) ∧ (a'.mepc = a.mepc ∨ writesCsr .mepc w = true) ∧ a'.irqTaken = a.irqTaken)

theorem setReg_cause (a : Arch) (r : Reg) (v : Word) : (a.setReg r v).mcause = a.mcause ∧ (a.setReg r v).mepc = a.mepc ∧
    (a.setReg r v).irqTaken = a.irqTaken := by
  unfold Arch.setReg; split <;> exact ⟨rfl, rfl, rfl⟩

theorem exec_cause (a : Arch) (w : Word) : Tree.Leaves (CauseOk a w) (exec .asBuilt a w) := by
  have tr : ∀ c ∈ causeCodes, CauseOk a w (a.exception .asBuilt c) := fun c hc => .inl ⟨false, c, hc, nofun, rfl⟩
  have ti : ∀ irq : Bool, (irq && a.intEnabled) = true → CauseOk a w (a.takeInterrupt .asBuilt) := fun irq h =>
    .inl ⟨true, 11, by decide, fun _ => ⟨rfl, by simp at h; exact h.2⟩, rfl⟩
  have sr : ∀ r v, CauseOk a w (a.setReg r v).next := fun r v => .inr ⟨.inl (setReg_cause a r v).1, .inl (setReg_cause a r v).2.1, (setReg_cause a r v).2.2⟩
  have sj : ∀ r v p, CauseOk a w { a.setReg r v with pc := p } := fun r v _ =>
    .inr ⟨.inl (setReg_cause a r v).1, .inl (setReg_cause a r v).2.1, (setReg_cause a r v).2.2⟩
  intro irq
  show Tree.Leaves _ (if _ then _ else _)
  split
  · next h => exact ti _ h
  · cases hd : decode w with
    | none =>
      refine tr _ ?_
      unfold illegalCause
      split <;> decide
    | some ins =>
      cases ins with
      | csr op rd src adr =>
        intro irq'
        show Tree.Leaves _ (if _ then _ else _)
        split
        · next h => exact ti _ h
        · cases hk : csrKind adr with
          | absent => exact tr _ (by decide)
          | zero =>
            show Tree.Leaves _ (if _ then _ else _)
            split
            · exact tr _ (by decide)
            · exact sr _ _
          | impl c =>
            have fin : ∀ old, CauseOk a w (if csrWrites op src = true then (a.setReg rd old).csrWrite (csrNew op old (a.csrOperand src)) c
                else a.setReg rd old).next := by
              intro old
              split
              · next hw =>
                obtain ⟨e1, e2, e3⟩ := setReg_cause a rd old
                refine .inr ⟨?_, ?_, ?_⟩
                · by_cases hc : c = .mcause
                  · right; simp [writesCsr, hd, hw, hk, hc]
                  · left; cases c <;> first | exact e1 | exact absurd rfl hc
                · by_cases hc : c = .mepc
                  · right; simp [writesCsr, hd, hw, hk, hc]
                  · left; cases c <;> first | exact e2 | exact absurd rfl hc
                · cases c <;> exact e3
              · exact sr _ _
            show Tree.Leaves _ (execCsr a op rd src c)
            simp only [execCsr]
            by_cases hm : c = .mip ∧ csrReads op rd = true
            · rw [if_pos hm]
              intro b
              show Tree.Leaves _ (if op = .rc ∧ csrWrites op src = true then _ else _)
              by_cases ho : op = .rc ∧ csrWrites op src = true
              · rw [if_pos ho]; intro b; exact fin _
              · rw [if_neg ho]; exact fin _
            · rw [if_neg hm]; exact fin _
      | lui | auipc | opImm | op => exact sr _ _
      | fence | wfi => exact .inr ⟨.inl rfl, .inl rfl, rfl⟩
      | mret => exact .inr ⟨.inl rfl, .inl rfl, rfl⟩
      | ecall | ebreak => exact tr _ (by decide)
      | jal | jalr =>
        show Tree.Leaves _ (if _ then _ else _)
        split
        · exact sj _ _ _
        · exact tr _ (by decide)
      | branch =>
        show Tree.Leaves _ (if _ then _ else _)
        split
        · show Tree.Leaves _ (if _ then _ else _)
          split
          · exact .inr ⟨.inl rfl, .inl rfl, rfl⟩
          · exact tr _ (by decide)
        · exact .inr ⟨.inl rfl, .inl rfl, rfl⟩
      | load =>
        show Tree.Leaves _ (if _ then _ else _)
        split
        · intro d; exact sr _ _
        · exact tr _ (by decide)
      | store =>
        show Tree.Leaves _ (if _ then _ else _)
        split
        · intro d; exact .inr ⟨.inl rfl, .inl rfl, rfl⟩
        · exact tr _ (by decide)

theorem OneInstr.cause (h : OneInstr s inp t w m) : CauseOk (s.run inp t).arch w (s.run inp (t + m)).arch := by
  obtain ⟨l, w', hp, -⟩ := h.path
  exact (exec_cause _ _).path hp

end Sentinel
