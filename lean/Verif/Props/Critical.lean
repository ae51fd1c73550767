import Verif.Proof.Critical
import Verif.Proof.CsrSecond
import Verif.Props.Soc
import Verif.Props.Demo
import Verif.Props.Latency
/-!
# C97: critical sections

With interrupts turned off, nothing the interrupt line does has any effect, until they are turned on again or mip is looked at.
-/

set_option linter.unusedSimpArgs false

namespace Sentinel
open Ucode Spec

variable {s : State} {inp inp' : Nat → Input} {t m : Nat} {w : Word}

theorem trap_off (a : Arch) (i : Bool) (c : BitVec 31) : (a.trap .asBuilt i c).intEnabled = false := by
  simp [Arch.trap, Arch.intEnabled]

/-- **C97** (off stays off): if interrupts are off when an instruction is dispatched, they are off when the next one is, unless it is MRET or a CSR instruction on
mstatus, mie or mip.  (A trap does not turn them on.) -/
theorem C97_stays (h : OneInstr s inp t w m) (hoff : (s.run inp t).arch.intEnabled = false) (hw : touchesIrq w = false) :
    (s.run inp (t + m)).arch.intEnabled = false := by
  obtain ⟨l, w', -, hf⟩ := h.frame
  split at hf
  · obtain ⟨⟨i, c, e⟩, -⟩ := hf
    rw [e]; exact trap_off _ _ _
  · obtain ⟨ins, hd, hk⟩ := hf
    have hdest : ∀ c : Csr, (c = .mstatus ∨ c = .mie) → destCsr ins ≠ some c := by
      intro c hc e
      cases ins <;> simp only [destCsr] at e <;> try cases e
      rename_i op rd src adr
      simp only [touchesIrq, hd] at hw
      split at e
      · split at e
        · next k hk =>
          simp only [Option.some.injEq] at e
          subst e
          rcases hc with rfl | rfl <;> simp [hk] at hw
        · cases e
      · cases e
    have hm : ins ≠ .mret := by
      rintro rfl
      simp [touchesIrq, hd] at hw
    have e1 := hk.csrs .mstatus (hdest _ (.inl rfl)) fun _ => hm
    have e2 := hk.csrs .mie (hdest _ (.inr rfl)) fun e => by cases e
    have k1 : ∀ a a' : Arch, a'.csrRead false .mstatus = a.csrRead false .mstatus → a'.csrRead false .mie = a.csrRead false .mie →
        a'.intEnabled = a.intEnabled := by
      intro a a' h1 h2
      simp only [Arch.csrRead] at h1 h2
      simp only [Arch.intEnabled]
      revert h1 h2
      cases a.mie <;> cases a'.mie <;> cases a.mpie <;> cases a'.mpie <;> cases a.meie <;> cases a'.meie <;> simp
    rw [k1 _ _ e1 e2]; exact hoff

/-- **C97** (entry): after CSRRC or CSRRCI on mstatus with bit 3 set in the operand, interrupts are off when the next instruction is dispatched: either the
instruction after it, or, if an interrupt comes first, the handler. -/
theorem C97_enter (h : OneInstr s inp t w m) {rd : Reg} {src : CsrSrc} {adr : BitVec 12} (hw : decode w = some (.csr .rc rd src adr))
    (hk : csrKind adr = .impl .mstatus) (h3 : ((s.run inp t).arch.csrOperand src).getLsbD 3 = true) :
    (s.run inp (t + m)).arch.intEnabled = false ∧
      ((s.run inp (t + m)).arch.pc = (s.run inp t).arch.pc + 4 ∨ (s.run inp (t + m)).arch.pc = (s.run inp t).arch.mtvec) := by
  by_cases hi : s.IrqTaken inp t
  · obtain ⟨l, w', hl, hf⟩ := h.frame
    have ht : traps (s.run inp t).arch w (s.events inp t m) = true := by
      rw [hl]
      simp [traps, Arch.intEnabled, hi.1, hi.2.1, hi.2.2]
    rw [if_pos ht] at hf
    obtain ⟨⟨i, c, e⟩, -⟩ := hf
    rw [e]; exact ⟨trap_off _ _ _, .inr rfl⟩
  · obtain ⟨l, hp, -, -⟩ := h.csr hi hw
    unfold csrTail at hp
    split at hp
    · generalize he : (s.run inp (t + m)).arch = a' at hp ⊢
      cases hp
      exact ⟨trap_off _ _ _, .inr rfl⟩
    · rw [hk] at hp
      have hwr : csrWrites .rc src = true := by
        cases src with
        | reg r =>
          simp only [csrWrites, Bool.not_eq_true', decide_eq_false_iff_not]
          rintro rfl
          simp [Arch.csrOperand, Arch.reg] at h3
        | imm u =>
          simp only [csrWrites, Bool.not_eq_true', decide_eq_false_iff_not]
          rintro rfl
          simp [Arch.csrOperand] at h3
      simp only [execCsr, hwr, if_true, reduceCtorEq, false_and, if_false] at hp
      generalize he : (s.run inp (t + m)).arch = a' at hp ⊢
      cases hp
      refine ⟨?_, .inl ?_⟩
      · simp [Arch.next, Arch.csrWrite, csrNew, Arch.intEnabled, h3]
      · simp [Arch.next, Arch.csrWrite, setReg_samePc]

/-- **C97** (traps): after a trap, interrupts are off when the handler's first instruction is dispatched. -/
theorem C97_trap (h : OneInstr s inp t w m) (hx : traps (s.run inp t).arch w (s.events inp t m) = true) :
    (s.run inp (t + m)).arch.intEnabled = false := by
  obtain ⟨l, w', -, hf⟩ := h.frame
  rw [if_pos hx] at hf
  obtain ⟨⟨i, c, e⟩, -⟩ := hf
  rw [e]; exact trap_off _ _ _

theorem stays_off (h : AfterReset s) (hr : s.RegisteredAck inp) (hd : s.Dispatching inp t) (hoff : (s.run inp t).arch.intEnabled = false) {u : Nat}
    (hw : ∀ v w, t ≤ v → v < u → s.Dispatches inp v w → touchesIrq w = false) :
    ∀ v, t ≤ v → v ≤ u → s.Dispatching inp v → (s.run inp v).arch.intEnabled = false := by
  intro v
  induction v using Nat.strong_induction_on with
  | _ v ih =>
    intro hv hu hdv
    rcases Nat.eq_or_lt_of_le hv with rfl | hlt
    · exact hoff
    · obtain ⟨d, hd1, hd2, hd3, hno⟩ : ∃ d, t ≤ d ∧ d < v ∧ s.Dispatching inp d ∧ ∀ u, d < u → u < v → ¬ s.Dispatching inp u := by
        classical
        have hP : ∃ k, k ≤ v - 1 - t ∧ s.Dispatching inp (v - 1 - k) := ⟨v - 1 - t, Nat.le_refl _, by
          rw [show v - 1 - (v - 1 - t) = t by omega]; exact hd⟩
        have h1 := (Nat.find_spec hP).1
        refine ⟨v - 1 - Nat.find hP, by omega, by omega, (Nat.find_spec hP).2, fun u h2 h3 h4 => ?_⟩
        refine Nat.find_min hP (m := v - 1 - u) (by omega) ⟨by omega, ?_⟩
        rw [show v - 1 - (v - 1 - u) = u by omega]; exact h4
      obtain ⟨x, -, -, hx⟩ := at_dispatch h hr hd3
      have hone : OneInstr s inp d x (v - d) := ⟨h, hr, hx, by omega, by rw [show d + (v - d) = v by omega]; exact hdv,
        fun k h1 h2 => hno _ (by omega) (by omega)⟩
      have := C97_stays hone (ih d hd2 hd1 (by omega) hd3) (hw d x hd1 (by omega) hx)
      rwa [show d + (v - d) = v by omega] at this

/-- **C97** (section): interrupts are off when an instruction is dispatched in cycle `t`, and no instruction dispatched from then until cycle `u` is MRET or a CSR
instruction on mstatus, mie or mip.  Then whatever the interrupt line does: interrupts stay off, so that none is taken, and in every cycle up to `u` the core is in
exactly the same state, and so makes the same requests, as with any other behaviour of the interrupt line, the answers on the bus being the same. -/
theorem C97_section (h : AfterReset s) (hr : s.RegisteredAck inp) (hd : s.Dispatching inp t) (hoff : (s.run inp t).arch.intEnabled = false) {u : Nat}
    (hw : ∀ v w, t ≤ v → v < u → s.Dispatches inp v w → touchesIrq w = false)
    (hst : s.run inp t = s.run inp' t) (hin : ∀ v, t ≤ v → v < u → (inp v).ack = (inp' v).ack ∧ (inp v).datR = (inp' v).datR) :
    ∀ v, t ≤ v → v ≤ u → (s.Dispatching inp v → ¬ s.IrqTaken inp v) ∧ s.run inp v = s.run inp' v := by
  have ho := stays_off h hr hd hoff hw
  intro v hv hu
  refine ⟨fun hdv hi => ?_, deaf_run h hr hd hst hin (fun v w h1 h2 h3 => ⟨ho v h1 (by omega) h3.1, ?_⟩) v hv hu⟩
  · have := ho v hv hu hdv
    simp [Arch.intEnabled, hi.2.1, hi.2.2] at this
  · have := hw v w h1 h2 h3
    unfold touchesIrq at this
    unfold usesMip
    split
    · next hdec =>
      rw [hdec] at this
      simp only [Bool.or_eq_false_iff] at this
      exact this.2
    · rfl

namespace Soc
variable {k : Nat} {s : Soc k} {irq irq' : Nat → Bool} {t u : Nat}

/-- **C97** (core and memory): as `C97_section`, for the core with the Wishbone memory: the whole system, with the contents of the memory, is in the same state in
every cycle of the critical section, whatever the interrupt line does. -/
theorem C97_soc (h : s.AfterReset) (hd : s.cpu.Dispatching (s.inputs irq) t) (hoff : (s.run irq t).cpu.arch.intEnabled = false)
    (hw : ∀ v w, t ≤ v → v < u → s.cpu.Dispatches (s.inputs irq) v w → touchesIrq w = false) (hst : s.run irq t = s.run irq' t) :
    ∀ v, t ≤ v → v ≤ u → s.run irq v = s.run irq' v := by
  intro v hv
  induction v using Nat.strong_induction_on with
  | _ v ih =>
    intro hu
    rcases Nat.eq_or_lt_of_le hv with rfl | hlt
    · exact hst
    · obtain ⟨v, rfl⟩ : ∃ n, v = n + 1 := ⟨v - 1, by omega⟩
      have key := C97_section (u := v + 1) h.cpu (registered h) hd (by rw [← run_cpu]; exact hoff)
        (fun x w h1 h2 h3 => hw x w h1 (by omega) h3) (inp' := s.inputs irq') (by rw [← run_cpu, ← run_cpu, hst]) (fun x h1 h2 => by
          have := ih x (by omega) h1 (by omega)
          simp only [inputs, input, this, and_self]) (v + 1) hv (Nat.le_refl _)
      have hc : (s.run irq (v + 1)).cpu = (s.run irq' (v + 1)).cpu := by rw [run_cpu, run_cpu]; exact key.2
      have hv' := ih v (by omega) (by omega) (by omega)
      have hm : (s.run irq (v + 1)).ram = (s.run irq' (v + 1)).ram := by
        show ((s.run irq v).step (irq v)).ram = ((s.run irq' v).step (irq' v)).ram
        rw [hv']; rfl
      cases e1 : s.run irq (v + 1)
      cases e2 : s.run irq' (v + 1)
      rw [e1, e2] at hc hm
      simp only at hc hm
      rw [hc, hm]

/-- A program with a critical section: it enables interrupts, turns them off, adds 1 to the word at byte address 100, and turns them on again. -/
def critProgram : List Word :=
  [0xFFF00093#32,  -- addi x1, x0, -1
   0x30409073#32,  -- csrrw x0, mie, x1
   0x30046073#32,  -- csrrsi x0, mstatus, 8
   0x30047073#32,  -- csrrci x0, mstatus, 8
   0x06402103#32,  -- lw x2, 100(x0)
   0x00110113#32,  -- addi x2, x2, 1
   0x06202223#32,  -- sw x2, 100(x0)
   0x30046073#32,  -- csrrsi x0, mstatus, 8
   0x0000006F#32]  -- jal x0, 0

/-- The interrupt line goes high in the middle of the critical section, in cycle 43, and stays high. -/
def critIrq (n : Nat) : Bool := decide (43 ≤ n)

/-- In cycle 26 the CSRRCI is dispatched, with interrupts enabled; the section is from cycle 36 on, in which the load is dispatched, until 59, when the CSRRSI is. -/
example : (demo critProgram).AfterReset ∧ ((demo critProgram).run critIrq 26).cpu.arch.intEnabled = true ∧
    (demo critProgram).cpu.Dispatching ((demo critProgram).inputs critIrq) 36 ∧ ((demo critProgram).run critIrq 36).cpu.arch.intEnabled = false ∧
    ((demo critProgram).run critIrq 36).cpu.arch.pc = 16 ∧
    (∀ v w, 36 ≤ v → v < 59 → (demo critProgram).cpu.Dispatches ((demo critProgram).inputs critIrq) v w → touchesIrq w = false) ∧
    (demo critProgram).run critIrq 36 = (demo critProgram).run (fun _ => false) 36 ∧
    ((demo critProgram).run critIrq 36).ram.mem 25 + 1 = ((demo critProgram).run critIrq 59).ram.mem 25 := by
  have hres : (demo critProgram).AfterReset := ⟨.inl rfl, rfl⟩
  have key : ∀ v, v < 23 → ((demo critProgram).run critIrq (36 + v)).cpu.uop = rom 1#8 →
      touchesIrq (((demo critProgram).run critIrq (36 + v)).ram.mem ((wordAdr ((demo critProgram).run critIrq (36 + v)).cpu.arch.pc).setWidth 5)) = false := by
    decide +kernel
  refine ⟨hres, by decide +kernel, ⟨by decide, by decide +kernel⟩, by decide +kernel, by decide +kernel, fun v w h1 h2 hd => ?_, ?_, by decide +kernel⟩
  · rw [C91_code hres critIrq hd]
    have := key (v - 36) (by omega)
    rw [show 36 + (v - 36) = v by omega] at this
    refine this ?_
    rw [run_cpu]; exact hd.1.2
  · have : ∀ n, n ≤ 36 → (demo critProgram).run critIrq n = (demo critProgram).run (fun _ => false) n := by
      intro n
      induction n with
      | zero => intro _; rfl
      | succ n ih =>
        intro hn
        rw [run, run, ih (by omega), show critIrq n = false from decide_eq_false (by omega)]
    exact this 36 (Nat.le_refl _)

/-- The end of the section matters: with interrupts on again, the one that has been waiting is taken, and execution goes on at mtvec, which is 0 here; without it, it
goes on at the next instruction. -/
example : ((demo critProgram).run critIrq 68).cpu.arch.intEnabled = true ∧ ((demo critProgram).run critIrq 68).cpu.arch.pc = 32 ∧
    ((demo critProgram).run critIrq 75).cpu.arch.pc = 0 ∧ ((demo critProgram).run (fun _ => false) 75).cpu.arch.pc = 32 := by
  decide +kernel

end Soc

end Sentinel
