import Verif.Props.Csr
/-!
# C13, C14, C17–C20: traps
-/

set_option linter.unusedSimpArgs false

namespace Sentinel
open Ucode Spec

variable {s : State} {inp : Nat → Input} {t m : Nat} {w : Word}

/-! ## Concrete runs with a changing interrupt line -/

/-- A check that the `m` cycles from cycle `t` on execute the word `w`. -/
def runsCheck (s : State) (inp : Nat → Input) (t m : Nat) (r : Req) (w : Word) : Bool :=
  decide (1 ≤ t) && decide (0 < m) && decide ((s.run inp t).uop = rom 1#8) &&
  decide ((s.events inp 1 (t - 1)).getLast? = some (.bus r w)) &&
  decide ((s.run inp (t + m)).uop = rom 1#8) &&
  (List.range m).all fun k => decide (k = 0) || !decide ((s.run inp (t + k)).uop = rom 1#8)

theorem runsCheck_sound {r : Req} (h : runsCheck s inp t m r w = true) : s.Executes inp t w m := by
  simp only [runsCheck, Bool.and_eq_true, decide_eq_true_eq, List.all_eq_true, List.mem_range,
    Bool.or_eq_true, Bool.not_eq_true', decide_eq_false_iff_not] at h
  obtain ⟨⟨⟨⟨⟨h1, h2⟩, h3⟩, h4⟩, h5⟩, h6⟩ := h
  refine ⟨⟨⟨h1, h3⟩, ?_⟩, h2, ⟨by omega, h5⟩, ?_⟩
  · obtain ⟨l, hl⟩ := List.getLast?_eq_some_iff.1 h4
    exact ⟨l, r, hl⟩
  · intro k hk0 hkm hd
    rcases h6 k hkm with h | h
    · omega
    · exact h hd.2

/-! ## C17: trap entry -/

/-- The words that raise the wrong exception, deviation D2. -/
def d2Words : List Word := [0x70, 0x71, 0x72]

theorem illegalCause_eq (h : w ∉ d2Words) : illegalCause .asBuilt w = 2 := by
  simp only [d2Words, List.mem_cons, List.not_mem_nil, or_false, not_or] at h
  unfold illegalCause
  rw [if_neg]
  intro hx
  rcases hx.2 with e | e | e
  · exact h.1 e
  · exact h.2.1 e
  · exact h.2.2 e

/-- **C17.** A word that raises an exception (`excCause`: the list of all causes) enters the trap
handler: mepc is its address, mcause its cause, MPIE the old MIE, MIE is cleared, the next fetch is
at mtvec, nothing else changes, and there is no data access.  (A CSR instruction samples the
interrupt line a second time.)  Bit 31 of mcause: see C18. -/
theorem C17_exception {c : BitVec 31} (h : OneInstr s inp t w m) (hi : ¬ s.IrqTaken inp t)
    (hi' : isCsr w = true → ¬ s.IrqTaken inp (t + 1)) (hd : w ∉ d2Words)
    (hc : excCause (s.run inp t).arch w = some c) :
    let a := (s.run inp t).arch
    s.Effect inp t m (a.enterTrap (a.excWord c)) (if isCsr w then [.poll (inp (t + 1)).irq] else []) := by
  intro a
  cases hw : decode w with
  | none =>
    have e : c = 2 := by simpa [excCause, hw, eq_comm] using hc
    subst e
    rw [← exception_eq]
    have := h.ofNone hi hw
    rw [illegalCause_eq hd] at this
    simpa [isCsr, hw] using this
  | some ins =>
    simp only [isCsr, hw] at hi' ⊢
    rw [excCause, hw] at hc
    cases ins <;> dsimp only at hc hi' ⊢
    case lui | auipc | opImm | op | fence | wfi | mret => cases hc
    case ecall =>
      obtain rfl := Option.some.inj hc
      rw [← exception_eq]; exact h.pure hi hw rfl
    case ebreak =>
      obtain rfl := Option.some.inj hc
      rw [← exception_eq]; exact h.pure hi hw rfl
    case jal =>
      split at hc
      · next hx => obtain rfl := Option.some.inj hc; exact C16_jal h hi hw hx
      · cases hc
    case jalr =>
      split at hc
      · next hx => obtain rfl := Option.some.inj hc; exact C16_jalr h hi hw hx
      · cases hc
    case branch =>
      split at hc
      · next hx => obtain rfl := Option.some.inj hc; exact C16_branch h hi hw hx.1 hx.2
      · cases hc
    case load =>
      split at hc
      · next hx => obtain rfl := Option.some.inj hc; exact C15_load h hi hw hx
      · cases hc
    case store =>
      split at hc
      · next hx => obtain rfl := Option.some.inj hc; exact C15_store h hi hw hx
      · cases hc
    case csr =>
      split at hc
      · next hx =>
        obtain rfl := Option.some.inj hc
        exact C12_illegal ⟨h, hi, hi' rfl⟩ hw hx
      · cases hc

/-- The state after an interrupt has been taken. -/
def Spec.Arch.enterInterrupt (a : Arch) : Arch := { a.enterTrap 0x8000000B with irqTaken := true }

theorem interrupt_eq (a : Arch) : a.takeInterrupt .asBuilt = a.enterInterrupt := by
  simp only [Arch.takeInterrupt, Arch.trap, Arch.enterInterrupt, Arch.enterTrap, Bool.true_or,
    Bool.or_true]
  rfl

/-- **C17, C19.** If an enabled interrupt is pending when an instruction is dispatched, it is taken,
whatever the instruction: trap entry with mcause 0x8000000B, and the instruction has no effect. -/
theorem C19_taken (h : OneInstr s inp t w m) (hi : s.IrqTaken inp t) :
    s.Effect inp t m (s.run inp t).arch.enterInterrupt [] := by
  rw [← interrupt_eq]; exact h.irq hi

/-- **C19.** A CSR instruction also gives way to an interrupt that becomes pending in the cycle after
dispatch. -/
theorem C19_csr (h : OneInstr s inp t w m) (hi : ¬ s.IrqTaken inp t) (hw : isCsr w = true)
    (hi' : s.IrqTaken inp (t + 1)) :
    s.Effect inp t m (s.run inp t).arch.enterInterrupt [.poll true] := by
  have : ∃ op rd src adr, decode w = some (.csr op rd src adr) := by
    unfold isCsr at hw
    split at hw
    · next op rd src adr e => exact ⟨op, rd, src, adr, e⟩
    · cases hw
  obtain ⟨op, rd, src, adr, hd⟩ := this
  obtain ⟨l, hp, hE, hirq⟩ := h.csr hi hd
  simp only [csrTail, hirq.1 hi', if_true] at hp
  rw [hi'.1] at hE
  rw [← interrupt_eq]
  generalize (s.run inp (t + m)).arch = a'' at *
  cases hp
  exact hE

/-- The program used for interrupts: enable them, with the trap handler at address 20. -/
def irqProgram : List Word :=
  [0xFFF00093#32,  -- addi x1, x0, -1
   0x305A5073#32,  -- csrrwi x0, mtvec, 20
   0x30409073#32,  -- csrrw x0, mie, x1
   0x30045073#32,  -- csrrwi x0, mstatus, 8
   0x00000000#32,  -- (not an instruction)
   0x00000073#32]  -- ecall

/-- With the interrupt line high, the interrupt is taken when word 4 (which is illegal) is
dispatched. -/
example : decode 0x00000000#32 = none ∧ ∃ s inp t m, OneInstr s inp t 0x00000000#32 m ∧
    s.IrqTaken inp t ∧ (s.run inp t).arch.pc = 16 := by
  obtain ⟨s, inp, t, m, h1, h2, h3⟩ := demo_case
    (P := fun a => a.mie = true ∧ a.meie = true ∧ a.pc = 16) irqProgram true 4 (w := 0)
    (by decide +kernel) (by decide +kernel)
  exact ⟨by decide, s, inp, t, m, h1, ⟨h2 _, h3.1, h3.2.1⟩, h3.2.2⟩

/-- A program with a CSR instruction (`csrrs x2, mscratch, x1`) after interrupts are enabled. -/
def irqProgram2 : List Word :=
  [0xFFF00093#32, 0x305A5073#32, 0x30409073#32, 0x30045073#32, 0x3400A173#32, 0x00000073#32]

/-- The interrupt line for `irqProgram2`: low until the CSR instruction has been dispatched. -/
def irqWave : Nat → Bool := fun t => 29 < t

/-- The interrupt becomes pending one cycle after the CSR instruction is dispatched. -/
example : isCsr 0x3400A173#32 = true ∧ ∃ s inp t m, OneInstr s inp t 0x3400A173#32 m ∧
    ¬ s.IrqTaken inp t ∧ s.IrqTaken inp (t + 1) := by
  refine ⟨by decide, powerOn, (demo irqProgram2).inputs irqWave, 29, 8,
    ⟨.inl rfl, Soc.registered (demo_reset _), ?_⟩, ?_, ?_⟩
  · exact runsCheck_sound (r := ⟨4, 15, false, 0⟩) (by decide +kernel)
  · intro h; exact absurd h.1 (by decide +kernel)
  · exact ⟨by decide +kernel, by decide +kernel, by decide +kernel⟩

/-! ## C13, C14 -/

/-- **C13, full statement**: every word that is not an instruction traps as an illegal
instruction. -/
def C13_full : Prop :=
  ∀ s inp t w m, OneInstr s inp t w m → ¬ s.IrqTaken inp t → decode w = none →
    (s.run inp (t + m)).arch.mcause.extractLsb' 0 31 = 2

/-- **C13** holds for all words but three: illegal instruction, no register changes, no data
access. -/
theorem C13_illegal_partial (h : OneInstr s inp t w m) (hi : ¬ s.IrqTaken inp t)
    (hw : decode w = none) (hd : w ∉ d2Words) :
    let a := (s.run inp t).arch
    s.Effect inp t m (a.enterTrap (a.excWord 2)) [] := by
  have hx : excCause (s.run inp t).arch w = some 2 := by simp [excCause, hw]
  have hcs : isCsr w = false := by simp [isCsr, hw]
  have := C17_exception h hi (by simp [hcs]) hd hx
  simpa [hcs] using this

/-- The words 0x70, 0x71 and 0x72 are not instructions, but trap as environment calls (D2). -/
theorem C13_d2 (h : OneInstr s inp t w m) (hi : ¬ s.IrqTaken inp t) (hd : w ∈ d2Words) :
    let a := (s.run inp t).arch
    decode w = none ∧ s.Effect inp t m (a.enterTrap (a.excWord 11)) [] := by
  intro a
  have hw : decode w = none ∧ illegalCause .asBuilt w = 11 := by
    simp only [d2Words, List.mem_cons, List.not_mem_nil, or_false] at hd
    rcases hd with rfl | rfl | rfl <;> decide
  refine ⟨hw.1, ?_⟩
  rw [← exception_eq, ← hw.2]
  exact h.ofNone hi hw.1

/-- **C13** does not hold: counterexample 0x70. -/
theorem C13_full_false : ¬ C13_full := by
  intro hall
  obtain ⟨s, inp, t, m, h1, h2, -⟩ := demo_quiet (P := fun _ => True) [0x70#32] 0 (w := 0x70#32)
    (by decide +kernel) trivial
  have := hall s inp t _ m h1 h2 (by decide)
  rw [(C13_d2 h1 h2 (by decide)).2.1] at this
  revert this
  simp only [Arch.enterTrap, Arch.excWord]
  cases (s.run inp t).arch.irqTaken <;> decide

/-- Words that are not instructions: all zeros, all ones, a shift with a wrong funct7. -/
example : decode 0x00000000#32 = none ∧ decode 0xFFFFFFFF#32 = none ∧ decode 0x20109093#32 = none ∧
    0x20109093#32 ∉ d2Words ∧
    ∃ s inp t m, OneInstr s inp t 0x20109093#32 m ∧ ¬ s.IrqTaken inp t ∧ (s.run inp t).arch.pc = 4 :=
  ⟨by decide, by decide, by decide, by decide, demo_quiet (P := fun a => a.pc = 4)
    [0x00000013#32, 0x20109093#32] 1 (by decide +kernel) (by decide +kernel)⟩

/-- **C14.** ECALL traps with cause 11. -/
theorem C14_ecall (h : OneInstr s inp t 0x00000073#32 m) (hi : ¬ s.IrqTaken inp t) :
    let a := (s.run inp t).arch
    s.Effect inp t m (a.enterTrap (a.excWord 11)) [] :=
  C17_exception h hi (fun h => absurd h (by decide)) (by decide) rfl

/-- **C14.** EBREAK traps with cause 3. -/
theorem C14_ebreak (h : OneInstr s inp t 0x00100073#32 m) (hi : ¬ s.IrqTaken inp t) :
    let a := (s.run inp t).arch
    s.Effect inp t m (a.enterTrap (a.excWord 3)) [] :=
  C17_exception h hi (fun h => absurd h (by decide)) (by decide) rfl

example : (∃ s inp t m, OneInstr s inp t 0x00000073#32 m ∧ ¬ s.IrqTaken inp t ∧ (s.run inp t).arch.pc = 4) ∧
    ∃ s inp t m, OneInstr s inp t 0x00100073#32 m ∧ ¬ s.IrqTaken inp t ∧ (s.run inp t).arch.pc = 4 :=
  ⟨demo_quiet (P := fun a => a.pc = 4) [0x00000013#32, 0x00000073#32] 1 (by decide +kernel) (by decide +kernel),
   demo_quiet (P := fun a => a.pc = 4) [0x00000013#32, 0x00100073#32] 1 (by decide +kernel) (by decide +kernel)⟩

/-! ## C18 -/

/-- **C18, full statement**: a synchronous exception never sets bit 31 of mcause. -/
def C18_full : Prop :=
  ∀ s inp t w m c, OneInstr s inp t w m → ¬ s.IrqTaken inp t →
    (isCsr w = true → ¬ s.IrqTaken inp (t + 1)) → excCause (s.run inp t).arch w = some c →
    (s.run inp (t + m)).arch.mcause.getLsbD 31 = false

theorem interrupt_false (h : AfterReset s) (inp : Nat → Input) (t : Nat)
    (hn : ∀ t', t' < t → ¬ s.IrqTaken inp t') : (s.run inp t).arch.irqTaken = false := by
  induction t with
  | zero => rcases h with rfl | ⟨σ, en, i, -, rfl⟩ <;> rfl
  | succ t ih =>
    have ih := ih fun t' ht' => hn t' (by omega)
    have hp : (s.run inp t).pending (inp t) = false := by
      have := hn t (by omega)
      simp only [State.IrqTaken, State.arch] at this
      simp only [State.pending, intPending]
      revert this
      cases (inp t).irq <;> cases (s.run inp t).csr.mie <;> cases (s.run inp t).csr.meie <;> simp
    have e : s.run inp (t + 1) = (s.run inp t).step (inp t) := rfl
    rw [e]
    generalize s.run inp t = σ at *
    have ih : σ.cause.interrupt = false := ih
    show (σ.cause.step σ.uop.exceptCtl σ.uop.memSel σ.aluO σ.dec.exc.valid σ.dec.exc.eType
      (σ.pending (inp t))).interrupt = false
    rw [hp]
    unfold CauseLatch.step
    repeat' split
    all_goals first
      | exact ih
      | contradiction

/-- **C18** holds as long as no enabled interrupt has been pending since reset: mcause is exactly the
cause code. -/
theorem C18_partial {c : BitVec 31} (h : OneInstr s inp t w m)
    (hn : ∀ t', t' ≤ t → ¬ s.IrqTaken inp t') (hi' : isCsr w = true → ¬ s.IrqTaken inp (t + 1))
    (hd : w ∉ d2Words) (hc : excCause (s.run inp t).arch w = some c) :
    (s.run inp (t + m)).arch.mcause = c.setWidth 32 ∧
      (s.run inp (t + m)).arch.mcause.getLsbD 31 = false := by
  have h0 := interrupt_false h.reset inp t fun t' ht' => hn t' (by omega)
  have e := (C17_exception h (hn t (by omega)) hi' hd hc).1
  have e2 : (s.run inp (t + m)).arch.mcause = c.setWidth 32 := by
    rw [e]
    simp only [Arch.enterTrap, Arch.excWord, h0]
    apply BitVec.eq_of_getLsbD_eq; intro i hi
    rw [BitVec.getLsbD_append, BitVec.getLsbD_setWidth]
    by_cases hx : i < 31
    · simp [hx, hi, -BitVec.getLsbD_eq_getElem]
    · obtain rfl : i = 31 := by omega
      simp [-BitVec.getLsbD_eq_getElem]
  refine ⟨e2, ?_⟩
  rw [e2, BitVec.getLsbD_setWidth]
  simp [-BitVec.getLsbD_eq_getElem]

/-- **C18** does not hold after an interrupt: an ECALL in the interrupt handler sets bit 31. -/
theorem C18_full_false : ¬ C18_full := by
  intro hall
  obtain ⟨s, inp, t, m, h1, -, h3⟩ := demo_case
    (P := fun a => a.mie = false ∧ a.irqTaken = true) irqProgram true 5 (w := 0x73#32)
    (by decide +kernel) (by decide +kernel)
  have hi : ¬ s.IrqTaken inp t := fun h => by have := h.2.1; rw [h3.1] at this; cases this
  have := hall s inp t _ m 11 h1 hi (fun h => absurd h (by decide)) rfl
  rw [(C14_ecall h1 hi).1] at this
  simp only [Arch.enterTrap, Arch.excWord, h3.2] at this
  revert this; decide

/-- The hypotheses of `C18_partial` are met by an ECALL with the interrupt line low. -/
example : excCause (powerOn.run (demoIn [0x73#32] false) 7).arch 0x73#32 = some 11 ∧
    ∃ s inp t m, OneInstr s inp t 0x73#32 m ∧ ∀ t', ¬ s.IrqTaken inp t' := by
  obtain ⟨s, inp, t, m, h1, h2, -⟩ := demo_case (P := fun _ => True) [0x73#32] false 0 (w := 0x73#32)
    (by decide +kernel) trivial
  exact ⟨rfl, s, inp, t, m, h1, fun t' h => by have := h.1; rw [h2] at this; cases this⟩

/-! ## No trap, no interrupt -/

theorem setReg_traps (a : Arch) (r : Reg) (v : Word) :
    (a.setReg r v).mepc = a.mepc ∧ (a.setReg r v).mcause = a.mcause ∧ (a.setReg r v).mie = a.mie ∧
      (a.setReg r v).mpie = a.mpie ∧ (a.setReg r v).irqTaken = a.irqTaken := by
  unfold Arch.setReg; split <;> simp

/-- **C17.** A word that raises no exception, and is not a CSR instruction or MRET, leaves the trap
CSRs alone. -/
theorem C17_none (h : OneInstr s inp t w m) (hi : ¬ s.IrqTaken inp t)
    (hc : excCause (s.run inp t).arch w = none) (hcs : isCsr w = false) (hm : decode w ≠ some .mret) :
    let a := (s.run inp t).arch
    let a' := (s.run inp (t + m)).arch
    a'.mepc = a.mepc ∧ a'.mcause = a.mcause ∧ a'.mie = a.mie ∧ a'.mpie = a.mpie ∧
      a'.irqTaken = a.irqTaken := by
  intro a a'
  cases hw : decode w with
  | none => simp [excCause, hw] at hc
  | some ins =>
    rw [excCause, hw] at hc
    simp only [isCsr, hw] at hcs
    rw [hw] at hm
    cases ins <;> dsimp only at hc hcs
    case ecall | ebreak => cases hc
    case csr => cases hcs
    case mret => exact absurd rfl hm
    case fence | wfi =>
      have e := (C09_nop h hi (by first | exact .inl hw | exact .inr hw)).1
      rw [show a' = _ from e]; exact ⟨rfl, rfl, rfl, rfl, rfl⟩
    case lui =>
      have e := (C08_lui h hi hw).1
      rw [show a' = _ from e]; exact setReg_traps _ _ _
    case auipc =>
      have e := (C08_auipc h hi hw).1
      rw [show a' = _ from e]; exact setReg_traps _ _ _
    case opImm =>
      have e := (h.pure hi hw rfl).1
      rw [show a' = _ from e]; exact setReg_traps _ _ _
    case op =>
      have e := (h.pure hi hw rfl).1
      rw [show a' = _ from e]; exact setReg_traps _ _ _
    case jal =>
      split at hc
      · cases hc
      · next hx =>
        have e := (C07_jal h hi hw (by simpa only [ne_eq, Decidable.not_not] using hx)).1
        rw [show a' = _ from e]; exact setReg_traps _ _ _
    case jalr =>
      split at hc
      · cases hc
      · next hx =>
        have e := (C07_jalr h hi hw (by simpa only [ne_eq, Decidable.not_not] using hx)).1
        rw [show a' = _ from e]; exact setReg_traps _ _ _
    case branch op rs1 rs2 imm =>
      split at hc
      · cases hc
      · next hx =>
        cases hb : brTaken op ((s.run inp t).arch.reg rs1) ((s.run inp t).arch.reg rs2)
        · have e := (C06_notTaken h hi hw hb).1
          rw [show a' = _ from e]; exact ⟨rfl, rfl, rfl, rfl, rfl⟩
        · have hx' := not_and.1 hx hb
          have e := (C06_taken h hi hw hb (by simpa only [ne_eq, Decidable.not_not] using hx')).1
          rw [show a' = _ from e]; exact ⟨rfl, rfl, rfl, rfl, rfl⟩
    case load =>
      split at hc
      · cases hc
      · next hx =>
        obtain ⟨d, e, -⟩ := C04_load h hi hw (by simpa only [ne_eq, Decidable.not_not] using hx)
        rw [show a' = _ from e]; exact setReg_traps _ _ _
    case store =>
      split at hc
      · cases hc
      · next hx =>
        obtain ⟨d, e, -⟩ := C05_store h hi hw (by simpa only [ne_eq, Decidable.not_not] using hx)
        rw [show a' = _ from e]; exact ⟨rfl, rfl, rfl, rfl, rfl⟩

theorem csrWrite_irq (a : Arch) (v : Word) (c : Csr) : (a.csrWrite v c).irqTaken = a.irqTaken := by
  cases c <;> rfl

theorem enterTrap_irq (a : Arch) (v : Word) : (a.enterTrap v).irqTaken = a.irqTaken := rfl

/-- **C20.** MRET: PC = mepc, MIE = MPIE, MPIE = 1, nothing else. -/
theorem C20_mret (h : OneInstr s inp t 0x30200073#32 m) (hi : ¬ s.IrqTaken inp t) :
    let a := (s.run inp t).arch
    s.Effect inp t m { a with pc := a.mepc, mie := a.mpie, mpie := true } [] :=
  h.pure hi (ins := .mret) (by decide) rfl

/-- An MRET with mepc = 20: the last instruction of an interrupt handler. -/
example : ∃ s inp t m, OneInstr s inp t 0x30200073#32 m ∧ ¬ s.IrqTaken inp t ∧
    (s.run inp t).arch.mepc = 20 :=
  demo_quiet (P := fun a => a.mepc = 20) [0x341A5073#32, 0x30200073#32] 1
    (by decide +kernel) (by decide +kernel)

/-- **C19.** An interrupt is taken exactly when an enabled interrupt is pending in the cycle of
dispatch (or, for a CSR instruction, the cycle after).  Observed by the interrupt bit of the cause
latch, which is clear until the first interrupt after reset. -/
theorem C19_iff (h : OneInstr s inp t w m) (h0 : (s.run inp t).arch.irqTaken = false) :
    (s.run inp (t + m)).arch.irqTaken = true ↔
      s.IrqTaken inp t ∨ (isCsr w = true ∧ s.IrqTaken inp (t + 1)) := by
  by_cases hi : s.IrqTaken inp t
  · rw [(C19_taken h hi).1]; simp [Arch.enterInterrupt, hi]
  by_cases hcs : isCsr w = true
  · by_cases hi' : s.IrqTaken inp (t + 1)
    · rw [(C19_csr h hi hcs hi').1]; simp [Arch.enterInterrupt, hi', hcs]
    · have : (s.run inp (t + m)).arch.irqTaken = false := by
        rw [← h0]
        have : ∃ op rd src adr, decode w = some (.csr op rd src adr) := by
          unfold isCsr at hcs
          split at hcs
          · next op rd src adr e => exact ⟨op, rd, src, adr, e⟩
          · cases hcs
        obtain ⟨op, rd, src, adr, hd⟩ := this
        have hr : CsrRuns s inp t w m := ⟨h, hi, hi'⟩
        by_cases hx : csrKind adr = .absent ∨ (csrReadOnly adr = true ∧ csrWrites op src = true)
        · rw [(C12_illegal hr hd hx).1]; rfl
        · have hx2 := not_or.1 hx
          cases hk : csrKind adr with
          | absent => exact absurd hk hx2.1
          | zero => rw [(C12_zero hr hd hk hx2.2).1]; exact (setReg_traps _ _ _).2.2.2.2
          | impl c =>
            by_cases hc : c = .mip
            · subst hc
              have e := C32_mip hr hd hk
              rw [e]; exact (setReg_traps _ _ _).2.2.2.2
            · cases hwr : csrWrites op src
              · rw [(C11_read hr hd hk hc hwr).1]; exact (setReg_traps _ _ _).2.2.2.2
              · rw [(C10_write hr hd hk hc hwr).1]
                exact (csrWrite_irq _ _ _).trans (setReg_traps _ _ _).2.2.2.2
      rw [this]; simp [hi, hi']
  · have hcs' : isCsr w = false := by simpa using hcs
    have : (s.run inp (t + m)).arch.irqTaken = false := by
      rw [← h0]
      cases hc : excCause (s.run inp t).arch w with
      | some c =>
        by_cases hd : w ∈ d2Words
        · rw [(C13_d2 h hi hd).2.1]; rfl
        · rw [(C17_exception h hi (by simp [hcs']) hd hc).1]; rfl
      | none =>
        by_cases hm : decode w = some .mret
        · rw [(h.pure hi hm rfl).1]
        · exact (C17_none h hi hc hcs' hm).2.2.2.2
    rw [this]; simp [hi, hcs']

end Sentinel
