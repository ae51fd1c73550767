import Verif.Proof.History
import Verif.Props.Soc
import Verif.Props.Demo
import Verif.Props.Latency
/-!
# C98: what is in a register was put there

Registers and CSRs over any stretch of an execution.
-/

set_option linter.unusedSimpArgs false

namespace Sentinel
open Ucode Spec

variable {s : State} {inp : Nat → Input} {t u v : Nat}

/-- **C98** (registers): a register keeps its value, through any number of instructions, traps and interrupts, until an instruction with that destination register. -/
theorem C98_reg (h : AfterReset s) (hr : s.RegisteredAck inp) (hd : s.Dispatching inp t) {q : Reg}
    (hw : ∀ d x, t ≤ d → d < u → s.Dispatches inp d x → writesReg q x = false) (hv : t ≤ v) (hu : v ≤ u) (hdv : s.Dispatching inp v) :
    (s.run inp v).arch.reg q = (s.run inp t).arch.reg q := by
  refine along h hr hd (P := fun a => a.reg q = (s.run inp t).arch.reg q) rfl (fun d x m h1 h2 ho ih => ?_) v hv hu hdv
  beta_reduce at ih ⊢
  rw [← ih]
  obtain ⟨l, w', -, hf⟩ := ho.frame
  split at hf
  · obtain ⟨⟨i, c, e⟩, -⟩ := hf
    rw [e]; rfl
  · obtain ⟨ins, hx, hk⟩ := hf
    refine hk.regs q fun e => ?_
    have := hw d x h1 h2 ho.runs.1
    unfold writesReg at this
    rw [hx] at this
    cases ins <;> simp only [destReg, Option.some.injEq, reduceCtorEq] at e <;> simp [e] at this

theorem dest_writes {w : Word} {ins : Instr} (hx : decode w = some ins) {c : Csr} (hw : writesCsr c w = false) : destCsr ins ≠ some c := by
  intro e
  unfold writesCsr at hw
  rw [hx] at hw
  cases ins <;> simp only [destCsr, reduceCtorEq] at e
  split at e
  · next h1 =>
    split at e
    · next k hk =>
      simp only [Option.some.injEq] at e
      subst e
      simp [h1, hk] at hw
    · cases e
  · cases e

/-- **C98** (mie, mtvec and mscratch): they keep their value, through any number of instructions, traps and interrupts, until a CSR instruction writes them. -/
theorem C98_csr (h : AfterReset s) (hr : s.RegisteredAck inp) (hd : s.Dispatching inp t) {c : Csr} (hc : c = .mie ∨ c = .mtvec ∨ c = .mscratch)
    (hw : ∀ d x, t ≤ d → d < u → s.Dispatches inp d x → writesCsr c x = false) (hv : t ≤ v) (hu : v ≤ u) (hdv : s.Dispatching inp v) :
    (s.run inp v).arch.csrRead false c = (s.run inp t).arch.csrRead false c := by
  refine along h hr hd (P := fun a => a.csrRead false c = (s.run inp t).arch.csrRead false c) rfl (fun d x m h1 h2 ho ih => ?_) v hv hu hdv
  beta_reduce at ih ⊢
  rw [← ih]
  obtain ⟨l, w', -, hf⟩ := ho.frame
  split at hf
  · obtain ⟨⟨i, k, e⟩, -⟩ := hf
    rw [e]
    rcases hc with rfl | rfl | rfl <;> rfl
  · obtain ⟨ins, hx, hk⟩ := hf
    refine hk.csrs c (dest_writes hx (hw d x h1 h2 ho.runs.1)) fun e => ?_
    rcases hc with rfl | rfl | rfl <;> cases e

/-- **C98** (mepc and mcause): they keep their value, through any number of instructions, until a trap, an interrupt or a CSR instruction that writes them: what a
handler finds there is about the last trap. -/
theorem C98_trap (h : AfterReset s) (hr : s.RegisteredAck inp) (hd : s.Dispatching inp t) {c : Csr} (hc : c = .mepc ∨ c = .mcause)
    (hw : ∀ d x m, t ≤ d → d < u → OneInstr s inp d x m → writesCsr c x = false ∧ traps (s.run inp d).arch x (s.events inp d m) = false)
    (hv : t ≤ v) (hu : v ≤ u) (hdv : s.Dispatching inp v) :
    (s.run inp v).arch.csrRead false c = (s.run inp t).arch.csrRead false c := by
  refine along h hr hd (P := fun a => a.csrRead false c = (s.run inp t).arch.csrRead false c) rfl (fun d x m h1 h2 ho ih => ?_) v hv hu hdv
  beta_reduce at ih ⊢
  rw [← ih]
  obtain ⟨k1, k2⟩ := hw d x m h1 h2 ho
  obtain ⟨l, w', -, hf⟩ := ho.frame
  rw [k2, if_neg (by simp)] at hf
  obtain ⟨ins, hx, hk⟩ := hf
  refine hk.csrs c (dest_writes hx k1) fun e => ?_
  rcases hc with rfl | rfl <;> cases e

/-- **C98** (causes): at every dispatch after a reset, of whatever program, mcause is one of the documented causes, with bit 31 set or not, unless the program has written
mcause. -/
theorem C98_mcause (h : AfterReset s) (hr : s.RegisteredAck inp) (hd : s.Dispatching inp t) :
    (∃ b, ∃ c ∈ causeCodes, (s.run inp t).arch.mcause = BitVec.ofBool b ++ c) ∨
      ∃ d x, d < t ∧ s.Dispatches inp d x ∧ writesCsr .mcause x = true := by
  refine from_reset h hr (P := fun t a => (∃ b, ∃ c ∈ causeCodes, a.mcause = BitVec.ofBool b ++ c) ∨
      ∃ d x, d < t ∧ s.Dispatches inp d x ∧ writesCsr .mcause x = true) (fun _ => .inl ⟨false, 0, by decide, ?_⟩) (fun d x m ho ih => ?_) t hd
  · rfl
  · have hm := ho.runs.2.1
    rcases ho.cause with ⟨i, c, hc, -, e⟩ | ⟨e | e, -, -⟩
    · rw [e]; exact .inl ⟨_, c, hc, rfl⟩
    · rcases ih with ih | ⟨d', x', h1, h2⟩
      · rw [e]; exact .inl ih
      · exact .inr ⟨d', x', by omega, h2⟩
    · exact .inr ⟨d, x, by omega, ho.runs.1, e⟩

/-- **C98** (bit 31): if interrupts have been off at every dispatch since the reset, bit 31 of mcause is clear, unless the program has written mcause. -/
theorem C98_exceptions (h : AfterReset s) (hr : s.RegisteredAck inp) (hd : s.Dispatching inp t)
    (hoff : ∀ d < t, s.Dispatching inp d → (s.run inp d).arch.intEnabled = false) :
    (∃ c ∈ causeCodes, (s.run inp t).arch.mcause = c.setWidth 32) ∨ ∃ d x, d < t ∧ s.Dispatches inp d x ∧ writesCsr .mcause x = true := by
  have key := from_reset h hr (P := fun t a => (∀ d < t, s.Dispatching inp d → (s.run inp d).arch.intEnabled = false) →
      a.irqTaken = false ∧ ((∃ c ∈ causeCodes, a.mcause = BitVec.ofBool false ++ c) ∨ ∃ d x, d < t ∧ s.Dispatches inp d x ∧ writesCsr .mcause x = true))
    (fun _ _ => ⟨rfl, .inl ⟨0, by decide, rfl⟩⟩) (fun d x m ho ih hoff => ?_) t hd hoff
  · rcases key.2 with ⟨c, hc, e⟩ | k
    · refine .inl ⟨c, hc, ?_⟩
      rw [e]
      simp only [causeCodes, List.mem_cons, List.not_mem_nil, or_false] at hc
      rcases hc with rfl | rfl | rfl | rfl | rfl | rfl <;> decide
    · exact .inr k
  · have hm := ho.runs.2.1
    obtain ⟨ih1, ih2⟩ := ih fun d' h1 h2 => hoff d' (by omega) h2
    rcases ho.cause with ⟨i, c, hc, hi, e⟩ | ⟨e, -, e3⟩
    · obtain rfl : i = false := by
        cases i
        · rfl
        · have h1 := (hi rfl).2
          rw [hoff d (by omega) ho.runs.1.1] at h1
          cases h1
      rw [e]
      refine ⟨by simp [Arch.trap, ih1], .inl ⟨c, hc, by simp [Arch.trap, ih1]⟩⟩
    · refine ⟨e3.trans ih1, ?_⟩
      rcases e with e | e
      · rcases ih2 with ih2 | ⟨d', x', h1, h2⟩
        · rw [e]; exact .inl ih2
        · exact .inr ⟨d', x', by omega, h2⟩
      · exact .inr ⟨d, x, by omega, ho.runs.1, e⟩

/-- **C98** (mepc): at every dispatch after a reset mepc is the address of an instruction that was dispatched earlier, or what it was after the reset, unless the program
has written mepc. -/
theorem C98_mepc (h : AfterReset s) (hr : s.RegisteredAck inp) (hd : s.Dispatching inp t) :
    (s.run inp t).arch.mepc = (s.run inp 5).arch.mepc ∨ (∃ d < t, s.Dispatching inp d ∧ (s.run inp t).arch.mepc = (s.run inp d).arch.pc) ∨
      ∃ d x, d < t ∧ s.Dispatches inp d x ∧ writesCsr .mepc x = true := by
  have hs : ∃ u mem rd, s = State.resetRegs u mem rd := by
    rcases h with h | ⟨σ, en, i, -, h⟩ <;> exact ⟨_, _, _, h⟩
  rw [(boot_run hs inp).2.2.2.2.1]
  refine from_reset h hr (P := fun t a => a.mepc = (s.boot (inp 0)).mepc ∨ (∃ d < t, s.Dispatching inp d ∧ a.mepc = (s.run inp d).arch.pc) ∨
      ∃ d x, d < t ∧ s.Dispatches inp d x ∧ writesCsr .mepc x = true) (fun _ => .inl rfl) (fun d x m ho ih => ?_) t hd
  have hm := ho.runs.2.1
  rcases ho.cause with ⟨i, c, -, -, e⟩ | ⟨-, e | e, -⟩
  · rw [e]; exact .inr (.inl ⟨d, by omega, ho.runs.1.1, rfl⟩)
  · rcases ih with ih | ⟨d', h1, h2⟩ | ⟨d', x', h1, h2⟩
    · exact .inl (e.trans ih)
    · exact .inr (.inl ⟨d', by omega, h2.1, e.trans h2.2⟩)
    · exact .inr (.inr ⟨d', x', by omega, h2⟩)
  · exact .inr (.inr ⟨d, x, by omega, ho.runs.1, e⟩)

/-- A program with a handler at byte address 16 that looks at mcause and mepc and then traps itself. -/
def causesProgram : List Word :=
  [0x01000093#32,  -- addi x1, x0, 16
   0x30509073#32,  -- csrrw x0, mtvec, x1
   0x00000073#32,  -- ecall
   0x00000013#32,  -- addi x0, x0, 0
   0x34202373#32,  -- csrrs x6, mcause, x0
   0x341023F3#32,  -- csrrs x7, mepc, x0
   0x00102103#32]  -- lw x2, 1(x0)

/-- The hypotheses are met: from cycle 17, in which the ECALL is dispatched, to cycle 55, with two traps in between, nothing writes x1 or mtvec; in cycle 24 mcause is 11 and
mepc 8, in cycle 48 they are 4 and 24. -/
example : AfterReset powerOn ∧ powerOn.RegisteredAck (demoIn causesProgram false) ∧ powerOn.Dispatching (demoIn causesProgram false) 17 ∧
    powerOn.Dispatching (demoIn causesProgram false) 55 ∧
    (∀ d x, 17 ≤ d → d < 55 → powerOn.Dispatches (demoIn causesProgram false) d x → writesReg 1 x = false ∧ writesCsr .mtvec x = false ∧ writesCsr .mcause x = false) ∧
    (powerOn.run (demoIn causesProgram false) 17).arch.reg 1 = 16 ∧
    (powerOn.run (demoIn causesProgram false) 24).arch.mcause = 11 ∧ (powerOn.run (demoIn causesProgram false) 24).arch.mepc = 8 ∧
    (powerOn.run (demoIn causesProgram false) 48).arch.mcause = 4 ∧ (powerOn.run (demoIn causesProgram false) 48).arch.mepc = 24 := by
  have hc : ∀ n, powerOn.run (demoIn causesProgram false) n = ((demo causesProgram).run (fun _ => false) n).cpu := fun n => (Soc.run_cpu (demo causesProgram) (fun _ => false) n).symm
  have key : ∀ v, v < 38 → ((demo causesProgram).run (fun _ => false) (17 + v)).cpu.uop = rom 1#8 →
      ∀ x, x = ((demo causesProgram).run (fun _ => false) (17 + v)).ram.mem
        ((wordAdr ((demo causesProgram).run (fun _ => false) (17 + v)).cpu.arch.pc).setWidth 5) →
      writesReg 1 x = false ∧ writesCsr .mtvec x = false ∧ writesCsr .mcause x = false := by
    simp only [forall_eq]
    decide +kernel
  refine ⟨.inl rfl, Soc.registered (demo_reset _), ⟨by decide, ?_⟩, ⟨by decide, ?_⟩, fun d x h1 h2 hd => ?_, ?_, ?_, ?_, ?_, ?_⟩
  · rw [hc]; decide +kernel
  · rw [hc]; decide +kernel
  · have hx := Soc.C91_code (demo_reset causesProgram) (fun _ => false) hd
    have := key (d - 17) (by omega)
    rw [show 17 + (d - 17) = d by omega] at this
    refine this ?_ x hx
    rw [← hc]; exact hd.1.2
  all_goals rw [hc]; decide +kernel

end Sentinel
