import Verif.Proof.RvfiStatus
import Verif.Props.RiscvFormal
/-!
# C54: `mstatus` and `mip` in the RVFI reports of traps and MRET
-/

namespace Sentinel
open Ucode Spec

variable {s : State} {inp : Nat → Input} {t m : Nat} {w : Word} {r : Rvfi}

/-- **C54** (`mstatus`, traps): what is reported as `mstatus` *before* an instruction that traps, by an
exception or an interrupt, is the value *after* the trap (deviation D15). -/
theorem C54_mstatus_trap (h : OneInstr s inp t w m)
    (hx : traps (s.run inp t).arch w (s.events inp t m) = true) :
    ((r.run s inp (t + m - 1)).csr .mstatus).rdata =
      (s.run inp (t + m)).arch.csrRead false .mstatus :=
  mstatus_trap h.reset h.ack h.runs hx

/-- **C54** (`mstatus`, MRET): what is reported as `mstatus` before an MRET that does not trap is that
value if the next instruction is fetched without wait states, i.e. if the MRET takes 7 cycles, else
the value after the MRET (deviation D15). -/
theorem C54_mstatus_mret (h : OneInstr s inp t w m) (hw : decode w = some .mret)
    (hx : traps (s.run inp t).arch w (s.events inp t m) = false) :
    7 ≤ m ∧ ((r.run s inp (t + m - 1)).csr .mstatus).rdata =
      (s.run inp (if m = 7 then t else t + m)).arch.csrRead false .mstatus :=
  mstatus_mret h.reset h.ack h.runs hw hx

/-- **C54** (`mip`, cycle): the interrupt line reported is that of the last cycle but one of the
instruction, if it traps, is not a CSR instruction or names another implemented CSR. -/
theorem C54_mip_line (h : OneInstr s inp t w m)
    (hw : traps (s.run inp t).arch w (s.events inp t m) = true ∨ isCsr w = false ∨
      ∃ op rd src adr c, decode w = some (.csr op rd src adr) ∧ csrKind adr = .impl c ∧ c ≠ .mip) :
    ((r.run s inp (t + m - 1)).csr .mip).rdata =
      (s.run inp t).arch.csrRead (inp (t + m - 2)).irq .mip :=
  mip_line h.reset h.ack h.runs hw

/-- `csrrsi x0, mstatus, 8; ecall`. -/
def d15Program : List Word := [0x30046073#32, 0x00000073#32]

/-- Deviation D15: before the `ecall` MIE is set and MPIE clear; the report has MIE clear and MPIE
set. -/
theorem C54_d15 : ∃ inp t m, OneInstr powerOn inp t 0x00000073#32 m ∧
    traps (powerOn.run inp t).arch 0x00000073#32 (powerOn.events inp t m) = true ∧
    (powerOn.run inp t).arch.csrRead false .mstatus = 0x1808#32 ∧
    ((({} : Rvfi).run powerOn inp (t + m - 1)).csr .mstatus).rdata = 0x1880#32 := by
  obtain ⟨T, hT⟩ := demo_seq d15Program false
  obtain ⟨h2, l2, e2⟩ := hT 1
  obtain ⟨-, -, e3⟩ := hT 2
  have w2 : (demoAt d15Program false 1).1.2 = 0x00000073#32 := by decide +kernel
  rw [w2] at h2
  have hx : traps (powerOn.run (demoIn d15Program false) (T 1)).arch 0x00000073#32
      (powerOn.events (demoIn d15Program false) (T 1) (T (1 + 1) - T 1)) = true := by
    rw [traps_low h2 fun _ => rfl, e2]
    decide +kernel
  refine ⟨_, _, _, h2, hx, ?_, ?_⟩
  · rw [e2]; decide +kernel
  · have e : T 1 + (T (1 + 1) - T 1) = T 2 := by
      have : T 1 < T 2 := l2
      show T 1 + (T 2 - T 1) = T 2
      omega
    rw [C54_mstatus_trap h2 hx, e, e3]
    decide +kernel

/-- `mret` as the first instruction: it does not trap. -/
example : ∃ inp t m, OneInstr powerOn inp t 0x30200073#32 m ∧ decode 0x30200073#32 = some .mret ∧
    traps (powerOn.run inp t).arch 0x30200073#32 (powerOn.events inp t m) = false ∧ isCsr 0x30200073#32 = false := by
  obtain ⟨T, hT⟩ := demo_seq [0x30200073#32] false
  obtain ⟨h2, l2, e2⟩ := hT 0
  have w2 : (demoAt [0x30200073#32] false 0).1.2 = 0x30200073#32 := by decide +kernel
  rw [w2] at h2
  refine ⟨_, _, _, h2, by decide, ?_, by decide⟩
  rw [traps_low h2 fun _ => rfl, e2]
  decide +kernel

/-! ## The cover statements of `tests/formal/checks.cfg` -/

/-- `lui x1, 0xFEEDD; addi x1, x1, -0x502; csrrw x0, mscratch, x1; nop`. -/
def coverScratch : List Word := [0xFEEDD0B7#32, 0xAFE08093#32, 0x34009073#32, 0x00000013#32]

/-- `addi x1, x0, -0x800; csrrw x0, mie, x1; csrrwi x0, mstatus, 8; addi x1, x0, 5`. -/
def coverIrq : List Word := [0x80000093#32, 0x30409073#32, 0x30045073#32, 0x00500093#32]

/-- **C85** (covers): reports as `checks.cfg` asks for exist: one with 0xFEEDCAFE in `mscratch`; and one of an interrupt that is
taken, with `mcause` as written 0x8000000B, MPIE, MEIP and MEIE set. -/
theorem C85_cover :
    (∃ inp T, powerOn.RegisteredAck inp ∧ ({} : Rvfi).validAt powerOn inp T = true ∧
      ((({} : Rvfi).report powerOn inp T).csr .mscratch).rdata = 0xFEEDCAFE#32) ∧
    (∃ inp T, powerOn.RegisteredAck inp ∧ ({} : Rvfi).validAt powerOn inp T = true ∧
      (({} : Rvfi).report powerOn inp T).trap = true ∧
      ((({} : Rvfi).report powerOn inp T).csr .mcause).wdata = 0x8000000B#32 ∧
      ((({} : Rvfi).report powerOn inp T).csr .mstatus).rdata.getLsbD 7 = true ∧
      ((({} : Rvfi).report powerOn inp T).csr .mip).rdata.getLsbD 11 = true ∧
      ((({} : Rvfi).report powerOn inp T).csr .mie).rdata.getLsbD 11 = true) := by
  constructor
  · obtain ⟨T, hT⟩ := demo_seq coverScratch false
    obtain ⟨h1, -, e1⟩ := hT 3
    refine ⟨_, _, h1.ack, valid_at h1, ?_⟩
    refine (C54_rdata (c := .mscratch) h1 (by decide) (by simp)).trans ?_
    rw [e1]
    decide +kernel
  · obtain ⟨T, hT⟩ := demo_seq coverIrq true
    obtain ⟨h1, l1, e1⟩ := hT 3
    obtain ⟨-, -, e2⟩ := hT 4
    have hm : (demoAt coverIrq true 3).1.1.mie = true ∧ (demoAt coverIrq true 3).1.1.meie = true := by decide +kernel
    rw [← e1] at hm
    have hq : ∀ t, (demoIn coverIrq true t).irq = true := fun _ => rfl
    have e : T 3 + (T (3 + 1) - T 3) = T 4 := by
      have : T 3 < T 4 := l1
      show T 3 + (T 4 - T 3) = T 4
      omega
    have hx : traps (powerOn.run (demoIn coverIrq true) (T 3)).arch (demoAt coverIrq true 3).1.2
        (powerOn.events (demoIn coverIrq true) (T 3) (T (3 + 1) - T 3)) = true := by
      obtain ⟨l, hl⟩ := State.events_head h1.runs.1.1 h1.runs.2.1
      have hb : ((demoIn coverIrq true (T 3)).irq && (powerOn.run (demoIn coverIrq true) (T 3)).arch.intEnabled) = true := by
        simp only [Arch.intEnabled, hq, hm.1, hm.2]; rfl
      simp [hl, traps, hb]
    refine ⟨_, _, h1.ack, valid_at h1, (C52_trap h1).trans hx, ?_, ?_, ?_, ?_⟩
    · have := C54_always (c := .mcause) h1 rvfi_reset (by decide)
      have := congrArg Arch.mcause this
      refine this.trans ?_
      rw [e, e2]
      decide +kernel
    · have := C54_mstatus_trap (r := {}) h1 hx
      refine (congrArg (BitVec.getLsbD · 7) this).trans ?_
      rw [e, e2]
      decide +kernel
    · have := C54_mip_line (r := {}) h1 (.inl hx)
      refine (congrArg (BitVec.getLsbD · 11) this).trans ?_
      rw [hq]
      simp only [Arch.csrRead]
      decide
    · have := C54_rdata (r := {}) (c := .mie) h1 (by decide) (by simp)
      refine (congrArg (BitVec.getLsbD · 11) this).trans ?_
      rw [e1]
      decide +kernel

end Sentinel
