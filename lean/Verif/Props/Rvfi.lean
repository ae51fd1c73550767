import Verif.Proof.RvfiCsrTrap
import Verif.Props.Mem
/-!
# C49–C55: what the RVFI harness reports

`r.run s inp T` is the state of the harness in cycle `T`, started together with a core in state `s`.
An instruction dispatched in cycle `t` and executed in `m` cycles is reported in cycle `t + m - 1`,
the last one before the next dispatch.
-/

set_option linter.unusedSimpArgs false

namespace Sentinel
open Ucode Spec

variable {s : State} {inp : Nat → Input} {t t' m m' : Nat} {w w' : Word} {r : Rvfi} {c : Csr}

theorem Rvfi.AfterReset.init (hr : r.AfterReset) : r.inInit = true ∧ r.order = 0 ∧ r.intr = false := by
  obtain ⟨p1, p2, q, rfl, -⟩ := hr
  exact ⟨rfl, rfl, rfl⟩

/-! ## Concrete cases -/

theorem poll_mem {b : Bool} (hb : Event.poll b ∈ s.events inp t m) : ∃ t', (inp t').irq = b := by
  induction m generalizing t with
  | zero => cases hb
  | succ m ih =>
    simp only [State.events, List.mem_append, State.obs] at hb
    rcases hb with (hb | hb) | hb
    · split at hb <;> simp at hb
    · split at hb
      · simp at hb; exact ⟨t, hb.symm⟩
      · cases hb
    · exact ih hb

/-- With the interrupt line low an instruction traps iff it raises an exception. -/
theorem traps_low (h : OneInstr s inp t w m) (hq : ∀ t, (inp t).irq = false) :
    traps (s.run inp t).arch w (s.events inp t m) = (excCause (s.run inp t).arch w).isSome := by
  have hut : (s.run inp t).uop = u_01 := by rw [← rom_01]; exact h.runs.1.1.2
  have hm := h.runs.2.1
  obtain ⟨m', rfl⟩ : ∃ m', m = m' + 1 := ⟨m - 1, by omega⟩
  simp only [State.events, State.obs_dispatch hut, List.singleton_append, traps, hq, Bool.false_and,
    Bool.false_or]
  generalize hl : s.events inp (t + 1) m' = l
  rcases l with _ | ⟨_ | b, l⟩
  · simp
  · simp
  · obtain ⟨t', ht⟩ := poll_mem (s := s) (inp := inp) (t := t + 1) (m := m') (b := b) (by rw [hl]; simp)
    rw [hq] at ht
    simp [← ht]

/-- The `n`-th and the next instruction of a program, with the interrupt line low. -/
theorem demo_two (p : List Word) (n : Nat) {w w' : Word} {P P' : Arch → Prop}
    (hw : (demoAt p false n).1.2 = w) (hw' : (demoAt p false (n + 1)).1.2 = w')
    (hP : P (demoAt p false n).1.1) (hP' : P' (demoAt p false (n + 1)).1.1) :
    ∃ inp t m m', OneInstr powerOn inp t w m ∧ OneInstr powerOn inp (t + m) w' m' ∧
      (∀ t, (inp t).irq = false) ∧ P (powerOn.run inp t).arch ∧ P' (powerOn.run inp (t + m)).arch := by
  obtain ⟨T, hT⟩ := demo_seq p false
  obtain ⟨h1, h2, h3⟩ := hT n
  obtain ⟨h1', -, h3'⟩ := hT (n + 1)
  have e : T n + (T (n + 1) - T n) = T (n + 1) := by omega
  refine ⟨demoIn p false, T n, T (n + 1) - T n, T (n + 1 + 1) - T (n + 1), hw ▸ h1, ?_,
    fun _ => rfl, h3 ▸ hP, ?_⟩
  · rw [e]; exact hw' ▸ h1'
  · rw [e]; exact h3' ▸ hP'

theorem rvfi_reset : ({} : Rvfi).AfterReset := ⟨0, 0, fun _ => 0, rfl, rfl, rfl, rfl⟩

/-! ## C49 -/

/-- **C49** (when): the harness says `valid` exactly in the last cycle of each instruction: never for
anything else, and never twice. -/
theorem C49_valid (hs : AfterReset s) (ha : s.RegisteredAck inp) (hr : r.AfterReset) (T : Nat) :
    r.validAt s inp T = true ↔ ∃ t w m, OneInstr s inp t w m ∧ T + 1 = t + m := by
  rw [valid_iff hs ha hr.init.1]
  constructor
  · rintro ⟨t, w, m, h1, h2⟩; exact ⟨t, w, m, ⟨hs, ha, h1⟩, h2⟩
  · rintro ⟨t, w, m, h1, h2⟩; exact ⟨t, w, m, h1.runs, h2⟩

/-- **C49** (what): the instruction word reported is the one that was executed. -/
theorem C49_insn (h : OneInstr s inp t w m) : (r.run s inp (t + m - 1)).insn = w := by
  have hm := two_cycles h.reset h.ack h.runs
  have := (insn_report (r := r) h.reset h.ack h.runs (j := m - 1) (by omega)).1
  rwa [show t + (m - 1) = t + m - 1 by omega] at this

/-- **C49** (order): the instructions are numbered consecutively from 0 (modulo 2^64). -/
theorem C49_order (hr : r.AfterReset) (s : State) (inp : Nat → Input) (T : Nat) :
    (r.run s inp T).order =
      BitVec.ofNat 64 ((List.range T).filter fun T' => r.validAt s inp T').length := by
  induction T with
  | zero => exact hr.init.2.1
  | succ T ih =>
    have e : (r.run s inp (T + 1)).order = if r.validAt s inp T then (r.run s inp T).order + 1
      else (r.run s inp T).order := rfl
    rw [e, List.range_succ, List.filter_append, List.length_append, ih]
    cases hv : r.validAt s inp T
    · simp [hv]
    · simp [hv, BitVec.ofNat_add]

/-- An `addi x1, x0, 5` is reported, once, as such. -/
example : ∃ inp t m m', OneInstr powerOn inp t 0x00500093#32 m ∧
    ({} : Rvfi).validAt powerOn inp (t + m - 1) = true ∧
    (({} : Rvfi).run powerOn inp (t + m - 1)).insn = 0x00500093#32 ∧
    OneInstr powerOn inp (t + m) 0x00102103#32 m' ∧
    (({} : Rvfi).run powerOn inp (t + m + m' - 1)).insn = 0x00102103#32 := by
  obtain ⟨inp, t, m, m', h1, h2, -⟩ := demo_two [0x00500093#32, 0x00102103#32] 0 (P := fun _ => True)
    (P' := fun _ => True) (w := 0x00500093#32) (w' := 0x00102103#32) (by decide +kernel) (by decide +kernel)
    trivial trivial
  refine ⟨inp, t, m, m', h1, (C49_valid h1.reset h1.ack rvfi_reset _).2 ⟨_, _, _, h1, ?_⟩,
    C49_insn h1, h2, C49_insn h2⟩
  have := h1.runs.2.1
  omega

/-! ## C50 -/

/-- **C50** (program counter): the address of the instruction, and that of the next one to be
executed (the trap vector after a trap, the target after a jump). -/
theorem C50_pc (h : OneInstr s inp t w m) :
    (r.run s inp (t + m - 1)).pcRdata = (s.run inp t).arch.pc ∧
      Rvfi.pcWdata (s.run inp (t + m - 1)) (inp (t + m - 1)) =
        (s.run inp (t + m)).arch.pc := by
  have hm := two_cycles h.reset h.ack h.runs
  have h1 := (insn_report (r := r) h.reset h.ack h.runs (j := m - 1) (by omega)).2.2.2
  rw [show t + (m - 1) = t + m - 1 by omega] at h1
  refine ⟨h1, ?_⟩
  have hc := last_commits h.reset h.ack h.runs
  obtain ⟨-, -, -, -, -, -, -, hp⟩ := committing h.reset h.ack hc
  have e : s.run inp (t + m - 1 + 1) = (s.run inp (t + m - 1)).step (inp (t + m - 1)) := rfl
  rw [show t + m - 1 + 1 = t + m by omega] at e
  rw [e]
  simp [Rvfi.pcWdata, hc, State.arch, State.step, hp, pcNext]

/-- **C50** (source registers): the register numbers in the instruction word, and the values these
registers had before the instruction. -/
theorem C50_rs (h : OneInstr s inp t w m) :
    (r.run s inp (t + m - 1)).rs1Addr = w.extractLsb' 15 5 ∧
      (r.run s inp (t + m - 1)).rs2Addr = w.extractLsb' 20 5 ∧
      (r.run s inp (t + m - 1)).rs1Rdata = (s.run inp t).arch.reg (w.extractLsb' 15 5) ∧
      (r.run s inp (t + m - 1)).rs2Rdata = (s.run inp t).arch.reg (w.extractLsb' 20 5) := by
  have hm := two_cycles h.reset h.ack h.runs
  obtain ⟨-, h1, h2, -⟩ := insn_report (r := r) h.reset h.ack h.runs (j := m - 1) (by omega)
  obtain ⟨h3, h4⟩ := rs_report (r := r) h.reset h.ack h.runs (j := m - 2) (by omega)
  rw [show t + (m - 1) = t + m - 1 by omega] at h1 h2
  rw [show t + (m - 2 + 1) = t + m - 1 by omega] at h3 h4
  exact ⟨h1, h2, h3, h4⟩

/-- `add x3, x1, x2` at address 8. -/
example : ∃ s inp t m, OneInstr s inp t 0x002081B3#32 m ∧
    (({} : Rvfi).run s inp (t + m - 1)).pcRdata = 8 ∧
    (({} : Rvfi).run s inp (t + m - 1)).rs1Rdata = 5 ∧ (({} : Rvfi).run s inp (t + m - 1)).rs2Rdata = 7 := by
  obtain ⟨s, inp, t, m, h, -, h1, h2, h3⟩ := demo_quiet (P := fun a => a.pc = 8 ∧ a.reg 1 = 5 ∧ a.reg 2 = 7)
    [0x00500093#32, 0x00700113#32, 0x002081B3#32] 2 (w := 0x002081B3#32) (by decide +kernel)
    (by decide +kernel)
  refine ⟨s, inp, t, m, h, ?_, ?_, ?_⟩
  · rw [(C50_pc h).1, h1]
  · rw [(C50_rs h).2.2.1]; exact h2
  · rw [(C50_rs h).2.2.2]; exact h3

/-! ## C51 -/

/-- **C51**: both masks are 0 if the instruction made no data access; else address, byte lanes and
data of its (last) data access, as it was on the bus. -/
theorem C51_mem (h : OneInstr s inp t w m) {a' : Arch} {l : List Event} (hE : s.Effect inp t m a' l) :
    let v := r.run s inp (t + m - 1)
    match lastAccess l with
    | none => v.memRmask = 0 ∧ v.memWmask = 0
    | some (q, d) => v.memAddr = q.adr ++ 0#2 ∧ v.memRdata = d ∧
      if q.we then v.memRmask = 0 ∧ v.memWmask = q.sel ∧ v.memWdata &&& laneMask q.sel = q.data
      else v.memRmask = q.sel ∧ v.memWmask = 0 := by
  have := mem_report (r := r) h.reset h.ack h.runs hE
  simp only
  split
  · next e => rw [e] at this; exact this
  · next q d e => rw [e] at this; exact this

/-- **C51** (load): an aligned load reports the lanes it read and the bus word; `rd_wdata` is the value
extracted from that word. -/
theorem C51_load {op : LdOp} {rd rs1 : Reg} {imm : BitVec 12} (h : OneInstr s inp t w m)
    (hi : ¬ s.IrqTaken inp t) (hw : decode w = some (.load op rd rs1 imm))
    (ha : ((s.run inp t).arch.reg rs1 + imm.signExtend 32).toNat % op.size = 0) :
    let v := r.run s inp (t + m - 1)
    let adr := (s.run inp t).arch.reg rs1 + imm.signExtend 32
    v.memAddr = (readReq adr op.size).adr ++ 0#2 ∧ v.memRmask = (readReq adr op.size).sel ∧
      v.memWmask = 0 ∧ (rd ≠ 0 → (s.run inp (t + m)).arch.reg rd = loadValue op adr v.memRdata) := by
  obtain ⟨d, hE⟩ := C04_load h hi hw ha
  obtain ⟨h1, h2, h3⟩ := C51_mem (r := r) h hE
  simp only [show (readReq ((s.run inp t).arch.reg rs1 + imm.signExtend 32) op.size).we = false from rfl,
    Bool.false_eq_true, if_false] at h3
  refine ⟨h1, h3.1, h3.2, fun h0 => ?_⟩
  rw [h2, hE.1]
  have h0 : ¬ rd = 0#5 := h0
  simp [Arch.reg, Arch.setReg, h0]

/-- **C51** (store): an aligned store reports the lanes it wrote and, in those lanes, the bytes of
`rs2`. -/
theorem C51_store {op : StOp} {rs1 rs2 : Reg} {imm : BitVec 12} (h : OneInstr s inp t w m)
    (hi : ¬ s.IrqTaken inp t) (hw : decode w = some (.store op rs1 rs2 imm))
    (ha : ((s.run inp t).arch.reg rs1 + imm.signExtend 32).toNat % op.size = 0) :
    let v := r.run s inp (t + m - 1)
    let q := writeReq ((s.run inp t).arch.reg rs1 + imm.signExtend 32) op.size ((s.run inp t).arch.reg rs2)
    v.memAddr = q.adr ++ 0#2 ∧ v.memRmask = 0 ∧ v.memWmask = q.sel ∧
      v.memWdata &&& laneMask q.sel = q.data := by
  obtain ⟨d, hE⟩ := C05_store h hi hw ha
  obtain ⟨h1, -, h3⟩ := C51_mem (r := r) h hE
  simp only [show (writeReq ((s.run inp t).arch.reg rs1 + imm.signExtend 32) op.size
    ((s.run inp t).arch.reg rs2)).we = true from rfl, if_true] at h3
  exact ⟨h1, h3.1, h3.2.1, h3.2.2⟩

theorem path_polls {a a' : Arch} {l : List Event} {ins : Instr}
    (h1 : ∀ op rd rs1 imm, ins = .load op rd rs1 imm →
      (a.reg rs1 + imm.signExtend 32).toNat % op.size ≠ 0)
    (h2 : ∀ op rs1 rs2 imm, ins = .store op rs1 rs2 imm →
      (a.reg rs1 + imm.signExtend 32).toNat % op.size ≠ 0)
    (hp : (execInstr .asBuilt a ins).Path l a') : lastAccess l = none := by
  cases ins with
  | load op rd rs1 imm =>
    simp only [execInstr, aligned, h1 op rd rs1 imm rfl, decide_false, Bool.false_eq_true, if_false] at hp
    cases hp; rfl
  | store op rs1 rs2 imm =>
    simp only [execInstr, aligned, h2 op rs1 rs2 imm rfl, decide_false, Bool.false_eq_true, if_false] at hp
    cases hp; rfl
  | csr op rd src adr =>
    simp only [execInstr] at hp
    cases hp with
    | poll hp =>
      beta_reduce at hp
      split at hp
      · cases hp; rfl
      · split at hp
        · cases hp; rfl
        · split at hp <;> (cases hp; rfl)
        · simp only [execCsr] at hp
          split at hp
          · cases hp with
            | poll hp =>
              beta_reduce at hp
              split at hp
              · cases hp with
                | poll hp => cases hp; rfl
              · cases hp; rfl
          · cases hp; rfl
  | jal | jalr => simp only [execInstr] at hp; split at hp <;> (cases hp; rfl)
  | branch =>
    simp only [execInstr] at hp
    split at hp
    · split at hp <;> (cases hp; rfl)
    · cases hp; rfl
  | _ => simp only [execInstr] at hp; cases hp; rfl

/-- **C51** (no access): an instruction that traps, and one that is no load or store, reports no access. -/
theorem C51_none (h : OneInstr s inp t w m)
    (hn : traps (s.run inp t).arch w (s.events inp t m) = true ∨
      ∀ ins, decode w = some ins → (∀ op rd rs1 imm, ins ≠ .load op rd rs1 imm) ∧
        ∀ op rs1 rs2 imm, ins ≠ .store op rs1 rs2 imm) :
    (r.run s inp (t + m - 1)).memRmask = 0 ∧ (r.run s inp (t + m - 1)).memWmask = 0 := by
  by_cases hi : s.IrqTaken inp t
  · exact C51_mem h (h.irq hi)
  cases hw : decode w with
  | none => exact C51_mem h (h.ofNone hi hw)
  | some ins =>
    obtain ⟨l, hp, hE⟩ := h.ofSome hi hw
    have hb : ((inp t).irq && (s.run inp t).arch.intEnabled) = false := by
      simpa [State.IrqTaken, Arch.intEnabled] using hi
    have hl : lastAccess l = none := by
      refine path_polls ?_ ?_ hp
      · rintro op rd rs1 imm rfl
        rcases hn with hn | hn
        · obtain ⟨-, w', he, -⟩ := hE
          rw [he] at hn
          simp only [List.singleton_append, List.cons_append, traps, hb, Bool.false_or, isCsr, hw,
            Bool.false_and, Bool.or_false, excCause] at hn
          intro h0
          simp [-BitVec.toNat_add, h0] at hn
        · exact absurd rfl ((hn _ hw).1 op rd rs1 imm)
      · rintro op rs1 rs2 imm rfl
        rcases hn with hn | hn
        · obtain ⟨-, w', he, -⟩ := hE
          rw [he] at hn
          simp only [List.singleton_append, List.cons_append, traps, hb, Bool.false_or, isCsr, hw,
            Bool.false_and, Bool.or_false, excCause] at hn
          intro h0
          simp [-BitVec.toNat_add, h0] at hn
        · exact absurd rfl ((hn _ hw).2 op rs1 rs2 imm)
    have := C51_mem (r := r) h hE
    rw [hl] at this
    exact this

/-- A store `sb x1, 65(x0)`: the lane and the data are those on the bus. -/
example : ∃ s inp t m, OneInstr s inp t 0x041000A3#32 m ∧
    (({} : Rvfi).run s inp (t + m - 1)).memWmask = 2 ∧ (({} : Rvfi).run s inp (t + m - 1)).memRmask = 0 ∧
    (({} : Rvfi).run s inp (t + m - 1)).memAddr = 64 ∧
    (({} : Rvfi).run s inp (t + m - 1)).memWdata &&& 0xFF00#32 = 0x500#32 := by
  obtain ⟨s, inp, t, m, h, hi, h1⟩ := demo_quiet (P := fun a => a.reg 1 = 5)
    [0x00500093#32, 0x041000A3#32] 1 (w := 0x041000A3#32) (by decide +kernel) (by decide +kernel)
  have e0 : (s.run inp t).arch.reg 0 = 0 := rfl
  obtain ⟨k1, k2, k3, k4⟩ := C51_store (r := {}) (op := .sb) (rs1 := 0) (rs2 := 1) (imm := 65) h hi (by decide)
    (by rw [e0]; decide)
  rw [h1, e0] at k1 k3 k4
  exact ⟨s, inp, t, m, h, k3, k2, k1, k4⟩

/-- A load `lh x2, 2(x1)` with 4 in `x1` reads the high half of the word at 4. -/
example : ∃ s inp t m, OneInstr s inp t 0x00209103#32 m ∧
    (({} : Rvfi).run s inp (t + m - 1)).memRmask = 12 ∧ (({} : Rvfi).run s inp (t + m - 1)).memAddr = 4 := by
  obtain ⟨s, inp, t, m, h, hi, h1⟩ := demo_quiet (P := fun a => a.reg 1 = 4)
    [0x00400093#32, 0x00209103#32] 1 (w := 0x00209103#32) (by decide +kernel) (by decide +kernel)
  obtain ⟨k1, k2, -⟩ := C51_load (r := {}) (op := .lh) (rd := 2) (rs1 := 1) (imm := 2) h hi (by decide)
    (by rw [h1]; decide)
  rw [h1] at k1 k2
  exact ⟨s, inp, t, m, h, k2, k1⟩

/-! ## C52 -/

/-- **C52** (trap): `trap` is reported exactly for the instructions that end in a trap: an exception of
their own, or an interrupt taken instead of them. -/
theorem C52_trap (h : OneInstr s inp t w m) :
    (r.run s inp (t + m - 1)).trap = traps (s.run inp t).arch w (s.events inp t m) :=
  trap_report h.reset h.ack h.runs

/-- **C52** (first instruction of a handler): `intr` is reported exactly for an instruction that
follows one that ended in a trap. -/
theorem C52_intr (hr : r.AfterReset) (h : OneInstr s inp t w m) (h' : OneInstr s inp (t + m) w' m') :
    (r.run s inp (t + m + m' - 1)).intr = traps (s.run inp t).arch w (s.events inp t m) := by
  have hm := two_cycles h.reset h.ack h.runs
  have hm' := two_cycles h'.reset h'.ack h'.runs
  have h1 := intr_at (r := r) h'.reset h'.ack h'.runs (j := m' - 1) (by omega)
  rw [show t + m + (m' - 1) = t + m + m' - 1 by omega] at h1
  have e : (r.run s inp (t + m - 1 + 1)).intr = if r.validAt s inp (t + m - 1) then
    (r.run s inp (t + m - 1)).trap else (r.run s inp (t + m - 1)).intr := rfl
  rw [(C49_valid h.reset h.ack hr _).2 ⟨t, w, m, h, by omega⟩, if_pos rfl,
    show t + m - 1 + 1 = t + m by omega, C52_trap h] at e
  rw [h1, e]

/-- **C52** (after reset): the first instruction is not reported as the first one of a handler. -/
theorem C52_first (hr : r.AfterReset) (h : OneInstr s inp t w m)
    (h0 : ∀ t', t' < t → ¬ s.Dispatching inp t') : (r.run s inp (t + m - 1)).intr = false := by
  have hm := two_cycles h.reset h.ack h.runs
  have h1 := intr_at (r := r) h.reset h.ack h.runs (j := m - 1) (by omega)
  rw [show t + (m - 1) = t + m - 1 by omega] at h1
  rw [h1]
  have key : ∀ T, T ≤ t → (r.run s inp T).intr = false := by
    intro T hT
    induction T with
    | zero => exact hr.init.2.2
    | succ T ih =>
      have e : (r.run s inp (T + 1)).intr = if r.validAt s inp T then
        (r.run s inp T).trap else (r.run s inp T).intr := rfl
      rw [e]
      cases hv : r.validAt s inp T
      · exact ih (by omega)
      · obtain ⟨t', w', m', h1, h2⟩ := (C49_valid h.reset h.ack hr T).1 hv
        have := h1.runs.2.1
        exact absurd h1.runs.1.1 (h0 t' (by omega))
  exact key t (Nat.le_refl t)

/-- The program of deviation D9: `addi x1, x0, 5`, then the misaligned `lw x2, 1(x0)`. -/
def d9Program : List Word := [0x00500093#32, 0x00102103#32]

/-- A misaligned load traps, the instruction before it does not; its successor is in the handler. -/
example : ∃ inp t m m', OneInstr powerOn inp t 0x00500093#32 m ∧
    OneInstr powerOn inp (t + m) 0x00102103#32 m' ∧
    (({} : Rvfi).run powerOn inp (t + m - 1)).trap = false ∧
    (({} : Rvfi).run powerOn inp (t + m + m' - 1)).trap = true ∧
    (({} : Rvfi).run powerOn inp (t + m + m' - 1)).intr = false := by
  obtain ⟨inp, t, m, m', h1, h2, hq, e1, e2⟩ := demo_two d9Program 0
    (P := fun a => (excCause a 0x00500093#32).isSome = false)
    (P' := fun a => (excCause a 0x00102103#32).isSome = true)
    (w := 0x00500093#32) (w' := 0x00102103#32) (by decide +kernel) (by decide +kernel)
    (by decide +kernel) (by decide +kernel)
  refine ⟨inp, t, m, m', h1, h2, ?_, ?_, ?_⟩
  · rw [C52_trap h1, traps_low h1 hq, e1]
  · rw [C52_trap h2, traps_low h2 hq, e2]
  · rw [C52_intr rvfi_reset h1 h2, traps_low h1 hq, e1]

/-! ## C53 -/

/-- **C53** for an instruction that completes (missing: those that trap, deviation D9): `rd_addr` is its destination register (0 if it has
none) and `rd_wdata` the value this register has afterwards (0 for `x0`). -/
theorem C53_rd_partial (h : OneInstr s inp t w m) {ins : Instr} (hw : decode w = some ins)
    (hx : traps (s.run inp t).arch w (s.events inp t m) = false) :
    (r.run s inp (t + m - 1)).rdAddr = (destReg ins).getD 0 ∧
      (r.run s inp (t + m - 1)).rdWdata (s.run inp (t + m - 1)) (inp (t + m - 1)) =
        (s.run inp (t + m)).arch.reg ((destReg ins).getD 0) :=
  rd_report h.reset h.ack h.runs hw hx

/-- A word that does not encode an instruction never completes. -/
theorem C53_none (h : OneInstr s inp t w m) (hw : decode w = none) :
    traps (s.run inp t).arch w (s.events inp t m) = true := by
  have hut : (s.run inp t).uop = u_01 := by rw [← rom_01]; exact h.runs.1.1.2
  have hm := h.runs.2.1
  obtain ⟨m', rfl⟩ : ∃ m', m = m' + 1 := ⟨m - 1, by omega⟩
  simp [State.events, State.obs_dispatch hut, traps, excCause, hw]

/-- Deviation D9: an instruction that traps still reports its destination register, with the value that
the instruction before it wrote to *its* destination. -/
theorem C53_stale (h : OneInstr s inp t w m) {ins ins' : Instr} {q q' : Reg}
    (hw : decode w = some ins) (hx : traps (s.run inp t).arch w (s.events inp t m) = false)
    (hd : destReg ins = some q) (hq : q ≠ 0)
    (h' : OneInstr s inp (t + m) w' m') (hw' : decode w' = some ins')
    (hx' : traps (s.run inp (t + m)).arch w' (s.events inp (t + m) m') = true)
    (hd' : destReg ins' = some q') (hq' : q' ≠ 0) (hc : isCsr w' = false) :
    (r.run s inp (t + m + m' - 1)).rdAddr = q' ∧
      (r.run s inp (t + m + m' - 1)).rdWdata (s.run inp (t + m + m' - 1)) (inp (t + m + m' - 1)) =
        (s.run inp (t + m)).arch.reg q := by
  exact rd_stale h.reset h.ack h.runs hw hx hd hq h'.runs hw' hx' hd' hq' hc

/-- **C53** for a CSR instruction that traps (an exception of its own, or an interrupt seen by its second
sample): no destination is reported. -/
theorem C53_csr {op rd src adr} (h : OneInstr s inp t w m) (hi : ¬ s.IrqTaken inp t)
    (hw : decode w = some (.csr op rd src adr))
    (hx : traps (s.run inp t).arch w (s.events inp t m) = true) :
    (r.run s inp (t + m - 1)).rdAddr = 0 ∧
      (r.run s inp (t + m - 1)).rdWdata (s.run inp (t + m - 1)) (inp (t + m - 1)) = 0 := by
  have := rd_csr (r := r) h hi hw hx
  exact ⟨this, by simp [Rvfi.rdWdata, this]⟩

/-- `csrrw x2, 0x7C0, x1`: the CSR does not exist. -/
example : ∃ s inp t m, OneInstr s inp t 0x7C009173#32 m ∧
    traps (s.run inp t).arch 0x7C009173#32 (s.events inp t m) = true ∧
    (({} : Rvfi).run s inp (t + m - 1)).rdAddr = 0 := by
  obtain ⟨s, inp, t, m, h, hi, h1⟩ := demo_quiet
    (P := fun a => (excCause a 0x7C009173#32).isSome = true)
    [0x00500093#32, 0x7C009173#32] 1 (w := 0x7C009173#32) (by decide +kernel) (by decide +kernel)
  have hx : traps (s.run inp t).arch 0x7C009173#32 (s.events inp t m) = true := by
    obtain ⟨l, -, ⟨-, w', hev, -⟩, -⟩ := h.csr (op := .rw) (rd := 2) (src := .reg 1) (adr := 0x7C0) hi
      (by decide)
    rw [hev]
    simp [traps, h1]
  exact ⟨s, inp, t, m, h, hx, (C53_csr (op := .rw) (rd := 2) (src := .reg 1) (adr := 0x7C0) h hi
    (by decide) hx).1⟩

/-- **C53, full statement**: what is reported is the register write that the instruction made, if
any; one that traps makes none. -/
def C53_full : Prop :=
  ∀ s inp t w m (r : Rvfi), OneInstr s inp t w m → r.AfterReset →
    if traps (s.run inp t).arch w (s.events inp t m) then (r.run s inp (t + m - 1)).rdAddr = 0
    else ∀ ins, decode w = some ins → (r.run s inp (t + m - 1)).rdAddr = (destReg ins).getD 0 ∧
      (r.run s inp (t + m - 1)).rdWdata (s.run inp (t + m - 1)) (inp (t + m - 1)) =
        (s.run inp (t + m)).arch.reg ((destReg ins).getD 0)

/-- The `addi` reports `x1 := 5`; the load that traps reports `x2 := 5`. -/
theorem C53_d9 : ∃ inp t m m', OneInstr powerOn inp t 0x00500093#32 m ∧
    OneInstr powerOn inp (t + m) 0x00102103#32 m' ∧
    traps (powerOn.run inp (t + m)).arch 0x00102103#32 (powerOn.events inp (t + m) m') = true ∧
    (({} : Rvfi).run powerOn inp (t + m - 1)).rdAddr = 1 ∧
    (({} : Rvfi).run powerOn inp (t + m + m' - 1)).rdAddr = 2 ∧
    (({} : Rvfi).run powerOn inp (t + m + m' - 1)).rdWdata (powerOn.run inp (t + m + m' - 1))
      (inp (t + m + m' - 1)) = 5 := by
  obtain ⟨inp, t, m, m', h1, h2, hq, e1, e2, e3⟩ := demo_two d9Program 0
    (P := fun a => (excCause a 0x00500093#32).isSome = false)
    (P' := fun a => (excCause a 0x00102103#32).isSome = true ∧ a.reg 1 = 5)
    (w := 0x00500093#32) (w' := 0x00102103#32) (by decide +kernel) (by decide +kernel)
    (by decide +kernel) (by decide +kernel)
  have k1 : traps (powerOn.run inp t).arch 0x00500093#32 (powerOn.events inp t m) = false := by
    rw [traps_low h1 hq, e1]
  have k2 : traps (powerOn.run inp (t + m)).arch 0x00102103#32 (powerOn.events inp (t + m) m') = true := by
    rw [traps_low h2 hq, e2]
  have d1 : decode 0x00500093#32 = some (.opImm .add 1 0 5) := by decide
  have d2 : decode 0x00102103#32 = some (.load .lw 2 0 1) := by decide
  obtain ⟨g1, g2⟩ := C53_stale (r := {}) h1 d1 k1 rfl (by decide) h2 d2 k2 rfl (by decide) (by decide)
  exact ⟨inp, t, m, m', h1, h2, k2, (C53_rd_partial h1 d1 k1).1, g1, g2.trans e3⟩

/-- Deviation D9: the full statement is false. -/
theorem C53_full_false : ¬ C53_full := by
  intro h
  obtain ⟨inp, t, m, m', -, h2, k2, -, g1, -⟩ := C53_d9
  have := h _ _ _ _ _ {} h2 rvfi_reset
  rw [k2, if_pos rfl, g1] at this
  exact absurd this (by decide)

/-! ## C54 -/

/-- **C54** (before): `rdata` of a CSR is its value before the instruction.  Not claimed for `mip`, and
for `mstatus` only if the instruction neither traps nor is MRET. -/
theorem C54_rdata (h : OneInstr s inp t w m) (hc : c ≠ .mip)
    (hs : c = .mstatus → traps (s.run inp t).arch w (s.events inp t m) = false ∧
      decode w ≠ some .mret) :
    ((r.run s inp (t + m - 1)).csr c).rdata = (s.run inp t).arch.csrRead false c :=
  csr_report h.reset h.ack h.runs hc hs

/-- **C54** (`mip`): `rdata` is the interrupt line, as a CSR, in one of the cycles of the instruction. -/
theorem C54_mip (h : OneInstr s inp t w m) :
    ∃ T, t ≤ T ∧ T + 1 < t + m ∧
      ((r.run s inp (t + m - 1)).csr .mip).rdata = (s.run inp t).arch.csrRead (inp T).irq .mip := by
  have hm := two_cycles h.reset h.ack h.runs
  obtain ⟨T, h1, h2, h3⟩ := mip_at (r := r) h.reset h.ack h.runs (j := m - 2) (by omega)
  rw [show t + (m - 2 + 1) = t + m - 1 by omega] at h3
  exact ⟨T, h1, by omega, h3⟩

/-- **C54** (after): if the instruction writes a CSR and completes, the CSR holds `wdata`: writing
`wdata` to it (with its read-only bits) would change nothing. -/
theorem C54_wdata (h : OneInstr s inp t w m) {ins : Instr} (hw : decode w = some ins)
    (hd : destCsr ins = some c) (hx : traps (s.run inp t).arch w (s.events inp t m) = false) :
    (s.run inp (t + m)).arch.csrWrite ((r.run s inp (t + m - 1)).csr c).wdata c =
      (s.run inp (t + m)).arch :=
  written_report h.reset h.ack h.runs hw hd hx

/-- **C54** (always): from power-on, every CSR but `mstatus` holds the `wdata` reported for it after
every instruction, whoever wrote it last: an instruction, a trap or nobody. -/
theorem C54_always (h : OneInstr powerOn inp t w m) (hr : r.AfterReset) (hc : c ≠ .mstatus) :
    (powerOn.run inp (t + m)).arch.csrWrite ((r.run powerOn inp (t + m - 1)).csr c).wdata c =
      (powerOn.run inp (t + m)).arch := by
  have := holds_always (inp := inp) hr hc (t + m)
  unfold CsrHolds at this
  rwa [wdata_last h.reset h.ack h.runs] at this

/-- **C54** (always, `mie`): after any reset. -/
theorem C54_mie (h : OneInstr s inp t w m) (hr : r.AfterReset) :
    (s.run inp (t + m)).arch.csrWrite ((r.run s inp (t + m - 1)).csr .mie).wdata .mie =
      (s.run inp (t + m)).arch := by
  have := holds_mie (inp := inp) h.reset hr (t + m)
  unfold CsrHolds at this
  rwa [wdata_last h.reset h.ack h.runs] at this

/-- `csrrw x1, mscratch, x1` with 5 in `x1` and 0 in `mscratch`. -/
example : ∃ inp t m, OneInstr powerOn inp t 0x340090F3#32 m ∧
    ((({} : Rvfi).run powerOn inp (t + m - 1)).csr .mscratch).rdata = 0 ∧
    ((({} : Rvfi).run powerOn inp (t + m - 1)).csr .mscratch).wdata = (powerOn.run inp (t + m)).arch.mscratch ∧
    destCsr (.csr .rw 1 (.reg 1) 0x340) = some .mscratch ∧
    traps (powerOn.run inp t).arch 0x340090F3#32 (powerOn.events inp t m) = false := by
  obtain ⟨inp, t, m, m', h1, h2, hq, e1, e2⟩ := demo_two [0x00500093#32, 0x340090F3#32] 0
    (P := fun _ => True)
    (P' := fun a => a.mscratch = 0 ∧ (excCause a 0x340090F3#32).isSome = false)
    (w := 0x00500093#32) (w' := 0x340090F3#32) (by decide +kernel) (by decide +kernel)
    trivial (by decide +kernel)
  have k : traps (powerOn.run inp (t + m)).arch 0x340090F3#32 (powerOn.events inp (t + m) m') = false := by
    rw [traps_low h2 hq, e2.2]
  refine ⟨inp, t + m, m', h2, ?_, ?_, by decide, k⟩
  · rw [C54_rdata h2 (by decide) (by simp)]; exact e2.1
  · have := C54_wdata (r := {}) h2 (ins := .csr .rw 1 (.reg 1) 0x340) (by decide) (c := .mscratch) (by decide) k
    exact congrArg Arch.mscratch this

/-- With the line low through `addi x1, x0, 5`, `mip` is reported as 0. -/
example : ∃ inp t m, OneInstr powerOn inp t 0x00500093#32 m ∧
    ((({} : Rvfi).run powerOn inp (t + m - 1)).csr .mip).rdata = 0 := by
  obtain ⟨inp, t, m, m', h1, h2, hq, -⟩ := demo_two [0x00500093#32, 0x340090F3#32] 0
    (P := fun _ => True) (P' := fun _ => True)
    (w := 0x00500093#32) (w' := 0x340090F3#32) (by decide +kernel) (by decide +kernel) trivial trivial
  obtain ⟨T, -, -, h3⟩ := C54_mip (r := {}) h1
  exact ⟨inp, t, m, h1, by rw [h3, hq]; rfl⟩

/-! ## C55 -/

/-- **C55** (access): for a CSR instruction that names one of the reported read-only-zero CSRs, `wdata`
is what the instruction would have written to a CSR that reads 0. -/
theorem C55_wdata {op rd src adr} (h : OneInstr s inp t w m) (hi : ¬ s.IrqTaken inp t)
    (hw : decode w = some (.csr op rd src adr)) (ha : adr ∈ reportedZeroCsrs) :
    (r.run s inp (t + m - 1)).zeroW adr = csrNew op 0 ((s.run inp t).arch.csrOperand src) :=
  zero_report h hi hw (List.all_eq_true.1
    (by decide : reportedZeroCsrs.all (fun x => rvfiZeroCsrs.contains x) = true) adr ha)

/-- The reported CSRs exist, as CSRs that read zero. -/
theorem C55_zero {adr : BitVec 12} (ha : adr ∈ reportedZeroCsrs) : csrKind adr = .zero := by
  have : reportedZeroCsrs.all (fun x => csrKind x = .zero) = true := by decide
  simpa using List.all_eq_true.1 this adr ha

/-- **C55** (counters): the write mask of a 64-bit counter selects one half; for a CSR instruction that
names a half of the counter it is that half. -/
theorem C55_wmask (k : Counter) {op rd src adr} (h : OneInstr s inp t w m)
    (hw : decode w = some (.csr op rd src adr)) :
    (adr = k.lo → (r.run s inp (t + m - 1)).counterWmask k.hi = 0x00000000FFFFFFFF#64) ∧
      (adr = k.hi → (r.run s inp (t + m - 1)).counterWmask k.hi = 0xFFFFFFFF00000000#64) := by
  have hm := two_cycles h.reset h.ack h.runs
  have := (shadow_at (r := r) h.reset h.ack h.runs (j := m - 1) (by omega)).1
  rw [show t + (m - 1) = t + m - 1 by omega, (decode_csr hw).1] at this
  simp only [Rvfi.counterWmask, this]
  refine ⟨?_, ?_⟩ <;> rintro rfl <;> cases k <;> decide

/-- **C55** (no access): an instruction that does not name a CSR leaves its report alone. -/
theorem C55_keep (h : OneInstr s inp t w m) {adr : BitVec 12}
    (ha : ∀ op rd src, decode w ≠ some (.csr op rd src adr)) :
    (r.run s inp (t + m - 1)).zeroW adr = (r.run s inp t).zeroW adr := by
  have hm := two_cycles h.reset h.ack h.runs
  have := zeroW_keep (r := r) h.reset h.ack h.runs (a := adr) (j := m - 1) (by omega) ?_
  · rwa [show t + (m - 1) = t + m - 1 by omega] at this
  · intro hd he
    have hc := doing_csr h.reset h.ack h.runs.1 hd
    unfold isCsr at hc
    split at hc
    · next op rd src adr' hw =>
      rw [(shadow_at (r := r) h.reset h.ack h.runs (j := 1) (by omega)).1, (decode_csr hw).1] at he
      exact ha op rd src (he ▸ hw)
    · cases hc

/-- **C55** (next instruction): between two instructions the reports do not change. -/
theorem C55_next (h : OneInstr s inp t w m) (adr : BitVec 12) :
    (r.run s inp (t + m)).zeroW adr = (r.run s inp (t + m - 1)).zeroW adr := by
  have hm := two_cycles h.reset h.ack h.runs
  have e : (r.run s inp (t + m - 1 + 1)).zeroW adr = if (r.run s inp (t + m - 1)).doingCsrDecode &&
      (r.run s inp (t + m - 1)).csrAddrShadow = adr && rvfiZeroCsrs.contains adr
    then (r.run s inp (t + m - 1)).zeroVal else (r.run s inp (t + m - 1)).zeroW adr := rfl
  rw [show t + m - 1 + 1 = t + m by omega] at e
  have hd : (r.run s inp (t + m - 1)).doingCsrDecode = false := by
    by_cases h2 : m = 2
    · subst h2
      have hc := last_commits h.reset h.ack h.runs
      rw [show t + 2 - 1 = t + 1 by omega] at hc ⊢
      have e : (r.run s inp (t + 1)).doingCsrDecode =
        decide ((s.run inp t).romAdr (inp t) = 0x24#8) := rfl
      rw [e, decide_eq_false_iff_not]
      intro hx
      have hu : (s.run inp (t + 1)).uop = rom ((s.run inp t).romAdr (inp t)) := rfl
      rw [hx, rom_24] at hu
      simp [State.committed, hu, u_24] at hc
    · have := doing_at (r := r) h.reset h.ack h.runs (j := m - 1) (by omega) (by omega)
      rwa [show t + (m - 1) = t + m - 1 by omega] at this
  rw [e, hd]
  simp

/-- `csrrw x1, misa, x1` with 5 in `x1`: `misa` is among the CSRs reported. -/
example : ∃ s inp t m, OneInstr s inp t 0x301090F3#32 m ∧ 0x301#12 ∈ reportedZeroCsrs ∧
    (({} : Rvfi).run s inp (t + m - 1)).zeroW 0x301 = 5 := by
  obtain ⟨s, inp, t, m, h, hi, h1⟩ := demo_quiet (P := fun a => a.reg 1 = 5)
    [0x00500093#32, 0x301090F3#32] 1 (w := 0x301090F3#32) (by decide +kernel) (by decide +kernel)
  refine ⟨s, inp, t, m, h, by decide, ?_⟩
  rw [C55_wdata (op := .rw) (rd := 1) (src := .reg 1) h hi (by decide) (by decide)]
  exact h1

/-- `csrrw x1, mcycleh, x1` selects the upper half of `mcycle`. -/
example : ∃ s inp t m, OneInstr s inp t 0xB80090F3#32 m ∧
    (({} : Rvfi).run s inp (t + m - 1)).counterWmask Counter.mcycle.hi = 0xFFFFFFFF00000000#64 := by
  obtain ⟨s, inp, t, m, h, hi, -⟩ := demo_quiet (P := fun _ => True)
    [0x00500093#32, 0xB80090F3#32] 1 (w := 0xB80090F3#32) (by decide +kernel) trivial
  exact ⟨s, inp, t, m, h, (C55_wmask .mcycle (op := .rw) (rd := 1) (src := .reg 1) (adr := 0xB80) h
    (by decide)).2 rfl⟩

end Sentinel
