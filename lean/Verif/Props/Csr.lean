import Verif.Props.Jump
import Verif.Proof.CsrSecond
/-!
# C10, C11, C12, C31, C32: control and status registers

A CSR instruction samples the interrupt line twice before it has any effect: in cycle `t`, when it
is dispatched, and in cycle `t + 1`.  If an enabled interrupt is pending in one of them it is taken
and the instruction has no effect (C19); the theorems here are about the other case.
-/

set_option linter.unusedSimpArgs false

namespace Sentinel
open Ucode Spec

variable {s : State} {inp : Nat → Input} {t m : Nat} {w : Word}
  {op : CsrOp} {rd : Reg} {src : CsrSrc} {adr : BitVec 12}

/-- The CSR instruction `w` runs and no interrupt is taken. -/
structure CsrRuns (s : State) (inp : Nat → Input) (t : Nat) (w : Word) (m : Nat) : Prop where
  one : OneInstr s inp t w m
  noIrq : ¬ s.IrqTaken inp t
  noIrq' : ¬ s.IrqTaken inp (t + 1)

theorem CsrRuns.tail (h : CsrRuns s inp t w m) (hw : decode w = some (.csr op rd src adr)) :
    ∃ l, (match csrKind adr with
      | .absent => .ret ((s.run inp t).arch.exception .asBuilt 2)
      | .zero =>
        if csrReadOnly adr ∧ csrWrites op src then .ret ((s.run inp t).arch.exception .asBuilt 2)
        else .ret ((s.run inp t).arch.setReg rd 0).next
      | .impl c => execCsr (s.run inp t).arch op rd src c : Tree Arch).Path l (s.run inp (t + m)).arch ∧
      s.Effect inp t m (s.run inp (t + m)).arch (.poll (inp (t + 1)).irq :: l) := by
  obtain ⟨l, hp, hE, hirq⟩ := h.one.csr h.noIrq hw
  have : ((inp (t + 1)).irq && (s.run inp t).arch.intEnabled) = false := by
    have := h.noIrq'
    rw [hirq] at this
    simpa using this
  simp only [csrTail, this, Bool.false_eq_true, if_false] at hp
  exact ⟨l, hp, hE⟩

theorem CsrRuns.ret {a' : Arch} (h : CsrRuns s inp t w m) (hw : decode w = some (.csr op rd src adr))
    (he : (match csrKind adr with
      | .absent => .ret ((s.run inp t).arch.exception .asBuilt 2)
      | .zero =>
        if csrReadOnly adr ∧ csrWrites op src then .ret ((s.run inp t).arch.exception .asBuilt 2)
        else .ret ((s.run inp t).arch.setReg rd 0).next
      | .impl c => execCsr (s.run inp t).arch op rd src c : Tree Arch) = .ret a') :
    s.Effect inp t m a' [.poll (inp (t + 1)).irq] := by
  obtain ⟨l, hp, hE⟩ := h.tail hw
  rw [he] at hp
  generalize ha : (s.run inp (t + m)).arch = a'' at *
  cases hp
  exact hE

theorem csrWrite_pc (a : Arch) (v : Word) (c : Csr) : (a.csrWrite v c).pc = a.pc := by cases c <;> rfl
theorem setReg_pc (a : Arch) (v : Word) : (a.setReg rd v).pc = a.pc := by
  unfold Arch.setReg; split <;> rfl

/-- **C10.** A CSR instruction that writes an implemented CSR other than mip: rd gets the value
before the instruction, the CSR the new value, computed from that value and the operand (read before
rd is written). -/
theorem C10_write {c : Csr} (h : CsrRuns s inp t w m) (hw : decode w = some (.csr op rd src adr))
    (hk : csrKind adr = .impl c) (hc : c ≠ .mip) (hwr : csrWrites op src = true) :
    let a := (s.run inp t).arch
    let old := a.csrRead false c
    let new := match op with
      | .rw => a.csrOperand src
      | .rs => old ||| a.csrOperand src
      | .rc => old &&& ~~~a.csrOperand src
    s.Effect inp t m { (a.setReg rd old).csrWrite new c with pc := a.pc + 4 }
      [.poll (inp (t + 1)).irq] := by
  intro a old new
  have e : ((a.setReg rd old).csrWrite new c).next =
      { (a.setReg rd old).csrWrite new c with pc := a.pc + 4 } := by
    simp only [Arch.next, csrWrite_pc, setReg_pc]
  rw [← e]
  refine h.ret hw ?_
  simp only [hk, execCsr_plain hc]
  rw [csrFin_w hwr]
  cases op <;> rfl

/-- **C11.** A CSR instruction that does not write (CSRRS/CSRRC with source field 0) on an
implemented CSR other than mip: rd gets the value, no CSR changes. -/
theorem C11_read {c : Csr} (h : CsrRuns s inp t w m) (hw : decode w = some (.csr op rd src adr))
    (hk : csrKind adr = .impl c) (hc : c ≠ .mip) (hwr : csrWrites op src = false) :
    let a := (s.run inp t).arch
    s.Effect inp t m { a.setReg rd (a.csrRead false c) with pc := a.pc + 4 }
      [.poll (inp (t + 1)).irq] := by
  intro a
  rw [← setReg_next]
  refine h.ret hw ?_
  simp only [hk, execCsr_plain hc]
  rw [csrFin_r hwr]

theorem demo_csr (p : List Word) (n : Nat) {w : Word} {P : Arch → Prop}
    (hw : (demoAt p false n).1.2 = w) (hP : P (demoAt p false n).1.1) :
    ∃ s inp t m, CsrRuns s inp t w m ∧ P (s.run inp t).arch := by
  obtain ⟨s, inp, t, m, h1, h2, h3⟩ := demo_case p false n hw hP
  exact ⟨s, inp, t, m, ⟨h1, fun h => absurd h.1 (by rw [h2]; decide),
    fun h => absurd h.1 (by rw [h2]; decide)⟩, h3⟩

/-- `csrrw x1, mscratch, x1` with x1 = 5 and mscratch = 5, `csrrci x1, mstatus, 8`,
`csrrs x3, mscratch, x0`. -/
example : decode 0x340090F3#32 = some (.csr .rw 1 (.reg 1) 0x340) ∧
    csrKind 0x340 = .impl .mscratch ∧ csrWrites .rw (.reg 1) = true ∧
    (∃ s inp t m, CsrRuns s inp t 0x340090F3#32 m ∧ (s.run inp t).arch.x 1 = 5) ∧
    decode 0x300470F3#32 = some (.csr .rc 1 (.imm 8) 0x300) ∧
    csrKind 0x300 = .impl .mstatus ∧ csrWrites .rc (.imm 8) = true ∧
    (∃ s inp t m, CsrRuns s inp t 0x300470F3#32 m ∧ True) ∧
    decode 0x340021F3#32 = some (.csr .rs 3 (.reg 0) 0x340) ∧ csrWrites .rs (.reg 0) = false ∧
    ∃ s inp t m, CsrRuns s inp t 0x340021F3#32 m ∧ (s.run inp t).arch.mscratch = 5 :=
  ⟨by decide, by decide, by decide,
   demo_csr (P := fun a => a.x 1 = 5) [0x00500093#32, 0x340090F3#32, 0x340021F3#32] 1
    (by decide +kernel) (by decide +kernel),
   by decide, by decide, by decide,
   demo_csr (P := fun _ => True) [0x300470F3#32] 0 (by decide +kernel) trivial,
   by decide, by decide,
   demo_csr (P := fun a => a.mscratch = 5) [0x00500093#32, 0x340090F3#32, 0x340021F3#32] 2
    (by decide +kernel) (by decide +kernel)⟩

/-- Which instructions write: all CSRRW and CSRRWI, and the others unless the source field is 0. -/
theorem C11_writes (op : CsrOp) (src : CsrSrc) : csrWrites op src = false ↔
    op ≠ .rw ∧ (src = .reg 0 ∨ src = .imm 0) := by
  cases op <;> cases src <;> simp [csrWrites]

theorem ro_not_impl (adr : BitVec 12) (h : csrReadOnly adr = true) (c : Csr) :
    csrKind adr ≠ .impl c := by
  have ne : ∀ v : BitVec 12, csrReadOnly v = false → adr ≠ v := by
    rintro v hv rfl
    rw [hv] at h; cases h
  intro hc
  unfold csrKind at hc
  rw [if_neg (ne _ (by decide)), if_neg (ne _ (by decide)), if_neg (ne _ (by decide)),
    if_neg (ne _ (by decide)), if_neg (ne _ (by decide)), if_neg (ne _ (by decide)),
    if_neg (ne _ (by decide))] at hc
  repeat' split at hc
  all_goals simp at hc

/-- **C12.** An access to an absent CSR (C37 lists them: all that are not machine-mode or not
implemented), or a write to a CSR in the read-only space, traps as an illegal instruction. -/
theorem C12_illegal (h : CsrRuns s inp t w m) (hw : decode w = some (.csr op rd src adr))
    (hk : csrKind adr = .absent ∨ (csrReadOnly adr = true ∧ csrWrites op src = true)) :
    let a := (s.run inp t).arch
    s.Effect inp t m (a.enterTrap (a.excWord 2)) [.poll (inp (t + 1)).irq] := by
  intro a
  rw [← exception_eq]
  refine h.ret hw ?_
  cases hk' : csrKind adr with
  | absent => rfl
  | zero =>
    rw [hk'] at hk
    simp only [reduceCtorEq, false_or] at hk
    exact if_pos hk
  | impl c =>
    exfalso
    rw [hk'] at hk
    simp only [reduceCtorEq, false_or] at hk
    exact ro_not_impl adr hk.1 c hk'

/-- **C12.** A CSR that reads as zero: rd gets 0 and writes are ignored. -/
theorem C12_zero (h : CsrRuns s inp t w m) (hw : decode w = some (.csr op rd src adr))
    (hk : csrKind adr = .zero) (hr : ¬ (csrReadOnly adr = true ∧ csrWrites op src = true)) :
    let a := (s.run inp t).arch
    s.Effect inp t m { a.setReg rd 0 with pc := a.pc + 4 } [.poll (inp (t + 1)).irq] := by
  intro a
  rw [← setReg_next]
  refine h.ret hw ?_
  simp only [hk]
  exact if_neg hr

/-- `csrrs x1, 0x000, x0` (not a machine-mode CSR), `csrrw x1, mvendorid, x1` (read-only),
`csrrs x1, mhartid, x0` and `csrrw x1, misa, x1` (read as zero). -/
example : decode 0x000020F3#32 = some (.csr .rs 1 (.reg 0) 0x000) ∧ csrKind 0x000 = .absent ∧
    (∃ s inp t m, CsrRuns s inp t 0x000020F3#32 m ∧ True) ∧
    decode 0xF11090F3#32 = some (.csr .rw 1 (.reg 1) 0xF11) ∧
    (csrReadOnly 0xF11 = true ∧ csrWrites .rw (.reg 1) = true) ∧
    (∃ s inp t m, CsrRuns s inp t 0xF11090F3#32 m ∧ True) ∧
    decode 0xF14020F3#32 = some (.csr .rs 1 (.reg 0) 0xF14) ∧ csrKind 0xF14 = .zero ∧
    (∃ s inp t m, CsrRuns s inp t 0xF14020F3#32 m ∧ True) ∧
    decode 0x301090F3#32 = some (.csr .rw 1 (.reg 1) 0x301) ∧ csrKind 0x301 = .zero ∧
    ¬ (csrReadOnly 0x301 = true ∧ csrWrites .rw (.reg 1) = true) ∧
    (∃ s inp t m, CsrRuns s inp t 0x301090F3#32 m ∧ True) :=
  ⟨by decide, by decide, demo_csr (P := fun _ => True) [0x000020F3#32] 0 (by decide +kernel) trivial,
   by decide, by decide, demo_csr (P := fun _ => True) [0xF11090F3#32] 0 (by decide +kernel) trivial,
   by decide, by decide, demo_csr (P := fun _ => True) [0xF14020F3#32] 0 (by decide +kernel) trivial,
   by decide, by decide, by decide,
   demo_csr (P := fun _ => True) [0x301090F3#32] 0 (by decide +kernel) trivial⟩

/-! ## mip -/

theorem events_mem {c : Bool} : ∀ {m t : Nat}, Event.poll c ∈ s.events inp t m →
    ∃ k, k < m ∧ (inp (t + k)).irq = c := by
  intro m
  induction m with
  | zero => intro t h; simp [State.events] at h
  | succ m ih =>
    intro t h
    simp only [State.events, List.mem_append] at h
    rcases h with h | h
    · refine ⟨0, by omega, ?_⟩
      unfold State.obs at h
      cases hx : ((s.run inp t).cyc && (inp t).ack) <;> cases hy : (s.run inp t).polls <;>
        simp [hx, hy] at h <;> exact h.symm
    · obtain ⟨k, hk, e⟩ := ih h
      exact ⟨k + 1, by omega, by rw [← e]; congr 2; omega⟩

/-- **C32.** A CSR instruction on mip: rd gets only MEIP, which is the interrupt line in the third cycle of the
instruction; no CSR changes, whatever is written. -/
theorem C32_mip (h : CsrRuns s inp t w m) (hw : decode w = some (.csr op rd src adr))
    (hk : csrKind adr = .impl .mip) :
    let a := (s.run inp t).arch
    (s.run inp (t + m)).arch =
      { a.setReg rd (if (inp (t + 2)).irq then 0x800 else 0) with pc := a.pc + 4 } := by
  intro a
  obtain ⟨l, hp, -, w', hev, -⟩ := h.tail hw
  simp only [hk] at hp
  have fin : ∀ old, (if csrWrites op src = true then
      (a.setReg rd old).csrWrite (csrNew op old (a.csrOperand src)) .mip else a.setReg rd old) =
      a.setReg rd old := by
    intro old; split <;> rfl
  by_cases hr : csrReads op rd = true
  · obtain ⟨c1, c2, c3⟩ := csr_third h.one h.noIrq h.noIrq' hw hk hr
    obtain ⟨d1, -, -⟩ := csr_second h.one h.noIrq hw
    have hut : (s.run inp t).uop = u_01 := by rw [← rom_01]; exact h.one.runs.1.1.2
    have hm : 3 ≤ m := by
      have hd := h.one.runs.2.2.1.2
      rw [rom_01] at hd
      have h0 := h.one.runs.2.1
      by_contra hn
      rcases (by omega : m = 1 ∨ m = 2) with rfl | rfl
      · rw [d1] at hd; simp [u_24, u_01] at hd
      · exact c3 hd
    obtain ⟨m', rfl⟩ : ∃ m', m = m' + 3 := ⟨m - 3, by omega⟩
    have hev' : s.events inp t (m' + 3) = .poll (inp t).irq :: .poll (inp (t + 1)).irq ::
        .poll (inp (t + 2)).irq :: s.events inp (t + 3) m' := by
      simp only [State.events, State.obs_dispatch hut]
      simp [State.obs, c1, c2]
      simp [State.cyc, State.polls, d1, u_24]
    generalize ha : (s.run inp (t + (m' + 3))).arch = a' at *
    simp only [execCsr, true_and, if_pos hr] at hp
    cases hp with
    | @poll _ b l x hp =>
      rw [hev'] at hev
      simp at hev
      rw [hev.1, ← setReg_next]
      change (if _ then _ else _ : Tree Arch).Path _ _ at hp
      split at hp
      · cases hp with
        | poll hp => cases hp; rw [fin]; rfl
      · cases hp; rw [fin]; rfl
  · have hr : csrReads op rd = false := by simpa using hr
    generalize ha : (s.run inp (t + m)).arch = a' at *
    rw [execCsr_noread hr] at hp
    cases hp
    have h0 : rd = 0#5 := by
      simp only [csrReads, Bool.not_eq_eq_eq_not, Bool.not_false, Bool.and_eq_true,
        decide_eq_true_eq] at hr
      exact hr.2
    rw [← setReg_next]
    show (if csrWrites op src = true then _ else _ : Arch).next = _
    rw [fin, h0]
    simp [Arch.setReg]

/-- `csrrc x1, mip, x1` with x1 = -1 and the interrupt line low; and with the line high (interrupts
disabled). -/
example : decode 0x3440B0F3#32 = some (.csr .rc 1 (.reg 1) 0x344) ∧ csrKind 0x344 = .impl .mip ∧
    (∃ s inp t m, CsrRuns s inp t 0x3440B0F3#32 m ∧ (s.run inp t).arch.x 1 = 0xFFFFFFFF) ∧
    ∃ s inp t m, OneInstr s inp t 0x3440B0F3#32 m ∧ (∀ t, (inp t).irq = true) ∧
      (s.run inp t).arch.x 1 = 0xFFFFFFFF :=
  ⟨by decide, by decide, demo_csr (P := fun a => a.x 1 = 0xFFFFFFFF) [0xFFF00093#32, 0x3440B0F3#32] 1
    (by decide +kernel) (by decide +kernel),
   demo_case (P := fun a => a.x 1 = 0xFFFFFFFF) [0xFFF00093#32, 0x3440B0F3#32] true 1
    (by decide +kernel) (by decide +kernel)⟩

/-! ## WARL fields -/

/-- The bits of a CSR that a write can change. -/
def writable : Csr → Word
  | .mstatus => 0x88
  | .mie => 0x800
  | .mtvec => 0xFFFFFFFC
  | .mepc => 0xFFFFFFFC
  | .mscratch => 0xFFFFFFFF
  | .mcause => 0xFFFFFFFF
  | .mip => 0

/-- The bits of a CSR that always read as 1: mstatus.MPP. -/
def fixedBits : Csr → Word
  | .mstatus => 0x1800
  | _ => 0

theorem bit_mask (v : Word) (n : Nat) (hn : n < 32) :
    (if v.getLsbD n then BitVec.ofNat 32 (2 ^ n) else 0#32) = v &&& BitVec.ofNat 32 (2 ^ n) := by
  apply BitVec.eq_of_getLsbD_eq
  intro i hi
  rw [BitVec.getLsbD_and]
  by_cases e : i = n
  · subst e
    cases h : v.getLsbD i <;> simp [-BitVec.getLsbD_eq_getElem, BitVec.getLsbD_ofNat, hi, Nat.testBit_two_pow]
  · cases h : v.getLsbD n <;> simp [-BitVec.getLsbD_eq_getElem, BitVec.getLsbD_ofNat, hi, Nat.testBit_two_pow, e] <;>
      (intros; omega)

theorem mstatus_mask (v : Word) : (if v.getLsbD 3 then 0x8#32 else 0#32) |||
    (if v.getLsbD 7 then 0x80#32 else 0#32) = v &&& 0x88#32 := by
  have h3 := bit_mask v 3 (by omega)
  have h7 := bit_mask v 7 (by omega)
  rw [show BitVec.ofNat 32 (2 ^ 3) = 0x8#32 from rfl] at h3
  rw [show BitVec.ofNat 32 (2 ^ 7) = 0x80#32 from rfl] at h7
  rw [h3, h7, ← BitVec.and_or_distrib_left, show 0x8#32 ||| 0x80#32 = 0x88#32 from rfl]

theorem csr_readback (a : Arch) (v : Word) (c : Csr) (hc : c ≠ .mip) :
    (a.csrWrite v c).csrRead false c = (v &&& writable c) ||| fixedBits c := by
  cases c
  case mstatus => exact congrArg (· ||| 0x1800#32) (mstatus_mask v)
  case mie =>
    have h := bit_mask v 11 (by omega)
    rw [show BitVec.ofNat 32 (2 ^ 11) = 0x800#32 from rfl] at h
    exact h.trans (BitVec.or_zero).symm
  case mtvec => exact (BitVec.or_zero (x := v &&& 0xFFFFFFFC#32)).symm
  case mepc => exact (BitVec.or_zero (x := v &&& 0xFFFFFFFC#32)).symm
  case mscratch =>
    show v = v &&& BitVec.allOnes 32 ||| 0#32
    rw [BitVec.and_allOnes, BitVec.or_zero]
  case mcause =>
    show v = v &&& BitVec.allOnes 32 ||| 0#32
    rw [BitVec.and_allOnes, BitVec.or_zero]
  case mip => exact absurd rfl hc

theorem csrRead_pc (a : Arch) (p : Word) (c : Csr) : Arch.csrRead { a with pc := p } false c =
    a.csrRead false c := by cases c <;> rfl

/-- **C31.** Write a CSR with CSRRW, read it back with the next instruction (CSRRS with x0): only the
writable bits are taken from the value written. -/
theorem C31_readback {rd' : Reg} {w' : Word} {m' : Nat} {c : Csr}
    (h : CsrRuns s inp t w m) (hw : decode w = some (.csr .rw rd src adr))
    (h' : CsrRuns s inp (t + m) w' m') (hw' : decode w' = some (.csr .rs rd' (.reg 0) adr))
    (hk : csrKind adr = .impl c) (hc : c ≠ .mip) (hrd : rd' ≠ 0) :
    (s.run inp (t + m + m')).arch.reg rd' =
      ((s.run inp t).arch.csrOperand src &&& writable c) ||| fixedBits c := by
  have e1 := (C10_write h hw hk hc rfl).1
  have e2 := (C11_read h' hw' hk hc rfl).1
  rw [e2, e1]
  simp only [csrRead_pc, csr_readback _ _ _ hc]
  have hrd : ¬ rd' = 0#5 := hrd
  simp [Arch.reg, Arch.setReg, hrd]

/-- `csrrw x0, mstatus, x1; csrrs x3, mstatus, x0` with x1 = -1: x3 becomes 0x1888. -/
example : decode 0x30009073#32 = some (.csr .rw 0 (.reg 1) 0x300) ∧
    decode 0x300021F3#32 = some (.csr .rs 3 (.reg 0) 0x300) ∧
    (0xFFFFFFFF#32 &&& writable .mstatus) ||| fixedBits .mstatus = 0x1888 ∧
    ∃ s inp t m m', CsrRuns s inp t 0x30009073#32 m ∧ CsrRuns s inp (t + m) 0x300021F3#32 m' ∧
      (s.run inp t).arch.x 1 = 0xFFFFFFFF := by
  refine ⟨by decide, by decide, by decide, ?_⟩
  obtain ⟨s, inp, t, m, m', h1, h2, h3, h4⟩ := demo_pair (P := fun a => a.x 1 = 0xFFFFFFFF)
    [0xFFF00093#32, 0x30009073#32, 0x300021F3#32] 1 (w := 0x30009073#32) (w' := 0x300021F3#32)
    (by decide +kernel) (by decide +kernel) (by decide +kernel)
  exact ⟨s, inp, t, m, m', ⟨h1, h3 _, h3 _⟩, ⟨h2, h3 _, h3 _⟩, h4⟩

/-- **C31.** Whenever an instruction is dispatched, bits 1:0 of mtvec and mepc are clear. -/
theorem C31_aligned (h : AfterReset s) (hr : s.RegisteredAck inp) (hd : s.Dispatching inp t) :
    (s.run inp t).arch.mtvec.toNat % 4 = 0 ∧ (s.run inp t).arch.mepc.toNat % 4 = 0 := by
  obtain ⟨w, hat, -⟩ := at_dispatch h hr hd
  have hrel := hat.rel
  have key : ∀ v : Word, v.extractLsb' 0 2 = 0#2 → v.toNat % 4 = 0 := by
    intro v hv
    have := congrArg BitVec.toNat hv
    simpa using this
  exact ⟨key _ hrel.tv, key _ hrel.ep⟩

end Sentinel
