import Verif.Props.Interrupts
/-!
# C84, an example: a program that counts, and a handler that counts interrupts
-/

set_option linter.unusedSimpArgs false

namespace Sentinel.Soc
open Ucode Spec

/-- The program: it sets up the handler at byte address 128, enables interrupts, and stores 1, 2, 3, ... at byte address 256. -/
def countMain : List Word :=
  [0x00000293#32,  -- addi x5, x0, 0
   0x08000313#32,  -- addi x6, x0, 128
   0x30531073#32,  -- csrrw x0, mtvec, x6
   0xFFF00313#32,  -- addi x6, x0, -1
   0x30431073#32,  -- csrrw x0, mie, x6
   0x30045073#32,  -- csrrwi x0, mstatus, 8
   0x00128293#32,  -- addi x5, x5, 1
   0x10502023#32,  -- sw x5, 256(x0)
   0xFF9FF06F#32]  -- jal x0, -8

/-- The handler: it adds 1 to the word at byte address 264. -/
def countHandler : List Word :=
  [0x10502223#32,  -- sw x5, 260(x0)
   0x10802283#32,  -- lw x5, 264(x0)
   0x00128293#32,  -- addi x5, x5, 1
   0x10502423#32,  -- sw x5, 264(x0)
   0x10402283#32,  -- lw x5, 260(x0)
   0x30200073#32]  -- mret

/-- The words of a program are in memory from index `i` on. -/
def Holds (i : Nat) (p : List Word) (M : Mem 10) : Prop := ∀ j w, p[j]? = some w → M (BitVec.ofNat 10 (i + j)) = w

/-- The memory of the handler: its code, a word to save x5, and the count. -/
def countMem (i : BitVec 10) : Prop := (32 ≤ i.toNat ∧ i.toNat < 38) ∨ i = 65 ∨ i = 66

/-- The memory of the handler after `c` interrupts. -/
def countInv (c : Nat) (M : Mem 10) : Prop := Holds 32 countHandler M ∧ M 66 = BitVec.ofNat 32 c

theorem after_sw (M : Mem k) (adr v : Word) (h : adr.toNat % 4 = 0) : (M.after (writeReq adr 4 v)) (wordIdx k adr) = v := by
  have hl : lane adr = 0 := h
  have hs : (writeReq adr 4 v).sel = 15#4 := by simp [writeReq, lanes, hl]
  have hd : (writeReq adr 4 v).data = v := by
    have := v.isLt
    simp [writeReq, hl, -Nat.reducePow]
  unfold Mem.after
  rw [if_pos (show (writeReq adr 4 v).we = true from rfl), hs, hd]
  show (if wordIdx k adr = (wordAdr adr).setWidth k then _ else _) = v
  rw [if_pos (show wordIdx k adr = BitVec.setWidth k (wordAdr adr) from rfl)]
  simp only [mergeBytes, byteOf]
  apply BitVec.eq_of_getLsbD_eq
  intro i hi
  simp only [BitVec.getLsbD_append, BitVec.getLsbD_extractLsb', show (15#4).getLsbD 0 = true from rfl, show (15#4).getLsbD 1 = true from rfl,
    show (15#4).getLsbD 2 = true from rfl, show (15#4).getLsbD 3 = true from rfl, if_true]
  by_cases h1 : i < 8
  · simp [-BitVec.getLsbD_eq_getElem, h1]
  by_cases h2 : i < 16
  · simp [-BitVec.getLsbD_eq_getElem, h1, show i - 8 < 8 by omega, show 8 + (i - 8) = i by omega]
  by_cases h3 : i < 24
  · simp [-BitVec.getLsbD_eq_getElem, h1, show ¬ i - 8 < 8 by omega, show i - 8 - 8 < 8 by omega, show 16 + (i - 8 - 8) = i by omega]
  · simp [-BitVec.getLsbD_eq_getElem, h1, show ¬ i - 8 < 8 by omega, show ¬ i - 8 - 8 < 8 by omega, show i - 8 - 8 - 8 < 8 by omega, show 24 + (i - 8 - 8 - 8) = i by omega]

theorem loadValue_lw (adr d : Word) (h : adr.toNat % 4 = 0) : loadValue .lw adr d = d := by
  have hl : lane adr = 0 := h
  simp [loadValue, hl]

theorem sw0 {a : Arch} {rs2 : Reg} {imm : BitVec 12} {adr : Word} (h : imm.signExtend 32 = adr) (ha : adr.toNat % 4 = 0) :
    execInstr .asBuilt a (.store .sw 0 rs2 imm) = .bus (writeReq adr 4 (a.reg rs2)) fun _ => .ret a.next := by
  simp only [execInstr, Arch.reg, if_true, h, StOp.size]
  rw [show (0 : Word) + adr = adr from BitVec.zero_add _]
  rw [if_pos (by simpa [aligned] using ha)]

theorem lw0 {a : Arch} {rd : Reg} {imm : BitVec 12} {adr : Word} (h : imm.signExtend 32 = adr) (ha : adr.toNat % 4 = 0) :
    execInstr .asBuilt a (.load .lw rd 0 imm) = .bus (readReq adr 4) fun d => .ret (a.setReg rd d).next := by
  simp only [execInstr, Arch.reg, if_true, h, LdOp.size]
  rw [show (0 : Word) + adr = adr from BitVec.zero_add _]
  simp only [loadValue_lw _ _ ha]
  rw [if_pos (by simpa [aligned] using ha)]

/-- A step that raises no interrupt. -/
theorem step_ret {k : Nat} {a a' a1 : Arch} {M M' : Mem k} {ins : Instr} (hm : a.mie = false) (hw : decode (M.word a.pc) = some ins)
    (he : execInstr .asBuilt a ins = .ret a1) (hs : Step a M a' M') : a' = a1 ∧ M' = M := by
  obtain ⟨l, hp, -, rfl⟩ := hs
  simp only [Spec.exec, Arch.intEnabled, hm, Bool.false_and, Bool.and_false, Bool.false_eq_true, if_false, hw, he] at hp
  cases hp with
  | poll hp => cases hp; exact ⟨rfl, rfl⟩

theorem step_bus {k : Nat} {a a' : Arch} {M M' : Mem k} {ins : Instr} {r : Req} {f : Word → Arch} (hm : a.mie = false) (hw : decode (M.word a.pc) = some ins)
    (he : execInstr .asBuilt a ins = .bus r fun d => .ret (f d)) (hs : Step a M a' M') :
    ∃ d, (r.we = false → d = M (r.adr.setWidth k)) ∧ a' = f d ∧ M' = M.after r := by
  obtain ⟨l, hp, hM, rfl⟩ := hs
  simp only [Spec.exec, Arch.intEnabled, hm, Bool.false_and, Bool.and_false, Bool.false_eq_true, if_false, hw, he] at hp
  cases hp with
  | poll hp =>
    cases hp with
    | @bus _ _ d _ _ hp => cases hp; exact ⟨d, hM.1, rfl, rfl⟩

theorem count_handler : Handler countMem countInv 128 := by
  refine ⟨?_, ?_⟩
  · rintro c M M' h ⟨h1, h2⟩
    refine ⟨fun j w hj => ?_, by rw [h 66 (.inr (.inr rfl)), h2]⟩
    rw [← h1 j w hj]
    have : j < 6 := by
      by_contra g
      rw [List.getElem?_eq_none (by simp [countHandler]; omega)] at hj
      cases hj
    exact h _ (.inl (by rw [BitVec.toNat_ofNat, Nat.mod_eq_of_lt (by omega)]; omega))
  · rintro c a M ⟨hc, hM⟩ hv hm he
    have w0 : M 32 = 0x10502223#32 := hc 0 _ rfl
    have w1 : M 33 = 0x10802283#32 := hc 1 _ rfl
    have w2 : M 34 = 0x00128293#32 := hc 2 _ rfl
    have w3 : M 35 = 0x10502423#32 := hc 3 _ rfl
    have w4 : M 36 = 0x10402283#32 := hc 4 _ rfl
    have w5 : M 37 = 0x30200073#32 := hc 5 _ rfl
    have ext : ∀ (v : Word) (i : BitVec 10) , i ≠ 65 → (M.after (writeReq 260 4 v)) i = M i := fun v i hi => after_other (r := writeReq 260 4 v) hi
    have ext' : ∀ (N : Mem 10) (v : Word) (i : BitVec 10) , i ≠ 66 → (N.after (writeReq 264 4 v)) i = N i := fun N v i hi => after_other (r := writeReq 264 4 v) hi
    unfold Arch.takeInterrupt Arch.trap
    rw [hv]
    generalize BitVec.ofBool _ ++ (11 : BitVec 31) = mc
    generalize (a.irqTaken || true) = it
    rw [hm]
    -- sw x5, 260(x0)
    have f0 : M.word 128 = 0x10502223#32 := w0
    refine .step (by show M.word 128 ≠ _; rw [f0]; decide) ?_
    intro a1 M1 h1
    obtain ⟨d1, -, rfl, rfl⟩ := step_bus (ins := .store .sw 0 5 260) (M := M) rfl (by show decode (M.word 128) = _; rw [f0]; decide) (sw0 (adr := 260) (by decide) (by decide)) h1
    simp only [Arch.next]
    set M1 := M.after (writeReq 260 4 _) with hM1
    -- lw x5, 264(x0)
    have f1 : M1.word 132 = 0x10802283#32 := (ext _ 33 (by decide)).trans w1
    refine .step (by show M1.word 132 ≠ _; rw [f1]; decide) ?_
    intro a2 M2 h2
    obtain ⟨d2, hd2, rfl, rfl⟩ := step_bus (ins := .load .lw 5 0 264) rfl (by show decode (M1.word 132) = _; rw [f1]; decide) (lw0 (adr := 264) (by decide) (by decide)) h2
    have hd2 : d2 = BitVec.ofNat 32 c := (hd2 rfl).trans ((ext _ 66 (by decide)).trans hM)
    subst hd2
    rw [show M1.after (readReq 264 4) = M1 from rfl]
    simp only [Arch.next, Arch.setReg]
    -- addi x5, x5, 1
    have f2 : M1.word 136 = 0x00128293#32 := (ext _ 34 (by decide)).trans w2
    refine .step (by show M1.word 136 ≠ _; rw [f2]; decide) ?_
    intro a3 M3 h3
    obtain ⟨rfl, rfl⟩ := step_ret (ins := .opImm .add 5 5 1) rfl (by show decode (M1.word 136) = _; rw [f2]; decide) rfl h3
    simp only [Arch.next, Arch.setReg]
    -- sw x5, 264(x0)
    have f3 : M1.word 140 = 0x10502423#32 := (ext _ 35 (by decide)).trans w3
    refine .step (by show M1.word 140 ≠ _; rw [f3]; decide) ?_
    intro a4 M4 h4
    obtain ⟨d4, -, rfl, rfl⟩ := step_bus (ins := .store .sw 0 5 264) rfl (by show decode (M1.word 140) = _; rw [f3]; decide) (sw0 (adr := 264) (by decide) (by decide)) h4
    simp only [Arch.next]
    set M2 := M1.after (writeReq 264 4 _) with hM2
    -- lw x5, 260(x0)
    have f4 : M2.word 144 = 0x10402283#32 := (ext' _ _ 36 (by decide)).trans ((ext _ 36 (by decide)).trans w4)
    refine .step (by show M2.word 144 ≠ _; rw [f4]; decide) ?_
    intro a5 M5 h5
    obtain ⟨d5, hd5, rfl, rfl⟩ := step_bus (ins := .load .lw 5 0 260) rfl (by show decode (M2.word 144) = _; rw [f4]; decide) (lw0 (adr := 260) (by decide) (by decide)) h5
    have hd5 : d5 = a.x 5 := (hd5 rfl).trans ((ext' _ _ 65 (by decide)).trans (after_sw (k := 10) M 260 _ (by decide)))
    subst hd5
    rw [show M2.after (readReq 260 4) = M2 from rfl]
    simp only [Arch.next, Arch.setReg]
    -- mret
    have f5 : M2.word 148 = 0x30200073#32 := (ext' _ _ 37 (by decide)).trans ((ext _ 37 (by decide)).trans w5)
    refine .mret (by show M2.word 148 = _; rw [f5]; rfl) ?_
    intro a6 M6 h6
    obtain ⟨rfl, rfl⟩ := step_ret (ins := .mret) rfl (by show decode (M2.word 148) = _; rw [f5]; decide) rfl h6
    have old : ∀ i, i ≠ 65 → i ≠ 66 → M2 i = M i := fun i h1 h2 => (ext' _ _ i h2).trans (ext _ i h1)
    refine ⟨?_, rfl, fun i hi => ?_, fun j w hj => ?_, ?_⟩
    · unfold Arch.Same
      obtain ⟨pc, x, mie, mpie, meie, mtvec, mscratch, mepc, mcause, irq⟩ := a
      simp only at hm hv
      subst hm hv
      simp
      funext q
      by_cases hq : q = 5
      · simp [hq]
      · simp only [show ¬ q = 5#5 from hq, if_false]
    · exact old i (fun e => hi (.inr (.inl e))) (fun e => hi (.inr (.inr e)))
    · have hj6 : j < 6 := by
        by_contra g
        rw [List.getElem?_eq_none (by simp [countHandler]; omega)] at hj
        cases hj
      rw [← hc j w hj]
      have : (BitVec.ofNat 10 (32 + j)).toNat = 32 + j := by rw [BitVec.toNat_ofNat, Nat.mod_eq_of_lt (by omega)]
      refine old _ (fun e => ?_) (fun e => ?_)
      · rw [e] at this; change 65 = _ at this; omega
      · rw [e] at this; change 66 = _ at this; omega
    · refine (after_sw (k := 10) M1 264 _ (by decide)).trans ?_
      simp [Arch.reg, alu]
      rw [BitVec.ofNat_add]

/-- One instruction of a program that runs without interrupts. -/
theorem flat_ins {k : Nat} {M0 : Mem k} {a0 : Arch} {n : Nat} {ins : Instr} {a : Arch} {M : Mem k}
    (hp : ∃ w, flat .asBuilt false M0 a0 n = ((a, w), M)) (hw : decode (M.word a.pc) = some ins) :
    ∃ w, flat .asBuilt false M0 a0 (n + 1) = ((((execInstr .asBuilt a ins).onMem false M).1, w), ((execInstr .asBuilt a ins).onMem false M).2) := by
  have h1 := flat_succ M0 a0 n
  have h2 := flat_word M0 a0 n
  obtain ⟨w, hp⟩ := hp
  rw [hp] at h1 h2
  have hex : (exec .asBuilt a w).onMem false M = (execInstr .asBuilt a ins).onMem false M := by
    have : decode w = some ins := by rw [← hw, ← h2]
    simp [Spec.exec, Tree.onMem, this]
  simp only [hex] at h1
  exact ⟨_, h1⟩

theorem flat_to {k : Nat} {M0 : Mem k} {a0 : Arch} {n : Nat} {ins : Instr} {a a' : Arch} {M M' : Mem k} {pc wd : Word} {i : BitVec k}
    (hp : ∃ w, flat .asBuilt false M0 a0 n = ((a, w), M)) (hpc : a.pc = pc) (hi : wordIdx k pc = i) (hM : M i = wd) (hd : decode wd = some ins)
    (he : (execInstr .asBuilt a ins).onMem false M = (a', M')) : ∃ w, flat .asBuilt false M0 a0 (n + 1) = ((a', w), M') := by
  obtain ⟨w, h⟩ := flat_ins (ins := ins) hp (by rw [Mem.word, hpc, hi, hM, hd])
  rw [he] at h
  exact ⟨w, h⟩

/-- The program is in memory, and `x5`, `pc` are as given; interrupts are enabled and go to the handler. -/
structure InLoop (pc x5 : Word) (a : Arch) (M : Mem 10) : Prop where
  code : Holds 0 countMain M
  pc : a.pc = pc
  x5 : a.x 5 = x5
  vec : a.mtvec = 128
  mie : a.mie = true
  meie : a.meie = true

/-- Before interrupts are enabled. -/
structure Setting (pc : Word) (a : Arch) (M : Mem 10) : Prop where
  code : Holds 0 countMain M
  pc : a.pc = pc
  mie : a.mie = false

theorem flat_at {k : Nat} (M0 : Mem k) (a0 : Arch) (n : Nat) :
    let p := flat .asBuilt false M0 a0 n
    ∃ w, p = ((p.1.1, w), p.2) := ⟨_, rfl⟩

/-- A register file with one register changed. -/
def upd (x : Reg → Word) (r : Reg) (v : Word) : Reg → Word := fun q => if q = r then v else x q

/-- The state of the program, without interrupts, after `n` instructions. -/
theorem count_start {M0 : Mem 10} {a0 : Arch} (h : Setting 0 a0 M0) :
    (∀ n, n < 6 → let p := flat .asBuilt false M0 a0 n; Setting (BitVec.ofNat 32 (4 * n)) p.1.1 p.2) ∧
    let p := flat .asBuilt false M0 a0 6
    InLoop 24 0 p.1.1 p.2 := by
  have g0 : ∃ w, flat .asBuilt false M0 a0 0 = ((a0, w), M0) := ⟨_, rfl⟩
  have w0 : M0 0 = 0x00000293#32 := h.code 0 _ rfl
  have w1 : M0 1 = 0x08000313#32 := h.code 1 _ rfl
  have w2 : M0 2 = 0x30531073#32 := h.code 2 _ rfl
  have w3 : M0 3 = 0xFFF00313#32 := h.code 3 _ rfl
  have w4 : M0 4 = 0x30431073#32 := h.code 4 _ rfl
  have w5 : M0 5 = 0x30045073#32 := h.code 5 _ rfl
  have hpc := h.pc
  have hmie := h.mie
  obtain ⟨pc, x, mie, mpie, meie, mtvec, mscratch, mepc, mcause, it⟩ := a0
  simp only at hpc hmie
  subst hpc hmie
  have g1 := flat_to (ins := .opImm .add 5 0 0) (a' := ⟨4, (upd x 5 0), false, mpie, meie, mtvec, mscratch, mepc, mcause, it⟩) (M' := M0) g0 (pc := 0) rfl (i := 0) (by decide) w0 (by decide) (by simp [execInstr, Tree.onMem, Arch.setReg, Arch.next, Arch.reg, alu, upd, csrKind, execCsr, csrWrites, csrReads, csrReadOnly, csrNew, Arch.csrWrite, Arch.csrOperand, Arch.intEnabled, Arch.csrRead] <;> rfl)
  have g2 := flat_to (ins := .opImm .add 6 0 128) (a' := ⟨8, (upd (upd x 5 0) 6 128), false, mpie, meie, mtvec, mscratch, mepc, mcause, it⟩) (M' := M0) g1 (pc := 4) rfl (i := 1) (by decide) w1 (by decide) (by simp [execInstr, Tree.onMem, Arch.setReg, Arch.next, Arch.reg, alu, upd, csrKind, execCsr, csrWrites, csrReads, csrReadOnly, csrNew, Arch.csrWrite, Arch.csrOperand, Arch.intEnabled, Arch.csrRead] <;> rfl)
  have g3 := flat_to (ins := .csr .rw 0 (.reg 6) 0x305) (a' := ⟨12, (upd (upd x 5 0) 6 128), false, mpie, meie, 128, mscratch, mepc, mcause, it⟩) (M' := M0) g2 (pc := 8) rfl (i := 2) (by decide) w2 (by decide) (by simp [execInstr, Tree.onMem, Arch.setReg, Arch.next, Arch.reg, alu, upd, csrKind, execCsr, csrWrites, csrReads, csrReadOnly, csrNew, Arch.csrWrite, Arch.csrOperand, Arch.intEnabled, Arch.csrRead] <;> rfl)
  have g4 := flat_to (ins := .opImm .add 6 0 (-1)) (a' := ⟨16, (upd (upd (upd x 5 0) 6 128) 6 (-1)), false, mpie, meie, 128, mscratch, mepc, mcause, it⟩) (M' := M0) g3 (pc := 12) rfl (i := 3) (by decide) w3 (by decide) (by simp [execInstr, Tree.onMem, Arch.setReg, Arch.next, Arch.reg, alu, upd, csrKind, execCsr, csrWrites, csrReads, csrReadOnly, csrNew, Arch.csrWrite, Arch.csrOperand, Arch.intEnabled, Arch.csrRead] <;> rfl)
  have g5 := flat_to (ins := .csr .rw 0 (.reg 6) 0x304) (a' := ⟨20, (upd (upd (upd x 5 0) 6 128) 6 (-1)), false, mpie, true, 128, mscratch, mepc, mcause, it⟩) (M' := M0) g4 (pc := 16) rfl (i := 4) (by decide) w4 (by decide) (by simp [execInstr, Tree.onMem, Arch.setReg, Arch.next, Arch.reg, alu, upd, csrKind, execCsr, csrWrites, csrReads, csrReadOnly, csrNew, Arch.csrWrite, Arch.csrOperand, Arch.intEnabled, Arch.csrRead] <;> rfl)
  have g6 := flat_to (ins := .csr .rw 0 (.imm 8) 0x300) (a' := ⟨24, (upd (upd (upd x 5 0) 6 128) 6 (-1)), true, false, true, 128, mscratch, mepc, mcause, it⟩) (M' := M0) g5 (pc := 20) rfl (i := 5) (by decide) w5 (by decide) (by simp [execInstr, Tree.onMem, Arch.setReg, Arch.next, Arch.reg, alu, upd, csrKind, execCsr, csrWrites, csrReads, csrReadOnly, csrNew, Arch.csrWrite, Arch.csrOperand, Arch.intEnabled, Arch.csrRead] <;> rfl)
  have all : ∀ n a, (∃ w, flat .asBuilt false M0 ⟨0, x, false, mpie, meie, mtvec, mscratch, mepc, mcause, it⟩ n = ((a, w), M0)) → a.pc = BitVec.ofNat 32 (4 * n) → a.mie = false →
      let p := flat .asBuilt false M0 ⟨0, x, false, mpie, meie, mtvec, mscratch, mepc, mcause, it⟩ n
      Setting (BitVec.ofNat 32 (4 * n)) p.1.1 p.2 := by
    rintro n a ⟨w, hw⟩ h1 h2
    rw [hw]
    exact ⟨h.code, h1, h2⟩
  refine ⟨?_, ?_⟩
  · intro n hn
    obtain rfl | rfl | rfl | rfl | rfl | rfl : n = 0 ∨ n = 1 ∨ n = 2 ∨ n = 3 ∨ n = 4 ∨ n = 5 := by omega
    · exact all 0 _ g0 rfl rfl
    · exact all 1 _ g1 rfl rfl
    · exact all 2 _ g2 rfl rfl
    · exact all 3 _ g3 rfl rfl
    · exact all 4 _ g4 rfl rfl
    · exact all 5 _ g5 rfl rfl
  · obtain ⟨w, hw⟩ := g6
    rw [hw]
    exact ⟨h.code, rfl, rfl, rfl, rfl, rfl⟩

/-- The code is not touched. -/
theorem Holds.after {M : Mem 10} (h : Holds 0 countMain M) (v : Word) : Holds 0 countMain (M.after (writeReq 256 4 v)) := by
  intro j w hj
  have hj9 : j < 9 := by
    by_contra g
    rw [List.getElem?_eq_none (by simp [countMain]; omega)] at hj
    cases hj
  rw [← h j w hj]
  have : (BitVec.ofNat 10 (0 + j)).toNat = j := by rw [BitVec.toNat_ofNat, Nat.mod_eq_of_lt (by omega)]; omega
  refine after_other (r := writeReq 256 4 v) (fun e => ?_)
  rw [e] at this
  change 64 = _ at this
  omega

/-- Once around the loop. -/
theorem count_loop {M0 : Mem 10} {a0 : Arch} {n : Nat} {x5 : Word}
    (h : let p := flat .asBuilt false M0 a0 n; InLoop 24 x5 p.1.1 p.2) :
    (let p := flat .asBuilt false M0 a0 (n + 1); InLoop 28 (x5 + 1) p.1.1 p.2) ∧
    (let p := flat .asBuilt false M0 a0 (n + 2); InLoop 32 (x5 + 1) p.1.1 p.2 ∧ p.2 64 = x5 + 1) ∧
    (let p := flat .asBuilt false M0 a0 (n + 3); InLoop 24 (x5 + 1) p.1.1 p.2 ∧ p.2 64 = x5 + 1) := by
  have g0 := flat_at M0 a0 n
  generalize hp : flat .asBuilt false M0 a0 n = p at h g0
  obtain ⟨⟨a, w⟩, M⟩ := p
  obtain ⟨hc, h1, h2, h3, h4, h5⟩ := h
  simp only at hc h1 h2 h3 h4 h5 g0
  obtain ⟨pc, x, mie, mpie, meie, mtvec, mscratch, mepc, mcause, it⟩ := a
  simp only at h1 h2 h3 h4 h5
  subst h1 h2 h3 h4 h5
  have w6 : M 6 = 0x00128293#32 := hc 6 _ rfl
  have w7 : M 7 = 0x10502023#32 := hc 7 _ rfl
  have hc' := hc.after (x 5 + 1)
  have w8 := hc' 8 _ rfl
  have g1 := flat_to (ins := .opImm .add 5 5 1) (a' := ⟨28, upd x 5 (x 5 + 1), true, mpie, true, 128, mscratch, mepc, mcause, it⟩) (M' := M) ⟨w, hp⟩
    (pc := 24) rfl (i := 6) (by decide) w6 (by decide) (by simp [execInstr, Tree.onMem, Arch.setReg, Arch.next, Arch.reg, alu, upd] <;> rfl)
  have g2 := flat_to (ins := .store .sw 0 5 256) (a' := ⟨32, upd x 5 (x 5 + 1), true, mpie, true, 128, mscratch, mepc, mcause, it⟩)
    (M' := M.after (writeReq 256 4 (x 5 + 1))) g1 (pc := 28) rfl (i := 7) (by decide) w7 (by decide)
    (by rw [sw0 (adr := 256) (by decide) (by decide)]; simp [Tree.onMem, Arch.next, Arch.reg, upd])
  have g3 := flat_to (ins := .jal 0 0xFFFFC) (a' := ⟨24, upd x 5 (x 5 + 1), true, mpie, true, 128, mscratch, mepc, mcause, it⟩)
    (M' := M.after (writeReq 256 4 (x 5 + 1))) g2 (pc := 32) rfl (i := 8) (by decide) w8 (by decide)
    (by simp [execInstr, Tree.onMem, Arch.setReg, Arch.next, Arch.reg, targetOk, aligned])
  have hm : (M.after (writeReq 256 4 (x 5 + 1))) 64 = x 5 + 1 := after_sw (k := 10) M 256 _ (by decide)
  obtain ⟨w1, g1⟩ := g1
  obtain ⟨w2, g2⟩ := g2
  obtain ⟨w3, g3⟩ := g3
  rw [g1, g2, g3]
  exact ⟨⟨hc, rfl, by simp [upd], rfl, rfl, rfl⟩, ⟨⟨hc', rfl, by simp [upd], rfl, rfl, rfl⟩, hm⟩, ⟨hc', rfl, by simp [upd], rfl, rfl, rfl⟩, hm⟩

/-- The loop, without interrupts: the state after `6 + 3 j` instructions. -/
theorem count_all {M0 : Mem 10} {a0 : Arch} (h : Setting 0 a0 M0) (j : Nat) :
    let p := flat .asBuilt false M0 a0 (6 + 3 * j)
    InLoop 24 (BitVec.ofNat 32 j) p.1.1 p.2 ∧ (0 < j → p.2 64 = BitVec.ofNat 32 j) := by
  induction j with
  | zero =>
    rw [show 6 + 3 * 0 = 6 from rfl, show BitVec.ofNat 32 0 = 0 from rfl]
    exact ⟨(count_start h).2, fun h => absurd h (by omega)⟩
  | succ j ih =>
    have := (count_loop (n := 6 + 3 * j) ih.1).2.2
    rw [show 6 + 3 * (j + 1) = 6 + 3 * j + 3 by omega]
    have e : BitVec.ofNat 32 j + 1 = BitVec.ofNat 32 (j + 1) := by rw [BitVec.ofNat_add]; rfl
    rw [e] at this
    exact ⟨this.1, fun _ => this.2⟩

/-- A word of the program, where the program counter is. -/
theorem Holds.fetch {M : Mem 10} (h : Holds 0 countMain M) {j : Nat} {a : Arch} {w wd : Word} (hpc : a.pc = BitVec.ofNat 32 (4 * j)) (hj : countMain[j]? = some wd)
    (hw : w = M.word a.pc) : w = wd := by
  have hj9 : j < 9 := by
    by_contra g
    rw [List.getElem?_eq_none (by simp [countMain]; omega)] at hj
    cases hj
  rw [hw, ← h j wd hj, Mem.word, hpc]
  congr 1
  apply BitVec.eq_of_toNat_eq
  simp [wordIdx, wordAdr, Nat.shiftRight_eq_div_pow]
  omega

theorem count_apart_of {R : BitVec 10 → Prop} (hR : ∀ i, R i → 9 ≤ i.toNat ∧ i ≠ 64) {M0 : Mem 10} {a0 : Arch} (h : Setting 0 a0 M0) (n : Nat) :
    let p := flat .asBuilt false M0 a0 n
    Apart R 128 p.1.1 p.1.2 ∧ p.1.1.pc.toNat < 36 ∧ ∀ adr, dataAdr p.1.1 p.1.2 = some adr → adr = 256 := by
  -- what has to be checked of an instruction
  have chk : ∀ (a : Arch) (M : Mem 10) (w wd : Word) (j : Nat), Holds 0 countMain M → w = M.word a.pc → a.pc = BitVec.ofNat 32 (4 * j) → countMain[j]? = some wd →
      (a.mie = true → a.mtvec = 128) → Apart R 128 a w ∧ a.pc.toNat < 36 ∧ ∀ adr, dataAdr a w = some adr → adr = 256 := by
    intro a M w wd j hc hw hpc hj hv
    obtain rfl := hc.fetch hpc hj hw
    have hj9 : j < 9 := by
      by_contra g
      rw [List.getElem?_eq_none (by simp [countMain]; omega)] at hj
      cases hj
    have hf : ¬ R (wordIdx 10 a.pc) := by
      intro e
      have h1 := (hR _ e).1
      rw [hpc] at h1
      have : (wordIdx 10 (BitVec.ofNat 32 (4 * j))).toNat = j := by
        simp [wordIdx, wordAdr, Nat.shiftRight_eq_div_pow]; omega
      omega
    have hlt : a.pc.toNat < 36 := by rw [hpc, BitVec.toNat_ofNat, Nat.mod_eq_of_lt (by omega)]; omega
    clear hw
    obtain rfl | rfl | rfl | rfl | rfl | rfl | rfl | rfl | rfl : j = 0 ∨ j = 1 ∨ j = 2 ∨ j = 3 ∨ j = 4 ∨ j = 5 ∨ j = 6 ∨ j = 7 ∨ j = 8 := by omega
    all_goals
      simp only [countMain, List.getElem?_cons_zero, List.getElem?_cons_succ, Option.some.injEq] at hj
      subst hj
    · have hd : decode 0x00000293#32 = some (.opImm .add 5 0 0) := by decide
      exact ⟨⟨fun h _ => hv h, hf, by intro adr h; simp [dataAdr, hd] at h, by simp [excCause, hd], by rw [hd]; simp, by intro op rd src adr h; rw [hd] at h; cases h⟩, hlt, by intro adr h; simp [dataAdr, hd] at h⟩
    · have hd : decode 0x08000313#32 = some (.opImm .add 6 0 128) := by decide
      exact ⟨⟨fun h _ => hv h, hf, by intro adr h; simp [dataAdr, hd] at h, by simp [excCause, hd], by rw [hd]; simp, by intro op rd src adr h; rw [hd] at h; cases h⟩, hlt, by intro adr h; simp [dataAdr, hd] at h⟩
    · have hd : decode 0x30531073#32 = some (.csr .rw 0 (.reg 6) 0x305) := by decide
      exact ⟨⟨fun h _ => hv h, hf, by intro adr h; simp [dataAdr, hd] at h, by simp only [excCause, hd]; rw [if_neg (by decide)], by rw [hd]; simp, by intro op rd src adr h; rw [hd] at h; cases h; exact ⟨by decide, by decide, by decide, fun _ => .inl rfl⟩⟩, hlt, by intro adr h; simp [dataAdr, hd] at h⟩
    · have hd : decode 0xFFF00313#32 = some (.opImm .add 6 0 (-1)) := by decide
      exact ⟨⟨fun h _ => hv h, hf, by intro adr h; simp [dataAdr, hd] at h, by simp [excCause, hd], by rw [hd]; simp, by intro op rd src adr h; rw [hd] at h; cases h⟩, hlt, by intro adr h; simp [dataAdr, hd] at h⟩
    · have hd : decode 0x30431073#32 = some (.csr .rw 0 (.reg 6) 0x304) := by decide
      exact ⟨⟨fun h _ => hv h, hf, by intro adr h; simp [dataAdr, hd] at h, by simp only [excCause, hd]; rw [if_neg (by decide)], by rw [hd]; simp, by intro op rd src adr h; rw [hd] at h; cases h; exact ⟨by decide, by decide, by decide, fun _ => .inl rfl⟩⟩, hlt, by intro adr h; simp [dataAdr, hd] at h⟩
    · have hd : decode 0x30045073#32 = some (.csr .rw 0 (.imm 8) 0x300) := by decide
      exact ⟨⟨fun h _ => hv h, hf, by intro adr h; simp [dataAdr, hd] at h, by simp only [excCause, hd]; rw [if_neg (by decide)], by rw [hd]; simp, by intro op rd src adr h; rw [hd] at h; cases h; exact ⟨by decide, by decide, by decide, fun _ => .inl rfl⟩⟩, hlt, by intro adr h; simp [dataAdr, hd] at h⟩
    · have hd : decode 0x00128293#32 = some (.opImm .add 5 5 1) := by decide
      exact ⟨⟨fun h _ => hv h, hf, by intro adr h; simp [dataAdr, hd] at h, by simp [excCause, hd], by rw [hd]; simp, by intro op rd src adr h; rw [hd] at h; cases h⟩, hlt, by intro adr h; simp [dataAdr, hd] at h⟩
    · have hd : decode 0x10502023#32 = some (.store .sw 0 5 256) := by decide
      exact ⟨⟨fun h _ => hv h, hf, by intro adr h; simp only [dataAdr, hd, Option.some.injEq] at h; subst h; simp only [Arch.reg, if_true]; exact fun e => (hR _ e).2 (by decide), by simp only [excCause, hd, Arch.reg, if_true]; rw [if_neg (by decide)], by rw [hd]; simp, by intro op rd src adr h; rw [hd] at h; cases h⟩, hlt, by intro adr h; simp only [dataAdr, hd, Option.some.injEq] at h; subst h; simp only [Arch.reg, if_true]; decide⟩
    · have hd : decode 0xFF9FF06F#32 = some (.jal 0 0xFFFFC) := by decide
      exact ⟨⟨fun h _ => hv h, hf, by intro adr h; simp [dataAdr, hd] at h, by simp only [excCause, hd, hpc]; rw [if_neg (by decide)], by rw [hd]; simp, by intro op rd src adr h; rw [hd] at h; cases h⟩, hlt, by intro adr h; simp [dataAdr, hd] at h⟩
  intro p
  have hw : p.1.2 = p.2.word p.1.1.pc := flat_word M0 a0 n
  by_cases hn : n < 6
  · have hs := (count_start h).1 n hn
    obtain ⟨wd, hj⟩ : ∃ wd, countMain[n]? = some wd := ⟨_, List.getElem?_eq_getElem (by simp [countMain]; omega)⟩
    exact chk _ _ _ wd n hs.code hw hs.pc hj fun g => by rw [hs.mie] at g; cases g
  · obtain ⟨j, hj⟩ : ∃ j, n = 6 + 3 * j ∨ n = 6 + 3 * j + 1 ∨ n = 6 + 3 * j + 2 := ⟨(n - 6) / 3, by omega⟩
    have ha := (count_all h j).1
    have hl := count_loop (n := 6 + 3 * j) ha
    rcases hj with rfl | rfl | rfl
    · exact chk _ _ _ _ 6 ha.code hw ha.pc rfl fun _ => ha.vec
    · exact chk _ _ _ _ 7 hl.1.code hw hl.1.pc rfl fun _ => hl.1.vec
    · exact chk _ _ _ _ 8 hl.2.1.1.code hw hl.2.1.1.pc rfl fun _ => hl.2.1.1.vec

theorem count_apart {M0 : Mem 10} {a0 : Arch} (h : Setting 0 a0 M0) (n : Nat) :
    let p := flat .asBuilt false M0 a0 n
    Apart countMem 128 p.1.1 p.1.2 := by
  refine (count_apart_of ?_ h n).1
  rintro i (⟨h1, h2⟩ | rfl | rfl)
  · exact ⟨by omega, fun e => by rw [e] at h2; revert h2; decide⟩
  · decide
  · decide

/-- **C84, an example.** For every execution of the core with a memory that holds the program and the handler, and every interrupt waveform: from the first
dispatch on, when `6 + 3 j` instructions of the program have been executed and the handler has run `c` times, x5 is `j`, so is the word at address 256, and the word at address 264
is `c`. -/
theorem C84_count {s : Soc 10} {irq : Nat → Bool} (h : s.AfterReset) (hm : Holds 0 countMain s.ram.mem) (hh : Holds 32 countHandler s.ram.mem) (h66 : s.ram.mem 66 = 0) :
    ∃ t0, s.Setup irq t0 countMem countInv 128 ∧ ∀ t j c, Thread s irq t0 t false (6 + 3 * j) c →
      (s.run irq t).cpu.arch.pc = 24 ∧ (s.run irq t).cpu.arch.reg 5 = BitVec.ofNat 32 j ∧ (0 < j → (s.run irq t).ram.mem 64 = BitVec.ofNat 32 j) ∧
      (s.run irq t).ram.mem 66 = BitVec.ofNat 32 c := by
  obtain ⟨t0, w, ht, hp, ha, hd⟩ := first_exec h.cpu (registered (irq := irq) h) (fair s irq)
  have hram : (s.run irq t0).ram.mem = s.ram.mem := by
    rw [dispatch_ram h hd]
    obtain ⟨-, hl⟩ := Tree.Path.fetch_inv hp
    rw [hl]; rfl
  have hS : Setting 0 (s.run irq t0).cpu.arch (s.run irq t0).ram.mem := by
    rw [hram, run_cpu, ha]
    exact ⟨hm, rfl, rfl⟩
  have hset : s.Setup irq t0 countMem countInv 128 := ⟨h, ⟨w, hd⟩, count_handler, by rw [hram]; exact ⟨hh, h66⟩, count_apart hS⟩
  refine ⟨t0, hset, fun t j c hT => ?_⟩
  obtain ⟨h1, h2, h3, h4⟩ := C84_transparent hset hT
  obtain ⟨h5, h6⟩ := count_all hS j
  refine ⟨?_, ?_, fun hj => ?_, h4.2⟩
  · rw [same_pc' h1]; exact h5.pc
  · rw [same_reg h1]; exact h5.x5
  · rw [h3 64 (by rintro (e | e | e) <;> revert e <;> decide)]; exact h6 hj

/-- A memory with the program and the handler. -/
def countRam : Mem 10 := fun i =>
  if i.toNat < 32 then countMain.getD i.toNat 0 else countHandler.getD (i.toNat - 32) 0

/-- The hypotheses of `C84_count` are met; and with the interrupt line stuck high the handler runs again and again, before the seventh instruction of the program. -/
example : let s : Soc 10 := ⟨powerOn, ⟨countRam, 0, false⟩⟩
    s.AfterReset ∧ Holds 0 countMain s.ram.mem ∧ Holds 32 countHandler s.ram.mem ∧ s.ram.mem 66 = 0 ∧
    ∃ t0, s.Setup (fun _ => true) t0 countMem countInv 128 ∧ ∀ c, ∃ t, Thread s (fun _ => true) t0 t false 6 c := by
  intro s
  have h1 : s.AfterReset := ⟨.inl rfl, rfl⟩
  have h2 : Holds 0 countMain s.ram.mem := by
    intro j w hj
    have hj9 : j < 9 := by
      by_contra g
      rw [List.getElem?_eq_none (by simp [countMain]; omega)] at hj
      cases hj
    show countRam _ = w
    rw [countRam, BitVec.toNat_ofNat, Nat.mod_eq_of_lt (by omega), if_pos (by omega), List.getD_eq_getElem?_getD, show 0 + j = j by omega, hj]; rfl
  have h3 : Holds 32 countHandler s.ram.mem := by
    intro j w hj
    have hj9 : j < 6 := by
      by_contra g
      rw [List.getElem?_eq_none (by simp [countHandler]; omega)] at hj
      cases hj
    show countRam _ = w
    rw [countRam, BitVec.toNat_ofNat, Nat.mod_eq_of_lt (by omega), if_neg (by omega), List.getD_eq_getElem?_getD, show 32 + j - 32 = j by omega, hj]; rfl
  have h4 : s.ram.mem 66 = 0 := by decide +kernel
  refine ⟨h1, h2, h3, h4, ?_⟩
  obtain ⟨t0, w, ht, hp, ha, hd⟩ := first_exec h1.cpu (registered (irq := fun _ => true) h1) (fair s fun _ => true)
  have hram : (s.run (fun _ => true) t0).ram.mem = s.ram.mem := by
    rw [dispatch_ram h1 hd]
    obtain ⟨-, hl⟩ := Tree.Path.fetch_inv hp
    rw [hl]; rfl
  have hS : Setting 0 (s.run (fun _ => true) t0).cpu.arch (s.run (fun _ => true) t0).ram.mem := by
    rw [hram, run_cpu, ha]
    exact ⟨h2, rfl, rfl⟩
  have hset : s.Setup (fun _ => true) t0 countMem countInv 128 := ⟨h1, ⟨w, hd⟩, count_handler, by rw [hram]; exact ⟨h3, h4⟩, count_apart hS⟩
  refine ⟨t0, hset, fun c => ?_⟩
  induction c with
  | zero =>
    have : ∀ n, n ≤ 6 → ∃ t, Thread s (fun _ => true) t0 t false n 0 := by
      intro n
      induction n with
      | zero => exact fun _ => ⟨t0, .start⟩
      | succ n ih =>
        intro hn
        obtain ⟨t, hT⟩ := ih (by omega)
        obtain ⟨g1, g2, -, -⟩ := C84_transparent hset hT
        obtain ⟨m, he⟩ := executes_of_fair h1.cpu (registered h1) (fair s fun _ => true) g2
        have hmie : (s.run (fun _ => true) t).cpu.arch.mie = false := by
          have := ((count_start hS).1 n (by omega)).mie
          unfold Arch.Same at g1
          rw [g1]; exact this
        generalize (flat .asBuilt false (s.run (fun _ => true) t0).ram.mem (s.run (fun _ => true) t0).cpu.arch n).1.2 = wd at he
        refine ⟨t + m, .retire hT he ?_⟩
        have hni : ¬ s.cpu.IrqTaken (s.inputs fun _ => true) t := by
          rintro ⟨-, e, -⟩
          rw [← run_cpu, hmie] at e
          cases e
        rintro (e | ⟨hc, e⟩)
        · exact hni e
        · have hO : OneInstr s.cpu (s.inputs fun _ => true) t wd m := ⟨h1.cpu, registered h1, he⟩
          have : ∃ op rd src adr, decode wd = some (.csr op rd src adr) := by
            unfold isCsr at hc
            split at hc
            · next op rd src adr e => exact ⟨op, rd, src, adr, e⟩
            · cases hc
          obtain ⟨op, rd, src, adr, hd⟩ := this
          obtain ⟨l, -, -, hirq⟩ := hO.csr hni hd
          have := hirq.1 e
          rw [← run_cpu] at this
          simp [Arch.intEnabled, hmie] at this
    exact this 6 (Nat.le_refl _)
  | succ c ih =>
    obtain ⟨t, hT⟩ := ih
    obtain ⟨g1, g2, -, -⟩ := C84_transparent hset hT
    obtain ⟨m, he⟩ := executes_of_fair h1.cpu (registered h1) (fair s fun _ => true) g2
    have hl := (count_start hS).2
    unfold Arch.Same at g1
    generalize flat .asBuilt false (s.run (fun _ => true) t0).ram.mem (s.run (fun _ => true) t0).cpu.arch 6 = p at he hl g1
    have hi : s.Interrupted (fun _ => true) t p.1.2 := .inl ⟨rfl, by rw [← run_cpu, g1]; exact hl.mie, by rw [← run_cpu, g1]; exact hl.meie⟩
    obtain ⟨t', -, h⟩ := C84_return hset (.enter hT he hi)
    exact ⟨t', h⟩

end Sentinel.Soc
