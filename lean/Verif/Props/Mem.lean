import Verif.Props.Arith
import Verif.Spec.Traps
/-!
# C04, C05, C15, C44: loads and stores
-/

set_option linter.unusedSimpArgs false

namespace Sentinel
open Ucode Spec

variable {s : State} {inp : Nat → Input} {t m : Nat} {w : Word}

/-! ## Byte lanes -/

theorem lanes_bit (adr : Word) (size : Nat) (hs : size = 1 ∨ size = 2 ∨ size = 4)
    (ha : aligned adr size = true) (n : Nat) (hn : n < 4) :
    (lanes adr size).getLsbD n = decide (lane adr ≤ n ∧ n < lane adr + size) := by
  have hl := lane_lt adr
  have hal : lane adr % size = 0 := by
    simp only [aligned, decide_eq_true_eq, lane] at *
    rcases hs with rfl | rfl | rfl <;> omega
  have key : ∀ size ∈ [1, 2, 4], ∀ l : _root_.Fin 4, l.val % size = 0 → ∀ n : _root_.Fin 4,
      (BitVec.ofNat 4 ((2 ^ size - 1) * 2 ^ l.val)).getLsbD n.val =
        decide (l.val ≤ n.val ∧ n.val < l.val + size) := by decide
  exact key size (by simpa using hs) ⟨lane adr, hl⟩ hal ⟨n, hn⟩

theorem merge_bit (sel : BitVec 4) (old new : Word) (i : Nat) (hi : i < 32) :
    (mergeBytes sel old new).getLsbD i =
      if sel.getLsbD (i / 8) then new.getLsbD i else old.getLsbD i := by
  have h8 : i / 8 < 4 := by omega
  have e := byteOf_merge sel old new ⟨i / 8, h8⟩
  have e := congrArg (·.getLsbD (i % 8)) e
  have hm : i % 8 < 8 := Nat.mod_lt _ (by decide)
  have hx : 8 * (i / 8) + i % 8 = i := Nat.div_add_mod i 8
  simp only [byteOf, BitVec.getLsbD_extractLsb', hm, decide_true, Bool.true_and, hx] at e
  rw [e]
  split <;> simp [BitVec.getLsbD_extractLsb', hm, hx, -BitVec.getLsbD_eq_getElem]

theorem ldsize (op : LdOp) : op.size = 1 ∨ op.size = 2 ∨ op.size = 4 := by cases op <;> simp [LdOp.size]
theorem stsize (op : StOp) : op.size = 1 ∨ op.size = 2 ∨ op.size = 4 := by cases op <;> simp [StOp.size]

/-- **C04, C05.** SEL selects exactly the bytes accessed: lanes `adr % 4` up to
`adr % 4 + size - 1`. -/
theorem C04_sel (adr : Word) (size : Nat) (hs : size = 1 ∨ size = 2 ∨ size = 4)
    (ha : adr.toNat % size = 0) (n : Nat) (hn : n < 4) :
    ((readReq adr size).sel.getLsbD n = true ↔ adr.toNat % 4 ≤ n ∧ n < adr.toNat % 4 + size) ∧
    ∀ v, (writeReq adr size v).sel = (readReq adr size).sel := by
  refine ⟨?_, fun _ => rfl⟩
  simp only [readReq]
  rw [lanes_bit adr size hs (by simpa [aligned] using ha) n hn]
  exact decide_eq_true_iff

/-- **C04, C05.** ADR is the word address. -/
theorem C04_adr (adr : Word) (size : Nat) :
    (readReq adr size).adr.toNat = adr.toNat / 4 ∧ ∀ v, (writeReq adr size v).adr.toNat = adr.toNat / 4 := by
  have : (wordAdr adr).toNat = adr.toNat / 4 := by
    have := adr.isLt
    simp only [wordAdr, BitVec.extractLsb'_toNat, Nat.shiftRight_eq_div_pow]
    omega
  exact ⟨this, fun _ => this⟩

theorem loadValue_low (op : LdOp) (adr d : Word) (i : Nat) (hi : i < 8 * op.size) :
    (loadValue op adr d).getLsbD i = d.getLsbD (8 * lane adr + i) := by
  cases op <;> simp only [LdOp.size] at hi <;>
    simp only [loadValue, BitVec.getLsbD_signExtend, BitVec.getLsbD_setWidth,
      BitVec.getLsbD_extractLsb', BitVec.getLsbD_ushiftRight] <;>
    simp [show i < 32 by omega, show i < 16 by omega, hi]

/-- **C04.** The value loaded: byte `i` of the value is byte `adr % 4 + i` of the bus word, and the
bits above are copies of the top bit of the last byte (signed loads) or 0 (unsigned loads). -/
theorem C04_value (op : LdOp) (adr d : Word) (ha : adr.toNat % op.size = 0) :
    (∀ i, i < op.size → byteOf (loadValue op adr d) i = byteOf d (adr.toNat % 4 + i)) ∧
    ∀ j, 8 * op.size ≤ j → j < 32 → (loadValue op adr d).getLsbD j =
      match op with
      | .lb | .lh => d.getLsbD (8 * (adr.toNat % 4 + op.size) - 1)
      | _ => false := by
  have hl := lane_lt adr
  refine ⟨?_, ?_⟩
  · intro i hi
    apply BitVec.eq_of_getLsbD_eq
    intro j hj
    simp only [byteOf, BitVec.getLsbD_extractLsb', hj, decide_true, Bool.true_and]
    have hi' : 8 * i + j < 8 * op.size := by omega
    rw [loadValue_low op adr d _ hi']
    simp only [lane]
    congr 1; omega
  · intro j h1 h2
    have e : adr.toNat % 4 = lane adr := rfl
    rw [e]
    cases op <;> simp only [LdOp.size] at * <;>
      simp only [loadValue, BitVec.getLsbD_signExtend, BitVec.getLsbD_setWidth,
        BitVec.getLsbD_extractLsb', BitVec.getLsbD_ushiftRight, BitVec.msb_eq_getLsbD_last]
    · rw [if_neg (by omega), show 8 * (lane adr + 1) - 1 = 8 * lane adr + 7 by omega]
      simp [h2, -BitVec.getLsbD_eq_getElem]
    · rw [if_neg (by omega), show 8 * (lane adr + 2) - 1 = 8 * lane adr + 15 by omega]
      simp [h2, -BitVec.getLsbD_eq_getElem]
    · omega
    · simp [show ¬ j < 8 by omega, -BitVec.getLsbD_eq_getElem]
    · simp [show ¬ j < 16 by omega, -BitVec.getLsbD_eq_getElem]

/-- **C05.** The data stored: byte `adr % 4 + i` of DAT_O is byte `i` of the register. -/
theorem C05_value (op : StOp) (adr v : Word) (ha : adr.toNat % op.size = 0) (i : Nat) (hi : i < op.size) :
    byteOf (writeReq adr op.size v).data (adr.toNat % 4 + i) = byteOf v i := by
  have hl := lane_lt adr
  have hx : lane adr + op.size ≤ 4 := by
    simp only [lane] at *
    cases op <;> simp only [StOp.size] at * <;> omega
  apply BitVec.eq_of_getLsbD_eq
  intro j hj
  simp only [byteOf, writeReq, BitVec.getLsbD_extractLsb', hj, decide_true, Bool.true_and,
    BitVec.getLsbD_shiftLeft, lowBytes_bit]
  have e : adr.toNat % 4 = lane adr := rfl
  rw [e]
  have h1 : 8 * (lane adr + i) + j < 32 := by omega
  have h2 : ¬ 8 * (lane adr + i) + j < 8 * lane adr := by omega
  have h3 : 8 * (lane adr + i) + j - 8 * lane adr = 8 * i + j := by omega
  have h4 : 8 * i + j < 8 * op.size := by omega
  simp [h1, h2, h3, h4, -BitVec.getLsbD_eq_getElem]

/-! ## The instructions -/

/-- **C04.** An aligned load makes exactly one data access, a read of the bytes at rs1+imm, and
writes rd with the value read. -/
theorem C04_load {op : LdOp} {rd rs1 : Reg} {imm : BitVec 12} (h : OneInstr s inp t w m)
    (hi : ¬ s.IrqTaken inp t) (hw : decode w = some (.load op rd rs1 imm))
    (ha : ((s.run inp t).arch.reg rs1 + imm.signExtend 32).toNat % op.size = 0) :
    let a := (s.run inp t).arch
    let adr := a.reg rs1 + imm.signExtend 32
    ∃ d, s.Effect inp t m { a.setReg rd (loadValue op adr d) with pc := a.pc + 4 }
      [.bus (readReq adr op.size) d] := by
  intro a adr
  have ha : aligned adr op.size = true := decide_eq_true ha
  simp only [← setReg_next]
  refine h.access hi hw ?_
  simp only [execInstr]
  exact if_pos ha

/-- `lh x2, 2(x1)` with x1 = 4. -/
example : decode 0x00209103#32 = some (.load .lh 2 1 2) ∧
    ∃ s inp t m, OneInstr s inp t 0x00209103#32 m ∧ ¬ s.IrqTaken inp t ∧
      ((s.run inp t).arch.reg 1 + (2#12).signExtend 32).toNat % LdOp.lh.size = 0 :=
  ⟨by decide, demo_quiet (P := fun a => (a.reg 1 + (2#12).signExtend 32).toNat % LdOp.lh.size = 0)
    [0x00400093#32, 0x00209103#32] 1 (by decide +kernel) (by decide +kernel)⟩

/-- **C05.** An aligned store makes exactly one data access, a write of the low bytes of rs2 at
rs1+imm, and changes nothing but the program counter. -/
theorem C05_store {op : StOp} {rs1 rs2 : Reg} {imm : BitVec 12} (h : OneInstr s inp t w m)
    (hi : ¬ s.IrqTaken inp t) (hw : decode w = some (.store op rs1 rs2 imm))
    (ha : ((s.run inp t).arch.reg rs1 + imm.signExtend 32).toNat % op.size = 0) :
    let a := (s.run inp t).arch
    let adr := a.reg rs1 + imm.signExtend 32
    ∃ d, s.Effect inp t m { a with pc := a.pc + 4 } [.bus (writeReq adr op.size (a.reg rs2)) d] := by
  intro a adr
  have ha : aligned adr op.size = true := decide_eq_true ha
  refine h.access (f := fun _ => a.next) hi hw ?_
  simp only [execInstr]
  exact if_pos ha

/-- `sb x1, 3(x1)` with x1 = 64. -/
example : decode 0x001081A3#32 = some (.store .sb 1 1 3) ∧
    ∃ s inp t m, OneInstr s inp t 0x001081A3#32 m ∧ ¬ s.IrqTaken inp t ∧
      ((s.run inp t).arch.reg 1 + (3#12).signExtend 32).toNat % StOp.sb.size = 0 :=
  ⟨by decide, demo_quiet (P := fun a => (a.reg 1 + (3#12).signExtend 32).toNat % StOp.sb.size = 0)
    [0x04000093#32, 0x001081A3#32] 1 (by decide +kernel) (by decide +kernel)⟩

theorem exception_eq (a : Arch) (c : BitVec 31) :
    a.exception .asBuilt c = a.enterTrap (a.excWord c) := by
  simp [Arch.exception, Arch.trap, Arch.enterTrap, Arch.excWord, Cfg.asBuilt]

/-- **C15.** A misaligned load makes no data access, changes no register, and traps with cause 4. -/
theorem C15_load {op : LdOp} {rd rs1 : Reg} {imm : BitVec 12} (h : OneInstr s inp t w m)
    (hi : ¬ s.IrqTaken inp t) (hw : decode w = some (.load op rd rs1 imm))
    (ha : ((s.run inp t).arch.reg rs1 + imm.signExtend 32).toNat % op.size ≠ 0) :
    let a := (s.run inp t).arch
    s.Effect inp t m (a.enterTrap (a.excWord 4)) [] := by
  intro a
  rw [← exception_eq]
  refine h.pure hi hw ?_
  simp only [execInstr]
  exact if_neg (by simpa only [aligned, decide_eq_true_eq] using ha)

/-- **C15.** A misaligned store makes no data access and traps with cause 6. -/
theorem C15_store {op : StOp} {rs1 rs2 : Reg} {imm : BitVec 12} (h : OneInstr s inp t w m)
    (hi : ¬ s.IrqTaken inp t) (hw : decode w = some (.store op rs1 rs2 imm))
    (ha : ((s.run inp t).arch.reg rs1 + imm.signExtend 32).toNat % op.size ≠ 0) :
    let a := (s.run inp t).arch
    s.Effect inp t m (a.enterTrap (a.excWord 6)) [] := by
  intro a
  rw [← exception_eq]
  refine h.pure hi hw ?_
  simp only [execInstr]
  exact if_neg (by simpa only [aligned, decide_eq_true_eq] using ha)

/-- `lw x2, 2(x1)` and `sh x1, 1(x1)` with x1 = 4. -/
example : decode 0x0020A103#32 = some (.load .lw 2 1 2) ∧
    (∃ s inp t m, OneInstr s inp t 0x0020A103#32 m ∧ ¬ s.IrqTaken inp t ∧
      ((s.run inp t).arch.reg 1 + (2#12).signExtend 32).toNat % LdOp.lw.size ≠ 0) ∧
    decode 0x001090A3#32 = some (.store .sh 1 1 1) ∧
    ∃ s inp t m, OneInstr s inp t 0x001090A3#32 m ∧ ¬ s.IrqTaken inp t ∧
      ((s.run inp t).arch.reg 1 + (1#12).signExtend 32).toNat % StOp.sh.size ≠ 0 :=
  ⟨by decide, demo_quiet (P := fun a => (a.reg 1 + (2#12).signExtend 32).toNat % LdOp.lw.size ≠ 0)
    [0x00400093#32, 0x0020A103#32] 1 (by decide +kernel) (by decide +kernel),
   by decide, demo_quiet (P := fun a => (a.reg 1 + (1#12).signExtend 32).toNat % StOp.sh.size ≠ 0)
    [0x00400093#32, 0x001090A3#32] 1 (by decide +kernel) (by decide +kernel)⟩

/-! ## C44: the alignment circuits -/

/-- **C44.** A store followed by a load of the same width at the same aligned address, over any
word `old` of byte-lane memory: the bytes outside the access are unchanged, and the load returns the
low bytes of the stored value, extended as the load says. -/
theorem C44_roundtrip (op : LdOp) (adr v old : Word) (ha : adr.toNat % op.size = 0) :
    let sel := wbSel true false (selOf op) adr
    let word := mergeBytes sel old (writeDataAlign (selOf op) adr v)
    (∀ n, n < 4 → (n < adr.toNat % 4 ∨ adr.toNat % 4 + op.size ≤ n) → byteOf word n = byteOf old n) ∧
    readDataAlign (selOf op) (extOf op) adr word =
      match op with
      | .lb => (v.extractLsb' 0 8).signExtend 32
      | .lbu => (v.extractLsb' 0 8).setWidth 32
      | .lh => (v.extractLsb' 0 16).signExtend 32
      | .lhu => (v.extractLsb' 0 16).setWidth 32
      | .lw => v := by
  intro sel word
  have ha' : aligned adr op.size = true := by simpa [aligned] using ha
  have hs := ldsize op
  have hl := lane_lt adr
  have hx : lane adr + op.size ≤ 4 := by
    simp only [lane] at *
    clear sel word ha'
    cases op <;> simp only [LdOp.size] at * <;> omega
  have hsel : sel = lanes adr op.size := by
    have := wbSel_eq op.size hs adr ha'
    exact this
  have hword : word = mergeBytes (lanes adr op.size) old
      (BitVec.ofNat 32 (v.toNat % 2 ^ (8 * op.size)) <<< (8 * lane adr)) := by
    have := writeDataAlign_eq op.size hs adr v ha'
    rw [← this, merge_masked, ← hsel]
    rfl
  refine ⟨?_, ?_⟩
  · intro n hn hout
    rw [hword, byteOf_merge _ _ _ ⟨n, hn⟩]
    simp only
    rw [lanes_bit adr op.size hs ha' n hn, if_neg]
    simp only [decide_eq_true_eq]
    have e : adr.toNat % 4 = lane adr := rfl
    omega
  · rw [readDataAlign_eq op adr word ha']
    have hbit : ∀ i, i < 8 * op.size → word.getLsbD (8 * lane adr + i) = v.getLsbD i := by
      intro i hi
      have h32 : 8 * lane adr + i < 32 := by omega
      rw [hword, merge_bit _ _ _ _ h32, lanes_bit adr op.size hs ha' _ (by omega), if_pos]
      · simp only [BitVec.getLsbD_shiftLeft, lowBytes_bit]
        simp [h32, hi, -BitVec.getLsbD_eq_getElem]
      · simp only [decide_eq_true_eq]; omega
    have hext : ∀ n, n ≤ 8 * op.size → (word >>> (8 * lane adr)).extractLsb' 0 n = v.extractLsb' 0 n := by
      intro n hn
      apply BitVec.eq_of_getLsbD_eq
      intro i hi
      simp only [BitVec.getLsbD_extractLsb', hi, decide_true, Bool.true_and, BitVec.getLsbD_ushiftRight]
      rw [Nat.zero_add]
      exact hbit i (by omega)
    cases op <;> simp only [loadValue]
    case lw =>
      apply BitVec.eq_of_getLsbD_eq
      intro i hi
      rw [BitVec.getLsbD_ushiftRight]
      exact hbit i (by simpa [LdOp.size] using hi)
    all_goals rw [hext _ (by simp [LdOp.size])]

/-- A byte in the middle of a word. -/
example : (0x1002#32).toNat % LdOp.lb.size = 0 ∧
    mergeBytes (wbSel true false (selOf .lb) 0x1002#32) 0x11223344#32
      (writeDataAlign (selOf .lb) 0x1002#32 0xAABBCCDD#32) = 0x11DD3344#32 := by decide

end Sentinel
