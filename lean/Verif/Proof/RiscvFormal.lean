import Verif.Core.RvfiPort
import Verif.Props.Frame
import Verif.Props.Arith
import Verif.Props.Jump
import Verif.Props.Mem
/-!
# The reports pass the instruction checks of RISC-V Formal
-/

set_option linter.unusedSimpArgs false

namespace Sentinel
open Ucode Spec
open RvFormal (Report Expect InsnCheck Model)

variable {s : State} {inp : Nat → Input} {t m : Nat} {w : Word} {r : Rvfi}

/-- The report of the instruction `w` that leads from `a` to `a'`. -/
structure Reports (a a' : Arch) (w : Word) (v : Report) : Prop where
  insn : v.insn = w
  pcR : v.pcRdata = a.pc
  pcW : v.pcWdata = a'.pc
  rs1A : v.rs1Addr = w.extractLsb' 15 5
  rs2A : v.rs2Addr = w.extractLsb' 20 5
  rs1 : v.rs1Rdata = a.reg (w.extractLsb' 15 5)
  rs2 : v.rs2Rdata = a.reg (w.extractLsb' 20 5)
  /-- without an interrupt, not for CSR instructions -/
  trap : isCsr w = false → v.trap = (excCause a w).isSome
  rd : ∀ ins, decode w = some ins → v.trap = false →
    v.rdAddr = (destReg ins).getD 0 ∧ v.rdWdata = a'.reg ((destReg ins).getD 0)
  mem : isCsr w = false → (excCause a w).isSome = true ∨ (∀ ins, decode w = some ins → (∀ op rd rs1 imm, ins ≠ .load op rd rs1 imm) ∧
    ∀ op rs1 rs2 imm, ins ≠ .store op rs1 rs2 imm) → v.memRmask = 0 ∧ v.memWmask = 0
  load : ∀ op rd rs1 imm, decode w = some (.load op rd rs1 imm) → (a.reg rs1 + imm.signExtend 32).toNat % op.size = 0 →
    v.memAddr = wordAdr (a.reg rs1 + imm.signExtend 32) ++ 0#2 ∧ v.memRmask = lanes (a.reg rs1 + imm.signExtend 32) op.size ∧ v.memWmask = 0 ∧
      a' = { a.setReg rd (loadValue op (a.reg rs1 + imm.signExtend 32) v.memRdata) with pc := a.pc + 4 }
  store : ∀ op rs1 rs2 imm, decode w = some (.store op rs1 rs2 imm) → (a.reg rs1 + imm.signExtend 32).toNat % op.size = 0 →
    let q := writeReq (a.reg rs1 + imm.signExtend 32) op.size (a.reg rs2)
    v.memAddr = q.adr ++ 0#2 ∧ v.memRmask = 0 ∧ v.memWmask = q.sel ∧ v.memWdata &&& laneMask q.sel = q.data ∧ a' = { a with pc := a.pc + 4 }

theorem traps_plain (h : OneInstr s inp t w m) (hi : ¬ s.IrqTaken inp t) (hc : isCsr w = false) :
    traps (s.run inp t).arch w (s.events inp t m) = (excCause (s.run inp t).arch w).isSome := by
  obtain ⟨l, hl⟩ := State.events_head h.runs.1.1 h.runs.2.1
  have hb : ((inp t).irq && (s.run inp t).arch.intEnabled) = false := by
    simpa [State.IrqTaken, Arch.intEnabled] using hi
  simp [hl, traps, hb, hc]

theorem OneInstr.reports (h : OneInstr s inp t w m) (hi : ¬ s.IrqTaken inp t) (r : Rvfi) :
    Reports (s.run inp t).arch (s.run inp (t + m)).arch w (r.report s inp (t + m - 1)) := by
  obtain ⟨hpr, hpw⟩ := C50_pc (r := r) h
  obtain ⟨h1, h2, h3, h4⟩ := C50_rs (r := r) h
  refine ⟨C49_insn h, hpr, hpw, h1, h2, h3, h4, fun hc => ?_, fun ins hw ht => ?_, fun hc hn => ?_, fun op rd rs1 imm hw ha => ?_,
    fun op rs1 rs2 imm hw ha => ?_⟩
  · rw [← traps_plain h hi hc]; exact C52_trap h
  · exact C53_rd_partial h hw ((C52_trap h).symm.trans ht)
  · exact C51_none h (by rwa [traps_plain h hi hc])
  · obtain ⟨d, hE⟩ := C04_load h hi hw ha
    have hm := C51_mem (r := r) h hE
    simp only [lastAccess, List.filterMap_cons, List.filterMap_nil, List.getLast?_singleton] at hm
    obtain ⟨k1, k2, k3⟩ := hm
    simp only [readReq, Bool.false_eq_true, if_false] at k1 k3
    refine ⟨k1, k3.1, k3.2, ?_⟩
    rw [hE.1]
    simp only [Rvfi.report, k2]
  · obtain ⟨d, hE⟩ := C05_store h hi hw ha
    obtain ⟨k1, k2, k3, k4⟩ := C51_store (r := r) h hi hw ha
    exact ⟨k1, k2, k3, k4, hE.1⟩

variable {a a' : Arch} {v : Report}

theorem Reports.trapped {e : Expect} (hv : Reports a a' w v) (hc : isCsr w = false) (hx : (excCause a w).isSome = true) (he : e.trap = true) :
    InsnCheck v e where
  rs1Zero := fun h => by rw [hv.rs1, ← hv.rs1A, h]; rfl
  rs2Zero := fun h => by rw [hv.rs2, ← hv.rs2A, h]; rfl
  trap := by rw [hv.trap hc, hx, he]
  rs1 := fun h => by rw [he] at h; cases h
  rs2 := fun h => by rw [he] at h; cases h
  rd := fun h => by rw [he] at h; cases h
  pc := fun h => by rw [he] at h; cases h
  masks := fun h => by rw [he] at h; cases h
  adr := fun h => by rw [he] at h; cases h
  data := fun h => by rw [he] at h; cases h

theorem Reports.pure {e : Expect} {ins : Instr} (hv : Reports a a' w v) (hw : decode w = some ins) (hc : isCsr w = false) (hx : excCause a w = none)
    (hn : (∀ op rd rs1 imm, ins ≠ .load op rd rs1 imm) ∧ ∀ op rs1 rs2 imm, ins ≠ .store op rs1 rs2 imm)
    (he : e.trap = false) (h1 : e.rs1Addr = 0 ∨ e.rs1Addr = w.extractLsb' 15 5) (h2 : e.rs2Addr = 0 ∨ e.rs2Addr = w.extractLsb' 20 5)
    (hd : e.rdAddr = (destReg ins).getD 0) (hdv : e.rdWdata = a'.reg ((destReg ins).getD 0)) (hp : e.pcWdata = a'.pc)
    (hm : e.memRmask = 0 ∧ e.memWmask = 0) : InsnCheck v e := by
  have ht : v.trap = false := by rw [hv.trap hc, hx]; rfl
  have hm' := hv.mem hc (.inr fun ins' hw' => by rw [hw] at hw'; cases hw'; exact hn)
  refine ⟨fun h => by rw [hv.rs1, ← hv.rs1A, h]; rfl, fun h => by rw [hv.rs2, ← hv.rs2A, h]; rfl, by rw [ht, he],
    fun _ h => ?_, fun _ h => ?_, fun _ => ?_, fun _ => by rw [hv.pcW, hp], fun _ => ⟨hm'.1.trans hm.1.symm, hm'.2.trans hm.2.symm⟩,
    fun _ h => ?_, fun _ i hi h => ?_⟩
  · rw [hv.rs1A]; exact (h1.resolve_left h).symm
  · rw [hv.rs2A]; exact (h2.resolve_left h).symm
  · obtain ⟨k1, k2⟩ := hv.rd ins hw ht
    exact ⟨k1.trans hd.symm, k2.trans hdv.symm⟩
  · rcases h with h | h
    · exact absurd hm.1 h
    · exact absurd hm.2 h
  · rw [hm.2] at h; simp at h

theorem setReg_toRd (x : Word) (hv : Reports a a' w v) (p : Word) : v.toRd x = ({ a.setReg (w.extractLsb' 7 5) x with pc := p } : Arch).reg (w.extractLsb' 7 5) := by
  simp only [Report.toRd, Report.rd, hv.insn]
  unfold Arch.setReg Arch.reg
  split <;> simp_all

theorem and_three (x : Word) : (decide (x &&& 3 ≠ 0)) = decide (x.toNat % 4 ≠ 0) := by
  have h : (x &&& 3).toNat = x.toNat % 4 := by
    rw [BitVec.toNat_and]; exact Nat.and_two_pow_sub_one_eq_mod x.toNat 2
  exact decide_eq_decide.2 (by rw [← h, ne_eq, ne_eq, ← BitVec.toNat_inj]; rfl)

theorem and_size (x : Word) (size : Nat) (hs : size = 1 ∨ size = 2 ∨ size = 4) :
    (decide (x &&& (BitVec.ofNat 32 size - 1) ≠ 0)) = decide (x.toNat % size ≠ 0) := by
  have h : (x &&& (BitVec.ofNat 32 size - 1)).toNat = x.toNat % size := by
    rw [BitVec.toNat_and]
    rcases hs with rfl | rfl | rfl
    · exact Nat.and_two_pow_sub_one_eq_mod x.toNat 0
    · exact Nat.and_two_pow_sub_one_eq_mod x.toNat 1
    · exact Nat.and_two_pow_sub_one_eq_mod x.toNat 2
  exact decide_eq_decide.2 (by rw [← h, ne_eq, ne_eq, ← BitVec.toNat_inj]; rfl)

/-- The fields of a report are those of the word. -/
theorem Reports.fields (hv : Reports a a' w v) : v.opcode = w.extractLsb' 0 7 ∧ v.funct3 = w.extractLsb' 12 3 ∧ v.funct7 = w.extractLsb' 25 7 ∧
    v.rd = w.extractLsb' 7 5 ∧ v.rs1 = w.extractLsb' 15 5 ∧ v.rs2 = w.extractLsb' 20 5 ∧ v.immI = (w.extractLsb' 20 12).signExtend 32 := by
  simp only [Report.opcode, Report.funct3, Report.funct7, Report.rd, Report.rs1, Report.rs2, Report.immI, hv.insn, and_self]

theorem arch_pc_four (σ : State) : (σ.arch.pc + 4).toNat % 4 = 0 := by
  have : σ.arch.pc.toNat % 4 = 0 := by
    simp only [State.arch, BitVec.toNat_append]
    rw [Nat.shiftLeft_eq]; simp
  rw [BitVec.toNat_add]
  have e : (4 : Word).toNat = 4 := rfl
  omega

theorem word_eq (x : Word) : x &&& ~~~3 = wordAdr x ++ 0#2 := by
  ext i hi
  simp only [wordAdr, BitVec.getElem_and, BitVec.getElem_not, BitVec.getElem_append, BitVec.getElem_extractLsb']
  have e : (3 : Word)[i] = decide (i < 2) := by
    revert i; decide
  rw [e]
  by_cases h : i < 2
  · simp [h]
  · simp only [h, decide_false, Bool.not_false, Bool.and_true, dif_neg, not_false_eq_true]
    rw [show 2 + (i - 2) = i by omega, BitVec.getLsbD_eq_getElem hi]

theorem off_toNat (x : Word) : (x - (x &&& ~~~3)).toNat = lane x := by
  rw [word_eq]
  have h1 := x.isLt
  have e : (wordAdr x ++ 0#2 : Word).toNat = x.toNat / 4 * 4 := by
    simp only [wordAdr, BitVec.toNat_append, BitVec.extractLsb'_toNat, Nat.shiftLeft_eq, Nat.shiftRight_eq_div_pow]
    simp
    omega
  rw [BitVec.toNat_sub, e, lane]
  omega

theorem off8_toNat (x : Word) : (8 * (x - (x &&& ~~~3))).toNat = 8 * lane x := by
  have := lane_lt x
  rw [BitVec.toNat_mul, off_toNat]
  have e : (8 : Word).toNat = 8 := rfl
  rw [e]; omega

theorem lanesAt_eq (x : Word) (size : Nat) (hs : size = 1 ∨ size = 2 ∨ size = 4) : RvFormal.lanesAt size (x - (x &&& ~~~3)) = lanes x size := by
  have := lane_lt x
  simp only [RvFormal.lanesAt, lanes]
  rw [BitVec.shiftLeft_eq', off_toNat]
  generalize lane x = l at *
  rcases hs with rfl | rfl | rfl <;> (have : l = 0 ∨ l = 1 ∨ l = 2 ∨ l = 3 := by omega) <;> rcases this with rfl | rfl | rfl | rfl <;> decide

section
variable (h : OneInstr s inp t w m) (hi : ¬ s.IrqTaken inp t) (hv : Reports (s.run inp t).arch (s.run inp (t + m)).arch w v)
include h hi hv

theorem check_rType {name : String} {f7 : BitVec 7} {f3 : BitVec 3} {f : Word → Word → Word} {op : AluOp} (hf : ∀ x y, f x y = alu op x y)
    (hd : ∀ w : Word, w.extractLsb' 0 7 = 0b0110011#7 → w.extractLsb' 12 3 = f3 → w.extractLsb' 25 7 = f7 →
      decode w = some (.op op (w.extractLsb' 7 5) (w.extractLsb' 15 5) (w.extractLsb' 20 5)))
    (hs : (RvFormal.rType name f7 f3 f).sel v = true) : InsnCheck v ((RvFormal.rType name f7 f3 f).expect v) := by
  obtain ⟨f1, f2, f3', f4, f5, f6, -⟩ := hv.fields
  simp only [RvFormal.rType, Bool.and_eq_true, decide_eq_true_eq, f1, f2, f3'] at hs
  have hw := hd w hs.1.1 hs.1.2 hs.2
  have hE := h.pure hi hw rfl
  rw [setReg_next] at hE
  refine hv.pure hw (by simp [isCsr, hw]) (by simp [excCause, hw]) ⟨by simp, by simp⟩ rfl (.inr f5) (.inr f6) f4 ?_ ?_ ⟨rfl, rfl⟩
  · rw [hE.1]
    simp only [RvFormal.rType, destReg, Option.getD_some, hf, hv.rs1, hv.rs2]
    exact setReg_toRd _ hv _
  · rw [hE.1, ← hv.pcR]; rfl

theorem check_imm {e : Expect} {op : AluOp} {x : Word} (hw : decode w = some (.opImm op (w.extractLsb' 7 5) (w.extractLsb' 15 5) (w.extractLsb' 20 12)))
    (hx : x = alu op v.rs1Rdata v.immI)
    (he : e = { rs1Addr := v.rs1, rdAddr := v.rd, rdWdata := v.toRd x, pcWdata := v.pcRdata + 4 }) : InsnCheck v e := by
  obtain ⟨f1, f2, f3', f4, f5, f6, f7⟩ := hv.fields
  have hE := h.pure hi hw rfl
  rw [setReg_next] at hE
  subst he
  refine hv.pure hw (by simp [isCsr, hw]) (by simp [excCause, hw]) ⟨by simp, by simp⟩ rfl (.inr f5) (.inl rfl) f4 ?_ ?_ ⟨rfl, rfl⟩
  · rw [hE.1]
    simp only [destReg, Option.getD_some, hx, hv.rs1, f7]
    exact setReg_toRd _ hv _
  · rw [hE.1, ← hv.pcR]

theorem check_iType {name : String} {f3 : BitVec 3} {f : Word → Word → Word} {op : AluOp} (hf : ∀ x y, f x y = alu op x y)
    (hd : ∀ w : Word, w.extractLsb' 0 7 = 0b0010011#7 → w.extractLsb' 12 3 = f3 →
      decode w = some (.opImm op (w.extractLsb' 7 5) (w.extractLsb' 15 5) (w.extractLsb' 20 12)))
    (hs : (RvFormal.iType name f3 f).sel v = true) : InsnCheck v ((RvFormal.iType name f3 f).expect v) := by
  obtain ⟨f1, f2, -⟩ := hv.fields
  simp only [RvFormal.iType, Bool.and_eq_true, decide_eq_true_eq, f1, f2] at hs
  exact check_imm h hi hv (hd w hs.1 hs.2) (hf _ _) rfl

theorem check_shType {name : String} {f7 : BitVec 7} {f3 : BitVec 3} {f : Word → BitVec 5 → Word} {op : AluOp}
    (hf : ∀ x (y : BitVec 12), f x (y.setWidth 5) = alu op x (y.signExtend 32))
    (hd : ∀ w : Word, w.extractLsb' 0 7 = 0b0010011#7 → w.extractLsb' 12 3 = f3 → w.extractLsb' 25 7 = f7 →
      decode w = some (.opImm op (w.extractLsb' 7 5) (w.extractLsb' 15 5) (w.extractLsb' 20 12)))
    (hs : (RvFormal.shType name f7 f3 f).sel v = true) : InsnCheck v ((RvFormal.shType name f7 f3 f).expect v) := by
  obtain ⟨f1, f2, f3', f4, f5, f6, f7'⟩ := hv.fields
  simp only [RvFormal.shType, Bool.and_eq_true, decide_eq_true_eq, f1, f2, f3'] at hs
  refine check_imm h hi hv (hd w hs.1.1 hs.1.2 hs.2) (x := f v.rs1Rdata v.rs2) ?_ rfl
  rw [f7', ← hf, f6]
  congr 1
  ext i hi
  simp [hi]; omega

theorem check_bType {name : String} {f3 : BitVec 3} {c : Word → Word → Bool} {op : BrOp} (hf : ∀ x y, c x y = brTaken op x y)
    (hd : ∀ w : Word, w.extractLsb' 0 7 = 0b1100011#7 → w.extractLsb' 12 3 = f3 →
      decode w = some (.branch op (w.extractLsb' 15 5) (w.extractLsb' 20 5)
        (w.extractLsb' 31 1 ++ w.extractLsb' 7 1 ++ w.extractLsb' 25 6 ++ w.extractLsb' 8 4)))
    (hs : (RvFormal.bType name f3 c).sel v = true) : InsnCheck v ((RvFormal.bType name f3 c).expect v) := by
  obtain ⟨f1, f2, -, f4, f5, f6, -⟩ := hv.fields
  simp only [RvFormal.bType, Bool.and_eq_true, decide_eq_true_eq, f1, f2] at hs
  have hw := hd w hs.1 hs.2
  have hi0 : v.immB = ((w.extractLsb' 31 1 ++ w.extractLsb' 7 1 ++ w.extractLsb' 25 6 ++ w.extractLsb' 8 4 : BitVec 12) ++ 0#1 : BitVec 13).signExtend 32 := by
    simp only [Report.immB, hv.insn]
  generalize (w.extractLsb' 31 1 ++ w.extractLsb' 7 1 ++ w.extractLsb' 25 6 ++ w.extractLsb' 8 4 : BitVec 12) = imm at hw hi0
  have hc : isCsr w = false := by simp [isCsr, hw]
  by_cases hb : brTaken op ((s.run inp t).arch.reg (w.extractLsb' 15 5)) ((s.run inp t).arch.reg (w.extractLsb' 20 5)) = true
  · by_cases ha : ((s.run inp t).arch.pc + (imm ++ 0#1 : BitVec 13).signExtend 32).toNat % 4 = 0
    · have hE := C06_taken h hi hw hb ha
      refine hv.pure hw hc (by simp only [excCause, hw, ne_eq, ha, not_true_eq_false, and_false, if_false]) ⟨by simp, by simp⟩ ?_ (.inr f5) (.inr f6) rfl ?_ ?_ ⟨rfl, rfl⟩
      · simp only [RvFormal.bType, hf, hv.rs1, hv.rs2, hb, if_true, hv.pcR, hi0, and_three, ha]; rfl
      · rw [hE.1]; rfl
      · rw [hE.1]; simp only [RvFormal.bType, hf, hv.rs1, hv.rs2, hb, if_true, hv.pcR, hi0]
    · refine hv.trapped hc (by simp only [excCause, hw, hb, ne_eq, ha, not_false_eq_true, and_self, if_true, Option.isSome_some]) ?_
      simp only [RvFormal.bType, hf, hv.rs1, hv.rs2, hb, if_true, hv.pcR, hi0, and_three]
      exact decide_eq_true ha
  · have hb : brTaken op ((s.run inp t).arch.reg (w.extractLsb' 15 5)) ((s.run inp t).arch.reg (w.extractLsb' 20 5)) = false := by simpa using hb
    have hE := C06_notTaken h hi hw hb
    refine hv.pure hw hc (by simp [excCause, hw, hb]) ⟨by simp, by simp⟩ ?_ (.inr f5) (.inr f6) rfl ?_ ?_ ⟨rfl, rfl⟩
    · simp only [RvFormal.bType, hf, hv.rs1, hv.rs2, hb, hv.pcR, and_three, Bool.false_eq_true, if_false]
      have := arch_pc_four (s.run inp t)
      exact decide_eq_false (by omega)
    · rw [hE.1]; rfl
    · rw [hE.1]; simp only [RvFormal.bType, hf, hv.rs1, hv.rs2, hb, hv.pcR, Bool.false_eq_true, if_false]

theorem check_lui {e : Expect} (hs : v.opcode = 0b0110111#7)
    (he : e = { rdAddr := v.rd, rdWdata := v.toRd v.immU, pcWdata := v.pcRdata + 4 }) : InsnCheck v e := by
  obtain ⟨f1, f2, -, f4, -⟩ := hv.fields
  have hw : decode w = some (.lui (w.extractLsb' 7 5) (w.extractLsb' 12 20)) := by
    rw [f1] at hs; simp only [decode, hs]; rfl
  have hE := h.pure hi hw rfl
  rw [setReg_next] at hE
  subst he
  refine hv.pure hw (by simp [isCsr, hw]) (by simp [excCause, hw]) ⟨by simp, by simp⟩ rfl (.inl rfl) (.inl rfl) f4 ?_ ?_ ⟨rfl, rfl⟩
  · rw [hE.1]
    simp only [destReg, Option.getD_some, Report.immU, hv.insn]
    exact setReg_toRd _ hv _
  · rw [hE.1, ← hv.pcR]

theorem check_auipc {e : Expect} (hs : v.opcode = 0b0010111#7)
    (he : e = { rdAddr := v.rd, rdWdata := v.toRd (v.pcRdata + v.immU), pcWdata := v.pcRdata + 4 }) : InsnCheck v e := by
  obtain ⟨f1, f2, -, f4, -⟩ := hv.fields
  have hw : decode w = some (.auipc (w.extractLsb' 7 5) (w.extractLsb' 12 20)) := by
    rw [f1] at hs; simp only [decode, hs]; rfl
  have hE := h.pure hi hw rfl
  rw [setReg_next] at hE
  subst he
  refine hv.pure hw (by simp [isCsr, hw]) (by simp [excCause, hw]) ⟨by simp, by simp⟩ rfl (.inl rfl) (.inl rfl) f4 ?_ ?_ ⟨rfl, rfl⟩
  · rw [hE.1]
    simp only [destReg, Option.getD_some, Report.immU, hv.insn, hv.pcR]
    exact setReg_toRd _ hv _
  · rw [hE.1, ← hv.pcR]

theorem check_jal {e : Expect} (hs : v.opcode = 0b1101111#7)
    (he : e = { rdAddr := v.rd, rdWdata := v.toRd (v.pcRdata + 4), pcWdata := v.pcRdata + v.immJ, trap := v.pcRdata + v.immJ &&& 3 ≠ 0 }) :
    InsnCheck v e := by
  obtain ⟨f1, f2, -, f4, -⟩ := hv.fields
  have hw : decode w = some (.jal (w.extractLsb' 7 5)
      (w.extractLsb' 31 1 ++ w.extractLsb' 12 8 ++ w.extractLsb' 20 1 ++ w.extractLsb' 21 10)) := by
    rw [f1] at hs; simp only [decode, hs]; rfl
  have hi0 : v.immJ = ((w.extractLsb' 31 1 ++ w.extractLsb' 12 8 ++ w.extractLsb' 20 1 ++ w.extractLsb' 21 10 : BitVec 20) ++ 0#1 : BitVec 21).signExtend 32 := by
    simp only [Report.immJ, hv.insn]
  generalize (w.extractLsb' 31 1 ++ w.extractLsb' 12 8 ++ w.extractLsb' 20 1 ++ w.extractLsb' 21 10 : BitVec 20) = imm at hw hi0
  have hc : isCsr w = false := by simp [isCsr, hw]
  rw [hi0, hv.pcR, and_three] at he
  subst he
  by_cases ha : ((s.run inp t).arch.pc + (imm ++ 0#1 : BitVec 21).signExtend 32).toNat % 4 = 0
  · have hE := C07_jal h hi hw ha
    refine hv.pure hw hc (by simp only [excCause, hw, ne_eq, ha, not_true_eq_false, if_false]) ⟨by simp, by simp⟩ ?_ (.inl rfl) (.inl rfl) f4 ?_ ?_ ⟨rfl, rfl⟩
    · exact decide_eq_false (fun k => k ha)
    · rw [hE.1]
      simp only [destReg, Option.getD_some]
      exact setReg_toRd _ hv _
    · rw [hE.1]
  · refine hv.trapped hc (by simp only [excCause, hw, ne_eq, ha, not_false_eq_true, if_true, Option.isSome_some]) ?_
    exact decide_eq_true ha

theorem check_jalr {e : Expect} (hs : v.opcode = 0b1100111#7) (hs' : v.funct3 = 0b000#3)
    (he : e = { rs1Addr := v.rs1, rdAddr := v.rd, rdWdata := v.toRd (v.pcRdata + 4), pcWdata := (v.rs1Rdata + v.immI) &&& ~~~1,
                trap := ((v.rs1Rdata + v.immI) &&& ~~~1) &&& 3 ≠ 0 }) :
    InsnCheck v e := by
  obtain ⟨f1, f2, -, f4, f5, -, f7⟩ := hv.fields
  have hw : decode w = some (.jalr (w.extractLsb' 7 5) (w.extractLsb' 15 5) (w.extractLsb' 20 12)) := by
    rw [f1] at hs; rw [f2] at hs'; simp only [decode, hs, hs']; rfl
  have hc : isCsr w = false := by simp [isCsr, hw]
  rw [f7, hv.rs1, hv.pcR, and_three] at he
  subst he
  by_cases ha : (((s.run inp t).arch.reg (w.extractLsb' 15 5) + (w.extractLsb' 20 12).signExtend 32) &&& ~~~1#32).toNat % 4 = 0
  · have hE := C07_jalr h hi hw ha
    refine hv.pure hw hc (by simp only [excCause, hw, ne_eq, ha, not_true_eq_false, if_false]) ⟨by simp, by simp⟩ ?_ (.inr f5) (.inl rfl) f4 ?_ ?_ ⟨rfl, rfl⟩
    · exact decide_eq_false (fun k => k ha)
    · rw [hE.1]
      simp only [destReg, Option.getD_some]
      exact setReg_toRd _ hv _
    · rw [hE.1]; rfl
  · refine hv.trapped hc (by simp only [excCause, hw, ne_eq, ha, not_false_eq_true, if_true, Option.isSome_some]) ?_
    exact decide_eq_true ha

omit h hi in
theorem check_lType {name : String} {f3 : BitVec 3} {size : Nat} {ext : Word → Word} {op : LdOp} (hz : op.size = size)
    (hf : ∀ adr d : Word, ext (d >>> (8 * lane adr)) = loadValue op adr d)
    (hd : ∀ w : Word, w.extractLsb' 0 7 = 0b0000011#7 → w.extractLsb' 12 3 = f3 →
      decode w = some (.load op (w.extractLsb' 7 5) (w.extractLsb' 15 5) (w.extractLsb' 20 12)))
    (hs : (RvFormal.lType name f3 size ext).sel v = true) : InsnCheck v ((RvFormal.lType name f3 size ext).expect v) := by
  obtain ⟨f1, f2, -, f4, f5, -, f7⟩ := hv.fields
  simp only [RvFormal.lType, Bool.and_eq_true, decide_eq_true_eq, f1, f2] at hs
  have hw := hd w hs.1 hs.2
  have hc : isCsr w = false := by simp [isCsr, hw]
  have hsz : size = 1 ∨ size = 2 ∨ size = 4 := by rw [← hz]; cases op <;> simp [LdOp.size]
  have het : ((RvFormal.lType name f3 size ext).expect v).trap =
      decide (((s.run inp t).arch.reg (w.extractLsb' 15 5) + (w.extractLsb' 20 12).signExtend 32).toNat % size ≠ 0) := by
    simp only [RvFormal.lType, and_size _ size hsz, hv.rs1, f7]
  by_cases ha : ((s.run inp t).arch.reg (w.extractLsb' 15 5) + (w.extractLsb' 20 12).signExtend 32).toNat % size = 0
  · rw [decide_eq_false (fun k => k ha)] at het
    have hx : excCause (s.run inp t).arch w = none := by
      simp only [excCause, hw, hz, ha, ne_eq, not_true_eq_false, if_false]
    have ht : v.trap = false := by rw [hv.trap hc, hx]; rfl
    obtain ⟨k1, k2, k3, k4⟩ := hv.load _ _ _ _ hw (hz ▸ ha)
    obtain ⟨k5, k6⟩ := hv.rd _ hw ht
    refine ⟨fun h => by rw [hv.rs1, ← hv.rs1A, h]; rfl, fun h => by rw [hv.rs2, ← hv.rs2A, h]; rfl, by rw [ht, het],
      fun _ _ => by rw [hv.rs1A]; exact f5.symm, fun _ k => absurd rfl k, fun _ => ⟨k5.trans f4.symm, ?_⟩, fun _ => ?_, fun _ => ⟨?_, k3⟩,
      fun _ _ => ?_, fun _ i _ k => by simp [RvFormal.lType] at k⟩
    · rw [k6, k4]
      have e : ((RvFormal.lType name f3 size ext).expect v).rdWdata = v.toRd (loadValue op
          ((s.run inp t).arch.reg (w.extractLsb' 15 5) + (w.extractLsb' 20 12).signExtend 32) v.memRdata) := by
        rw [← hf]
        simp only [RvFormal.lType, BitVec.ushiftRight_eq', off8_toNat, hv.rs1, f7]
      rw [e]
      exact (setReg_toRd _ hv _).symm
    · rw [hv.pcW, k4, ← hv.pcR]; rfl
    · rw [k2, hz, ← lanesAt_eq _ size hsz]; simp only [RvFormal.lType, hv.rs1, f7]
    · rw [k1, ← word_eq]; simp only [RvFormal.lType, hv.rs1, f7]
  · exact hv.trapped hc (by simp only [excCause, hw, hz, ha, ne_eq, not_false_eq_true, if_true, Option.isSome_some]) (het.trans (decide_eq_true ha))

omit h hi in
theorem check_sType {name : String} {f3 : BitVec 3} {size : Nat} {op : StOp} (hz : op.size = size)
    (hd : ∀ w : Word, w.extractLsb' 0 7 = 0b0100011#7 → w.extractLsb' 12 3 = f3 →
      decode w = some (.store op (w.extractLsb' 15 5) (w.extractLsb' 20 5) (w.extractLsb' 25 7 ++ w.extractLsb' 7 5)))
    (hs : (RvFormal.sType name f3 size).sel v = true) : InsnCheck v ((RvFormal.sType name f3 size).expect v) := by
  obtain ⟨f1, f2, -, f4, f5, f6, -⟩ := hv.fields
  simp only [RvFormal.sType, Bool.and_eq_true, decide_eq_true_eq, f1, f2] at hs
  have hw := hd w hs.1 hs.2
  have f7 : v.immS = (w.extractLsb' 25 7 ++ w.extractLsb' 7 5 : BitVec 12).signExtend 32 := by simp only [Report.immS, hv.insn]
  generalize (w.extractLsb' 25 7 ++ w.extractLsb' 7 5 : BitVec 12) = imm at hw f7
  have hc : isCsr w = false := by simp [isCsr, hw]
  have hsz : size = 1 ∨ size = 2 ∨ size = 4 := by rw [← hz]; cases op <;> simp [StOp.size]
  have het : ((RvFormal.sType name f3 size).expect v).trap =
      decide (((s.run inp t).arch.reg (w.extractLsb' 15 5) + imm.signExtend 32).toNat % size ≠ 0) := by
    simp only [RvFormal.sType, and_size _ size hsz, hv.rs1, f7]
  by_cases ha : ((s.run inp t).arch.reg (w.extractLsb' 15 5) + imm.signExtend 32).toNat % size = 0
  · rw [decide_eq_false (fun k => k ha)] at het
    have hx : excCause (s.run inp t).arch w = none := by
      simp only [excCause, hw, hz, ha, ne_eq, not_true_eq_false, if_false]
    have ht : v.trap = false := by rw [hv.trap hc, hx]; rfl
    obtain ⟨k1, k2, k3, k4, k7⟩ := hv.store _ _ _ _ hw (hz ▸ ha)
    obtain ⟨k5, k6⟩ := hv.rd _ hw ht
    have hl : ((RvFormal.sType name f3 size).expect v).memWmask =
        lanes ((s.run inp t).arch.reg (w.extractLsb' 15 5) + imm.signExtend 32) size := by
      rw [← lanesAt_eq _ size hsz]; simp only [RvFormal.sType, hv.rs1, f7]
    refine ⟨fun h => by rw [hv.rs1, ← hv.rs1A, h]; rfl, fun h => by rw [hv.rs2, ← hv.rs2A, h]; rfl, by rw [ht, het],
      fun _ _ => by rw [hv.rs1A]; exact f5.symm, fun _ _ => by rw [hv.rs2A]; exact f6.symm, fun _ => ⟨k5, ?_⟩, fun _ => ?_, fun _ => ⟨k2, ?_⟩,
      fun _ _ => ?_, fun _ i hi4 k => ?_⟩
    · rw [k6]; rfl
    · rw [hv.pcW, k7, ← hv.pcR]; rfl
    · rw [k3, hl, writeReq, hz]
    · rw [k1]
      simp only [writeReq]
      rw [← word_eq]; simp only [RvFormal.sType, hv.rs1, f7]
    · rw [hl] at k
      have kb := k
      rw [lanes_bit _ size hsz (by simpa [aligned] using ha) i hi4] at kb
      simp only [decide_eq_true_eq] at kb
      simp only [writeReq, hz] at k4
      simp only [RvFormal.sType, BitVec.shiftLeft_eq', off8_toNat]
      rw [f7, hv.rs1, hv.rs2]
      generalize (s.run inp t).arch.reg (w.extractLsb' 15 5) + imm.signExtend 32 = adr at *
      generalize (s.run inp t).arch.reg (w.extractLsb' 20 5) = x at *
      apply BitVec.eq_of_getLsbD_eq
      intro j hj
      have e := congrArg (fun z : Word => z.getLsbD (8 * i + j)) k4
      simp only [BitVec.getLsbD_and, laneMask_bit _ _ (show 8 * i + j < 32 by omega), show (8 * i + j) / 8 = i by omega, k, Bool.and_true] at e
      simp only [BitVec.getLsbD_extractLsb', hj, decide_true, Bool.true_and, e, BitVec.getLsbD_shiftLeft, BitVec.getLsbD_ofNat,
        Nat.testBit_mod_two_pow]
      rw [show decide (8 * i + j - 8 * lane adr < 8 * size) = true from decide_eq_true (by omega)]
      simp only [Bool.true_and, BitVec.testBit_toNat]
      by_cases h8 : 8 * i + j < 8 * lane adr
      · simp [h8]
      · simp only [h8, decide_false, Bool.not_false, Bool.true_and, Bool.and_true, show decide (8 * i + j < 32) = true from decide_eq_true (by omega)]
        rw [show decide (8 * i + j - 8 * lane adr < 32) = true from decide_eq_true (by omega)]
        simp
  · exact hv.trapped hc (by simp only [excCause, hw, hz, ha, ne_eq, not_false_eq_true, if_true, Option.isSome_some]) (het.trans (decide_eq_true ha))

end

end Sentinel
