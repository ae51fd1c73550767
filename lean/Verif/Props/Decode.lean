import Verif.Proof.CsrTable
import Verif.Proof.Arith
import Verif.Ucode.Rom
import Mathlib.Data.List.Nodup
/-!
# C37, C41, C42, C43: the decoder and the ALU as components

Statements about one or two clocks of the components, from any register contents and for any word,
against the instruction formats and CSR address map of `Verif/Spec/Isa.lean`.
-/

set_option linter.unusedSimpArgs false

namespace Sentinel
open Ucode Spec

/-! ## C37: the CSR attribute table -/

/-- **C37** (table): for each of the 4096 addresses, the 1024-entry table, which does not look at bits
8 and 9, together with the test of those bits tells absent, read-only-zero and implemented CSRs
apart. -/
theorem C37_table (adr : BitVec 12) :
    (((csrAttrOf adr).ill = true ∨ adr.extractLsb' 8 2 ≠ 3#2) ↔ csrKind adr = .absent) ∧
    ((csrAttrOf adr = ⟨false, true⟩ ∧ adr.extractLsb' 8 2 = 3#2) ↔ csrKind adr = .zero) ∧
    ((csrAttrOf adr = ⟨false, false⟩ ∧ adr.extractLsb' 8 2 = 3#2) ↔ ∃ c, csrKind adr = .impl c) := by
  have h := csrTable adr
  unfold csrTableOk at h
  generalize csrKind adr = kk at *
  generalize csrAttrOf adr = at' at *
  generalize adr.extractLsb' 8 2 = q at *
  obtain ⟨ill, ro0⟩ := at'
  cases kk with
  | absent =>
    simp only [Bool.or_eq_true, Bool.not_eq_true', decide_eq_false_iff_not] at h
    refine ⟨⟨fun _ => rfl, fun _ => h⟩, ⟨fun hx => ?_, fun hx => by cases hx⟩, ⟨fun hx => ?_, fun hx => by simp at hx⟩⟩
    all_goals
      obtain ⟨hx, hq⟩ := hx
      injection hx with h1 h2
      rcases h with h | h
      · rw [h] at h1; cases h1
      · exact absurd hq h
  | zero =>
    simp only [Bool.and_eq_true, decide_eq_true_eq, Attr.ro0', Attr.mk.injEq] at h
    obtain ⟨⟨rfl, rfl⟩, hq⟩ := h
    simp [hq]
  | impl c =>
    simp only [Bool.and_eq_true, decide_eq_true_eq, Attr.implemented, Attr.mk.injEq] at h
    obtain ⟨⟨⟨⟨rfl, rfl⟩, hq⟩, -⟩, -⟩ := h
    simp [hq]

/-- The decoder two clocks after it was started on `w`; `w₂` is on the bus in the second clock. -/
def DecState.two (s : DecState) (w w₂ : Word) : DecState := (s.step true w).step false w₂

/-- **C37** (through the decoder): a CSR instruction is flagged as an exception, two clocks after the
decoder starts and whatever the bus shows in the second clock, exactly when its CSR is absent or it
writes a read-only one; the cause is always illegal instruction, and the first clock flags nothing. -/
theorem C37_exception {w w₂ : Word} {op : CsrOp} {rd : Reg} {src : CsrSrc} {adr : BitVec 12}
    (h : decode w = some (.csr op rd src adr)) (s : DecState) (hs : s.exc.fwd = false) :
    (s.step true w).exc.valid = false ∧ (s.two w w₂).exc.eType = 2 ∧
    ((s.two w w₂).exc.valid = true ↔
      csrKind adr = .absent ∨ (csrReadOnly adr = true ∧ csrWrites op src = true)) := by
  obtain ⟨h1, h2, h3, h4, h5, h6⟩ := decoded h
  have hf : excFwd w = true := by
    simp only [isCsrInsn, Bool.and_eq_true] at h2
    have hE : ¬ w.extractLsb' 7 25 = ECALL.extractLsb' 7 25 ∧ ¬ w = EBREAK := by
      refine (sys_ne (w := w) (f := csrF3 op src) h5 ?_).1
      cases op <;> cases src <;> simp [csrF3]
    simp only [excFwd, Bool.and_eq_true]
    simp_all
  refine ⟨by simp [DecState.step, ExcState.step, hs, h1], by simp [DecState.two, DecState.step, ExcState.step, hf], ?_⟩
  have hq : (s.two w w₂).exc.valid = csrValid (csrAttrOf adr) (adr.extractLsb' 10 2 = 3#2) (csrF3 op src)
      (srcField src) (adr.extractLsb' 8 2) := by
    simp [DecState.two, DecState.step, ExcState.step, hf, h4, h5, h6, insnAccess, insnQuadrant]
  rw [hq]
  have ht := (C37_table adr).1
  generalize csrKind adr = kk at *
  rw [← ht]
  unfold csrValid csrReadOnly
  have hw : (csrF3 op src = 1#3 || csrF3 op src = 5#3 || !(srcField src = 0#5)) = csrWrites op src := by
    rw [Bool.eq_iff_iff]
    cases op <;> cases src <;> simp [csrF3, srcField, csrWrites] <;> exact decide_eq_false_iff_not
  cases (csrAttrOf adr).ill
  · simp only [Bool.false_eq_true, if_false, false_or, hw]
    cases decide (adr.extractLsb' 10 2 = 3#2) <;> cases csrWrites op src <;> simp
  · simp

example : ∃ s : DecState, s.exc.fwd = false ∧ decode 0x34202573#32 = some (.csr .rs 10 (.reg 0) 0x342) :=
  ⟨{}, rfl, by decide⟩

/-! ## C41: immediates -/

/-- The immediate operand of an instruction, RISC-V unprivileged manual "Immediate Encoding Variants". -/
def immOf : Instr → Option Word
  | .lui _ imm => some (imm ++ 0#12)
  | .auipc _ imm => some (imm ++ 0#12)
  | .jal _ imm => some ((imm ++ 0#1 : BitVec 21).signExtend 32)
  | .jalr _ _ imm => some (imm.signExtend 32)
  | .branch _ _ _ imm => some ((imm ++ 0#1 : BitVec 13).signExtend 32)
  | .load _ _ _ imm => some (imm.signExtend 32)
  | .store _ _ _ imm => some (imm.signExtend 32)
  | .opImm _ _ _ imm => some (imm.signExtend 32)
  | _ => none

/-- **C41**: one clock after the decoder starts on an instruction with an immediate, the immediate
register holds that immediate; it keeps it until the next start. -/
theorem C41_immediate {w : Word} {ins : Instr} {v : Word} (h : decode w = some ins) (hv : immOf ins = some v)
    (s : DecState) (w₂ : Word) : (s.step true w).imm = v ∧ (s.two w w₂).imm = v := by
  have hi : immNext w s.imm = v := by
    have hd := decoded h
    cases ins <;> simp only [immOf, Option.some.injEq, reduceCtorEq] at hv <;> subst hv <;> simp_all [Decoded]
  constructor <;> simp [DecState.two, DecState.step, hi]

/-- Signed value of a J-type immediate: -4 for `jal x0, -4`. -/
example : (({} : DecState).step true 0xFFDFF06F#32).imm = -4 :=
  (C41_immediate (ins := .jal 0 (-2)) (by decide) rfl {} 0).1

/-! ## C42: dispatch -/

/-- The microroutine of each instruction, by its label in `microcode.asm`. -/
def routine : Instr → Label
  | .lui .. => .lui | .auipc .. => .auipc | .jal .. => .jal | .jalr .. => .jalr
  | .branch .beq .. => .beq_1 | .branch .bne .. => .bne_1 | .branch .blt .. => .blt_1
  | .branch .bge .. => .bge_1 | .branch .bltu .. => .bltu_1 | .branch .bgeu .. => .bgeu_1
  | .load .lb .. => .lb_1 | .load .lh .. => .lh_1 | .load .lw .. => .lw_1
  | .load .lbu .. => .lbu_1 | .load .lhu .. => .lhu_1
  | .store .sb .. => .sb_1 | .store .sh .. => .sh_1 | .store .sw .. => .sw_1
  | .opImm .add .. => .addi_1 | .opImm .slt .. => .slti_1 | .opImm .sltu .. => .sltiu_1
  | .opImm .xor .. => .xori_1 | .opImm .or .. => .ori_1 | .opImm .and .. => .andi_1
  | .opImm .sll .. => .slli_1 | .opImm .srl .. => .srli_1 | .opImm .sra .. => .srai_1
  | .opImm .sub .. => .panic -- there is no such instruction
  | .op .add .. => .add_1 | .op .sub .. => .sub_1 | .op .slt .. => .slt_1 | .op .sltu .. => .sltu_1
  | .op .xor .. => .xor_1 | .op .or .. => .or_1 | .op .and .. => .and_1
  | .op .sll .. => .sll_1 | .op .srl .. => .srl_1 | .op .sra .. => .sra_1
  | .fence => .misc_mem | .wfi => .misc_mem | .mret => .mret
  | .ecall => .save_pc | .ebreak => .save_pc
  | .csr .. => .csr_trampoline

/-- The microroutine of a CSR instruction on an implemented CSR. -/
def csrRoutine (op : CsrOp) (rd : Reg) (src : CsrSrc) : Label :=
  match op, src with
  | .rw, .reg _ => if rd = 0 then .csrw_1 else .csrrw_1
  | .rw, .imm _ => if rd = 0 then .csrwi_1 else .csrrwi_1
  | .rs, .reg r => if r = 0 then .csrr_1 else .csrrs_1
  | .rs, .imm u => if u = 0 then .csrr_1 else .csrrsi_1
  | .rc, .reg r => if r = 0 then .csrr_1 else .csrrc_1
  | .rc, .imm u => if u = 0 then .csrr_1 else .csrrci_1

/-- Address the assembler gives a label. -/
def addressOf (l : Label) : Option Nat := (labels source 0).lookup l

theorem addressOf_entries :
    addressOf .lui = some 0xd0 ∧ addressOf .auipc = some 0x50 ∧ addressOf .jal = some 0xb0 ∧
    addressOf .jalr = some 0x98 ∧ addressOf .beq_1 = some 0x88 ∧ addressOf .bne_1 = some 0x89 ∧
    addressOf .blt_1 = some 0x8c ∧ addressOf .bge_1 = some 0x8d ∧ addressOf .bltu_1 = some 0x8e ∧
    addressOf .bgeu_1 = some 0x8f ∧ addressOf .lb_1 = some 0x08 ∧ addressOf .lh_1 = some 0x09 ∧
    addressOf .lw_1 = some 0x0a ∧ addressOf .lbu_1 = some 0x0c ∧ addressOf .lhu_1 = some 0x0d ∧
    addressOf .sb_1 = some 0x80 ∧ addressOf .sh_1 = some 0x81 ∧ addressOf .sw_1 = some 0x82 ∧
    addressOf .addi_1 = some 0x40 ∧ addressOf .slli_1 = some 0x41 ∧ addressOf .slti_1 = some 0x42 ∧
    addressOf .sltiu_1 = some 0x43 ∧ addressOf .xori_1 = some 0x44 ∧ addressOf .srli_1 = some 0x45 ∧
    addressOf .ori_1 = some 0x46 ∧ addressOf .andi_1 = some 0x47 ∧ addressOf .srai_1 = some 0x4d ∧
    addressOf .add_1 = some 0xc0 ∧ addressOf .sll_1 = some 0xc1 ∧ addressOf .slt_1 = some 0xc2 ∧
    addressOf .sltu_1 = some 0xc3 ∧ addressOf .xor_1 = some 0xc4 ∧ addressOf .srl_1 = some 0xc5 ∧
    addressOf .or_1 = some 0xc6 ∧ addressOf .and_1 = some 0xc7 ∧ addressOf .sub_1 = some 0xc8 ∧
    addressOf .sra_1 = some 0xcd ∧ addressOf .misc_mem = some 0x30 ∧ addressOf .mret = some 0xf8 := by
  decide +kernel

theorem addressOf_csr :
    addressOf .csr_trampoline = some 0x24 ∧ addressOf .csrro0_1 = some 0x25 ∧ addressOf .csrw_1 = some 0x26 ∧
    addressOf .csrrw_1 = some 0x27 ∧ addressOf .csrr_1 = some 0x28 ∧ addressOf .csrrs_1 = some 0x29 ∧
    addressOf .csrrc_1 = some 0x2a ∧ addressOf .csrwi_1 = some 0x2b ∧ addressOf .csrrwi_1 = some 0x2c ∧
    addressOf .csrrsi_1 = some 0x2d ∧ addressOf .csrrci_1 = some 0x2e := by decide +kernel

/-- **C42**: one clock after the decoder starts on a legal instruction other than ECALL, EBREAK and CSR
instructions, no exception is flagged and the mapping ROM shows the address of its microroutine, from
any previous contents of the registers. -/
theorem C42_dispatch {w : Word} {ins : Instr} (h : decode w = some ins) (he : ins ≠ .ecall) (hb : ins ≠ .ebreak)
    (hc : ∀ op rd src adr, ins ≠ .csr op rd src adr) (s : DecState) (hx : s.exc.fwd = false)
    (hm : s.map.fwd = false) :
    (s.step true w).exc.valid = false ∧ addressOf (routine ins) = some (s.step true w).map.requestedOp.toNat := by
  have hd := decoded h
  have e := addressOf_entries
  have hgo : ∃ a, Go w a ∧ addressOf (routine ins) = some a.toNat := by
    cases ins with
    | lui => exact ⟨_, hd.1, e.1⟩
    | auipc => exact ⟨_, hd.1, e.2.1⟩
    | jal => exact ⟨_, hd.1, e.2.2.1⟩
    | jalr => exact ⟨_, hd.1, e.2.2.2.1⟩
    | branch op => refine ⟨_, hd.1, ?_⟩; cases op <;> simp [routine, entryBr, e]
    | load op => refine ⟨_, hd.1, ?_⟩; cases op <;> simp [routine, entryLd, e]
    | store op => refine ⟨_, hd.1, ?_⟩; cases op <;> simp [routine, entrySt, e]
    | opImm op =>
      refine ⟨_, hd.1, ?_⟩
      have hns := hd.2.2.2.2.1
      cases op <;> first | exact absurd rfl hns | simp [routine, entryImm, e]
    | op op => refine ⟨_, hd.1, ?_⟩; cases op <;> simp [routine, entryReg, e]
    | fence => exact ⟨_, hd, by simp [routine, e]⟩
    | wfi => exact ⟨_, hd, by simp [routine, e]⟩
    | mret => exact ⟨_, hd, by simp [routine, e]⟩
    | ecall => exact absurd rfl he
    | ebreak => exact absurd rfl hb
    | csr op rd src adr => exact absurd rfl (hc op rd src adr)
  obtain ⟨a, ⟨g1, g2, g3⟩, ha⟩ := hgo
  refine ⟨by simp [DecState.step, ExcState.step, hx, g1], ?_⟩
  rw [ha]
  simp [DecState.step, MapState.step, hm, g3]

/-- **C42** (CSR instructions): the first clock leads to the trampoline, the second to the routine of
the instruction if the CSR is implemented, to the read-only-zero routine if it reads as zero, whatever
the bus shows in the second clock; and the private-RAM index is that of the CSR. -/
theorem C42_csr {w w₂ : Word} {op : CsrOp} {rd : Reg} {src : CsrSrc} {adr : BitVec 12}
    (h : decode w = some (.csr op rd src adr)) (s : DecState) (hm : s.map.fwd = false) :
    addressOf .csr_trampoline = some (s.step true w).map.requestedOp.toNat ∧
    (csrKind adr = .zero → addressOf .csrro0_1 = some (s.two w w₂).map.requestedOp.toNat) ∧
    (∀ c, csrKind adr = .impl c →
      addressOf (csrRoutine op rd src) = some (s.two w w₂).map.requestedOp.toNat ∧
      (s.two w w₂).map.csrEncoding = encOf c) := by
  obtain ⟨h1, h2, h3, h4, h5, h6⟩ := decoded h
  have e := addressOf_csr
  have hop : mapOp w s.map.requestedOp = 0x24#8 := by
    simp only [isCsrInsn, Bool.and_eq_true, Bool.not_eq_true', decide_eq_false_iff_not, decide_eq_true_eq] at h2
    simp [mapOp, h2]
  have e1 : (s.step true w).map.requestedOp = 0x24#8 := by simp [DecState.step, MapState.step, hm, hop]
  have e2 : (s.two w w₂).map.requestedOp =
      mapCsr (csrF3 op src) rd (srcField src) (csrAttrOf adr) 0x24#8 := by
    simp [DecState.two, DecState.step, MapState.step, hm, h2, h3, h4, h5, h6, hop]
  have e3 : (s.two w w₂).map.csrEncoding = csrEncode w := by
    simp [DecState.two, DecState.step, MapState.step, h2]
  have ht := csrTable adr
  unfold csrTableOk at ht
  refine ⟨by rw [e1]; simp [e], fun hk => ?_, fun c hk => ?_⟩
  · rw [hk] at ht
    simp only [Bool.and_eq_true, decide_eq_true_eq] at ht
    rw [e2, ht.1]
    simp [mapCsr, Attr.ro0', e]
  · rw [hk] at ht
    simp only [Bool.and_eq_true, decide_eq_true_eq] at ht
    rw [e3, csrEncode, h6]
    refine ⟨?_, ht.2⟩
    rw [e2, ht.1.1.1]
    cases op <;> cases src <;> simp only [mapCsr, csrRoutine, csrF3, srcField, Attr.implemented] <;> split <;>
      simp_all

/-- All the entry points. -/
def routines : List Label := [.lui, .auipc, .jal, .jalr, .beq_1, .bne_1, .blt_1, .bge_1, .bltu_1, .bgeu_1, .lb_1,
  .lh_1, .lw_1, .lbu_1, .lhu_1, .sb_1, .sh_1, .sw_1, .addi_1, .slli_1, .slti_1, .sltiu_1, .xori_1, .srli_1, .ori_1,
  .andi_1, .srai_1, .add_1, .sll_1, .slt_1, .sltu_1, .xor_1, .srl_1, .or_1, .and_1, .sub_1, .sra_1, .misc_mem,
  .mret, .csr_trampoline, .csrro0_1, .csrw_1, .csrrw_1, .csrr_1, .csrrs_1, .csrrc_1, .csrwi_1, .csrrwi_1,
  .csrrsi_1, .csrrci_1, .save_pc]

/-- **C42** (to no other): every routine an instruction can lead to is in the list, and different
microroutines have different addresses, so the address determines the routine. -/
theorem C42_distinct :
    (∀ w ins, decode w = some ins → routine ins ∈ routines) ∧ (∀ op rd src, csrRoutine op rd src ∈ routines) ∧
    ∀ l ∈ routines, ∀ m ∈ routines, ∀ a, addressOf l = some a → addressOf m = some a → l = m := by
  refine ⟨fun w ins h => ?_, fun op rd src => ?_, fun l hl m hm a h1 h2 => ?_⟩
  · have hd := decoded h
    cases ins with
    | branch op => cases op <;> simp [routine, routines]
    | load op => cases op <;> simp [routine, routines]
    | store op => cases op <;> simp [routine, routines]
    | op op => cases op <;> simp [routine, routines]
    | opImm op =>
      have hns := hd.2.2.2.2.1
      cases op <;> first | exact absurd rfl hns | simp [routine, routines]
    | _ => simp [routine, routines]
  · cases op <;> cases src <;> simp only [csrRoutine] <;> split <;> simp [routines]
  · have key : (routines.map addressOf).Nodup := by decide +kernel
    exact List.inj_on_of_nodup_map key hl hm (h1.trans h2.symm)

/-- Illegal words are flagged in the first clock, as are ECALL and EBREAK. -/
theorem C42_flagged {w : Word} (h : decode w = none ∨ decode w = some .ecall ∨ decode w = some .ebreak)
    (s : DecState) (hx : s.exc.fwd = false) : (s.step true w).exc.valid = true := by
  have hv : decodeValid w = true := by
    rcases h with h | h | h
    · exact (undecoded h).1
    · exact (decoded h).1
    · exact (decoded h).1
  simp [DecState.step, ExcState.step, hx, hv]

example : ∃ s : DecState, s.exc.fwd = false ∧ s.map.fwd = false ∧
    decode 0x40B50533#32 = some (.op .sub 10 10 11) ∧ decode 0x00000000#32 = none ∧
    decode 0x30429073#32 = some (.csr .rw 0 (.reg 5) 0x304) ∧ csrKind 0x304 = .impl .mie :=
  ⟨{}, rfl, rfl, by decide, by decide, by decide, by decide⟩

end Sentinel
