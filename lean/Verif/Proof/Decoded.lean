import Verif.Proof.Dispatch
/-!
# The decoder against the instruction formats
-/

set_option linter.unusedSimpArgs false
set_option linter.unreachableTactic false
set_option linter.unusedTactic false

namespace Sentinel
open Ucode Spec

/-- The word is dispatched to microaddress `e`. -/
def Go (w : Word) (e : BitVec 8) : Prop :=
  decodeValid w = false ∧ isCsrInsn w = false ∧ ∀ old, mapOp w old = e

/-- Entry points of the microcode. -/
def entryImm : AluOp → BitVec 8
  | .add => 0x40 | .sub => 0x48 | .sll => 0x41 | .slt => 0x42 | .sltu => 0x43 | .xor => 0x44
  | .srl => 0x45 | .sra => 0x4d | .or => 0x46 | .and => 0x47
def entryReg : AluOp → BitVec 8
  | .add => 0xc0 | .sub => 0xc8 | .sll => 0xc1 | .slt => 0xc2 | .sltu => 0xc3 | .xor => 0xc4
  | .srl => 0xc5 | .sra => 0xcd | .or => 0xc6 | .and => 0xc7
def entryBr : BrOp → BitVec 8
  | .beq => 0x88 | .bne => 0x89 | .blt => 0x8c | .bge => 0x8d | .bltu => 0x8e | .bgeu => 0x8f
def entryLd : LdOp → BitVec 8
  | .lb => 0x08 | .lh => 0x09 | .lw => 0x0a | .lbu => 0x0c | .lhu => 0x0d
def entrySt : StOp → BitVec 8
  | .sb => 0x80 | .sh => 0x81 | .sw => 0x82
def csrF3 : CsrOp → CsrSrc → BitVec 3
  | .rw, .reg _ => 1 | .rs, .reg _ => 2 | .rc, .reg _ => 3
  | .rw, .imm _ => 5 | .rs, .imm _ => 6 | .rc, .imm _ => 7
def srcField : CsrSrc → BitVec 5
  | .reg r => r
  | .imm u => u
/-- What the decoder does with a word that encodes the instruction. -/
def Decoded (w : Word) : Instr → Prop
  | .lui rd imm => Go w 0xd0 ∧ insnRd w = rd ∧ ∀ old, immNext w old = imm ++ 0#12
  | .auipc rd imm => Go w 0x50 ∧ insnRd w = rd ∧ ∀ old, immNext w old = imm ++ 0#12
  | .jal rd imm => Go w 0xb0 ∧ insnRd w = rd ∧
      ∀ old, immNext w old = (imm ++ 0#1 : BitVec 21).signExtend 32
  | .jalr rd rs1 imm => Go w 0x98 ∧ insnRd w = rd ∧ insnRs1 w = rs1 ∧
      ∀ old, immNext w old = imm.signExtend 32
  | .branch op rs1 rs2 imm => Go w (entryBr op) ∧ insnRs1 w = rs1 ∧ insnRs2 w = rs2 ∧
      ∀ old, immNext w old = (imm ++ 0#1 : BitVec 13).signExtend 32
  | .load op rd rs1 imm => Go w (entryLd op) ∧ insnRd w = rd ∧ insnRs1 w = rs1 ∧
      ∀ old, immNext w old = imm.signExtend 32
  | .store op rs1 rs2 imm => Go w (entrySt op) ∧ insnRs1 w = rs1 ∧ insnRs2 w = rs2 ∧
      ∀ old, immNext w old = imm.signExtend 32
  | .opImm op rd rs1 imm => Go w (entryImm op) ∧ insnRd w = rd ∧ insnRs1 w = rs1 ∧
      (∀ old, immNext w old = imm.signExtend 32) ∧ op ≠ .sub ∧
      (op = .sll ∨ op = .srl → imm.toNat < 32)
  | .op op rd rs1 rs2 => Go w (entryReg op) ∧ insnRd w = rd ∧ insnRs1 w = rs1 ∧ insnRs2 w = rs2
  | .fence => Go w 0x30
  | .wfi => Go w 0x30
  | .mret => Go w 0xf8
  | .ecall => decodeValid w = true ∧ decodeEType w = 11
  | .ebreak => decodeValid w = true ∧ decodeEType w = 3
  | .csr op rd src adr => decodeValid w = false ∧ isCsrInsn w = true ∧ insnRd w = rd ∧
      insnRs1 w = srcField src ∧ insnFunct3 w = csrF3 op src ∧ insnFunct12 w = adr

theorem opc_fields {w : Word} {v : BitVec 7} (h : w.extractLsb' 0 7 = v) :
    insnOpcode w = opcodeOf (v.extractLsb' 2 5) ∧ w.extractLsb' 0 2 = v.extractLsb' 0 2 := by
  subst h
  rw [extract_extract _ _ _ _ _ (by omega), extract_extract _ _ _ _ _ (by omega)]
  exact ⟨rfl, rfl⟩

theorem shamt_lt {w : Word} (h : w.extractLsb' 25 7 = 0#7) : (w.extractLsb' 20 12).toNat < 32 := by
  have h := congrArg BitVec.toNat h
  rw [BitVec.extractLsb'_toNat] at h ⊢
  have := w.isLt
  simp only [Nat.shiftRight_eq_div_pow] at h ⊢
  simp at h
  omega

theorem ite_intro {β : Type} {c : Prop} [Decidable c] {a b x : β} {Q : Prop}
    (h1 : c → a = x → Q) (h2 : ¬ c → b = x → Q) : (if c then a else b) = x → Q := by
  split
  · exact h1 (by assumption)
  · exact h2 (by assumption)

theorem f3_is_five : ∀ f : BitVec 3, ¬ f = 0#3 → ¬ f = 2#3 → ¬ f = 3#3 → ¬ f = 4#3 → ¬ f = 6#3 →
    ¬ f = 7#3 → ¬ f = 1#3 → f = 5#3 := by
  intros; bv_omega

theorem f3_is_seven : ∀ f : BitVec 3, ¬ f = 0#3 → ¬ f = 1#3 → ¬ f = 2#3 → ¬ f = 3#3 → ¬ f = 4#3 →
    ¬ f = 5#3 → ¬ f = 6#3 → f = 7#3 := by
  intros; bv_omega

theorem f3_br (f : BitVec 3) (_ : ¬ f = 0#3) (_ : ¬ f = 1#3) (_ : ¬ f = 4#3) (_ : ¬ f = 5#3)
    (_ : ¬ f = 6#3) (_ : ¬ f = 7#3) : decide (f = 2#3) = true ∨ decide (f = 3#3) = true := by
  simp only [decide_eq_true_eq]; bv_omega

theorem f3_ld (f : BitVec 3) (_ : ¬ f = 0#3) (_ : ¬ f = 1#3) (_ : ¬ f = 2#3) (_ : ¬ f = 4#3)
    (_ : ¬ f = 5#3) : (decide (f = 3#3) = true ∨ decide (f = 6#3) = true) ∨
      decide (f = 7#3) = true := by
  simp only [decide_eq_true_eq]; bv_omega

theorem f3_st (f : BitVec 3) (_ : ¬ f = 0#3) (_ : ¬ f = 1#3) (_ : ¬ f = 2#3) :
    decide (3#3 ≤ f) = true := by
  simp only [decide_eq_true_eq]; bv_omega

theorem f3_is_four (f : BitVec 3) (_ : ¬ f = 0#3) (_ : ¬ f = 1#3) (_ : ¬ f = 2#3) (_ : ¬ f = 3#3)
    (_ : ¬ f = 5#3) (_ : ¬ f = 6#3) (_ : ¬ f = 7#3) : f = 4#3 := by bv_omega

theorem sys_ne {w : Word} {f : BitVec 3} (hf : w.extractLsb' 12 3 = f) (h0 : f ≠ 0#3) :
    (¬ w.extractLsb' 7 25 = ECALL.extractLsb' 7 25 ∧ ¬ w = EBREAK) ∧ ¬ w = MRET ∧ ¬ w = WFI := by
  subst hf
  refine ⟨⟨fun e => h0 ?_, fun e => h0 ?_⟩, fun e => h0 ?_, fun e => h0 ?_⟩
  · have := congrArg (fun (v : BitVec 25) => v.extractLsb' 5 3) e
    rw [extract_extract _ _ _ _ _ (by omega)] at this
    exact this
  all_goals rw [e]; rfl

set_option maxHeartbeats 400000 in
theorem decoded {w : Word} {ins : Instr} (h : decode w = some ins) : Decoded w ins := by
  revert h
  unfold decode
  simp only
  repeat' (refine ite_intro ?_ ?_ <;> intro _)
  all_goals intro h
  all_goals first | (cases h; done) | skip
  all_goals
    injection h with h
    subst h
    obtain ⟨h1, h2⟩ := opc_fields (by assumption)
    simp (config := { decide := true }) only [opcodeOf, if_true, if_false] at h1
  all_goals
    simp_all (config := { decide := true }) [Decoded, Go, decodeValid, isCsrInsn, mapOp, immNext,
      immI_eq, immS_eq, immB_eq, immU_eq, immJ_eq, insnRd, insnRs1, insnRs2, insnFunct3,
      insnFunct7, insnFunct12, entryReg, entryImm, entryBr, entryLd, entrySt, csrF3, srcField,
      decodeEType, extract_extract]
  · have := shamt_lt (w := w) (by assumption); simpa using this
  · have := shamt_lt (w := w) (by assumption)
    have e := f3_is_five (w.extractLsb' 12 3) (by assumption) (by assumption) (by assumption)
      (by assumption) (by assumption) (by assumption) (by assumption)
    exact ⟨by rw [e]; rfl, by simpa using this⟩
  · intro h
    exact absurd (f3_is_five (w.extractLsb' 12 3) (by assumption) (by assumption) (by assumption)
      (by assumption) (by assumption) (by assumption) (by assumption)) h
  · have e := f3_is_seven (w.extractLsb' 12 3) (by assumption) (by assumption) (by assumption)
      (by assumption) (by assumption) (by assumption) (by assumption)
    rw [e]; rfl
  all_goals exact sys_ne ‹w.extractLsb' 12 3 = _› (by decide)

theorem low_ecall {w : Word} (h : w.extractLsb' 7 25 = ECALL.extractLsb' 7 25)
    (ho : insnOpcode w = .system) :
    w = 0x70#32 ∨ w = 0x71#32 ∨ w = 0x72#32 ∨ w = 0x73#32 := by
  have h1 : w.extractLsb' 2 5 = 0b11100#5 := by
    have : ∀ b, opcodeOf b = .system → b = 0b11100#5 := by decide
    exact this _ ho
  have e1 := congrArg BitVec.toNat h
  have e2 := congrArg BitVec.toNat h1
  rw [BitVec.extractLsb'_toNat] at e1 e2
  rw [show (ECALL.extractLsb' 7 25).toNat = 0 from rfl] at e1
  simp only [Nat.shiftRight_eq_div_pow] at e1 e2
  have := w.isLt
  simp at e2 e1
  have : w.toNat = 0x70 ∨ w.toNat = 0x71 ∨ w.toNat = 0x72 ∨ w.toNat = 0x73 := by omega
  rcases this with h | h | h | h
  · exact .inl (BitVec.eq_of_toNat_eq (by simpa using h))
  · exact .inr (.inl (BitVec.eq_of_toNat_eq (by simpa using h)))
  · exact .inr (.inr (.inl (BitVec.eq_of_toNat_eq (by simpa using h))))
  · exact .inr (.inr (.inr (BitVec.eq_of_toNat_eq (by simpa using h))))

set_option maxHeartbeats 400000 in
/-- The decoder outputs flag every word that encodes no instruction. -/
theorem undecoded {w : Word} (h : decode w = none) :
    decodeValid w = true ∧ decodeEType w = illegalCause .asBuilt w := by
  have hE : decodeEType w = illegalCause .asBuilt w := by
    unfold decodeEType illegalCause
    by_cases ho : insnOpcode w = .system
    · rw [if_pos ho]
      by_cases he : w.extractLsb' 7 25 = ECALL.extractLsb' 7 25
      · rw [if_pos he]
        rcases low_ecall he ho with e | e | e | e
        · rw [e]; rfl
        · rw [e]; rfl
        · rw [e]; rfl
        · rw [e] at h; exact absurd h (by decide)
      · rw [if_neg he]
        by_cases hb : w = EBREAK
        · rw [hb] at h; exact absurd h (by decide)
        · rw [if_neg hb, if_neg]
          rintro ⟨-, e⟩
          apply he
          rcases e with e | e | e <;> rw [e] <;> rfl
    · rw [if_neg ho, if_neg]
      rintro ⟨-, e⟩
      apply ho
      rcases e with e | e | e <;> rw [e] <;> rfl
  refine ⟨?_, hE⟩
  by_cases hl : w.extractLsb' 0 2 = 0b11#2
  swap
  · simp [decodeValid, hl]
  have hopc : w.extractLsb' 0 7 = w.extractLsb' 2 5 ++ 0b11#2 := by
    rw [← hl]
    apply BitVec.eq_of_getLsbD_eq
    intro i hi
    simp only [BitVec.getLsbD_append, BitVec.getLsbD_extractLsb']
    interval_cases i <;> simp
  revert h
  unfold decode
  simp only
  repeat' (refine ite_intro ?_ ?_ <;> intro _)
  all_goals intro h
  all_goals first | (cases h; done) | skip
  rotate_right
  · have key : ∀ b : BitVec 5, b ++ 0b11#2 ≠ 55#7 → b ++ 0b11#2 ≠ 23#7 → b ++ 0b11#2 ≠ 111#7 →
        b ++ 0b11#2 ≠ 103#7 → b ++ 0b11#2 ≠ 99#7 → b ++ 0b11#2 ≠ 3#7 → b ++ 0b11#2 ≠ 35#7 →
        b ++ 0b11#2 ≠ 19#7 → b ++ 0b11#2 ≠ 51#7 → b ++ 0b11#2 ≠ 15#7 → b ++ 0b11#2 ≠ 115#7 →
        opcodeOf b = .other ∨ opcodeOf b = .custom0 := by
      intro b
      rcases b with ⟨⟨n, hn⟩⟩
      interval_cases n <;> decide +revert
    rw [hopc] at *
    rcases key _ (by assumption) (by assumption) (by assumption) (by assumption) (by assumption)
      (by assumption) (by assumption) (by assumption) (by assumption) (by assumption)
      (by assumption) with e | e <;> simp [decodeValid, insnOpcode, e]
  all_goals
    clear hopc
    obtain ⟨h1, h2⟩ := opc_fields (by assumption)
    simp (config := { decide := true }) only [opcodeOf, if_true, if_false] at h1
  all_goals
    simp_all (config := { decide := true }) [decodeValid, insnFunct3, insnFunct7]
  · exact f3_br _ (by assumption) (by assumption) (by assumption) (by assumption)
      (by assumption) (by assumption)
  · exact f3_ld _ (by assumption) (by assumption) (by assumption) (by assumption) (by assumption)
  · exact f3_st _ (by assumption) (by assumption) (by assumption)
  · exact f3_is_five _ (by assumption) (by assumption) (by assumption) (by assumption)
      (by assumption) (by assumption) (by assumption)
  · exact .inr (.inr ⟨‹¬ w = 807403635#32›, ‹¬ w = 273678451#32›⟩)
  · have e4 : w.extractLsb' 12 3 = 4#3 := f3_is_four _ (by assumption) (by assumption)
      (by assumption) (by assumption) (by assumption) (by assumption) (by assumption)
    have e := sys_ne e4 (by decide)
    exact .inr (.inr ⟨e.2.1, e.2.2, e4⟩)

end Sentinel
