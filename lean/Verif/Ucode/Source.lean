import Verif.Ucode.Fields
/-!
# Microcode source

A line-by-line transliteration of `src/sentinel/microcode.asm` 93-517.  Each `#define` is a Lean
definition of the same name, each statement of the source is one `Stmt` with its source lines.
Comments of the source are not repeated.  `Verif/Ucode/Asm.lean` assembles it.
-/

namespace Sentinel.Ucode

/-- Every label of `microcode.asm`. -/
inductive Label
  | fetch | wait_for_ack | check_int | reset | lb_1 | lh_1 | lw_1 | lbu_1 | lhu_1 | lb
  | lb_wait | lh | lh_wait | lw | lw_wait | lbu | lbu_wait | lhu | lhu_wait | csr_trampoline
  | csrro0_1 | csrw_1 | csrrw_1 | csrr_1 | csrrs_1 | csrrc_1 | csrwi_1 | csrrwi_1 | csrrsi_1 | csrrci_1
  | misc_mem | csrro0 | csrr | csrwi | csrrwi | csrrsi | csrrs_2 | csrrci | csrrc_2 | addi_1
  | slli_1 | slti_1 | sltiu_1 | xori_1 | srli_1 | ori_1 | andi_1 | csrrs | csrrc | srai_1
  | auipc | addi | slti | sltiu | xori | ori | andi | slli | sll_loop | srli
  | srl_loop | srai | sra_loop | shift_zero | sb_1 | sh_1 | sw_1 | bne | beq | branch_ops
  | beq_1 | bne_1 | blt_1 | bge_1 | bltu_1 | bgeu_1 | blt | bge | bltu | bgeu
  | branch_epilog | taken | not_taken | jalr | sb | sb_wait | sh | sh_wait | sw | sw_wait
  | jal | fast_epilog | fast_epilog_csr | add_1 | sll_1 | slt_1 | sltu_1 | xor_1 | srl_1 | or_1
  | and_1 | sub_1 | sra_1 | lui | add | slt | sltu | xor | or | and
  | sub | sll | srl | sra | save_pc | mret | halt | panic
  deriving DecidableEq, Repr

/-- The value of the `target` field: a label, or a number (CSR address in private RAM) (`microcode.asm` 17). -/
inductive Trg | lbl (l : Label) | num (n : Nat)
  deriving DecidableEq, Repr

/-- One `field => value` assignment of a microinstruction (fields: `microcode.asm` 14-91). -/
inductive Assign
  | target (t : Trg) | jmpType (v : JmpType) | condTest (v : CondTest) | invertTest (v : Bool)
  | pcAction (v : PcAction) | latchA (v : Bool) | latchB (v : Bool) | aSrc (v : ASrc)
  | bSrc (v : BSrc) | aluOp (v : OpType) | aluIMod (v : ALUIMod) | aluOMod (v : ALUOMod)
  | regRead (v : Bool) | regWrite (v : Bool) | regRSel (v : RegRSel) | regWSel (v : RegWSel)
  | csrOp (v : CSROp) | csrSel (v : CSRSel) | memReq (v : Bool) | memSel (v : MemSel)
  | memExtend (v : MemExtend) | latchAdr (v : Bool) | latchData (v : Bool) | writeMem (v : Bool)
  | insnFetch (v : Bool) | exceptCtl (v : ExceptCtl)
  deriving Repr

/-- A statement of the source (`microcode.asm` 93-517). -/
inductive Stmt | origin (n : Nat) | label (l : Label) | insn (fs : List Assign)
  deriving Repr

/-- `microcode.asm` 93. -/
def INSN_FETCH : List Assign :=
  [.insnFetch true, .memReq true]
/-- `microcode.asm` 99. -/
def READ_RS1 : List Assign :=
  [.regRead true, .regRSel .rs1]
/-- `microcode.asm` 94. -/
def INSN_FETCH_EAGER_READ_RS1 : List Assign :=
  INSN_FETCH ++ READ_RS1
/-- `microcode.asm` 95. -/
def SKIP_WAIT_IF_ACK : List Assign :=
  [.jmpType .directZero, .condTest .memValid, .target (.lbl .check_int)]
/-- `microcode.asm` 96. -/
def JUMP_TO_OP_END (trg : Trg) : List Assign :=
  [.condTest .true_, .jmpType .direct, .target trg]
/-- `microcode.asm` 97. -/
def NOT_IMPLEMENTED : List Assign :=
  [.jmpType .direct, .target (.lbl .panic)]
/-- `microcode.asm` 100. -/
def READ_RS2 : List Assign :=
  [.regRead true, .regRSel .rs2]
/-- `microcode.asm` 101. -/
def WRITE_RD : List Assign :=
  [.regWrite true]
/-- `microcode.asm` 102. -/
def WRITE_RD_CSR : List Assign :=
  [.csrOp .writeCsr]
/-- `microcode.asm` 103. -/
def READ_RS1_WRITE_RD : List Assign :=
  READ_RS1 ++ [.regWrite true, .regWSel .rd]
/-- `microcode.asm` 104. -/
def CMP_LT : List Assign :=
  [.aluOp .cmpLtu, .aluIMod .invMsbAB]
/-- `microcode.asm` 105. -/
def CMP_GEU : List Assign :=
  [.aluOp .cmpLtu, .aluOMod .invLsbO]
/-- `microcode.asm` 106. -/
def CMP_GE : List Assign :=
  [.aluOp .cmpLtu, .aluIMod .invMsbAB, .aluOMod .invLsbO]
/-- `microcode.asm` 109. -/
def CONDTEST_ALU_CMP_FAILED : List Assign :=
  [.condTest .cmpAluOZero]
/-- `microcode.asm` 110. -/
def CONDTEST_ALU_NONZERO : List Assign :=
  [.invertTest true, .condTest .cmpAluOZero]
/-- `microcode.asm` 111. -/
def JUMP_TO_ZERO : List Assign :=
  [.condTest .true_, .invertTest true, .jmpType .directZero]
/-- `microcode.asm` 112. -/
def STOP_MEMREQ_THEN_JUMP_TO_ZERO : List Assign :=
  [.memReq false] ++ JUMP_TO_ZERO
/-- `microcode.asm` 115. -/
abbrev MSTATUS : Nat := 0
/-- `microcode.asm` 116. -/
abbrev MIE : Nat := 0x4
/-- `microcode.asm` 117. -/
abbrev MTVEC : Nat := 0x5
/-- `microcode.asm` 118. -/
abbrev MSCRATCH : Nat := 0x8
/-- `microcode.asm` 119. -/
abbrev MEPC : Nat := 0x9
/-- `microcode.asm` 120. -/
abbrev MCAUSE : Nat := 0xA
/-- `microcode.asm` 121. -/
abbrev MIP : Nat := 0xC

/-- `microcode.asm` 123-151. -/
def src0 : List Stmt := [
  .label .fetch, -- 123
  .label .wait_for_ack, -- 123
    .insn (INSN_FETCH_EAGER_READ_RS1 ++ [.invertTest true, .condTest .memValid, .jmpType .direct, .target (.lbl .wait_for_ack)]), -- 123-125
  .label .check_int, -- 127
    .insn ([.jmpType .map, .aSrc .gp, .latchA true] ++ READ_RS2 ++ [.exceptCtl .latchDecoder, .condTest .exception, .target (.lbl .save_pc)]), -- 127-129
  .origin 2, -- 130
  .label .reset, -- 146
    .insn ([.latchA true, .latchB true, .bSrc .one, .aSrc .zero]), -- 146
    .insn ([.aluOp .and]), -- 147
    .insn ([.aluOp .and, .regWrite true, .regWSel .zero]), -- 148
    .insn ([.jmpType .directZero, .pcAction .loadAluO, .csrOp .writeCsr, .csrSel .trgCsr, .invertTest true, .condTest .true_, .target (.num MCAUSE)]) ] -- 149-151
/-- `microcode.asm` 153-199. -/
def src1 : List Stmt := [
  .origin 8, -- 153
  .label .lb_1, -- 154
    .insn ([.latchB true, .bSrc .imm, .pcAction .inc, .jmpType .direct, .target (.lbl .lb)]), -- 154-155
  .label .lh_1, -- 156
    .insn ([.latchB true, .bSrc .imm, .jmpType .direct, .target (.lbl .lh)]), -- 156
  .label .lw_1, -- 157
    .insn ([.latchB true, .bSrc .imm, .jmpType .direct, .target (.lbl .lw)]), -- 157
    .insn (NOT_IMPLEMENTED), -- 158
  .label .lbu_1, -- 159
    .insn ([.latchB true, .bSrc .imm, .pcAction .inc, .jmpType .direct, .target (.lbl .lbu)]), -- 159-160
  .label .lhu_1, -- 161
    .insn ([.latchB true, .bSrc .imm, .jmpType .direct, .target (.lbl .lhu)]), -- 161
  .label .lb, -- 163
    .insn ([.aluOp .add]), -- 163
    .insn ([.latchAdr true]), -- 164
  .label .lb_wait, -- 165
    .insn ([.aSrc .zero, .bSrc .datR, .latchA true, .latchB true, .memReq true, .invertTest true, .condTest .memValid, .memSel .byte, .memExtend .sign, .jmpType .direct, .target (.lbl .lb_wait)]), -- 165-167
    .insn ([.aluOp .add] ++ JUMP_TO_OP_END (.lbl .fast_epilog)), -- 168
  .label .lh, -- 170
    .insn ([.aluOp .add]), -- 170
    .insn ([.latchAdr true, .exceptCtl .latchLoadAdr, .memSel .hword, .jmpType .direct, .condTest .exception, .target (.lbl .save_pc)]), -- 171-172
  .label .lh_wait, -- 173
    .insn ([.aSrc .zero, .bSrc .datR, .latchA true, .latchB true, .memReq true, .invertTest true, .condTest .memValid, .memSel .hword, .memExtend .sign, .jmpType .direct, .target (.lbl .lh_wait)]), -- 173-175
    .insn ([.aluOp .add, .pcAction .inc] ++ JUMP_TO_OP_END (.lbl .fast_epilog)), -- 176
  .label .lw, -- 178
    .insn ([.aluOp .add]), -- 178
    .insn ([.latchAdr true, .exceptCtl .latchLoadAdr, .memSel .word, .jmpType .direct, .condTest .exception, .target (.lbl .save_pc)]), -- 179-180
  .label .lw_wait, -- 181
    .insn ([.aSrc .zero, .bSrc .datR, .latchA true, .latchB true, .memReq true, .invertTest true, .condTest .memValid, .memSel .word, .jmpType .direct, .target (.lbl .lw_wait)]), -- 181-183
    .insn ([.aluOp .add, .pcAction .inc] ++ JUMP_TO_OP_END (.lbl .fast_epilog)), -- 184
  .label .lbu, -- 186
    .insn ([.aluOp .add]), -- 186
    .insn ([.latchAdr true]), -- 187
  .label .lbu_wait, -- 188
    .insn ([.aSrc .zero, .bSrc .datR, .latchA true, .latchB true, .memReq true, .invertTest true, .condTest .memValid, .memSel .byte, .jmpType .direct, .target (.lbl .lbu_wait)]), -- 188-190
    .insn ([.aluOp .add] ++ JUMP_TO_OP_END (.lbl .fast_epilog)), -- 191
  .label .lhu, -- 193
    .insn ([.aluOp .add]), -- 193
    .insn ([.latchAdr true, .exceptCtl .latchLoadAdr, .memSel .hword, .jmpType .direct, .condTest .exception, .target (.lbl .save_pc)]), -- 194-195
  .label .lhu_wait, -- 196
    .insn ([.aSrc .zero, .bSrc .datR, .latchA true, .latchB true, .memReq true, .invertTest true, .condTest .memValid, .memSel .hword, .jmpType .direct, .target (.lbl .lhu_wait)]), -- 196-198
    .insn ([.aluOp .add, .pcAction .inc] ++ JUMP_TO_OP_END (.lbl .fast_epilog)) ] -- 199
/-- `microcode.asm` 201-227. -/
def src2 : List Stmt := [
  .origin 0x24, -- 201
  .label .csr_trampoline, -- 204
    .insn (READ_RS1 ++ [.jmpType .map, .exceptCtl .latchDecoder, .condTest .exception, .target (.lbl .save_pc)]), -- 204-205
  .label .csrro0_1, -- 206
    .insn ([.aSrc .zero, .bSrc .one, .latchA true, .latchB true, .pcAction .inc, .jmpType .direct, .target (.lbl .csrro0)]), -- 206-207
  .label .csrw_1, -- 208
    .insn ([.aSrc .zero, .bSrc .gp, .latchA true, .latchB true, .pcAction .inc, .jmpType .direct, .target (.lbl .csrwi)]), -- 208-209
  .label .csrrw_1, -- 210
    .insn ([.csrOp .readCsr, .csrSel .insnCsr, .aSrc .zero, .latchA true, .bSrc .gp, .latchB true, .pcAction .inc, .jmpType .direct, .target (.lbl .csrrwi)]), -- 210-212
  .label .csrr_1, -- 213
    .insn ([.csrOp .readCsr, .csrSel .insnCsr, .aSrc .zero, .latchA true, .pcAction .inc, .jmpType .direct, .target (.lbl .csrr)]), -- 213-214
  .label .csrrs_1, -- 215
    .insn ([.csrOp .readCsr, .csrSel .insnCsr, .aSrc .zero, .latchA true, .pcAction .inc, .jmpType .direct, .target (.lbl .csrrs)]), -- 215-216
  .label .csrrc_1, -- 217
    .insn ([.csrOp .readCsr, .csrSel .insnCsr, .aSrc .zero, .latchA true, .pcAction .inc, .jmpType .direct, .target (.lbl .csrrc)]), -- 217-218
  .label .csrwi_1, -- 219
    .insn ([.aSrc .zero, .bSrc .csrImm, .latchA true, .latchB true, .pcAction .inc, .jmpType .direct, .target (.lbl .csrwi)]), -- 219-220
  .label .csrrwi_1, -- 221
    .insn ([.csrOp .readCsr, .csrSel .insnCsr, .aSrc .zero, .bSrc .csrImm, .latchA true, .latchB true, .pcAction .inc, .jmpType .direct, .target (.lbl .csrrwi)]), -- 221-223
  .label .csrrsi_1, -- 224
    .insn ([.csrOp .readCsr, .csrSel .insnCsr, .aSrc .zero, .latchA true, .pcAction .inc, .jmpType .direct, .target (.lbl .csrrsi)]), -- 224-225
  .label .csrrci_1, -- 226
    .insn ([.csrOp .readCsr, .csrSel .insnCsr, .aSrc .zero, .latchA true, .pcAction .inc, .jmpType .direct, .target (.lbl .csrrci)]) ] -- 226-227
/-- `microcode.asm` 229-250. -/
def src3 : List Stmt := [
  .origin 0x30, -- 229
  .label .misc_mem, -- 230
    .insn ([.pcAction .inc, .jmpType .direct, .target (.lbl .fetch)]), -- 230
  .label .csrro0, -- 232
    .insn ([.aluOp .and] ++ JUMP_TO_OP_END (.lbl .fast_epilog)), -- 232
  .label .csrr, -- 233
    .insn ([.latchB true, .bSrc .csr]), -- 233
    .insn ([.aluOp .add] ++ JUMP_TO_OP_END (.lbl .fast_epilog)), -- 234
  .label .csrwi, -- 235
    .insn ([.aluOp .add] ++ JUMP_TO_OP_END (.lbl .fast_epilog_csr)), -- 235
  .label .csrrwi, -- 236
    .insn ([.aluOp .add, .latchB true, .bSrc .csr]), -- 236
    .insn (WRITE_RD_CSR ++ [.aluOp .add] ++ JUMP_TO_OP_END (.lbl .fast_epilog)), -- 237
  .label .csrrsi, -- 239
    .insn ([.latchB true, .bSrc .csr]), -- 239
    .insn ([.aluOp .add, .bSrc .csrImm, .latchB true]), -- 240
  .label .csrrs_2, -- 241
    .insn (WRITE_RD ++ [.aSrc .aluO, .latchA true]), -- 241
    .insn ([.aluOp .or] ++ JUMP_TO_OP_END (.lbl .fast_epilog_csr)), -- 242
  .label .csrrci, -- 244
    .insn ([.latchB true, .bSrc .csr]), -- 244
    .insn ([.csrOp .readCsr, .csrSel .insnCsr, .aluOp .add, .aSrc .negOne, .bSrc .csrImm, .latchA true, .latchB true]), -- 246-247
  .label .csrrc_2, -- 248
    .insn (WRITE_RD ++ [.bSrc .csr, .latchB true, .aluOp .xor]), -- 248
    .insn ([.aSrc .aluO, .latchA true]), -- 249
    .insn ([.aluOp .and] ++ JUMP_TO_OP_END (.lbl .fast_epilog_csr)) ] -- 250
/-- `microcode.asm` 252-277. -/
def src4 : List Stmt := [
  .origin 0x40, -- 252
  .label .addi_1, -- 253
    .insn ([.latchB true, .bSrc .imm, .pcAction .inc, .jmpType .direct, .target (.lbl .addi)]), -- 253-254
  .label .slli_1, -- 255
    .insn ([.latchB true, .bSrc .imm, .pcAction .inc, .jmpType .direct, .target (.lbl .slli)]), -- 255-256
  .label .slti_1, -- 257
    .insn ([.latchB true, .bSrc .imm, .pcAction .inc, .jmpType .direct, .target (.lbl .slti)]), -- 257-258
  .label .sltiu_1, -- 259
    .insn ([.latchB true, .bSrc .imm, .pcAction .inc, .jmpType .direct, .target (.lbl .sltiu)]), -- 259-260
  .label .xori_1, -- 261
    .insn ([.latchB true, .bSrc .imm, .pcAction .inc, .jmpType .direct, .target (.lbl .xori)]), -- 261-262
  .label .srli_1, -- 263
    .insn ([.latchB true, .bSrc .imm, .pcAction .inc, .jmpType .direct, .target (.lbl .srli)]), -- 263-264
  .label .ori_1, -- 265
    .insn ([.latchB true, .bSrc .imm, .pcAction .inc, .jmpType .direct, .target (.lbl .ori)]), -- 265-266
  .label .andi_1, -- 267
    .insn ([.latchB true, .bSrc .imm, .pcAction .inc, .jmpType .direct, .target (.lbl .andi)]), -- 267-268
    .insn (NOT_IMPLEMENTED), -- 269
  .label .csrrs, -- 270
    .insn (READ_RS1 ++ [.latchB true, .bSrc .csr]), -- 270
    .insn ([.aluOp .add, .bSrc .gp, .latchB true, .jmpType .direct, .target (.lbl .csrrs_2)]), -- 271-272
  .label .csrrc, -- 273
    .insn (READ_RS1 ++ [.latchB true, .bSrc .csr]), -- 273
    .insn ([.csrOp .readCsr, .csrSel .insnCsr, .aluOp .add, .aSrc .negOne, .bSrc .gp, .latchA true, .latchB true, .jmpType .direct, .target (.lbl .csrrc_2)]), -- 274-275
  .label .srai_1, -- 276
    .insn ([.latchB true, .bSrc .imm, .pcAction .inc, .jmpType .direct, .target (.lbl .srai)]) ] -- 276-277
/-- `microcode.asm` 279-340. -/
def src5 : List Stmt := [
  .origin 0x50, -- 279
  .label .auipc, -- 280
    .insn ([.latchA true, .latchB true, .aSrc .imm, .bSrc .pc]), -- 280
    .insn ([.aluOp .add, .pcAction .inc]), -- 281
    .insn (WRITE_RD ++ [.jmpType .direct, .condTest .true_, .target (.lbl .fetch)]), -- 282
  .label .addi, -- 284
    .insn ([.aluOp .add] ++ INSN_FETCH ++ JUMP_TO_OP_END (.lbl .fast_epilog)), -- 284
  .label .slti, -- 285
    .insn (CMP_LT ++ INSN_FETCH ++ JUMP_TO_OP_END (.lbl .fast_epilog)), -- 285
  .label .sltiu, -- 286
    .insn ([.aluOp .cmpLtu] ++ INSN_FETCH ++ JUMP_TO_OP_END (.lbl .fast_epilog)), -- 286
  .label .xori, -- 287
    .insn ([.aluOp .xor] ++ INSN_FETCH ++ JUMP_TO_OP_END (.lbl .fast_epilog)), -- 287
  .label .ori, -- 288
    .insn ([.aluOp .or] ++ INSN_FETCH ++ JUMP_TO_OP_END (.lbl .fast_epilog)), -- 288
  .label .andi, -- 289
    .insn ([.aluOp .and] ++ INSN_FETCH ++ JUMP_TO_OP_END (.lbl .fast_epilog)), -- 289
  .label .slli, -- 292
    .insn (READ_RS1 ++ [.aSrc .zero, .latchA true]), -- 292-298
    .insn ([.aSrc .gp, .bSrc .imm, .latchA true, .latchB true, .aluOp .add]), -- 300
    .insn (READ_RS1 ++ [.aSrc .imm, .bSrc .one, .latchA true, .latchB true, .aluOp .sll, .jmpType .direct, .condTest .cmpAluOZero, .target (.lbl .shift_zero)]), -- 301-302
  .label .sll_loop, -- 303
    .insn ([.aluOp .sub, .aSrc .aluO, .latchA true] ++ WRITE_RD), -- 303-309
    .insn ([.aluOp .sll, .aSrc .aluO, .bSrc .one, .latchA true, .latchB true, .jmpType .directZero] ++ CONDTEST_ALU_NONZERO ++ [.target (.lbl .sll_loop)]), -- 311-312
  .label .srli, -- 314
    .insn (READ_RS1 ++ [.aSrc .zero, .latchA true]), -- 314-316
    .insn ([.aSrc .gp, .bSrc .imm, .latchA true, .latchB true, .aluOp .add]), -- 317
    .insn (READ_RS1 ++ [.aSrc .imm, .bSrc .one, .latchA true, .latchB true, .aluOp .srl, .jmpType .direct, .condTest .cmpAluOZero, .target (.lbl .shift_zero)]), -- 318-319
  .label .srl_loop, -- 320
    .insn ([.aluOp .sub, .aSrc .aluO, .latchA true] ++ WRITE_RD), -- 320-321
    .insn ([.aluOp .srl, .aSrc .aluO, .bSrc .one, .latchA true, .latchB true, .jmpType .directZero] ++ CONDTEST_ALU_NONZERO ++ [.target (.lbl .srl_loop)]), -- 322-323
  .label .srai, -- 325
    .insn (READ_RS1 ++ [.aSrc .thirtyOne, .latchA true]), -- 325-329
    .insn ([.aSrc .gp, .latchA true, .aluOp .and]), -- 330
    .insn (READ_RS1 ++ [.aSrc .aluO, .bSrc .one, .latchA true, .latchB true, .aluOp .sra, .jmpType .direct, .condTest .cmpAluOZero, .target (.lbl .shift_zero)]), -- 331-332
  .label .sra_loop, -- 333
    .insn ([.aluOp .sub, .aSrc .aluO, .latchA true] ++ WRITE_RD), -- 333-334
    .insn ([.aluOp .sra, .aSrc .aluO, .bSrc .one, .latchA true, .latchB true, .jmpType .directZero] ++ CONDTEST_ALU_NONZERO ++ [.target (.lbl .sra_loop)]), -- 336-337
  .label .shift_zero, -- 339
    .insn ([.aSrc .zero, .bSrc .gp, .latchA true, .latchB true]), -- 339
    .insn ([.aluOp .add] ++ JUMP_TO_OP_END (.lbl .fast_epilog)) ] -- 340
/-- `microcode.asm` 342-355. -/
def src6 : List Stmt := [
  .origin 0x80, -- 342
  .label .sb_1, -- 343
    .insn (READ_RS2 ++ [.latchB true, .bSrc .imm, .pcAction .inc, .jmpType .direct, .target (.lbl .sb)]), -- 343-344
  .label .sh_1, -- 345
    .insn (READ_RS2 ++ [.latchB true, .bSrc .imm, .jmpType .direct, .target (.lbl .sh)]), -- 345
  .label .sw_1, -- 346
    .insn (READ_RS2 ++ [.latchB true, .bSrc .imm, .jmpType .direct, .target (.lbl .sw)]), -- 346
  .label .bne, -- 348
    .insn ([.aSrc .imm, .bSrc .pc, .latchA true, .latchB true, .aluOp .sub, .jmpType .direct, .target (.lbl .branch_epilog)]), -- 348-349
  .label .beq, -- 351
    .insn ([.aSrc .imm, .bSrc .pc, .latchA true, .latchB true, .aluOp .sub]), -- 351
    .insn ([.aluOp .add, .invertTest true, .condTest .cmpAluOZero, .jmpType .direct, .target (.lbl .not_taken)]), -- 352-353
    .insn ([.exceptCtl .latchJal, .jmpType .direct, .condTest .exception, .target (.lbl .save_pc)]), -- 354
    .insn ([.jmpType .direct, .condTest .true_, .target (.lbl .fetch), .pcAction .loadAluO]) ] -- 355
/-- `microcode.asm` 357-381. -/
def src7 : List Stmt := [
  .origin 0x88, -- 357
  .label .branch_ops, -- 358
  .label .beq_1, -- 358
    .insn ([.latchB true, .bSrc .gp, .jmpType .direct, .target (.lbl .beq)]), -- 358-359
  .label .bne_1, -- 361
    .insn ([.latchB true, .bSrc .gp, .jmpType .direct, .target (.lbl .bne)]), -- 361
    .insn (NOT_IMPLEMENTED), -- 362
    .insn (NOT_IMPLEMENTED), -- 363
  .label .blt_1, -- 364
    .insn ([.latchB true, .bSrc .gp, .jmpType .direct, .target (.lbl .blt)]), -- 364
  .label .bge_1, -- 365
    .insn ([.latchB true, .bSrc .gp, .jmpType .direct, .target (.lbl .bge)]), -- 365
  .label .bltu_1, -- 366
    .insn ([.latchB true, .bSrc .gp, .jmpType .direct, .target (.lbl .bltu)]), -- 366
  .label .bgeu_1, -- 367
    .insn ([.latchB true, .bSrc .gp, .jmpType .direct, .target (.lbl .bgeu)]), -- 367
  .label .blt, -- 369
    .insn ([.aSrc .imm, .bSrc .pc, .latchA true, .latchB true] ++ CMP_LT ++ [.jmpType .direct, .target (.lbl .branch_epilog)]), -- 369-370
  .label .bge, -- 371
    .insn ([.aSrc .imm, .bSrc .pc, .latchA true, .latchB true] ++ CMP_GE ++ [.jmpType .direct, .target (.lbl .branch_epilog)]), -- 371-372
  .label .bltu, -- 373
    .insn ([.aSrc .imm, .bSrc .pc, .latchA true, .latchB true, .aluOp .cmpLtu, .jmpType .direct, .target (.lbl .branch_epilog)]), -- 373-374
  .label .bgeu, -- 375
    .insn ([.aSrc .imm, .bSrc .pc, .latchA true, .latchB true] ++ CMP_GEU ++ [.jmpType .direct, .target (.lbl .branch_epilog)]), -- 375-376
  .label .branch_epilog, -- 378
    .insn ([.aluOp .add] ++ CONDTEST_ALU_CMP_FAILED ++ [.jmpType .direct, .target (.lbl .not_taken)]), -- 378
  .label .taken, -- 379
    .insn ([.exceptCtl .latchJal, .jmpType .direct, .condTest .exception, .target (.lbl .save_pc)]), -- 379
    .insn ([.jmpType .direct, .condTest .true_, .target (.lbl .fetch), .pcAction .loadAluO]), -- 380
  .label .not_taken, -- 381
    .insn ([.pcAction .inc, .jmpType .direct, .target (.lbl .fetch)]) ] -- 381
/-- `microcode.asm` 383-412. -/
def src8 : List Stmt := [
  .origin 0x98, -- 383
  .label .jalr, -- 384
    .insn ([.bSrc .imm, .latchB true]), -- 384
    .insn ([.aluOp .add, .aluOMod .clearLsbO]), -- 385
    .insn ([.latchA true, .latchB true, .aSrc .four, .bSrc .pc, .exceptCtl .latchJal, .jmpType .direct, .condTest .exception, .target (.lbl .save_pc)]), -- 386-387
    .insn ([.pcAction .loadAluO]), -- 388
    .insn (INSN_FETCH ++ [.aluOp .add] ++ JUMP_TO_OP_END (.lbl .fast_epilog)), -- 389
  .label .sb, -- 391
    .insn ([.aSrc .zero, .bSrc .gp, .latchA true, .latchB true, .aluOp .add]), -- 391
    .insn ([.aluOp .add, .latchAdr true]), -- 392
    .insn ([.memSel .byte, .latchData true]), -- 393
  .label .sb_wait, -- 394
    .insn ([.memReq true, .invertTest true, .condTest .memValid, .memSel .byte, .writeMem true, .jmpType .direct, .target (.lbl .sb_wait)]), -- 394-395
    .insn (STOP_MEMREQ_THEN_JUMP_TO_ZERO), -- 396
  .label .sh, -- 398
    .insn ([.aSrc .zero, .bSrc .gp, .latchA true, .latchB true, .aluOp .add]), -- 398
    .insn ([.aluOp .add, .latchAdr true, .exceptCtl .latchStoreAdr, .memSel .hword, .jmpType .direct, .condTest .exception, .target (.lbl .save_pc)]), -- 399-400
    .insn ([.memSel .hword, .latchData true, .pcAction .inc]), -- 401
  .label .sh_wait, -- 402
    .insn ([.memReq true, .invertTest true, .condTest .memValid, .memSel .hword, .writeMem true, .jmpType .direct, .target (.lbl .sh_wait)]), -- 402-403
    .insn (STOP_MEMREQ_THEN_JUMP_TO_ZERO), -- 404
  .label .sw, -- 406
    .insn ([.aSrc .zero, .bSrc .gp, .latchA true, .latchB true, .aluOp .add]), -- 406
    .insn ([.aluOp .add, .latchAdr true, .exceptCtl .latchStoreAdr, .memSel .word, .jmpType .direct, .condTest .exception, .target (.lbl .save_pc)]), -- 407-408
    .insn ([.memSel .word, .latchData true, .pcAction .inc]), -- 409
  .label .sw_wait, -- 410
    .insn ([.memReq true, .invertTest true, .condTest .memValid, .memSel .word, .writeMem true, .jmpType .direct, .target (.lbl .sw_wait)]), -- 410-411
    .insn (STOP_MEMREQ_THEN_JUMP_TO_ZERO) ] -- 412
/-- `microcode.asm` 414-422. -/
def src9 : List Stmt := [
  .origin 0xB0, -- 414
  .label .jal, -- 415
    .insn ([.aSrc .imm, .bSrc .pc, .latchA true, .latchB true]), -- 415
    .insn ([.aluOp .add]), -- 416
    .insn ([.exceptCtl .latchJal, .jmpType .direct, .condTest .exception, .target (.lbl .save_pc)]), -- 417
    .insn ([.pcAction .loadAluO, .latchA true, .latchB true, .aSrc .four, .bSrc .pc]), -- 418
    .insn (INSN_FETCH ++ [.aluOp .add] ++ JUMP_TO_OP_END (.lbl .fast_epilog)), -- 419
  .label .fast_epilog, -- 421
    .insn (INSN_FETCH_EAGER_READ_RS1 ++ WRITE_RD ++ SKIP_WAIT_IF_ACK), -- 421
  .label .fast_epilog_csr, -- 422
    .insn (INSN_FETCH_EAGER_READ_RS1 ++ WRITE_RD_CSR ++ SKIP_WAIT_IF_ACK) ] -- 422
/-- `microcode.asm` 424-448. -/
def src10 : List Stmt := [
  .origin 0xc0, -- 424
  .label .add_1, -- 425
    .insn ([.latchB true, .bSrc .gp, .pcAction .inc, .jmpType .direct, .target (.lbl .add)]), -- 425-426
  .label .sll_1, -- 427
    .insn ([.latchB true, .bSrc .gp, .pcAction .inc, .jmpType .direct, .target (.lbl .sll)]), -- 427-428
  .label .slt_1, -- 429
    .insn ([.latchB true, .bSrc .gp, .pcAction .inc, .jmpType .direct, .target (.lbl .slt)]), -- 429-430
  .label .sltu_1, -- 431
    .insn ([.latchB true, .bSrc .gp, .pcAction .inc, .jmpType .direct, .target (.lbl .sltu)]), -- 431-432
  .label .xor_1, -- 433
    .insn ([.latchB true, .bSrc .gp, .pcAction .inc, .jmpType .direct, .target (.lbl .xor)]), -- 433-434
  .label .srl_1, -- 435
    .insn ([.latchB true, .bSrc .gp, .pcAction .inc, .jmpType .direct, .target (.lbl .srl)]), -- 435-436
  .label .or_1, -- 437
    .insn ([.latchB true, .bSrc .gp, .pcAction .inc, .jmpType .direct, .target (.lbl .or)]), -- 437-438
  .label .and_1, -- 439
    .insn ([.latchB true, .bSrc .gp, .pcAction .inc, .jmpType .direct, .target (.lbl .and)]), -- 439-440
  .label .sub_1, -- 441
    .insn ([.latchB true, .bSrc .gp, .pcAction .inc, .jmpType .direct, .target (.lbl .sub)]), -- 441-442
    .insn (NOT_IMPLEMENTED), -- 443
    .insn (NOT_IMPLEMENTED), -- 444
    .insn (NOT_IMPLEMENTED), -- 445
    .insn (NOT_IMPLEMENTED), -- 446
  .label .sra_1, -- 447
    .insn ([.latchB true, .bSrc .gp, .pcAction .inc, .jmpType .direct, .target (.lbl .sra)]) ] -- 447-448
/-- `microcode.asm` 450-485. -/
def src11 : List Stmt := [
  .origin 0xd0, -- 450
  .label .lui, -- 451
    .insn ([.aSrc .zero, .bSrc .imm, .latchA true, .latchB true, .pcAction .inc, .jmpType .direct, .target (.lbl .addi)]), -- 451-452
  .label .add, -- 455
    .insn ([.aluOp .add] ++ INSN_FETCH ++ JUMP_TO_OP_END (.lbl .fast_epilog)), -- 455
  .label .slt, -- 456
    .insn (CMP_LT ++ INSN_FETCH ++ JUMP_TO_OP_END (.lbl .fast_epilog)), -- 456
  .label .sltu, -- 457
    .insn ([.aluOp .cmpLtu] ++ INSN_FETCH ++ JUMP_TO_OP_END (.lbl .fast_epilog)), -- 457
  .label .xor, -- 458
    .insn ([.aluOp .xor] ++ INSN_FETCH ++ JUMP_TO_OP_END (.lbl .fast_epilog)), -- 458
  .label .or, -- 459
    .insn ([.aluOp .or] ++ INSN_FETCH ++ JUMP_TO_OP_END (.lbl .fast_epilog)), -- 459
  .label .and, -- 460
    .insn ([.aluOp .and] ++ INSN_FETCH ++ JUMP_TO_OP_END (.lbl .fast_epilog)), -- 460
  .label .sub, -- 461
    .insn ([.aluOp .sub] ++ INSN_FETCH ++ JUMP_TO_OP_END (.lbl .fast_epilog)), -- 461
  .label .sll, -- 466
    .insn (READ_RS1 ++ [.aSrc .thirtyOne, .latchA true]), -- 466-467
    .insn (READ_RS2 ++ [.aSrc .gp, .latchA true, .aluOp .and]), -- 468
    .insn ([.aSrc .aluO, .bSrc .one, .latchA true, .latchB true, .aluOp .sll, .jmpType .direct] ++ CONDTEST_ALU_NONZERO ++ [.target (.lbl .sll_loop)]), -- 469-470
    .insn (READ_RS1 ++ [.jmpType .direct, .target (.lbl .shift_zero)]), -- 471
  .label .srl, -- 473
    .insn (READ_RS1 ++ [.aSrc .thirtyOne, .latchA true]), -- 473-474
    .insn (READ_RS2 ++ [.aSrc .gp, .latchA true, .aluOp .and]), -- 475
    .insn ([.aSrc .aluO, .bSrc .one, .latchA true, .latchB true, .aluOp .srl, .jmpType .direct] ++ CONDTEST_ALU_NONZERO ++ [.target (.lbl .srl_loop)]), -- 476-477
    .insn (READ_RS1 ++ [.jmpType .direct, .target (.lbl .shift_zero)]), -- 478
  .label .sra, -- 480
    .insn (READ_RS1 ++ [.aSrc .thirtyOne, .latchA true]), -- 480-481
    .insn (READ_RS2 ++ [.aSrc .gp, .latchA true, .aluOp .and]), -- 482
    .insn ([.aSrc .aluO, .bSrc .one, .latchA true, .latchB true, .aluOp .sra, .jmpType .direct] ++ CONDTEST_ALU_NONZERO ++ [.target (.lbl .sra_loop)]), -- 483-484
    .insn (READ_RS1 ++ [.jmpType .direct, .target (.lbl .shift_zero)]) ] -- 485
/-- `microcode.asm` 488-511. -/
def src12 : List Stmt := [
  .origin 0xf0, -- 488
  .label .save_pc, -- 489
    .insn ([.exceptCtl .enterInt, .csrOp .readCsr, .csrSel .trgCsr, .aSrc .zero, .bSrc .pc, .latchA true, .latchB true, .target (.num MTVEC)]), -- 489-490
    .insn ([.aluOp .add, .bSrc .csr, .latchB true]), -- 492
    .insn ([.aluOp .add, .bSrc .mcauseLatch, .latchB true, .csrOp .writeCsr, .csrSel .trgCsr, .target (.num MEPC)]), -- 494-495
    .insn ([.aluOp .add, .pcAction .loadAluO]), -- 497
    .insn (INSN_FETCH ++ [.jmpType .directZero, .invertTest true, .condTest .true_, .csrOp .writeCsr, .csrSel .trgCsr, .target (.num MCAUSE)]), -- 499-500
  .origin 248, -- 503
  .label .mret, -- 504
    .insn ([.csrOp .readCsr, .csrSel .trgCsr, .aSrc .zero, .latchA true, .target (.num MEPC)]), -- 504
    .insn ([.bSrc .csr, .latchB true]), -- 506
    .insn ([.aluOp .add]), -- 508
    .insn ([.pcAction .loadAluO]), -- 510
    .insn ([.exceptCtl .leaveInt] ++ INSN_FETCH ++ [.jmpType .direct, .target (.lbl .fetch)]) ] -- 511
/-- `microcode.asm` 514-517. -/
def src13 : List Stmt := [
  .origin 254, -- 514
  .label .halt, -- 515
    .insn ([.jmpType .direct, .target (.lbl .halt)]), -- 515
  .origin 255, -- 516
  .label .panic, -- 517
    .insn ([.jmpType .direct, .target (.lbl .panic)]) ] -- 517

/-- The program, `microcode.asm` 123-517. -/
def source : List Stmt :=
  src0 ++ src1 ++ src2 ++ src3 ++ src4 ++ src5 ++ src6 ++ src7 ++ src8 ++ src9 ++ src10 ++ src11 ++ src12 ++ src13

end Sentinel.Ucode
