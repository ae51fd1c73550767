import Verif.Spec.Isa
/-!
# The encoding of instructions

Two descriptions of the encoding that do not use `decode`: the instruction formats of the unprivileged manual (chapter 2.2, 2.3 and the
listing in "RV32/64G Instruction Set Listings"), as an assembler would use them, with immediates and offsets as integers; and the table
of match and mask values of the riscv-opcodes repository.
-/

namespace Sentinel.Spec

/-- Instructions as they are written in assembly. -/
inductive Asm
  /-- `lui rd, imm` -/
  | lui (rd : Reg) (imm : Nat)
  | auipc (rd : Reg) (imm : Nat)
  /-- `jal rd, . + off` -/
  | jal (rd : Reg) (off : Int)
  /-- `jalr rd, off(rs1)` -/
  | jalr (rd rs1 : Reg) (off : Int)
  /-- `beq rs1, rs2, . + off` -/
  | branch (op : BrOp) (rs1 rs2 : Reg) (off : Int)
  /-- `lw rd, off(rs1)` -/
  | load (op : LdOp) (rd rs1 : Reg) (off : Int)
  /-- `sw rs2, off(rs1)` -/
  | store (op : StOp) (rs2 rs1 : Reg) (off : Int)
  /-- `addi rd, rs1, imm` -/
  | aluImm (op : AluOp) (rd rs1 : Reg) (imm : Int)
  /-- `slli rd, rs1, shamt` -/
  | shiftImm (op : AluOp) (rd rs1 : Reg) (shamt : Nat)
  /-- `add rd, rs1, rs2` -/
  | alu (op : AluOp) (rd rs1 rs2 : Reg)
  /-- `fence pred, succ` -/
  | fence (pred succ : BitVec 4)
  | ecall | ebreak | mret | wfi
  /-- `csrrw rd, csr, rs1` or `csrrwi rd, csr, uimm` -/
  | csr (op : CsrOp) (rd : Reg) (adr : BitVec 12) (src : CsrSrc)

/-- The operands are ones that an assembler accepts. -/
def Asm.Valid : Asm → Prop
  | .lui _ imm | .auipc _ imm => imm < 2 ^ 20
  | .jal _ off => -2 ^ 20 ≤ off ∧ off < 2 ^ 20 ∧ off % 2 = 0
  | .jalr _ _ off | .load _ _ _ off | .store _ _ _ off => -2 ^ 11 ≤ off ∧ off < 2 ^ 11
  | .branch _ _ _ off => -2 ^ 12 ≤ off ∧ off < 2 ^ 12 ∧ off % 2 = 0
  | .aluImm op _ _ imm => op ∈ [.add, .slt, .sltu, .xor, .or, .and] ∧ -2 ^ 11 ≤ imm ∧ imm < 2 ^ 11
  | .shiftImm op _ _ n => op ∈ [.sll, .srl, .sra] ∧ n < 32
  | .alu .. | .fence .. | .ecall | .ebreak | .mret | .wfi | .csr .. => True

/-! ## Formats -/

/-- R-type: funct7, rs2, rs1, funct3, rd, opcode. -/
def rType (f7 : BitVec 7) (rs2 rs1 : Reg) (f3 : BitVec 3) (rd : Reg) (opc : BitVec 7) : Word := f7 ++ rs2 ++ rs1 ++ f3 ++ rd ++ opc
/-- I-type: imm[11:0], rs1, funct3, rd, opcode. -/
def iType (imm : BitVec 12) (rs1 : Reg) (f3 : BitVec 3) (rd : Reg) (opc : BitVec 7) : Word := imm ++ rs1 ++ f3 ++ rd ++ opc
/-- S-type: imm[11:5], rs2, rs1, funct3, imm[4:0], opcode. -/
def sType (imm : BitVec 12) (rs2 rs1 : Reg) (f3 : BitVec 3) (opc : BitVec 7) : Word :=
  imm.extractLsb 11 5 ++ rs2 ++ rs1 ++ f3 ++ imm.extractLsb 4 0 ++ opc
/-- B-type: imm[12], imm[10:5], rs2, rs1, funct3, imm[4:1], imm[11], opcode. -/
def bType (imm : BitVec 13) (rs2 rs1 : Reg) (f3 : BitVec 3) (opc : BitVec 7) : Word :=
  imm.extractLsb 12 12 ++ imm.extractLsb 10 5 ++ rs2 ++ rs1 ++ f3 ++ imm.extractLsb 4 1 ++ imm.extractLsb 11 11 ++ opc
/-- U-type: imm[31:12], rd, opcode. -/
def uType (imm : BitVec 20) (rd : Reg) (opc : BitVec 7) : Word := imm ++ rd ++ opc
/-- J-type: imm[20], imm[10:1], imm[11], imm[19:12], rd, opcode. -/
def jType (imm : BitVec 21) (rd : Reg) (opc : BitVec 7) : Word :=
  imm.extractLsb 20 20 ++ imm.extractLsb 10 1 ++ imm.extractLsb 11 11 ++ imm.extractLsb 19 12 ++ rd ++ opc

/-- funct3 of the branches. -/
def BrOp.f3 : BrOp → BitVec 3
  | .beq => 0 | .bne => 1 | .blt => 4 | .bge => 5 | .bltu => 6 | .bgeu => 7
/-- funct3 of the loads. -/
def LdOp.f3 : LdOp → BitVec 3
  | .lb => 0 | .lh => 1 | .lw => 2 | .lbu => 4 | .lhu => 5
/-- funct3 of the stores. -/
def StOp.f3 : StOp → BitVec 3
  | .sb => 0 | .sh => 1 | .sw => 2
/-- funct3 of the arithmetic instructions. -/
def AluOp.f3 : AluOp → BitVec 3
  | .add => 0 | .sub => 0 | .sll => 1 | .slt => 2 | .sltu => 3 | .xor => 4 | .srl => 5 | .sra => 5 | .or => 6 | .and => 7
/-- funct7 of the arithmetic instructions. -/
def AluOp.f7 : AluOp → BitVec 7
  | .sub | .sra => 0b0100000
  | _ => 0
/-- funct3 of the CSR instructions. -/
def CsrOp.f3 : CsrOp → CsrSrc → BitVec 3
  | .rw, .reg _ => 1 | .rs, .reg _ => 2 | .rc, .reg _ => 3
  | .rw, .imm _ => 5 | .rs, .imm _ => 6 | .rc, .imm _ => 7
/-- The field in the place of rs1. -/
def CsrSrc.field : CsrSrc → BitVec 5
  | .reg r => r
  | .imm u => u

/-- The word that an assembler emits. -/
def Asm.word : Asm → Word
  | .lui rd imm => uType (.ofNat _ imm) rd 0b0110111
  | .auipc rd imm => uType (.ofNat _ imm) rd 0b0010111
  | .jal rd off => jType (.ofInt _ off) rd 0b1101111
  | .jalr rd rs1 off => iType (.ofInt _ off) rs1 0 rd 0b1100111
  | .branch op rs1 rs2 off => bType (.ofInt _ off) rs2 rs1 op.f3 0b1100011
  | .load op rd rs1 off => iType (.ofInt _ off) rs1 op.f3 rd 0b0000011
  | .store op rs2 rs1 off => sType (.ofInt _ off) rs2 rs1 op.f3 0b0100011
  | .aluImm op rd rs1 imm => iType (.ofInt _ imm) rs1 op.f3 rd 0b0010011
  | .shiftImm op rd rs1 n => rType op.f7 (.ofNat _ n) rs1 op.f3 rd 0b0010011
  | .alu op rd rs1 rs2 => rType op.f7 rs2 rs1 op.f3 rd 0b0110011
  | .fence pred succ => iType (0#4 ++ pred ++ succ) 0 0 0 0b0001111
  | .ecall => iType 0 0 0 0 0b1110011
  | .ebreak => iType 1 0 0 0 0b1110011
  | .mret => iType 0x302 0 0 0 0b1110011
  | .wfi => iType 0x105 0 0 0 0b1110011
  | .csr op rd adr src => iType adr src.field (op.f3 src) rd 0b1110011

/-- The instruction meant; offsets of jumps and branches are stored without their lowest bit, shift amounts with funct7. -/
def Asm.instr : Asm → Instr
  | .lui rd imm => .lui rd (.ofNat _ imm)
  | .auipc rd imm => .auipc rd (.ofNat _ imm)
  | .jal rd off => .jal rd (.ofInt _ (off / 2))
  | .jalr rd rs1 off => .jalr rd rs1 (.ofInt _ off)
  | .branch op rs1 rs2 off => .branch op rs1 rs2 (.ofInt _ (off / 2))
  | .load op rd rs1 off => .load op rd rs1 (.ofInt _ off)
  | .store op rs2 rs1 off => .store op rs1 rs2 (.ofInt _ off)
  | .aluImm op rd rs1 imm => .opImm op rd rs1 (.ofInt _ imm)
  | .shiftImm op rd rs1 n => .opImm op rd rs1 (op.f7 ++ BitVec.ofNat 5 n)
  | .alu op rd rs1 rs2 => .op op rd rs1 rs2
  | .fence _ _ => .fence
  | .ecall => .ecall
  | .ebreak => .ebreak
  | .mret => .mret
  | .wfi => .wfi
  | .csr op rd adr src => .csr op rd src adr

/-! ## Match and mask -/

/-- Name of an instruction. -/
def Instr.name : Instr → String
  | .lui .. => "lui" | .auipc .. => "auipc" | .jal .. => "jal" | .jalr .. => "jalr"
  | .branch .beq .. => "beq" | .branch .bne .. => "bne" | .branch .blt .. => "blt"
  | .branch .bge .. => "bge" | .branch .bltu .. => "bltu" | .branch .bgeu .. => "bgeu"
  | .load .lb .. => "lb" | .load .lh .. => "lh" | .load .lw .. => "lw" | .load .lbu .. => "lbu" | .load .lhu .. => "lhu"
  | .store .sb .. => "sb" | .store .sh .. => "sh" | .store .sw .. => "sw"
  | .opImm .add .. => "addi" | .opImm .sub .. => "subi" | .opImm .sll .. => "slli" | .opImm .slt .. => "slti"
  | .opImm .sltu .. => "sltiu" | .opImm .xor .. => "xori" | .opImm .srl .. => "srli" | .opImm .sra .. => "srai"
  | .opImm .or .. => "ori" | .opImm .and .. => "andi"
  | .op .add .. => "add" | .op .sub .. => "sub" | .op .sll .. => "sll" | .op .slt .. => "slt" | .op .sltu .. => "sltu"
  | .op .xor .. => "xor" | .op .srl .. => "srl" | .op .sra .. => "sra" | .op .or .. => "or" | .op .and .. => "and"
  | .fence => "fence" | .ecall => "ecall" | .ebreak => "ebreak" | .mret => "mret" | .wfi => "wfi"
  | .csr .rw _ (.reg _) _ => "csrrw" | .csr .rs _ (.reg _) _ => "csrrs" | .csr .rc _ (.reg _) _ => "csrrc"
  | .csr .rw _ (.imm _) _ => "csrrwi" | .csr .rs _ (.imm _) _ => "csrrsi" | .csr .rc _ (.imm _) _ => "csrrci"

/-- riscv-opcodes, `encoding.h`: name, MATCH and MASK of the instructions of RV32I, Zicsr and machine mode. -/
def opcodes : List (String × Word × Word) :=
  [("lui", 0x37, 0x7f), ("auipc", 0x17, 0x7f), ("jal", 0x6f, 0x7f), ("jalr", 0x67, 0x707f),
   ("beq", 0x63, 0x707f), ("bne", 0x1063, 0x707f), ("blt", 0x4063, 0x707f),
   ("bge", 0x5063, 0x707f), ("bltu", 0x6063, 0x707f), ("bgeu", 0x7063, 0x707f),
   ("lb", 0x3, 0x707f), ("lh", 0x1003, 0x707f), ("lw", 0x2003, 0x707f), ("lbu", 0x4003, 0x707f), ("lhu", 0x5003, 0x707f),
   ("sb", 0x23, 0x707f), ("sh", 0x1023, 0x707f), ("sw", 0x2023, 0x707f),
   ("addi", 0x13, 0x707f), ("slti", 0x2013, 0x707f), ("sltiu", 0x3013, 0x707f),
   ("xori", 0x4013, 0x707f), ("ori", 0x6013, 0x707f), ("andi", 0x7013, 0x707f),
   ("slli", 0x1013, 0xfe00707f), ("srli", 0x5013, 0xfe00707f), ("srai", 0x40005013, 0xfe00707f),
   ("add", 0x33, 0xfe00707f), ("sub", 0x40000033, 0xfe00707f), ("sll", 0x1033, 0xfe00707f), ("slt", 0x2033, 0xfe00707f),
   ("sltu", 0x3033, 0xfe00707f), ("xor", 0x4033, 0xfe00707f), ("srl", 0x5033, 0xfe00707f), ("sra", 0x40005033, 0xfe00707f),
   ("or", 0x6033, 0xfe00707f), ("and", 0x7033, 0xfe00707f),
   ("fence", 0xf, 0x707f), ("ecall", 0x73, 0xffffffff), ("ebreak", 0x100073, 0xffffffff),
   ("mret", 0x30200073, 0xffffffff), ("wfi", 0x10500073, 0xffffffff),
   ("csrrw", 0x1073, 0x707f), ("csrrs", 0x2073, 0x707f), ("csrrc", 0x3073, 0x707f),
   ("csrrwi", 0x5073, 0x707f), ("csrrsi", 0x6073, 0x707f), ("csrrci", 0x7073, 0x707f)]

end Sentinel.Spec
