/-!
# Instruction fields — `src/sentinel/insn.py`
-/

namespace Sentinel

/-- `insn.py` 213-239 `OpcodeType`; `other` stands for the bit patterns without a member. -/
inductive Opcode
  | opImm | lui | auipc | op | jal | jalr | branch | load | store | custom0 | miscMem | system
  | other
  deriving DecidableEq, Repr

/-- The member of `OpcodeType` a 5-bit pattern denotes (`insn.py` 213-239). -/
def opcodeOf (b : BitVec 5) : Opcode :=
  if b = 0b00100#5 then .opImm
  else if b = 0b01101#5 then .lui
  else if b = 0b00101#5 then .auipc
  else if b = 0b01100#5 then .op
  else if b = 0b11011#5 then .jal
  else if b = 0b11001#5 then .jalr
  else if b = 0b11000#5 then .branch
  else if b = 0b00000#5 then .load
  else if b = 0b01000#5 then .store
  else if b = 0b00010#5 then .custom0
  else if b = 0b00011#5 then .miscMem
  else if b = 0b11100#5 then .system
  else .other

/-- `insn.py` 172-175 `Insn.opcode`. -/
def insnOpcode (w : BitVec 32) : Opcode := opcodeOf (w.extractLsb' 2 5)
/-- `insn.py` 177-180 `Insn.rd`. -/
def insnRd (w : BitVec 32) : BitVec 5 := w.extractLsb' 7 5
/-- `insn.py` 182-185 `Insn.funct3`. -/
def insnFunct3 (w : BitVec 32) : BitVec 3 := w.extractLsb' 12 3
/-- `insn.py` 187-190 `Insn.rs1`. -/
def insnRs1 (w : BitVec 32) : BitVec 5 := w.extractLsb' 15 5
/-- `insn.py` 192-195 `Insn.rs2`. -/
def insnRs2 (w : BitVec 32) : BitVec 5 := w.extractLsb' 20 5
/-- `insn.py` 197-200 `Insn.funct7`. -/
def insnFunct7 (w : BitVec 32) : BitVec 7 := w.extractLsb' 25 7
/-- `insn.py` 202-205 `Insn.funct12`, also `Insn.CSR.raw`/`addr` (142-148). -/
def insnFunct12 (w : BitVec 32) : BitVec 12 := w.extractLsb' 20 12
/-- `insn.py` 207-210 `Insn.sign`. -/
def insnSign (w : BitVec 32) : Bool := w.getLsbD 31
/-- `insn.py` 150-156 `Insn.CSR.quadrant`. -/
def insnQuadrant (w : BitVec 32) : BitVec 2 := (insnFunct12 w).extractLsb' 8 2
/-- `insn.py` 158-165 `Insn.CSR.access`. -/
def insnAccess (w : BitVec 32) : BitVec 2 := (insnFunct12 w).extractLsb' 10 2

/-- `amaranth` `Value.replicate` of one bit (used by `insn.py` 76-101). -/
def rep (n : Nat) (b : Bool) : BitVec n := if b then BitVec.allOnes n else 0#n

/-- `insn.py` 76-79 `Imm.I`. -/
def immI (w : BitVec 32) : BitVec 32 := rep 21 (insnSign w) ++ w.extractLsb' 20 11
/-- `insn.py` 81-85 `Imm.S`. -/
def immS (w : BitVec 32) : BitVec 32 :=
  rep 21 (insnSign w) ++ w.extractLsb' 25 6 ++ w.extractLsb' 8 4 ++ w.extractLsb' 7 1
/-- `insn.py` 87-91 `Imm.B`. -/
def immB (w : BitVec 32) : BitVec 32 :=
  rep 20 (insnSign w) ++ w.extractLsb' 7 1 ++ w.extractLsb' 25 6 ++ w.extractLsb' 8 4 ++ 0#1
/-- `insn.py` 93-96 `Imm.U`. -/
def immU (w : BitVec 32) : BitVec 32 :=
  BitVec.ofBool (insnSign w) ++ w.extractLsb' 20 11 ++ w.extractLsb' 12 8 ++ 0#12
/-- `insn.py` 98-102 `Imm.J`. -/
def immJ (w : BitVec 32) : BitVec 32 :=
  rep 12 (insnSign w) ++ w.extractLsb' 12 8 ++ w.extractLsb' 20 1 ++ w.extractLsb' 25 6 ++
    w.extractLsb' 21 4 ++ 0#1

/-- `insn.py` 43 `Insn.ECALL`. -/
def ECALL : BitVec 32 := 0b00000000000000000000000001110011#32
/-- `insn.py` 45 `Insn.EBREAK`. -/
def EBREAK : BitVec 32 := 0b00000000000100000000000001110011#32
/-- `insn.py` 47 `Insn.MRET`. -/
def MRET : BitVec 32 := 0b00110000001000000000000001110011#32
/-- `insn.py` 49 `Insn.WFI`. -/
def WFI : BitVec 32 := 0b00010000010100000000000001110011#32

end Sentinel
