import Verif.Spec.Isa
/-!
# The instruction models and checks of RISC-V Formal

What `tests/formal` of the repo runs to a bounded depth: for every instruction of RV32I a model that says, from the reported word,
the reported source operands and the reported program counter, what else the report must contain.  Written as RISC-V Formal
(`insns/insn_*.v`, `checks/rvfi_insn_check.sv`, `checks/rvfi_csrw_check.sv`, with `RISCV_FORMAL_ALIGNED_MEM`) has it: bit fields of the word,
operations on words; nothing here uses the decoder or the arithmetic of `Spec/Isa.lean`, nor the model of the core.
-/

namespace Sentinel.RvFormal

open Spec (Csr)

abbrev Word := BitVec 32
abbrev Reg := BitVec 5

/-- The report about a CSR. -/
structure CsrReport where
  rmask : Word
  wmask : Word
  rdata : Word
  wdata : Word

/-- What an RVFI port presents in a cycle with `valid`. -/
structure Report where
  insn : Word
  trap : Bool
  halt : Bool
  intr : Bool
  mode : BitVec 2
  ixl : BitVec 2
  rs1Addr : Reg
  rs2Addr : Reg
  rs1Rdata : Word
  rs2Rdata : Word
  rdAddr : Reg
  rdWdata : Word
  pcRdata : Word
  pcWdata : Word
  memAddr : Word
  memRmask : BitVec 4
  memWmask : BitVec 4
  memRdata : Word
  memWdata : Word
  csr : Csr → CsrReport

namespace Report
variable (v : Report)

def opcode : BitVec 7 := v.insn.extractLsb' 0 7
def rd : Reg := v.insn.extractLsb' 7 5
def funct3 : BitVec 3 := v.insn.extractLsb' 12 3
def rs1 : Reg := v.insn.extractLsb' 15 5
def rs2 : Reg := v.insn.extractLsb' 20 5
def funct7 : BitVec 7 := v.insn.extractLsb' 25 7
def immI : Word := (v.insn.extractLsb' 20 12).signExtend 32
def immS : Word := (v.insn.extractLsb' 25 7 ++ v.insn.extractLsb' 7 5 : BitVec 12).signExtend 32
def immU : Word := v.insn.extractLsb' 12 20 ++ 0#12
def immB : Word :=
  (v.insn.extractLsb' 31 1 ++ v.insn.extractLsb' 7 1 ++ v.insn.extractLsb' 25 6 ++ v.insn.extractLsb' 8 4 ++ 0#1 : BitVec 13).signExtend 32
def immJ : Word :=
  (v.insn.extractLsb' 31 1 ++ v.insn.extractLsb' 12 8 ++ v.insn.extractLsb' 20 1 ++ v.insn.extractLsb' 21 10 ++ 0#1 : BitVec 21).signExtend 32

/-- A result as it is reported: 0 if the destination is x0. -/
def toRd (x : Word) : Word := if v.rd = 0 then 0 else x

end Report

/-- What a model expects of a report. -/
structure Expect where
  trap : Bool := false
  rs1Addr : Reg := 0
  rs2Addr : Reg := 0
  rdAddr : Reg := 0
  rdWdata : Word := 0
  pcWdata : Word
  memAddr : Word := 0
  memRmask : BitVec 4 := 0
  memWmask : BitVec 4 := 0
  memWdata : Word := 0

/-- The model of an instruction: which words it is about, and what the report must say. -/
structure Model where
  name : String
  sel : Report → Bool
  expect : Report → Expect

/-- Two registers to a register. -/
def rType (name : String) (f7 : BitVec 7) (f3 : BitVec 3) (f : Word → Word → Word) : Model :=
  { name
    sel := fun v => v.opcode = 0b0110011#7 && v.funct3 = f3 && v.funct7 = f7
    expect := fun v => { rs1Addr := v.rs1, rs2Addr := v.rs2, rdAddr := v.rd
                         rdWdata := v.toRd (f v.rs1Rdata v.rs2Rdata), pcWdata := v.pcRdata + 4 } }

/-- Register and immediate to a register. -/
def iType (name : String) (f3 : BitVec 3) (f : Word → Word → Word) : Model :=
  { name
    sel := fun v => v.opcode = 0b0010011#7 && v.funct3 = f3
    expect := fun v => { rs1Addr := v.rs1, rdAddr := v.rd
                         rdWdata := v.toRd (f v.rs1Rdata v.immI), pcWdata := v.pcRdata + 4 } }

/-- Shift by a constant. -/
def shType (name : String) (f7 : BitVec 7) (f3 : BitVec 3) (f : Word → BitVec 5 → Word) : Model :=
  { name
    sel := fun v => v.opcode = 0b0010011#7 && v.funct3 = f3 && v.funct7 = f7
    expect := fun v => { rs1Addr := v.rs1, rdAddr := v.rd
                         rdWdata := v.toRd (f v.rs1Rdata v.rs2), pcWdata := v.pcRdata + 4 } }

/-- Branch. -/
def bType (name : String) (f3 : BitVec 3) (c : Word → Word → Bool) : Model :=
  { name
    sel := fun v => v.opcode = 0b1100011#7 && v.funct3 = f3
    expect := fun v =>
      let next := if c v.rs1Rdata v.rs2Rdata then v.pcRdata + v.immB else v.pcRdata + 4
      { rs1Addr := v.rs1, rs2Addr := v.rs2, pcWdata := next, trap := next &&& 3 ≠ 0 } }

/-- The byte lanes of an access to `size` bytes, `off` bytes into the word. -/
def lanesAt (size : Nat) (off : Word) : BitVec 4 := (BitVec.ofNat 4 (2 ^ size - 1)) <<< off

/-- Load of `size` bytes, extended by `ext`. -/
def lType (name : String) (f3 : BitVec 3) (size : Nat) (ext : Word → Word) : Model :=
  { name
    sel := fun v => v.opcode = 0b0000011#7 && v.funct3 = f3
    expect := fun v =>
      let addr := v.rs1Rdata + v.immI
      let word := addr &&& ~~~3
      { rs1Addr := v.rs1, rdAddr := v.rd
        rdWdata := v.toRd (ext (v.memRdata >>> (8 * (addr - word)))), pcWdata := v.pcRdata + 4
        memAddr := word, memRmask := lanesAt size (addr - word)
        trap := addr &&& (BitVec.ofNat 32 size - 1) ≠ 0 } }

/-- Store of `size` bytes. -/
def sType (name : String) (f3 : BitVec 3) (size : Nat) : Model :=
  { name
    sel := fun v => v.opcode = 0b0100011#7 && v.funct3 = f3
    expect := fun v =>
      let addr := v.rs1Rdata + v.immS
      let word := addr &&& ~~~3
      { rs1Addr := v.rs1, rs2Addr := v.rs2, pcWdata := v.pcRdata + 4
        memAddr := word, memWmask := lanesAt size (addr - word), memWdata := v.rs2Rdata <<< (8 * (addr - word))
        trap := addr &&& (BitVec.ofNat 32 size - 1) ≠ 0 } }

/-- The models of the 37 instructions of RV32I. -/
def models : List Model :=
  [ { name := "lui"
      sel := fun v => v.opcode = 0b0110111#7
      expect := fun v => { rdAddr := v.rd, rdWdata := v.toRd v.immU, pcWdata := v.pcRdata + 4 } },
    { name := "auipc"
      sel := fun v => v.opcode = 0b0010111#7
      expect := fun v => { rdAddr := v.rd, rdWdata := v.toRd (v.pcRdata + v.immU), pcWdata := v.pcRdata + 4 } },
    { name := "jal"
      sel := fun v => v.opcode = 0b1101111#7
      expect := fun v =>
        let next := v.pcRdata + v.immJ
        { rdAddr := v.rd, rdWdata := v.toRd (v.pcRdata + 4), pcWdata := next, trap := next &&& 3 ≠ 0 } },
    { name := "jalr"
      sel := fun v => v.opcode = 0b1100111#7 && v.funct3 = 0b000#3
      expect := fun v =>
        let next := (v.rs1Rdata + v.immI) &&& ~~~1
        { rs1Addr := v.rs1, rdAddr := v.rd, rdWdata := v.toRd (v.pcRdata + 4), pcWdata := next, trap := next &&& 3 ≠ 0 } },
    bType "beq" 0b000#3 (fun x y => x == y),
    bType "bne" 0b001#3 (fun x y => x != y),
    bType "blt" 0b100#3 (fun x y => x.slt y),
    bType "bge" 0b101#3 (fun x y => y.sle x),
    bType "bltu" 0b110#3 (fun x y => x.ult y),
    bType "bgeu" 0b111#3 (fun x y => y.ule x),
    lType "lb" 0b000#3 1 (fun x => (x.setWidth 8).signExtend 32),
    lType "lh" 0b001#3 2 (fun x => (x.setWidth 16).signExtend 32),
    lType "lw" 0b010#3 4 (fun x => x),
    lType "lbu" 0b100#3 1 (fun x => (x.setWidth 8).setWidth 32),
    lType "lhu" 0b101#3 2 (fun x => (x.setWidth 16).setWidth 32),
    sType "sb" 0b000#3 1,
    sType "sh" 0b001#3 2,
    sType "sw" 0b010#3 4,
    iType "addi" 0b000#3 (fun x y => x + y),
    iType "slti" 0b010#3 (fun x y => if x.slt y then 1 else 0),
    iType "sltiu" 0b011#3 (fun x y => if x.ult y then 1 else 0),
    iType "xori" 0b100#3 (fun x y => x ^^^ y),
    iType "ori" 0b110#3 (fun x y => x ||| y),
    iType "andi" 0b111#3 (fun x y => x &&& y),
    shType "slli" 0b0000000#7 0b001#3 (fun x n => x <<< n),
    shType "srli" 0b0000000#7 0b101#3 (fun x n => x >>> n),
    shType "srai" 0b0100000#7 0b101#3 (fun x n => x.sshiftRight' n),
    rType "add" 0b0000000#7 0b000#3 (fun x y => x + y),
    rType "sub" 0b0100000#7 0b000#3 (fun x y => x - y),
    rType "sll" 0b0000000#7 0b001#3 (fun x y => x <<< y.setWidth 5),
    rType "slt" 0b0000000#7 0b010#3 (fun x y => if x.slt y then 1 else 0),
    rType "sltu" 0b0000000#7 0b011#3 (fun x y => if x.ult y then 1 else 0),
    rType "xor" 0b0000000#7 0b100#3 (fun x y => x ^^^ y),
    rType "srl" 0b0000000#7 0b101#3 (fun x y => x >>> y.setWidth 5),
    rType "sra" 0b0100000#7 0b101#3 (fun x y => x.sshiftRight' (y.setWidth 5)),
    rType "or" 0b0000000#7 0b110#3 (fun x y => x ||| y),
    rType "and" 0b0000000#7 0b111#3 (fun x y => x &&& y) ]

/-- The bytes of `a` and `b` agree on the lanes `l`. -/
def SameBytes (l : BitVec 4) (a b : Word) : Prop :=
  ∀ i, i < 4 → l.getLsbD i = true → a.extractLsb' (8 * i) 8 = b.extractLsb' (8 * i) 8

/-- The instruction check: `rvfi_insn_check.sv`.  (It also lets a core report more lanes than the model; here the masks must be equal.) -/
structure InsnCheck (v : Report) (e : Expect) : Prop where
  rs1Zero : v.rs1Addr = 0 → v.rs1Rdata = 0
  rs2Zero : v.rs2Addr = 0 → v.rs2Rdata = 0
  trap : v.trap = e.trap
  rs1 : e.trap = false → e.rs1Addr ≠ 0 → v.rs1Addr = e.rs1Addr
  rs2 : e.trap = false → e.rs2Addr ≠ 0 → v.rs2Addr = e.rs2Addr
  rd : e.trap = false → v.rdAddr = e.rdAddr ∧ v.rdWdata = e.rdWdata
  pc : e.trap = false → v.pcWdata = e.pcWdata
  masks : e.trap = false → v.memRmask = e.memRmask ∧ v.memWmask = e.memWmask
  adr : e.trap = false → e.memRmask ≠ 0 ∨ e.memWmask ≠ 0 → v.memAddr = e.memAddr
  data : e.trap = false → SameBytes e.memWmask v.memWdata e.memWdata

/-! ## CSR instructions -/

/-- The word is a CSR instruction. -/
def Report.isCsr (v : Report) : Bool := v.opcode = 0b1110011#7 && (v.funct3 &&& 3 != 0)
/-- The CSR it names. -/
def Report.csrAddr (v : Report) : BitVec 12 := v.insn.extractLsb' 20 12
/-- The operand: the register, or the five bits of the field. -/
def Report.csrArg (v : Report) : Word := if v.funct3.getLsbD 2 then v.rs1.setWidth 32 else v.rs1Rdata
/-- The bits it sets in the CSR: `csrrw` those of the operand, `csrrs` too, `csrrc` none. -/
def Report.csrSet (v : Report) : Word := if v.funct3.setWidth 2 = 3#2 then 0 else v.csrArg
/-- The bits it clears in the CSR: `csrrw` those that the operand does not have, `csrrs` none, `csrrc` those of the operand. -/
def Report.csrClear (v : Report) : Word :=
  if v.funct3.setWidth 2 = 1#2 then ~~~ v.csrArg else if v.funct3.setWidth 2 = 3#2 then v.csrArg else 0
/-- Does it write?  `csrrs` and `csrrc` with a field of 0 do not. -/
def Report.csrDoesWrite (v : Report) : Bool := v.funct3.setWidth 2 = 1#2 || v.rs1 != 0

/-- The address of a CSR that holds state. -/
def addrOf : Csr → BitVec 12
  | .mstatus => 0x300 | .mie => 0x304 | .mtvec => 0x305 | .mscratch => 0x340 | .mepc => 0x341 | .mcause => 0x342 | .mip => 0x344

/-- The bits that a CSR has (`checks.cfg`, section csrs). -/
def bitsOf : Csr → Word
  | .mstatus => 0x88 | .mie => 0x800 | .mtvec => 0xFFFFFFFC | .mscratch => 0xFFFFFFFF | .mepc => 0xFFFFFFFC | .mcause => 0xFFFFFFFF
  | .mip => 0

/-- What every CSR instruction that does not trap reports. -/
structure CsrCommon (v : Report) : Prop where
  rs1 : v.rs1Addr = v.rs1
  rd : v.rdAddr = v.rd
  pc : v.pcWdata = v.pcRdata + 4
  masks : v.memRmask = 0 ∧ v.memWmask = 0

/-- The check of an access to a CSR: `rvfi_csrw_check.sv`.  The old value goes to the destination; of the bits that the CSR has, those
to be set are set in what is reported as written, and those to be cleared are clear. -/
structure CsrwCheck (v : Report) (c : Csr) : Prop where
  common : CsrCommon v
  old : c ≠ .mip → v.rdWdata = v.toRd (v.csr c).rdata
  set : v.csrDoesWrite = true → v.csrSet &&& ~~~ (v.csr c).wdata &&& bitsOf c = 0
  clear : v.csrDoesWrite = true → v.csrClear &&& (v.csr c).wdata &&& bitsOf c = 0
  keep : v.csrDoesWrite = true → c ≠ .mip →
    ((v.csr c).wdata ^^^ (v.csr c).rdata) &&& ~~~ (v.csrSet ||| v.csrClear) &&& bitsOf c = 0

/-- The same for a CSR that reads as zero, of which the port shows `p`: all bits are checked, and a bit that is to be set or cleared
has to be in the write mask. -/
structure CsrwZeroCheck (v : Report) (p : CsrReport) : Prop where
  common : CsrCommon v
  read : p.rmask = 0xFFFFFFFF ∧ p.rdata = 0
  old : v.rdWdata = v.toRd p.rdata
  mask : v.csrDoesWrite = true → (v.csrSet ||| v.csrClear) &&& ~~~ p.wmask = 0
  set : v.csrDoesWrite = true → v.csrSet &&& ~~~ p.wdata = 0
  clear : v.csrDoesWrite = true → v.csrClear &&& p.wdata = 0
  keep : v.csrDoesWrite = true → (p.wdata ^^^ p.rdata) &&& ~~~ (v.csrSet ||| v.csrClear) = 0

/-- The check of an access to a CSR that must not be accessed: `rvfi_csr_ill_check.sv`. -/
structure CsrIllCheck (v : Report) : Prop where
  trap : v.trap = true
  rd : v.rdAddr = 0 ∧ v.rdWdata = 0
  masks : v.memRmask = 0 ∧ v.memWmask = 0

end Sentinel.RvFormal
