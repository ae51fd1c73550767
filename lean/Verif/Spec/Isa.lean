import Verif.Spec.Tree
/-!
# RV32I_Zicsr with machine-mode traps

An instruction-set specification written from the RISC-V manuals, independent of the core: the
architectural state, the instruction formats, and the effect of each instruction as an interaction
tree over the bus and the interrupt line.

`Cfg` selects between the instruction set as documented (`Cfg.isa`) and the two deviations the code
really has (`Cfg.asBuilt`); see DESIGN.md, deviations D1 and D2.
-/

namespace Sentinel.Spec

abbrev Word := BitVec 32
abbrev Reg := BitVec 5

/-! ## Architectural state -/

structure Arch where
  pc : Word
  /-- general-purpose registers; `x 0` is not used, see `Arch.reg` -/
  x : Reg → Word
  /-- mstatus.MIE -/
  mie : Bool
  /-- mstatus.MPIE -/
  mpie : Bool
  /-- mie.MEIE -/
  meie : Bool
  mtvec : Word
  mscratch : Word
  mepc : Word
  mcause : Word
  /-- Not architectural: has an interrupt been taken since reset?  Only read under
  `Cfg.asBuilt`. -/
  irqTaken : Bool

/-- Which deviations from the instruction set are in force. -/
structure Cfg where
  /-- D1: after the first interrupt, every later exception also sets bit 31 of mcause. -/
  stickyInterrupt : Bool
  /-- D2: the words 0x70, 0x71, 0x72 are reported as environment calls. -/
  ecallIgnoresLowBits : Bool

/-- The instruction set as documented. -/
def Cfg.isa : Cfg := ⟨false, false⟩
/-- The instruction set as the code implements it. -/
def Cfg.asBuilt : Cfg := ⟨true, true⟩

/-- Read a register: x0 is 0. -/
def Arch.reg (a : Arch) (r : Reg) : Word := if r = 0 then 0 else a.x r

/-- Write a register: writes to x0 are ignored. -/
def Arch.setReg (a : Arch) (r : Reg) (v : Word) : Arch :=
  if r = 0 then a else { a with x := fun q => if q = r then v else a.x q }

/-- Advance to the next instruction. -/
def Arch.next (a : Arch) : Arch := { a with pc := a.pc + 4 }

/-! ## Instructions -/

inductive AluOp | add | sub | sll | slt | sltu | xor | srl | sra | or | and
  deriving DecidableEq, Repr
inductive BrOp | beq | bne | blt | bge | bltu | bgeu
  deriving DecidableEq, Repr
inductive LdOp | lb | lh | lw | lbu | lhu
  deriving DecidableEq, Repr
inductive StOp | sb | sh | sw
  deriving DecidableEq, Repr
inductive CsrOp | rw | rs | rc
  deriving DecidableEq, Repr
/-- Source operand of a CSR instruction: a register, or a 5-bit immediate. -/
inductive CsrSrc | reg (r : Reg) | imm (u : BitVec 5)
  deriving DecidableEq, Repr

inductive Instr
  | lui (rd : Reg) (imm : BitVec 20)
  | auipc (rd : Reg) (imm : BitVec 20)
  /-- the offset is twice the 20-bit immediate -/
  | jal (rd : Reg) (imm : BitVec 20)
  | jalr (rd rs1 : Reg) (imm : BitVec 12)
  /-- the offset is twice the 12-bit immediate -/
  | branch (op : BrOp) (rs1 rs2 : Reg) (imm : BitVec 12)
  | load (op : LdOp) (rd rs1 : Reg) (imm : BitVec 12)
  | store (op : StOp) (rs1 rs2 : Reg) (imm : BitVec 12)
  /-- register-immediate arithmetic; for shifts only the low 5 bits of `imm` count -/
  | opImm (op : AluOp) (rd rs1 : Reg) (imm : BitVec 12)
  | op (op : AluOp) (rd rs1 rs2 : Reg)
  | fence | ecall | ebreak | mret | wfi
  | csr (op : CsrOp) (rd : Reg) (src : CsrSrc) (adr : BitVec 12)
  deriving DecidableEq, Repr

/-- Decoding, RISC-V unprivileged manual, "RV32/64G Instruction Set Listings"; privileged manual for
`mret` and `wfi`. -/
def decode (w : Word) : Option Instr :=
  let opc : BitVec 7 := w.extractLsb' 0 7
  let rd : Reg := w.extractLsb' 7 5
  let f3 : BitVec 3 := w.extractLsb' 12 3
  let rs1 : Reg := w.extractLsb' 15 5
  let rs2 : Reg := w.extractLsb' 20 5
  let f7 : BitVec 7 := w.extractLsb' 25 7
  let imm12 : BitVec 12 := w.extractLsb' 20 12
  let imm20 : BitVec 20 := w.extractLsb' 12 20
  let simm : BitVec 12 := w.extractLsb' 25 7 ++ w.extractLsb' 7 5
  let bimm : BitVec 12 :=
    w.extractLsb' 31 1 ++ w.extractLsb' 7 1 ++ w.extractLsb' 25 6 ++ w.extractLsb' 8 4
  let jimm : BitVec 20 :=
    w.extractLsb' 31 1 ++ w.extractLsb' 12 8 ++ w.extractLsb' 20 1 ++ w.extractLsb' 21 10
  if opc = 0b0110111#7 then some (.lui rd imm20)
  else if opc = 0b0010111#7 then some (.auipc rd imm20)
  else if opc = 0b1101111#7 then some (.jal rd jimm)
  else if opc = 0b1100111#7 then
    if f3 = 0b000#3 then some (.jalr rd rs1 imm12) else none
  else if opc = 0b1100011#7 then
    if f3 = 0b000#3 then some (.branch .beq rs1 rs2 bimm)
    else if f3 = 0b001#3 then some (.branch .bne rs1 rs2 bimm)
    else if f3 = 0b100#3 then some (.branch .blt rs1 rs2 bimm)
    else if f3 = 0b101#3 then some (.branch .bge rs1 rs2 bimm)
    else if f3 = 0b110#3 then some (.branch .bltu rs1 rs2 bimm)
    else if f3 = 0b111#3 then some (.branch .bgeu rs1 rs2 bimm)
    else none
  else if opc = 0b0000011#7 then
    if f3 = 0b000#3 then some (.load .lb rd rs1 imm12)
    else if f3 = 0b001#3 then some (.load .lh rd rs1 imm12)
    else if f3 = 0b010#3 then some (.load .lw rd rs1 imm12)
    else if f3 = 0b100#3 then some (.load .lbu rd rs1 imm12)
    else if f3 = 0b101#3 then some (.load .lhu rd rs1 imm12)
    else none
  else if opc = 0b0100011#7 then
    if f3 = 0b000#3 then some (.store .sb rs1 rs2 simm)
    else if f3 = 0b001#3 then some (.store .sh rs1 rs2 simm)
    else if f3 = 0b010#3 then some (.store .sw rs1 rs2 simm)
    else none
  else if opc = 0b0010011#7 then
    if f3 = 0b000#3 then some (.opImm .add rd rs1 imm12)
    else if f3 = 0b010#3 then some (.opImm .slt rd rs1 imm12)
    else if f3 = 0b011#3 then some (.opImm .sltu rd rs1 imm12)
    else if f3 = 0b100#3 then some (.opImm .xor rd rs1 imm12)
    else if f3 = 0b110#3 then some (.opImm .or rd rs1 imm12)
    else if f3 = 0b111#3 then some (.opImm .and rd rs1 imm12)
    else if f3 = 0b001#3 then
      if f7 = 0b0000000#7 then some (.opImm .sll rd rs1 imm12) else none
    else
      if f7 = 0b0000000#7 then some (.opImm .srl rd rs1 imm12)
      else if f7 = 0b0100000#7 then some (.opImm .sra rd rs1 imm12)
      else none
  else if opc = 0b0110011#7 then
    if f7 = 0b0000000#7 then
      if f3 = 0b000#3 then some (.op .add rd rs1 rs2)
      else if f3 = 0b001#3 then some (.op .sll rd rs1 rs2)
      else if f3 = 0b010#3 then some (.op .slt rd rs1 rs2)
      else if f3 = 0b011#3 then some (.op .sltu rd rs1 rs2)
      else if f3 = 0b100#3 then some (.op .xor rd rs1 rs2)
      else if f3 = 0b101#3 then some (.op .srl rd rs1 rs2)
      else if f3 = 0b110#3 then some (.op .or rd rs1 rs2)
      else some (.op .and rd rs1 rs2)
    else if f7 = 0b0100000#7 then
      if f3 = 0b000#3 then some (.op .sub rd rs1 rs2)
      else if f3 = 0b101#3 then some (.op .sra rd rs1 rs2)
      else none
    else none
  else if opc = 0b0001111#7 then
    if f3 = 0b000#3 then some .fence else none
  else if opc = 0b1110011#7 then
    if f3 = 0b000#3 then
      if w = 0x00000073#32 then some .ecall
      else if w = 0x00100073#32 then some .ebreak
      else if w = 0x30200073#32 then some .mret
      else if w = 0x10500073#32 then some .wfi
      else none
    else if f3 = 0b001#3 then some (.csr .rw rd (.reg rs1) imm12)
    else if f3 = 0b010#3 then some (.csr .rs rd (.reg rs1) imm12)
    else if f3 = 0b011#3 then some (.csr .rc rd (.reg rs1) imm12)
    else if f3 = 0b101#3 then some (.csr .rw rd (.imm rs1) imm12)
    else if f3 = 0b110#3 then some (.csr .rs rd (.imm rs1) imm12)
    else if f3 = 0b111#3 then some (.csr .rc rd (.imm rs1) imm12)
    else none
  else none

/-! ## Arithmetic -/

/-- The RV32I integer operations; shifts use the low five bits of the second operand. -/
def alu (op : AluOp) (x y : Word) : Word :=
  match op with
  | .add => x + y
  | .sub => x - y
  | .sll => x <<< (y.toNat % 32)
  | .srl => x >>> (y.toNat % 32)
  | .sra => x.sshiftRight (y.toNat % 32)
  | .slt => if x.toInt < y.toInt then 1 else 0
  | .sltu => if x.toNat < y.toNat then 1 else 0
  | .xor => x ^^^ y
  | .or => x ||| y
  | .and => x &&& y

/-- The branch conditions. -/
def brTaken (op : BrOp) (x y : Word) : Bool :=
  match op with
  | .beq => x = y
  | .bne => !(x = y)
  | .blt => x.toInt < y.toInt
  | .bge => x.toInt ≥ y.toInt
  | .bltu => x.toNat < y.toNat
  | .bgeu => x.toNat ≥ y.toNat

/-! ## Memory accesses on a 32-bit little-endian bus with byte lanes -/

/-- Number of bytes accessed. -/
def LdOp.size : LdOp → Nat
  | .lb => 1 | .lbu => 1 | .lh => 2 | .lhu => 2 | .lw => 4
/-- Number of bytes accessed. -/
def StOp.size : StOp → Nat
  | .sb => 1 | .sh => 2 | .sw => 4

/-- Is a byte address a multiple of the access size? -/
def aligned (adr : Word) (size : Nat) : Bool := adr.toNat % size = 0

/-- Word address of a byte address. -/
def wordAdr (adr : Word) : BitVec 30 := adr.extractLsb' 2 30
/-- Byte lane of a byte address. -/
def lane (adr : Word) : Nat := adr.toNat % 4

/-- Byte lanes of an aligned access: `size` lanes starting at the lane of the address. -/
def lanes (adr : Word) (size : Nat) : BitVec 4 := BitVec.ofNat 4 ((2 ^ size - 1) * 2 ^ lane adr)

/-- Read request of an aligned access. -/
def readReq (adr : Word) (size : Nat) : Req := ⟨wordAdr adr, lanes adr size, false, 0⟩

/-- Write request of an aligned access: the low `size` bytes of `v` on the selected lanes. -/
def writeReq (adr : Word) (size : Nat) (v : Word) : Req :=
  ⟨wordAdr adr, lanes adr size, true,
    BitVec.ofNat 32 (v.toNat % 2 ^ (8 * size)) <<< (8 * lane adr)⟩

/-- Value loaded from the bus data word `d`. -/
def loadValue (op : LdOp) (adr d : Word) : Word :=
  let v : Word := d >>> (8 * lane adr)
  match op with
  | .lb => (v.extractLsb' 0 8).signExtend 32
  | .lbu => (v.extractLsb' 0 8).setWidth 32
  | .lh => (v.extractLsb' 0 16).signExtend 32
  | .lhu => (v.extractLsb' 0 16).setWidth 32
  | .lw => v

/-! ## Traps -/

/-- Trap entry: `interrupt` and `cause` go to mcause. -/
def Arch.trap (cfg : Cfg) (a : Arch) (interrupt : Bool) (cause : BitVec 31) : Arch :=
  let hi := interrupt || (cfg.stickyInterrupt && a.irqTaken)
  { a with
    pc := a.mtvec
    mepc := a.pc
    mcause := BitVec.ofBool hi ++ cause
    mpie := a.mie
    mie := false
    irqTaken := a.irqTaken || interrupt }

/-- Machine external interrupt. -/
def Arch.takeInterrupt (cfg : Cfg) (a : Arch) : Arch := a.trap cfg true 11
/-- Synchronous exception. -/
def Arch.exception (cfg : Cfg) (a : Arch) (cause : BitVec 31) : Arch := a.trap cfg false cause

/-- Interrupts are enabled. -/
def Arch.intEnabled (a : Arch) : Bool := a.mie && a.meie

/-! ## Control and status registers -/

/-- The CSRs that hold state. -/
inductive Csr | mstatus | mie | mtvec | mscratch | mepc | mcause | mip
  deriving DecidableEq, Repr

/-- Every CSR address is one of these. -/
inductive CsrKind | impl (c : Csr) | zero | absent
  deriving DecidableEq, Repr

/-- CSR address map (README / `doc`: implemented registers, registers that read as zero, and
everything else absent). -/
def csrKind (adr : BitVec 12) : CsrKind :=
  if adr = 0x300#12 then .impl .mstatus
  else if adr = 0x304#12 then .impl .mie
  else if adr = 0x305#12 then .impl .mtvec
  else if adr = 0x340#12 then .impl .mscratch
  else if adr = 0x341#12 then .impl .mepc
  else if adr = 0x342#12 then .impl .mcause
  else if adr = 0x344#12 then .impl .mip
  -- misa, mstatush, mcountinhibit, mtval
  else if adr = 0x301#12 ∨ adr = 0x310#12 ∨ adr = 0x320#12 ∨ adr = 0x343#12 then .zero
  -- mhpmevent3..31
  else if 0x323#12 ≤ adr ∧ adr ≤ 0x33F#12 then .zero
  -- mcycle, minstret, mhpmcounter3..31 and their upper halves
  else if adr = 0xB00#12 ∨ (0xB02#12 ≤ adr ∧ adr ≤ 0xB1F#12) then .zero
  else if adr = 0xB80#12 ∨ (0xB82#12 ≤ adr ∧ adr ≤ 0xB9F#12) then .zero
  -- mvendorid, marchid, mimpid, mhartid, mconfigptr
  else if 0xF11#12 ≤ adr ∧ adr ≤ 0xF15#12 then .zero
  else .absent

/-- Addresses with the top two bits set are read-only. -/
def csrReadOnly (adr : BitVec 12) : Bool := adr.extractLsb' 10 2 = 3#2

/-- Value of a CSR when read; `irq` is the interrupt line. -/
def Arch.csrRead (a : Arch) (irq : Bool) : Csr → Word
  | .mstatus => (if a.mie then 0x8 else 0) ||| (if a.mpie then 0x80 else 0) ||| 0x1800
  | .mie => if a.meie then 0x800 else 0
  | .mtvec => a.mtvec
  | .mscratch => a.mscratch
  | .mepc => a.mepc
  | .mcause => a.mcause
  | .mip => if irq then 0x800 else 0

/-- Effect of writing a CSR. -/
def Arch.csrWrite (a : Arch) (v : Word) : Csr → Arch
  | .mstatus => { a with mie := v.getLsbD 3, mpie := v.getLsbD 7 }
  | .mie => { a with meie := v.getLsbD 11 }
  | .mtvec => { a with mtvec := v &&& ~~~3#32 }
  | .mscratch => { a with mscratch := v }
  | .mepc => { a with mepc := v &&& ~~~3#32 }
  | .mcause => { a with mcause := v }
  | .mip => a

/-- Value of the source operand. -/
def Arch.csrOperand (a : Arch) : CsrSrc → Word
  | .reg r => a.reg r
  | .imm u => u.setWidth 32

/-- Does the instruction write the CSR?  `rs`/`rc` with source field 0 do not. -/
def csrWrites (op : CsrOp) (src : CsrSrc) : Bool :=
  match op, src with
  | .rw, _ => true
  | _, .reg r => !(r = 0)
  | _, .imm u => !(u = 0)

/-- Does the instruction read the CSR?  `rw` with `rd` = x0 does not. -/
def csrReads (op : CsrOp) (rd : Reg) : Bool := !(op = .rw && rd = 0)

/-- New value of the CSR. -/
def csrNew (op : CsrOp) (old v : Word) : Word :=
  match op with
  | .rw => v
  | .rs => old ||| v
  | .rc => old &&& ~~~v

/-- A CSR instruction on an implemented CSR.  Reading mip samples the interrupt line; the core does
so twice (the second sample is not used) when it clears bits in mip. -/
def execCsr (a : Arch) (op : CsrOp) (rd : Reg) (src : CsrSrc) (c : Csr) : Tree Arch :=
  let finish (old : Word) : Arch :=
    let a' := a.setReg rd old
    (if csrWrites op src then a'.csrWrite (csrNew op old (a.csrOperand src)) c else a').next
  if c = .mip ∧ csrReads op rd then
    .poll fun irq =>
      if op = .rc ∧ csrWrites op src then .poll fun _ => .ret (finish (a.csrRead irq c))
      else .ret (finish (a.csrRead irq c))
  else .ret (finish (a.csrRead false c))

/-! ## Execution -/

/-- Is a jump target a multiple of 4? -/
def targetOk (t : Word) : Bool := aligned t 4

/-- Cause of the exception for a word that is not an instruction: illegal instruction. -/
def illegalCause (cfg : Cfg) (w : Word) : BitVec 31 :=
  if cfg.ecallIgnoresLowBits ∧ (w = 0x70#32 ∨ w = 0x71#32 ∨ w = 0x72#32) then 11 else 2

/-- Execute one decoded instruction. -/
def execInstr (cfg : Cfg) (a : Arch) : Instr → Tree Arch
  | .lui rd imm => .ret (a.setReg rd (imm ++ 0#12)).next
  | .auipc rd imm => .ret (a.setReg rd (a.pc + (imm ++ 0#12))).next
  | .jal rd imm =>
    let t := a.pc + ((imm ++ 0#1 : BitVec 21).signExtend 32)
    if targetOk t then .ret { a.setReg rd (a.pc + 4) with pc := t }
    else .ret (a.exception cfg 0)
  | .jalr rd rs1 imm =>
    let t := (a.reg rs1 + imm.signExtend 32) &&& ~~~1#32
    if targetOk t then .ret { a.setReg rd (a.pc + 4) with pc := t }
    else .ret (a.exception cfg 0)
  | .branch op rs1 rs2 imm =>
    if brTaken op (a.reg rs1) (a.reg rs2) then
      let t := a.pc + ((imm ++ 0#1 : BitVec 13).signExtend 32)
      if targetOk t then .ret { a with pc := t } else .ret (a.exception cfg 0)
    else .ret a.next
  | .load op rd rs1 imm =>
    let adr := a.reg rs1 + imm.signExtend 32
    if aligned adr op.size then
      .bus (readReq adr op.size) fun d => .ret (a.setReg rd (loadValue op adr d)).next
    else .ret (a.exception cfg 4)
  | .store op rs1 rs2 imm =>
    let adr := a.reg rs1 + imm.signExtend 32
    if aligned adr op.size then
      .bus (writeReq adr op.size (a.reg rs2)) fun _ => .ret a.next
    else .ret (a.exception cfg 6)
  | .opImm op rd rs1 imm => .ret (a.setReg rd (alu op (a.reg rs1) (imm.signExtend 32))).next
  | .op op rd rs1 rs2 => .ret (a.setReg rd (alu op (a.reg rs1) (a.reg rs2))).next
  | .fence => .ret a.next
  | .wfi => .ret a.next
  | .ecall => .ret (a.exception cfg 11)
  | .ebreak => .ret (a.exception cfg 3)
  | .mret => .ret { a with pc := a.mepc, mie := a.mpie, mpie := true }
  | .csr op rd src adr =>
    -- CSR instructions sample the interrupt line once more before taking effect
    .poll fun irq =>
      if irq && a.intEnabled then .ret (a.takeInterrupt cfg)
      else match csrKind adr with
        | .absent => .ret (a.exception cfg 2)
        | .zero =>
          if csrReadOnly adr ∧ csrWrites op src then .ret (a.exception cfg 2)
          else .ret (a.setReg rd 0).next
        | .impl c => execCsr a op rd src c

/-- Execute the fetched word `w`: sample the interrupt line, then take the interrupt or execute. -/
def exec (cfg : Cfg) (a : Arch) (w : Word) : Tree Arch :=
  .poll fun irq =>
    if irq && a.intEnabled then .ret (a.takeInterrupt cfg)
    else match decode w with
      | none => .ret (a.exception cfg (illegalCause cfg w))
      | some ins => execInstr cfg a ins

/-- Instruction fetch: a word read at the program counter. -/
def fetchReq (a : Arch) : Req := ⟨wordAdr a.pc, 0xF, false, 0⟩

/-- Fetch and hand over to execution. -/
def fetch (a : Arch) : Tree (Arch × Word) := .bus (fetchReq a) fun w => .ret (a, w)

/-- One instruction: execute the word that was fetched, then fetch the next one. -/
def cycle (cfg : Cfg) (aw : Arch × Word) : Tree (Arch × Word) := (exec cfg aw.1 aw.2).bind fetch

end Sentinel.Spec
