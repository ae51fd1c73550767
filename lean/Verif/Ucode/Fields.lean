/-!
# Microcode word

Models `src/sentinel/ucodefields.py` (enum classes and one-bit shapes) and the `fields block_ram`
declaration of `src/sentinel/microcode.asm` lines 14-91 (order, enum members, defaults).

The structure `UInsn` is a microinstruction with its fields split out, as `UCodeROM.fields` presents
it (`ucoderom.py` 180-193).  Simplification: each enum field is a Lean enumeration, so the bit
patterns that no enum member has (`pc_action` = 3, `a_src` = 7, `alu_op` = 9..15, `alu_o_mod` = 3,
`csr_op` = 3, `except_ctl` = 7) are not representable.  `Verif/Ucode/Encode.lean` proves that every
`UInsn` survives the 48-bit encoding.
-/

namespace Sentinel

/-- `ucodefields.py` 28-51 `JmpType`; `cont` and `nop` are both 0 (microcode.asm 30). -/
inductive JmpType | cont | map | direct | directZero
  deriving DecidableEq, Repr, Inhabited

/-- `ucodefields.py` 82-109 `CondTest`. -/
inductive CondTest | exception | cmpAluOZero | memValid | true_
  deriving DecidableEq, Repr, Inhabited

/-- `ucodefields.py` 117-126 `PcAction`. -/
inductive PcAction | hold | inc | loadAluO
  deriving DecidableEq, Repr, Inhabited

/-- `ucodefields.py` 138-161 `ASrc`. -/
inductive ASrc | gp | imm | aluO | zero | four | negOne | thirtyOne
  deriving DecidableEq, Repr, Inhabited

/-- `ucodefields.py` 164-195 `BSrc`. -/
inductive BSrc | gp | pc | imm | one | datR | csrImm | csr | mcauseLatch
  deriving DecidableEq, Repr, Inhabited

/-- `ucodefields.py` 54-79 `OpType`. -/
inductive OpType | add | sub | and | or | xor | sll | srl | sra | cmpLtu
  deriving DecidableEq, Repr, Inhabited

/-- `ucodefields.py` 198-216 `ALUIMod`. -/
inductive ALUIMod | none | invMsbAB
  deriving DecidableEq, Repr, Inhabited

/-- `ucodefields.py` 219-237 `ALUOMod`. -/
inductive ALUOMod | none | invLsbO | clearLsbO
  deriving DecidableEq, Repr, Inhabited

/-- `ucodefields.py` 281-292 `RegRSel`. -/
inductive RegRSel | rs1 | rs2
  deriving DecidableEq, Repr, Inhabited

/-- `ucodefields.py` 295-308 `RegWSel`. -/
inductive RegWSel | rd | zero
  deriving DecidableEq, Repr, Inhabited

/-- `ucodefields.py` 311-327 `CSROp`. -/
inductive CSROp | none | readCsr | writeCsr
  deriving DecidableEq, Repr, Inhabited

/-- `ucodefields.py` 330-347 `CSRSel`. -/
inductive CSRSel | insnCsr | trgCsr
  deriving DecidableEq, Repr, Inhabited

/-- `ucodefields.py` 360-380 `MemSel`. -/
inductive MemSel | auto | byte | hword | word
  deriving DecidableEq, Repr, Inhabited

/-- `ucodefields.py` 383-406 `MemExtend`. -/
inductive MemExtend | zero | sign
  deriving DecidableEq, Repr, Inhabited

/-- `ucodefields.py` 440-465 `ExceptCtl`. -/
inductive ExceptCtl
  | none | latchDecoder | latchJal | latchStoreAdr | latchLoadAdr | enterInt | leaveInt
  deriving DecidableEq, Repr, Inhabited

/-- One microinstruction.  Field order and defaults: `microcode.asm` 14-91. -/
structure UInsn where
  target     : BitVec 8  := 0
  jmpType    : JmpType   := .cont
  condTest   : CondTest  := .true_
  invertTest : Bool      := false
  pcAction   : PcAction  := .hold
  latchA     : Bool      := false
  latchB     : Bool      := false
  aSrc       : ASrc      := .gp
  bSrc       : BSrc      := .gp
  aluOp      : OpType    := .add
  aluIMod    : ALUIMod   := .none
  aluOMod    : ALUOMod   := .none
  regRead    : Bool      := false
  regWrite   : Bool      := false
  regRSel    : RegRSel   := .rs1
  regWSel    : RegWSel   := .rd
  csrOp      : CSROp     := .none
  csrSel     : CSRSel    := .insnCsr
  memReq     : Bool      := false
  memSel     : MemSel    := .auto
  memExtend  : MemExtend := .zero
  latchAdr   : Bool      := false
  latchData  : Bool      := false
  writeMem   : Bool      := false
  insnFetch  : Bool      := false
  exceptCtl  : ExceptCtl := .none
  deriving DecidableEq, Repr

/-- A location the assembler did not fill reads as the all-zero word (`ucoderom.py` 243-252
`_create_mem_init`), whose `cond_test` is 0 = `exception`, unlike the default of a written
microinstruction. -/
def UInsn.hole : UInsn := { condTest := .exception }

instance : Inhabited UInsn := ⟨UInsn.hole⟩

end Sentinel
