import Verif.Ucode.Fields
import Verif.Core.Align
/-!
# ALU and its source multiplexers — `src/sentinel/alu.py`
-/

namespace Sentinel

/-- `alu.py` 341-353: with `INV_MSB_A_B` the most significant bit of an operand is inverted. -/
def modIn (m : ALUIMod) (x : BitVec 32) : BitVec 32 :=
  match m with
  | .none => x
  | .invMsbAB => x ^^^ 0x80000000#32

/-- `alu.py` 322, 355-360: the subtractor is one bit wider than its operands. -/
def subUnit (a b : BitVec 32) : BitVec 33 := a.setWidth 33 - b.setWidth 33

/-- `alu.py` 320-328, 362-380: the operation multiplexer `o_mux`. -/
def oMux (op : OpType) (a b : BitVec 32) : BitVec 32 :=
  match op with
  | .add => a + b
  | .sub => (subUnit a b).setWidth 32
  | .and => a &&& b
  | .or => a ||| b
  | .xor => a ^^^ b
  | .sll => a <<< 1
  | .srl => a >>> 1
  | .sra => a.sshiftRight 1
  | .cmpLtu => (BitVec.ofBool ((subUnit a b).getLsbD 32)).setWidth 32

/-- `alu.py` 382-386: the value latched in `o`, after the output modifier on bit 0. -/
def modOut (m : ALUOMod) (o : BitVec 32) : BitVec 32 :=
  match m with
  | .none => o
  | .invLsbO => o ^^^ 1#32
  | .clearLsbO => o &&& ~~~1#32

/-- `alu.py` 330-386: next value of the ALU output register. -/
def aluNext (op : OpType) (im : ALUIMod) (om : ALUOMod) (a b : BitVec 32) : BitVec 32 :=
  modOut om (oMux op (modIn im a) (modIn im b))

/-- `alu.py` 389: the `zero` flag, a function of the registered output. -/
def aluZero (o : BitVec 32) : Bool := o == 0#32

/-- `alu.py` 41-61 `ASrcMux`: next value of the A operand register. -/
def aNext (latch : Bool) (sel : ASrc) (gp imm alu old : BitVec 32) : BitVec 32 :=
  if latch then
    match sel with
    | .gp => gp
    | .imm => imm
    | .zero => 0#32
    | .aluO => alu
    | .four => 4#32
    | .negOne => 0xFFFFFFFF#32
    | .thirtyOne => 31#32
  else old

/-- `alu.py` 139-170 `BSrcMux`: next value of the B operand register.
`pc` is the 30-bit program counter, `csrImm` the 5-bit `src_a` field, `mcause` the exception
latch. -/
def bNext (latch : Bool) (sel : BSrc) (memSel : MemSel) (ext : MemExtend)
    (dataAdr gp imm datR csr mcause : BitVec 32) (pc : BitVec 30) (csrImm : BitVec 5)
    (old : BitVec 32) : BitVec 32 :=
  if latch then
    match sel with
    | .gp => gp
    | .imm => imm
    | .one => 1#32
    | .pc => pc ++ 0#2
    | .datR => readDataAlign memSel ext dataAdr datR
    | .csrImm => csrImm.setWidth 32
    | .csr => csr
    | .mcauseLatch => mcause
  else old

end Sentinel
