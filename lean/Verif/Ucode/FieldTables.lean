import Verif.Ucode.Layout
import Verif.Ucode.Fields
/-!
# Field declarations and Amaranth classes of the default microcode

Generated by `tools/gen_fields.py` from the text of `src/sentinel/microcode.asm` (`fields block_ram`,
lines 14-91), `src/sentinel/ucodefields.py` and `UCodeROM.field_map` (`src/sentinel/ucoderom.py`
113-140).
-/

namespace Sentinel.Ucode

/-- Type of a field declaration of the microcode source; an enum item has an optional value (`microcode.asm` 14-91). -/
inductive FieldType
  | num (width : Nat)
  | bool
  | enum (items : List (Name × Option Nat))

/-- `microcode.asm` 14-91: the fields in order. -/
def fieldDecls : List (Name × FieldType) := [
  (['t', 'a', 'r', 'g', 'e', 't'], .num 8),
  (['j', 'm', 'p', '_', 't', 'y', 'p', 'e'], .enum [(['c', 'o', 'n', 't'], some 0), (['n', 'o', 'p'], some 0), (['m', 'a', 'p'], none), (['d', 'i', 'r', 'e', 'c', 't'], none), (['d', 'i', 'r', 'e', 'c', 't', '_', 'z', 'e', 'r', 'o'], none)]),
  (['c', 'o', 'n', 'd', '_', 't', 'e', 's', 't'], .enum [(['e', 'x', 'c', 'e', 'p', 't', 'i', 'o', 'n'], none), (['c', 'm', 'p', '_', 'a', 'l', 'u', '_', 'o', '_', 'z', 'e', 'r', 'o'], none), (['m', 'e', 'm', '_', 'v', 'a', 'l', 'i', 'd'], none), (['t', 'r', 'u', 'e'], none)]),
  (['i', 'n', 'v', 'e', 'r', 't', '_', 't', 'e', 's', 't'], .bool),
  (['p', 'c', '_', 'a', 'c', 't', 'i', 'o', 'n'], .enum [(['h', 'o', 'l', 'd'], some 0), (['i', 'n', 'c'], none), (['l', 'o', 'a', 'd', '_', 'a', 'l', 'u', '_', 'o'], none)]),
  (['l', 'a', 't', 'c', 'h', '_', 'a'], .bool),
  (['l', 'a', 't', 'c', 'h', '_', 'b'], .bool),
  (['a', '_', 's', 'r', 'c'], .enum [(['g', 'p'], some 0), (['i', 'm', 'm'], none), (['a', 'l', 'u', '_', 'o'], none), (['z', 'e', 'r', 'o'], none), (['f', 'o', 'u', 'r'], none), (['n', 'e', 'g', '_', 'o', 'n', 'e'], none), (['t', 'h', 'i', 'r', 't', 'y', '_', 'o', 'n', 'e'], none)]),
  (['b', '_', 's', 'r', 'c'], .enum [(['g', 'p'], some 0), (['p', 'c'], none), (['i', 'm', 'm'], none), (['o', 'n', 'e'], none), (['d', 'a', 't', '_', 'r'], none), (['c', 's', 'r', '_', 'i', 'm', 'm'], none), (['c', 's', 'r'], none), (['m', 'c', 'a', 'u', 's', 'e', '_', 'l', 'a', 't', 'c', 'h'], none)]),
  (['a', 'l', 'u', '_', 'o', 'p'], .enum [(['a', 'd', 'd'], some 0), (['s', 'u', 'b'], none), (['a', 'n', 'd'], none), (['o', 'r'], none), (['x', 'o', 'r'], none), (['s', 'l', 'l'], none), (['s', 'r', 'l'], none), (['s', 'r', 'a'], none), (['c', 'm', 'p', '_', 'l', 't', 'u'], none)]),
  (['a', 'l', 'u', '_', 'i', '_', 'm', 'o', 'd'], .enum [(['n', 'o', 'n', 'e'], some 0), (['i', 'n', 'v', '_', 'm', 's', 'b', '_', 'a', '_', 'b'], none)]),
  (['a', 'l', 'u', '_', 'o', '_', 'm', 'o', 'd'], .enum [(['n', 'o', 'n', 'e'], some 0), (['i', 'n', 'v', '_', 'l', 's', 'b', '_', 'o'], none), (['c', 'l', 'e', 'a', 'r', '_', 'l', 's', 'b', '_', 'o'], none)]),
  (['r', 'e', 'g', '_', 'r', 'e', 'a', 'd'], .bool),
  (['r', 'e', 'g', '_', 'w', 'r', 'i', 't', 'e'], .bool),
  (['r', 'e', 'g', '_', 'r', '_', 's', 'e', 'l'], .enum [(['i', 'n', 's', 'n', '_', 'r', 's', '1'], some 0), (['i', 'n', 's', 'n', '_', 'r', 's', '2'], some 1)]),
  (['r', 'e', 'g', '_', 'w', '_', 's', 'e', 'l'], .enum [(['i', 'n', 's', 'n', '_', 'r', 'd'], some 0), (['z', 'e', 'r', 'o'], some 1)]),
  (['c', 's', 'r', '_', 'o', 'p'], .enum [(['n', 'o', 'n', 'e'], some 0), (['r', 'e', 'a', 'd', '_', 'c', 's', 'r'], none), (['w', 'r', 'i', 't', 'e', '_', 'c', 's', 'r'], none)]),
  (['c', 's', 'r', '_', 's', 'e', 'l'], .enum [(['i', 'n', 's', 'n', '_', 'c', 's', 'r'], none), (['t', 'r', 'g', '_', 'c', 's', 'r'], none)]),
  (['m', 'e', 'm', '_', 'r', 'e', 'q'], .bool),
  (['m', 'e', 'm', '_', 's', 'e', 'l'], .enum [(['a', 'u', 't', 'o'], some 0), (['b', 'y', 't', 'e'], some 1), (['h', 'w', 'o', 'r', 'd'], some 2), (['w', 'o', 'r', 'd'], some 3)]),
  (['m', 'e', 'm', '_', 'e', 'x', 't', 'e', 'n', 'd'], .enum [(['z', 'e', 'r', 'o'], some 0), (['s', 'i', 'g', 'n'], some 1)]),
  (['l', 'a', 't', 'c', 'h', '_', 'a', 'd', 'r'], .bool),
  (['l', 'a', 't', 'c', 'h', '_', 'd', 'a', 't', 'a'], .bool),
  (['w', 'r', 'i', 't', 'e', '_', 'm', 'e', 'm'], .bool),
  (['i', 'n', 's', 'n', '_', 'f', 'e', 't', 'c', 'h'], .bool),
  (['e', 'x', 'c', 'e', 'p', 't', '_', 'c', 't', 'l'], .enum [(['n', 'o', 'n', 'e'], none), (['l', 'a', 't', 'c', 'h', '_', 'd', 'e', 'c', 'o', 'd', 'e', 'r'], none), (['l', 'a', 't', 'c', 'h', '_', 'j', 'a', 'l'], none), (['l', 'a', 't', 'c', 'h', '_', 's', 't', 'o', 'r', 'e', '_', 'a', 'd', 'r'], none), (['l', 'a', 't', 'c', 'h', '_', 'l', 'o', 'a', 'd', '_', 'a', 'd', 'r'], none), (['e', 'n', 't', 'e', 'r', '_', 'i', 'n', 't'], none), (['l', 'e', 'a', 'v', 'e', '_', 'i', 'n', 't'], none)])]

/-- `ucodefields.py` 25. -/
def pyTarget : FShape := .unsigned 8

/-- `ucodefields.py` 28 `JmpType`: the members in order, and the width. -/
def pyJmpType : FShape := .enum 2 [(['C', 'O', 'N', 'T'], 0), (['N', 'O', 'P'], 0), (['M', 'A', 'P'], 1), (['D', 'I', 'R', 'E', 'C', 'T'], 2), (['D', 'I', 'R', 'E', 'C', 'T', '_', 'Z', 'E', 'R', 'O'], 3)]

/-- `ucodefields.py` 54 `OpType`: the members in order, and the width Amaranth gives an enum with these values. -/
def pyOpType : FShape := .enum 4 [(['A', 'D', 'D'], 0), (['S', 'U', 'B'], 1), (['A', 'N', 'D'], 2), (['O', 'R'], 3), (['X', 'O', 'R'], 4), (['S', 'L', 'L'], 5), (['S', 'R', 'L'], 6), (['S', 'R', 'A'], 7), (['C', 'M', 'P', '_', 'L', 'T', 'U'], 8)]

/-- `ucodefields.py` 82 `CondTest`: the members in order, and the width Amaranth gives an enum with these values. -/
def pyCondTest : FShape := .enum 2 [(['E', 'X', 'C', 'E', 'P', 'T', 'I', 'O', 'N'], 0), (['C', 'M', 'P', '_', 'A', 'L', 'U', '_', 'O', '_', 'Z', 'E', 'R', 'O'], 1), (['M', 'E', 'M', '_', 'V', 'A', 'L', 'I', 'D'], 2), (['T', 'R', 'U', 'E'], 3)]

/-- `ucodefields.py` 114. -/
def pyInvertTest : FShape := .unsigned 1

/-- `ucodefields.py` 117 `PcAction`: the members in order, and the width Amaranth gives an enum with these values. -/
def pyPcAction : FShape := .enum 2 [(['H', 'O', 'L', 'D'], 0), (['I', 'N', 'C'], 1), (['L', 'O', 'A', 'D', '_', 'A', 'L', 'U', '_', 'O'], 2)]

/-- `ucodefields.py` 131. -/
def pyLatchA : FShape := .unsigned 1

/-- `ucodefields.py` 135. -/
def pyLatchB : FShape := .unsigned 1

/-- `ucodefields.py` 138 `ASrc`: the members in order, and the width Amaranth gives an enum with these values. -/
def pyASrc : FShape := .enum 3 [(['G', 'P'], 0), (['I', 'M', 'M'], 1), (['A', 'L', 'U', '_', 'O'], 2), (['Z', 'E', 'R', 'O'], 3), (['F', 'O', 'U', 'R'], 4), (['N', 'E', 'G', '_', 'O', 'N', 'E'], 5), (['T', 'H', 'I', 'R', 'T', 'Y', '_', 'O', 'N', 'E'], 6)]

/-- `ucodefields.py` 164 `BSrc`: the members in order, and the width Amaranth gives an enum with these values. -/
def pyBSrc : FShape := .enum 3 [(['G', 'P'], 0), (['P', 'C'], 1), (['I', 'M', 'M'], 2), (['O', 'N', 'E'], 3), (['D', 'A', 'T', '_', 'R'], 4), (['C', 'S', 'R', '_', 'I', 'M', 'M'], 5), (['C', 'S', 'R'], 6), (['M', 'C', 'A', 'U', 'S', 'E', '_', 'L', 'A', 'T', 'C', 'H'], 7)]

/-- `ucodefields.py` 198 `ALUIMod`: the members in order, and the width Amaranth gives an enum with these values. -/
def pyALUIMod : FShape := .enum 1 [(['N', 'O', 'N', 'E'], 0), (['I', 'N', 'V', '_', 'M', 'S', 'B', '_', 'A', '_', 'B'], 1)]

/-- `ucodefields.py` 219 `ALUOMod`: the members in order, and the width Amaranth gives an enum with these values. -/
def pyALUOMod : FShape := .enum 2 [(['N', 'O', 'N', 'E'], 0), (['I', 'N', 'V', '_', 'L', 'S', 'B', '_', 'O'], 1), (['C', 'L', 'E', 'A', 'R', '_', 'L', 'S', 'B', '_', 'O'], 2)]

/-- `ucodefields.py` 271. -/
def pyRegRead : FShape := .unsigned 1

/-- `ucodefields.py` 278. -/
def pyRegWrite : FShape := .unsigned 1

/-- `ucodefields.py` 281 `RegRSel`: the members in order, and the width Amaranth gives an enum with these values. -/
def pyRegRSel : FShape := .enum 1 [(['I', 'N', 'S', 'N', '_', 'R', 'S', '1'], 0), (['I', 'N', 'S', 'N', '_', 'R', 'S', '2'], 1)]

/-- `ucodefields.py` 295 `RegWSel`: the members in order, and the width Amaranth gives an enum with these values. -/
def pyRegWSel : FShape := .enum 1 [(['I', 'N', 'S', 'N', '_', 'R', 'D'], 0), (['Z', 'E', 'R', 'O'], 1)]

/-- `ucodefields.py` 311 `CSROp`: the members in order, and the width Amaranth gives an enum with these values. -/
def pyCSROp : FShape := .enum 2 [(['N', 'O', 'N', 'E'], 0), (['R', 'E', 'A', 'D', '_', 'C', 'S', 'R'], 1), (['W', 'R', 'I', 'T', 'E', '_', 'C', 'S', 'R'], 2)]

/-- `ucodefields.py` 330 `CSRSel`: the members in order, and the width Amaranth gives an enum with these values. -/
def pyCSRSel : FShape := .enum 1 [(['I', 'N', 'S', 'N', '_', 'C', 'S', 'R'], 0), (['T', 'R', 'G', '_', 'C', 'S', 'R'], 1)]

/-- `ucodefields.py` 357. -/
def pyMemReq : FShape := .unsigned 1

/-- `ucodefields.py` 360 `MemSel`: the members in order, and the width Amaranth gives an enum with these values. -/
def pyMemSel : FShape := .enum 2 [(['A', 'U', 'T', 'O'], 0), (['B', 'Y', 'T', 'E'], 1), (['H', 'W', 'O', 'R', 'D'], 2), (['W', 'O', 'R', 'D'], 3)]

/-- `ucodefields.py` 383 `MemExtend`: the members in order, and the width Amaranth gives an enum with these values. -/
def pyMemExtend : FShape := .enum 1 [(['Z', 'E', 'R', 'O'], 0), (['S', 'I', 'G', 'N'], 1)]

/-- `ucodefields.py` 414. -/
def pyLatchAdr : FShape := .unsigned 1

/-- `ucodefields.py` 422. -/
def pyLatchData : FShape := .unsigned 1

/-- `ucodefields.py` 427. -/
def pyWriteMem : FShape := .unsigned 1

/-- `ucodefields.py` 437. -/
def pyInsnFetch : FShape := .unsigned 1

/-- `ucodefields.py` 440 `ExceptCtl`: the members in order, and the width Amaranth gives an enum with these values. -/
def pyExceptCtl : FShape := .enum 3 [(['N', 'O', 'N', 'E'], 0), (['L', 'A', 'T', 'C', 'H', '_', 'D', 'E', 'C', 'O', 'D', 'E', 'R'], 1), (['L', 'A', 'T', 'C', 'H', '_', 'J', 'A', 'L'], 2), (['L', 'A', 'T', 'C', 'H', '_', 'S', 'T', 'O', 'R', 'E', '_', 'A', 'D', 'R'], 3), (['L', 'A', 'T', 'C', 'H', '_', 'L', 'O', 'A', 'D', '_', 'A', 'D', 'R'], 4), (['E', 'N', 'T', 'E', 'R', '_', 'I', 'N', 'T'], 5), (['L', 'E', 'A', 'V', 'E', '_', 'I', 'N', 'T'], 6)]

/-- `ucoderom.py` 113-140 `field_map`. -/
def fieldMap : List (Name × FShape) := [
  (['t', 'a', 'r', 'g', 'e', 't'], pyTarget),
  (['a', 'l', 'u', '_', 'o', 'p'], pyOpType),
  (['c', 'o', 'n', 'd', '_', 't', 'e', 's', 't'], pyCondTest),
  (['j', 'm', 'p', '_', 't', 'y', 'p', 'e'], pyJmpType),
  (['i', 'n', 'v', 'e', 'r', 't', '_', 't', 'e', 's', 't'], pyInvertTest),
  (['p', 'c', '_', 'a', 'c', 't', 'i', 'o', 'n'], pyPcAction),
  (['l', 'a', 't', 'c', 'h', '_', 'a'], pyLatchA),
  (['l', 'a', 't', 'c', 'h', '_', 'b'], pyLatchB),
  (['a', 'l', 'u', '_', 'i', '_', 'm', 'o', 'd'], pyALUIMod),
  (['a', 'l', 'u', '_', 'o', '_', 'm', 'o', 'd'], pyALUOMod),
  (['r', 'e', 'g', '_', 'r', 'e', 'a', 'd'], pyRegRead),
  (['r', 'e', 'g', '_', 'w', 'r', 'i', 't', 'e'], pyRegWrite),
  (['a', '_', 's', 'r', 'c'], pyASrc),
  (['b', '_', 's', 'r', 'c'], pyBSrc),
  (['r', 'e', 'g', '_', 'r', '_', 's', 'e', 'l'], pyRegRSel),
  (['r', 'e', 'g', '_', 'w', '_', 's', 'e', 'l'], pyRegWSel),
  (['c', 's', 'r', '_', 'o', 'p'], pyCSROp),
  (['c', 's', 'r', '_', 's', 'e', 'l'], pyCSRSel),
  (['m', 'e', 'm', '_', 'r', 'e', 'q'], pyMemReq),
  (['m', 'e', 'm', '_', 's', 'e', 'l'], pyMemSel),
  (['m', 'e', 'm', '_', 'e', 'x', 't', 'e', 'n', 'd'], pyMemExtend),
  (['l', 'a', 't', 'c', 'h', '_', 'a', 'd', 'r'], pyLatchAdr),
  (['l', 'a', 't', 'c', 'h', '_', 'd', 'a', 't', 'a'], pyLatchData),
  (['w', 'r', 'i', 't', 'e', '_', 'm', 'e', 'm'], pyWriteMem),
  (['e', 'x', 'c', 'e', 'p', 't', '_', 'c', 't', 'l'], pyExceptCtl),
  (['i', 'n', 's', 'n', '_', 'f', 'e', 't', 'c', 'h'], pyInsnFetch)]

/-- Member name and value of each constructor of `JmpType` (`ucodefields.py` 28-51). -/
def codeJmpType : Sentinel.JmpType → Name × Nat
  | .cont => (['C', 'O', 'N', 'T'], 0)
  | .map => (['M', 'A', 'P'], 1)
  | .direct => (['D', 'I', 'R', 'E', 'C', 'T'], 2)
  | .directZero => (['D', 'I', 'R', 'E', 'C', 'T', '_', 'Z', 'E', 'R', 'O'], 3)

/-- Member name and value of each constructor of `OpType` (`ucodefields.py` 54-79). -/
def codeOpType : Sentinel.OpType → Name × Nat
  | .add => (['A', 'D', 'D'], 0)
  | .sub => (['S', 'U', 'B'], 1)
  | .and => (['A', 'N', 'D'], 2)
  | .or => (['O', 'R'], 3)
  | .xor => (['X', 'O', 'R'], 4)
  | .sll => (['S', 'L', 'L'], 5)
  | .srl => (['S', 'R', 'L'], 6)
  | .sra => (['S', 'R', 'A'], 7)
  | .cmpLtu => (['C', 'M', 'P', '_', 'L', 'T', 'U'], 8)

/-- Member name and value of each constructor of `CondTest` (`ucodefields.py` 82-109). -/
def codeCondTest : Sentinel.CondTest → Name × Nat
  | .exception => (['E', 'X', 'C', 'E', 'P', 'T', 'I', 'O', 'N'], 0)
  | .cmpAluOZero => (['C', 'M', 'P', '_', 'A', 'L', 'U', '_', 'O', '_', 'Z', 'E', 'R', 'O'], 1)
  | .memValid => (['M', 'E', 'M', '_', 'V', 'A', 'L', 'I', 'D'], 2)
  | .true_ => (['T', 'R', 'U', 'E'], 3)

/-- Member name and value of each constructor of `PcAction` (`ucodefields.py` 117-126). -/
def codePcAction : Sentinel.PcAction → Name × Nat
  | .hold => (['H', 'O', 'L', 'D'], 0)
  | .inc => (['I', 'N', 'C'], 1)
  | .loadAluO => (['L', 'O', 'A', 'D', '_', 'A', 'L', 'U', '_', 'O'], 2)

/-- Member name and value of each constructor of `ASrc` (`ucodefields.py` 138-161). -/
def codeASrc : Sentinel.ASrc → Name × Nat
  | .gp => (['G', 'P'], 0)
  | .imm => (['I', 'M', 'M'], 1)
  | .aluO => (['A', 'L', 'U', '_', 'O'], 2)
  | .zero => (['Z', 'E', 'R', 'O'], 3)
  | .four => (['F', 'O', 'U', 'R'], 4)
  | .negOne => (['N', 'E', 'G', '_', 'O', 'N', 'E'], 5)
  | .thirtyOne => (['T', 'H', 'I', 'R', 'T', 'Y', '_', 'O', 'N', 'E'], 6)

/-- Member name and value of each constructor of `BSrc` (`ucodefields.py` 164-195). -/
def codeBSrc : Sentinel.BSrc → Name × Nat
  | .gp => (['G', 'P'], 0)
  | .pc => (['P', 'C'], 1)
  | .imm => (['I', 'M', 'M'], 2)
  | .one => (['O', 'N', 'E'], 3)
  | .datR => (['D', 'A', 'T', '_', 'R'], 4)
  | .csrImm => (['C', 'S', 'R', '_', 'I', 'M', 'M'], 5)
  | .csr => (['C', 'S', 'R'], 6)
  | .mcauseLatch => (['M', 'C', 'A', 'U', 'S', 'E', '_', 'L', 'A', 'T', 'C', 'H'], 7)

/-- Member name and value of each constructor of `ALUIMod` (`ucodefields.py` 198-216). -/
def codeALUIMod : Sentinel.ALUIMod → Name × Nat
  | .none => (['N', 'O', 'N', 'E'], 0)
  | .invMsbAB => (['I', 'N', 'V', '_', 'M', 'S', 'B', '_', 'A', '_', 'B'], 1)

/-- Member name and value of each constructor of `ALUOMod` (`ucodefields.py` 219-237). -/
def codeALUOMod : Sentinel.ALUOMod → Name × Nat
  | .none => (['N', 'O', 'N', 'E'], 0)
  | .invLsbO => (['I', 'N', 'V', '_', 'L', 'S', 'B', '_', 'O'], 1)
  | .clearLsbO => (['C', 'L', 'E', 'A', 'R', '_', 'L', 'S', 'B', '_', 'O'], 2)

/-- Member name and value of each constructor of `RegRSel` (`ucodefields.py` 281-292). -/
def codeRegRSel : Sentinel.RegRSel → Name × Nat
  | .rs1 => (['I', 'N', 'S', 'N', '_', 'R', 'S', '1'], 0)
  | .rs2 => (['I', 'N', 'S', 'N', '_', 'R', 'S', '2'], 1)

/-- Member name and value of each constructor of `RegWSel` (`ucodefields.py` 295-308). -/
def codeRegWSel : Sentinel.RegWSel → Name × Nat
  | .rd => (['I', 'N', 'S', 'N', '_', 'R', 'D'], 0)
  | .zero => (['Z', 'E', 'R', 'O'], 1)

/-- Member name and value of each constructor of `CSROp` (`ucodefields.py` 311-327). -/
def codeCSROp : Sentinel.CSROp → Name × Nat
  | .none => (['N', 'O', 'N', 'E'], 0)
  | .readCsr => (['R', 'E', 'A', 'D', '_', 'C', 'S', 'R'], 1)
  | .writeCsr => (['W', 'R', 'I', 'T', 'E', '_', 'C', 'S', 'R'], 2)

/-- Member name and value of each constructor of `CSRSel` (`ucodefields.py` 330-347). -/
def codeCSRSel : Sentinel.CSRSel → Name × Nat
  | .insnCsr => (['I', 'N', 'S', 'N', '_', 'C', 'S', 'R'], 0)
  | .trgCsr => (['T', 'R', 'G', '_', 'C', 'S', 'R'], 1)

/-- Member name and value of each constructor of `MemSel` (`ucodefields.py` 360-380). -/
def codeMemSel : Sentinel.MemSel → Name × Nat
  | .auto => (['A', 'U', 'T', 'O'], 0)
  | .byte => (['B', 'Y', 'T', 'E'], 1)
  | .hword => (['H', 'W', 'O', 'R', 'D'], 2)
  | .word => (['W', 'O', 'R', 'D'], 3)

/-- Member name and value of each constructor of `MemExtend` (`ucodefields.py` 383-406). -/
def codeMemExtend : Sentinel.MemExtend → Name × Nat
  | .zero => (['Z', 'E', 'R', 'O'], 0)
  | .sign => (['S', 'I', 'G', 'N'], 1)

/-- Member name and value of each constructor of `ExceptCtl` (`ucodefields.py` 440-465). -/
def codeExceptCtl : Sentinel.ExceptCtl → Name × Nat
  | .none => (['N', 'O', 'N', 'E'], 0)
  | .latchDecoder => (['L', 'A', 'T', 'C', 'H', '_', 'D', 'E', 'C', 'O', 'D', 'E', 'R'], 1)
  | .latchJal => (['L', 'A', 'T', 'C', 'H', '_', 'J', 'A', 'L'], 2)
  | .latchStoreAdr => (['L', 'A', 'T', 'C', 'H', '_', 'S', 'T', 'O', 'R', 'E', '_', 'A', 'D', 'R'], 3)
  | .latchLoadAdr => (['L', 'A', 'T', 'C', 'H', '_', 'L', 'O', 'A', 'D', '_', 'A', 'D', 'R'], 4)
  | .enterInt => (['E', 'N', 'T', 'E', 'R', '_', 'I', 'N', 'T'], 5)
  | .leaveInt => (['L', 'E', 'A', 'V', 'E', '_', 'I', 'N', 'T'], 6)

end Sentinel.Ucode
