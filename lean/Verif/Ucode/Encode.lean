import Verif.Ucode.FieldTables
import Verif.Ucode.Rom
/-!
# The 48-bit microcode word

`fields` is what m5meta makes of the `fields block_ram` declaration (`microcode.asm` 14-91):
an enum item without a value has the value of the item before it plus one, an enum is as wide as its
greatest value needs, and the fields lie one after another from bit 0.  `encode` is m5meta's object
word: each field's value at the field's origin.  m5meta is external and trusted to do this; that
`UCodeROM` reads back what was assembled is proved in `Verif/Props/Encode.lean`.
-/

namespace Sentinel.Ucode

/-- Values of the items of an enum; `next` is the value of an item that gives none (m5meta; `microcode.asm` 14-91). -/
def enumValues : List (Name × Option Nat) → Nat → List (Name × Nat)
  | [], _ => []
  | (k, some v) :: r, _ => (k, v) :: enumValues r (v + 1)
  | (k, none) :: r, next => (k, next) :: enumValues r (next + 1)

/-- Number of bits of a field that can hold `m` (m5meta; `microcode.asm` 14-91). -/
def bitsFor (m : Nat) : Nat := if m = 0 then 1 else Nat.log2 m + 1

/-- Enum of a declared type; a `bool` is an enum, a number has none (m5meta; `microcode.asm` 14-91). -/
def FieldType.values : FieldType → List (Name × Nat)
  | .num _ => []
  | .bool => boolEnum
  | .enum items => enumValues items 0

/-- Width of a declared type (m5meta; `microcode.asm` 14-91). -/
def FieldType.width : FieldType → Nat
  | .num w => w
  | .bool => 1
  | .enum items => bitsFor ((enumValues items 0).foldl (fun m kv => max m kv.2) 0)

/-- The fields of a declaration, from bit `origin` on (m5meta; `microcode.asm` 14-91). -/
def placeDecls : List (Name × FieldType) → Nat → List UField
  | [], _ => []
  | (n, t) :: r, origin => ⟨n, origin, t.width, t.values⟩ :: placeDecls r (origin + t.width)

/-- The fields of the default microcode (`microcode.asm` 14-91). -/
def fields : List UField := placeDecls fieldDecls 0

/-- Value of each field of a microinstruction (`bool` false = 0, true = 1; enum values as in
`ucodefields.py`). -/
def fieldValues (u : UInsn) : List (Name × Nat) := [
  (['t', 'a', 'r', 'g', 'e', 't'], u.target.toNat),
  (['j', 'm', 'p', '_', 't', 'y', 'p', 'e'], (codeJmpType u.jmpType).2),
  (['c', 'o', 'n', 'd', '_', 't', 'e', 's', 't'], (codeCondTest u.condTest).2),
  (['i', 'n', 'v', 'e', 'r', 't', '_', 't', 'e', 's', 't'], u.invertTest.toNat),
  (['p', 'c', '_', 'a', 'c', 't', 'i', 'o', 'n'], (codePcAction u.pcAction).2),
  (['l', 'a', 't', 'c', 'h', '_', 'a'], u.latchA.toNat),
  (['l', 'a', 't', 'c', 'h', '_', 'b'], u.latchB.toNat),
  (['a', '_', 's', 'r', 'c'], (codeASrc u.aSrc).2),
  (['b', '_', 's', 'r', 'c'], (codeBSrc u.bSrc).2),
  (['a', 'l', 'u', '_', 'o', 'p'], (codeOpType u.aluOp).2),
  (['a', 'l', 'u', '_', 'i', '_', 'm', 'o', 'd'], (codeALUIMod u.aluIMod).2),
  (['a', 'l', 'u', '_', 'o', '_', 'm', 'o', 'd'], (codeALUOMod u.aluOMod).2),
  (['r', 'e', 'g', '_', 'r', 'e', 'a', 'd'], u.regRead.toNat),
  (['r', 'e', 'g', '_', 'w', 'r', 'i', 't', 'e'], u.regWrite.toNat),
  (['r', 'e', 'g', '_', 'r', '_', 's', 'e', 'l'], (codeRegRSel u.regRSel).2),
  (['r', 'e', 'g', '_', 'w', '_', 's', 'e', 'l'], (codeRegWSel u.regWSel).2),
  (['c', 's', 'r', '_', 'o', 'p'], (codeCSROp u.csrOp).2),
  (['c', 's', 'r', '_', 's', 'e', 'l'], (codeCSRSel u.csrSel).2),
  (['m', 'e', 'm', '_', 'r', 'e', 'q'], u.memReq.toNat),
  (['m', 'e', 'm', '_', 's', 'e', 'l'], (codeMemSel u.memSel).2),
  (['m', 'e', 'm', '_', 'e', 'x', 't', 'e', 'n', 'd'], (codeMemExtend u.memExtend).2),
  (['l', 'a', 't', 'c', 'h', '_', 'a', 'd', 'r'], u.latchAdr.toNat),
  (['l', 'a', 't', 'c', 'h', '_', 'd', 'a', 't', 'a'], u.latchData.toNat),
  (['w', 'r', 'i', 't', 'e', '_', 'm', 'e', 'm'], u.writeMem.toNat),
  (['i', 'n', 's', 'n', '_', 'f', 'e', 't', 'c', 'h'], u.insnFetch.toNat),
  (['e', 'x', 'c', 'e', 'p', 't', '_', 'c', 't', 'l'], (codeExceptCtl u.exceptCtl).2)]

/-- Object word of a microinstruction: each value shifted to the origin of its field (m5meta, called by `ucoderom.py` 238). -/
def objectWord (fs : List UField) (vals : List (Name × Nat)) : Nat :=
  match fs with
  | [] => 0
  | f :: r => (vals.lookup f.name).getD 0 * 2 ^ f.origin + objectWord r vals

/-- Object word of a microinstruction of the default microcode (m5meta, called by `ucoderom.py` 238, on `microcode.asm`). -/
def encode (u : UInsn) : Nat := objectWord fields (fieldValues u)

/-- `ucoderom.py` 243-252 `_create_mem_init` on integers: `ucode_contents` has `size` = 256 zeros,
overwritten where m5meta has data. -/
def romContents (ws : List (Nat × UInsn)) : List Nat :=
  (List.range 256).map fun a => ((ws.lookup a).map encode).getD 0

/-- `UCodeROM.fields` (`ucoderom.py` 190-193): the member `k` of layout `L` in the word `w` that the
memory returns. -/
def readMember (L : List (Name × FShape)) (k : Name) (w : Nat) : Option Nat :=
  (member L k).map fun p => w / 2 ^ p.1 % 2 ^ p.2.width

end Sentinel.Ucode
