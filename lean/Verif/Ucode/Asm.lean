import Verif.Ucode.Source
/-!
# Assembler

Models what `UCodeROM.assemble` / `_create_mem_init` (`src/sentinel/ucoderom.py` 195-252) obtain from
the external `m5meta` assembler for the subset of its language that `microcode.asm` uses: `origin`
sets the location counter, a label is the address of the next microinstruction, unassigned fields
take their defaults, and unfilled locations of the 256-word space read as zero.
`m5meta` itself is an external package and is trusted to implement this.
-/

namespace Sentinel.Ucode

/-- Pass 1: address of every label (list of pairs) (m5meta, called by `ucoderom.py` 224-230). -/
def labels : List Stmt → Nat → List (Label × Nat)
  | [], _ => []
  | .origin n :: r, _ => labels r n
  | .label l :: r, pc => (l, pc) :: labels r pc
  | .insn _ :: r, pc => labels r (pc + 1)

/-- Resolve a `target` value; an unknown label would be an assembly error, so `none` (m5meta, called by `ucoderom.py` 224-230). -/
def resolve (env : List (Label × Nat)) : Trg → Option (BitVec 8)
  | .num n => some (BitVec.ofNat 8 n)
  | .lbl l => (env.lookup l).map (BitVec.ofNat 8)

/-- Apply one `field => value` assignment (m5meta, called by `ucoderom.py` 224-238). -/
def assign (env : List (Label × Nat)) (u : UInsn) : Assign → Option UInsn
  | .target t => (resolve env t).map fun a => { u with target := a }
  | .jmpType v => some { u with jmpType := v }
  | .condTest v => some { u with condTest := v }
  | .invertTest v => some { u with invertTest := v }
  | .pcAction v => some { u with pcAction := v }
  | .latchA v => some { u with latchA := v }
  | .latchB v => some { u with latchB := v }
  | .aSrc v => some { u with aSrc := v }
  | .bSrc v => some { u with bSrc := v }
  | .aluOp v => some { u with aluOp := v }
  | .aluIMod v => some { u with aluIMod := v }
  | .aluOMod v => some { u with aluOMod := v }
  | .regRead v => some { u with regRead := v }
  | .regWrite v => some { u with regWrite := v }
  | .regRSel v => some { u with regRSel := v }
  | .regWSel v => some { u with regWSel := v }
  | .csrOp v => some { u with csrOp := v }
  | .csrSel v => some { u with csrSel := v }
  | .memReq v => some { u with memReq := v }
  | .memSel v => some { u with memSel := v }
  | .memExtend v => some { u with memExtend := v }
  | .latchAdr v => some { u with latchAdr := v }
  | .latchData v => some { u with latchData := v }
  | .writeMem v => some { u with writeMem := v }
  | .insnFetch v => some { u with insnFetch := v }
  | .exceptCtl v => some { u with exceptCtl := v }

/-- All assignments of a microinstruction, starting from the field defaults (m5meta, called by `ucoderom.py` 224-238; defaults: `microcode.asm` 14-91). -/
def assigns (env : List (Label × Nat)) : UInsn → List Assign → Option UInsn
  | u, [] => some u
  | u, a :: r => (assign env u a).bind fun u' => assigns env u' r

/-- Pass 2: `(address, microinstruction)` pairs (m5meta, called by `ucoderom.py` 224-238). -/
def words (env : List (Label × Nat)) : List Stmt → Nat → Option (List (Nat × UInsn))
  | [], _ => some []
  | .origin n :: r, _ => words env r n
  | .label _ :: r, pc => words env r pc
  | .insn fs :: r, pc =>
    (assigns env {} fs).bind fun u => (words env r (pc + 1)).map fun ws => (pc, u) :: ws

/-- Assembled `(address, word)` pairs of the whole source (m5meta, called by `ucoderom.py` 224-238, on `microcode.asm`). -/
def assembled : Option (List (Nat × UInsn)) := words (labels source 0) source 0

/-- `ucoderom.py` 243-252 `_create_mem_init`: 256 words, holes are zero. -/
def memInit (ws : List (Nat × UInsn)) : List UInsn :=
  (List.range 256).map fun a => (ws.lookup a).getD UInsn.hole

end Sentinel.Ucode
