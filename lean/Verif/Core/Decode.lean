import Verif.Core.Insn
/-!
# Instruction decoder — `src/sentinel/decode.py`, and `MappingROM` of `src/sentinel/control.py`
-/

namespace Sentinel

/-- `decode.py` 33-54 `CSRAttributes._DataLayout`. -/
structure Attr where
  ill : Bool
  ro0 : Bool
  deriving DecidableEq, Repr

/-- `decode.py` 56 `_Implemented`. -/
def Attr.implemented : Attr := ⟨false, false⟩
/-- `decode.py` 58 `_Illegal`. -/
def Attr.illegal : Attr := ⟨true, false⟩
/-- `decode.py` 60 `_Ro0`. -/
def Attr.ro0' : Attr := ⟨false, true⟩

/-- `range(lo, hi + 1)` (Python; used by `decode.py` 115-141). -/
def rangeIncl (lo hi : Nat) : List Nat := (List.range (hi + 1 - lo)).map (lo + ·)

/-- `decode.py` 115-141 `_rom_init`: the assignments, in order (addresses from `csr.py` 31-235). -/
def csrRomInit : List (Nat × Attr) :=
  [(0xF11, .ro0'), (0xF12, .ro0'), (0xF13, .ro0'), (0xF14, .ro0'), (0xF15, .ro0'),
   (0x300, .implemented), (0x301, .ro0'), (0x304, .implemented), (0x305, .implemented),
   (0x310, .ro0'), (0x340, .implemented), (0x341, .implemented), (0x342, .implemented),
   (0x343, .ro0'), (0x344, .implemented), (0xB00, .ro0'), (0xB02, .ro0')] ++
  (rangeIncl 0xB03 0xB1F).map (·, .ro0') ++ [(0xB80, .ro0'), (0xB82, .ro0')] ++
  (rangeIncl 0xB83 0xB9F).map (·, .ro0') ++ [(0x320, .ro0')] ++
  (rangeIncl 0x323 0x33F).map (·, .ro0')

/-- `decode.py` 78-82 `_ROM.idx`: bits 8 and 9 stripped. -/
def csrRomIdx (a : Nat) : Nat := (a &&& 0xFF) + ((a &&& 0xC00) >>> 2)

/-- `decode.py` 93-101: the 1024-entry table after initialisation; the last assignment to an index
wins, unassigned entries are illegal. -/
def csrRom (i : Nat) : Attr :=
  ((csrRomInit.reverse.map fun p => (csrRomIdx p.1, p.2)).lookup i).getD .illegal

/-- `decode.py` 103-112: the switch on `Cat(addr[0:8], addr[10:])`. -/
def csrAttrOf (addr : BitVec 12) : Attr :=
  csrRom (addr.extractLsb' 10 2 ++ addr.extractLsb' 0 8).toNat

/-- Registers of `MappingROM` (`control.py` 98-118). -/
structure MapState where
  srcA : BitVec 5 := 0
  dst : BitVec 5 := 0
  fwd : Bool := false
  csrOp : BitVec 3 := 0
  requestedOp : BitVec 8 := 0
  csrEncoding : BitVec 4 := 0
  deriving DecidableEq, Repr

/-- `control.py` 135-178: `requested_op` on the first decode cycle (unassigned: unchanged). -/
def mapOp (w : BitVec 32) (old : BitVec 8) : BitVec 8 :=
  match insnOpcode w with
  | .opImm =>
    if insnFunct3 w = 1#3 ∨ insnFunct3 w = 5#3 then
      (0x4#3 ++ (insnFunct7 w).extractLsb' 5 1 ++ insnFunct3 w).setWidth 8
    else (0x4#3 ++ 0#1 ++ insnFunct3 w).setWidth 8
  | .lui => 0xD0#8
  | .auipc => 0x50#8
  | .op => 0xC#4 ++ (insnFunct7 w).extractLsb' 5 1 ++ insnFunct3 w
  | .jal => 0xB0#8
  | .jalr => 0x98#8
  | .branch => 0x11#5 ++ insnFunct3 w
  | .load => (1#1 ++ insnFunct3 w).setWidth 8
  | .store => 0x10#5 ++ insnFunct3 w
  | .miscMem => 0x30#8
  | .system =>
    if w = MRET then 248#8
    else if w = WFI then 0x30#8
    else if insnFunct3 w ≠ 0#3 ∧ insnFunct3 w ≠ 4#3 then 0x24#8
    else old
  | .custom0 => old
  | .other => old

/-- `control.py` 166-178: is this the first decode cycle of a CSR instruction? -/
def isCsrInsn (w : BitVec 32) : Bool :=
  insnOpcode w = .system && !(w = MRET) && !(w = WFI) && !(insnFunct3 w = 0#3) &&
    !(insnFunct3 w = 4#3)

/-- `control.py` 173: `Cat(funct12[0:3], funct12[6])`. -/
def csrEncode (w : BitVec 32) : BitVec 4 :=
  (insnFunct12 w).extractLsb' 6 1 ++ (insnFunct12 w).extractLsb' 0 3

/-- `control.py` 181-224: `requested_op` on the second decode cycle. -/
def mapCsr (csrOp : BitVec 3) (dst srcA : BitVec 5) (attr : Attr) (old : BitVec 8) : BitVec 8 :=
  if attr.ill then old
  else if attr.ro0 then 0x25#8
  else if csrOp = 1#3 ∧ dst = 0#5 then 0x26#8
  else if csrOp = 1#3 ∧ dst ≠ 0#5 then 0x27#8
  else if csrOp = 2#3 ∧ srcA = 0#5 then 0x28#8
  else if csrOp = 2#3 ∧ srcA ≠ 0#5 then 0x29#8
  else if csrOp = 3#3 ∧ srcA = 0#5 then 0x28#8
  else if csrOp = 3#3 ∧ srcA ≠ 0#5 then 0x2A#8
  else if csrOp = 5#3 ∧ dst = 0#5 then 0x2B#8
  else if csrOp = 5#3 ∧ dst ≠ 0#5 then 0x2C#8
  else if csrOp = 6#3 ∧ srcA = 0#5 then 0x28#8
  else if csrOp = 6#3 ∧ srcA ≠ 0#5 then 0x2D#8
  else if csrOp = 7#3 ∧ srcA = 0#5 then 0x28#8
  else if csrOp = 7#3 ∧ srcA ≠ 0#5 then 0x2E#8
  else old

/-- One clock of `MappingROM` (`control.py` 110-226).  The second-cycle block comes last in the
source, so it wins over the first-cycle block. -/
def MapState.step (s : MapState) (start : Bool) (w : BitVec 32) (attr : Attr) : MapState :=
  { srcA := if start then insnRs1 w else s.srcA
    dst := if start then insnRd w else s.dst
    fwd := start && isCsrInsn w
    csrOp := insnFunct3 w
    requestedOp :=
      let op1 := if start then mapOp w s.requestedOp else s.requestedOp
      if s.fwd then mapCsr s.csrOp s.dst s.srcA attr op1 else op1
    csrEncoding := if start && isCsrInsn w then csrEncode w else s.csrEncoding }

/-- Registers of `ExceptionControl` (`decode.py` 294-321). -/
structure ExcState where
  srcA : BitVec 5 := 0
  fwd : Bool := false
  quadrant : BitVec 2 := 0
  csrOp : BitVec 3 := 0
  roSpace : Bool := false
  valid : Bool := false
  eType : BitVec 31 := 0
  deriving DecidableEq, Repr

/-- `MCause.Cause.ILLEGAL_INSN`, `csr.py` 344. -/
abbrev causeIllegal : BitVec 31 := 2
/-- `MCause.Cause.BREAKPOINT` (`csr.py` 346). -/
abbrev causeBreakpoint : BitVec 31 := 3
/-- `MCause.Cause.ECALL_MMODE` (`csr.py` 360). -/
abbrev causeEcallM : BitVec 31 := 11

/-- `decode.py` 325-398: does the first decode cycle flag an exception? -/
def decodeValid (w : BitVec 32) : Bool :=
  (match insnOpcode w with
    | .opImm =>
      if insnFunct3 w = 1#3 then !(insnFunct7 w = 0#7)
      else if insnFunct3 w = 5#3 then !(insnFunct7 w = 0#7) && !(insnFunct7 w = 0b0100000#7)
      else false
    | .lui => false
    | .auipc => false
    | .op =>
      if insnFunct3 w = 0#3 ∨ insnFunct3 w = 5#3 then
        !(insnFunct7 w = 0#7) && !(insnFunct7 w = 0b0100000#7)
      else !(insnFunct7 w = 0#7)
    | .jal => false
    | .jalr => !(insnFunct3 w = 0#3)
    | .branch => insnFunct3 w = 2#3 || insnFunct3 w = 3#3
    | .load => insnFunct3 w = 3#3 || insnFunct3 w = 6#3 || insnFunct3 w = 7#3
    | .store => decide (3#3 ≤ insnFunct3 w)
    | .custom0 => true
    | .miscMem => !(insnFunct3 w = 0#3)
    | .system =>
      if w.extractLsb' 7 25 = ECALL.extractLsb' 7 25 then true
      else if w = EBREAK then true
      else if w = MRET then false
      else if w = WFI then false
      else if insnFunct3 w ≠ 0#3 ∧ insnFunct3 w ≠ 4#3 then false
      else true
    | .other => true) ||
  !(w.extractLsb' 0 2 = 0b11#2)

/-- `decode.py` 369-377: the exception type of the first decode cycle.  Only the bits above the
opcode are compared for `ECALL`. -/
def decodeEType (w : BitVec 32) : BitVec 31 :=
  if insnOpcode w = .system then
    if w.extractLsb' 7 25 = ECALL.extractLsb' 7 25 then causeEcallM
    else if w = EBREAK then causeBreakpoint
    else causeIllegal
  else causeIllegal

/-- `decode.py` 369-391: `forward_csr` of `ExceptionControl`. -/
def excFwd (w : BitVec 32) : Bool :=
  insnOpcode w = .system && !(w.extractLsb' 7 25 = ECALL.extractLsb' 7 25) && !(w = EBREAK) &&
    !(w = MRET) && !(w = WFI) && !(insnFunct3 w = 0#3) && !(insnFunct3 w = 4#3)

/-- `decode.py` 401-421: does the second decode cycle flag an exception? -/
def csrValid (attr : Attr) (roSpace : Bool) (csrOp : BitVec 3) (srcA : BitVec 5)
    (quadrant : BitVec 2) : Bool :=
  if attr.ill then true
  else if roSpace && (csrOp = 1#3 || csrOp = 5#3 || !(srcA = 0#5)) then true
  else !(quadrant = 3#2)

/-- One clock of `ExceptionControl` (`decode.py` 301-423). -/
def ExcState.step (s : ExcState) (start : Bool) (w : BitVec 32) (attr : Attr) : ExcState :=
  { srcA := if start then insnRs1 w else s.srcA
    fwd := start && excFwd w
    quadrant := insnQuadrant w
    csrOp := insnFunct3 w
    roSpace := insnAccess w = 3#2
    valid :=
      if s.fwd then csrValid attr s.roSpace s.csrOp s.srcA s.quadrant
      else start && decodeValid w
    eType :=
      if s.fwd then causeIllegal
      else if start then decodeEType w
      else causeIllegal }

/-- Registers of `Decode` and its submodules (`decode.py` 608-687). -/
structure DecState where
  srcA : BitVec 5 := 0
  srcB : BitVec 5 := 0
  dst : BitVec 5 := 0
  imm : BitVec 32 := 0
  attr : Attr := ⟨false, false⟩
  map : MapState := {}
  exc : ExcState := {}
  deriving DecidableEq, Repr

/-- `decode.py` 220-244 `ImmediateGenerator`. -/
def immNext (w : BitVec 32) (old : BitVec 32) : BitVec 32 :=
  match insnOpcode w with
  | .opImm => immI w
  | .jalr => immI w
  | .load => immI w
  | .lui => immU w
  | .auipc => immU w
  | .jal => immJ w
  | .branch => immB w
  | .store => immS w
  | _ => old

/-- One clock of `Decode` (`decode.py` 649-687): `start` is `do_decode`, `w` is `insn`, which is
always the raw Wishbone read data. -/
def DecState.step (s : DecState) (start : Bool) (w : BitVec 32) : DecState :=
  { srcA := if start then insnRs1 w else s.srcA
    srcB := if start then insnRs2 w else s.srcB
    dst := if start then insnRd w else s.dst
    imm := if start then immNext w s.imm else s.imm
    attr := csrAttrOf (insnFunct12 w)
    map := s.map.step start w s.attr
    exc := s.exc.step start w s.attr }

end Sentinel
