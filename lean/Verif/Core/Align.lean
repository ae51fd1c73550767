import Verif.Ucode.Fields
/-!
# Alignment circuits — `src/sentinel/align.py`
-/

namespace Sentinel

/-- `align.py` 67-99 `AddressAlign`: Wishbone `ADR_O`. -/
def wbAdr (memReq insnFetch : Bool) (pc : BitVec 30) (latchedAdr : BitVec 32) : BitVec 30 :=
  if memReq then
    if insnFetch then pc else latchedAdr.extractLsb' 2 30
  else 0#30

/-- `align.py` 67-99 `AddressAlign`: Wishbone `SEL_O`. -/
def wbSel (memReq insnFetch : Bool) (memSel : MemSel) (latchedAdr : BitVec 32) : BitVec 4 :=
  if memReq then
    if insnFetch then 0xF#4
    else match memSel with
      | .byte =>
        if latchedAdr.extractLsb' 0 2 = 0#2 then 1#4
        else if latchedAdr.extractLsb' 0 2 = 1#2 then 2#4
        else if latchedAdr.extractLsb' 0 2 = 2#2 then 4#4
        else 8#4
      | .hword => if latchedAdr.getLsbD 1 = false then 3#4 else 0xC#4
      | .word => 0xF#4
      | .auto => 0#4
  else 0#4

/-- `align.py` 153-161: the selected byte. -/
def selByte (latchedAdr d : BitVec 32) : BitVec 8 :=
  if latchedAdr.extractLsb' 0 2 = 0#2 then d.extractLsb' 0 8
  else if latchedAdr.extractLsb' 0 2 = 1#2 then d.extractLsb' 8 8
  else if latchedAdr.extractLsb' 0 2 = 2#2 then d.extractLsb' 16 8
  else d.extractLsb' 24 8

/-- `align.py` 167-171: the selected half word. -/
def selHalf (latchedAdr d : BitVec 32) : BitVec 16 :=
  if latchedAdr.getLsbD 1 = false then d.extractLsb' 0 16 else d.extractLsb' 16 16

/-- `align.py` 147-180 `ReadDataAlign`. -/
def readDataAlign (memSel : MemSel) (ext : MemExtend) (latchedAdr d : BitVec 32) : BitVec 32 :=
  match memSel with
  | .byte =>
    match ext with
    | .sign => (selByte latchedAdr d).signExtend 32
    | .zero => (selByte latchedAdr d).setWidth 32
  | .hword =>
    match ext with
    | .sign => (selHalf latchedAdr d).signExtend 32
    | .zero => (selHalf latchedAdr d).setWidth 32
  | .word => d
  | .auto => 0#32

/-- `align.py` 219-241 `WriteDataAlign`.  Lanes that are not selected are 0. -/
def writeDataAlign (memSel : MemSel) (latchedAdr d : BitVec 32) : BitVec 32 :=
  match memSel with
  | .byte =>
    if latchedAdr.extractLsb' 0 2 = 0#2 then 0#24 ++ d.extractLsb' 0 8
    else if latchedAdr.extractLsb' 0 2 = 1#2 then 0#16 ++ d.extractLsb' 0 8 ++ 0#8
    else if latchedAdr.extractLsb' 0 2 = 2#2 then 0#8 ++ d.extractLsb' 0 8 ++ 0#16
    else d.extractLsb' 0 8 ++ 0#24
  | .hword =>
    if latchedAdr.getLsbD 1 = false then 0#16 ++ d.extractLsb' 0 16
    else d.extractLsb' 0 16 ++ 0#16
  | .word => d
  | .auto => 0#32

end Sentinel
