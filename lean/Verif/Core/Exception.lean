import Verif.Ucode.Fields
/-!
# Exception router — `src/sentinel/exception.py`
-/

namespace Sentinel

/-- `mcause_latch` (`exception.py` 224): cause (31 bits) and interrupt flag (bit 31). -/
structure CauseLatch where
  cause : BitVec 31 := 0
  interrupt : Bool := false
  deriving DecidableEq, Repr

/-- The latch as a 32-bit word (`MCause` layout, `csr.py` 327-379). -/
def CauseLatch.word (c : CauseLatch) : BitVec 32 := BitVec.ofBool c.interrupt ++ c.cause

/-- `exception.py` 245-249, 254-258: misalignment test for data accesses. -/
def dataMisaligned (sel : MemSel) (aluO : BitVec 32) : Bool :=
  (sel = .hword && aluO.getLsbD 0) || (sel = .word && (aluO.getLsbD 0 || aluO.getLsbD 1))

/-- `exception.py` 237-238: an enabled external interrupt is pending. -/
def intPending (mie meip meie : Bool) : Bool := mie && meip && meie

/-- `exception.py` 220-264: the combinational `exception` output. -/
def exceptionOut (ctl : ExceptCtl) (sel : MemSel) (aluO : BitVec 32) (valid pending : Bool) : Bool :=
  match ctl with
  | .latchDecoder => valid || pending
  | .latchStoreAdr => dataMisaligned sel aluO
  | .latchLoadAdr => dataMisaligned sel aluO
  | .latchJal => aluO.getLsbD 1
  | _ => false

/-- `exception.py` 232-264: next value of `mcause_latch`.  No statement ever clears `interrupt`. -/
def CauseLatch.step (c : CauseLatch) (ctl : ExceptCtl) (sel : MemSel) (aluO : BitVec 32)
    (valid : Bool) (eType : BitVec 31) (pending : Bool) : CauseLatch :=
  match ctl with
  | .latchDecoder =>
    if pending then { cause := 11, interrupt := true }
    else if valid then { c with cause := eType }
    else c
  | .latchStoreAdr => if dataMisaligned sel aluO then { c with cause := 6 } else c
  | .latchLoadAdr => if dataMisaligned sel aluO then { c with cause := 4 } else c
  | .latchJal => if aluO.getLsbD 1 then { c with cause := 0 } else c
  | _ => c

end Sentinel
