import Verif.Ucode.Fields
/-!
# Condition test and sequencer — `src/sentinel/control.py`
-/

namespace Sentinel

/-- `control.py` 539-548: the test multiplexer. -/
def rawTest (c : CondTest) (exception zero memValid : Bool) : Bool :=
  match c with
  | .exception => exception
  | .cmpAluOZero => zero
  | .memValid => memValid
  | .true_ => true

/-- `control.py` 539-553: the possibly inverted test. -/
def testOut (c : CondTest) (inv exception zero memValid : Bool) : Bool :=
  if inv then !rawTest c exception zero memValid else rawTest c exception zero memValid

/-- `control.py` 646-745 `Sequencer`: address of the next microinstruction.  `guard` is
`ice40_rst_guard`. -/
def seqAdr (guard : Bool) (j : JmpType) (test : Bool) (target opcodeAdr nextAdr : BitVec 8) :
    BitVec 8 :=
  if guard then nextAdr
  else match j with
    | .cont => nextAdr
    | .map => if test then target else opcodeAdr
    | .direct => if test then target else nextAdr
    | .directZero => if test then target else 0#8

end Sentinel
