import Verif.Spec.Traps
/-!
# What an instruction did, as seen from outside

Nothing here refers to the model of the core.
-/

namespace Sentinel.Spec

/-- The instruction `w`, executed in state `a` with events `l`, ended in a trap: its first interrupt
sample was taken, or (CSR instructions sample the line twice) the second one was, or the word itself
raises an exception. -/
def traps (a : Arch) (w : Word) (l : List Event) : Bool :=
  match l with
  | .poll irq :: l' =>
    (irq && a.intEnabled) || (excCause a w).isSome ||
      (isCsr w && match l' with
        | .poll irq' :: _ => irq' && a.intEnabled
        | _ => false)
  | _ => false

/-- The destination register of an instruction that has one. -/
def destReg : Instr → Option Reg
  | .lui rd _ | .auipc rd _ | .jal rd _ | .jalr rd _ _ | .load _ rd _ _ | .opImm _ rd _ _
  | .op _ rd _ _ | .csr _ rd _ _ => some rd
  | _ => none

/-- The implemented CSR an instruction writes. -/
def destCsr : Instr → Option Csr
  | .csr op _ src adr =>
    if csrWrites op src then
      match csrKind adr with
      | .impl c => some c
      | _ => none
    else none
  | _ => none

/-- The read-only-zero CSRs that are reported: mvendorid, marchid, mimpid, mhartid, mconfigptr, misa,
mstatush, mtval, mcycle(h), minstret(h), mhpmcounter3(h), mcountinhibit, mhpmevent3. -/
def reportedZeroCsrs : List (BitVec 12) :=
  [0xF11, 0xF12, 0xF13, 0xF14, 0xF15,
   0x301, 0x310, 0x343,
   0xB00, 0xB80, 0xB02, 0xB82, 0xB03, 0xB83,
   0x320, 0x323]

/-- The 64-bit counters. -/
inductive Counter where
  | mcycle | minstret | mhpmcounter3

/-- The CSR that is the lower half of a counter. -/
def Counter.lo : Counter → BitVec 12
  | .mcycle => 0xB00
  | .minstret => 0xB02
  | .mhpmcounter3 => 0xB03

/-- The CSR that is the upper half of a counter. -/
def Counter.hi : Counter → BitVec 12
  | .mcycle => 0xB80
  | .minstret => 0xB82
  | .mhpmcounter3 => 0xB83

/-- The last bus access among some events: the request and the data returned. -/
def lastAccess (l : List Event) : Option (Req × Word) :=
  (l.filterMap fun
    | .bus r d => some (r, d)
    | .poll _ => none).getLast?

end Sentinel.Spec
