import Verif.Spec.Timing
/-!
# What the timing of a program depends on

The part of the instruction-set state that the bus traffic of one instruction may depend on: a
contract for programs that handle secrets ("constant-time" programming).  Nothing here refers to the
model of the core.
-/

namespace Sentinel.Spec

/-- What an instruction gives away about the values it works with. -/
inductive Detail where
  /-- Nothing. -/
  | none
  /-- A branch: whether it is taken. -/
  | taken (b : Bool)
  /-- A load or store: the address.  JALR and MRET: where the program goes on. -/
  | adr (p : Word)
  /-- A shift by a register: the amount. -/
  | amount (n : Nat)
  deriving DecidableEq

/-- The detail that each instruction gives away. -/
def detail (a : Arch) : Instr → Detail
  | .branch op rs1 rs2 _ => .taken (brTaken op (a.reg rs1) (a.reg rs2))
  | .load _ _ rs1 imm => .adr (a.reg rs1 + imm.signExtend 32)
  | .store _ rs1 _ imm => .adr (a.reg rs1 + imm.signExtend 32)
  | .jalr _ rs1 imm => .adr ((a.reg rs1 + imm.signExtend 32) &&& ~~~1#32)
  | .mret => .adr a.mepc
  | .op op _ _ rs2 =>
    match op with
    | .sll | .srl | .sra => .amount ((a.reg rs2).toNat % 32)
    | _ => .none
  | _ => .none

/-- What the execution of a word gives away: where it is and what it is, whether interrupts are enabled and where traps
go to, and the detail.  In particular nothing else about the values in the registers, and nothing about
the contents of the memory but the instruction. -/
structure Leak where
  pc : Word
  word : Word
  intEnabled : Bool
  mtvec : Word
  detail : Option Detail
  deriving DecidableEq

/-- What the word `w`, executed in the state `a`, gives away. -/
def leak (a : Arch) (w : Word) : Leak := ⟨a.pc, w, a.intEnabled, a.mtvec, (decode w).map (detail a)⟩

/-- The data access of the word `w` in the state `a`, if it is a load or store that does not trap. -/
def dataReq (a : Arch) (w : Word) : Option Req :=
  match decode w with
  | some (.load op _ rs1 imm) =>
    if aligned (a.reg rs1 + imm.signExtend 32) op.size then some (readReq (a.reg rs1 + imm.signExtend 32) op.size) else none
  | some (.store op rs1 rs2 imm) =>
    if aligned (a.reg rs1 + imm.signExtend 32) op.size then some (writeReq (a.reg rs1 + imm.signExtend 32) op.size (a.reg rs2)) else none
  | _ => none

/-- Where the program goes on after the word `w` in the state `a`, if the interrupt line is `i0` when it is dispatched and `i1` one cycle later. -/
def nextPc (a : Arch) (w : Word) (i0 i1 : Bool) : Word :=
  if i0 && a.intEnabled then a.mtvec
  else match decode w with
    | none => a.mtvec
    | some .ecall => a.mtvec
    | some .ebreak => a.mtvec
    | some .mret => a.mepc
    | some (.jal _ imm) =>
      if targetOk (a.pc + ((imm ++ 0#1 : BitVec 21).signExtend 32)) then a.pc + ((imm ++ 0#1 : BitVec 21).signExtend 32) else a.mtvec
    | some (.jalr _ rs1 imm) =>
      if targetOk ((a.reg rs1 + imm.signExtend 32) &&& ~~~1#32) then (a.reg rs1 + imm.signExtend 32) &&& ~~~1#32 else a.mtvec
    | some (.branch op rs1 rs2 imm) =>
      if brTaken op (a.reg rs1) (a.reg rs2) then
        if targetOk (a.pc + ((imm ++ 0#1 : BitVec 13).signExtend 32)) then a.pc + ((imm ++ 0#1 : BitVec 13).signExtend 32) else a.mtvec
      else a.pc + 4
    | some (.load op _ rs1 imm) => if aligned (a.reg rs1 + imm.signExtend 32) op.size then a.pc + 4 else a.mtvec
    | some (.store op rs1 _ imm) => if aligned (a.reg rs1 + imm.signExtend 32) op.size then a.pc + 4 else a.mtvec
    | some (.csr op _ src adr) =>
      if i1 && a.intEnabled then a.mtvec
      else match csrKind adr with
        | .absent => a.mtvec
        | .zero => if csrReadOnly adr ∧ csrWrites op src then a.mtvec else a.pc + 4
        | .impl _ => a.pc + 4
    | some _ => a.pc + 4

/-- Cycles without a request between dispatch of the word `w` and the request of its data access: 4 for a load, 5 for a store. -/
def dataStart (w : Word) : Nat :=
  match decode w with
  | some (.store _ _ _ _) => 5
  | _ => 4

/-- What goes on on the bus in a cycle, but for the data: nothing, or a request with its address, byte lanes and direction. -/
structure Traffic where
  adr : BitVec 30
  sel : BitVec 4
  we : Bool
  deriving DecidableEq

/-- A request without its data. -/
def Req.traffic (r : Req) : Traffic := ⟨r.adr, r.sel, r.we⟩

/-- The fetch of the instruction at `p`. -/
def fetchTraffic (p : Word) : Traffic := ⟨p.extractLsb' 2 30, 0xF, false⟩

/-- The bus traffic from dispatch of the word `w` in the state `a` up to dispatch of the next word: how many cycles without a
request, then which request, until it is answered; and so on.  `i0` is the interrupt line when the word is dispatched, `i1` one
cycle later. -/
def script (a : Arch) (w : Word) (i0 i1 : Bool) : List (Nat × Traffic) :=
  match (if i0 && a.intEnabled then none else dataReq a w) with
  | some r => [(dataStart w, r.traffic), (1, fetchTraffic (a.pc + 4))]
  | none => [(idleCycles a w [.poll i0, .poll i1], fetchTraffic (nextPc a w i0 i1))]

/-! ## Equal leaks -/

variable {a a' : Arch} {w w' : Word}

theorem leak_basic (h : leak a w = leak a' w') : a.pc = a'.pc ∧ w = w' ∧ a.intEnabled = a'.intEnabled ∧ a.mtvec = a'.mtvec := by
  simp only [leak, Leak.mk.injEq] at h
  exact ⟨h.1, h.2.1, h.2.2.1, h.2.2.2.1⟩

theorem leak_detail (h : leak a w = leak a' w') {ins : Instr} (hd : decode w = some ins) : detail a ins = detail a' ins := by
  obtain ⟨-, rfl, -⟩ := leak_basic h
  simp only [leak, Leak.mk.injEq, hd, Option.map_some, Option.some.injEq] at h
  exact h.2.2.2.2

/-- Equal leaks: the program goes on at the same address. -/
theorem nextPc_leak (h : leak a w = leak a' w) (i0 i1 : Bool) : nextPc a w i0 i1 = nextPc a' w i0 i1 := by
  obtain ⟨h1, -, h3, h4⟩ := leak_basic h
  unfold nextPc
  rw [h3, h4, h1]
  congr 1
  cases hd : decode w with
  | none => rfl
  | some ins =>
    have e := leak_detail h hd
    cases ins
    case branch => injection e with e; simp only [e]
    case load => injection e with e; simp only [e]
    case store => injection e with e; simp only [e]
    case jalr => injection e with e; simp only [e]
    case mret => injection e with e
    all_goals rfl

/-- Equal leaks: the same access, but for the data. -/
theorem dataReq_leak (h : leak a w = leak a' w) : (dataReq a w).map Req.traffic = (dataReq a' w).map Req.traffic := by
  unfold dataReq
  cases hd : decode w with
  | none => rfl
  | some ins =>
    have e := leak_detail h hd
    cases ins
    case load => injection e with e; simp only [e]
    case store => injection e with e; simp only [e]; split <;> rfl
    all_goals rfl

/-- Equal leaks: the same times. -/
theorem idleCycles_leak (h : leak a w = leak a' w) (i0 i1 : Bool) :
    idleCycles a w [.poll i0, .poll i1] = idleCycles a' w [.poll i0, .poll i1] := by
  obtain ⟨h1, -, h3, h4⟩ := leak_basic h
  simp only [idleCycles, h3]
  congr 2
  cases hd : decode w with
  | none => rfl
  | some ins =>
    have e := leak_detail h hd
    cases ins
    case branch => injection e with e; simp only [instrCycles, e, h1]
    case load => injection e with e; simp only [instrCycles, e]
    case store => injection e with e; simp only [instrCycles, e]
    case jalr => injection e with e; simp only [instrCycles, e]
    case jal => simp only [instrCycles, h1]
    case csr => simp only [instrCycles, h3]
    case op op _ _ _ => cases op <;> first | rfl | (injection e with e; simp only [instrCycles, e])
    all_goals rfl

/-- Equal leaks: the same traffic. -/
theorem script_leak (h : leak a w = leak a' w') (i0 i1 : Bool) : script a w i0 i1 = script a' w' i0 i1 := by
  obtain ⟨h1, rfl, h3, h4⟩ := leak_basic h
  have e := dataReq_leak h
  simp only [script, h3, idleCycles_leak h, nextPc_leak h, h1]
  split
  · rename_i r hr
    split at hr
    · cases hr
    · rename_i hi
      rw [hr] at e
      simp only [hi, if_false, Bool.false_eq_true]
      cases hd : dataReq a' w with
      | none => rw [hd] at e; cases e
      | some r' =>
        rw [hd] at e
        simp only [Option.map_some, Option.some.injEq] at e
        simp only [e]
  · rename_i hr
    split at hr
    · rename_i hi; simp only [hi, if_true]
    · rename_i hi
      rw [hr] at e
      simp only [hi, if_false, Bool.false_eq_true]
      cases hd : dataReq a' w with
      | none => rfl
      | some r' => rw [hd] at e; cases e

end Sentinel.Spec
