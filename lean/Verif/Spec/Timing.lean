import Verif.Spec.Isa
/-!
# Cycle counts

The number of cycles an instruction spends without a bus request, as a function of the
instruction-set state, the word executed, and the events of the instruction (for the interrupt
samples).  The total number of cycles is this plus the cycles in which a request is on the bus, which
depend on the bus only.  Compare `doc/development/internals.md`, "Instruction Cycle Counts", which
gives throughput for a bus that answers in the second cycle: the numbers here plus 2 per bus request.
Nothing here refers to the model of the core.
-/

namespace Sentinel.Spec

/-- A computation that also returns the events it took part in (after the events `acc`). -/
def Tree.tag {α} (acc : List Event) : Tree α → Tree (α × List Event)
  | .ret x => .ret (x, acc)
  | .poll k => .poll fun b => (k b).tag (acc ++ [.poll b])
  | .bus r k => .bus r fun d => (k d).tag (acc ++ [.bus r d])

theorem Tree.Path.of_tag {α} {t : Tree α} {acc l : List Event} {p : α × List Event}
    (h : (t.tag acc).Path l p) : t.Path l p.1 ∧ p.2 = acc ++ l := by
  induction t generalizing acc l with
  | ret x => cases h; exact ⟨.ret x, by simp⟩
  | poll k ih =>
    cases h with
    | poll h =>
      obtain ⟨h1, h2⟩ := ih _ h
      exact ⟨.poll h1, by simpa using h2⟩
  | bus r k ih =>
    cases h with
    | bus h =>
      obtain ⟨h1, h2⟩ := ih _ h
      exact ⟨.bus h1, by simpa using h2⟩

/-- Shift loop: `z` cycles for amount 0. -/
def shiftCycles (z n : Nat) : Nat := if n = 0 then z else 4 + 2 * n

/-- Cycles of a CSR instruction on an implemented CSR. -/
def csrCycles (op : CsrOp) (rd : Reg) (src : CsrSrc) : Nat :=
  match op with
  | .rw => if rd = 0 then 2 else 3
  | .rs => if csrWrites op src then 5 else 3
  | .rc => if csrWrites op src then 6 else 3

/-- Cycles without a bus request after dispatch; `l` are the events after dispatch. -/
def instrCycles (a : Arch) (l : List Event) : Instr → Nat
  | .lui _ _ => 1
  | .auipc _ _ => 3
  | .jal _ imm => if targetOk (a.pc + ((imm ++ 0#1 : BitVec 21).signExtend 32)) then 4 else 7
  | .jalr _ rs1 imm => if targetOk ((a.reg rs1 + imm.signExtend 32) &&& ~~~1#32) then 4 else 7
  | .branch op rs1 rs2 imm =>
    if brTaken op (a.reg rs1) (a.reg rs2) then
      if targetOk (a.pc + ((imm ++ 0#1 : BitVec 13).signExtend 32)) then 5 else 8
    else 4
  | .load op _ rs1 imm => if aligned (a.reg rs1 + imm.signExtend 32) op.size then 4 else 7
  | .store op rs1 _ imm => if aligned (a.reg rs1 + imm.signExtend 32) op.size then 5 else 7
  | .opImm op _ _ imm =>
    match op with
    | .sll | .srl | .sra => shiftCycles 6 (imm.toNat % 32)
    | _ => 1
  | .op op _ _ rs2 =>
    match op with
    | .sll | .srl | .sra => shiftCycles 7 ((a.reg rs2).toNat % 32)
    | _ => 1
  | .fence => 1
  | .wfi => 1
  | .ecall => 4
  | .ebreak => 4
  | .mret => 4
  | .csr op rd src adr =>
    1 + match l with
      | .poll irq :: _ =>
        if irq && a.intEnabled then 4
        else match csrKind adr with
          | .absent => 4
          | .zero => if csrReadOnly adr ∧ csrWrites op src then 4 else 2
          | .impl _ => csrCycles op rd src
      | _ => 0

/-- Cycles without a bus request from dispatch of the word `w` to dispatch of the next one; `l` are
the events in between. -/
def idleCycles (a : Arch) (w : Word) (l : List Event) : Nat :=
  1 + match l with
    | .poll irq :: l' =>
      if irq && a.intEnabled then 4
      else match decode w with
        | none => 4
        | some .ecall => 4
        | some .ebreak => 4
        | some ins => instrCycles a l' ins
    | _ => 0

end Sentinel.Spec
