import Verif.Proof.CsrTable
import Verif.Spec.Retire
/-!
# One instruction: from dispatch to dispatch
-/

set_option linter.unusedSimpArgs false

namespace Sentinel
open Ucode Spec

/-- What is counted during one instruction agrees with the specification: the request-free cycles,
whether it trapped, that its destination register and CSR were written, and that they were not if it
trapped. -/
def Tally (ar : Arch) (w : Word) (l : List Event) (n : Cnt) : Prop :=
  n.idle = idleCycles ar w l ∧ n.exc = traps ar w l ∧
    (n.st = true → n.exc = true ∨ decode w = some .mret) ∧
    (n.exc = false → ∀ ins, decode w = some ins →
      (∀ r, destReg ins = some r → r ≠ 0 → n.wr = true) ∧
      (∀ r, destCsr ins = some r → n.cw = true)) ∧
    (n.exc = true → n.wr = false ∧ n.cw = false)

/-- The final relation of one instruction with its count. -/
def Timed (ar : Arch) (w : Word) (p : (Arch × Word) × List Event) (s : State) (n : Cnt) : Prop :=
  AtDispatch p.1 s ∧ Tally ar w p.2 n

/-- Does a decoded instruction trap?  `l` are the events after dispatch. -/
def instrTraps (a : Arch) (l : List Event) : Instr → Bool
  | .ecall => true
  | .ebreak => true
  | .jal _ imm => !targetOk (a.pc + ((imm ++ 0#1 : BitVec 21).signExtend 32))
  | .jalr _ rs1 imm => !targetOk ((a.reg rs1 + imm.signExtend 32) &&& ~~~1#32)
  | .branch op rs1 rs2 imm => brTaken op (a.reg rs1) (a.reg rs2) &&
      !targetOk (a.pc + ((imm ++ 0#1 : BitVec 13).signExtend 32))
  | .load op _ rs1 imm => !aligned (a.reg rs1 + imm.signExtend 32) op.size
  | .store op rs1 _ imm => !aligned (a.reg rs1 + imm.signExtend 32) op.size
  | .csr op _ src adr =>
    decide (csrKind adr = .absent ∨ (csrReadOnly adr = true ∧ csrWrites op src = true)) ||
      match l with
        | .poll irq' :: _ => irq' && a.intEnabled
        | _ => false
  | _ => false

theorem isSome_ite {β : Type} (p : Prop) [Decidable p] (x : β) :
    (if p then some x else none).isSome = decide p := by
  by_cases h : p <;> simp [h]

theorem traps_some {ar : Arch} {w : Word} {irq : Bool} {l : List Event} {ins : Instr}
    (hi : (irq && ar.intEnabled) = false) (hdec : decode w = some ins) :
    traps ar w (.poll irq :: l) = instrTraps ar l ins := by
  cases ins <;>
    simp only [traps, hi, excCause, isCsr, hdec, instrTraps, targetOk, aligned, isSome_ite,
      Option.isSome_some, Option.isSome_none, Bool.false_or, Bool.false_and, Bool.or_false,
      Bool.true_and, Bool.or_true, Bool.true_or, decide_not, ne_eq, Bool.decide_and,
      Bool.decide_eq_true]
  all_goals rcases l with _ | ⟨_ | _, _⟩ <;> rfl

theorem traps_none {ar : Arch} {w : Word} {irq : Bool} {l : List Event} (hdec : decode w = none) :
    traps ar w (.poll irq :: l) = true := by
  simp [traps, excCause, hdec]

theorem traps_irq {ar : Arch} {w : Word} {irq : Bool} {l : List Event}
    (hi : (irq && ar.intEnabled) = true) : traps ar w (.poll irq :: l) = true := by
  simp [traps, hi]

theorem tally_irq {ar : Arch} {w : Word} {l : List Event} (hi : ar.intEnabled = true) :
    Tally ar w (.poll true :: l) (0 + .trap 5) := by
  refine ⟨?_, ?_, ?_⟩
  · simp [idleCycles, hi]
  · rw [traps_irq (by simp [hi])]; rfl
  · simp

variable {ar : Arch} {w : Word} {s : State} {pv : Bool}

theorem fin_tag {ar' : Arch} {acc : List Event} {m : Cnt}
    (h : ∀ d, Tally ar w (acc ++ [.bus (fetchReq ar') d]) m) :
    Fin (Timed ar w) ar' m ((fetch ar').tag acc) :=
  ⟨_, rfl, fun d _ hs => .done ⟨hs, h d⟩⟩

/-- The tree after dispatch. -/
def rest (ar : Arch) (w : Word) (irq : Bool) : Tree ((Arch × Word) × List Event) :=
  ((if irq && ar.intEnabled then Tree.ret (ar.takeInterrupt .asBuilt)
    else match decode w with
      | none => .ret (ar.exception .asBuilt (illegalCause .asBuilt w))
      | some ins => execInstr .asBuilt ar ins).bind fetch).tag [.poll irq]

theorem cycle_tag : (cycle .asBuilt (ar, w)).tag [] = .poll (rest ar w) := rfl

theorem rest_none {irq : Bool} (h0 : (irq && ar.intEnabled) = false) (h : decode w = none) :
    rest ar w irq = (fetch (ar.exception .asBuilt (illegalCause .asBuilt w))).tag [.poll irq] := by
  simp [rest, h0, h]

theorem rest_some {irq : Bool} {ins : Instr} (h0 : (irq && ar.intEnabled) = false)
    (h : decode w = some ins) :
    rest ar w irq = ((execInstr .asBuilt ar ins).bind fetch).tag [.poll irq] := by
  simp [rest, h0, h]

/-- Dispatch of an instruction that is not a CSR instruction and raises no decoder exception. -/
theorem exec_go {e : BitVec 8} {u : UInsn} {ins : Instr} (h : AtDispatch (ar, w) s)
    (hdec : decode w = some ins) (hgo : Go w e) (hu : rom e = u)
    (H : ∀ irq d0 b o mem mie mpie meie rb pa d c da wd pc, (irq && ar.intEnabled) = false →
        Dec (keepOf w d0) d → Rel ar mem mie mpie meie c → ar.pc = pc ++ 0#2 →
        Impl (Timed ar w) false ⟨u, e + 1#8, false, false, ar.reg (insnRs1 w), b, o, pc, mem,
          ar.reg (insnRs2 w), ⟨mie, mpie, meie, rb, pa⟩, d, c, da, wd⟩
          (((execInstr .asBuilt ar ins).bind fetch).tag [.poll irq]) (0 + 1)) :
    Impl (Timed ar w) pv s (.poll (rest ar w)) 0 := by
  obtain ⟨g1, g2, g3⟩ := hgo
  refine dispatch h rfl ?_ ?_ ?_ ?_
  · intro hi
    simp only [rest, hi, Bool.true_and, if_true]
    refine fin_tag fun d => ?_
    exact tally_irq hi
  · intro irq _ hv; rw [g1] at hv; cases hv
  · intro irq hirq _ _ d0 b o mem mie mpie meie rb pa d c da wd pc hd hrel hpc
    rw [rest_some hirq hdec, g3, hu]
    exact H irq d0 b o mem mie mpie meie rb pa d c da wd pc hirq hd hrel hpc
  · intro irq _ _ hc; rw [g2] at hc; cases hc

/-- Dispatch of a word that raises a decoder exception. -/
theorem exec_exc {cause : BitVec 31} (h : AtDispatch (ar, w) s)
    (hv : decodeValid w = true) (he : decodeEType w = cause)
    (hr : ∀ irq, (irq && ar.intEnabled) = false →
      rest ar w irq = (fetch (ar.exception .asBuilt cause)).tag [.poll irq])
    (hn : ∀ irq l, (irq && ar.intEnabled) = false → Tally ar w (.poll irq :: l) (0 + .trap 5)) :
    Impl (Timed ar w) pv s (.poll (rest ar w)) 0 := by
  refine dispatch h rfl ?_ ?_ ?_ ?_
  · intro hi
    simp only [rest, hi, Bool.true_and, if_true]
    refine fin_tag fun d => ?_
    exact tally_irq hi
  · intro irq hirq _
    rw [hr irq hirq, he]
    refine fin_tag fun d => ?_
    exact hn irq _ hirq
  · intro irq _ hv'; rw [hv] at hv'; cases hv'
  · intro irq _ hv'; rw [hv] at hv'; cases hv'

theorem bit0_add (x y : Word) : (x + y).getLsbD 0 = (x.getLsbD 0 ^^ y.getLsbD 0) := by
  rw [BitVec.getLsbD_add (by omega)]; simp [BitVec.carry, Nat.mod_one]

theorem ofNat_shamt (imm : BitVec 12) : (imm.signExtend 32).toNat % 32 = imm.toNat % 32 := by
  have h5 : ∀ v : BitVec 32, v.toNat % 32 = (v.extractLsb' 0 5).toNat := by
    intro v; rw [BitVec.extractLsb'_toNat]; simp
  have h5' : ∀ v : BitVec 12, v.toNat % 32 = (v.extractLsb' 0 5).toNat := by
    intro v; rw [BitVec.extractLsb'_toNat]; simp
  rw [h5, h5']
  congr 1
  apply BitVec.eq_of_getLsbD_eq
  intro i hi
  simp only [BitVec.getLsbD_extractLsb', BitVec.getLsbD_signExtend]
  simp [hi, show i < 32 by omega, show i < 12 by omega]

theorem shamt_small {imm : BitVec 12} (h : imm.toNat < 32) : (imm.signExtend 32).toNat < 32 := by
  have hm : imm.msb = false := by
    rw [BitVec.msb_eq_decide]; simp; omega
  rw [BitVec.signExtend_eq_setWidth_of_msb_false hm, BitVec.toNat_setWidth_of_le (by omega)]
  exact h

theorem exec_opImm {op rd rs1 imm} (h : AtDispatch (ar, w) s)
    (hdec : decode w = some (.opImm op rd rs1 imm)) :
    Impl (Timed ar w) pv s (.poll (rest ar w)) 0 := by
  obtain ⟨hg, h1, h2, h3, h4, h5⟩ := decoded hdec
  cases op <;> first | exact absurd rfl h4 | skip
  case add =>
    refine exec_go h hdec hg rom_40 fun irq d0 b o mem mie mpie meie rb pa d c da wd pc hi hd hrel hpc => ?_
    refine r_40 hd hrel hpc ?_
    simp only [keepOf, h1, h2, h3, ofNat_shamt]
    refine fin_tag fun d => ?_
    simp [Tally, traps_some hi hdec, instrTraps, destReg, destCsr, idleCycles, hi, hdec, instrCycles, shiftCycles]
  case sll =>
    refine exec_go h hdec hg rom_41 fun irq d0 b o mem mie mpie meie rb pa d c da wd pc hi hd hrel hpc => ?_
    refine r_41 hd hrel hpc (by simp only [keepOf, h3]; exact shamt_small (h5 (by decide))) ?_
    simp only [keepOf, h1, h2, h3, ofNat_shamt]
    rw [← ofNat_shamt]
    refine fin_tag fun d => ?_
    simp [Tally, traps_some hi hdec, instrTraps, destReg, destCsr, idleCycles, hi, hdec, instrCycles, shiftCycles, ofNat_shamt]
  case slt =>
    refine exec_go h hdec hg rom_42 fun irq d0 b o mem mie mpie meie rb pa d c da wd pc hi hd hrel hpc => ?_
    refine r_42 hd hrel hpc ?_
    simp only [keepOf, h1, h2, h3, ofNat_shamt]
    refine fin_tag fun d => ?_
    simp [Tally, traps_some hi hdec, instrTraps, destReg, destCsr, idleCycles, hi, hdec, instrCycles, shiftCycles]
  case sltu =>
    refine exec_go h hdec hg rom_43 fun irq d0 b o mem mie mpie meie rb pa d c da wd pc hi hd hrel hpc => ?_
    refine r_43 hd hrel hpc ?_
    simp only [keepOf, h1, h2, h3, ofNat_shamt]
    refine fin_tag fun d => ?_
    simp [Tally, traps_some hi hdec, instrTraps, destReg, destCsr, idleCycles, hi, hdec, instrCycles, shiftCycles]
  case xor =>
    refine exec_go h hdec hg rom_44 fun irq d0 b o mem mie mpie meie rb pa d c da wd pc hi hd hrel hpc => ?_
    refine r_44 hd hrel hpc ?_
    simp only [keepOf, h1, h2, h3, ofNat_shamt]
    refine fin_tag fun d => ?_
    simp [Tally, traps_some hi hdec, instrTraps, destReg, destCsr, idleCycles, hi, hdec, instrCycles, shiftCycles]
  case srl =>
    refine exec_go h hdec hg rom_45 fun irq d0 b o mem mie mpie meie rb pa d c da wd pc hi hd hrel hpc => ?_
    refine r_45 hd hrel hpc (by simp only [keepOf, h3]; exact shamt_small (h5 (by decide))) ?_
    simp only [keepOf, h1, h2, h3, ofNat_shamt]
    rw [← ofNat_shamt]
    refine fin_tag fun d => ?_
    simp [Tally, traps_some hi hdec, instrTraps, destReg, destCsr, idleCycles, hi, hdec, instrCycles, shiftCycles, ofNat_shamt]
  case sra =>
    refine exec_go h hdec hg rom_4d fun irq d0 b o mem mie mpie meie rb pa d c da wd pc hi hd hrel hpc => ?_
    refine r_4d hd hrel hpc ?_
    simp only [keepOf, h1, h2, h3, ofNat_shamt]
    rw [← ofNat_shamt]
    refine fin_tag fun d => ?_
    simp [Tally, traps_some hi hdec, instrTraps, destReg, destCsr, idleCycles, hi, hdec, instrCycles, shiftCycles, ofNat_shamt]
  case or =>
    refine exec_go h hdec hg rom_46 fun irq d0 b o mem mie mpie meie rb pa d c da wd pc hi hd hrel hpc => ?_
    refine r_46 hd hrel hpc ?_
    simp only [keepOf, h1, h2, h3, ofNat_shamt]
    refine fin_tag fun d => ?_
    simp [Tally, traps_some hi hdec, instrTraps, destReg, destCsr, idleCycles, hi, hdec, instrCycles, shiftCycles]
  case and =>
    refine exec_go h hdec hg rom_47 fun irq d0 b o mem mie mpie meie rb pa d c da wd pc hi hd hrel hpc => ?_
    refine r_47 hd hrel hpc ?_
    simp only [keepOf, h1, h2, h3, ofNat_shamt]
    refine fin_tag fun d => ?_
    simp [Tally, traps_some hi hdec, instrTraps, destReg, destCsr, idleCycles, hi, hdec, instrCycles, shiftCycles]

theorem exec_op {op rd rs1 rs2} (h : AtDispatch (ar, w) s)
    (hdec : decode w = some (.op op rd rs1 rs2)) :
    Impl (Timed ar w) pv s (.poll (rest ar w)) 0 := by
  obtain ⟨hg, h1, h2, h3⟩ := decoded hdec
  cases op
  case add =>
    refine exec_go h hdec hg rom_c0 fun irq d0 b o mem mie mpie meie rb pa d c da wd pc hi hd hrel hpc => ?_
    refine r_c0 hd hrel hpc ?_
    simp only [keepOf, h1, h2, h3]
    refine fin_tag fun d => ?_
    simp [Tally, traps_some hi hdec, instrTraps, destReg, destCsr, idleCycles, hi, hdec, instrCycles, shiftCycles]
  case sub =>
    refine exec_go h hdec hg rom_c8 fun irq d0 b o mem mie mpie meie rb pa d c da wd pc hi hd hrel hpc => ?_
    refine r_c8 hd hrel hpc ?_
    simp only [keepOf, h1, h2, h3]
    refine fin_tag fun d => ?_
    simp [Tally, traps_some hi hdec, instrTraps, destReg, destCsr, idleCycles, hi, hdec, instrCycles, shiftCycles]
  case sll =>
    refine exec_go h hdec hg rom_c1 fun irq d0 b o mem mie mpie meie rb pa d c da wd pc hi hd hrel hpc => ?_
    refine r_c1 hd hrel hpc ?_
    simp only [keepOf, h1, h2, h3]
    refine fin_tag fun d => ?_
    simp [Tally, traps_some hi hdec, instrTraps, destReg, destCsr, idleCycles, hi, hdec, instrCycles, shiftCycles]
  case slt =>
    refine exec_go h hdec hg rom_c2 fun irq d0 b o mem mie mpie meie rb pa d c da wd pc hi hd hrel hpc => ?_
    refine r_c2 hd hrel hpc ?_
    simp only [keepOf, h1, h2, h3]
    refine fin_tag fun d => ?_
    simp [Tally, traps_some hi hdec, instrTraps, destReg, destCsr, idleCycles, hi, hdec, instrCycles, shiftCycles]
  case sltu =>
    refine exec_go h hdec hg rom_c3 fun irq d0 b o mem mie mpie meie rb pa d c da wd pc hi hd hrel hpc => ?_
    refine r_c3 hd hrel hpc ?_
    simp only [keepOf, h1, h2, h3]
    refine fin_tag fun d => ?_
    simp [Tally, traps_some hi hdec, instrTraps, destReg, destCsr, idleCycles, hi, hdec, instrCycles, shiftCycles]
  case xor =>
    refine exec_go h hdec hg rom_c4 fun irq d0 b o mem mie mpie meie rb pa d c da wd pc hi hd hrel hpc => ?_
    refine r_c4 hd hrel hpc ?_
    simp only [keepOf, h1, h2, h3]
    refine fin_tag fun d => ?_
    simp [Tally, traps_some hi hdec, instrTraps, destReg, destCsr, idleCycles, hi, hdec, instrCycles, shiftCycles]
  case srl =>
    refine exec_go h hdec hg rom_c5 fun irq d0 b o mem mie mpie meie rb pa d c da wd pc hi hd hrel hpc => ?_
    refine r_c5 hd hrel hpc ?_
    simp only [keepOf, h1, h2, h3]
    refine fin_tag fun d => ?_
    simp [Tally, traps_some hi hdec, instrTraps, destReg, destCsr, idleCycles, hi, hdec, instrCycles, shiftCycles]
  case sra =>
    refine exec_go h hdec hg rom_cd fun irq d0 b o mem mie mpie meie rb pa d c da wd pc hi hd hrel hpc => ?_
    refine r_cd hd hrel hpc ?_
    simp only [keepOf, h1, h2, h3]
    refine fin_tag fun d => ?_
    simp [Tally, traps_some hi hdec, instrTraps, destReg, destCsr, idleCycles, hi, hdec, instrCycles, shiftCycles]
  case or =>
    refine exec_go h hdec hg rom_c6 fun irq d0 b o mem mie mpie meie rb pa d c da wd pc hi hd hrel hpc => ?_
    refine r_c6 hd hrel hpc ?_
    simp only [keepOf, h1, h2, h3]
    refine fin_tag fun d => ?_
    simp [Tally, traps_some hi hdec, instrTraps, destReg, destCsr, idleCycles, hi, hdec, instrCycles, shiftCycles]
  case and =>
    refine exec_go h hdec hg rom_c7 fun irq d0 b o mem mie mpie meie rb pa d c da wd pc hi hd hrel hpc => ?_
    refine r_c7 hd hrel hpc ?_
    simp only [keepOf, h1, h2, h3]
    refine fin_tag fun d => ?_
    simp [Tally, traps_some hi hdec, instrTraps, destReg, destCsr, idleCycles, hi, hdec, instrCycles, shiftCycles]

theorem exec_lui {rd imm} (h : AtDispatch (ar, w) s) (hdec : decode w = some (.lui rd imm)) :
    Impl (Timed ar w) pv s (.poll (rest ar w)) 0 := by
  obtain ⟨hg, h1, h3⟩ := decoded hdec
  · refine exec_go h hdec hg rom_d0 fun irq d0 b o mem mie mpie meie rb pa d c da wd pc hi hd hrel hpc => ?_
    refine r_d0 hd hrel hpc ?_
    simp only [keepOf, h1, h3, BitVec.zero_add]
    refine fin_tag fun d => ?_
    simp [Tally, traps_some hi hdec, instrTraps, destReg, destCsr, idleCycles, hi, hdec, instrCycles, shiftCycles]

theorem exec_auipc {rd imm} (h : AtDispatch (ar, w) s) (hdec : decode w = some (.auipc rd imm)) :
    Impl (Timed ar w) pv s (.poll (rest ar w)) 0 := by
  obtain ⟨hg, h1, h3⟩ := decoded hdec
  · refine exec_go h hdec hg rom_50 fun irq d0 b o mem mie mpie meie rb pa d c da wd pc hi hd hrel hpc => ?_
    refine r_50 hd hrel hpc ?_
    simp only [keepOf, h1, h3]
    rw [BitVec.add_comm]
    refine fin_tag fun d => ?_
    simp [Tally, traps_some hi hdec, instrTraps, destReg, destCsr, idleCycles, hi, hdec, instrCycles, shiftCycles]

theorem jal_even (imm : BitVec 20) {p : Word} {q : BitVec 30} (hp : p = q ++ 0#2) :
    (p + (imm ++ 0#1 : BitVec 21).signExtend 32).getLsbD 0 = false := by
  rw [bit0_add, hp, BitVec.getLsbD_append, BitVec.getLsbD_signExtend, BitVec.getLsbD_append]
  rfl

theorem br_even (imm : BitVec 12) {p : Word} {q : BitVec 30} (hp : p = q ++ 0#2) :
    (p + (imm ++ 0#1 : BitVec 13).signExtend 32).getLsbD 0 = false := by
  rw [bit0_add, hp, BitVec.getLsbD_append, BitVec.getLsbD_signExtend, BitVec.getLsbD_append]
  rfl

theorem exec_jal {rd imm} (h : AtDispatch (ar, w) s) (hdec : decode w = some (.jal rd imm)) :
    Impl (Timed ar w) pv s (.poll (rest ar w)) 0 := by
  obtain ⟨hg, h1, h3⟩ := decoded hdec
  · refine exec_go h hdec hg rom_b0 fun irq d0 b o mem mie mpie meie rb pa d c da wd pc hi hd hrel hpc => ?_
    have e : (keepOf w d0).imm + ar.pc = ar.pc + (imm ++ 0#1 : BitVec 21).signExtend 32 := by
      simp only [keepOf, h3]; rw [BitVec.add_comm]
    refine r_b0 hd hrel hpc (by rw [e]; exact jal_even imm hpc) (fun ht => ?_) (fun ht => ?_)
    all_goals
      rw [e] at ht
      simp only [e, execInstr, ht, if_true, if_false, Bool.false_eq_true, Tree.bind_ret]
    · rw [BitVec.add_comm 4#32 ar.pc]
      simp only [keepOf, h1]
      refine fin_tag fun d => ?_
      simp [Tally, traps_some hi hdec, instrTraps, destReg, destCsr, idleCycles, hi, hdec, instrCycles, ht]
    · refine fin_tag fun d => ?_
      simp [Tally, traps_some hi hdec, instrTraps, destReg, destCsr, idleCycles, hi, hdec, instrCycles, ht]

theorem exec_jalr {rd rs1 imm} (h : AtDispatch (ar, w) s)
    (hdec : decode w = some (.jalr rd rs1 imm)) :
    Impl (Timed ar w) pv s (.poll (rest ar w)) 0 := by
  obtain ⟨hg, h1, h2, h3⟩ := decoded hdec
  · refine exec_go h hdec hg rom_98 fun irq d0 b o mem mie mpie meie rb pa d c da wd pc hi hd hrel hpc => ?_
    have e : ar.reg (insnRs1 w) + (keepOf w d0).imm = ar.reg rs1 + imm.signExtend 32 := by
      simp only [keepOf, h3, h2]
    refine r_98 hd hrel hpc (fun ht => ?_) (fun ht => ?_)
    all_goals
      rw [e] at ht
      simp only [e, execInstr, ht, if_true, if_false, Bool.false_eq_true, Tree.bind_ret]
    · rw [BitVec.add_comm 4#32 ar.pc]
      simp only [keepOf, h1]
      refine fin_tag fun d => ?_
      refine ⟨?_, ?_, ?_⟩
      · simp only [idleCycles, hi, hdec, instrCycles, ht, List.singleton_append, if_true, if_false,
          Bool.false_eq_true]
        rfl
      · rw [List.singleton_append, traps_some hi hdec]
        simp only [instrTraps, ht]; rfl
      · simp [hdec, destReg, destCsr]
    · refine fin_tag fun d => ?_
      refine ⟨?_, ?_, ?_⟩
      · simp only [idleCycles, hi, hdec, instrCycles, ht, List.singleton_append, if_true, if_false,
          Bool.false_eq_true]
        rfl
      · rw [List.singleton_append, traps_some hi hdec]
        simp only [instrTraps, ht]; rfl
      · simp [hdec, destReg, destCsr]

theorem exec_branch {op rs1 rs2 imm} (h : AtDispatch (ar, w) s)
    (hdec : decode w = some (.branch op rs1 rs2 imm)) :
    Impl (Timed ar w) pv s (.poll (rest ar w)) 0 := by
  obtain ⟨hg, h1, h2, h3⟩ := decoded hdec
  have e : ∀ d0, (keepOf w d0).imm + ar.pc = ar.pc + (imm ++ 0#1 : BitVec 13).signExtend 32 := by
    intro d0; simp only [keepOf, h3]; rw [BitVec.add_comm]
  cases op
  case beq =>
    refine exec_go h hdec hg rom_88 fun irq d0 b o mem mie mpie meie rb pa d c da wd pc hi hd hrel hpc => ?_
    refine r_88 hd hrel hpc (by rw [e]; exact br_even imm hpc) (fun hn => ?_) (fun hn ht => ?_)
      (fun hn ht => ?_)
    all_goals
      simp only [h1, h2] at hn
      first | rw [e] at ht | skip
      simp only [e, execInstr, hn, if_true, if_false, Bool.false_eq_true, Tree.bind_ret]
      first | simp only [ht, if_true, if_false, Bool.false_eq_true, Tree.bind_ret] | skip
      refine fin_tag fun d => ?_
      first
        | simp [Tally, traps_some hi hdec, instrTraps, destReg, destCsr, idleCycles, hi, hdec, instrCycles, hn, ht]
        | simp [Tally, traps_some hi hdec, instrTraps, destReg, destCsr, idleCycles, hi, hdec, instrCycles, hn]
  case bne =>
    refine exec_go h hdec hg rom_89 fun irq d0 b o mem mie mpie meie rb pa d c da wd pc hi hd hrel hpc => ?_
    refine r_89 hd hrel hpc (by rw [e]; exact br_even imm hpc) (fun hn => ?_) (fun hn ht => ?_)
      (fun hn ht => ?_)
    all_goals
      simp only [h1, h2] at hn
      first | rw [e] at ht | skip
      simp only [e, execInstr, hn, if_true, if_false, Bool.false_eq_true, Tree.bind_ret]
      first | simp only [ht, if_true, if_false, Bool.false_eq_true, Tree.bind_ret] | skip
      refine fin_tag fun d => ?_
      first
        | simp [Tally, traps_some hi hdec, instrTraps, destReg, destCsr, idleCycles, hi, hdec, instrCycles, hn, ht]
        | simp [Tally, traps_some hi hdec, instrTraps, destReg, destCsr, idleCycles, hi, hdec, instrCycles, hn]
  case blt =>
    refine exec_go h hdec hg rom_8c fun irq d0 b o mem mie mpie meie rb pa d c da wd pc hi hd hrel hpc => ?_
    refine r_8c hd hrel hpc (by rw [e]; exact br_even imm hpc) (fun hn => ?_) (fun hn ht => ?_)
      (fun hn ht => ?_)
    all_goals
      simp only [h1, h2] at hn
      first | rw [e] at ht | skip
      simp only [e, execInstr, hn, if_true, if_false, Bool.false_eq_true, Tree.bind_ret]
      first | simp only [ht, if_true, if_false, Bool.false_eq_true, Tree.bind_ret] | skip
      refine fin_tag fun d => ?_
      first
        | simp [Tally, traps_some hi hdec, instrTraps, destReg, destCsr, idleCycles, hi, hdec, instrCycles, hn, ht]
        | simp [Tally, traps_some hi hdec, instrTraps, destReg, destCsr, idleCycles, hi, hdec, instrCycles, hn]
  case bge =>
    refine exec_go h hdec hg rom_8d fun irq d0 b o mem mie mpie meie rb pa d c da wd pc hi hd hrel hpc => ?_
    refine r_8d hd hrel hpc (by rw [e]; exact br_even imm hpc) (fun hn => ?_) (fun hn ht => ?_)
      (fun hn ht => ?_)
    all_goals
      simp only [h1, h2] at hn
      first | rw [e] at ht | skip
      simp only [e, execInstr, hn, if_true, if_false, Bool.false_eq_true, Tree.bind_ret]
      first | simp only [ht, if_true, if_false, Bool.false_eq_true, Tree.bind_ret] | skip
      refine fin_tag fun d => ?_
      first
        | simp [Tally, traps_some hi hdec, instrTraps, destReg, destCsr, idleCycles, hi, hdec, instrCycles, hn, ht]
        | simp [Tally, traps_some hi hdec, instrTraps, destReg, destCsr, idleCycles, hi, hdec, instrCycles, hn]
  case bltu =>
    refine exec_go h hdec hg rom_8e fun irq d0 b o mem mie mpie meie rb pa d c da wd pc hi hd hrel hpc => ?_
    refine r_8e hd hrel hpc (by rw [e]; exact br_even imm hpc) (fun hn => ?_) (fun hn ht => ?_)
      (fun hn ht => ?_)
    all_goals
      simp only [h1, h2] at hn
      first | rw [e] at ht | skip
      simp only [e, execInstr, hn, if_true, if_false, Bool.false_eq_true, Tree.bind_ret]
      first | simp only [ht, if_true, if_false, Bool.false_eq_true, Tree.bind_ret] | skip
      refine fin_tag fun d => ?_
      first
        | simp [Tally, traps_some hi hdec, instrTraps, destReg, destCsr, idleCycles, hi, hdec, instrCycles, hn, ht]
        | simp [Tally, traps_some hi hdec, instrTraps, destReg, destCsr, idleCycles, hi, hdec, instrCycles, hn]
  case bgeu =>
    refine exec_go h hdec hg rom_8f fun irq d0 b o mem mie mpie meie rb pa d c da wd pc hi hd hrel hpc => ?_
    refine r_8f hd hrel hpc (by rw [e]; exact br_even imm hpc) (fun hn => ?_) (fun hn ht => ?_)
      (fun hn ht => ?_)
    all_goals
      simp only [h1, h2] at hn
      first | rw [e] at ht | skip
      simp only [e, execInstr, hn, if_true, if_false, Bool.false_eq_true, Tree.bind_ret]
      first | simp only [ht, if_true, if_false, Bool.false_eq_true, Tree.bind_ret] | skip
      refine fin_tag fun d => ?_
      first
        | simp [Tally, traps_some hi hdec, instrTraps, destReg, destCsr, idleCycles, hi, hdec, instrCycles, hn, ht]
        | simp [Tally, traps_some hi hdec, instrTraps, destReg, destCsr, idleCycles, hi, hdec, instrCycles, hn]

theorem exec_load {op rd rs1 imm} (h : AtDispatch (ar, w) s)
    (hdec : decode w = some (.load op rd rs1 imm)) :
    Impl (Timed ar w) pv s (.poll (rest ar w)) 0 := by
  obtain ⟨hg, h1, h2, h3⟩ := decoded hdec
  have e : ∀ d0, ar.reg (insnRs1 w) + (keepOf w d0).imm = ar.reg rs1 + imm.signExtend 32 := by
    intro d0; simp only [keepOf, h3, h2]
  cases op
  case lb =>
    refine exec_go h hdec hg rom_08 fun irq d0 b o mem mie mpie meie rb pa d c da wd pc hi hd hrel hpc => ?_
    have ha : aligned (ar.reg rs1 + imm.signExtend 32) (LdOp.size .lb) = true := by
      simp [aligned, LdOp.size, Nat.mod_one]
    simp only [execInstr, ha, if_true, Tree.bind_bus, Tree.tag, Tree.bind_ret]
    rw [← e d0]
    refine r_08 hd hrel hpc fun x => ?_
    simp only [e]
    simp only [keepOf, h1]
    refine fin_tag fun d => ?_
    simp [Tally, traps_some hi hdec, instrTraps, destReg, destCsr, idleCycles, hi, hdec, instrCycles, ha]
  case lbu =>
    refine exec_go h hdec hg rom_0c fun irq d0 b o mem mie mpie meie rb pa d c da wd pc hi hd hrel hpc => ?_
    have ha : aligned (ar.reg rs1 + imm.signExtend 32) (LdOp.size .lbu) = true := by
      simp [aligned, LdOp.size, Nat.mod_one]
    simp only [execInstr, ha, if_true, Tree.bind_bus, Tree.tag, Tree.bind_ret]
    rw [← e d0]
    refine r_0c hd hrel hpc fun x => ?_
    simp only [e]
    simp only [keepOf, h1]
    refine fin_tag fun d => ?_
    simp [Tally, traps_some hi hdec, instrTraps, destReg, destCsr, idleCycles, hi, hdec, instrCycles, ha]
  case lh =>
    refine exec_go h hdec hg rom_09 fun irq d0 b o mem mie mpie meie rb pa d c da wd pc hi hd hrel hpc => ?_
    refine r_09 hd hrel hpc (fun ha => ?_) (fun ha => ?_)
    · simp only [e] at ha ⊢
      refine ⟨fun x => (fetch (ar.setReg rd (loadValue .lh (ar.reg rs1 + imm.signExtend 32) x)).next).tag
        ([.poll irq] ++ [.bus (readReq (ar.reg rs1 + imm.signExtend 32) 2) x]), ?_, fun x => ?_⟩
      · simp only [execInstr, LdOp.size, ha, if_true, Tree.bind_bus, Tree.tag, Tree.bind_ret]
      · simp only [keepOf, h1]
        refine fin_tag fun d => ?_
        simp [Tally, traps_some hi hdec, instrTraps, destReg, destCsr, idleCycles, hi, hdec, instrCycles, ha, LdOp.size]
    · simp only [e] at ha
      simp only [execInstr, LdOp.size, ha, if_false, Bool.false_eq_true, Tree.bind_ret]
      refine fin_tag fun d => ?_
      simp [Tally, traps_some hi hdec, instrTraps, destReg, destCsr, idleCycles, hi, hdec, instrCycles, ha, LdOp.size]
  case lhu =>
    refine exec_go h hdec hg rom_0d fun irq d0 b o mem mie mpie meie rb pa d c da wd pc hi hd hrel hpc => ?_
    refine r_0d hd hrel hpc (fun ha => ?_) (fun ha => ?_)
    · simp only [e] at ha ⊢
      refine ⟨fun x => (fetch (ar.setReg rd (loadValue .lhu (ar.reg rs1 + imm.signExtend 32) x)).next).tag
        ([.poll irq] ++ [.bus (readReq (ar.reg rs1 + imm.signExtend 32) 2) x]), ?_, fun x => ?_⟩
      · simp only [execInstr, LdOp.size, ha, if_true, Tree.bind_bus, Tree.tag, Tree.bind_ret]
      · simp only [keepOf, h1]
        refine fin_tag fun d => ?_
        simp [Tally, traps_some hi hdec, instrTraps, destReg, destCsr, idleCycles, hi, hdec, instrCycles, ha, LdOp.size]
    · simp only [e] at ha
      simp only [execInstr, LdOp.size, ha, if_false, Bool.false_eq_true, Tree.bind_ret]
      refine fin_tag fun d => ?_
      simp [Tally, traps_some hi hdec, instrTraps, destReg, destCsr, idleCycles, hi, hdec, instrCycles, ha, LdOp.size]
  case lw =>
    refine exec_go h hdec hg rom_0a fun irq d0 b o mem mie mpie meie rb pa d c da wd pc hi hd hrel hpc => ?_
    refine r_0a hd hrel hpc (fun ha => ?_) (fun ha => ?_)
    · simp only [e] at ha ⊢
      refine ⟨fun x => (fetch (ar.setReg rd (loadValue .lw (ar.reg rs1 + imm.signExtend 32) x)).next).tag
        ([.poll irq] ++ [.bus (readReq (ar.reg rs1 + imm.signExtend 32) 4) x]), ?_, fun x => ?_⟩
      · simp only [execInstr, LdOp.size, ha, if_true, Tree.bind_bus, Tree.tag, Tree.bind_ret]
      · simp only [keepOf, h1]
        refine fin_tag fun d => ?_
        simp [Tally, traps_some hi hdec, instrTraps, destReg, destCsr, idleCycles, hi, hdec, instrCycles, ha, LdOp.size]
    · simp only [e] at ha
      simp only [execInstr, LdOp.size, ha, if_false, Bool.false_eq_true, Tree.bind_ret]
      refine fin_tag fun d => ?_
      simp [Tally, traps_some hi hdec, instrTraps, destReg, destCsr, idleCycles, hi, hdec, instrCycles, ha, LdOp.size]

theorem exec_store {op rs1 rs2 imm} (h : AtDispatch (ar, w) s)
    (hdec : decode w = some (.store op rs1 rs2 imm)) :
    Impl (Timed ar w) pv s (.poll (rest ar w)) 0 := by
  obtain ⟨hg, h1, h2, h3⟩ := decoded hdec
  have e : ∀ d0, ar.reg (insnRs1 w) + (keepOf w d0).imm = ar.reg rs1 + imm.signExtend 32 := by
    intro d0; simp only [keepOf, h3, h1]
  have e2 : ∀ d0, (keepOf w d0).srcB = rs2 := by intro d0; simp only [keepOf, h2]
  cases op
  case sb =>
    refine exec_go h hdec hg rom_80 fun irq d0 b o mem mie mpie meie rb pa d c da wd pc hi hd hrel hpc => ?_
    have ha : aligned (ar.reg rs1 + imm.signExtend 32) (StOp.size .sb) = true := by
      simp [aligned, StOp.size, Nat.mod_one]
    simp only [execInstr, ha, if_true, Tree.bind_bus, Tree.tag, Tree.bind_ret]
    rw [← e d0, ← e2 d0]
    refine r_80 hd hrel hpc fun x => ?_
    simp only [e]
    refine fin_tag fun d => ?_
    simp [Tally, traps_some hi hdec, instrTraps, destReg, destCsr, idleCycles, hi, hdec, instrCycles, ha]
  case sh =>
    refine exec_go h hdec hg rom_81 fun irq d0 b o mem mie mpie meie rb pa d c da wd pc hi hd hrel hpc => ?_
    refine r_81 hd hrel hpc (fun ha => ?_) (fun ha => ?_)
    · simp only [e, e2] at ha ⊢
      refine ⟨fun x => (fetch ar.next).tag ([.poll irq] ++
        [.bus (writeReq (ar.reg rs1 + imm.signExtend 32) 2 (ar.reg rs2)) x]), ?_, fun x => ?_⟩
      · simp only [execInstr, StOp.size, ha, if_true, Tree.bind_bus, Tree.tag, Tree.bind_ret]
      · refine fin_tag fun d => ?_
        simp [Tally, traps_some hi hdec, instrTraps, destReg, destCsr, idleCycles, hi, hdec, instrCycles, ha, StOp.size]
    · simp only [e] at ha
      simp only [execInstr, StOp.size, ha, if_false, Bool.false_eq_true, Tree.bind_ret]
      refine fin_tag fun d => ?_
      simp [Tally, traps_some hi hdec, instrTraps, destReg, destCsr, idleCycles, hi, hdec, instrCycles, ha, StOp.size]
  case sw =>
    refine exec_go h hdec hg rom_82 fun irq d0 b o mem mie mpie meie rb pa d c da wd pc hi hd hrel hpc => ?_
    refine r_82 hd hrel hpc (fun ha => ?_) (fun ha => ?_)
    · simp only [e, e2] at ha ⊢
      refine ⟨fun x => (fetch ar.next).tag ([.poll irq] ++
        [.bus (writeReq (ar.reg rs1 + imm.signExtend 32) 4 (ar.reg rs2)) x]), ?_, fun x => ?_⟩
      · simp only [execInstr, StOp.size, ha, if_true, Tree.bind_bus, Tree.tag, Tree.bind_ret]
      · refine fin_tag fun d => ?_
        simp [Tally, traps_some hi hdec, instrTraps, destReg, destCsr, idleCycles, hi, hdec, instrCycles, ha, StOp.size]
    · simp only [e] at ha
      simp only [execInstr, StOp.size, ha, if_false, Bool.false_eq_true, Tree.bind_ret]
      refine fin_tag fun d => ?_
      simp [Tally, traps_some hi hdec, instrTraps, destReg, destCsr, idleCycles, hi, hdec, instrCycles, ha, StOp.size]

theorem exec_fence (h : AtDispatch (ar, w) s) (hdec : decode w = some .fence) :
    Impl (Timed ar w) pv s (.poll (rest ar w)) 0 := by
  refine exec_go h hdec (decoded hdec) rom_30 fun irq d0 b o mem mie mpie meie rb pa d c da wd pc hi hd hrel hpc => ?_
  · refine r_30 hd hrel hpc ?_
    refine fin_tag fun d => ?_
    simp [Tally, traps_some hi hdec, instrTraps, destReg, destCsr, idleCycles, hi, hdec, instrCycles, shiftCycles]

theorem exec_wfi (h : AtDispatch (ar, w) s) (hdec : decode w = some .wfi) :
    Impl (Timed ar w) pv s (.poll (rest ar w)) 0 := by
  refine exec_go h hdec (decoded hdec) rom_30 fun irq d0 b o mem mie mpie meie rb pa d c da wd pc hi hd hrel hpc => ?_
  · refine r_30 hd hrel hpc ?_
    refine fin_tag fun d => ?_
    simp [Tally, traps_some hi hdec, instrTraps, destReg, destCsr, idleCycles, hi, hdec, instrCycles, shiftCycles]

theorem exec_mret (h : AtDispatch (ar, w) s) (hdec : decode w = some .mret) :
    Impl (Timed ar w) pv s (.poll (rest ar w)) 0 := by
  refine exec_go h hdec (decoded hdec) rom_f8 fun irq d0 b o mem mie mpie meie rb pa d c da wd pc hi hd hrel hpc => ?_
  · refine r_f8 hd hrel ?_
    refine fin_tag fun d => ?_
    simp [Tally, traps_some hi hdec, instrTraps, destReg, destCsr, idleCycles, hi, hdec, instrCycles, shiftCycles]

theorem exec_none (h : AtDispatch (ar, w) s) (hdec : decode w = none) :
    Impl (Timed ar w) pv s (.poll (rest ar w)) 0 := by
  obtain ⟨h1, h2⟩ := undecoded hdec
  exact exec_exc h h1 h2 (fun irq hi => rest_none hi hdec)
    (fun irq l hi => by simp [Tally, traps_none hdec, instrTraps, idleCycles, hi, hdec])

theorem exec_ecall (h : AtDispatch (ar, w) s) (hdec : decode w = some .ecall) :
    Impl (Timed ar w) pv s (.poll (rest ar w)) 0 := by
  obtain ⟨h1, h2⟩ := decoded hdec
  exact exec_exc h h1 h2 (fun irq hi => by rw [rest_some hi hdec]; rfl)
    (fun irq l hi => by simp [Tally, traps_some hi hdec, instrTraps, idleCycles, hi, hdec])

theorem exec_ebreak (h : AtDispatch (ar, w) s) (hdec : decode w = some .ebreak) :
    Impl (Timed ar w) pv s (.poll (rest ar w)) 0 := by
  obtain ⟨h1, h2⟩ := decoded hdec
  exact exec_exc h h1 h2 (fun irq hi => by rw [rest_some hi hdec]; rfl)
    (fun irq l hi => by simp [Tally, traps_some hi hdec, instrTraps, idleCycles, hi, hdec])

end Sentinel
