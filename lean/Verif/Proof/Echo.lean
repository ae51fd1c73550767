import Verif.Soc.Echo
import Verif.Proof.ClockRun
/-!
# The instructions of the echo (C108)
-/

set_option linter.unusedSimpArgs false

namespace Sentinel.Echo
open Spec
open Clock (at_ lw_of)

variable {k : Nat} {M : Mem k} {a : Arch} {P : Plat k} {l : List Event}

/-- What holds before each instruction. -/
def EI (a : Arch) (i : Nat) : Prop := a.mie = false ∧ (1 ≤ i → a.reg 7 = 0x03000000)

/-- The invariant. -/
def EchoInv (M : Mem k) (a : Arch) (P : Plat k) (_ : List Event) : Prop :=
  P.ram = M ∧ ∃ i < 7, a.pc = BitVec.ofNat 32 (4 * i) ∧ EI a i

/-- The registers of the serial port. -/
def irqReq : Req := readReq 0x03000004 4
def dataReq : Req := readReq 0x03000000 4
def sendReq (v : Word) : Req := writeReq 0x03000000 1 v

/-- What instruction `i` does. -/
def Does (i : Nat) (a a' : Arch) (w : List Event) : Prop := ∃ b, match i with
  | 0 => at_ a' = 1 ∧ w = [.poll b]
  | 1 => ∃ d, at_ a' = 2 ∧ a'.reg 1 = d ∧ w = [.poll b, .bus irqReq d]
  | 2 => at_ a' = 3 ∧ a'.reg 1 = a.reg 1 &&& 1 ∧ w = [.poll b]
  | 3 => at_ a' = (if a.reg 1 = 0 then 1 else 4) ∧ w = [.poll b]
  | 4 => ∃ d, at_ a' = 5 ∧ a'.reg 2 = d ∧ w = [.poll b, .bus dataReq d]
  | 5 => ∃ d, at_ a' = 6 ∧ w = [.poll b, .bus (sendReq (a.reg 2)) d]
  | _ => at_ a' = 1 ∧ w = [.poll b]

def EchoStep (a : Arch) (_ : Plat k) (_ : List Event) (a' : Arch) (_ : Plat k) (w : List Event) : Prop := at_ a < 7 ∧ Does (at_ a) a a' w

abbrev Post (M : Mem k) (a : Arch) (P : Plat k) (l : List Event) : Arch → Plat k → List Event → Prop :=
  fun a' P' l' => EchoInv M a' P' l' ∧ ∃ w, l' = l ++ w ∧ EchoStep a P l a' P' w

theorem at_of {i : Nat} (hi : i < 7) (hpc : a.pc = BitVec.ofNat 32 (4 * i)) : at_ a = i := by
  rw [at_, hpc, BitVec.toNat_ofNat, Nat.mod_eq_of_lt (by omega), Nat.mul_div_cancel_left _ (by decide)]

theorem step_of {Q : Arch → Plat k → List Event → Prop} {i : Nat} {w : Word} {ins : Instr}
    (hM : HoldsProgram M echoProgram) (hP : P.ram = M) (hi : i < 7)
    (hpc : a.pc = BitVec.ofNat 32 (4 * i)) (hmie : a.mie = false) (hw : echoProgram[i]'hi = w) (hd : decode w = some ins)
    (h1 : ∀ b, WpC Q (execInstr .asBuilt a ins) P (l ++ [.poll b])) :
    WpC Q (exec .asBuilt a (P.ram ((wordAdr a.pc).setWidth k))) P l := by
  have e : (wordAdr a.pc).setWidth k = BitVec.ofNat k i := by
    rw [hpc]
    apply BitVec.eq_of_toNat_eq
    simp only [wordAdr, BitVec.toNat_setWidth, BitVec.extractLsb'_toNat, BitVec.toNat_ofNat, Nat.shiftRight_eq_div_pow]
    rw [Nat.mod_eq_of_lt (by omega : 4 * i < 2 ^ 32), show 4 * i / 2 ^ 2 = i by omega,
      Nat.mod_eq_of_lt (by omega : i < 2 ^ 30)]
  rw [e, hP, hM i hi, hw]
  intro b
  show WpC Q (if (b && a.intEnabled) = true then _ else _) P _
  have hb : (b && a.intEnabled) = false := by simp [Arch.intEnabled, hmie]
  rw [hb, if_neg (by decide), hd]
  exact h1 b

/-- Conclusion of a step. -/
theorem goto {i j : Nat} {a' : Arch} {P' : Plat k} {w : List Event} (hP : P'.ram = M) (hi : i < 7) (hj : j < 7) (hpc : a.pc = BitVec.ofNat 32 (4 * i))
    (hpc' : a'.pc = BitVec.ofNat 32 (4 * j)) (hC : EI a' j) (hw : at_ a' = j → Does i a a' w) : Post M a P l a' P' (l ++ w) :=
  ⟨⟨hP, j, hj, hpc', hC⟩, w, rfl, by rw [at_of hi hpc]; exact hi, by rw [at_of hi hpc]; exact hw (at_of hj hpc')⟩

theorem EI.jump {x : Word} {j : Nat} (h1 : a.mie = false) (h2 : a.reg 7 = 0x03000000) : EI { a with pc := x } j := ⟨h1, fun _ => h2⟩

variable (hM : HoldsProgram M echoProgram)
include hM

def StepOk (M : Mem k) (i : Nat) : Prop := ∀ {a : Arch} {P : Plat k} {l : List Event}, P.ram = M →
  a.pc = BitVec.ofNat 32 (4 * i) → EI a i → WpC (Post M a P l) (exec .asBuilt a (P.ram ((wordAdr a.pc).setWidth k))) P l

theorem case0 : StepOk M 0 := by
  intro a P l hP hpc ⟨h1, _⟩
  refine step_of (ins := .lui 7 0x3000) hM hP (by decide) hpc h1 rfl rfl fun b => ?_
  exact goto (i := 0) (j := 1) hP (by decide) (by decide) hpc (by show a.pc + 4 = _; rw [hpc]; rfl) ⟨h1, fun _ => rfl⟩ fun e => ⟨b, e, rfl⟩

theorem case1 : StepOk M 1 := by
  intro a P l hP hpc ⟨h1, h2⟩
  have h2 := h2 (Nat.le_refl _)
  refine step_of (ins := .load .lw 1 7 4) hM hP (by decide) hpc h1 rfl rfl fun b => ?_
  rw [lw_of (adr := 0x03000004) (by rw [h2]; rfl) (by decide)]
  refine ⟨rfl, fun d _ => ?_⟩
  have e : P.afterCsr (readReq 0x03000004 4) = P := rfl
  rw [e, List.append_assoc]
  exact goto (i := 1) (j := 2) hP (by decide) (by decide) hpc (by show a.pc + 4 = _; rw [hpc]; rfl) ⟨h1, fun _ => h2⟩ fun e => ⟨b, d, e, rfl, rfl⟩

theorem case2 : StepOk M 2 := by
  intro a P l hP hpc ⟨h1, h2⟩
  have h2 := h2 (by decide)
  refine step_of (ins := .opImm .and 1 1 1) hM hP (by decide) hpc h1 rfl rfl fun b => ?_
  exact goto (i := 2) (j := 3) hP (by decide) (by decide) hpc (by show a.pc + 4 = _; rw [hpc]; rfl) ⟨h1, fun _ => h2⟩ fun e => ⟨b, e, rfl, rfl⟩

theorem case3 : StepOk M 3 := by
  intro a P l hP hpc ⟨h1, h2⟩
  have h2 := h2 (by decide)
  refine step_of (ins := .branch .beq 1 0 0xFFC#12) hM hP (by decide) hpc h1 rfl rfl fun b => ?_
  have ht : a.pc + ((0xFFC#12 ++ 0#1 : BitVec 13).signExtend 32) = BitVec.ofNat 32 (4 * 1) := by rw [hpc]; rfl
  have e : brTaken .beq (a.reg 1) (a.reg 0) = decide (a.reg 1 = 0) := rfl
  simp only [execInstr, e]
  by_cases hc : a.reg 1 = 0
  · rw [if_pos (by simpa using hc), if_pos (by rw [hpc]; rfl)]
    refine goto (i := 3) (j := 1) hP (by decide) (by decide) hpc (by show a.pc + _ = _; rw [hpc]; rfl) ?_ fun e => ?_
    · exact EI.jump h1 h2
    · exact ⟨b, e.trans (if_pos hc).symm, rfl⟩
  · rw [if_neg (by simpa using hc)]
    exact goto (i := 3) (j := 4) hP (by decide) (by decide) hpc (by show a.pc + 4 = _; rw [hpc]; rfl) ⟨h1, fun _ => h2⟩
      fun e => ⟨b, by rw [if_neg hc]; exact e, rfl⟩

theorem case4 : StepOk M 4 := by
  intro a P l hP hpc ⟨h1, h2⟩
  have h2 := h2 (by decide)
  refine step_of (ins := .load .lw 2 7 0) hM hP (by decide) hpc h1 rfl rfl fun b => ?_
  rw [lw_of (adr := 0x03000000) (by rw [h2]; rfl) (by decide)]
  refine ⟨rfl, fun d _ => ?_⟩
  have e : P.afterCsr (readReq 0x03000000 4) = P := rfl
  rw [e, List.append_assoc]
  exact goto (i := 4) (j := 5) hP (by decide) (by decide) hpc (by show a.pc + 4 = _; rw [hpc]; rfl) ⟨h1, fun _ => h2⟩ fun e => ⟨b, d, e, rfl, rfl⟩

omit hM in
theorem send_adr (v : Word) : (sendReq v).byteAdr = 0x03000000 := by
  show 4 * (wordAdr 0x03000000).toNat = 0x03000000
  decide +kernel
omit hM in
theorem send_tgt (v : Word) : (sendReq v).csrTarget = some .periph := by
  rw [Req.csrTarget, send_adr]; decide +kernel
omit hM in
theorem send_sel (v : Word) : (sendReq v).sel.getLsbD 0 = true := by
  show (lanes 0x03000000 1).getLsbD 0 = true
  decide +kernel
omit hM in
theorem send_byte (v : Word) : byteOf (sendReq v).data 0 = v.setWidth 8 := by
  apply BitVec.eq_of_toNat_eq
  simp [sendReq, writeReq, lane, byteOf, BitVec.extractLsb'_toNat]

theorem case5 : StepOk M 5 := by
  intro a P l hP hpc ⟨h1, h2⟩
  have h2 := h2 (by decide)
  refine step_of (ins := .store .sb 7 2 0) hM hP (by decide) hpc h1 rfl rfl fun b => ?_
  have ha : a.reg 7 + (0 : BitVec 12).signExtend 32 = 0x03000000 := by rw [h2]; rfl
  simp only [execInstr, ha]
  rw [if_pos (by decide)]
  refine ⟨by show (sendReq (a.reg 2)).csrTarget.isSome = true; rw [send_tgt]; rfl, fun d _ => ?_⟩
  rw [List.append_assoc]
  have e : P.afterCsr (sendReq (a.reg 2)) = P := by
    have hw : (sendReq (a.reg 2)).we = true := rfl
    have ht := send_tgt (a.reg 2)
    have hs := send_sel (a.reg 2)
    have hq := send_adr (a.reg 2)
    unfold Plat.afterCsr
    rw [if_pos hw, ht]
    simp only
    rw [if_pos hs, Plat.setCsr, hq, if_neg (by decide), if_neg (by decide), if_neg (by decide)]
  show Post M a P l a.next (P.afterCsr (sendReq (a.reg 2))) (l ++ ([.poll b] ++ [.bus (sendReq (a.reg 2)) d]))
  rw [e]
  exact goto (i := 5) (j := 6) hP (by decide) (by decide) hpc (by show a.pc + 4 = _; rw [hpc]; rfl) ⟨h1, fun _ => h2⟩ fun e => ⟨b, d, e, rfl⟩

theorem case6 : StepOk M 6 := by
  intro a P l hP hpc ⟨h1, h2⟩
  have h2 := h2 (by decide)
  refine step_of (ins := .jal 0 0xFFFF6#20) hM hP (by decide) hpc h1 rfl rfl fun b => ?_
  have ht : a.pc + ((0xFFFF6#20 ++ 0#1 : BitVec 21).signExtend 32) = BitVec.ofNat 32 (4 * 1) := by rw [hpc]; rfl
  simp only [execInstr]
  rw [if_pos (by rw [hpc]; rfl)]
  refine goto (i := 6) (j := 1) hP (by decide) (by decide) hpc (by show a.pc + _ = _; rw [hpc]; rfl) ?_ fun e => ?_
  · exact EI.jump h1 h2
  · exact ⟨b, e, rfl⟩

theorem echo_ok : ProgC (EchoInv M) (EchoStep (k := k)) := by
  refine ⟨?_, fun h _ => h, ?_⟩
  · rintro a P l ⟨-, i, hi, hpc, -⟩
    rw [hpc, BitVec.toNat_ofNat, Nat.mod_eq_of_lt (by omega)]; omega
  · rintro a P l ⟨hP, i, hi, hpc, hC⟩
    match i, hi, hpc, hC with
    | 0, _, hpc, hC => exact case0 hM hP hpc hC
    | 1, _, hpc, hC => exact case1 hM hP hpc hC
    | 2, _, hpc, hC => exact case2 hM hP hpc hC
    | 3, _, hpc, hC => exact case3 hM hP hpc hC
    | 4, _, hpc, hC => exact case4 hM hP hpc hC
    | 5, _, hpc, hC => exact case5 hM hP hpc hC
    | 6, _, hpc, hC => exact case6 hM hP hpc hC

end Sentinel.Echo
