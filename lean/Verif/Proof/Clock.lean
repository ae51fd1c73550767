import Verif.Soc.Clock
import Verif.Proof.WpCsr
import Verif.Proof.TimerCount
import Verif.Props.InterruptsDemo
/-!
# The invariant of the clock (C95)
-/

set_option linter.unusedSimpArgs false

namespace Sentinel.Clock
open Spec

variable {k : Nat} {M : Mem k} {a : Arch} {P : Plat k} {l : List Event}

/-- The request is a read of the timer's register. -/
def TimerReq (r : Req) : Prop := r.byteAdr = 0x02800000 ∧ r.we = false

instance (r : Req) : Decidable (TimerReq r) := inferInstanceAs (Decidable (_ ∧ _))

/-- The sum of what the reads of the timer's register have returned. -/
def tickOut : List Event → Nat
  | [] => 0
  | .poll _ :: l => tickOut l
  | .bus r d :: l => (if TimerReq r then d.toNat else 0) + tickOut l

theorem tickOut_append (l l' : List Event) : tickOut (l ++ l') = tickOut l + tickOut l' := by
  induction l with
  | nil => simp [tickOut]
  | cons e l ih => cases e <;> simp [tickOut, ih, Nat.add_assoc]

/-- The addresses are in place. -/
def K (a : Arch) : Prop := a.reg 5 = 0x02000000 ∧ a.reg 6 = 0x02800000 ∧ a.reg 7 = 0x03000000

/-- Interrupts are set up. -/
def Up (a : Arch) : Prop := K a ∧ a.mtvec = 0x2c ∧ a.meie = true

/-- In the handler. -/
def In (a : Arch) : Prop := Up a ∧ a.mie = false ∧ a.mpie = true ∧ a.mepc = 0x28

/-- The invariant before each instruction; `c` is the sum of what the timer has returned. -/
def CI (a : Arch) (leds : BitVec 8) (c : Nat) : Nat → Prop
  | 0 => a.mie = false ∧ leds = 0 ∧ c = 0
  | 1 => a.mie = false ∧ leds = 0 ∧ c = 0 ∧ a.reg 5 = 0x02000000
  | 2 => a.mie = false ∧ leds = 0 ∧ c = 0 ∧ a.reg 5 = 0x02000000 ∧ a.reg 6 = 0x02800000
  | 3 => a.mie = false ∧ leds = 0 ∧ c = 0 ∧ K a
  | 4 => a.mie = false ∧ leds = 0 ∧ c = 0 ∧ K a ∧ a.reg 8 = 0
  | 5 => a.mie = false ∧ leds = 0 ∧ c = 0 ∧ K a ∧ a.reg 8 = 0 ∧ a.reg 1 = 0x2c
  | 6 => a.mie = false ∧ leds = 0 ∧ c = 0 ∧ K a ∧ a.reg 8 = 0 ∧ a.mtvec = 0x2c
  | 7 => a.mie = false ∧ leds = 0 ∧ c = 0 ∧ K a ∧ a.reg 8 = 0 ∧ a.mtvec = 0x2c ∧ a.reg 1 = 0x1000
  | 8 => a.mie = false ∧ leds = 0 ∧ c = 0 ∧ K a ∧ a.reg 8 = 0 ∧ a.mtvec = 0x2c ∧ a.reg 1 = 0x800
  | 9 => a.mie = false ∧ leds = 0 ∧ c = 0 ∧ Up a ∧ a.reg 8 = 0
  | 10 => Up a ∧ a.mie = true ∧ a.reg 8 = BitVec.ofNat 32 c ∧ leds = BitVec.ofNat 8 c
  | 11 | 12 => In a ∧ a.reg 8 = BitVec.ofNat 32 c ∧ leds = BitVec.ofNat 8 c
  | 13 => In a ∧ a.reg 8 + a.reg 2 = BitVec.ofNat 32 c
  | 14 => In a ∧ a.reg 8 = BitVec.ofNat 32 c
  | 15 => In a ∧ a.reg 8 = BitVec.ofNat 32 c ∧ leds = BitVec.ofNat 8 c
  | _ => False

/-- The invariant. -/
def ClockInv (M : Mem k) (a : Arch) (P : Plat k) (l : List Event) : Prop :=
  P.ram = M ∧ ∃ i < 16, a.pc = BitVec.ofNat 32 (4 * i) ∧ CI a P.leds (tickOut l) i

/-- Instructions until the timer is read, if an interrupt is pending. -/
def mu (i : Nat) : Nat := if i ≤ 12 then 13 - i else 19 - i

/-- How many instructions ago the LEDs showed the count. -/
def age (i : Nat) : Nat := if i = 13 then 1 else if i = 14 then 2 else 0

def at_ (a : Arch) : Nat := a.pc.toNat / 4

/-- What an instruction does. -/
structure ClockStep (a : Arch) (P : Plat k) (l : List Event) (a' : Arch) (P' : Plat k) (w : List Event) : Prop where
  read : (∃ r d, .bus r d ∈ w ∧ TimerReq r ∧ r.sel.getLsbD 0 = true) ∨ (w.head? = some (.poll true) → mu (at_ a') < mu (at_ a))
  stale : P'.leds = BitVec.ofNat 8 (tickOut (l ++ w)) ∨ (P'.leds = P.leds ∧ age (at_ a') = age (at_ a) + 1)
  leds : (ledOutCsr w).length ≤ 1 ∧ (P'.leds = P.leds ∨ P'.leds = BitVec.ofNat 8 (tickOut l))

abbrev Post (M : Mem k) (a : Arch) (P : Plat k) (l : List Event) : Arch → Plat k → List Event → Prop :=
  fun a' P' l' => ClockInv M a' P' l' ∧ ∃ w, l' = l ++ w ∧ ClockStep a P l a' P' w

theorem at_of {i : Nat} (hi : i < 16) (hpc : a.pc = BitVec.ofNat 32 (4 * i)) : at_ a = i := by
  rw [at_, hpc, BitVec.toNat_ofNat, Nat.mod_eq_of_lt (by omega), Nat.mul_div_cancel_left _ (by decide)]

/-- Reduction of a step to the execution of the instruction. -/
theorem step_of {Q : Arch → Plat k → List Event → Prop} {i : Nat} {w : Word} {ins : Instr}
    (hM : HoldsProgram M clockProgram) (hP : P.ram = M) (hi : i < 16)
    (hpc : a.pc = BitVec.ofNat 32 (4 * i)) (hw : clockProgram[i]'hi = w) (hd : decode w = some ins)
    (h1 : ∀ b, if (b && a.intEnabled) = true then Q (a.takeInterrupt .asBuilt) P (l ++ [.poll b])
      else WpC Q (execInstr .asBuilt a ins) P (l ++ [.poll b])) :
    WpC Q (exec .asBuilt a (P.ram ((wordAdr a.pc).setWidth k))) P l := by
  have e : (wordAdr a.pc).setWidth k = BitVec.ofNat k i := by
    rw [hpc]
    apply BitVec.eq_of_toNat_eq
    simp only [wordAdr, BitVec.toNat_setWidth, BitVec.extractLsb'_toNat, BitVec.toNat_ofNat, Nat.shiftRight_eq_div_pow]
    rw [Nat.mod_eq_of_lt (by omega : 4 * i < 2 ^ 32), show 4 * i / 2 ^ 2 = i by omega,
      Nat.mod_eq_of_lt (by omega : i < 2 ^ 30)]
  rw [e, hP, hM i hi, hw]
  intro b
  show WpC Q (if (b && a.intEnabled) = true then _ else _) P _
  have := h1 b
  by_cases hb : (b && a.intEnabled) = true
  · rw [if_pos hb] at this ⊢; exact this
  · rw [if_neg hb] at this ⊢; rw [hd]; exact this

/-- The same, with interrupts disabled. -/
theorem step_of' {Q : Arch → Plat k → List Event → Prop} {i : Nat} {w : Word} {ins : Instr}
    (hM : HoldsProgram M clockProgram) (hP : P.ram = M) (hi : i < 16)
    (hpc : a.pc = BitVec.ofNat 32 (4 * i)) (hmie : a.mie = false) (hw : clockProgram[i]'hi = w) (hd : decode w = some ins)
    (h1 : ∀ b, WpC Q (execInstr .asBuilt a ins) P (l ++ [.poll b])) :
    WpC Q (exec .asBuilt a (P.ram ((wordAdr a.pc).setWidth k))) P l := by
  refine step_of hM hP hi hpc hw hd fun b => ?_
  have : (b && a.intEnabled) = false := by simp [Arch.intEnabled, hmie]
  rw [this, if_neg (by decide)]
  exact h1 b

/-- Conclusion of a step that only samples the interrupt line. -/
theorem goto' {i j : Nat} {a' : Arch} {w : List Event} (hP : P.ram = M) (hi : i < 16) (hj : j < 16) (hpc : a.pc = BitVec.ofNat 32 (4 * i))
    (hpc' : a'.pc = BitVec.ofNat 32 (4 * j)) (hw : (∃ b, w = [.poll b]) ∨ ∃ b b', w = [.poll b, .poll b'])
    (hC : CI a' P.leds (tickOut l) j) (hmu : w.head? = some (.poll true) → mu j < mu i)
    (hs : P.leds = BitVec.ofNat 8 (tickOut l) ∨ age j = age i + 1) : Post M a P l a' P (l ++ w) := by
  have ht : tickOut w = 0 ∧ (ledOutCsr w).length ≤ 1 := by
    rcases hw with ⟨b, rfl⟩ | ⟨b, b', rfl⟩ <;> exact ⟨rfl, Nat.zero_le _⟩
  refine ⟨⟨hP, j, hj, hpc', by rw [tickOut_append, ht.1]; exact hC⟩, w, rfl, .inr ?_, ?_, ht.2, .inl rfl⟩
  · rw [at_of hi hpc, at_of hj hpc']; exact hmu
  · rw [at_of hi hpc, at_of hj hpc', tickOut_append, ht.1]
    rcases hs with hs | hs
    · exact .inl hs
    · exact .inr ⟨rfl, hs⟩

def StepOk (M : Mem k) (i : Nat) : Prop := ∀ {a : Arch} {P : Plat k} {l : List Event}, P.ram = M →
  a.pc = BitVec.ofNat 32 (4 * i) → CI a P.leds (tickOut l) i → WpC (Post M a P l) (exec .asBuilt a (P.ram ((wordAdr a.pc).setWidth k))) P l

theorem zero_ok {v : BitVec 8} {c : Nat} (h1 : v = 0) (h2 : c = 0) : v = BitVec.ofNat 8 c := by subst h1; subst h2; rfl

variable (hM : HoldsProgram M clockProgram)
include hM

theorem case0 : StepOk M 0 := by
  intro a P l hP hpc ⟨h1, h2, h3⟩
  refine step_of' (ins := .lui 5 0x2000) hM hP (by decide) hpc h1 rfl rfl fun b => ?_
  refine goto' (i := 0) (j := 1) hP (by decide) (by decide) hpc (by show a.pc + 4 = _; rw [hpc]; rfl) (.inl ⟨b, rfl⟩) ?_ (fun _ => by decide) (.inl (zero_ok h2 h3))
  exact ⟨h1, h2, h3, rfl⟩

theorem case1 : StepOk M 1 := by
  intro a P l hP hpc ⟨h1, h2, h3, h4⟩
  refine step_of' (ins := .lui 6 0x2800) hM hP (by decide) hpc h1 rfl rfl fun b => ?_
  refine goto' (i := 1) (j := 2) hP (by decide) (by decide) hpc (by show a.pc + 4 = _; rw [hpc]; rfl) (.inl ⟨b, rfl⟩) ?_ (fun _ => by decide) (.inl (zero_ok h2 h3))
  exact ⟨h1, h2, h3, h4, rfl⟩

theorem case2 : StepOk M 2 := by
  intro a P l hP hpc ⟨h1, h2, h3, h4, h5⟩
  refine step_of' (ins := .lui 7 0x3000) hM hP (by decide) hpc h1 rfl rfl fun b => ?_
  refine goto' (i := 2) (j := 3) hP (by decide) (by decide) hpc (by show a.pc + 4 = _; rw [hpc]; rfl) (.inl ⟨b, rfl⟩) ?_ (fun _ => by decide) (.inl (zero_ok h2 h3))
  exact ⟨h1, h2, h3, h4, h5, rfl⟩

theorem case3 : StepOk M 3 := by
  intro a P l hP hpc ⟨h1, h2, h3, h4⟩
  refine step_of' (ins := .opImm .add 8 0 0) hM hP (by decide) hpc h1 rfl rfl fun b => ?_
  refine goto' (i := 3) (j := 4) hP (by decide) (by decide) hpc (by show a.pc + 4 = _; rw [hpc]; rfl) (.inl ⟨b, rfl⟩) ?_ (fun _ => by decide) (.inl (zero_ok h2 h3))
  exact ⟨h1, h2, h3, h4, rfl⟩

theorem case4 : StepOk M 4 := by
  intro a P l hP hpc ⟨h1, h2, h3, h4, h5⟩
  refine step_of' (ins := .opImm .add 1 0 0x2c) hM hP (by decide) hpc h1 rfl rfl fun b => ?_
  refine goto' (i := 4) (j := 5) hP (by decide) (by decide) hpc (by show a.pc + 4 = _; rw [hpc]; rfl) (.inl ⟨b, rfl⟩) ?_ (fun _ => by decide) (.inl (zero_ok h2 h3))
  exact ⟨h1, h2, h3, h4, h5, rfl⟩

theorem case5 : StepOk M 5 := by
  intro a P l hP hpc ⟨h1, h2, h3, h4, h5, h6⟩
  refine step_of' (ins := .csr .rw 0 (.reg 1) 0x305) hM hP (by decide) hpc h1 rfl rfl fun b b' => ?_
  rw [List.append_assoc]
  have : (b' && a.intEnabled) = false := by simp [Arch.intEnabled, h1]
  beta_reduce
  rw [this, if_neg (by decide)]
  refine goto' (i := 5) (j := 6) hP (by decide) (by decide) hpc (by show a.pc + 4 = _; rw [hpc]; rfl) (.inr ⟨b, b', rfl⟩) ?_ (fun _ => by decide) (.inl (zero_ok h2 h3))
  exact ⟨h1, h2, h3, h4, h5, by show a.reg 1 &&& _ = _; rw [h6]; rfl⟩

theorem case6 : StepOk M 6 := by
  intro a P l hP hpc ⟨h1, h2, h3, h4, h5, h6⟩
  refine step_of' (ins := .lui 1 1) hM hP (by decide) hpc h1 rfl rfl fun b => ?_
  refine goto' (i := 6) (j := 7) hP (by decide) (by decide) hpc (by show a.pc + 4 = _; rw [hpc]; rfl) (.inl ⟨b, rfl⟩) ?_ (fun _ => by decide) (.inl (zero_ok h2 h3))
  exact ⟨h1, h2, h3, h4, h5, h6, rfl⟩

theorem case7 : StepOk M 7 := by
  intro a P l hP hpc ⟨h1, h2, h3, h4, h5, h6, h7⟩
  refine step_of' (ins := .opImm .add 1 1 0x800) hM hP (by decide) hpc h1 rfl rfl fun b => ?_
  refine goto' (i := 7) (j := 8) hP (by decide) (by decide) hpc (by show a.pc + 4 = _; rw [hpc]; rfl) (.inl ⟨b, rfl⟩) ?_ (fun _ => by decide) (.inl (zero_ok h2 h3))
  exact ⟨h1, h2, h3, h4, h5, h6, by show a.reg 1 + _ = _; rw [h7]; rfl⟩

theorem case8 : StepOk M 8 := by
  intro a P l hP hpc ⟨h1, h2, h3, h4, h5, h6, h7⟩
  refine step_of' (ins := .csr .rs 0 (.reg 1) 0x304) hM hP (by decide) hpc h1 rfl rfl fun b b' => ?_
  rw [List.append_assoc]
  have : (b' && a.intEnabled) = false := by simp [Arch.intEnabled, h1]
  beta_reduce
  rw [this, if_neg (by decide)]
  refine goto' (i := 8) (j := 9) hP (by decide) (by decide) hpc (by show a.pc + 4 = _; rw [hpc]; rfl) (.inr ⟨b, b', rfl⟩) ?_ (fun _ => by decide) (.inl (zero_ok h2 h3))
  refine ⟨h1, h2, h3, ⟨h4, h6, ?_⟩, h5⟩
  show ((if a.meie = true then (0x800 : Word) else 0) ||| a.reg 1).getLsbD 11 = true
  rw [h7]
  cases a.meie <;> rfl

theorem case9 : StepOk M 9 := by
  intro a P l hP hpc ⟨h1, h2, h3, h4, h5⟩
  refine step_of' (ins := .csr .rs 0 (.imm 8) 0x300) hM hP (by decide) hpc h1 rfl rfl fun b b' => ?_
  rw [List.append_assoc]
  have : (b' && a.intEnabled) = false := by simp [Arch.intEnabled, h1]
  beta_reduce
  rw [this, if_neg (by decide)]
  refine goto' (i := 9) (j := 10) hP (by decide) (by decide) hpc (by show a.pc + 4 = _; rw [hpc]; rfl) (.inr ⟨b, b', rfl⟩) ?_ (fun _ => by decide) (.inl (zero_ok h2 h3))
  refine ⟨h4, ?_, by rw [h3]; exact h5, zero_ok h2 h3⟩
  show (((if a.mie = true then (8 : Word) else 0) ||| (if a.mpie = true then 0x80 else 0) ||| 0x1800) ||| (8#5).setWidth 32).getLsbD 3 = true
  rw [h1]
  cases a.mpie <;> rfl

theorem case10 : StepOk M 10 := by
  intro a P l hP hpc ⟨h1, h2, h3, h4⟩
  refine step_of (ins := .jal 0 0) hM hP (by decide) hpc rfl rfl fun b => ?_
  have he : a.intEnabled = true := by simp [Arch.intEnabled, h2, h1.2.2]
  cases b with
  | true =>
    rw [he, if_pos (by decide)]
    refine goto' (i := 10) (j := 11) hP (by decide) (by decide) hpc (by show a.mtvec = _; rw [h1.2.1]; rfl) (.inl ⟨_, rfl⟩) ?_ (fun _ => by decide) (.inl h4)
    exact ⟨⟨h1, rfl, h2, hpc⟩, h3, h4⟩
  | false =>
    rw [if_neg (by simp)]
    have ht : a.pc + ((0#20 ++ 0#1 : BitVec 21).signExtend 32) = BitVec.ofNat 32 (4 * 10) := by rw [hpc]; rfl
    simp only [execInstr]
    rw [if_pos (by rw [hpc]; rfl)]
    refine goto' (i := 10) (j := 10) hP (by decide) (by decide) hpc ht (.inl ⟨_, rfl⟩) ?_ (by simp) (.inl h4)
    exact ⟨h1, h2, h3, h4⟩

omit hM in
theorem lw_of {rd rs1 : Reg} {imm : BitVec 12} {adr : Word} (h : a.reg rs1 + imm.signExtend 32 = adr) (ha : adr.toNat % 4 = 0) :
    execInstr .asBuilt a (.load .lw rd rs1 imm) = .bus (readReq adr 4) fun d => .ret (a.setReg rd d).next := by
  simp only [execInstr, h, LdOp.size, Soc.loadValue_lw _ _ ha]
  rw [if_pos (by simpa [aligned] using ha)]

omit hM in
theorem In.next {rd : Reg} {v : Word} (h : In a) (hr : rd = 1 ∨ rd = 2 ∨ rd = 8) : In (a.setReg rd v).next := by
  rcases hr with rfl | rfl | rfl <;> exact h

theorem case11 : StepOk M 11 := by
  intro a P l hP hpc ⟨h1, h2, h3⟩
  refine step_of' (ins := .load .lw 1 7 4) hM hP (by decide) hpc h1.2.1 rfl rfl fun b => ?_
  rw [lw_of (adr := 0x03000004) (by rw [h1.1.1.2.2]; rfl) (by decide)]
  refine ⟨rfl, fun d _ => ?_⟩
  have e : P.afterCsr (readReq 0x03000004 4) = P := rfl
  rw [e, List.append_assoc]
  have ht : tickOut (l ++ ([.poll b] ++ [.bus (readReq 0x03000004 4) d])) = tickOut l := by rw [tickOut_append]; rfl
  have hpc' : (a.setReg 1 d).next.pc = BitVec.ofNat 32 (4 * 12) := by show a.pc + 4 = _; rw [hpc]; rfl
  refine ⟨⟨hP, 12, by decide, hpc', ?_⟩, _, rfl, .inr fun _ => ?_, .inl ?_, Nat.zero_le _, .inl rfl⟩
  · rw [ht]; exact ⟨h1.next (.inl rfl), h2, h3⟩
  · rw [at_of (by decide) hpc, at_of (by decide) hpc']; decide
  · rw [ht]; exact h3

theorem case12 : StepOk M 12 := by
  intro a P l hP hpc ⟨h1, h2, h3⟩
  refine step_of' (ins := .load .lw 2 6 0) hM hP (by decide) hpc h1.2.1 rfl rfl fun b => ?_
  rw [lw_of (adr := 0x02800000) (by rw [h1.1.1.2.1]; rfl) (by decide)]
  refine ⟨rfl, fun d _ => ?_⟩
  have e : P.afterCsr (readReq 0x02800000 4) = P := rfl
  rw [e, List.append_assoc]
  have ht : tickOut (l ++ ([.poll b] ++ [.bus (readReq 0x02800000 4) d])) = tickOut l + d.toNat := by rw [tickOut_append]; rfl
  have hpc' : (a.setReg 2 d).next.pc = BitVec.ofNat 32 (4 * 13) := by show a.pc + 4 = _; rw [hpc]; rfl
  refine ⟨⟨hP, 13, by decide, hpc', ?_⟩, _, rfl, .inl ⟨_, _, by simp; exact ⟨rfl, rfl⟩, ⟨rfl, rfl⟩, rfl⟩, .inr ⟨rfl, ?_⟩, Nat.zero_le _, .inl rfl⟩
  · rw [ht]
    refine ⟨h1.next (.inr (.inl rfl)), ?_⟩
    show a.reg 8 + d = _
    rw [h2, BitVec.ofNat_add, BitVec.ofNat_toNat, BitVec.setWidth_eq]
  · rw [at_of (by decide) hpc, at_of (by decide) hpc']; decide

theorem case13 : StepOk M 13 := by
  intro a P l hP hpc ⟨h1, h2⟩
  refine step_of' (ins := .op .add 8 8 2) hM hP (by decide) hpc h1.2.1 rfl rfl fun b => ?_
  refine goto' (i := 13) (j := 14) hP (by decide) (by decide) hpc (by show a.pc + 4 = _; rw [hpc]; rfl) (.inl ⟨b, rfl⟩) ?_ (fun _ => by decide) (.inr rfl)
  exact ⟨h1.next (.inr (.inr rfl)), h2⟩

omit hM in
theorem w_adr (v : Word) : (writeReq 0x02000000 1 v).byteAdr = 0x02000000 := by
  show 4 * (wordAdr 0x02000000).toNat = 0x02000000
  decide +kernel
omit hM in
theorem w_tgt (v : Word) : (writeReq 0x02000000 1 v).csrTarget = some .periph := by
  rw [Req.csrTarget, w_adr]; decide +kernel
omit hM in
theorem w_sel (v : Word) : (writeReq 0x02000000 1 v).sel.getLsbD 0 = true := by
  show (lanes 0x02000000 1).getLsbD 0 = true
  decide +kernel
omit hM in
theorem w_byte (c : Nat) : byteOf (writeReq 0x02000000 1 (BitVec.ofNat 32 c)).data 0 = BitVec.ofNat 8 c := by
  apply BitVec.eq_of_toNat_eq
  simp [writeReq, lane, byteOf, BitVec.extractLsb'_toNat]

theorem case14 : StepOk M 14 := by
  intro a P l hP hpc ⟨h1, h2⟩
  refine step_of' (ins := .store .sb 5 8 0) hM hP (by decide) hpc h1.2.1 rfl rfl fun b => ?_
  have ha : a.reg 5 + (0 : BitVec 12).signExtend 32 = 0x02000000 := by rw [h1.1.1.1]; rfl
  simp only [execInstr, ha]
  rw [if_pos (by decide)]
  refine ⟨by show (writeReq 0x02000000 1 (a.reg 8)).csrTarget.isSome = true; rw [w_tgt]; rfl, fun d _ => ?_⟩
  rw [List.append_assoc]
  have hb : byteOf (writeReq 0x02000000 1 (a.reg 8)).data 0 = BitVec.ofNat 8 (tickOut l) := by rw [h2, w_byte]
  have e : P.afterCsr (writeReq 0x02000000 1 (a.reg 8)) = { P with leds := BitVec.ofNat 8 (tickOut l) } := by
    rw [← hb]
    have hw : (writeReq 0x02000000 1 (a.reg 8)).we = true := rfl
    have ht := w_tgt (a.reg 8)
    have hs := w_sel (a.reg 8)
    have hq := w_adr (a.reg 8)
    unfold Plat.afterCsr
    rw [if_pos hw, ht]
    simp only
    rw [if_pos hs, Plat.setCsr, if_pos hq]
  have hlen : (ledOutCsr ([.poll b] ++ [.bus (writeReq 0x02000000 1 (a.reg 8)) d])).length ≤ 1 := by
    simp only [List.cons_append, List.nil_append, ledOutCsr, List.append_nil]
    cases (writeReq 0x02000000 1 (a.reg 8)).ledWriteCsr <;> simp
  show Post M a P l a.next (P.afterCsr (writeReq 0x02000000 1 (a.reg 8))) (l ++ ([.poll b] ++ [.bus (writeReq 0x02000000 1 (a.reg 8)) d]))
  rw [e]
  have ht : tickOut (l ++ ([.poll b] ++ [.bus (writeReq 0x02000000 1 (a.reg 8)) d])) = tickOut l := by
    have hn : ¬ TimerReq (writeReq 0x02000000 1 (a.reg 8)) := fun hx => absurd hx.2 (by simp [writeReq])
    rw [tickOut_append]
    simp only [List.cons_append, List.nil_append, tickOut, if_neg hn, Nat.add_zero]
  have hpc' : a.next.pc = BitVec.ofNat 32 (4 * 15) := by show a.pc + 4 = _; rw [hpc]; rfl
  refine ⟨⟨hP, 15, by decide, hpc', ?_⟩, _, rfl, .inr fun _ => ?_, .inl ?_, hlen, .inr rfl⟩
  · rw [ht]; exact ⟨h1, h2, rfl⟩
  · rw [at_of (by decide) hpc, at_of (by decide) hpc']; decide
  · rw [ht]

theorem case15 : StepOk M 15 := by
  intro a P l hP hpc ⟨h1, h2, h3⟩
  refine step_of' (ins := .mret) hM hP (by decide) hpc h1.2.1 rfl rfl fun b => ?_
  refine goto' (i := 15) (j := 10) hP (by decide) (by decide) hpc (by show a.mepc = _; rw [h1.2.2.2]; rfl) (.inl ⟨b, rfl⟩) ?_ (fun _ => by decide) (.inl h3)
  exact ⟨h1.1, h1.2.2.1, h2, h3⟩

theorem clock_ok : ProgC (ClockInv M) (ClockStep (k := k)) := by
  refine ⟨?_, ?_, ?_⟩
  · rintro a P l ⟨-, i, hi, hpc, -⟩
    rw [hpc, BitVec.toNat_ofNat, Nat.mod_eq_of_lt (by omega)]; omega
  · rintro a P l ⟨hP, i, hi, hpc, hC⟩ d
    refine ⟨hP, i, hi, hpc, ?_⟩
    rw [tickOut_append]
    have : tickOut [.bus (fetchReq a) d] = 0 := by
      have hn : ¬ TimerReq (fetchReq a) := by
        rintro ⟨h, -⟩
        have : (fetchReq a).byteAdr = 4 * (a.pc.toNat / 4) := by
          simp [fetchReq, Req.byteAdr, wordAdr, BitVec.extractLsb'_toNat, Nat.shiftRight_eq_div_pow]
          omega
        rw [this, hpc, BitVec.toNat_ofNat, Nat.mod_eq_of_lt (by omega)] at h
        omega
      simp [tickOut, hn]
    rw [this]; exact hC
  · rintro a P l ⟨hP, i, hi, hpc, hC⟩
    match i, hi, hpc, hC with
    | 0, _, hpc, hC => exact case0 hM hP hpc hC
    | 1, _, hpc, hC => exact case1 hM hP hpc hC
    | 2, _, hpc, hC => exact case2 hM hP hpc hC
    | 3, _, hpc, hC => exact case3 hM hP hpc hC
    | 4, _, hpc, hC => exact case4 hM hP hpc hC
    | 5, _, hpc, hC => exact case5 hM hP hpc hC
    | 6, _, hpc, hC => exact case6 hM hP hpc hC
    | 7, _, hpc, hC => exact case7 hM hP hpc hC
    | 8, _, hpc, hC => exact case8 hM hP hpc hC
    | 9, _, hpc, hC => exact case9 hM hP hpc hC
    | 10, _, hpc, hC => exact case10 hM hP hpc hC
    | 11, _, hpc, hC => exact case11 hM hP hpc hC
    | 12, _, hpc, hC => exact case12 hM hP hpc hC
    | 13, _, hpc, hC => exact case13 hM hP hpc hC
    | 14, _, hpc, hC => exact case14 hM hP hpc hC
    | 15, _, hpc, hC => exact case15 hM hP hpc hC

end Sentinel.Clock
