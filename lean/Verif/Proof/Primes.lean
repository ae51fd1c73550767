import Mathlib.Tactic.IntervalCases
import Verif.Soc.Primes
import Verif.Proof.Wp
import Verif.Proof.PrimeSeq
/-!
# The invariant of the prime number firmware
-/

set_option linter.unusedSimpArgs false

namespace Sentinel.Primes
open Spec

/-- Outputs so far: the first numbers of the sequence. -/
def Good (h : List (BitVec 8)) : Prop := h = (List.range h.length).map fun i => BitVec.ofNat 8 (shown i)

/-- Outputs so far, and the next one is the first prime from `n` on. -/
def Nx (h : List (BitVec 8)) (n : Nat) : Prop := Good h ∧ shown h.length = nextP n

/-- The register holds the number. -/
abbrev RN (a : Arch) (r : Reg) (n : Nat) : Prop := a.reg r = BitVec.ofNat 32 n
abbrev RI (a : Arch) (r : Reg) (n : Int) : Prop := a.reg r = BitVec.ofInt 32 n

/-- The constants are in place. -/
def K (a : Arch) : Prop := RN a 9 0x02000000 ∧ RN a 19 256

/-- The candidate `n` is to be tested. -/
def Cand (a : Arch) (h : List (BitVec 8)) (n : Nat) : Prop := K a ∧ RN a 8 n ∧ 2 ≤ n ∧ n ≤ 255 ∧ Nx h n

/-- The candidate `n` is done. -/
def Done (a : Arch) (h : List (BitVec 8)) (n : Nat) : Prop := K a ∧ RN a 8 n ∧ 2 ≤ n ∧ n ≤ 255 ∧ Nx h (n + 1)

/-- The candidate `n` has no divisor below `d`. -/
def Div (a : Arch) (h : List (BitVec 8)) (n d : Nat) : Prop :=
  Cand a h n ∧ RN a 18 d ∧ 2 ≤ d ∧ d ≤ n ∧ ∀ e < d, 2 ≤ e → ¬ e ∣ n

/-- The invariant before each instruction. -/
def PI (a : Arch) (h : List (BitVec 8)) : Nat → Prop
  | 0 => h = []
  | 1 => h = [] ∧ RN a 8 2
  | 2 => h = [] ∧ RN a 8 2 ∧ RN a 9 0x02000000
  | 3 => ∃ n, Done a h n
  | 4 => ∃ n, K a ∧ RN a 8 n ∧ 3 ≤ n ∧ n ≤ 256 ∧ Nx h n
  | 5 => K a ∧ RN a 8 256 ∧ Nx h 256
  | 6 => ∃ n, Cand a h n
  | 7 => ∃ n d, Div a h n d
  | 8 => ∃ n d, Div a h n d ∧ d < n
  | 9 => ∃ n d, Div a h n d ∧ d < n ∧ RN a 10 n
  | 10 => ∃ n d, Div a h n d ∧ d < n ∧ RN a 10 n ∧ RN a 11 d
  | 11 => ∃ n d, Div a h n d ∧ d < n ∧ RN a 10 n ∧ RN a 11 d ∧ RN a 1 40
  | 12 => ∃ n d v, Div a h n d ∧ d < n ∧ RI a 10 v ∧ (v = 0 ↔ d ∣ n) ∧ -255 ≤ v ∧ v ≤ 0
  | 13 => ∃ n d, Div a h n d ∧ d < n ∧ ¬ d ∣ n
  | 14 => ∃ n d, Div a h n d ∧ 2 < d
  | 15 => ∃ n, Cand a h n ∧ Nat.Prime n
  | 16 => ∃ n, Done a h n
  | 17 => ∃ n, Done a h n ∧ RN a 1 64
  | 18 => ∃ n, Done a h n
  | 19 => ∃ n d, Div a h n d ∧ d < n ∧ RN a 10 n ∧ RN a 11 d ∧ RN a 1 48
  | 20 => ∃ n d v, Div a h n d ∧ d < n ∧ RN a 10 v ∧ RN a 11 d ∧ RN a 1 48 ∧ RN a 5 1 ∧
      1 ≤ v ∧ v ≤ n ∧ (d ∣ n ↔ d ∣ v)
  | 21 => ∃ n d v, Div a h n d ∧ d < n ∧ RI a 10 v ∧ RN a 11 d ∧ RN a 1 48 ∧ RN a 5 1 ∧
      -d < v ∧ v ≤ n ∧ (d ∣ n ↔ (d : Int) ∣ v)
  | 22 => ∃ n d v, Div a h n d ∧ d < n ∧ RI a 10 v ∧ RN a 1 48 ∧ (v = 0 ↔ d ∣ n) ∧ -255 ≤ v ∧ v ≤ 0
  | 23 => ∃ n, Done a h n ∧ RN a 1 72
  | 24 => ∃ n, Done a h n ∧ RN a 1 72 ∧ RN a 5 0x58000
  | 25 => ∃ n c, Done a h n ∧ RN a 1 72 ∧ RN a 5 c ∧ 1 ≤ c ∧ c ≤ 360000
  | 26 => ∃ n c, Done a h n ∧ RN a 1 72 ∧ RN a 5 c ∧ c < 360000
  | 27 => ∃ n, Done a h n ∧ RN a 1 72
  | _ => False

/-- Decreases from candidate to candidate until the next prime. -/
def rank (n : Nat) : Nat := if n = 2 then 0 else if n ≤ 251 then 251 - n else 257 - n

/-- Decreases with every instruction until the next output. -/
def mu (a : Arch) (i : Nat) : Nat :=
  let n := (a.reg 8).toNat
  let d := (a.reg 18).toNat
  let W := 2000000
  match i with
  | 0 => 1000 * W + 3
  | 1 => 1000 * W + 2
  | 2 => 1000 * W + 1
  | 3 => rank (n + 1) * W + 300001
  | 4 => rank n * W + 300000
  | 5 => rank n * W + 299999
  | 6 => rank n * W + 299998
  | 7 => rank n * W + (n - d) * 1000 + 999
  | 8 => rank n * W + (n - d) * 1000 + 998
  | 9 => rank n * W + (n - d) * 1000 + 997
  | 10 => rank n * W + (n - d) * 1000 + 996
  | 11 => rank n * W + (n - d) * 1000 + 995
  | 12 => rank n * W + (n - d) * 1000 + 98
  | 13 => rank n * W + (n - d) * 1000 + 97
  | 14 => rank n * W + (n - d) * 1000 + 1000
  | 15 => rank n * W + 500
  | 16 => rank (n + 1) * W + 1300010
  | 17 => rank (n + 1) * W + 1300009
  | 18 => rank (n + 1) * W + 300002
  | 19 => rank n * W + (n - d) * 1000 + 994
  | 20 => rank n * W + (n - d) * 1000 + 2 * (a.reg 10).toInt.toNat + 100
  | 21 => rank n * W + (n - d) * 1000 + 2 * (a.reg 10).toInt.toNat + 101
  | 22 => rank n * W + (n - d) * 1000 + 99
  | 23 => rank (n + 1) * W + 1300008
  | 24 => rank (n + 1) * W + 1300007
  | 25 => rank (n + 1) * W + 2 * (a.reg 5).toNat + 300100
  | 26 => rank (n + 1) * W + 2 * (a.reg 5).toNat + 300101
  | 27 => rank (n + 1) * W + 300050
  | _ => 0

variable {k : Nat} {M : Mem k} {a : Arch} {P : Plat k} {h : List (BitVec 8)}

/-- The invariant. -/
def PrimesInv (M : Mem k) (a : Arch) (P : Plat k) (h : List (BitVec 8)) : Prop :=
  P.ram = M ∧ a.mie = false ∧ ∃ i < 28, a.pc = BitVec.ofNat 32 (4 * i) ∧ PI a h i

/-- The measure. -/
def primesMu (a : Arch) : Nat := mu a (a.pc.toNat / 4)

theorem primesMu_at {i : Nat} (hi : i < 28) (hpc : a.pc = BitVec.ofNat 32 (4 * i)) : primesMu a = mu a i := by
  rw [primesMu, hpc, BitVec.toNat_ofNat, Nat.mod_eq_of_lt (by omega), Nat.mul_div_cancel_left _ (by decide)]

set_option maxRecDepth 4000 in
theorem PI.good {i : Nat} (hi : i < 28) (h0 : PI a h i) : Good h := by
  have hD : ∀ {n d}, Div a h n d → Good h := fun h => h.1.2.2.2.2.1
  have hC : ∀ {n}, Done a h n → Good h := fun h => h.2.2.2.2.1
  match i, hi, h0 with
  | 0, _, h0 => subst h0; rfl
  | 1, _, h0 => obtain ⟨rfl, -⟩ := h0; rfl
  | 2, _, h0 => obtain ⟨rfl, -⟩ := h0; rfl
  | 3, _, ⟨n, h0⟩ => exact hC h0
  | 4, _, ⟨n, h0⟩ => exact h0.2.2.2.2.1
  | 5, _, h0 => exact h0.2.2.1
  | 6, _, ⟨n, h0⟩ => exact h0.2.2.2.2.1
  | 7, _, ⟨n, d, h0⟩ => exact hD h0
  | 8, _, ⟨n, d, h0, _⟩ => exact hD h0
  | 9, _, ⟨n, d, h0, _⟩ => exact hD h0
  | 10, _, ⟨n, d, h0, _⟩ => exact hD h0
  | 11, _, ⟨n, d, h0, _⟩ => exact hD h0
  | 12, _, ⟨n, d, v, h0, _⟩ => exact hD h0
  | 13, _, ⟨n, d, h0, _⟩ => exact hD h0
  | 14, _, ⟨n, d, h0, _⟩ => exact hD h0
  | 15, _, ⟨n, h0, _⟩ => exact h0.2.2.2.2.1
  | 16, _, ⟨n, h0⟩ => exact hC h0
  | 17, _, ⟨n, h0, _⟩ => exact hC h0
  | 18, _, ⟨n, h0⟩ => exact hC h0
  | 19, _, ⟨n, d, h0, _⟩ => exact hD h0
  | 20, _, ⟨n, d, v, h0, _⟩ => exact hD h0
  | 21, _, ⟨n, d, v, h0, _⟩ => exact hD h0
  | 22, _, ⟨n, d, v, h0, _⟩ => exact hD h0
  | 23, _, ⟨n, h0, _⟩ => exact hC h0
  | 24, _, ⟨n, h0, _⟩ => exact hC h0
  | 25, _, ⟨n, c, h0, _⟩ => exact hC h0
  | 26, _, ⟨n, c, h0, _⟩ => exact hC h0
  | 27, _, ⟨n, h0, _⟩ => exact hC h0
  | i + 28, hi, _ => omega

/-- Reduction of a step of the invariant to the execution of the instruction. -/
theorem step_of {G : List (BitVec 8) → Prop} {Q : Arch → Plat k → List (BitVec 8) → Prop} {i : Nat} {w : Word} {ins : Instr}
    (hM : HoldsProgram M primesProgram) (hP : P.ram = M) (hmie : a.mie = false) (hi : i < 28)
    (hpc : a.pc = BitVec.ofNat 32 (4 * i)) (hw : primesProgram[i]'hi = w) (hd : decode w = some ins)
    (h1 : Wp G Q (execInstr .asBuilt a ins) P h) :
    Wp G Q (exec .asBuilt a (P.ram ((wordAdr a.pc).setWidth k))) P h := by
  have e : (wordAdr a.pc).setWidth k = BitVec.ofNat k i := by
    rw [hpc]
    apply BitVec.eq_of_toNat_eq
    simp only [wordAdr, BitVec.toNat_setWidth, BitVec.extractLsb'_toNat, BitVec.toNat_ofNat, Nat.shiftRight_eq_div_pow]
    rw [Nat.mod_eq_of_lt (by omega : 4 * i < 2 ^ 32), show 4 * i / 2 ^ 2 = i by omega,
      Nat.mod_eq_of_lt (by omega : i < 2 ^ 30)]
  rw [e, hP, hM i hi, hw]
  intro b
  show Wp G Q (if (b && a.intEnabled) = true then _ else _) P h
  have : (b && a.intEnabled) = false := by simp [Arch.intEnabled, hmie]
  rw [this, if_neg (by decide), hd]
  exact h1

/-- Conclusion of a step without output. -/
theorem goto' {i j : Nat} (hP : P.ram = M) (hj : j < 28) (hi : i < 28) (hpc : a.pc = BitVec.ofNat 32 (4 * i))
    {a' : Arch} (hmie : a'.mie = false) (hpc' : a'.pc = BitVec.ofNat 32 (4 * j)) (hPI : PI a' h j)
    (hmu : mu a' j < mu a i) :
    PrimesInv M a' P h ∧ (h.length < h.length ∨ h = h ∧ primesMu a' < primesMu a) :=
  ⟨⟨hP, hmie, j, hj, hpc', hPI⟩, .inr ⟨rfl, by rw [primesMu_at hj hpc', primesMu_at hi hpc]; exact hmu⟩⟩

/-- Conclusion of a step without output. -/
abbrev Post (M : Mem k) (a : Arch) (h : List (BitVec 8)) : Arch → Plat k → List (BitVec 8) → Prop :=
  fun a' P' h' => PrimesInv M a' P' h' ∧ (h.length < h'.length ∨ h' = h ∧ primesMu a' < primesMu a)

/-- Arithmetic of small numbers in registers. -/
theorem add_nat (n m : Nat) : BitVec.ofNat 32 n + BitVec.ofNat 32 m = BitVec.ofNat 32 (n + m) := by
  rw [BitVec.ofNat_add]
theorem toNat_small {n : Nat} (h : n < 2 ^ 32) : (BitVec.ofNat 32 n).toNat = n := by
  rw [BitVec.toNat_ofNat, Nat.mod_eq_of_lt h]
theorem toInt_small {n : Int} (h1 : -2 ^ 31 ≤ n) (h2 : n < 2 ^ 31) : (BitVec.ofInt 32 n).toInt = n := by
  rw [BitVec.toInt_ofInt, Int.bmod_eq_of_le (by simpa using h1) (by simpa using h2)]
theorem nat_int (n : Nat) : BitVec.ofNat 32 n = BitVec.ofInt 32 n := by
  rw [BitVec.ofInt_natCast]
theorem blt_small {n m : Nat} (hn : n < 2 ^ 31) (hm : m < 2 ^ 31) :
    BitVec.slt (BitVec.ofNat 32 n) (BitVec.ofNat 32 m) = decide (n < m) := by
  rw [nat_int, nat_int, BitVec.slt, toInt_small (by omega) (by omega), toInt_small (by omega) (by omega)]
  simp

theorem K.fr {a' : Arch} (h1 : K a) (e9 : a'.reg 9 = a.reg 9 := by rfl) (e19 : a'.reg 19 = a.reg 19 := by rfl) : K a' :=
  ⟨e9.trans h1.1, e19.trans h1.2⟩
theorem Cand.fr {a' : Arch} {n : Nat} (h1 : Cand a h n) (e8 : a'.reg 8 = a.reg 8 := by rfl)
    (e9 : a'.reg 9 = a.reg 9 := by rfl) (e19 : a'.reg 19 = a.reg 19 := by rfl) : Cand a' h n :=
  ⟨h1.1.fr e9 e19, e8.trans h1.2.1, h1.2.2⟩
theorem Done.fr {a' : Arch} {n : Nat} (h1 : Done a h n) (e8 : a'.reg 8 = a.reg 8 := by rfl)
    (e9 : a'.reg 9 = a.reg 9 := by rfl) (e19 : a'.reg 19 = a.reg 19 := by rfl) : Done a' h n :=
  ⟨h1.1.fr e9 e19, e8.trans h1.2.1, h1.2.2⟩
theorem Div.fr {a' : Arch} {n d : Nat} (h1 : Div a h n d) (e18 : a'.reg 18 = a.reg 18 := by rfl)
    (e8 : a'.reg 8 = a.reg 8 := by rfl)
    (e9 : a'.reg 9 = a.reg 9 := by rfl) (e19 : a'.reg 19 = a.reg 19 := by rfl) : Div a' h n d :=
  ⟨h1.1.fr e8 e9 e19, e18.trans h1.2.1, h1.2.2⟩
theorem Cand.n {n : Nat} (h1 : Cand a h n) : (a.reg 8).toNat = n := by
  rw [h1.2.1, toNat_small (by have := h1.2.2.2.1; omega)]
theorem Done.n {n : Nat} (h1 : Done a h n) : (a.reg 8).toNat = n := by
  rw [h1.2.1, toNat_small (by have := h1.2.2.2.1; omega)]
theorem Div.d {n d : Nat} (h1 : Div a h n d) : (a.reg 18).toNat = d := by
  rw [h1.2.1, toNat_small (by have := h1.1.2.2.2.1; have := h1.2.2.2.1; omega)]

/-- What is to be proved of the `i`-th instruction. -/
def StepOk (M : Mem k) (i : Nat) : Prop := ∀ {a : Arch} {P : Plat k} {h : List (BitVec 8)}, P.ram = M → a.mie = false →
  a.pc = BitVec.ofNat 32 (4 * i) → PI a h i → Wp Good (Post M a h) (exec .asBuilt a (P.ram ((wordAdr a.pc).setWidth k))) P h

variable (hM : HoldsProgram M primesProgram)
include hM

theorem case0 : StepOk M 0 := by
  intro a P h hP hmie hpc h0
  refine step_of (ins := .opImm .add 8 0 2) hM hP hmie (by decide) hpc rfl rfl ?_
  refine goto' (j := 1) hP (by decide) (by decide) hpc hmie (by show a.pc + 4 = _; rw [hpc]; rfl) ?_ ?_
  · exact ⟨h0, rfl⟩
  · simp only [mu]; omega

theorem case1 : StepOk M 1 := by
  intro a P h hP hmie hpc ⟨h0, h1⟩
  refine step_of (ins := .lui 9 0x2000) hM hP hmie (by decide) hpc rfl rfl ?_
  refine goto' (j := 2) hP (by decide) (by decide) hpc hmie (by show a.pc + 4 = _; rw [hpc]; rfl) ?_ ?_
  · exact ⟨h0, h1, rfl⟩
  · simp only [mu]; omega

theorem case2 : StepOk M 2 := by
  intro a P h hP hmie hpc ⟨h0, h1, h2⟩
  refine step_of (ins := .opImm .add 19 0 256) hM hP hmie (by decide) hpc rfl rfl ?_
  refine goto' (j := 3) hP (by decide) (by decide) hpc hmie (by show a.pc + 4 = _; rw [hpc]; rfl) ?_ ?_
  · subst h0
    exact ⟨2, ⟨h2, rfl⟩, h1, by decide, by decide, rfl, shown_zero⟩
  · simp only [mu]
    show rank ((a.reg 8).toNat + 1) * _ + _ < _
    rw [h1]; decide

theorem case3 : StepOk M 3 := by
  intro a P h hP hmie hpc ⟨n, h0⟩
  refine step_of (ins := .opImm .add 8 8 1) hM hP hmie (by decide) hpc rfl rfl ?_
  refine goto' (j := 4) hP (by decide) (by decide) hpc hmie (by show a.pc + 4 = _; rw [hpc]; rfl) ?_ ?_
  · have e : a.reg 8 + 1#32 = BitVec.ofNat 32 (n + 1) := by rw [h0.2.1]; exact add_nat _ _
    exact ⟨n + 1, h0.1.fr, e, by have := h0.2.2.1; omega, by have := h0.2.2.2.1; omega, h0.2.2.2.2⟩
  · have e : a.reg 8 + 1#32 = BitVec.ofNat 32 (n + 1) := by rw [h0.2.1]; exact add_nat _ _
    simp only [mu]
    show rank (a.reg 8 + 1#32).toNat * _ + _ < _
    rw [e, h0.n, toNat_small (by have := h0.2.2.2.1; omega)]
    omega

theorem case4 : StepOk M 4 := by
  intro a P h hP hmie hpc ⟨n, h1, h2, h3, h4, h5⟩
  refine step_of (ins := .branch .blt 8 19 4) hM hP hmie (by decide) hpc rfl rfl ?_
  have e : brTaken .blt (a.reg 8) (a.reg 19) = decide (n < 256) := by
    rw [h2, h1.2, nat_int, nat_int, brTaken, toInt_small (by omega) (by omega), toInt_small (by omega) (by omega)]
    simp only [decide_eq_decide]; omega
  simp only [execInstr, e]
  by_cases hn : n < 256
  · rw [if_pos (by simpa using hn), if_pos (by rw [hpc]; rfl)]
    refine goto' (j := 6) hP (by decide) (by decide) hpc hmie (by show a.pc + _ = _; rw [hpc]; rfl) ?_ ?_
    · exact ⟨n, h1.fr, h2, by omega, by omega, h5⟩
    · simp only [mu]; show rank (a.reg 8).toNat * _ + _ < _; omega
  · rw [if_neg (by simpa using hn)]
    obtain rfl : n = 256 := by omega
    refine goto' (j := 5) hP (by decide) (by decide) hpc hmie (by show a.pc + 4 = _; rw [hpc]; rfl) ?_ ?_
    · exact ⟨h1.fr, h2, h5⟩
    · simp only [mu]; show rank (a.reg 8).toNat * _ + _ < _; omega

theorem case5 : StepOk M 5 := by
  intro a P h hP hmie hpc ⟨h1, h2, h3⟩
  refine step_of (ins := .opImm .add 8 0 2) hM hP hmie (by decide) hpc rfl rfl ?_
  refine goto' (j := 6) hP (by decide) (by decide) hpc hmie (by show a.pc + 4 = _; rw [hpc]; rfl) ?_ ?_
  · exact ⟨2, h1.fr, rfl, by decide, by decide, h3.1, h3.2.trans (by decide +kernel)⟩
  · simp only [mu]; show rank 2 * _ + _ < _; rw [h2]; decide

theorem case6 : StepOk M 6 := by
  intro a P h hP hmie hpc ⟨n, h0⟩
  refine step_of (ins := .opImm .add 18 0 2) hM hP hmie (by decide) hpc rfl rfl ?_
  refine goto' (j := 7) hP (by decide) (by decide) hpc hmie (by show a.pc + 4 = _; rw [hpc]; rfl) ?_ ?_
  · exact ⟨n, 2, h0.fr, rfl, by decide, h0.2.2.1, fun e h1 h2 => by omega⟩
  · simp only [mu]
    show rank (a.reg 8).toNat * _ + ((a.reg 8).toNat - 2) * _ + _ < _
    have := h0.n; have := h0.2.2.2.1; omega

theorem case7 : StepOk M 7 := by
  intro a P h hP hmie hpc ⟨n, d, h0⟩
  refine step_of (ins := .branch .bge 18 8 16) hM hP hmie (by decide) hpc rfl rfl ?_
  have hn := h0.1.2.2.2.1
  have hd := h0.2.2.2.1
  have e : brTaken .bge (a.reg 18) (a.reg 8) = decide (n ≤ d) := by
    rw [h0.2.1, h0.1.2.1, nat_int, nat_int, brTaken, toInt_small (by omega) (by omega), toInt_small (by omega) (by omega)]
    simp only [decide_eq_decide]; omega
  simp only [execInstr, e]
  by_cases hc : n ≤ d
  · rw [if_pos (by simpa using hc), if_pos (by rw [hpc]; rfl)]
    obtain rfl : d = n := by omega
    refine goto' (j := 15) hP (by decide) (by decide) hpc hmie (by show a.pc + _ = _; rw [hpc]; rfl) ?_ ?_
    · exact ⟨d, h0.1.fr, (prime_iff d).2 ⟨h0.1.2.2.1, h0.2.2.2.2⟩⟩
    · simp only [mu]; show rank (a.reg 8).toNat * _ + _ < _; omega
  · rw [if_neg (by simpa using hc)]
    refine goto' (j := 8) hP (by decide) (by decide) hpc hmie (by show a.pc + 4 = _; rw [hpc]; rfl) ?_ ?_
    · exact ⟨n, d, h0.fr, by omega⟩
    · simp only [mu]; show rank (a.reg 8).toNat * _ + ((a.reg 8).toNat - (a.reg 18).toNat) * _ + _ < _; omega

theorem case8 : StepOk M 8 := by
  intro a P h hP hmie hpc ⟨n, d, h0, h1⟩
  refine step_of (ins := .opImm .add 10 8 0) hM hP hmie (by decide) hpc rfl rfl ?_
  refine goto' (j := 9) hP (by decide) (by decide) hpc hmie (by show a.pc + 4 = _; rw [hpc]; rfl) ?_ ?_
  · exact ⟨n, d, h0.fr, h1, by show a.reg 8 + 0#32 = _; rw [h0.1.2.1]; exact add_nat _ _⟩
  · simp only [mu]; show rank (a.reg 8).toNat * _ + ((a.reg 8).toNat - (a.reg 18).toNat) * _ + _ < _; omega

theorem case9 : StepOk M 9 := by
  intro a P h hP hmie hpc ⟨n, d, h0, h1, h2⟩
  refine step_of (ins := .opImm .add 11 18 0) hM hP hmie (by decide) hpc rfl rfl ?_
  refine goto' (j := 10) hP (by decide) (by decide) hpc hmie (by show a.pc + 4 = _; rw [hpc]; rfl) ?_ ?_
  · exact ⟨n, d, h0.fr, h1, h2, by show a.reg 18 + 0#32 = _; rw [h0.2.1]; exact add_nat _ _⟩
  · simp only [mu]; show rank (a.reg 8).toNat * _ + ((a.reg 8).toNat - (a.reg 18).toNat) * _ + _ < _; omega

theorem case10 : StepOk M 10 := by
  intro a P h hP hmie hpc ⟨n, d, h0, h1, h2, h3⟩
  refine step_of (ins := .auipc 1 0) hM hP hmie (by decide) hpc rfl rfl ?_
  refine goto' (j := 11) hP (by decide) (by decide) hpc hmie (by show a.pc + 4 = _; rw [hpc]; rfl) ?_ ?_
  · exact ⟨n, d, h0.fr, h1, h2, h3, by show a.pc + 0#32 = _; rw [hpc]; rfl⟩
  · simp only [mu]; show rank (a.reg 8).toNat * _ + ((a.reg 8).toNat - (a.reg 18).toNat) * _ + _ < _; omega

theorem case11 : StepOk M 11 := by
  intro a P h hP hmie hpc ⟨n, d, h0, h1, h2, h3, h4⟩
  refine step_of (ins := .jalr 1 1 36) hM hP hmie (by decide) hpc rfl rfl ?_
  have e : a.reg 1 = 40#32 := h4
  simp only [execInstr, e]
  rw [if_pos (by decide)]
  refine goto' (j := 19) hP (by decide) (by decide) hpc hmie (by rfl) ?_ ?_
  · exact ⟨n, d, h0.fr, h1, h2, h3, by show a.pc + 4 = _; rw [hpc]; rfl⟩
  · simp only [mu]; show rank (a.reg 8).toNat * _ + ((a.reg 8).toNat - (a.reg 18).toNat) * _ + _ < _; omega

theorem case12 : StepOk M 12 := by
  intro a P h hP hmie hpc ⟨n, d, v, h0, h1, h2, h3, h4, h5⟩
  refine step_of (ins := .branch .beq 10 0 12) hM hP hmie (by decide) hpc rfl rfl ?_
  have hn := h0.1.2.2.2.1
  have e : brTaken .beq (a.reg 10) (a.reg 0) = decide (v = 0) := by
    rw [h2, show a.reg 0 = BitVec.ofInt 32 0 from rfl, brTaken, decide_eq_decide]
    constructor
    · intro e
      have := congrArg BitVec.toInt e
      rwa [toInt_small (by omega) (by omega), toInt_small (by omega) (by omega)] at this
    · rintro rfl; rfl
  simp only [execInstr, e]
  by_cases hc : v = 0
  · rw [if_pos (by simpa using hc), if_pos (by rw [hpc]; rfl)]
    have hnp : ¬ n.Prime := by
      intro hp
      rw [prime_iff] at hp
      exact hp.2 d h1 h0.2.2.1 (h3.1 hc)
    refine goto' (j := 18) hP (by decide) (by decide) hpc hmie (by show a.pc + _ = _; rw [hpc]; rfl) ?_ ?_
    · exact ⟨n, h0.1.1.fr, h0.1.2.1, h0.1.2.2.1, hn, h0.1.2.2.2.2.1, h0.1.2.2.2.2.2.trans (nextP_comp (by omega) hnp)⟩
    · simp only [mu]; show rank ((a.reg 8).toNat + 1) * _ + _ < _
      rw [h0.1.n]
      have n2 : n ≠ 2 := by rintro rfl; exact hnp Nat.prime_two
      have n251 : n ≠ 251 := by
        rintro rfl
        exact hnp ((prime_iff 251).2 ((mem_primeList 251 (by decide)).1 (by decide)))
      have : rank (n + 1) + 1 ≤ rank n := by
        have := h0.1.2.2.1
        unfold rank
        split <;> split <;> (try split) <;> omega
      omega
  · rw [if_neg (by simpa using hc)]
    refine goto' (j := 13) hP (by decide) (by decide) hpc hmie (by show a.pc + 4 = _; rw [hpc]; rfl) ?_ ?_
    · exact ⟨n, d, h0.fr, h1, fun e => hc (h3.2 e)⟩
    · simp only [mu]; show rank (a.reg 8).toNat * _ + ((a.reg 8).toNat - (a.reg 18).toNat) * _ + _ < _; omega

theorem case13 : StepOk M 13 := by
  intro a P h hP hmie hpc ⟨n, d, h0, h1, h2⟩
  refine step_of (ins := .opImm .add 18 18 1) hM hP hmie (by decide) hpc rfl rfl ?_
  refine goto' (j := 14) hP (by decide) (by decide) hpc hmie (by show a.pc + 4 = _; rw [hpc]; rfl) ?_ ?_
  · have e : a.reg 18 + 1#32 = BitVec.ofNat 32 (d + 1) := by rw [h0.2.1]; exact add_nat _ _
    refine ⟨n, d + 1, ⟨h0.1.fr, e, by have := h0.2.2.1; omega, by omega, fun q hq h2q => ?_⟩, by have := h0.2.2.1; omega⟩
    rcases Nat.lt_succ_iff_lt_or_eq.1 hq with hq | rfl
    · exact h0.2.2.2.2 q hq h2q
    · exact h2
  · have e : a.reg 18 + 1#32 = BitVec.ofNat 32 (d + 1) := by rw [h0.2.1]; exact add_nat _ _
    simp only [mu]; show rank (a.reg 8).toNat * _ + ((a.reg 8).toNat - (a.reg 18 + 1#32).toNat) * _ + _ < _
    have := h0.1.2.2.2.1
    rw [e, h0.1.n, h0.d, toNat_small (by omega)]
    omega

theorem case14 : StepOk M 14 := by
  intro a P h hP hmie hpc ⟨n, d, h0, h1⟩
  refine step_of (ins := .jal 0 0xFFFF2#20) hM hP hmie (by decide) hpc rfl rfl ?_
  have et : a.pc + BitVec.signExtend 32 (0xFFFF2#20 ++ 0#1 : BitVec 21) = 28#32 := by rw [hpc]; rfl
  simp only [execInstr, et]
  rw [if_pos (by decide)]
  refine goto' (j := 7) hP (by decide) (by decide) hpc hmie rfl ?_ ?_
  · exact ⟨n, d, h0.fr⟩
  · simp only [mu]; show rank (a.reg 8).toNat * _ + ((a.reg 8).toNat - (a.reg 18).toNat) * _ + _ < _; omega

theorem case15 : StepOk M 15 := by
  intro a P h hP hmie hpc ⟨n, h0, h1⟩
  refine step_of (ins := .store .sw 9 8 0) hM hP hmie (by decide) hpc rfl rfl ?_
  have hn := h0.2.2.2.1
  have e9 : a.reg 9 + BitVec.signExtend 32 (0 : BitVec 12) = 0x02000000#32 := by rw [h0.1.1]; rfl
  simp only [execInstr, e9]
  rw [if_pos (by decide)]
  have hsel : ∀ v, (writeReq 0x02000000#32 StOp.sw.size v).sel.getLsbD 0 = true := fun v => by
    show (lanes 0x02000000#32 StOp.sw.size).getLsbD 0 = true; decide
  have hadr : ∀ v, (writeReq 0x02000000#32 StOp.sw.size v).byteAdr / 4 % 4 = 0 := fun v => by
    show 4 * (wordAdr 0x02000000#32).toNat / 4 % 4 = 0; decide
  have hram : ∀ v, (P.after (writeReq 0x02000000#32 StOp.sw.size v)).ram = P.ram := fun v => by
    have ht : (writeReq 0x02000000#32 StOp.sw.size v).target = some .leds := by
      show target (4 * (wordAdr 0x02000000#32).toNat) = _; decide
    rw [Plat.after, if_pos (by rfl), ht]
    show (if _ = true then P.setLeds _ _ else P).ram = _
    rw [hsel v, if_pos rfl, hadr v]; rfl
  have ew : (writeReq 0x02000000#32 StOp.sw.size (a.reg 8)).ledWrite = some (BitVec.ofNat 8 n) := by
    rw [h0.2.1, Req.ledWrite, if_pos ⟨rfl, rfl, hsel _, hadr _⟩]
    congr 1
    apply BitVec.eq_of_toNat_eq
    simp [writeReq, byteOf, StOp.size, lane]
  have hs : n = shown h.length := by rw [h0.2.2.2.2.2, nextP_prime (by omega) h1]
  have hg : Good (h ++ [BitVec.ofNat 8 n]) := by
    have := h0.2.2.2.2.1
    unfold Good at this ⊢
    rw [List.length_append, List.length_singleton, List.range_succ, List.map_append, ← this, hs]; rfl
  have hcom : (writeReq 0x02000000#32 StOp.sw.size (a.reg 8)).Common := .inr ⟨rfl, by
    show 4 * (wordAdr 0x02000000#32).toNat = 0x02000000; decide⟩
  refine ⟨hcom, by rw [ew]; exact hg, fun d _ => ?_⟩
  rw [ew]
  refine ⟨⟨?_, hmie, 16, by decide, by show a.pc + 4 = _; rw [hpc]; rfl, n, h0.1.fr, h0.2.1, h0.2.2.1, hn, hg, ?_⟩, ?_⟩
  · rw [hram]; exact hP
  · rw [Option.toList_some, List.length_append, List.length_singleton, shown_succ, ← hs]
  · left; simp

theorem case16 : StepOk M 16 := by
  intro a P h hP hmie hpc ⟨n, h0⟩
  refine step_of (ins := .auipc 1 0) hM hP hmie (by decide) hpc rfl rfl ?_
  refine goto' (j := 17) hP (by decide) (by decide) hpc hmie (by show a.pc + 4 = _; rw [hpc]; rfl) ?_ ?_
  · exact ⟨n, h0.fr, by show a.pc + 0#32 = _; rw [hpc]; rfl⟩
  · simp only [mu]; show rank ((a.reg 8).toNat + 1) * _ + _ < _; omega

theorem case17 : StepOk M 17 := by
  intro a P h hP hmie hpc ⟨n, h0, h1⟩
  refine step_of (ins := .jalr 1 1 28) hM hP hmie (by decide) hpc rfl rfl ?_
  have e : a.reg 1 = 64#32 := h1
  simp only [execInstr, e]
  rw [if_pos (by decide)]
  refine goto' (j := 23) hP (by decide) (by decide) hpc hmie (by rfl) ?_ ?_
  · exact ⟨n, h0.fr, by show a.pc + 4 = _; rw [hpc]; rfl⟩
  · simp only [mu]; show rank ((a.reg 8).toNat + 1) * _ + _ < _; omega

theorem case18 : StepOk M 18 := by
  intro a P h hP hmie hpc ⟨n, h0⟩
  refine step_of (ins := .jal 0 0xFFFE2#20) hM hP hmie (by decide) hpc rfl rfl ?_
  have et : a.pc + BitVec.signExtend 32 (0xFFFE2#20 ++ 0#1 : BitVec 21) = 12#32 := by rw [hpc]; rfl
  simp only [execInstr, et]
  rw [if_pos (by decide)]
  refine goto' (j := 3) hP (by decide) (by decide) hpc hmie rfl ?_ ?_
  · exact ⟨n, h0.fr⟩
  · simp only [mu]; show rank ((a.reg 8).toNat + 1) * _ + _ < _; omega

theorem case19 : StepOk M 19 := by
  intro a P h hP hmie hpc ⟨n, d, h0, h1, h2, h3, h4⟩
  refine step_of (ins := .opImm .add 5 0 1) hM hP hmie (by decide) hpc rfl rfl ?_
  refine goto' (j := 20) hP (by decide) (by decide) hpc hmie (by show a.pc + 4 = _; rw [hpc]; rfl) ?_ ?_
  · exact ⟨n, d, n, h0.fr, h1, h2, h3, h4, rfl, by have := h0.1.2.2.1; omega, Nat.le_refl _, Iff.rfl⟩
  · have hn := h0.1.2.2.2.1
    have : (a.reg 10).toInt.toNat = n := by rw [h2, nat_int, toInt_small (by omega) (by omega)]; rfl
    simp only [mu]
    show rank (a.reg 8).toNat * _ + ((a.reg 8).toNat - (a.reg 18).toNat) * _ + 2 * (a.reg 10).toInt.toNat + _ < _
    omega

theorem case20 : StepOk M 20 := by
  intro a P h hP hmie hpc ⟨n, d, v, h0, h1, h2, h3, h4, h5, h6, h7, h8⟩
  refine step_of (ins := .op .sub 10 10 11) hM hP hmie (by decide) hpc rfl rfl ?_
  refine goto' (j := 21) hP (by decide) (by decide) hpc hmie (by show a.pc + 4 = _; rw [hpc]; rfl) ?_ ?_
  · have e : a.reg 10 - a.reg 11 = BitVec.ofInt 32 ((v : Int) - d) := by
      rw [h2, h3, nat_int, nat_int, Int.sub_eq_add_neg, BitVec.ofInt_add, BitVec.ofInt_neg, BitVec.sub_eq_add_neg]
    refine ⟨n, d, v - d, h0.fr, h1, e, h3, h4, h5, by omega, by omega, ?_⟩
    rw [h8, ← Int.natCast_dvd_natCast]
    exact ⟨fun e => Int.dvd_sub e (Int.dvd_refl _), fun e => by simpa using Int.dvd_add e (Int.dvd_refl _)⟩
  · have e : a.reg 10 - a.reg 11 = BitVec.ofInt 32 ((v : Int) - d) := by
      rw [h2, h3, nat_int, nat_int, Int.sub_eq_add_neg, BitVec.ofInt_add, BitVec.ofInt_neg, BitVec.sub_eq_add_neg]
    have hn := h0.1.2.2.2.1
    have hd := h0.2.2.1
    have e1 : (a.reg 10).toInt.toNat = v := by rw [h2, nat_int, toInt_small (by omega) (by omega)]; rfl
    simp only [mu]
    show rank (a.reg 8).toNat * _ + ((a.reg 8).toNat - (a.reg 18).toNat) * _ + 2 * (a.reg 10 - a.reg 11).toInt.toNat + _ < _
    rw [e, e1, toInt_small (by omega) (by omega)]
    omega

theorem case21 : StepOk M 21 := by
  intro a P h hP hmie hpc ⟨n, d, v, h0, h1, h2, h3, h4, h5, h6, h7, h8⟩
  refine step_of (ins := .branch .bge 10 5 0xFFE#12) hM hP hmie (by decide) hpc rfl rfl ?_
  have hn := h0.1.2.2.2.1
  have hd := h0.2.2.1
  have e : brTaken .bge (a.reg 10) (a.reg 5) = decide (1 ≤ v) := by
    rw [h2, h5, nat_int, brTaken, toInt_small (by omega) (by omega), toInt_small (by omega) (by omega)]
    simp only [decide_eq_decide]; omega
  have et : a.pc + BitVec.signExtend 32 (0xFFE#12 ++ 0#1 : BitVec 13) = 80#32 := by rw [hpc]; rfl
  simp only [execInstr, e, et]
  by_cases hc : 1 ≤ v
  · rw [if_pos (by simpa using hc), if_pos (by decide)]
    refine goto' (j := 20) hP (by decide) (by decide) hpc hmie rfl ?_ ?_
    · obtain ⟨w, rfl⟩ : ∃ w : Nat, v = w := ⟨v.toNat, by omega⟩
      exact ⟨n, d, w, h0.fr, h1, by show a.reg 10 = BitVec.ofNat 32 w; rw [nat_int]; exact h2, h3, h4, h5, by omega, by omega,
        by rw [h8, Int.natCast_dvd_natCast]⟩
    · simp only [mu]
      show rank (a.reg 8).toNat * _ + ((a.reg 8).toNat - (a.reg 18).toNat) * _ + 2 * (a.reg 10).toInt.toNat + _ < _
      omega
  · rw [if_neg (by simpa using hc)]
    refine goto' (j := 22) hP (by decide) (by decide) hpc hmie (by show a.pc + 4 = _; rw [hpc]; rfl) ?_ ?_
    · refine ⟨n, d, v, h0.fr, h1, h2, h4, ?_, by omega, by omega⟩
      rw [h8]
      constructor
      · rintro rfl; exact dvd_zero _
      · intro hdv
        by_contra hv
        have := Int.le_of_dvd (by omega : 0 < -v) ((Int.dvd_neg).2 hdv)
        omega
    · simp only [mu]; show rank (a.reg 8).toNat * _ + ((a.reg 8).toNat - (a.reg 18).toNat) * _ + _ < _; omega

theorem case22 : StepOk M 22 := by
  intro a P h hP hmie hpc ⟨n, d, v, h0, h1, h2, h3, h4⟩
  refine step_of (ins := .jalr 0 1 0) hM hP hmie (by decide) hpc rfl rfl ?_
  have e : a.reg 1 = 48#32 := h3
  simp only [execInstr, e]
  rw [if_pos (by decide)]
  refine goto' (j := 12) hP (by decide) (by decide) hpc hmie (by rfl) ?_ ?_
  · exact ⟨n, d, v, h0.fr, h1, h2, h4⟩
  · simp only [mu]; show rank (a.reg 8).toNat * _ + ((a.reg 8).toNat - (a.reg 18).toNat) * _ + _ < _; omega

theorem case23 : StepOk M 23 := by
  intro a P h hP hmie hpc ⟨n, h0, h1⟩
  refine step_of (ins := .lui 5 0x58) hM hP hmie (by decide) hpc rfl rfl ?_
  refine goto' (j := 24) hP (by decide) (by decide) hpc hmie (by show a.pc + 4 = _; rw [hpc]; rfl) ?_ ?_
  · exact ⟨n, h0.fr, h1, rfl⟩
  · simp only [mu]; show rank ((a.reg 8).toNat + 1) * _ + _ < _; omega

theorem case24 : StepOk M 24 := by
  intro a P h hP hmie hpc ⟨n, h0, h1, h2⟩
  refine step_of (ins := .opImm .add 5 5 0xE40#12) hM hP hmie (by decide) hpc rfl rfl ?_
  refine goto' (j := 25) hP (by decide) (by decide) hpc hmie (by show a.pc + 4 = _; rw [hpc]; rfl) ?_ ?_
  · refine ⟨n, 360000, h0.fr, h1, ?_, by decide, by decide⟩
    show a.reg 5 + (0xE40#12).signExtend 32 = _
    rw [h2]; rfl
  · have e : a.reg 5 + (0xE40#12).signExtend 32 = 360000#32 := by rw [h2]; rfl
    simp only [mu]
    show rank ((a.reg 8).toNat + 1) * _ + 2 * (a.reg 5 + (0xE40#12).signExtend 32).toNat + _ < _
    rw [e]
    show rank ((a.reg 8).toNat + 1) * _ + 2 * 360000 + _ < _
    omega

theorem case25 : StepOk M 25 := by
  intro a P h hP hmie hpc ⟨n, c, h0, h1, h2, h3, h4⟩
  refine step_of (ins := .opImm .add 5 5 0xFFF#12) hM hP hmie (by decide) hpc rfl rfl ?_
  refine goto' (j := 26) hP (by decide) (by decide) hpc hmie (by show a.pc + 4 = _; rw [hpc]; rfl) ?_ ?_
  · have e : a.reg 5 + (0xFFF#12).signExtend 32 = BitVec.ofNat 32 (c - 1) := by
      rw [h2, show (0xFFF#12).signExtend 32 = BitVec.ofInt 32 (-1) from rfl, nat_int, ← BitVec.ofInt_add, nat_int]
      congr 1; omega
    exact ⟨n, c - 1, h0.fr, h1, e, by omega⟩
  · have e : a.reg 5 + (0xFFF#12).signExtend 32 = BitVec.ofNat 32 (c - 1) := by
      rw [h2, show (0xFFF#12).signExtend 32 = BitVec.ofInt 32 (-1) from rfl, nat_int, ← BitVec.ofInt_add, nat_int]
      congr 1; omega
    simp only [mu]
    show rank ((a.reg 8).toNat + 1) * _ + 2 * (a.reg 5 + (0xFFF#12).signExtend 32).toNat + _ < _
    rw [e, h2, toNat_small (by omega), toNat_small (by omega)]
    omega

theorem case26 : StepOk M 26 := by
  intro a P h hP hmie hpc ⟨n, c, h0, h1, h2, h3⟩
  refine step_of (ins := .branch .bne 5 0 0xFFE#12) hM hP hmie (by decide) hpc rfl rfl ?_
  have e : brTaken .bne (a.reg 5) (a.reg 0) = decide (c ≠ 0) := by
    rw [h2, show a.reg 0 = BitVec.ofNat 32 0 from rfl, brTaken]
    by_cases hc : c = 0
    · subst hc; rfl
    · have : ¬ BitVec.ofNat 32 c = BitVec.ofNat 32 0 := by
        intro e
        have := congrArg BitVec.toNat e
        rw [toNat_small (by omega), toNat_small (by omega)] at this
        exact hc this
      rw [decide_eq_false this, decide_eq_true hc]; rfl
  have et : a.pc + BitVec.signExtend 32 (0xFFE#12 ++ 0#1 : BitVec 13) = 100#32 := by rw [hpc]; rfl
  simp only [execInstr, e, et]
  by_cases hc : c = 0
  · rw [if_neg (by simpa using hc)]
    refine goto' (j := 27) hP (by decide) (by decide) hpc hmie (by show a.pc + 4 = _; rw [hpc]; rfl) ?_ ?_
    · exact ⟨n, h0.fr, h1⟩
    · simp only [mu]; show rank ((a.reg 8).toNat + 1) * _ + _ < _; omega
  · rw [if_pos (by simpa using hc), if_pos (by decide)]
    refine goto' (j := 25) hP (by decide) (by decide) hpc hmie rfl ?_ ?_
    · exact ⟨n, c, h0.fr, h1, h2, by omega, by omega⟩
    · simp only [mu]; show rank ((a.reg 8).toNat + 1) * _ + 2 * (a.reg 5).toNat + _ < _; omega

theorem case27 : StepOk M 27 := by
  intro a P h hP hmie hpc ⟨n, h0, h1⟩
  refine step_of (ins := .jalr 0 1 0) hM hP hmie (by decide) hpc rfl rfl ?_
  have e : a.reg 1 = 72#32 := h1
  simp only [execInstr, e]
  rw [if_pos (by decide)]
  refine goto' (j := 18) hP (by decide) (by decide) hpc hmie (by rfl) ?_ ?_
  · exact ⟨n, h0.fr⟩
  · simp only [mu]; show rank ((a.reg 8).toNat + 1) * _ + _ < _; omega

theorem primes_ok : ProgInv Good (PrimesInv M) (fun a' a => primesMu a' < primesMu a) where
  pc := by
    rintro a P h ⟨-, -, i, hi, hpc, -⟩
    rw [hpc, toNat_small (by omega)]; omega
  ok := by rintro a P h ⟨-, -, i, hi, hpc, h0⟩; exact h0.good hi
  step := by
    rintro a P h ⟨hP, hmie, i, hi, hpc, h0⟩
    match i, hi, hpc, h0 with
    | 0, _, hpc, h0 => exact case0 hM hP hmie hpc h0
    | 1, _, hpc, h0 => exact case1 hM hP hmie hpc h0
    | 2, _, hpc, h0 => exact case2 hM hP hmie hpc h0
    | 3, _, hpc, h0 => exact case3 hM hP hmie hpc h0
    | 4, _, hpc, h0 => exact case4 hM hP hmie hpc h0
    | 5, _, hpc, h0 => exact case5 hM hP hmie hpc h0
    | 6, _, hpc, h0 => exact case6 hM hP hmie hpc h0
    | 7, _, hpc, h0 => exact case7 hM hP hmie hpc h0
    | 8, _, hpc, h0 => exact case8 hM hP hmie hpc h0
    | 9, _, hpc, h0 => exact case9 hM hP hmie hpc h0
    | 10, _, hpc, h0 => exact case10 hM hP hmie hpc h0
    | 11, _, hpc, h0 => exact case11 hM hP hmie hpc h0
    | 12, _, hpc, h0 => exact case12 hM hP hmie hpc h0
    | 13, _, hpc, h0 => exact case13 hM hP hmie hpc h0
    | 14, _, hpc, h0 => exact case14 hM hP hmie hpc h0
    | 15, _, hpc, h0 => exact case15 hM hP hmie hpc h0
    | 16, _, hpc, h0 => exact case16 hM hP hmie hpc h0
    | 17, _, hpc, h0 => exact case17 hM hP hmie hpc h0
    | 18, _, hpc, h0 => exact case18 hM hP hmie hpc h0
    | 19, _, hpc, h0 => exact case19 hM hP hmie hpc h0
    | 20, _, hpc, h0 => exact case20 hM hP hmie hpc h0
    | 21, _, hpc, h0 => exact case21 hM hP hmie hpc h0
    | 22, _, hpc, h0 => exact case22 hM hP hmie hpc h0
    | 23, _, hpc, h0 => exact case23 hM hP hmie hpc h0
    | 24, _, hpc, h0 => exact case24 hM hP hmie hpc h0
    | 25, _, hpc, h0 => exact case25 hM hP hmie hpc h0
    | 26, _, hpc, h0 => exact case26 hM hP hmie hpc h0
    | 27, _, hpc, h0 => exact case27 hM hP hmie hpc h0
    | i + 28, hi, _, _ => omega

end Sentinel.Primes
