import Verif.Proof.Arith
/-!
# C43: the ALU

Each operation against arithmetic on natural numbers and integers, for all operands.
-/

namespace Sentinel

/-- **C43** (unmodified operations): value of the output register one clock after the operands. -/
theorem C43_ops (a b : BitVec 32) :
    (aluNext .add .none .none a b).toNat = (a.toNat + b.toNat) % 2 ^ 32 ∧
    ((aluNext .sub .none .none a b).toNat : Int) = ((a.toNat : Int) - b.toNat) % 2 ^ 32 ∧
    (aluNext .sll .none .none a b).toNat = 2 * a.toNat % 2 ^ 32 ∧
    (aluNext .srl .none .none a b).toNat = a.toNat / 2 ∧
    (aluNext .sra .none .none a b).toInt = a.toInt / 2 ∧
    (aluNext .cmpLtu .none .none a b).toNat = (if a.toNat < b.toNat then 1 else 0) ∧
    ∀ i : Nat, ((aluNext .and .none .none a b).getLsbD i = (a.getLsbD i && b.getLsbD i)) ∧
      ((aluNext .or .none .none a b).getLsbD i = (a.getLsbD i || b.getLsbD i)) ∧
      ((aluNext .xor .none .none a b).getLsbD i = (a.getLsbD i ^^ b.getLsbD i)) := by
  have ha := a.isLt
  have hb := b.isLt
  refine ⟨?_, ?_, ?_, ?_, ?_, ?_, fun i => ⟨?_, ?_, ?_⟩⟩
  · simp [aluNext, modOut, oMux, modIn]
  · simp only [aluNext, modOut, oMux, modIn, subUnit, BitVec.toNat_setWidth, BitVec.toNat_sub]
    rw [Nat.mod_eq_of_lt (show a.toNat < 2 ^ 33 by omega), Nat.mod_eq_of_lt (show b.toNat < 2 ^ 33 by omega)]
    omega
  · simp only [aluNext, modOut, oMux, modIn, BitVec.toNat_shiftLeft, Nat.shiftLeft_eq]
    omega
  · simp only [aluNext, modOut, oMux, modIn, BitVec.toNat_ushiftRight, Nat.shiftRight_eq_div_pow]
  · simp only [aluNext, modOut, oMux, modIn, BitVec.toInt_sshiftRight, Int.shiftRight_eq_div_pow]
    rfl
  · rw [cmp_ltu]
    split <;> rfl
  · simp [aluNext, modOut, oMux, modIn]
  · simp [aluNext, modOut, oMux, modIn]
  · simp [aluNext, modOut, oMux, modIn]

/-- **C43** (modifiers): inverting the top bits of both operands turns the unsigned comparison into the
signed one; inverting bit 0 of the result negates it; for any operation the output modifiers invert or
clear bit 0 and leave the other bits; and equality is a zero difference. -/
theorem C43_mods (a b : BitVec 32) :
    (aluNext .cmpLtu .invMsbAB .none a b).toNat = (if a.toInt < b.toInt then 1 else 0) ∧
    (aluNext .cmpLtu .invMsbAB .invLsbO a b).toNat = (if b.toInt ≤ a.toInt then 1 else 0) ∧
    (aluNext .cmpLtu .none .invLsbO a b).toNat = (if b.toNat ≤ a.toNat then 1 else 0) ∧
    (∀ op im i, (aluNext op im .invLsbO a b).getLsbD i = ((aluNext op im .none a b).getLsbD i ^^ decide (i = 0))) ∧
    (∀ op im i, (aluNext op im .clearLsbO a b).getLsbD i = ((aluNext op im .none a b).getLsbD i && !decide (i = 0))) ∧
    (aluZero (aluNext .sub .none .none a b) = true ↔ a = b) := by
  refine ⟨?_, ?_, ?_, fun op im i => ?_, fun op im i => ?_, ?_⟩
  · rw [cmp_lt]; split <;> rfl
  · rw [cmp_ge]; split <;> split <;> first | rfl | omega
  · rw [cmp_geu]; split <;> split <;> first | rfl | omega
  · simp only [aluNext, modOut]
    generalize oMux op (modIn im a) (modIn im b) = o
    rw [BitVec.getLsbD_xor, BitVec.getLsbD_one]
    simp
  · simp only [aluNext, modOut]
    generalize oMux op (modIn im a) (modIn im b) = o
    rw [BitVec.getLsbD_and, BitVec.getLsbD_not, BitVec.getLsbD_one]
    by_cases h : i < 32
    · simp [h]
    · simp [h, BitVec.getLsbD_of_ge o i (by omega)]
  · simp only [aluZero, beq_iff_eq]
    have h := (C43_ops a b).2.1
    have ha := a.isLt
    have hb := b.isLt
    constructor
    · intro e
      rw [e] at h
      apply BitVec.eq_of_toNat_eq
      simp at h
      omega
    · rintro rfl
      apply BitVec.eq_of_toNat_eq
      simp at h
      simpa using h

/-- **C43** (zero flag): exact for every value of the output register. -/
theorem C43_zero (o : BitVec 32) : aluZero o = true ↔ o.toNat = 0 := by
  simp only [aluZero, beq_iff_eq]
  exact ⟨fun h => by rw [h]; rfl, fun h => BitVec.eq_of_toNat_eq (by simpa using h)⟩

/-- -1 < 1 signed but not unsigned. -/
example : (aluNext .cmpLtu .invMsbAB .none (-1) 1).toNat = 1 ∧ (aluNext .cmpLtu .none .none (-1) 1).toNat = 0 := by
  decide

end Sentinel
