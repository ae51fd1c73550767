import Mathlib.Tactic.IntervalCases
import Verif.Core.Alu
import Verif.Core.Insn
import Verif.Spec.Isa
/-!
# Bit-level lemmas: compare, immediates, alignment
-/

namespace Sentinel
open Spec

theorem subUnit_borrow (a b : BitVec 32) :
    (subUnit a b).getLsbD 32 = decide (a.toNat < b.toNat) := by
  have ha := a.isLt; have hb := b.isLt
  have e : (subUnit a b).toNat = (2 ^ 33 - b.toNat + a.toNat) % 2 ^ 33 := by
    unfold subUnit
    rw [BitVec.toNat_sub, BitVec.toNat_setWidth, BitVec.toNat_setWidth,
      Nat.mod_eq_of_lt (a := a.toNat) (by omega), Nat.mod_eq_of_lt (a := b.toNat) (by omega)]
  have m : (subUnit a b).getLsbD 32 = (subUnit a b).msb := by
    rw [BitVec.msb_eq_getLsbD_last]
  rw [m, BitVec.msb_eq_decide, e]
  by_cases h : a.toNat < b.toNat
  · simp only [h, decide_true, decide_eq_true_eq]
    rw [Nat.mod_eq_of_lt (by omega)]; omega
  · simp only [h, decide_false, decide_eq_false_iff_not]
    rw [show 2 ^ 33 - b.toNat + a.toNat = (a.toNat - b.toNat) + 2 ^ 33 by omega, Nat.add_mod_right,
      Nat.mod_eq_of_lt (by omega)]; omega

theorem ofBool_setWidth (p : Prop) [Decidable p] :
    (BitVec.ofBool (decide p)).setWidth 32 = if p then 1#32 else 0#32 := by
  by_cases h : p <;> simp [h]

theorem cmp_ltu (a b : BitVec 32) :
    aluNext .cmpLtu .none .none a b = if a.toNat < b.toNat then 1#32 else 0#32 := by
  simp only [aluNext, modOut, oMux, modIn, subUnit_borrow, ofBool_setWidth]

theorem cmp_geu (a b : BitVec 32) :
    aluNext .cmpLtu .none .invLsbO a b = if a.toNat < b.toNat then 0#32 else 1#32 := by
  simp only [aluNext, modOut, oMux, modIn, subUnit_borrow, ofBool_setWidth]
  split <;> rfl

theorem toNat_flip (a : BitVec 32) :
    ((a ^^^ 0x80000000#32).toNat : Int) = a.toInt + 2 ^ 31 := by
  have hx : (a ^^^ 0x80000000#32).toNat = (a.toNat + 2 ^ 31) % 2 ^ 32 := by
    have : a ^^^ 0x80000000#32 = a + 0x80000000#32 := by
      have ha : a = a.extractLsb' 31 1 ++ a.extractLsb' 0 31 := by
        apply BitVec.eq_of_getLsbD_eq
        intro i hi
        rw [BitVec.getLsbD_append]
        simp only [BitVec.getLsbD_extractLsb']
        by_cases h : i < 31
        · simp [h]
        · have : i = 31 := by omega
          subst this; simp
      generalize a.extractLsb' 31 1 = h at ha
      generalize a.extractLsb' 0 31 = l at ha
      subst ha
      have hl := l.isLt
      have tn : ∀ (x : BitVec 1), (x ++ l : BitVec 32).toNat = x.toNat * 2 ^ 31 + l.toNat := by
        intro x
        rw [BitVec.toNat_append, Nat.shiftLeft_eq, Nat.mul_comm, Nat.two_pow_add_eq_or_of_lt hl,
          ]
      have hc : (0x80000000#32 : BitVec 32) = 1#1 ++ 0#31 := by decide
      rw [hc, BitVec.xor_append, BitVec.xor_zero]
      apply BitVec.eq_of_toNat_eq
      rw [BitVec.toNat_add, tn, tn]
      have : h = 0#1 ∨ h = 1#1 := by revert h; decide
      rcases this with rfl | rfl <;> simp <;> omega
    rw [this, BitVec.toNat_add]; rfl
  rw [hx, BitVec.toInt_eq_toNat_cond]
  have := a.isLt
  split <;> omega

theorem flip_lt (a b : BitVec 32) :
    (a ^^^ 0x80000000#32).toNat < (b ^^^ 0x80000000#32).toNat ↔ a.toInt < b.toInt := by
  have h1 := toNat_flip a
  have h2 := toNat_flip b
  omega

theorem cmp_lt (a b : BitVec 32) :
    aluNext .cmpLtu .invMsbAB .none a b = if a.toInt < b.toInt then 1#32 else 0#32 := by
  simp only [aluNext, modOut, oMux, modIn, subUnit_borrow, ofBool_setWidth, flip_lt]

theorem cmp_ge (a b : BitVec 32) :
    aluNext .cmpLtu .invMsbAB .invLsbO a b = if a.toInt < b.toInt then 0#32 else 1#32 := by
  simp only [aluNext, modOut, oMux, modIn, subUnit_borrow, ofBool_setWidth, flip_lt]
  split <;> rfl

theorem getLsbD_rep (n : Nat) (b : Bool) (i : Nat) : (rep n b).getLsbD i = (decide (i < n) && b) := by
  unfold rep; cases b <;> simp

/-! ## Immediates -/

theorem immI_eq (w : BitVec 32) : immI w = (w.extractLsb' 20 12).signExtend 32 := by
  apply BitVec.eq_of_getLsbD_eq
  intro i hi
  simp only [immI, insnSign, BitVec.getLsbD_append, getLsbD_rep, BitVec.getLsbD_extractLsb',
    BitVec.getLsbD_signExtend, BitVec.msb_eq_getLsbD_last]
  by_cases h : i < 11
  · simp [h, hi, show i < 12 by omega]
  · by_cases h' : i = 11
    · subst h'; simp
    · simp [h, hi, show ¬ i < 12 by omega, show i - 11 < 21 by omega]

theorem immS_eq (w : BitVec 32) :
    immS w = (w.extractLsb' 25 7 ++ w.extractLsb' 7 5 : BitVec 12).signExtend 32 := by
  apply BitVec.eq_of_getLsbD_eq
  intro i hi
  simp only [immS, insnSign, BitVec.getLsbD_append, getLsbD_rep, BitVec.getLsbD_extractLsb',
    BitVec.getLsbD_signExtend, BitVec.msb_eq_getLsbD_last]
  interval_cases i <;> simp

theorem immB_eq (w : BitVec 32) :
    immB w = ((w.extractLsb' 31 1 ++ w.extractLsb' 7 1 ++ w.extractLsb' 25 6 ++ w.extractLsb' 8 4
      : BitVec 12) ++ 0#1 : BitVec 13).signExtend 32 := by
  apply BitVec.eq_of_getLsbD_eq
  intro i hi
  simp only [immB, insnSign, BitVec.getLsbD_append, getLsbD_rep, BitVec.getLsbD_extractLsb',
    BitVec.getLsbD_signExtend, BitVec.msb_eq_getLsbD_last]
  interval_cases i <;> simp

theorem immU_eq (w : BitVec 32) : immU w = w.extractLsb' 12 20 ++ 0#12 := by
  apply BitVec.eq_of_getLsbD_eq
  intro i hi
  simp only [immU, insnSign, BitVec.getLsbD_append, BitVec.getLsbD_extractLsb']
  interval_cases i <;> simp

theorem immJ_eq (w : BitVec 32) :
    immJ w = ((w.extractLsb' 31 1 ++ w.extractLsb' 12 8 ++ w.extractLsb' 20 1 ++ w.extractLsb' 21 10
      : BitVec 20) ++ 0#1 : BitVec 21).signExtend 32 := by
  apply BitVec.eq_of_getLsbD_eq
  intro i hi
  simp only [immJ, insnSign, BitVec.getLsbD_append, getLsbD_rep, BitVec.getLsbD_extractLsb',
    BitVec.getLsbD_signExtend, BitVec.msb_eq_getLsbD_last]
  interval_cases i <;> simp

end Sentinel
