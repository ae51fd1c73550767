import Verif.Proof.Arith
import Verif.Core.Run
/-!
# Alignment circuits against the byte-lane specification
-/

set_option linter.unusedSimpArgs false

namespace Sentinel
open Spec

theorem lane_lt (a : Word) : lane a < 4 := Nat.mod_lt _ (by decide)

theorem extract2 (a : Word) : (a.extractLsb' 0 2).toNat = lane a := by
  rw [BitVec.extractLsb'_toNat]; simp [lane]

theorem extract2_eq (a : Word) (j : Nat) (hj : j < 4) :
    a.extractLsb' 0 2 = BitVec.ofNat 2 j ↔ lane a = j := by
  rw [← extract2]
  constructor
  · intro h; rw [h]; simp; omega
  · intro h; apply BitVec.eq_of_toNat_eq; rw [h]; simp; omega

theorem bit0_lane (a : Word) : a.getLsbD 0 = decide (lane a % 2 = 1) := by
  rw [← BitVec.testBit_toNat, lane]
  simp [Nat.testBit_zero]

theorem bit1_lane (a : Word) : a.getLsbD 1 = decide (2 ≤ lane a) := by
  rw [← BitVec.testBit_toNat, lane, Nat.testBit_eq_decide_div_mod_eq]
  simp
  omega

theorem dataMisaligned_hword (o : Word) : dataMisaligned .hword o = !aligned o 2 := by
  simp only [dataMisaligned, bit0_lane, aligned, lane]
  rcases Nat.mod_two_eq_zero_or_one o.toNat with h | h <;> simp [h]

theorem dataMisaligned_word (o : Word) : dataMisaligned .word o = !aligned o 4 := by
  simp only [dataMisaligned, bit0_lane, bit1_lane, aligned, lane]
  by_cases h : o.toNat % 4 = 0
  · simp [h]
  · have : o.toNat % 4 = 1 ∨ o.toNat % 4 = 2 ∨ o.toNat % 4 = 3 := by omega
    rcases this with h' | h' | h' <;> simp [h']

theorem dataMisaligned_byte (o : Word) : dataMisaligned .byte o = false := by
  simp [dataMisaligned]

/-- Width of a memory access as a `mem_sel` value. -/
def selOfSize : Nat → MemSel
  | 1 => .byte
  | 2 => .hword
  | _ => .word

theorem wbSel_eq (size : Nat) (hs : size = 1 ∨ size = 2 ∨ size = 4) (da : Word)
    (ha : aligned da size = true) : wbSel true false (selOfSize size) da = lanes da size := by
  have hl := lane_lt da
  have e0 := extract2_eq da 0 (by decide)
  have e1 := extract2_eq da 1 (by decide)
  have e2 := extract2_eq da 2 (by decide)
  have b1 := bit1_lane da
  simp only [aligned, decide_eq_true_eq] at ha
  rcases hs with rfl | rfl | rfl
  · have : lane da = 0 ∨ lane da = 1 ∨ lane da = 2 ∨ lane da = 3 := by omega
    simp only [wbSel, selOfSize, lanes]
    rcases this with h | h | h | h <;> simp [h] at e0 e1 e2 ⊢ <;> simp [e0, e1, e2]
  · have : lane da = 0 ∨ lane da = 2 := by simp only [lane] at *; omega
    simp only [wbSel, selOfSize, lanes]
    rcases this with h | h <;> simp [h] at b1 ⊢ <;> simp [b1]
  · have : lane da = 0 := ha
    simp [wbSel, selOfSize, lanes, this]

theorem shr_extract (d : Word) (s n : Nat) : (d >>> s).extractLsb' 0 n = d.extractLsb' s n := by
  apply BitVec.eq_of_getLsbD_eq
  intro i hi
  simp [BitVec.getLsbD_extractLsb', hi]

theorem selByte_eq (da d : Word) : selByte da d = (d >>> (8 * lane da)).extractLsb' 0 8 := by
  have hl := lane_lt da
  have e0 := extract2_eq da 0 (by decide)
  have e1 := extract2_eq da 1 (by decide)
  have e2 := extract2_eq da 2 (by decide)
  have : lane da = 0 ∨ lane da = 1 ∨ lane da = 2 ∨ lane da = 3 := by omega
  rw [shr_extract]
  simp only [selByte]
  rcases this with h | h | h | h <;> simp [h] at e0 e1 e2 ⊢ <;> simp [e0, e1, e2]

theorem selHalf_eq (da d : Word) (ha : aligned da 2 = true) :
    selHalf da d = (d >>> (8 * lane da)).extractLsb' 0 16 := by
  have b1 := bit1_lane da
  simp only [aligned, decide_eq_true_eq] at ha
  have : lane da = 0 ∨ lane da = 2 := by simp only [lane] at *; omega
  rw [shr_extract]
  simp only [selHalf]
  rcases this with h | h <;> simp [h] at b1 ⊢ <;> simp [b1]

/-- `mem_sel` of a load. -/
def selOf (op : LdOp) : MemSel := selOfSize op.size
/-- `mem_extend` of a load. -/
def extOf : LdOp → MemExtend
  | .lb => .sign | .lh => .sign | .lw => .zero | .lbu => .zero | .lhu => .zero

theorem readDataAlign_eq (op : LdOp) (da d : Word) (ha : aligned da op.size = true) :
    readDataAlign (selOf op) (extOf op) da d = loadValue op da d := by
  cases op <;> simp only [selOf, selOfSize, extOf, LdOp.size, readDataAlign, loadValue, selByte_eq] at *
  · rw [selHalf_eq _ _ ha]
  · have : lane da = 0 := by simpa [aligned, lane] using ha
    simp [this]
  · rw [selHalf_eq _ _ ha]

theorem laneMask_bit (sel : BitVec 4) (i : Nat) (hi : i < 32) :
    (laneMask sel).getLsbD i = sel.getLsbD (i / 8) := by
  simp only [laneMask, BitVec.getLsbD_append, getLsbD_rep]
  interval_cases i <;> simp

theorem lowBytes_bit (v : Word) (n i : Nat) :
    (BitVec.ofNat 32 (v.toNat % 2 ^ n)).getLsbD i = (decide (i < n) && v.getLsbD i) := by
  rw [BitVec.getLsbD_ofNat, Nat.testBit_mod_two_pow, BitVec.testBit_toNat]
  by_cases h : i < 32
  · simp [h]
  · simp [h, BitVec.getLsbD_of_ge v i (by omega)]

theorem writeDataAlign_eq (size : Nat) (hs : size = 1 ∨ size = 2 ∨ size = 4) (da v : Word)
    (ha : aligned da size = true) :
    writeDataAlign (selOfSize size) da v &&& laneMask (lanes da size) =
      BitVec.ofNat 32 (v.toNat % 2 ^ (8 * size)) <<< (8 * lane da) := by
  have hl := lane_lt da
  have e0 := extract2_eq da 0 (by decide)
  have e1 := extract2_eq da 1 (by decide)
  have e2 := extract2_eq da 2 (by decide)
  have b1 := bit1_lane da
  simp only [aligned, decide_eq_true_eq] at ha
  apply BitVec.eq_of_getLsbD_eq
  intro i hi
  rw [BitVec.getLsbD_and, laneMask_bit _ _ hi, BitVec.getLsbD_shiftLeft, lowBytes_bit]
  rcases hs with rfl | rfl | rfl
  · have : lane da = 0 ∨ lane da = 1 ∨ lane da = 2 ∨ lane da = 3 := by omega
    rcases this with h | h | h | h <;> rw [h] at e0 e1 e2 <;>
      simp only [reduceCtorEq, reduceIte, writeDataAlign, selOfSize, lanes, h, e0, e1, e2,
        Nat.reduceEqDiff, BitVec.getLsbD_append, BitVec.getLsbD_extractLsb'] <;>
      interval_cases i <;> simp
  · have : lane da = 0 ∨ lane da = 2 := by simp only [lane] at *; omega
    rcases this with h | h <;> simp [-BitVec.getLsbD_eq_getElem, h] at b1 <;>
      simp only [reduceCtorEq, reduceIte, writeDataAlign, selOfSize, lanes, h, b1,
        BitVec.getLsbD_append, BitVec.getLsbD_extractLsb'] <;>
      interval_cases i <;> simp
  · have : lane da = 0 := ha
    simp only [writeDataAlign, selOfSize, lanes, this]
    interval_cases i <;> simp

end Sentinel
