import Verif.Proof.Decoded
/-!
# The CSR attribute table against the CSR address map, for all 4096 addresses
-/

namespace Sentinel
open Spec

/-- What the attribute table and the quadrant say about an address. -/
def csrTableOk (adr : BitVec 12) : Bool :=
  match csrKind adr with
  | .absent => (csrAttrOf adr).ill || !(adr.extractLsb' 8 2 = 3#2)
  | .zero => csrAttrOf adr = .ro0' && adr.extractLsb' 8 2 = 3#2
  | .impl c => csrAttrOf adr = .implemented && adr.extractLsb' 8 2 = 3#2 &&
      !(adr.extractLsb' 10 2 = 3#2) && (adr.extractLsb' 6 1 ++ adr.extractLsb' 0 3 : BitVec 4) = encOf c

/-! One eighth of the addresses at a time, to keep the memory the kernel needs small. -/

theorem csrTable_0 : ∀ hi : _root_.Fin 8, ∀ lo : _root_.Fin 64,
    csrTableOk (BitVec.ofNat 12 ((0 + hi.val) * 64 + lo.val)) = true := by decide +kernel

theorem csrTable_1 : ∀ hi : _root_.Fin 8, ∀ lo : _root_.Fin 64,
    csrTableOk (BitVec.ofNat 12 ((8 + hi.val) * 64 + lo.val)) = true := by decide +kernel

theorem csrTable_2 : ∀ hi : _root_.Fin 8, ∀ lo : _root_.Fin 64,
    csrTableOk (BitVec.ofNat 12 ((16 + hi.val) * 64 + lo.val)) = true := by decide +kernel

theorem csrTable_3 : ∀ hi : _root_.Fin 8, ∀ lo : _root_.Fin 64,
    csrTableOk (BitVec.ofNat 12 ((24 + hi.val) * 64 + lo.val)) = true := by decide +kernel

theorem csrTable_4 : ∀ hi : _root_.Fin 8, ∀ lo : _root_.Fin 64,
    csrTableOk (BitVec.ofNat 12 ((32 + hi.val) * 64 + lo.val)) = true := by decide +kernel

theorem csrTable_5 : ∀ hi : _root_.Fin 8, ∀ lo : _root_.Fin 64,
    csrTableOk (BitVec.ofNat 12 ((40 + hi.val) * 64 + lo.val)) = true := by decide +kernel

theorem csrTable_6 : ∀ hi : _root_.Fin 8, ∀ lo : _root_.Fin 64,
    csrTableOk (BitVec.ofNat 12 ((48 + hi.val) * 64 + lo.val)) = true := by decide +kernel

theorem csrTable_7 : ∀ hi : _root_.Fin 8, ∀ lo : _root_.Fin 64,
    csrTableOk (BitVec.ofNat 12 ((56 + hi.val) * 64 + lo.val)) = true := by decide +kernel

theorem csrTable_all (hi lo : _root_.Fin 64) : csrTableOk (BitVec.ofNat 12 (hi.val * 64 + lo.val)) = true := by
  have key : ∀ k : Nat, (∀ h : _root_.Fin 8, ∀ lo : _root_.Fin 64,
      csrTableOk (BitVec.ofNat 12 ((8 * k + h.val) * 64 + lo.val)) = true) → hi.val / 8 = k →
      csrTableOk (BitVec.ofNat 12 (hi.val * 64 + lo.val)) = true := by
    intro k hk e
    have := hk ⟨hi.val % 8, by omega⟩ lo
    have e' : 8 * k + hi.val % 8 = hi.val := by omega
    simp only [e'] at this
    exact this
  have hlt := hi.isLt
  rcases (show hi.val / 8 = 0 ∨ hi.val / 8 = 1 ∨ hi.val / 8 = 2 ∨ hi.val / 8 = 3 ∨ hi.val / 8 = 4 ∨ hi.val / 8 = 5 ∨
    hi.val / 8 = 6 ∨ hi.val / 8 = 7 by omega) with h | h | h | h | h | h | h | h
  · exact key 0 csrTable_0 h
  · exact key 1 csrTable_1 h
  · exact key 2 csrTable_2 h
  · exact key 3 csrTable_3 h
  · exact key 4 csrTable_4 h
  · exact key 5 csrTable_5 h
  · exact key 6 csrTable_6 h
  · exact key 7 csrTable_7 h

theorem csrTable (adr : BitVec 12) : csrTableOk adr = true := by
  have h := csrTable_all ⟨adr.toNat / 64, by have := adr.isLt; omega⟩ ⟨adr.toNat % 64, by omega⟩
  have e : adr.toNat / 64 * 64 + adr.toNat % 64 = adr.toNat := by omega
  simp only [e] at h
  simpa using h

end Sentinel
