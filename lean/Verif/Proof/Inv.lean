import Verif.Proof.Boot
import Verif.Core.Reach
/-!
# Invariants of all executions, whatever the bus does
-/

set_option linter.unusedSimpArgs false

namespace Sentinel
open Ucode Spec

/-! ## The microprogram as a graph -/

/-- The microaddresses that are ever executed. -/
def live : List Nat :=
  [0, 1, 2, 3, 4, 5, 8, 9, 10, 12, 13, 14, 15, 16, 17, 18, 19, 20, 21, 22, 23, 24, 25, 26, 27, 28,
   29, 30, 31, 32, 33, 36, 37, 38, 39, 40, 41, 42, 43, 44, 45, 46, 48, 49, 50, 51, 52, 53, 54, 55, 56,
   57, 58, 59, 60, 61, 62, 63, 64, 65, 66, 67, 68, 69, 70, 71, 73, 74, 75, 76, 77, 80, 81, 82, 83, 84,
   85, 86, 87, 88, 89, 90, 91, 92, 93, 94, 95, 96, 97, 98, 99, 100, 101, 102, 103, 104, 105, 128, 129,
   130, 131, 132, 133, 134, 135, 136, 137, 140, 141, 142, 143, 144, 145, 146, 147, 148, 149, 150, 151,
   152, 153, 154, 155, 156, 157, 158, 159, 160, 161, 162, 163, 164, 165, 166, 167, 168, 169, 170, 171,
   176, 177, 178, 179, 180, 181, 182, 192, 193, 194, 195, 196, 197, 198, 199, 200, 205, 208, 209, 210,
   211, 212, 213, 214, 215, 216, 217, 218, 219, 220, 221, 222, 223, 224, 225, 226, 227, 240, 241, 242,
   243, 244, 248, 249, 250, 251, 252]

/-- Microaddresses dispatched to for an instruction that decodes. -/
def mapTargets : List (BitVec 8) :=
  [0x40, 0x41, 0x42, 0x43, 0x44, 0x45, 0x46, 0x47, 0x4d, 0xd0, 0x50, 0xc0, 0xc8, 0xc1, 0xc2, 0xc3,
   0xc4, 0xc5, 0xcd, 0xc6, 0xc7, 0xb0, 0x98, 0x88, 0x89, 0x8c, 0x8d, 0x8e, 0x8f, 8, 9, 10, 12, 13,
   0x80, 0x81, 0x82, 0x30, 248, 0x24]

/-- Microaddresses dispatched to on the second decode cycle of a CSR instruction. -/
def csrTargets : List (BitVec 8) :=
  [0x25, 0x26, 0x27, 0x28, 0x29, 0x2a, 0x2b, 0x2c, 0x2d, 0x2e]

/-- The ROM by table lookup. -/
def romT (k : Nat) : UInsn := (table.lookup k).getD UInsn.hole

theorem rom_eq (a : BitVec 8) : rom a = romT a.toNat := rom_lookup a

/-- Microaddress after `k` when it is not a `map` jump. -/
def nextT (k : Nat) (e z ack : Bool) : BitVec 8 :=
  seqAdr false (romT k).jmpType (testOut (romT k).condTest (romT k).invertTest e z ack)
    (romT k).target 0#8 (BitVec.ofNat 8 k + 1#8)

/-- Second or later cycle of a request. -/
def waits : List Nat := [0, 16, 20, 24, 28, 32, 160, 165, 170, 181, 182]

def bools : List Bool := [false, true]

theorem bools_all {p : Bool → Bool} (h : bools.all p = true) (b : Bool) : p b = true := by
  simp only [bools, List.all_cons, List.all_nil, Bool.and_true, Bool.and_eq_true] at h
  cases b <;> simp [h]

/-- All the facts about one microinstruction that the invariants need. -/
def graphOk (k : Nat) : Bool :=
  -- jumps by table lookup
  (if (romT k).jmpType = .map then
      (k = 1 || k = 0x24) && (romT k).target = 0xf0#8 && !(romT k).memReq && !(romT k).insnFetch &&
        (romT k).condTest = .exception && !(romT k).invertTest
    else bools.all fun e => bools.all fun z => bools.all fun ack =>
      let n := nextT k e z ack
      live.contains n.toNat && !(n = 0x24#8) && !(n = 2#8) && (n = 3#8) == (k == 2) &&
        (n = 4#8) == (k == 3) && (n = 5#8) == (k == 4) &&
        -- dispatch only in the cycle after an acknowledged fetch
        (!(n = 1#8) || ((romT k).insnFetch && ack)) &&
        -- a request is held until it is acknowledged
        (!((romT k).memReq && !ack) || (waits.contains n.toNat &&
          (romT n.toNat).memReq && (romT n.toNat).insnFetch == (romT k).insnFetch &&
          ((romT k).insnFetch || (romT n.toNat).memSel == (romT k).memSel) &&
          (romT n.toNat).writeMem == (romT k).writeMem)) &&
        -- and dropped thereafter
        (!(waits.contains k && ack) || !(romT n.toNat).memReq)) &&
  -- requests do not disturb what they depend on
  (!(romT k).memReq || ((romT k).pcAction = .hold && !(romT k).latchAdr && !(romT k).latchData)) &&
  -- shape of requests
  (!(romT k).memReq || (if (romT k).insnFetch then !(romT k).writeMem
    else ((romT k).memSel = .byte || (romT k).memSel = .hword || (romT k).memSel = .word))) &&
  (!(romT k).writeMem || (romT k).memReq) && (!(romT k).insnFetch || (romT k).memReq) &&
  (!waits.contains k || (romT k).memReq) &&
  -- register 0 is only written by the reset routine
  ((romT k).regWSel = .zero) == (k == 4) &&
  used.contains k

theorem graph_all : live.all graphOk = true := by decide +kernel

theorem graph {k : Nat} (h : k ∈ live) : graphOk k = true := List.all_eq_true.mp graph_all k h

/-! ## The decoder -/

theorem mapCsr_mem {op : BitVec 3} {dst srcA : BitVec 5} {at' : Attr} {old : BitVec 8}
    (hill : at'.ill = false) (h0 : op ≠ 0#3) (h4 : op ≠ 4#3) :
    mapCsr op dst srcA at' old ∈ csrTargets := by
  have h : ∀ op : BitVec 3, op ≠ 0#3 → op ≠ 4#3 →
      op = 1#3 ∨ op = 2#3 ∨ op = 3#3 ∨ op = 5#3 ∨ op = 6#3 ∨ op = 7#3 := by decide
  unfold mapCsr
  rw [hill]
  by_cases hd : dst = 0#5 <;> by_cases hs : srcA = 0#5 <;> cases at'.ro0 <;>
    rcases h op h0 h4 with rfl | rfl | rfl | rfl | rfl | rfl <;>
    simp [hd, hs, csrTargets]

theorem isCsr_f3 {w : Word} (h : isCsrInsn w = true) : insnFunct3 w ≠ 0#3 ∧ insnFunct3 w ≠ 4#3 := by
  simp only [isCsrInsn, Bool.and_eq_true, Bool.not_eq_true', decide_eq_false_iff_not] at h
  exact ⟨h.1.2, h.2⟩

theorem excFwd_isCsr (w : Word) : excFwd w = isCsrInsn w := by
  cases h : isCsrInsn w
  · exact excFwd_eq w h
  · have h3 := (isCsr_f3 h).1
    simp only [isCsrInsn, Bool.and_eq_true, Bool.not_eq_true', decide_eq_false_iff_not,
      decide_eq_true_eq] at h
    obtain ⟨⟨⟨⟨h1, h2⟩, h4⟩, h5⟩, h6⟩ := h
    have e1 : ¬ w.extractLsb' 7 25 = ECALL.extractLsb' 7 25 := by
      intro e
      apply h3
      have := congrArg (BitVec.extractLsb' 5 3 ·) e
      simp only [extract_extract w 7 25 5 3 (by omega)] at this
      simpa [insnFunct3, ECALL] using this
    have e2 : ¬ w = EBREAK := by
      rintro rfl; exact h3 (by decide)
    simp [excFwd, h1, h2, h4, h5, h6, e1, e2]

theorem mapOp_opImm : ∀ (f3 : BitVec 3) (f7 : BitVec 7),
    (if f3 = 1#3 then !(decide (f7 = 0#7))
      else if f3 = 5#3 then !decide (f7 = 0#7) && !decide (f7 = 0b0100000#7) else false) = false →
    (if f3 = 1#3 ∨ f3 = 5#3 then (0x4#3 ++ f7.extractLsb' 5 1 ++ f3).setWidth 8
      else (0x4#3 ++ 0#1 ++ f3).setWidth 8 : BitVec 8) ∈ mapTargets ∧
    (if f3 = 1#3 ∨ f3 = 5#3 then (0x4#3 ++ f7.extractLsb' 5 1 ++ f3).setWidth 8
      else (0x4#3 ++ 0#1 ++ f3).setWidth 8 : BitVec 8) ≠ 0x24#8 := by
  decide +kernel

theorem mapOp_op : ∀ (f3 : BitVec 3) (f7 : BitVec 7),
    (if f3 = 0#3 ∨ f3 = 5#3 then !decide (f7 = 0#7) && !decide (f7 = 0b0100000#7)
      else !decide (f7 = 0#7)) = false →
    (0xC#4 ++ f7.extractLsb' 5 1 ++ f3 : BitVec 8) ∈ mapTargets ∧
    (0xC#4 ++ f7.extractLsb' 5 1 ++ f3 : BitVec 8) ≠ 0x24#8 := by
  decide +kernel

theorem mapOp_f3 : ∀ (f3 : BitVec 3),
    (((decide (f3 = 2#3) || decide (f3 = 3#3)) = false →
      (0x11#5 ++ f3 : BitVec 8) ∈ mapTargets ∧ (0x11#5 ++ f3 : BitVec 8) ≠ 0x24#8)) ∧
    ((decide (f3 = 3#3) || decide (f3 = 6#3) || decide (f3 = 7#3)) = false →
      ((1#1 ++ f3).setWidth 8 : BitVec 8) ∈ mapTargets ∧ ((1#1 ++ f3).setWidth 8 : BitVec 8) ≠ 0x24#8) ∧
    (decide (3#3 ≤ f3) = false →
      (0x10#5 ++ f3 : BitVec 8) ∈ mapTargets ∧ (0x10#5 ++ f3 : BitVec 8) ≠ 0x24#8) := by
  decide +kernel

/-- A word that decodes is dispatched to a microroutine. -/
theorem mapOp_mem {w : Word} (h : decodeValid w = false) (old : BitVec 8) :
    mapOp w old ∈ mapTargets ∧ (mapOp w old = 0x24#8 → isCsrInsn w = true) := by
  have conv : ∀ {x : BitVec 8}, x ∈ mapTargets ∧ x ≠ 0x24#8 →
      x ∈ mapTargets ∧ (x = 0x24#8 → isCsrInsn w = true) := fun h => ⟨h.1, fun e => absurd e h.2⟩
  simp only [decodeValid, Bool.or_eq_false_iff] at h
  obtain ⟨h, -⟩ := h
  unfold mapOp
  cases hop : insnOpcode w <;> simp only [hop] at h ⊢
  case opImm => exact conv (mapOp_opImm _ _ h)
  case lui => exact conv (by decide)
  case auipc => exact conv (by decide)
  case op => exact conv (mapOp_op _ _ h)
  case jal => exact conv (by decide)
  case jalr => exact conv (by decide)
  case branch => exact conv ((mapOp_f3 _).1 h)
  case load => exact conv ((mapOp_f3 _).2.1 h)
  case store => exact conv ((mapOp_f3 _).2.2 h)
  case miscMem => exact conv (by decide)
  case custom0 => exact absurd h (by decide)
  case other => exact absurd h (by decide)
  case system =>
    by_cases hm : w = MRET
    · rw [if_pos hm]; exact conv (by decide)
    by_cases hw : w = WFI
    · rw [if_neg hm, if_pos hw]; exact conv (by decide)
    rw [if_neg hm, if_neg hw]
    by_cases hf : insnFunct3 w ≠ 0#3 ∧ insnFunct3 w ≠ 4#3
    · rw [if_pos hf]
      refine ⟨by decide, fun _ => ?_⟩
      simp [isCsrInsn, hop, hm, hw, hf.1, hf.2]
    · exfalso
      split at h
      · cases h
      split at h
      · cases h
      cases h

/-! ## The invariant -/

/-- The core executes the microinstruction at `k`; invariant of all executions. -/
structure LiveAt (k : BitVec 8) (s : State) : Prop where
  live : k.toNat ∈ live
  uop : s.uop = rom k
  next : s.nextAdr = k + 1#8
  rstGuard : s.rstGuard = false
  memGuard : s.memGuard = false
  fwd : s.dec.map.fwd = s.dec.exc.fwd
  csrOp : s.dec.map.fwd = true → s.dec.map.csrOp ≠ 0#3 ∧ s.dec.map.csrOp ≠ 4#3
  disp : k = 1#8 → s.dec.exc.valid = true ∨
    ((s.dec.map.requestedOp ∈ mapTargets ∨ s.dec.map.requestedOp ∈ csrTargets) ∧
      (s.dec.map.requestedOp = 0x24#8 → s.dec.map.fwd = true))
  tramp : k = 0x24#8 → s.dec.exc.valid = true ∨ s.dec.map.requestedOp ∈ csrTargets
  x0 : k ≠ 2#8 → k ≠ 3#8 → k ≠ 4#8 → s.mem 0#6 = 0#32
  a : k = 3#8 → s.a = 0#32
  o : k = 4#8 → s.aluO = 0#32

theorem targets_live : (mapTargets ++ csrTargets).all (fun x => live.contains x.toNat && !(x = 1#8) &&
    !(x = 2#8) && !(x = 3#8) && !(x = 4#8)) = true := by decide +kernel

theorem csr_live : csrTargets.all (fun x => !(x = 0x24#8)) = true := by decide +kernel

end Sentinel
