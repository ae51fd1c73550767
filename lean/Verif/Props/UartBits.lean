import Verif.Soc.UartBits
import Mathlib.Data.List.GetD
/-!
# C88: the registers of the UART are wide enough

The UART with its registers as wide as they are declared does the same as the UART with unbounded
counters, for every divisor and every number of data bits; so what C40, C46 to C48 and the claims about the
SoC say is true of the circuit.
-/

namespace Sentinel

/-- The bits of a word, least significant first. -/
def bitList {n : Nat} (x : BitVec n) : List Bool := (List.range n).map fun i => x.getLsbD i

theorem bitList_length {n : Nat} (x : BitVec n) : (bitList x).length = n := by simp [bitList]

theorem bitList_cast {n m : Nat} (h : n = m) (x : BitVec n) : bitList (x.cast h) = bitList x := by subst h; rfl

theorem bitList_ext {n : Nat} (x : BitVec n) (l : List Bool) (hl : l.length = n) (h : ∀ i < n, x.getLsbD i = l.getD i false) : bitList x = l := by
  apply List.ext_getElem (by simp [bitList, hl])
  intro i h1 h2
  have h3 : i < n := by rw [← hl]; exact h2
  simp only [bitList, List.getElem_map, List.getElem_range]
  rw [h i h3, List.getD_eq_getElem _ _ h2]

theorem bitList_getD {n : Nat} (x : BitVec n) (i : Nat) : (bitList x).getD i false = x.getLsbD i := by
  by_cases h : i < n
  · rw [List.getD_eq_getElem _ _ (by rw [bitList_length]; exact h)]; simp [bitList]
  · rw [BitVec.getLsbD_of_ge _ _ (by omega), List.getD_eq_default _ _ (by rw [bitList_length]; omega)]

theorem range_lt {k a : Nat} (hk : 2 ≤ k) (h : a < k) : a < 2 ^ rangeBits k := by
  have : k - 1 < 2 ^ (Nat.log2 (k - 1) + 1) := Nat.lt_log2_self
  rw [rangeBits]; omega

theorem toNat_range {k a : Nat} (hk : 2 ≤ k) (h : a < k) : (BitVec.ofNat (rangeBits k) a).toNat = a := by
  rw [BitVec.toNat_ofNat, Nat.mod_eq_of_lt (range_lt hk h)]

theorem bv_zero_iff {w : Nat} (x : BitVec w) : x = 0 ↔ x.toNat = 0 := by
  constructor
  · rintro rfl; rfl
  · intro h; apply BitVec.eq_of_toNat_eq; simpa using h

theorem toNat_pred {w : Nat} {x : BitVec w} (h : x ≠ 0) : (x - 1).toNat = x.toNat - 1 := by
  have h1 : x.toNat ≠ 0 := fun e => h ((bv_zero_iff x).2 e)
  have hw : 0 < w := by
    rcases Nat.eq_zero_or_pos w with rfl | h2
    · exact absurd (BitVec.eq_of_toNat_eq (by simp [BitVec.of_length_zero])) h
    · exact h2
  have h2 := x.isLt
  have : (1 : BitVec w).toNat = 1 := by
    show (BitVec.ofNat w 1).toNat = 1
    rw [BitVec.toNat_ofNat, Nat.mod_eq_of_lt (Nat.one_lt_two_pow (by omega))]
  rw [BitVec.toNat_sub, this]
  rw [show 2 ^ w - 1 + x.toNat = (x.toNat - 1) + 2 ^ w by omega, Nat.add_mod_right, Nat.mod_eq_of_lt (by omega)]

theorem toNat_one_range {k : Nat} (hk : 2 ≤ k) : (1 : BitVec (rangeBits k)).toNat = 1 := toNat_range (a := 1) hk (show 1 < k by omega)

theorem shift_bits {n : Nat} (x : BitVec (1 + n + 1)) (b : Bool) :
    bitList ((BitVec.ofBool b ++ x.extractLsb' 1 (1 + n)).cast (by omega) : BitVec (1 + n + 1)) = (bitList x).tail ++ [b] := by
  apply bitList_ext
  · simp [bitList_length]
  · intro i hi
    rw [BitVec.getLsbD_cast, BitVec.getLsbD_append]
    by_cases h : i < 1 + n
    · rw [List.getD_append _ _ _ _ (by simp [bitList_length]; omega)]
      have : (bitList x).tail.getD i false = (bitList x).getD (i + 1) false := by simp [List.getD_eq_getElem?_getD]
      rw [this, bitList_getD, if_pos h, BitVec.getLsbD_extractLsb']
      rw [decide_eq_true h, Bool.true_and, Nat.add_comm 1 i]
    · have e : i = 1 + n := by omega
      rw [List.getD_append_right _ _ _ _ (by simp [bitList_length]; omega)]
      simp [e, bitList_length]

theorem frame_bits {n : Nat} (x : BitVec n) : bitList ((1#1 ++ (x ++ 0#1)).cast (by omega) : BitVec (1 + n + 1)) = false :: (bitList x ++ [true]) := by
  apply bitList_ext
  · simp [bitList_length]; omega
  · intro i hi
    rw [BitVec.getLsbD_cast, BitVec.getLsbD_append, BitVec.getLsbD_append]
    rcases i with _ | i
    · simp
    · rw [List.getD_cons_succ]
      by_cases h : i < n
      · rw [List.getD_append _ _ _ _ (by rw [bitList_length]; exact h), bitList_getD]
        simp [h]
      · have e : i = n := by omega
        rw [List.getD_append_right _ _ _ _ (by rw [bitList_length]; omega)]
        simp [e, bitList_length]

namespace UartTxBits
variable {divisor dataBits : Nat}

/-- The transmitter with its counters as numbers and its shift register as a list. -/
def abs (s : UartTxBits divisor dataBits) : UartTx := ⟨s.phase.toNat, bitList s.shreg, s.count.toNat⟩

theorem abs_reset : (reset divisor dataBits).abs = UartTx.reset dataBits := by
  have : bitList (BitVec.allOnes (1 + dataBits + 1)) = List.replicate (1 + dataBits + 1) true := by
    apply bitList_ext _ _ (by simp)
    intro i hi
    rw [BitVec.getLsbD_allOnes, List.getD_eq_getElem _ _ (by simpa using hi)]
    simp [hi]
  simp [abs, reset, UartTx.reset, this]

theorem abs_step (hd : 2 ≤ divisor) (s : UartTxBits divisor dataBits) (rdy : Bool) (data : BitVec dataBits) :
    (s.step rdy data).abs = s.abs.step divisor rdy (bitList data) := by
  have hc := bv_zero_iff s.count
  have hp := bv_zero_iff s.phase
  unfold step UartTx.step
  by_cases h0 : s.count = 0
  · rw [if_pos h0, if_pos (show s.abs.count = 0 from hc.1 h0)]
    cases rdy
    · rfl
    · simp only [if_true]
      simp only [abs, frame_bits, bitList_length]
      rw [toNat_range (by omega) (by omega), toNat_range (by omega) (by omega)]
  · rw [if_neg h0, if_neg (show ¬ s.abs.count = 0 from fun e => h0 (hc.2 e))]
    by_cases h1 : s.phase = 0
    · rw [if_neg (not_not_intro h1), if_neg (not_not_intro (show s.abs.phase = 0 from hp.1 h1))]
      have := shift_bits s.shreg true
      rw [show BitVec.ofBool true = 1#1 from rfl] at this
      simp only [abs, this, toNat_pred h0]
      rw [toNat_range (by omega) (by omega)]
    · rw [if_pos h1, if_pos (show s.abs.phase ≠ 0 from fun e => h1 (hp.2 e))]
      simp only [abs, toNat_pred h1]

theorem abs_ack (s : UartTxBits divisor dataBits) : s.abs.ack = s.ack := by
  have := bv_zero_iff s.count
  simp only [abs, UartTx.ack, ack]
  by_cases h : s.count = 0
  · simp [h]
  · have h' : ¬ s.count.toNat = 0 := fun e => h (this.2 e)
    rw [beq_eq_false_iff_ne.2 h, beq_eq_false_iff_ne.2 h']

theorem abs_out (s : UartTxBits divisor dataBits) : s.abs.out = s.out := by
  have := bitList_getD s.shreg 0
  simp only [abs, UartTx.out, out]
  rw [← this]
  cases bitList s.shreg <;> rfl

end UartTxBits

namespace UartRxBits
variable {divisor dataBits : Nat}

/-- The receiver with its counters as numbers and its shift register as a list. -/
def abs (s : UartRxBits divisor dataBits) : UartRx := ⟨s.phase.toNat, bitList s.shreg, s.count.toNat, s.rdy, s.ovf⟩

theorem abs_reset : (reset divisor dataBits).abs = UartRx.reset dataBits := by
  have := UartTxBits.abs_reset (divisor := divisor) (dataBits := dataBits)
  simp only [UartTxBits.abs, UartTxBits.reset, UartTx.reset, UartTx.mk.injEq] at this
  simp [abs, reset, UartRx.reset, this]

theorem abs_step (hd : 2 ≤ divisor) (s : UartRxBits divisor dataBits) (rxI ack : Bool) :
    (s.step rxI ack).abs = s.abs.step divisor rxI ack := by
  have hc := bv_zero_iff s.count
  have hp := bv_zero_iff s.phase
  have h2 : divisor / 2 < divisor := Nat.div_lt_self (by omega) (by omega)
  unfold step UartRx.step
  by_cases h0 : s.count = 0
  · rw [if_pos h0, if_pos (show s.abs.count = 0 from hc.1 h0)]
    have e1 : (BitVec.ofNat (rangeBits (1 + dataBits + 1 + 1)) (1 + dataBits + 1)).toNat = 1 + dataBits + 1 := toNat_range (by omega) (by omega)
    have e2 : (BitVec.ofNat (rangeBits divisor) (divisor / 2)).toNat = divisor / 2 := toNat_range hd h2
    have e3 := bitList_length s.shreg
    cases rxI <;> cases ack <;> cases hr : s.rdy <;> simp [abs, hr, e1, e2, e3, -BitVec.toNat_ofNat]
  · rw [if_neg h0, if_neg (show ¬ s.abs.count = 0 from fun e => h0 (hc.2 e))]
    by_cases h1 : s.phase = 0
    · rw [if_neg (not_not_intro h1), if_neg (not_not_intro (show s.abs.phase = 0 from hp.1 h1))]
      have h3 : s.count = 1 ↔ s.count.toNat = 1 := by
        have := toNat_one_range (k := 1 + dataBits + 1 + 1) (by omega)
        rw [← BitVec.toNat_inj, this]
      simp only [abs, shift_bits, toNat_pred h0, h3]
      rw [toNat_range (by omega) (by omega)]
      rfl
    · rw [if_pos h1, if_pos (show s.abs.phase ≠ 0 from fun e => h1 (hp.2 e))]
      simp only [abs, toNat_pred h1]

theorem abs_data (s : UartRxBits divisor dataBits) : s.abs.data = bitList s.data := by
  symm
  apply bitList_ext
  · simp [abs, UartRx.data, bitList_length]; 
  · intro i hi
    simp only [data, abs, UartRx.data]
    have : ((bitList s.shreg).tail.dropLast).getD i false = (bitList s.shreg).getD (i + 1) false := by
      simp only [List.getD_eq_getElem?_getD, List.getElem?_dropLast, List.length_tail, bitList_length, List.getElem?_tail]
      rw [if_pos (by omega)]
    rw [this, bitList_getD, BitVec.getLsbD_extractLsb']
    simp [hi, Nat.add_comm]

theorem abs_err (s : UartRxBits divisor dataBits) : s.abs.err = s.err := by
  have hc := bv_zero_iff s.count
  have h0 : (bitList s.shreg).headD false = s.shreg.getLsbD 0 := by
    rw [← bitList_getD s.shreg 0]
    cases bitList s.shreg <;> rfl
  have hl : (bitList s.shreg).getLastD false = s.shreg.msb := by
    have hlen := bitList_length s.shreg
    have hne : bitList s.shreg ≠ [] := by intro e; rw [e] at hlen; simp at hlen
    rw [BitVec.msb_eq_getLsbD_last, ← bitList_getD, List.getLastD_eq_getLast?, List.getLast?_eq_getElem?, hlen]
    rfl
  simp only [abs, UartRx.err, err, h0, hl]
  congr 1
  by_cases h : s.count = 0
  · simp [h]
  · have h' : ¬ s.count.toNat = 0 := fun e => h (hc.2 e)
    rw [beq_eq_false_iff_ne.2 h, beq_eq_false_iff_ne.2 h']

end UartRxBits

variable {divisor dataBits : Nat}

/-- **C88.** The transmitter as it is declared and the one with unbounded counters: the same line, the same acknowledgements, the
same state, in every cycle, for every divisor the class admits and every number of data bits. -/
theorem C88_tx (hd : 4 ≤ divisor) (rdy : Nat → Bool) (data : Nat → BitVec dataBits) (t : Nat) :
    let s := (UartTxBits.reset divisor dataBits).run rdy data t
    let m := (UartTx.reset dataBits).run divisor rdy (fun i => bitList (data i)) t
    s.abs = m ∧ s.out = m.out ∧ s.ack = m.ack := by
  have key : ((UartTxBits.reset divisor dataBits).run rdy data t).abs = (UartTx.reset dataBits).run divisor rdy (fun i => bitList (data i)) t := by
    induction t with
    | zero => exact UartTxBits.abs_reset
    | succ t ih => rw [UartTxBits.run, UartTxBits.abs_step (by omega), ih]; rfl
  intro s m
  exact ⟨key, by rw [← UartTxBits.abs_out, key], by rw [← UartTxBits.abs_ack, key]⟩

/-- **C88.** The receiver as it is declared and the one with unbounded counters: the same character and flags in every cycle. -/
theorem C88_rx (hd : 4 ≤ divisor) (rxI ack : Nat → Bool) (t : Nat) :
    let s := (UartRxBits.reset divisor dataBits).run rxI ack t
    let m := (UartRx.reset dataBits).run divisor rxI ack t
    s.abs = m ∧ bitList s.data = m.data ∧ s.err = m.err ∧ s.rdy = m.rdy ∧ s.ovf = m.ovf := by
  have key : ((UartRxBits.reset divisor dataBits).run rxI ack t).abs = (UartRx.reset dataBits).run divisor rxI ack t := by
    induction t with
    | zero => exact UartRxBits.abs_reset
    | succ t ih => rw [UartRxBits.run, UartRxBits.abs_step (by omega), ih]; rfl
  intro s m
  exact ⟨key, by rw [← UartRxBits.abs_data, key], by rw [← UartRxBits.abs_err, key], congrArg UartRx.rdy key, congrArg UartRx.ovf key⟩

/-- The case of the example SoC at 12 MHz and 9600 baud: 11 bits for the phase, 4 for the count. -/
example : rangeBits 1250 = 11 ∧ rangeBits 11 = 4 ∧ (4 ≤ 1250) := by decide

/-- With divisor 4: in the fifth cycle after a character was offered the start bit is over and its first bit is on the line. -/
example : let s := ((UartTxBits.reset 4 8).run (fun t => t == 0) (fun _ => 0x41) 5)
    s.out = true ∧ s.count = 9 ∧ s.phase = 3 ∧ s.ack = false := by decide

/-- The width matters: in a counter for `range(len(tx_shreg))` the 8 of a frame of 8 bits would be 0. -/
example : (BitVec.ofNat (rangeBits 8) 8) = 0 := by decide

end Sentinel
