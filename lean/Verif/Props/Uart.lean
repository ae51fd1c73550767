import Verif.Soc.Uart
import Mathlib.Data.List.Basic
import Mathlib.Tactic.Ring
/-!
# C40: the UART

For any number of data bits and any divisor allowed by the class.
-/

namespace Sentinel

/-- A frame on the line: start bit 0, the data least significant bit first, stop bit 1. -/
def uartFrame (d : List Bool) : List Bool := false :: (d ++ [true])

theorem uartFrame_length (d : List Bool) : (uartFrame d).length = d.length + 2 := by simp [uartFrame]

/-- Division with a counter that is one step short of the next multiple. -/
theorem div_last {k D : Nat} (hD : 0 < D) (h : k % D = D - 1) : (k + 1) / D = k / D + 1 ∧ (k + 1) % D = 0 := by
  have e := Nat.div_add_mod k D
  have : k + 1 = D * (k / D + 1) := by rw [Nat.mul_add]; omega
  constructor
  · rw [this, Nat.mul_div_cancel_left _ hD]
  · rw [this, Nat.mul_mod_right]

theorem div_inner {k D : Nat} (hD : 0 < D) (h : k % D ≠ D - 1) : (k + 1) / D = k / D ∧ (k + 1) % D = k % D + 1 := by
  have hl := Nat.mod_lt k hD
  have e := Nat.div_add_mod k D
  have : k + 1 = D * (k / D) + (k % D + 1) := by omega
  constructor
  · conv_lhs => rw [this]
    rw [Nat.mul_add_div hD, Nat.div_eq_of_lt (a := k % D + 1) (by omega), Nat.add_zero]
  · conv_lhs => rw [this]
    rw [Nat.mul_add_mod, Nat.mod_eq_of_lt (by omega)]

/-! ## Transmitter -/

namespace UartTx
variable {D : Nat} {s : UartTx} {rdy : Nat → Bool} {data : Nat → List Bool} {d : List Bool}

/-- State of the transmitter `k` cycles into the frame of `d`. -/
def sending (D : Nat) (d : List Bool) (k : Nat) : UartTx :=
  { shreg := (uartFrame d).drop (k / D) ++ List.replicate (k / D) true
    count := d.length + 2 - k / D
    phase := D - 1 - k % D }

theorem sending_step (hD : 0 < D) {k : Nat} (hk : k < (d.length + 2) * D) (b : Bool) (x : List Bool) :
    (sending D d k).step D b x = sending D d (k + 1) := by
  have hq : k / D < d.length + 2 := Nat.div_lt_of_lt_mul (by rwa [Nat.mul_comm])
  have hl := Nat.mod_lt k hD
  unfold step
  rw [if_neg (by simp only [sending]; omega)]
  by_cases h : k % D = D - 1
  · rw [if_neg (by simp only [sending]; omega)]
    obtain ⟨h1, h2⟩ := div_last hD h
    simp only [sending, h1, h2]
    have hne : (uartFrame d).drop (k / D) ≠ [] := by
      rw [ne_eq, List.drop_eq_nil_iff, uartFrame_length]; omega
    congr 1
    · rw [List.tail_append_of_ne_nil hne, List.tail_drop, List.append_assoc, List.replicate_succ']
  · rw [if_pos (by simp only [sending]; omega)]
    obtain ⟨h1, h2⟩ := div_inner hD h
    simp only [sending, h1, h2]
    rfl

theorem run_sending (hD : 0 < D) {t : Nat} (hi : (run D s rdy data t).count = 0)
    (hl : (run D s rdy data t).shreg.length = d.length + 2)
    (hr : rdy t = true) (hd : data t = d) {k : Nat} (hk : k ≤ (d.length + 2) * D) :
    run D s rdy data (t + 1 + k) = sending D d k := by
  induction k with
  | zero =>
    show (run D s rdy data t).step D (rdy t) (data t) = _
    rw [hr, hd, step, if_pos hi, if_pos rfl]
    simp [sending, uartFrame, hl]
  | succ k ih =>
    show (run D s rdy data (t + 1 + k)).step D _ _ = _
    rw [ih (by omega), sending_step hD (by omega)]

theorem sending_out {k : Nat} (hk : k < (d.length + 2) * D) :
    (sending D d k).out = (uartFrame d)[k / D]'(by
      rw [uartFrame_length]; exact Nat.div_lt_of_lt_mul (by rwa [Nat.mul_comm])) := by
  have hq : k / D < (uartFrame d).length := by
    rw [uartFrame_length]; exact Nat.div_lt_of_lt_mul (by rwa [Nat.mul_comm])
  simp only [out, sending]
  rw [List.drop_eq_getElem_cons hq]
  rfl

theorem sending_end (hD : 0 < D) : sending D d ((d.length + 2) * D) =
    { shreg := List.replicate (d.length + 2) true, count := 0, phase := D - 1 } := by
  simp only [sending, Nat.mul_div_cancel _ hD, Nat.mul_mod_left, Nat.sub_self, Nat.sub_zero]
  rw [List.drop_of_length_le (by rw [uartFrame_length])]
  rfl

end UartTx

/-- **C40** (transmitter): from any state in which it is ready, a transmitter that is given `d` drives
the frame of `d`, each bit for `divisor` cycles, starting in the next cycle; it is not ready in any of
these cycles, whatever it is offered, and is ready again, with the line high, right after the last. -/
theorem C40_transmit {D : Nat} (hD : 0 < D) {s : UartTx} {rdy : Nat → Bool} {data : Nat → List Bool}
    (hready : s.ack = true) (hlen : s.shreg.length = (data 0).length + 2) (hr : rdy 0 = true) :
    (∀ k, (h : k < ((data 0).length + 2) * D) →
      (s.run D rdy data (1 + k)).out = (uartFrame (data 0))[k / D]'(by
        rw [uartFrame_length]; exact Nat.div_lt_of_lt_mul (by rwa [Nat.mul_comm])) ∧
      (s.run D rdy data (1 + k)).ack = false) ∧
    (s.run D rdy data (1 + ((data 0).length + 2) * D)).ack = true ∧
    (s.run D rdy data (1 + ((data 0).length + 2) * D)).out = true ∧
    (s.run D rdy data (1 + ((data 0).length + 2) * D)).shreg.length = (data 0).length + 2 := by
  have hi : s.count = 0 := by simpa [UartTx.ack] using hready
  have key : ∀ k ≤ ((data 0).length + 2) * D, s.run D rdy data (1 + k) = UartTx.sending D (data 0) k := fun k hk => by
    have := UartTx.run_sending (s := s) (rdy := rdy) (data := data) (t := 0) hD hi hlen hr rfl hk
    rwa [Nat.zero_add] at this
  refine ⟨fun k hk => ?_, ?_⟩
  · have hq : k / D < (data 0).length + 2 := Nat.div_lt_of_lt_mul (by rwa [Nat.mul_comm])
    rw [key k (by omega), UartTx.sending_out hk]
    refine ⟨rfl, ?_⟩
    simp only [UartTx.ack, UartTx.sending, beq_eq_false_iff_ne]
    omega
  · rw [key _ (Nat.le_refl _), UartTx.sending_end hD]
    refine ⟨rfl, ?_, by simp⟩
    simp [UartTx.out, List.replicate_succ]

example : ∃ s : UartTx, s.ack = true ∧ s.shreg.length = [true, false, true, true, false, false, true, false].length + 2 :=
  ⟨UartTx.reset 8, by decide, by decide⟩

/-! ## Receiver -/

namespace UartRx
variable {D : Nat} {s : UartRx} {rxI ack : Nat → Bool} {t : Nat}

/-- The line at the first `j` sampling points after a start bit seen in cycle `t`. -/
def samples (D : Nat) (rxI : Nat → Bool) (t j : Nat) : List Bool :=
  (List.range j).map fun i => rxI (t + 1 + D / 2 + i * D)

/-- State of the receiver, counting cycles so that a bit ends at every multiple of `D`. -/
def receiving (D : Nat) (rxI : Nat → Bool) (t : Nat) (old : List Bool) (K : Nat) : UartRx :=
  { shreg := old.drop (K / D) ++ samples D rxI t (K / D)
    count := old.length - K / D
    phase := D - 1 - K % D
    rdy := decide (K / D = old.length)
    ovf := false }

theorem receiving_step (hD : 2 ≤ D) {old : List Bool} {k : Nat} (hk : k + (D - 1 - D / 2) < old.length * D) (a : Bool) :
    (receiving D rxI t old (k + (D - 1 - D / 2))).step D (rxI (t + 1 + k)) a =
      receiving D rxI t old (k + 1 + (D - 1 - D / 2)) := by
  rw [show k + 1 + (D - 1 - D / 2) = k + (D - 1 - D / 2) + 1 by omega]
  generalize hK : k + (D - 1 - D / 2) = K at *
  have hD0 : 0 < D := by omega
  have hq : K / D < old.length := Nat.div_lt_of_lt_mul (by rwa [Nat.mul_comm])
  have hl := Nat.mod_lt K hD0
  unfold step
  rw [if_neg (by simp only [receiving]; omega)]
  by_cases h : K % D = D - 1
  · rw [if_neg (by simp only [receiving]; omega)]
    obtain ⟨h1, h2⟩ := div_last hD0 h
    have hne : old.drop (K / D) ≠ [] := by rw [ne_eq, List.drop_eq_nil_iff]; omega
    have e := Nat.div_add_mod K D
    have hm : D * (K / D) = K / D * D := Nat.mul_comm _ _
    have hs : t + 1 + k = t + 1 + D / 2 + K / D * D := by omega
    have h3 : (if (receiving D rxI t old K).count = 1 then true else (receiving D rxI t old K).rdy) =
        decide (K / D + 1 = old.length) := by
      by_cases hx : K / D + 1 = old.length
      · rw [if_pos (by simp only [receiving]; omega)]; simp [hx]
      · rw [if_neg (by simp only [receiving]; omega)]; simp only [receiving, hx, decide_false]; simp; omega
    rw [h3]
    simp only [receiving, h1, h2]
    rw [List.tail_append_of_ne_nil hne, List.tail_drop, List.append_assoc, samples, samples, List.range_succ,
      List.map_append, hs]
    rfl
  · rw [if_pos (by simp only [receiving]; omega)]
    obtain ⟨h1, h2⟩ := div_inner hD0 h
    simp only [receiving, h1, h2]
    rfl

theorem run_receiving (hD : 2 ≤ D) {old : List Bool} (hi : (run D s rxI ack t).count = 0)
    (ho : (run D s rxI ack t).shreg = old) (hlen : 0 < old.length)
    (hr : (ack t || !(run D s rxI ack t).rdy) = true) (hx : rxI t = false) {k : Nat}
    (hk : k + (D - 1 - D / 2) ≤ old.length * D) :
    run D s rxI ack (t + 1 + k) = receiving D rxI t old (k + (D - 1 - D / 2)) := by
  induction k with
  | zero =>
    show (run D s rxI ack t).step D (rxI t) (ack t) = _
    have e : (D - 1 - D / 2) / D = 0 := Nat.div_eq_of_lt (by omega)
    rw [step, if_pos hi, if_pos (by rw [hx]; rfl), if_pos hr]
    simp only [receiving, Nat.zero_add, e, samples, List.drop_zero, List.range_zero, List.map_nil, List.append_nil,
      Nat.sub_zero, Nat.mod_eq_of_lt (show D - 1 - D / 2 < D by omega), ho]
    congr 1
    · omega
    · simp; omega
  | succ k ih =>
    show (run D s rxI ack (t + 1 + k)).step D _ _ = _
    rw [ih (by omega)]
    exact receiving_step hD (by omega) _

theorem receiving_end (hD : 0 < D) {old : List Bool} : receiving D rxI t old (old.length * D) =
    { shreg := samples D rxI t old.length, count := 0, phase := D - 1, rdy := true, ovf := false } := by
  simp only [receiving, Nat.mul_div_cancel _ hD, Nat.mul_mod_left, Nat.sub_self, Nat.sub_zero, decide_true]
  rw [List.drop_of_length_le (Nat.le_refl _)]
  rfl

end UartRx

/-- Cycles from the first low cycle of the start bit, seen by a receiver, to the first cycle in which
the byte is presented. -/
def rxLatency (D dataBits : Nat) : Nat := 2 + D / 2 + (dataBits + 1) * D

/-- **C40** (receiver): a receiver that is idle and has room, sees the line go low in cycle 0, and then
finds each bit of the frame of `d` at its sampling point, presents exactly `d`, without error flag or
overflow flag, `rxLatency` cycles later and not before. -/
theorem C40_receive {D : Nat} (hD : 2 ≤ D) {s : UartRx} {rxI ack : Nat → Bool} {d : List Bool}
    (hidle : s.count = 0) (hlen : s.shreg.length = d.length + 2) (hroom : s.rdy = false ∨ ack 0 = true)
    (hstart : rxI 0 = false)
    (hbits : ∀ i, (h : i < (uartFrame d).length) → rxI (1 + D / 2 + i * D) = (uartFrame d)[i]) :
    (s.run D rxI ack (rxLatency D d.length)).rdy = true ∧ (s.run D rxI ack (rxLatency D d.length)).data = d ∧
    (s.run D rxI ack (rxLatency D d.length)).err = false ∧ (s.run D rxI ack (rxLatency D d.length)).ovf = false ∧
    (s.run D rxI ack (rxLatency D d.length)).count = 0 ∧
    ∀ k, 0 < k → k < rxLatency D d.length → (s.run D rxI ack k).rdy = false := by
  have hroom' : (ack 0 || !s.rdy) = true := by rcases hroom with h | h <;> simp [h]
  have key : ∀ k, k + (D - 1 - D / 2) ≤ s.shreg.length * D →
      s.run D rxI ack (1 + k) = UartRx.receiving D rxI 0 s.shreg (k + (D - 1 - D / 2)) := fun k hk => by
    have := UartRx.run_receiving (s := s) (rxI := rxI) (ack := ack) (t := 0) (old := s.shreg) hD hidle rfl (by omega) hroom' hstart hk
    rwa [Nat.zero_add] at this
  have hend : 1 + D / 2 + (d.length + 1) * D + (D - 1 - D / 2) = s.shreg.length * D := by
    rw [hlen, show (d.length + 2) * D = (d.length + 1) * D + D by ring]; omega
  have hs : UartRx.samples D rxI 0 s.shreg.length = uartFrame d := by
    apply List.ext_getElem
    · simp [UartRx.samples, hlen, uartFrame_length]
    · intro i h1 h2
      simp only [UartRx.samples, List.getElem_map, List.getElem_range, Nat.zero_add]
      exact hbits i h2
  have e1 : s.run D rxI ack (rxLatency D d.length) =
      { shreg := uartFrame d, count := 0, phase := D - 1, rdy := true, ovf := false } := by
    rw [rxLatency, show 2 + D / 2 + (d.length + 1) * D = 1 + (1 + D / 2 + (d.length + 1) * D) by ring,
      key _ (by omega), hend, UartRx.receiving_end (by omega), hs]
  rw [e1]
  refine ⟨rfl, ?_, ?_, rfl, rfl, fun k h0 hk => ?_⟩
  · simp [UartRx.data, uartFrame]
  · have : (uartFrame d).getLastD false = true := by
      rw [List.getLastD_eq_getLast?, uartFrame, ← List.cons_append, List.getLast?_concat]; rfl
    rw [UartRx.err, this]; rfl
  · obtain ⟨j, rfl⟩ := Nat.exists_eq_add_of_le h0
    rw [rxLatency] at hk
    rw [Nat.succ_eq_add_one, Nat.zero_add] at *
    rw [key j (by omega)]
    simp only [UartRx.receiving, decide_eq_false_iff_not]
    intro hx
    have := Nat.div_mul_le_self (j + (D - 1 - D / 2)) D
    rw [hx] at this
    omega

/-! ## Transmitter to receiver -/

/-- **C40** (clock tolerance): a frame from a transmitter with divisor `Dt` is received unchanged by a
receiver with divisor `Dr` if every sampling point falls in its bit.  The receiver's input is the
transmitter's output; nothing is assumed of the other inputs of either. -/
theorem C40_tolerance {Dt Dr : Nat} (hDt : 0 < Dt) (hDr : 2 ≤ Dr) {tx : UartTx} {rx : UartRx}
    {rdy ack : Nat → Bool} {data : Nat → List Bool} {d : List Bool}
    (htx : tx.ack = true) (htl : tx.shreg.length = d.length + 2) (hr : rdy 0 = true) (hd : data 0 = d)
    (hidle : (rx.run Dr (fun n => (tx.run Dt rdy data n).out) ack 1).count = 0)
    (hlen : (rx.run Dr (fun n => (tx.run Dt rdy data n).out) ack 1).shreg.length = d.length + 2)
    (hroom : (rx.run Dr (fun n => (tx.run Dt rdy data n).out) ack 1).rdy = false ∨ ack 1 = true)
    (hfit : ∀ i < d.length + 2, i * Dt ≤ 1 + Dr / 2 + i * Dr ∧ 1 + Dr / 2 + i * Dr < (i + 1) * Dt) :
    let r := rx.run Dr (fun n => (tx.run Dt rdy data n).out) ack (1 + rxLatency Dr d.length)
    r.rdy = true ∧ r.data = d ∧ r.err = false ∧ r.ovf = false := by
  subst hd
  have ht := (C40_transmit hDt (s := tx) (rdy := rdy) (data := data) htx htl hr).1
  have hshift : ∀ n, (rx.run Dr (fun n => (tx.run Dt rdy data n).out) ack 1).run Dr
      (fun n => (tx.run Dt rdy data (1 + n)).out) (fun n => ack (1 + n)) n =
      rx.run Dr (fun n => (tx.run Dt rdy data n).out) ack (1 + n) := by
    intro n
    induction n with
    | zero => rfl
    | succ n ih => rw [UartRx.run, ih]; rfl
  have hstart : (tx.run Dt rdy data (1 + 0)).out = false := by
    have h0 := (ht 0 (Nat.mul_pos (by omega) hDt)).1
    rw [h0]
    simp [uartFrame]
  have h := C40_receive hDr (s := rx.run Dr (fun n => (tx.run Dt rdy data n).out) ack 1)
    (rxI := fun n => (tx.run Dt rdy data (1 + n)).out) (ack := fun n => ack (1 + n)) (d := data 0)
    hidle hlen hroom hstart (fun i hi => by
      rw [uartFrame_length] at hi
      obtain ⟨f1, f2⟩ := hfit i hi
      have hlt : 1 + Dr / 2 + i * Dr < ((data 0).length + 2) * Dt :=
        Nat.lt_of_lt_of_le f2 (Nat.mul_le_mul_right _ (by omega))
      show (tx.run Dt rdy data (1 + (1 + Dr / 2 + i * Dr))).out = _
      rw [(ht _ hlt).1]
      congr 1
      exact Nat.div_eq_of_lt_le f1 f2)
  rw [hshift] at h
  exact ⟨h.1, h.2.1, h.2.2.1, h.2.2.2.1⟩

/-- Divisors that differ by 4 % meet the fit condition of `C40_tolerance` for 8 data bits, in both
directions, and so do equal divisors from 3 up. -/
example : (∀ i < 8 + 2, i * 104 ≤ 1 + 100 / 2 + i * 100 ∧ 1 + 100 / 2 + i * 100 < (i + 1) * 104) ∧
    (∀ i < 8 + 2, i * 100 ≤ 1 + 104 / 2 + i * 104 ∧ 1 + 104 / 2 + i * 104 < (i + 1) * 100) := by decide

example (D : Nat) (hD : 3 ≤ D) : ∀ i < 8 + 2, i * D ≤ 1 + D / 2 + i * D ∧ 1 + D / 2 + i * D < (i + 1) * D :=
  fun i _ => by rw [Nat.add_mul]; omega

/-! ## A stream of characters -/

/-- A transmitter wired to a receiver with the same divisor, both from reset. -/
structure UartLink where
  divisor : Nat
  dataBits : Nat
  /-- Offers of characters to the transmitter. -/
  txRdy : Nat → Bool
  txData : Nat → List Bool
  /-- Acknowledgements by the reader. -/
  rxAck : Nat → Bool

namespace UartLink

/-- The transmitter in cycle `t`. -/
def tx (l : UartLink) (t : Nat) : UartTx := (UartTx.reset l.dataBits).run l.divisor l.txRdy l.txData t

/-- The receiver in cycle `t`; its line is the output of the transmitter. -/
def rx (l : UartLink) (t : Nat) : UartRx :=
  (UartRx.reset l.dataBits).run l.divisor (fun n => (l.tx n).out) l.rxAck t

/-- In cycle `t` the transmitter takes the character it is offered. -/
def Accepts (l : UartLink) (t : Nat) : Prop := (l.tx t).ack = true ∧ l.txRdy t = true

/-- The receiver starts to present a character in cycle `t`. -/
def Delivers (l : UartLink) (t : Nat) : Prop := ∃ u, t = u + 1 ∧ (l.rx u).rdy = false ∧ (l.rx t).rdy = true

/-- Both ends idle. -/
structure Idle (l : UartLink) (t : Nat) : Prop where
  txCount : (l.tx t).count = 0
  txOut : (l.tx t).out = true
  txLen : (l.tx t).shreg.length = l.dataBits + 2
  rxCount : (l.rx t).count = 0
  rxLen : (l.rx t).shreg.length = l.dataBits + 2

theorem _root_.Sentinel.UartRx.step_high {D : Nat} {s : UartRx} {a : Bool} (h : s.count = 0) :
    (s.step D true a).count = 0 ∧ (s.step D true a).shreg = s.shreg ∧
      ((s.step D true a).rdy = true → s.rdy = true) := by
  unfold UartRx.step
  rw [if_pos h, if_neg (by decide)]
  split
  · exact ⟨h, rfl, fun h => absurd h Bool.false_ne_true⟩
  · exact ⟨h, rfl, id⟩

theorem _root_.Sentinel.UartRx.step_idle_rdy {D : Nat} {s : UartRx} {x a : Bool} (h : s.count = 0)
    (hr : (s.step D x a).rdy = true) : s.rdy = true := by
  unfold UartRx.step at hr
  rw [if_pos h] at hr
  split at hr
  · split at hr
    · exact absurd hr Bool.false_ne_true
    · exact hr
  · split at hr
    · exact absurd hr Bool.false_ne_true
    · exact hr

theorem rx_succ (l : UartLink) (t : Nat) : l.rx (t + 1) = (l.rx t).step l.divisor (l.tx t).out (l.rxAck t) := rfl
theorem tx_succ (l : UartLink) (t : Nat) : l.tx (t + 1) = (l.tx t).step l.divisor (l.txRdy t) (l.txData t) := rfl

/-- Everything about one character taken from the idle state. -/
structure Carried (l : UartLink) (t : Nat) : Prop where
  /-- The receiver has the character. -/
  got : (l.rx (t + 1 + rxLatency l.divisor l.dataBits)).rdy = true ∧
    (l.rx (t + 1 + rxLatency l.divisor l.dataBits)).data = l.txData t ∧
    (l.rx (t + 1 + rxLatency l.divisor l.dataBits)).err = false ∧
    (l.rx (t + 1 + rxLatency l.divisor l.dataBits)).ovf = false
  quiet : ∀ k, 0 < k → k < rxLatency l.divisor l.dataBits → (l.rx (t + 1 + k)).rdy = false
  start : (l.rx (t + 1)).count = 0
  done : ∀ k, rxLatency l.divisor l.dataBits ≤ k → k ≤ (l.dataBits + 2) * l.divisor → (l.rx (t + 1 + k)).count = 0
  busy : ∀ k, k < (l.dataBits + 2) * l.divisor → (l.tx (t + 1 + k)).ack = false
  idle : l.Idle (t + 1 + (l.dataBits + 2) * l.divisor)

theorem carried (l : UartLink) (hD : 3 ≤ l.divisor) (hdata : ∀ t, (l.txData t).length = l.dataBits) {t : Nat}
    (hi : l.Idle t) (hr : l.txRdy t = true) (hroom : (l.rx (t + 1)).rdy = false ∨ l.rxAck (t + 1) = true) :
    l.Carried t := by
  have hD0 : 0 < l.divisor := by omega
  have hlen := hdata t
  have key : ∀ k ≤ (l.dataBits + 2) * l.divisor, l.tx (t + 1 + k) = UartTx.sending l.divisor (l.txData t) k :=
    fun k hk => UartTx.run_sending (d := l.txData t) hD0 hi.txCount (by rw [hlen]; exact hi.txLen) hr rfl
      (by rw [hlen]; exact hk)
  have hout : ∀ k, (h : k < (l.dataBits + 2) * l.divisor) →
      (l.tx (t + 1 + k)).out = (uartFrame (l.txData t))[k / l.divisor]'(by
        rw [uartFrame_length, hlen]; exact Nat.div_lt_of_lt_mul (by rwa [Nat.mul_comm])) := fun k h => by
    rw [key k (by omega), UartTx.sending_out (by rw [hlen]; exact h)]
  have hrx1 := UartRx.step_high (D := l.divisor) (a := l.rxAck t) hi.rxCount
  have hrx1' : l.rx (t + 1) = (l.rx t).step l.divisor true (l.rxAck t) := by rw [rx_succ, hi.txOut]
  rw [← hrx1'] at hrx1
  have hshift : ∀ n, (l.rx (t + 1)).run l.divisor (fun n => (l.tx (t + 1 + n)).out) (fun n => l.rxAck (t + 1 + n)) n =
      l.rx (t + 1 + n) := by
    intro n
    induction n with
    | zero => rfl
    | succ n ih => rw [UartRx.run, ih]; rfl
  have hfit : ∀ i < l.dataBits + 2, i * l.divisor ≤ 1 + l.divisor / 2 + i * l.divisor ∧
      1 + l.divisor / 2 + i * l.divisor < (i + 1) * l.divisor := fun i _ => by
    rw [Nat.add_mul]; omega
  have hstart : (l.tx (t + 1 + 0)).out = false := by
    have h0 := hout 0 (Nat.mul_pos (by omega) hD0)
    rw [h0]
    simp [uartFrame]
  have hrec := C40_receive (D := l.divisor) (by omega) (s := l.rx (t + 1))
    (rxI := fun n => (l.tx (t + 1 + n)).out) (ack := fun n => l.rxAck (t + 1 + n)) (d := l.txData t)
    hrx1.1 (by rw [hrx1.2.1, hlen]; exact hi.rxLen) hroom hstart (fun i hi' => by
      rw [uartFrame_length, hlen] at hi'
      obtain ⟨f1, f2⟩ := hfit i hi'
      have hlt : 1 + l.divisor / 2 + i * l.divisor < (l.dataBits + 2) * l.divisor :=
        Nat.lt_of_lt_of_le f2 (Nat.mul_le_mul_right _ (by omega))
      show (l.tx (t + 1 + (1 + l.divisor / 2 + i * l.divisor))).out = _
      rw [hout _ hlt]
      congr 1
      exact Nat.div_eq_of_lt_le f1 f2)
  rw [hlen] at hrec
  simp only [hshift] at hrec
  have hL : rxLatency l.divisor l.dataBits ≤ (l.dataBits + 2) * l.divisor := by
    rw [rxLatency, show (l.dataBits + 2) * l.divisor = (l.dataBits + 1) * l.divisor + l.divisor by ring]; omega
  have hL1 : (l.dataBits + 1) * l.divisor < rxLatency l.divisor l.dataBits := by rw [rxLatency]; omega
  have hlenL : (l.rx (t + 1 + rxLatency l.divisor l.dataBits)).shreg.length = l.dataBits + 2 := by
    have : ∀ n, (l.rx n).shreg.length = l.dataBits + 2 := by
      intro n
      induction n with
      | zero => simp [rx, UartRx.run, UartRx.reset]; omega
      | succ n ih =>
        rw [rx_succ]
        unfold UartRx.step
        split
        · split
          · split <;> exact ih
          · split <;> exact ih
        · split
          · exact ih
          · simp [ih]
    exact this _
  have hdone : ∀ j, rxLatency l.divisor l.dataBits + j ≤ (l.dataBits + 2) * l.divisor →
      (l.rx (t + 1 + (rxLatency l.divisor l.dataBits + j))).count = 0 ∧
      (l.rx (t + 1 + (rxLatency l.divisor l.dataBits + j))).shreg.length = l.dataBits + 2 := by
    intro j
    induction j with
    | zero => exact fun _ => ⟨hrec.2.2.2.2.1, hlenL⟩
    | succ j ih =>
      intro hj
      obtain ⟨ih1, ih2⟩ := ih (by omega)
      have ho : (l.tx (t + 1 + (rxLatency l.divisor l.dataBits + j))).out = true := by
        rw [hout _ (by omega)]
        have hq : (rxLatency l.divisor l.dataBits + j) / l.divisor = l.dataBits + 1 :=
          Nat.div_eq_of_lt_le (by omega) (by
            show _ < (l.dataBits + 1 + 1) * l.divisor
            rw [show l.dataBits + 1 + 1 = l.dataBits + 2 from rfl]; omega)
        have : ∀ (i : Nat) (h : i < (uartFrame (l.txData t)).length), i = (l.txData t).length + 1 →
            (uartFrame (l.txData t))[i] = true := by
          rintro i h rfl
          simp [uartFrame]
        exact this _ _ (by rw [hq, hlen])
      have hst := UartRx.step_high (D := l.divisor) (a := l.rxAck (t + 1 + (rxLatency l.divisor l.dataBits + j))) ih1
      rw [show t + 1 + (rxLatency l.divisor l.dataBits + (j + 1)) =
        t + 1 + (rxLatency l.divisor l.dataBits + j) + 1 by omega, rx_succ, ho]
      exact ⟨hst.1, by rw [hst.2.1]; exact ih2⟩
  have hdone' : ∀ k, rxLatency l.divisor l.dataBits ≤ k → k ≤ (l.dataBits + 2) * l.divisor →
      (l.rx (t + 1 + k)).count = 0 ∧ (l.rx (t + 1 + k)).shreg.length = l.dataBits + 2 := fun k h1 h2 => by
    obtain ⟨j, rfl⟩ := Nat.exists_eq_add_of_le h1
    exact hdone j h2
  have hend := key _ (Nat.le_refl _)
  have hse := UartTx.sending_end (D := l.divisor) (d := l.txData t) hD0
  rw [hlen] at hse
  rw [hse] at hend
  refine ⟨⟨hrec.1, hrec.2.1, hrec.2.2.1, hrec.2.2.2.1⟩, hrec.2.2.2.2.2, hrx1.1, fun k h1 h2 => (hdone' k h1 h2).1, fun k hk => ?_,
    ⟨by rw [hend], by rw [hend]; simp [UartTx.out, List.replicate_succ], by rw [hend]; simp,
      (hdone' _ hL (Nat.le_refl _)).1, (hdone' _ hL (Nat.le_refl _)).2⟩⟩
  rw [key k (by omega)]
  have hq : k / l.divisor < l.dataBits + 2 := Nat.div_lt_of_lt_mul (by rwa [Nat.mul_comm])
  simp only [UartTx.ack, UartTx.sending, beq_eq_false_iff_ne, hlen]
  omega

/-- The reader keeps up: a character it has not taken yet is taken, at the latest, in the cycle in which
the start bit of the next one appears on the line. -/
def KeepsUp (l : UartLink) : Prop :=
  ∀ t, l.Accepts t → (l.rx (t + 1)).rdy = false ∨ l.rxAck (t + 1) = true

theorem idle_or_busy (l : UartLink) (hD : 3 ≤ l.divisor) (hdata : ∀ t, (l.txData t).length = l.dataBits)
    (hk : l.KeepsUp) (t : Nat) :
    l.Idle t ∨ ∃ t0 k, t = t0 + 1 + k ∧ k < (l.dataBits + 2) * l.divisor ∧ l.Idle t0 ∧ l.Accepts t0 ∧ l.Carried t0 := by
  induction t with
  | zero =>
    left
    refine ⟨rfl, ?_, ?_, rfl, ?_⟩
    · simp only [tx, UartTx.run, UartTx.reset, UartTx.out]
      rw [show 1 + l.dataBits + 1 = (l.dataBits + 1) + 1 by omega, List.replicate_succ]; rfl
    · simp [tx, UartTx.run, UartTx.reset]; omega
    · simp [rx, UartRx.run, UartRx.reset]; omega
  | succ t ih =>
    rcases ih with hi | ⟨t0, k, rfl, hlt, hi, hacc, hc⟩
    · by_cases hr : l.txRdy t = true
      · have hacc : l.Accepts t := ⟨by simp [UartTx.ack, hi.txCount], hr⟩
        exact .inr ⟨t, 0, rfl, Nat.mul_pos (by omega) (by omega), hi, hacc, l.carried hD hdata hi hr (hk t hacc)⟩
      · left
        have ht : l.tx (t + 1) = l.tx t := by
          rw [tx_succ, UartTx.step, if_pos hi.txCount, if_neg hr]
        have hst := UartRx.step_high (D := l.divisor) (a := l.rxAck t) hi.rxCount
        exact ⟨by rw [ht]; exact hi.txCount, by rw [ht]; exact hi.txOut, by rw [ht]; exact hi.txLen,
          by rw [rx_succ, hi.txOut]; exact hst.1, by rw [rx_succ, hi.txOut, hst.2.1]; exact hi.rxLen⟩
    · by_cases he : k + 1 = (l.dataBits + 2) * l.divisor
      · left
        rw [show t0 + 1 + k + 1 = t0 + 1 + (k + 1) by omega, he]
        exact hc.idle
      · exact .inr ⟨t0, k + 1, by omega, by omega, hi, hacc, hc⟩

end UartLink

/-- **C40** (stream): over a link between two UARTs with the same divisor, from reset, with a reader that
keeps up, every character the transmitter takes is delivered unchanged, without error or overflow flag,
exactly `1 + rxLatency` cycles after it was taken; and nothing else is ever delivered.  So the receiver
delivers exactly the sequence of characters sent, in order. -/
theorem C40_stream (l : UartLink) (hD : 4 ≤ l.divisor) (hdata : ∀ t, (l.txData t).length = l.dataBits)
    (hk : l.KeepsUp) :
    (∀ t, l.Accepts t → ∃ u, u = t + 1 + rxLatency l.divisor l.dataBits ∧ l.Delivers u ∧
      (l.rx u).data = l.txData t ∧ (l.rx u).err = false ∧ (l.rx u).ovf = false) ∧
    (∀ u, l.Delivers u → ∃ t, l.Accepts t ∧ u = t + 1 + rxLatency l.divisor l.dataBits) := by
  have hL2 : 2 ≤ rxLatency l.divisor l.dataBits := by rw [rxLatency]; omega
  constructor
  · intro t hacc
    rcases l.idle_or_busy (by omega) hdata hk t with hi | ⟨t0, k, rfl, hlt, _, _, hc⟩
    · have hc := l.carried (by omega) hdata hi hacc.2 (hk t hacc)
      refine ⟨_, rfl, ⟨t + 1 + (rxLatency l.divisor l.dataBits - 1), by omega, hc.quiet _ (by omega) (by omega), hc.got.1⟩,
        hc.got.2.1, hc.got.2.2.1, hc.got.2.2.2⟩
    · have := hc.busy k hlt
      rw [hacc.1] at this
      exact absurd this (by decide)
  · rintro _ ⟨u, rfl, h0, h1⟩
    rcases l.idle_or_busy (by omega) hdata hk u with hi | ⟨t0, k, rfl, hlt, _, hacc, hc⟩
    · rw [UartLink.rx_succ] at h1
      rw [UartRx.step_idle_rdy hi.rxCount h1] at h0
      exact absurd h0 (by decide)
    · have nidle : (l.rx (t0 + 1 + k)).count = 0 → False := fun hcnt => by
        rw [UartLink.rx_succ] at h1
        rw [UartRx.step_idle_rdy hcnt h1] at h0
        exact absurd h0 (by decide)
      refine ⟨t0, hacc, ?_⟩
      rcases Nat.lt_trichotomy (k + 1) (rxLatency l.divisor l.dataBits) with h | h | h
      · have := hc.quiet (k + 1) (by omega) h
        rw [show t0 + 1 + (k + 1) = t0 + 1 + k + 1 by omega, h1] at this
        exact absurd this (by decide)
      · omega
      · exact absurd (hc.done k (by omega) (by omega)) nidle

/-- A reader that always acknowledges keeps up, so the hypotheses of `C40_stream` are met by any data. -/
example (f : Nat → List Bool) (hf : ∀ t, (f t).length = 8) :
    let l : UartLink := ⟨4, 8, fun _ => true, f, fun _ => true⟩
    l.KeepsUp ∧ l.Accepts 0 ∧ ∀ t, (l.txData t).length = l.dataBits :=
  ⟨fun _ _ => .inr rfl, ⟨rfl, rfl⟩, hf⟩

/-- With divisor 2 the link does not work: the last sampling points fall outside their bits. -/
example : let l : UartLink := ⟨2, 2, fun _ => true, fun _ => [true, false], fun _ => true⟩
    (l.rx (1 + rxLatency 2 2)).data ≠ [true, false] := by decide

theorem UartRx.idle_run {D : Nat} {s : UartRx} {rxI ack : Nat → Bool} {n : Nat}
    (hidle : s.count = 0) (hrdy : s.rdy = true) (hack : ∀ k < n, ack k = false) :
    (s.run D rxI ack n).count = 0 := by
  have key : (s.run D rxI ack n).count = 0 ∧ (s.run D rxI ack n).rdy = true := by
    induction n with
    | zero => exact ⟨hidle, hrdy⟩
    | succ n ih =>
      obtain ⟨i1, i2⟩ := ih fun k hk => hack k (by omega)
      have ha := hack n (by omega)
      simp only [UartRx.run, UartRx.step, i1, if_true, ha, i2, Bool.not_true, Bool.or_false, Bool.false_eq_true,
        if_false]
      split <;> simp [i1, i2]
  exact key.1

/-- **C40** (overflow): a receiver that holds a character the reader has not taken keeps it, whatever
is on the line, until the reader acknowledges; it flags the overflow when a start bit arrives. -/
theorem C40_overflow {D : Nat} {s : UartRx} {rxI ack : Nat → Bool} {n : Nat}
    (hidle : s.count = 0) (hrdy : s.rdy = true) (hack : ∀ k < n, ack k = false) :
    (s.run D rxI ack n).rdy = true ∧ (s.run D rxI ack n).data = s.data ∧
      ((s.run D rxI ack n).ovf = true ↔ s.ovf = true ∨ ∃ k < n, rxI k = false) := by
  have key : (s.run D rxI ack n).count = 0 ∧ (s.run D rxI ack n).rdy = true ∧ (s.run D rxI ack n).shreg = s.shreg ∧
      ((s.run D rxI ack n).ovf = true ↔ s.ovf = true ∨ ∃ k < n, rxI k = false) := by
    induction n with
    | zero => exact ⟨hidle, hrdy, rfl, by simp [UartRx.run]⟩
    | succ n ih =>
      obtain ⟨i1, i2, i3, i4⟩ := ih fun k hk => hack k (by omega)
      have ha := hack n (by omega)
      simp only [UartRx.run, UartRx.step, i1, if_true, ha, i2, Bool.not_true, Bool.or_false, Bool.false_eq_true, if_false]
      cases hx : rxI n
      · simp only [Bool.not_false, if_true]
        exact ⟨trivial, trivial, i3, by simp only [true_iff]; exact .inr ⟨n, by omega, hx⟩⟩
      · simp only [Bool.not_true, Bool.false_eq_true, if_false]
        refine ⟨i1, i2, i3, i4.trans (or_congr Iff.rfl ⟨fun ⟨k, h, e⟩ => ⟨k, by omega, e⟩, fun ⟨k, h, e⟩ => ?_⟩)⟩
        by_cases hkn : k = n
        · subst hkn; rw [hx] at e; exact absurd e (by decide)
        · exact ⟨k, by omega, e⟩
  exact ⟨key.2.1, by rw [UartRx.data, key.2.2.1]; rfl, key.2.2.2⟩

end Sentinel
