import Verif.Soc.Arty
import Verif.Props.Atto
import Verif.Props.AttoCsr
import Verif.Props.Loader
/-!
# C76, C77: the example SoC on the Arty A7, and the hex file of the firmware
-/

set_option linter.unusedSimpArgs false

namespace Sentinel

open Spec (Word byteOf)

/-! ### C76: specification -/

/-- Cycles of the SoC in the first `n` cycles of the board's clock: three in each 26, in those numbered 8, 17 and 25. -/
def artyTicks (n : Nat) : Nat := 3 * (n / 26) + (if 9 ≤ n % 26 then 1 else 0) + (if 18 ≤ n % 26 then 1 else 0)

/-- The cycle of the board's clock in which cycle `j` of the SoC takes place. -/
def artyTime (j : Nat) : Nat := 26 * (j / 3) + (if j % 3 = 0 then 8 else if j % 3 = 1 then 17 else 25)

theorem artyTicks_succ (n : Nat) :
    artyTicks (n + 1) = artyTicks n + if n % 26 = 8 ∨ n % 26 = 17 ∨ n % 26 = 25 then 1 else 0 := by
  unfold artyTicks
  have h1 : (n + 1) / 26 = n / 26 + if n % 26 = 25 then 1 else 0 := by split <;> omega
  have h2 : (n + 1) % 26 = if n % 26 = 25 then 0 else n % 26 + 1 := by split <;> omega
  rw [h1, h2]
  generalize n % 26 = r
  generalize n / 26 = q
  split <;> split <;> (repeat' split) <;> omega

theorem artyTime_ticks {n : Nat} (h : n % 26 = 8 ∨ n % 26 = 17 ∨ n % 26 = 25) : artyTime (artyTicks n) = n := by
  unfold artyTime artyTicks
  rcases h with h | h | h <;> rw [h] <;> simp <;> (repeat' split) <;> omega

/-- How the two clocks are related. -/
theorem artyTicks_bounds (n : Nat) : 3 * n ≤ 26 * artyTicks n + 25 ∧ 26 * artyTicks n ≤ 3 * n := by
  unfold artyTicks
  split <;> split <;> omega

theorem artyTime_bounds (j : Nat) : 26 * j + 23 ≤ 3 * artyTime j ∧ 3 * artyTime j ≤ 26 * j + 25 := by
  unfold artyTime
  split
  · omega
  · split <;> omega

theorem artyTicks_time (j : Nat) : artyTicks (artyTime j) = j ∧ artyTicks (artyTime j + 1) = j + 1 := by
  unfold artyTime artyTicks
  have : j % 3 = 0 ∨ j % 3 = 1 ∨ j % 3 = 2 := by omega
  rcases this with h | h | h <;> rw [h] <;> simp <;> constructor <;> (repeat' split) <;> omega

namespace Arty
variable {σ : Type}

theorem div_eq {step : σ → AttoIn → σ} {s : Arty σ} (h0 : s.div = 0) (p : Nat → AttoIn) (n : Nat) :
    (s.run step p n).div = BitVec.ofNat 5 (n % 26) := by
  induction n with
  | zero => exact h0
  | succ n ih =>
    show (if (s.run step p n).div = 25 then (0 : BitVec 5) else (s.run step p n).div + 1) = _
    rw [ih]
    have h : n % 26 < 26 := Nat.mod_lt _ (by decide)
    have e : (n + 1) % 26 = if n % 26 = 25 then 0 else n % 26 + 1 := by split <;> omega
    rw [e]
    generalize n % 26 = r at h
    interval_cases r <;> rfl

/-- **C76** (steps): whatever the SoC is, in the design for the Arty A7 it goes through the same states as without clock divider: after `n` cycles of the board's clock
it has done `artyTicks n` cycles, with the pins as they were in the cycles `artyTime`. -/
theorem soc_eq {step : σ → AttoIn → σ} {s : Arty σ} (h0 : s.div = 0) {p : Nat → AttoIn} {f : Nat → σ} (f0 : f 0 = s.soc)
    (f1 : ∀ j, f (j + 1) = step (f j) (p (artyTime j))) (n : Nat) : (s.run step p n).soc = f (artyTicks n) := by
  induction n with
  | zero => exact f0.symm
  | succ n ih =>
    show (if (s.run step p n).ce then step (s.run step p n).soc (p n) else (s.run step p n).soc) = _
    have hce : (s.run step p n).ce = true ↔ n % 26 = 8 ∨ n % 26 = 17 ∨ n % 26 = 25 := by
      unfold ce
      rw [div_eq h0]
      have h : n % 26 < 26 := Nat.mod_lt _ (by decide)
      generalize n % 26 = r at h
      interval_cases r <;> decide
    rw [artyTicks_succ]
    by_cases hc : n % 26 = 8 ∨ n % 26 = 17 ∨ n % 26 = 25
    · rw [if_pos (hce.2 hc), if_pos hc, f1, artyTime_ticks hc, ih]
    · rw [if_neg (fun h => hc (hce.1 h)), if_neg hc, ih, Nat.add_zero]

end Arty

/-! ### C76 -/

/-- **C76** (the SoC is the same): on the Arty A7 the SoC with the Wishbone bus goes through the states it goes through by itself, whatever happens on the pins:
after `n` cycles of the board's clock it has done `artyTicks n` cycles, and it sees the pins as they are in the cycles `artyTime`.  So all that is proved about the SoC holds there, in these cycles. -/
theorem C76_steps {k D : Nat} {s : Arty (Atto k)} (h0 : s.div = 0) (p : Nat → AttoIn) (n : Nat) :
    (s.run (Atto.step D) p n).soc = s.soc.run D (fun j => p (artyTime j)) (artyTicks n) :=
  Arty.soc_eq (f := s.soc.run D fun j => p (artyTime j)) h0 rfl (fun _ => rfl) n

/-- **C76** (the same for the SoC with the CSR bus). -/
theorem C76_steps_csr {k D : Nat} {s : Arty (AttoCsr k)} (h0 : s.div = 0) (p : Nat → AttoIn) (n : Nat) :
    (s.run (AttoCsr.step D) p n).soc = s.soc.run D (fun j => p (artyTime j)) (artyTicks n) :=
  Arty.soc_eq (f := s.soc.run D fun j => p (artyTime j)) h0 rfl (fun _ => rfl) n

/-- **C76** (speed): there are exactly three cycles of the SoC in each 26 cycles of the board's clock, wherever they begin, and at most 9 cycles pass from one to the next; so the SoC runs at 3/26 of
100 MHz, which is 11.54 MHz. -/
theorem C76_speed (n : Nat) : artyTicks (n + 26) = artyTicks n + 3 ∧ artyTicks n < artyTicks (n + 9) ∧ artyTicks (n + 1) ≤ artyTicks n + 1 := by
  refine ⟨?_, ?_, ?_⟩
  · unfold artyTicks
    have h1 : (n + 26) / 26 = n / 26 + 1 := by omega
    have h2 : (n + 26) % 26 = n % 26 := by omega
    rw [h1, h2]; omega
  · unfold artyTicks
    (repeat' split) <;> omega
  · rw [artyTicks_succ]; split <;> omega

theorem UartRx.len_run (D : Nat) {s : UartRx} {L : Nat} (h : s.shreg.length = L + 1) (x a : Nat → Bool) (n : Nat) :
    (s.run D x a n).shreg.length = L + 1 := by
  induction n with
  | zero => exact h
  | succ n ih =>
    rw [UartRx.run]
    unfold UartRx.step
    split
    · split
      · split <;> exact ih
      · split <;> exact ih
    · split
      · exact ih
      · simp only [List.length_append, List.length_tail, List.length_singleton, ih]
        omega

/-- The terminal: the receiver of the same design, with divisor `Dr`, at the full clock of the board, on a line that changes with the cycles of the SoC. -/
def artyTerminal (Dr : Nat) (line take : Nat → Bool) (n : Nat) : UartRx :=
  (UartRx.reset 8).run Dr (fun n => line (artyTicks n)) take n

/-- **C76** (output): if the SoC sends the frame of a byte from its cycle `c` on (divisor 1250), then a terminal at the board's clock that is idle and has room when the frame begins shows exactly this byte,
for each divisor from 10270 to 11400 (9600 baud are 10417). -/
theorem C76_terminal {line take : Nat → Bool} {d : BitVec 8} {c Dr : Nat}
    (hf : ∀ j, (h : j < 10 * 1250) → line (c + j) = (uartFrame (byteBits d))[j / 1250]'(by rw [uartFrame_length, byteBits_length]; omega))
    (h1 : 10270 ≤ Dr) (h2 : Dr ≤ 11400) {n : Nat} (hn : artyTicks n = c)
    (hidle : (artyTerminal Dr line take n).count = 0) (hroom : (artyTerminal Dr line take n).rdy = false) :
    let r := artyTerminal Dr line take (n + rxLatency Dr 8)
    r.rdy = true ∧ r.data = byteBits d ∧ r.err = false ∧ r.ovf = false := by
  have hlen : (artyTerminal Dr line take n).shreg.length = (byteBits d).length + 2 := by
    rw [byteBits_length]; exact UartRx.len_run Dr rfl _ _ n
  have hsub : ∀ i, i < 10 → ∃ j, artyTicks (n + (1 + Dr / 2 + i * Dr)) = c + j ∧ j < 12500 ∧ j / 1250 = i := by
    intro i hi
    have b1 := artyTicks_bounds n
    have b2 := artyTicks_bounds (n + (1 + Dr / 2 + i * Dr))
    rw [hn] at b1
    generalize artyTicks (n + (1 + Dr / 2 + i * Dr)) = T at b2
    refine ⟨T - c, ?_, ?_, ?_⟩ <;> interval_cases i <;> omega
  have hbits : ∀ i, (h : i < (uartFrame (byteBits d)).length) →
      (fun k => line (artyTicks (n + k))) (1 + Dr / 2 + i * Dr) = (uartFrame (byteBits d))[i] := by
    intro i hi
    obtain ⟨j, a1, a2, a3⟩ := hsub i (by rwa [uartFrame_length, byteBits_length] at hi)
    show line _ = _
    rw [a1, hf j a2]
    simp only [a3]
  have := C40_receive (D := Dr) (by omega) (s := artyTerminal Dr line take n) (rxI := fun k => line (artyTicks (n + k)))
    (ack := fun k => take (n + k)) (d := byteBits d) hidle hlen (.inl hroom)
    (by have := hf 0 (by omega); show line (artyTicks (n + 0)) = false; rw [Nat.add_zero, hn]; simpa [uartFrame] using this) hbits
  rw [byteBits_length] at this
  obtain ⟨g1, g2, g3, g4, -⟩ := this
  have e : artyTerminal Dr line take (n + rxLatency Dr 8) = _ := UartRx.run_add'' Dr (UartRx.reset 8) (fun n => line (artyTicks n)) take n (rxLatency Dr 8)
  intro r
  rw [show r = _ from e]
  exact ⟨g1, g2, g3, g4⟩

/-- **C76** (output of a program): on the Arty A7 a byte that a program stores to the data register of the serial port while the transmitter is ready is shown by a terminal at the board's clock that
is idle and has room when the frame begins. The store is completed in cycle `t + 1` of the SoC. -/
theorem C76_send {k : Nat} {s : Arty (Atto k)} {p : Nat → AttoIn} {t Dr n : Nat} {take : Nat → Bool} (h0 : s.div = 0) (h : s.soc.AfterReset)
    (hc : Atto.Completes s.soc 1250 (fun j => p (artyTime j)) t)
    (ht : (s.soc.run 1250 (fun j => p (artyTime j)) (t + 1)).cpu.req.target = some .serial)
    (hw : (s.soc.run 1250 (fun j => p (artyTime j)) (t + 1)).cpu.req.we = true)
    (hs : (s.soc.run 1250 (fun j => p (artyTime j)) (t + 1)).cpu.req.sel.getLsbD 0 = true)
    (ha : (s.soc.run 1250 (fun j => p (artyTime j)) (t + 1)).cpu.req.byteAdr / 4 % 2 = 0)
    (hr : (s.soc.run 1250 (fun j => p (artyTime j)) (t + 1)).ser.tx.ack = true)
    (h1 : 10270 ≤ Dr) (h2 : Dr ≤ 11400) (hn : artyTicks n = t + 2) :
    let term := (UartRx.reset 8).run Dr (fun n => (s.run (Atto.step 1250) p n).soc.ser.txO) take
    (term n).count = 0 → (term n).rdy = false →
      (term (n + rxLatency Dr 8)).rdy = true ∧
      (term (n + rxLatency Dr 8)).data = byteBits (byteOf (s.soc.run 1250 (fun j => p (artyTime j)) (t + 1)).cpu.req.data 0) ∧
      (term (n + rxLatency Dr 8)).err = false ∧ (term (n + rxLatency Dr 8)).ovf = false := by
  intro term g1 g2
  have e : term = artyTerminal Dr (fun c => (s.soc.run 1250 (fun j => p (artyTime j)) c).ser.txO) take := by
    funext m
    show UartRx.run _ _ _ _ _ = UartRx.run _ _ _ _ _
    congr 1
    funext n
    rw [C76_steps h0]
  rw [e] at g1 g2 ⊢
  exact C76_terminal (Atto.C57_send (by decide) h hc ht hw hs ha hr) h1 h2 hn g1 g2

/-- A receiver at 1250 cycles per bit, on the divided clock, of the frame that a keyboard at the board's clock sends from cycle `n` on. -/
theorem arty_receive {x ack : Nat → Bool} {d : BitVec 8} {Dt n : Nat}
    (hf : ∀ j, (h : j < 10 * Dt) → x (n + j) = (uartFrame (byteBits d))[j / Dt]'(by
      rw [uartFrame_length, byteBits_length]; exact Nat.div_lt_of_lt_mul (by rw [Nat.mul_comm]; exact h)))
    (h1 : 10310 ≤ Dt) (h2 : Dt ≤ 11400)
    (hidle : ((UartRx.reset 8).run 1250 (fun j => x (artyTime j)) ack (artyTicks n)).count = 0)
    (hroom : ((UartRx.reset 8).run 1250 (fun j => x (artyTime j)) ack (artyTicks n)).rdy = false) :
    let r := (UartRx.reset 8).run 1250 (fun j => x (artyTime j)) ack (artyTicks n + rxLatency 1250 8)
    r.rdy = true ∧ r.data = byteBits d ∧ r.err = false ∧ r.ovf = false := by
  generalize hc : artyTicks n = c at *
  intro r
  have hlen : ((UartRx.reset 8).run 1250 (fun j => x (artyTime j)) ack c).shreg.length = (byteBits d).length + 2 := by
    rw [byteBits_length]; exact UartRx.len_run 1250 rfl _ _ c
  have hsub : ∀ i, i < 10 → ∃ j, artyTime (c + (1 + 1250 / 2 + i * 1250)) = n + j ∧ j < 10 * Dt ∧ j / Dt = i := by
    intro i hi
    have b1 := artyTicks_bounds n
    have b2 := artyTime_bounds (c + (1 + 1250 / 2 + i * 1250))
    rw [hc] at b1
    generalize artyTime (c + (1 + 1250 / 2 + i * 1250)) = T at b2
    refine ⟨T - n, ?_, ?_, ?_⟩
    · interval_cases i <;> omega
    · interval_cases i <;> omega
    · refine Nat.div_eq_of_lt_le ?_ ?_ <;> interval_cases i <;> omega
  have hstart : ∃ j, artyTime c = n + j ∧ j < 10 * Dt ∧ j / Dt = 0 := by
    have b1 := artyTicks_bounds n
    have b2 := artyTime_bounds c
    have b3 : n ≤ artyTime c := by
      by_contra hlt
      have := (artyTicks_time c).2
      have mono : ∀ a b, artyTicks a ≤ artyTicks (a + b) := by
        intro a b
        induction b with
        | zero => exact Nat.le_refl _
        | succ b ih => rw [← Nat.add_assoc, artyTicks_succ]; omega
      have := mono (artyTime c + 1) (n - (artyTime c + 1))
      rw [show artyTime c + 1 + (n - (artyTime c + 1)) = n by omega] at this
      omega
    rw [hc] at b1
    refine ⟨artyTime c - n, by omega, by omega, Nat.div_eq_of_lt (by omega)⟩
  have hbits : ∀ i, (h : i < (uartFrame (byteBits d)).length) →
      (fun k => x (artyTime (c + k))) (1 + 1250 / 2 + i * 1250) = (uartFrame (byteBits d))[i] := by
    intro i hi
    obtain ⟨j, a1, a2, a3⟩ := hsub i (by rwa [uartFrame_length, byteBits_length] at hi)
    show x (artyTime _) = _
    rw [a1, hf j a2]
    simp only [a3]
  have := C40_receive (D := 1250) (by omega) (rxI := fun k => x (artyTime (c + k)))
    (ack := fun k => ack (c + k)) (d := byteBits d) hidle hlen (.inl hroom)
    (by
      obtain ⟨j, a1, a2, a3⟩ := hstart
      show x (artyTime (c + 0)) = false
      rw [Nat.add_zero, a1, hf j a2]
      simp only [a3]
      rfl) hbits
  rw [byteBits_length] at this
  obtain ⟨g1, g2, g3, g4, -⟩ := this
  rw [show r = _ from UartRx.run_add'' _ _ _ _ c _]
  exact ⟨g1, g2, g3, g4⟩

/-- **C76** (input): a keyboard at the board's clock sends the frame of a byte from cycle `n` on, with a divisor from 10310 to 11400 (9600 baud are 10417). If the receiver of the SoC is idle and has room then, it presents
exactly this byte, `rxLatency 1250 8` of its cycles later. -/
theorem C76_keyboard {k : Nat} {s : Arty (Atto k)} {p : Nat → AttoIn} {d : BitVec 8} {Dt n : Nat} (h0 : s.div = 0) (h : s.soc.AfterReset)
    (hf : ∀ j, (h : j < 10 * Dt) → (p (n + j)).rx = (uartFrame (byteBits d))[j / Dt]'(by
      rw [uartFrame_length, byteBits_length]; exact Nat.div_lt_of_lt_mul (by rw [Nat.mul_comm]; exact h)))
    (h1 : 10310 ≤ Dt) (h2 : Dt ≤ 11400) (hidle : (s.run (Atto.step 1250) p n).soc.ser.rx.count = 0)
    (hroom : (s.run (Atto.step 1250) p n).soc.ser.rx.rdy = false) {m : Nat} (hm : artyTicks m = artyTicks n + rxLatency 1250 8) :
    (s.run (Atto.step 1250) p m).soc.ser.rx.rdy = true ∧ (s.run (Atto.step 1250) p m).soc.ser.rx.data = byteBits d ∧
      (s.run (Atto.step 1250) p m).soc.ser.rx.err = false ∧ (s.run (Atto.step 1250) p m).soc.ser.rx.ovf = false := by
  have hx : ∀ c, (s.soc.run 1250 (fun j => p (artyTime j)) c).ser.rx =
      (UartRx.reset 8).run 1250 (fun j => (p (artyTime j)).rx) (fun j => WbSerial.rxAck (s.soc.devReqs 1250 (fun j => p (artyTime j)) .serial j)) c := by
    intro c
    rw [(Atto.C57_devices h 1250 _ c).2.2.1]
    exact WbSerial.rx_run c
  rw [C76_steps h0, hx] at hidle hroom
  rw [C76_steps h0, hx, hm]
  exact arty_receive (x := fun n => (p n).rx) hf h1 h2 hidle hroom

/-- **C76** (output of a program, CSR bus): the same for the SoC with the CSR bus. The store is completed in cycle `t + 3` of the SoC; its frame begins in cycle `t`, `3` cycles earlier. -/
theorem C76_send_csr {k : Nat} {s : Arty (AttoCsr k)} {p : Nat → AttoIn} {t Dr n : Nat} {take : Nat → Bool} (h0 : s.div = 0) (h : s.soc.AfterReset)
    (hc : AttoCsr.Completes s.soc 1250 (fun j => p (artyTime j)) (t + 3))
    (hw : (s.soc.run 1250 (fun j => p (artyTime j)) (t + 3)).cpu.req.we = true)
    (hs : (s.soc.run 1250 (fun j => p (artyTime j)) (t + 3)).cpu.req.sel.getLsbD 0 = true)
    (ha : (s.soc.run 1250 (fun j => p (artyTime j)) (t + 3)).cpu.req.byteAdr = 0x03000000)
    (hr : (s.soc.run 1250 (fun j => p (artyTime j)) (t - 1)).ser.tx.ack = true)
    (h1 : 10270 ≤ Dr) (h2 : Dr ≤ 11400) (hn : artyTicks n = t) :
    let term := (UartRx.reset 8).run Dr (fun n => (s.run (AttoCsr.step 1250) p n).soc.ser.txO) take
    (term n).count = 0 → (term n).rdy = false →
      (term (n + rxLatency Dr 8)).rdy = true ∧
      (term (n + rxLatency Dr 8)).data = byteBits (byteOf (s.soc.run 1250 (fun j => p (artyTime j)) (t + 3)).cpu.req.data 0) ∧
      (term (n + rxLatency Dr 8)).err = false ∧ (term (n + rxLatency Dr 8)).ovf = false := by
  intro term g1 g2
  have e : term = artyTerminal Dr (fun c => (s.soc.run 1250 (fun j => p (artyTime j)) c).ser.txO) take := by
    funext m
    show UartRx.run _ _ _ _ _ = UartRx.run _ _ _ _ _
    congr 1
    funext n
    rw [C76_steps_csr h0]
  rw [e] at g1 g2 ⊢
  exact C76_terminal (((AttoCsr.C73_send (by decide) h).1 (t + 3) hc hw hs ha hr).1) h1 h2 hn g1 g2

/-- **C76** (input, CSR bus): the same for the SoC with the CSR bus. -/
theorem C76_keyboard_csr {k : Nat} {s : Arty (AttoCsr k)} {p : Nat → AttoIn} {d : BitVec 8} {Dt n : Nat} (h0 : s.div = 0) (h : s.soc.AfterReset)
    (hf : ∀ j, (h : j < 10 * Dt) → (p (n + j)).rx = (uartFrame (byteBits d))[j / Dt]'(by
      rw [uartFrame_length, byteBits_length]; exact Nat.div_lt_of_lt_mul (by rw [Nat.mul_comm]; exact h)))
    (h1 : 10310 ≤ Dt) (h2 : Dt ≤ 11400) (hidle : (s.run (AttoCsr.step 1250) p n).soc.ser.rx.count = 0)
    (hroom : (s.run (AttoCsr.step 1250) p n).soc.ser.rx.rdy = false) {m : Nat} (hm : artyTicks m = artyTicks n + rxLatency 1250 8) :
    (s.run (AttoCsr.step 1250) p m).soc.ser.rx.rdy = true ∧ (s.run (AttoCsr.step 1250) p m).soc.ser.rx.data = byteBits d ∧
      (s.run (AttoCsr.step 1250) p m).soc.ser.rx.err = false ∧ (s.run (AttoCsr.step 1250) p m).soc.ser.rx.ovf = false := by
  have hrun : ∀ r (x : Nat → Bool) c, (CsrSerial.reset.run 1250 r x c).rx = (UartRx.reset 8).run 1250 x (fun j => (r j).rStb) c := by
    intro r x c
    induction c with
    | zero => rfl
    | succ c ih =>
      show UartRx.step 1250 (CsrSerial.reset.run 1250 r x c).rx _ _ = _
      rw [ih]; rfl
  have hx : ∀ c, (s.soc.run 1250 (fun j => p (artyTime j)) c).ser.rx =
      (UartRx.reset 8).run 1250 (fun j => (p (artyTime j)).rx) (fun j => (s.soc.serStbs 1250 (fun j => p (artyTime j)) j).rStb) c := by
    intro c
    rw [(AttoCsr.C73_devices h 1250 _ c).2.2.1]
    exact hrun _ _ c
  rw [C76_steps_csr h0, hx] at hidle hroom
  rw [C76_steps_csr h0, hx, hm]
  exact arty_receive (x := fun n => (p n).rx) hf h1 h2 hidle hroom

/-- The hypotheses of `C76_send` can be met: the program that sends 0x55 (`U`), on the board from power-on, with an idle 9600-baud terminal: the terminal shows `U`. -/
example : let s : Arty (Atto 5) := { soc := Atto.attoDemo Atto.serialProgram }
    let term := (UartRx.reset 8).run 10417 (fun n => (s.run (Atto.step 1250) Atto.idlePins n).soc.ser.txO) (fun _ => false)
    (term (artyTime 21 + 1 + rxLatency 10417 8)).rdy = true ∧ (term (artyTime 21 + 1 + rxLatency 10417 8)).data = byteBits 0x55 := by
  intro s term
  have e : (fun j => Atto.idlePins (artyTime j)) = Atto.idlePins := rfl
  have hr := Atto.attoDemo_reset Atto.serialProgram
  have high : ∀ j < 22, ((Atto.attoDemo Atto.serialProgram).run 1250 Atto.idlePins j).ser.txO = true := by decide +kernel
  have idle : ∀ m ≤ artyTime 21 + 1, term m = UartRx.reset 8 := by
    intro m
    induction m with
    | zero => intro _; rfl
    | succ m ih =>
      intro hm
      show UartRx.step 10417 (term m) (s.run (Atto.step 1250) Atto.idlePins m).soc.ser.txO false = _
      rw [ih (by omega), C76_steps (s := s) rfl, e, high _ (by have := artyTicks_bounds m; have : artyTime 21 = 190 := rfl; omega)]
      decide
  have := C76_send (s := s) (p := Atto.idlePins) (t := 20) (Dr := 10417) (n := artyTime 21 + 1) (take := fun _ => false) rfl hr
    (by rw [e]; exact ⟨by decide +kernel, by decide +kernel⟩) (by rw [e]; decide +kernel) (by rw [e]; decide +kernel) (by rw [e]; decide +kernel)
    (by rw [e]; decide +kernel) (by rw [e]; decide +kernel) (by decide) (by decide) (artyTicks_time 21).2
    (by show (term _).count = 0; rw [idle _ (Nat.le_refl _)]; rfl) (by show (term _).rdy = false; rw [idle _ (Nat.le_refl _)]; rfl)
  refine ⟨this.1, this.2.1.trans ?_⟩
  rw [e]
  decide +kernel

/-- A 9600-baud keyboard that sends `d` from cycle 100 on. -/
def artyKeyPins (d : BitVec 8) (n : Nat) : AttoIn :=
  { rx := if n < 100 then true else (uartFrame (byteBits d))[(n - 100) / 10417]?.getD true }

/-- The hypotheses of `C76_keyboard` can be met: with any byte, whatever the program is that has not been fetched by then. -/
example (d : BitVec 8) : let s : Arty (Atto 5) := { soc := Atto.attoDemo Atto.serialProgram }
    ∃ m, (s.run (Atto.step 1250) (artyKeyPins d) m).soc.ser.rx.rdy = true ∧ (s.run (Atto.step 1250) (artyKeyPins d) m).soc.ser.rx.data = byteBits d := by
  intro s
  have hp : ∀ m ≤ 100, s.run (Atto.step 1250) (artyKeyPins d) m = s.run (Atto.step 1250) Atto.idlePins m := by
    intro m
    induction m with
    | zero => intro _; rfl
    | succ m ih =>
      intro hm
      show Arty.step _ (s.run _ _ m) _ = Arty.step _ (s.run _ _ m) _
      rw [ih (by omega), show artyKeyPins d m = Atto.idlePins m by simp [artyKeyPins, Atto.idlePins, show m < 100 by omega]]
  have h := C76_keyboard (s := s) (p := artyKeyPins d) (d := d) (Dt := 10417) (n := 100) (m := artyTime (artyTicks 100 + rxLatency 1250 8)) rfl
    (Atto.attoDemo_reset _) (fun j hj => by
      have hl : j / 10417 < (uartFrame (byteBits d)).length := by rw [uartFrame_length, byteBits_length]; omega
      simp [artyKeyPins, List.getElem?_eq_getElem hl]) (by decide) (by decide)
    (by rw [hp 100 (by decide)]; decide +kernel) (by rw [hp 100 (by decide)]; decide +kernel) (artyTicks_time _).1
  exact ⟨_, h.1, h.2.1⟩

/-- The hypotheses of `C76_send_csr` can be met: the program that sends 0x55 (`U`) over the CSR bus, on the board from power-on, with an idle 9600-baud terminal: the terminal shows `U`. -/
example : let s : Arty (AttoCsr 5) := { soc := AttoCsr.csrDemo AttoCsr.csrSerialProgram }
    let term := (UartRx.reset 8).run 10417 (fun n => (s.run (AttoCsr.step 1250) Atto.idlePins n).soc.ser.txO) (fun _ => false)
    (term (artyTime 21 + 1 + rxLatency 10417 8)).rdy = true ∧ (term (artyTime 21 + 1 + rxLatency 10417 8)).data = byteBits 0x55 := by
  intro s term
  have e : (fun j => Atto.idlePins (artyTime j)) = Atto.idlePins := rfl
  have hr := AttoCsr.csrDemo_reset AttoCsr.csrSerialProgram
  have high : ∀ j < 22, ((AttoCsr.csrDemo AttoCsr.csrSerialProgram).run 1250 Atto.idlePins j).ser.txO = true := by decide +kernel
  have idle : ∀ m ≤ artyTime 21 + 1, term m = UartRx.reset 8 := by
    intro m
    induction m with
    | zero => intro _; rfl
    | succ m ih =>
      intro hm
      show UartRx.step 10417 (term m) (s.run (AttoCsr.step 1250) Atto.idlePins m).soc.ser.txO false = _
      rw [ih (by omega), C76_steps_csr (s := s) rfl, e, high _ (by have := artyTicks_bounds m; have : artyTime 21 = 190 := rfl; omega)]
      decide
  have := C76_send_csr (s := s) (p := Atto.idlePins) (t := 22) (Dr := 10417) (n := artyTime 21 + 1) (take := fun _ => false) rfl hr
    (by rw [e]; exact ⟨by decide +kernel, by decide +kernel, by decide +kernel⟩) (by rw [e]; decide +kernel) (by rw [e]; decide +kernel)
    (by rw [e]; decide +kernel) (by rw [e]; decide +kernel) (by decide) (by decide) (artyTicks_time 21).2
    (by show (term _).count = 0; rw [idle _ (Nat.le_refl _)]; rfl) (by show (term _).rdy = false; rw [idle _ (Nat.le_refl _)]; rfl)
  refine ⟨this.1, this.2.1.trans ?_⟩
  rw [e]
  decide +kernel

/-- The hypotheses of `C76_keyboard_csr` can be met. -/
example (d : BitVec 8) : let s : Arty (AttoCsr 5) := { soc := AttoCsr.csrDemo AttoCsr.csrSerialProgram }
    ∃ m, (s.run (AttoCsr.step 1250) (artyKeyPins d) m).soc.ser.rx.rdy = true ∧ (s.run (AttoCsr.step 1250) (artyKeyPins d) m).soc.ser.rx.data = byteBits d := by
  intro s
  have hp : ∀ m ≤ 100, s.run (AttoCsr.step 1250) (artyKeyPins d) m = s.run (AttoCsr.step 1250) Atto.idlePins m := by
    intro m
    induction m with
    | zero => intro _; rfl
    | succ m ih =>
      intro hm
      show Arty.step _ (s.run _ _ m) _ = Arty.step _ (s.run _ _ m) _
      rw [ih (by omega), show artyKeyPins d m = Atto.idlePins m by simp [artyKeyPins, Atto.idlePins, show m < 100 by omega]]
  have h := C76_keyboard_csr (s := s) (p := artyKeyPins d) (d := d) (Dt := 10417) (n := 100) (m := artyTime (artyTicks 100 + rxLatency 1250 8)) rfl
    (AttoCsr.csrDemo_reset _) (fun j hj => by
      have hl : j / 10417 < (uartFrame (byteBits d)).length := by rw [uartFrame_length, byteBits_length]; omega
      simp [artyKeyPins, List.getElem?_eq_getElem hl]) (by decide) (by decide)
    (by rw [hp 100 (by decide)]; decide +kernel) (by rw [hp 100 (by decide)]; decide +kernel) (artyTicks_time _).1
  exact ⟨_, h.1, h.2.1⟩

/-! ### C77: the hex file -/

/-- The value of a hexadecimal digit. -/
def hexVal (c : Char) : Option Nat :=
  if '0' ≤ c ∧ c ≤ '9' then some (c.toNat - '0'.toNat)
  else if 'a' ≤ c ∧ c ≤ 'f' then some (c.toNat - 'a'.toNat + 10)
  else none

/-- The number that a sequence of hexadecimal digits means, the first digit being the most significant. -/
def hexNumber (l : List Char) : Option Nat :=
  l.foldlM (fun n c => (hexVal c).map fun v => 16 * n + v) 0

theorem hexVal_digit {n : Nat} (h : n < 16) : hexVal (hexDigit n) = some n := by
  interval_cases n <;> decide

theorem hexNumber_append (l : List Char) (c : Char) : hexNumber (l ++ [c]) = (hexNumber l).bind fun n => (hexVal c).map fun v => 16 * n + v := by
  simp only [hexNumber, List.foldlM_append, List.foldlM_cons, List.foldlM_nil]
  cases h : List.foldlM (fun n c => (hexVal c).map fun v => 16 * n + v) 0 l with
  | none => rfl
  | some n => cases h2 : hexVal c <;> simp [h2]

theorem hexNumber_digits (n : Nat) : hexNumber (hexDigits n) = some n := by
  induction n using Nat.strongRecOn with
  | ind n ih =>
    rw [hexDigits]
    split
    · rename_i h
      simp [hexNumber, hexVal_digit h]
    · rename_i h
      rw [hexNumber_append, ih _ (by omega), hexVal_digit (by omega)]
      simp
      omega

theorem hexDigits_length (k : Nat) : ∀ n, n < 16 ^ (k + 1) → (hexDigits n).length ≤ k + 1 := by
  induction k with
  | zero => intro n h; rw [hexDigits, if_pos (by simpa using h)]; simp
  | succ k ih =>
    intro n h
    rw [hexDigits]
    split
    · simp
    · have := ih (n / 16) (by rw [Nat.pow_succ] at h; omega)
      simp; omega

theorem hexNumber_zeros (k : Nat) (l : List Char) : hexNumber (List.replicate k '0' ++ l) = hexNumber l := by
  induction k with
  | zero => rfl
  | succ k ih =>
    rw [List.replicate_succ, List.cons_append]
    have : hexVal '0' = some 0 := by decide
    rw [hexNumber, List.foldlM_cons, this]
    exact ih

theorem hex08_length (w : Word) : (hex08 w.toNat).length = 8 := by
  have := hexDigits_length 7 w.toNat (by have := w.isLt; simpa using this)
  rw [hex08, List.length_append, List.length_replicate]
  omega

/-- **C77**: for each board but the Arty A7, option `-x` writes a file that has one line for each word of the memory, in order, each with exactly 8 hexadecimal digits (and the newline), which mean this word. -/
theorem C77_hex {b : Board} (hb : b ≠ .arty_a7) (init : List Word) :
    ∃ f, hexFile b init = some f ∧ f.length = 9 * init.length ∧
      ∀ i, (h : i < init.length) → hexNumber ((f.drop (9 * i)).take 8) = some init[i].toNat ∧ f[9 * i + 8]? = some '\n' := by
  have hd : design b init = .soc init := by cases b <;> first | rfl | exact absurd rfl hb
  refine ⟨init.flatMap fun i => hex08 i.toNat ++ ['\n'], by rw [hexFile, hd]; rfl, ?_⟩
  clear hd hb
  induction init with
  | nil => exact ⟨rfl, nofun⟩
  | cons w init ih =>
    have hl : (hex08 w.toNat ++ ['\n']).length = 9 := by simp [hex08_length]
    rw [List.flatMap_cons]
    refine ⟨by rw [List.length_append, hl, ih.1]; simp; omega, fun i hi => ?_⟩
    cases i with
    | zero =>
      refine ⟨?_, ?_⟩
      · have : hexNumber (hex08 w.toNat) = some w.toNat := by rw [hex08, hexNumber_zeros, hexNumber_digits]
        rw [Nat.mul_zero, List.drop_zero, List.append_assoc, List.take_left' (hex08_length w), this]
        rfl
      · simp [List.getElem?_append, hex08_length]
    | succ i =>
      have := ih.2 i (by simpa using hi)
      refine ⟨?_, ?_⟩
      · rw [show 9 * (i + 1) = (hex08 w.toNat ++ ['\n']).length + 9 * i by omega, List.drop_append, List.drop_eq_nil_of_le (by omega), List.nil_append, Nat.add_sub_cancel_left, this.1]
        rfl
      · rw [show 9 * (i + 1) + 8 = (hex08 w.toNat ++ ['\n']).length + (9 * i + 8) by omega, List.getElem?_append_right (by omega), Nat.add_sub_cancel_left, this.2]

/-- **C77** (deviation D11): for the Arty A7 there is no hex file: the generator stops with an exception. -/
theorem C77_arty (init : List Word) : hexFile .arty_a7 init = none := rfl

/-- A file of two words. -/
example : hexFile .icestick [0x12345#32, 0xFFFFFFFF#32] =
    some ['0', '0', '0', '1', '2', '3', '4', '5', '\n', 'f', 'f', 'f', 'f', 'f', 'f', 'f', 'f', '\n'] := by
  have h1 : hexDigits 0x12345 = ['1', '2', '3', '4', '5'] := by
    rw [hexDigits, hexDigits, hexDigits, hexDigits, hexDigits]; decide
  have h2 : hexDigits 0xFFFFFFFF = ['f', 'f', 'f', 'f', 'f', 'f', 'f', 'f'] := by
    rw [hexDigits, hexDigits, hexDigits, hexDigits, hexDigits, hexDigits, hexDigits, hexDigits]; decide
  simp [hexFile, design, Design.rom, hex08, h1, h2]

end Sentinel
