import Verif.Soc.Serial
import Verif.Props.Uart
/-!
# C46, C47, C48: serial ports and LEDs of the example SoC
-/

namespace Sentinel

/-! ## C46: the interrupt register of the serial port -/

/-- A flag that is set by events and cleared by reads, the event winning. -/
theorem sticky_iff {f ev rd : Nat → Bool} (h0 : f 0 = false)
    (hs : ∀ n, f (n + 1) = if ev n then true else if rd n then false else f n) (n : Nat) :
    f n = true ↔ ∃ m < n, ev m = true ∧ ∀ k, m < k → k < n → rd k = false := by
  induction n with
  | zero => simp [h0]
  | succ n ih =>
    rw [hs]
    by_cases he : ev n = true
    · rw [if_pos he]
      simp only [true_iff]
      exact ⟨n, by omega, he, fun k h1 h2 => by omega⟩
    · rw [if_neg he]
      by_cases hr : rd n = true
      · rw [if_pos hr]
        simp only [Bool.false_eq_true, false_iff, not_exists, not_and]
        intro m hm hev hk
        by_cases hmn : m = n
        · subst hmn; exact he hev
        · have := hk n (by omega) (by omega)
          rw [hr] at this; exact absurd this (by decide)
      · rw [if_neg hr, ih]
        simp only [Bool.not_eq_true] at hr
        constructor
        · rintro ⟨m, hm, hev, hk⟩
          refine ⟨m, by omega, hev, fun k h1 h2 => ?_⟩
          by_cases hkn : k = n
          · subst hkn; exact hr
          · exact hk k h1 (by omega)
        · rintro ⟨m, hm, hev, hk⟩
          have hmn : m ≠ n := fun e => he (e ▸ hev)
          exact ⟨m, by omega, hev, fun k h1 h2 => hk k h1 (by omega)⟩

namespace WbSerial
variable {D : Nat} {r : Nat → WbReq} {rxI : Nat → Bool}

/-- The port in cycle `n` after reset. -/
abbrev at_ (D : Nat) (r : Nat → WbReq) (rxI : Nat → Bool) (n : Nat) : WbSerial := reset.run D r rxI n

/-- A character becomes available in cycle `n`. -/
def RxEvent (D : Nat) (r : Nat → WbReq) (rxI : Nat → Bool) (n : Nat) : Prop :=
  (at_ D r rxI n).rx.rdy = true ∧ (n = 0 ∨ (at_ D r rxI (n - 1)).rx.rdy = false)

/-- The transmitter becomes ready in cycle `n`; it counts as becoming ready in the first cycle. -/
def TxEvent (D : Nat) (r : Nat → WbReq) (rxI : Nat → Bool) (n : Nat) : Prop :=
  (at_ D r rxI n).tx.ack = true ∧ (n = 0 ∨ (at_ D r rxI (n - 1)).tx.ack = false)

/-- A read of the IRQ register begins in cycle `n`. -/
def IrqReadAt (D : Nat) (r : Nat → WbReq) (rxI : Nat → Bool) (n : Nat) : Prop :=
  (r n).cyc = true ∧ (r n).stb = true ∧ (r n).sel = true ∧ (r n).we = false ∧ (r n).adr.getLsbD 0 = true ∧
    (at_ D r rxI n).ack = false

theorem irqRead_iff (n : Nat) : (at_ D r rxI n).irqRead (r n) = true ↔ IrqReadAt D r rxI n := by
  simp only [irqRead, IrqReadAt, Bool.and_eq_true, Bool.not_eq_true']
  constructor
  · rintro ⟨⟨⟨⟨⟨a, b⟩, c⟩, d⟩, e⟩, f⟩; exact ⟨b, a, c, e, d, f⟩
  · rintro ⟨b, a, c, e, d, f⟩; exact ⟨⟨⟨⟨⟨a, b⟩, c⟩, d⟩, e⟩, f⟩

theorem rxPrev_eq (n : Nat) : (at_ D r rxI n).rxPrev = (n != 0 && (at_ D r rxI (n - 1)).rx.rdy) := by
  cases n with
  | zero => rfl
  | succ n => show (at_ D r rxI n).rx.rdy = _; simp

theorem txPrev_eq (n : Nat) : (at_ D r rxI n).txPrev = (n != 0 && (at_ D r rxI (n - 1)).tx.ack) := by
  cases n with
  | zero => rfl
  | succ n => show (at_ D r rxI n).tx.ack = _; simp

end WbSerial

open WbSerial

/-- **C46.** For every history of the bus and of the line, from reset: bit 0 (a character is available)
is set exactly if a character became available after the last read of the IRQ register began, or in that
very cycle; bit 1 likewise for the transmitter becoming ready; the interrupt line is high exactly if a
bit is set; and a read returns, with its acknowledgement, exactly the two bits.  So no event is lost,
and none is reported twice. -/
theorem C46_irq (D : Nat) (r : Nat → WbReq) (rxI : Nat → Bool) (n : Nat) :
    ((at_ D r rxI n).rxIrq = true ↔
      ∃ m < n, RxEvent D r rxI m ∧ ∀ k, m < k → k < n → ¬ IrqReadAt D r rxI k) ∧
    ((at_ D r rxI n).txIrq = true ↔
      ∃ m < n, TxEvent D r rxI m ∧ ∀ k, m < k → k < n → ¬ IrqReadAt D r rxI k) ∧
    ((at_ D r rxI n).irq = true ↔ (at_ D r rxI n).rxIrq = true ∨ (at_ D r rxI n).txIrq = true) ∧
    (IrqReadAt D r rxI n →
      (at_ D r rxI (n + 1)).ack = true ∧
      (at_ D r rxI (n + 1)).datR.getLsbD 0 = (at_ D r rxI n).rxIrq ∧
      (at_ D r rxI (n + 1)).datR.getLsbD 1 = (at_ D r rxI n).txIrq ∧
      ∀ i, 2 ≤ i → (at_ D r rxI (n + 1)).datR.getLsbD i = false) := by
  have hrd : ∀ k, (at_ D r rxI k).irqRead (r k) = false ↔ ¬ IrqReadAt D r rxI k := fun k => by
    rw [← irqRead_iff]; simp
  refine ⟨?_, ?_, ?_, ?_⟩
  · have hev : ∀ m, ((at_ D r rxI m).rx.rdy && !(at_ D r rxI m).rxPrev) = true ↔ RxEvent D r rxI m := fun m => by
      rw [rxPrev_eq, RxEvent]
      cases m <;> simp
    have := sticky_iff (f := fun n => (at_ D r rxI n).rxIrq) (ev := fun m => (at_ D r rxI m).rx.rdy && !(at_ D r rxI m).rxPrev)
      (rd := fun k => (at_ D r rxI k).irqRead (r k)) rfl (fun _ => rfl) n
    simp only [hev, hrd] at this
    exact this
  · have hev : ∀ m, ((at_ D r rxI m).tx.ack && !(at_ D r rxI m).txPrev) = true ↔ TxEvent D r rxI m := fun m => by
      rw [txPrev_eq, TxEvent]
      cases m <;> simp
    have := sticky_iff (f := fun n => (at_ D r rxI n).txIrq) (ev := fun m => (at_ D r rxI m).tx.ack && !(at_ D r rxI m).txPrev)
      (rd := fun k => (at_ D r rxI k).irqRead (r k)) rfl (fun _ => rfl) n
    simp only [hev, hrd] at this
    exact this
  · simp [irq]
  · intro h
    have h' := (irqRead_iff n).2 h
    obtain ⟨h1, h2, -, -, -, h6⟩ := h
    have hack : (at_ D r rxI (n + 1)).ack = true := by
      show ((r n).stb && (r n).cyc && !(at_ D r rxI n).ack) = true
      simp [h1, h2, h6]
    have hd : (at_ D r rxI (n + 1)).datR =
        0#6 ++ BitVec.ofBool (at_ D r rxI n).txIrq ++ BitVec.ofBool (at_ D r rxI n).rxIrq := by
      show (if _ then _ else _) = _
      rw [if_pos h']
    rw [hd]
    refine ⟨hack, ?_, ?_, fun i hi => ?_⟩
    · cases (at_ D r rxI n).txIrq <;> cases (at_ D r rxI n).rxIrq <;> rfl
    · cases (at_ D r rxI n).txIrq <;> cases (at_ D r rxI n).rxIrq <;> rfl
    · simp only [BitVec.getLsbD_append]
      rw [if_neg (by omega), if_neg (by omega)]
      simp

/-- The first interrupt after reset tells the two kinds of serial port apart: the Wishbone version raises
it in the cycle after reset, whatever happens on the bus; the CSR version raises none as long as nothing
is sent and the line is idle. -/
theorem C46_reset (D : Nat) (r : Nat → WbReq) (rxI : Nat → Bool) :
    (at_ D r rxI 1).irq = true ∧
    ∀ (q : Nat → SerialStb) (x : Nat → Bool) (n : Nat), (∀ k < n, (q k).wStb = false ∧ x k = true) →
      (CsrSerial.reset.run D q x n).irq = false := by
  constructor
  · simp [at_, run, step, irq, reset, UartTx.ack, UartTx.reset]
  · intro q x n h
    have key : (CsrSerial.reset.run D q x n).tx = UartTx.reset 8 ∧ (CsrSerial.reset.run D q x n).rx.rdy = false ∧
        (CsrSerial.reset.run D q x n).rx.count = 0 ∧
        (CsrSerial.reset.run D q x n).txPrev = true ∧ (CsrSerial.reset.run D q x n).rxIrq = false ∧
        (CsrSerial.reset.run D q x n).txIrq = false := by
      induction n with
      | zero => exact ⟨rfl, rfl, rfl, rfl, rfl, rfl⟩
      | succ n ih =>
        obtain ⟨i1, i2, i3, i4, i5, i6⟩ := ih fun k hk => h k (by omega)
        obtain ⟨h1, h2⟩ := h n (by omega)
        have ha : (UartTx.reset 8).ack = true := rfl
        refine ⟨?_, ?_, ?_, ?_, ?_, ?_⟩
        · show UartTx.step D _ _ _ = _
          rw [i1, h1]; rfl
        · show (UartRx.step D _ _ _).rdy = _
          rw [h2]
          by_contra hx
          simp only [Bool.not_eq_false] at hx
          have := UartRx.step_idle_rdy i3 hx
          rw [i2] at this; exact absurd this (by decide)
        · show (UartRx.step D _ _ _).count = _
          rw [h2]; exact (UartRx.step_high i3).1
        · show UartTx.ack _ = _
          rw [i1]; rfl
        · show (if _ then _ else _) = _
          rw [i2, i5]; simp
        · show (if _ then _ else _) = _
          rw [i4, i6]; simp
    simp [CsrSerial.irq, key.2.2.2.2.1, key.2.2.2.2.2]

/-- **C46** for the CSR-bus version. -/
theorem C46_csr (D : Nat) (q : Nat → SerialStb) (rxI : Nat → Bool) (n : Nat) :
    let at' := fun n => CsrSerial.reset.run D q rxI n
    ((at' n).rxIrq = true ↔ ∃ m < n, ((at' m).rx.rdy = true ∧ m ≠ 0 ∧ (at' (m - 1)).rx.rdy = false) ∧
      ∀ k, m < k → k < n → (q k).irqStb = false) ∧
    ((at' n).txIrq = true ↔ ∃ m < n, ((at' m).tx.ack = true ∧ m ≠ 0 ∧ (at' (m - 1)).tx.ack = false) ∧
      ∀ k, m < k → k < n → (q k).irqStb = false) ∧
    ((at' n).irq = true ↔ (at' n).rxIrq = true ∨ (at' n).txIrq = true) ∧
    ((at' n).irqData.getLsbD 0 = (at' n).rxIrq ∧ (at' n).irqData.getLsbD 1 = (at' n).txIrq) := by
  intro at'
  refine ⟨?_, ?_, ?_, ?_⟩
  · have hev : ∀ m, ((at' m).rx.rdy && !(at' m).rxPrev) = true ↔
        ((at' m).rx.rdy = true ∧ m ≠ 0 ∧ (at' (m - 1)).rx.rdy = false) := fun m => by
      have : (at' m).rxPrev = (m == 0 || (at' (m - 1)).rx.rdy) := by
        cases m with
        | zero => rfl
        | succ m => show (at' m).rx.rdy = _; simp
      rw [this]
      cases m <;> simp
    have := sticky_iff (f := fun n => (at' n).rxIrq) (ev := fun m => (at' m).rx.rdy && !(at' m).rxPrev)
      (rd := fun k => (q k).irqStb) rfl (fun _ => rfl) n
    simp only [hev] at this
    exact this
  · have hev : ∀ m, ((at' m).tx.ack && !(at' m).txPrev) = true ↔
        ((at' m).tx.ack = true ∧ m ≠ 0 ∧ (at' (m - 1)).tx.ack = false) := fun m => by
      have : (at' m).txPrev = (m == 0 || (at' (m - 1)).tx.ack) := by
        cases m with
        | zero => rfl
        | succ m => show (at' m).tx.ack = _; simp
      rw [this]
      cases m <;> simp
    have := sticky_iff (f := fun n => (at' n).txIrq) (ev := fun m => (at' m).tx.ack && !(at' m).txPrev)
      (rd := fun k => (q k).irqStb) rfl (fun _ => rfl) n
    simp only [hev] at this
    exact this
  · simp [CsrSerial.irq]
  · unfold CsrSerial.irqData
    constructor <;> cases (at' n).txIrq <;> cases (at' n).rxIrq <;> rfl

/-! ## C47: the data register of the serial port -/

theorem byteBits_length (d : BitVec 8) : (byteBits d).length = 8 := by simp [byteBits]

theorem bitsByte_byteBits (d : BitVec 8) : bitsByte (byteBits d) = d := by
  revert d; decide +kernel

namespace WbSerial
variable {D : Nat} {s : WbSerial} {r : Nat → WbReq} {rxI : Nat → Bool}

theorem tx_run (n : Nat) : (s.run D r rxI n).tx =
    s.tx.run D (fun k => (s.run D r rxI k).txRdy (r k)) (fun k => byteBits (r k).datW) n := by
  induction n with
  | zero => rfl
  | succ n ih => rw [UartTx.run, ← ih]; rfl

theorem rx_run (n : Nat) : (s.run D r rxI n).rx = s.rx.run D rxI (fun k => rxAck (r k)) n := by
  induction n with
  | zero => rfl
  | succ n ih => rw [UartRx.run, ← ih]; rfl

theorem run_add (m n : Nat) : s.run D r rxI (m + n) =
    (s.run D r rxI m).run D (fun k => r (m + k)) (fun k => rxI (m + k)) n := by
  induction n with
  | zero => rfl
  | succ n ih => rw [show m + (n + 1) = m + n + 1 from rfl, run, ih]; rfl

theorem tx_len (h : s.tx.shreg.length = 10) (n : Nat) : (s.run D r rxI n).tx.shreg.length = 10 := by
  induction n with
  | zero => exact h
  | succ n ih =>
    show (UartTx.step D _ _ _).shreg.length = _
    unfold UartTx.step
    split
    · split
      · simp [byteBits_length]
      · exact ih
    · split
      · exact ih
      · simp [ih]

end WbSerial

/-- The request `q` is a write of `b` to the data register. -/
def DataWrite (q : WbReq) (b : BitVec 8) : Prop :=
  q.cyc = true ∧ q.stb = true ∧ q.sel = true ∧ q.we = true ∧ q.adr.getLsbD 0 = false ∧ q.datW = b

/-- The request `q` is a read of the data register. -/
def DataRead (q : WbReq) : Prop :=
  q.cyc = true ∧ q.stb = true ∧ q.sel = true ∧ q.we = false ∧ q.adr.getLsbD 0 = false

/-- **C47** (write): a write of `b` to the data register that is acknowledged in cycle `n`, when the
transmitter is ready, makes the port send the frame of `b`, from the next cycle, each of the 10 bits for
`D` cycles, whatever is written meanwhile; the transmitter is ready again right after it. -/
theorem C47_write {D : Nat} (hD : 0 < D) {r : Nat → WbReq} {rxI : Nat → Bool} {n : Nat} {b : BitVec 8}
    (hw : DataWrite (r n) b) (hack : (at_ D r rxI n).ack = true) (hready : (at_ D r rxI n).tx.ack = true) :
    (∀ k, (h : k < 10 * D) → (at_ D r rxI (n + 1 + k)).txO =
        (uartFrame (byteBits b))[k / D]'(by
          rw [uartFrame_length, byteBits_length]; exact Nat.div_lt_of_lt_mul (by rw [Nat.mul_comm]; exact h)) ∧
      (at_ D r rxI (n + 1 + k)).tx.ack = false) ∧
    (at_ D r rxI (n + 1 + 10 * D)).tx.ack = true ∧ (at_ D r rxI (n + 1 + 10 * D)).txO = true := by
  obtain ⟨h1, h2, h3, h4, h5, h6⟩ := hw
  have hlen := tx_len (D := D) (r := r) (rxI := rxI) (s := WbSerial.reset) rfl n
  have hr : (at_ D r rxI n).txRdy (r n) = true := by
    simp [-BitVec.getLsbD_eq_getElem, txRdy, dataReq, *]
  have key : ∀ k, (at_ D r rxI (n + k)).tx = ((at_ D r rxI n).tx.run D
      (fun k => ((at_ D r rxI n).run D (fun k => r (n + k)) (fun k => rxI (n + k)) k).txRdy (r (n + k)))
      (fun k => byteBits (r (n + k)).datW)) k := fun k => by
    unfold at_; rw [run_add, tx_run]
  have h := C40_transmit hD (s := (at_ D r rxI n).tx)
    (rdy := fun k => ((at_ D r rxI n).run D (fun k => r (n + k)) (fun k => rxI (n + k)) k).txRdy (r (n + k)))
    (data := fun k => byteBits (r (n + k)).datW) hready (by rw [byteBits_length]; exact hlen) hr
  simp only [← key, Nat.add_zero, byteBits_length, h6] at h
  simp only [Nat.add_assoc]
  exact ⟨h.1, h.2.1, h.2.2.1⟩

/-- **C47** (write while busy): a write that is acknowledged while the transmitter is busy is dropped;
nothing but such an acknowledged write while ready makes the transmitter start. -/
theorem C47_start {D : Nat} (r : Nat → WbReq) (rxI : Nat → Bool) (n : Nat) :
    ((at_ D r rxI n).tx.ack = true ∧ (at_ D r rxI (n + 1)).tx.ack = false) ↔
      ((at_ D r rxI n).tx.ack = true ∧ (at_ D r rxI n).ack = true ∧ ∃ b, DataWrite (r n) b) := by
  have hlen := tx_len (D := D) (r := r) (rxI := rxI) (s := WbSerial.reset) rfl n
  have e : (at_ D r rxI (n + 1)).tx = (at_ D r rxI n).tx.step D ((at_ D r rxI n).txRdy (r n)) (byteBits (r n).datW) := rfl
  have hd : (at_ D r rxI n).txRdy (r n) = true ↔ (at_ D r rxI n).ack = true ∧ ∃ b, DataWrite (r n) b := by
    simp only [txRdy, dataReq, DataWrite, Bool.and_eq_true, Bool.not_eq_true']
    constructor
    · rintro ⟨⟨⟨⟨⟨a, b⟩, c⟩, d⟩, e⟩, f⟩; exact ⟨e, _, b, a, c, f, d, rfl⟩
    · rintro ⟨e, _, b, a, c, f, d, -⟩; exact ⟨⟨⟨⟨⟨a, b⟩, c⟩, d⟩, e⟩, f⟩
  refine and_congr_right fun ha => ?_
  rw [← hd, e]
  have hc : (at_ D r rxI n).tx.count = 0 := by simpa [UartTx.ack] using ha
  unfold UartTx.step
  rw [if_pos hc]
  by_cases hr : (at_ D r rxI n).txRdy (r n) = true
  · rw [if_pos hr]
    simp only [hr, iff_true, UartTx.ack, beq_eq_false_iff_ne]
    rw [show (at_ D r rxI n).tx.shreg.length = 10 from hlen]
    decide
  · rw [if_neg hr, ha]
    simp [hr]

/-- **C47** (read): a character that became available in cycle `u` is returned by the first read of the
data register after that, however late it is and whatever happens on the line meanwhile. -/
theorem C47_read {D : Nat} {r : Nat → WbReq} {rxI : Nat → Bool} {u n : Nat} {d : BitVec 8} (hun : u ≤ n)
    (hrdy : (at_ D r rxI u).rx.rdy = true) (hidle : (at_ D r rxI u).rx.count = 0)
    (hd : (at_ D r rxI u).rx.data = byteBits d)
    (hno : ∀ k, u ≤ k → k < n → ¬ DataRead (r k)) (hread : DataRead (r n)) (hack : (at_ D r rxI n).ack = false) :
    (at_ D r rxI (n + 1)).ack = true ∧ (at_ D r rxI (n + 1)).datR = d := by
  obtain ⟨j, rfl⟩ := Nat.exists_eq_add_of_le hun
  have key : (at_ D r rxI (u + j)).rx.data = byteBits d := by
    unfold at_ at *
    rw [run_add, rx_run, (C40_overflow hidle hrdy fun k hk => ?_).2.1, hd]
    have := hno (u + k) (by omega) (by omega)
    simp only [DataRead] at this
    by_contra hx
    simp only [Bool.not_eq_false, rxAck, dataReq, Bool.and_eq_true, Bool.not_eq_true'] at hx
    obtain ⟨⟨⟨⟨a, b⟩, c⟩, d⟩, e⟩ := hx
    exact this ⟨b, a, c, e, d⟩
  obtain ⟨h1, h2, h3, h4, h5⟩ := hread
  refine ⟨?_, ?_⟩
  · show ((r _).stb && (r _).cyc && !_) = true
    rw [hack]; simp [h1, h2]
  · show (if irqRead _ _ then _ else if dataReq _ then bitsByte (UartRx.data _) else _) = d
    rw [if_neg (by simp [-BitVec.getLsbD_eq_getElem, irqRead, h5]), if_pos (by simp [-BitVec.getLsbD_eq_getElem, dataReq, *])]
    rw [show (WbSerial.run D WbSerial.reset r rxI (u + j)).rx.data = byteBits d from key, bitsByte_byteBits]

/-- **C47** (receive): a port whose receiver is idle and has been read, and on whose line a frame of `d`
starts in cycle `t`, makes `d` available `rxLatency` cycles later, sets bit 0 of the IRQ register in the
next cycle, and returns `d` to the first read of the data register from then on, whatever else happens
on the bus and however late the read is. -/
theorem C47_receive {D : Nat} (hD : 2 ≤ D) {r : Nat → WbReq} {rxI : Nat → Bool} {t n : Nat} {d : BitVec 8}
    (hidle : (at_ D r rxI t).rx.count = 0) (hroom : (at_ D r rxI t).rx.rdy = false) (hstart : rxI t = false)
    (hbits : ∀ i, (h : i < (uartFrame (byteBits d)).length) →
      rxI (t + (1 + D / 2 + i * D)) = (uartFrame (byteBits d))[i])
    (hn : t + rxLatency D 8 ≤ n) (hno : ∀ k, t + rxLatency D 8 ≤ k → k < n → ¬ DataRead (r k))
    (hread : DataRead (r n)) (hack : (at_ D r rxI n).ack = false) :
    RxEvent D r rxI (t + rxLatency D 8) ∧ (at_ D r rxI (t + rxLatency D 8 + 1)).rxIrq = true ∧
    (at_ D r rxI (t + rxLatency D 8 + 1)).irq = true ∧
    (at_ D r rxI (n + 1)).ack = true ∧ (at_ D r rxI (n + 1)).datR = d := by
  have hlen : ∀ m, (at_ D r rxI m).rx.shreg.length = 10 := by
    intro m
    induction m with
    | zero => rfl
    | succ m ih =>
      show (UartRx.step D _ _ _).shreg.length = 10
      unfold UartRx.step
      split
      · split
        · split <;> exact ih
        · split <;> exact ih
      · split
        · exact ih
        · simp only [List.length_append, List.length_tail, List.length_singleton]
          have : (run D reset r rxI m).rx.shreg.length = 10 := ih
          omega
  have hx : ∀ k, (at_ D r rxI (t + k)).rx =
      (at_ D r rxI t).rx.run D (fun k => rxI (t + k)) (fun k => rxAck (r (t + k))) k := fun k => by
    unfold at_; rw [run_add, rx_run]
  have h := C40_receive hD (s := (at_ D r rxI t).rx) (rxI := fun k => rxI (t + k))
    (ack := fun k => rxAck (r (t + k))) (d := byteBits d) hidle (by rw [byteBits_length]; exact hlen t) (.inl hroom) hstart hbits
  simp only [← hx, byteBits_length] at h
  obtain ⟨g1, g2, -, -, g5, g6⟩ := h
  have hL : 2 ≤ rxLatency D 8 := by rw [rxLatency]; omega
  have hev : RxEvent D r rxI (t + rxLatency D 8) := by
    refine ⟨g1, .inr ?_⟩
    have := g6 (rxLatency D 8 - 1) (by omega) (by omega)
    rwa [← Nat.add_sub_assoc (by omega)] at this
  have hirq : (at_ D r rxI (t + rxLatency D 8 + 1)).rxIrq = true :=
    (C46_irq D r rxI _).1.2 ⟨_, by omega, hev, fun k h1 h2 => by omega⟩
  refine ⟨hev, hirq, (C46_irq D r rxI _).2.2.1.2 (.inl hirq), ?_⟩
  exact C47_read hn g1 g5 g2 hno hread hack

namespace CsrSerial
variable {D : Nat} {s : CsrSerial} {r : Nat → SerialStb} {rxI : Nat → Bool}

theorem tx_run (n : Nat) : (s.run D r rxI n).tx =
    s.tx.run D (fun k => (r k).wStb) (fun k => byteBits (r k).wData) n := by
  induction n with
  | zero => rfl
  | succ n ih => rw [UartTx.run, ← ih]; rfl

theorem rx_run (n : Nat) : (s.run D r rxI n).rx = s.rx.run D rxI (fun k => (r k).rStb) n := by
  induction n with
  | zero => rfl
  | succ n ih => rw [UartRx.run, ← ih]; rfl

theorem run_add (m n : Nat) : s.run D r rxI (m + n) =
    (s.run D r rxI m).run D (fun k => r (m + k)) (fun k => rxI (m + k)) n := by
  induction n with
  | zero => rfl
  | succ n ih => rw [show m + (n + 1) = m + n + 1 from rfl, run, ih]; rfl

theorem lens (n : Nat) : (reset.run D r rxI n).tx.shreg.length = 10 ∧ (reset.run D r rxI n).rx.shreg.length = 10 := by
  induction n with
  | zero => exact ⟨rfl, rfl⟩
  | succ n ih =>
    obtain ⟨h1, h2⟩ := ih
    refine ⟨?_, ?_⟩
    · show (UartTx.step D _ _ _).shreg.length = _
      unfold UartTx.step
      split
      · split
        · simp [byteBits_length]
        · exact h1
      · split
        · exact h1
        · simp [h1]
    · show (UartRx.step D _ _ _).shreg.length = _
      unfold UartRx.step
      split
      · split
        · split <;> exact h2
        · split <;> exact h2
      · split
        · exact h2
        · simp only [List.length_append, List.length_tail, List.length_singleton]
          omega

end CsrSerial

/-- **C47** for the CSR-bus version: (1) a write of `b` to the data register in cycle `n`, when the
transmitter is ready, sends the frame of `b`; (2) nothing but such a write makes the transmitter start;
(3) a frame of `d` that starts on the line in cycle `t`, when the receiver is idle and empty, makes `d` the
value of the data register `rxLatency` cycles later and until it is read, whatever else happens on the bus
and on the line; the first read then frees the receiver. -/
theorem C47_csr {D : Nat} (hD : 2 ≤ D) (q : Nat → SerialStb) (rxI : Nat → Bool) :
    let at' := fun n => CsrSerial.reset.run D q rxI n
    (∀ n, (q n).wStb = true → (at' n).tx.ack = true →
      (∀ k, (h : k < 10 * D) → (at' (n + 1 + k)).txO =
        (uartFrame (byteBits (q n).wData))[k / D]'(by
          rw [uartFrame_length, byteBits_length]; exact Nat.div_lt_of_lt_mul (by rw [Nat.mul_comm]; exact h)) ∧
        (at' (n + 1 + k)).tx.ack = false) ∧
      (at' (n + 1 + 10 * D)).tx.ack = true ∧ (at' (n + 1 + 10 * D)).txO = true) ∧
    (∀ n, (at' n).tx.ack = true ∧ (at' (n + 1)).tx.ack = false ↔ (at' n).tx.ack = true ∧ (q n).wStb = true) ∧
    (∀ t n d, (at' t).rx.count = 0 → (at' t).rx.rdy = false → rxI t = false →
      (∀ i, (h : i < (uartFrame (byteBits d)).length) →
        rxI (t + (1 + D / 2 + i * D)) = (uartFrame (byteBits d))[i]) →
      t + rxLatency D 8 ≤ n → (∀ k, t + rxLatency D 8 ≤ k → k < n → (q k).rStb = false) →
      (at' n).rx.rdy = true ∧ (at' n).data = d ∧ ((q n).rStb = true → (at' (n + 1)).rx.rdy = false)) := by
  intro at'
  refine ⟨fun n hw hready => ?_, fun n => ?_, fun t n d hidle hroom hstart hbits hn hno => ?_⟩
  · have key : ∀ k, (at' (n + k)).tx = (at' n).tx.run D (fun k => (q (n + k)).wStb)
        (fun k => byteBits (q (n + k)).wData) k := fun k => by
      show (CsrSerial.run D _ _ _ _).tx = _
      rw [CsrSerial.run_add, CsrSerial.tx_run]
    have h := C40_transmit (by omega : 0 < D) (s := (at' n).tx) (rdy := fun k => (q (n + k)).wStb)
      (data := fun k => byteBits (q (n + k)).wData) hready
      (by rw [byteBits_length]; exact (CsrSerial.lens n).1) hw
    simp only [← key, Nat.add_zero, byteBits_length] at h
    simp only [Nat.add_assoc]
    exact ⟨h.1, h.2.1, h.2.2.1⟩
  · have hlen := (CsrSerial.lens (D := D) (r := q) (rxI := rxI) n).1
    have e : (at' (n + 1)).tx = (at' n).tx.step D (q n).wStb (byteBits (q n).wData) := rfl
    refine and_congr_right fun ha => ?_
    rw [e]
    have hc : (at' n).tx.count = 0 := by simpa [UartTx.ack] using ha
    unfold UartTx.step
    rw [if_pos hc]
    by_cases hr : (q n).wStb = true
    · rw [if_pos hr]
      simp only [hr, iff_true, UartTx.ack, beq_eq_false_iff_ne]
      rw [show (at' n).tx.shreg.length = 10 from hlen]
      decide
    · rw [if_neg hr, ha]
      simp [hr]
  · have hx : ∀ k, (at' (t + k)).rx =
        (at' t).rx.run D (fun k => rxI (t + k)) (fun k => (q (t + k)).rStb) k := fun k => by
      show (CsrSerial.run D _ _ _ _).rx = _
      rw [CsrSerial.run_add, CsrSerial.rx_run]
    have h := C40_receive hD (s := (at' t).rx) (rxI := fun k => rxI (t + k))
      (ack := fun k => (q (t + k)).rStb) (d := byteBits d) hidle
      (by rw [byteBits_length]; exact (CsrSerial.lens t).2) (.inl hroom) hstart hbits
    simp only [← hx, byteBits_length] at h
    obtain ⟨g1, g2, -, -, g5, -⟩ := h
    obtain ⟨j, rfl⟩ := Nat.exists_eq_add_of_le hn
    have hy : (at' (t + rxLatency D 8 + j)).rx = (at' (t + rxLatency D 8)).rx.run D
        (fun k => rxI (t + rxLatency D 8 + k)) (fun k => (q (t + rxLatency D 8 + k)).rStb) j := by
      show (CsrSerial.run D _ _ _ _).rx = _
      rw [CsrSerial.run_add, CsrSerial.rx_run]
    have ho := C40_overflow (D := D) (rxI := fun k => rxI (t + rxLatency D 8 + k))
      (ack := fun k => (q (t + rxLatency D 8 + k)).rStb) (n := j) g5 g1
      fun k hk => hno _ (by omega) (by omega)
    rw [← hy] at ho
    refine ⟨ho.1, ?_, fun hr => ?_⟩
    · show bitsByte (at' _).rx.data = d
      rw [ho.2.1, g2, bitsByte_byteBits]
    · have hc : (at' (t + rxLatency D 8 + j)).rx.count = 0 := by
        rw [hy]; exact UartRx.idle_run g5 g1 fun k hk => hno _ (by omega) (by omega)
      show (UartRx.step D _ _ _).rdy = false
      unfold UartRx.step
      rw [if_pos hc, hr]
      split
      · rfl
      · rfl

/-! ### The theorems about the serial port are not vacuous -/

/-- A line that carries the frame of 0xA5 from cycle 3, with 4 cycles per bit. -/
def demoLine (k : Nat) : Bool := if 3 ≤ k ∧ k < 43 then (uartFrame (byteBits 0xA5#8))[(k - 3) / 4]?.getD true else true

/-- Requests: write 0x5A to the data register in cycles 1-2, read the IRQ register in cycles 50-51, the data
register in cycles 60-61. -/
def demoReq (k : Nat) : WbReq :=
  if k = 1 ∨ k = 2 then { cyc := true, stb := true, we := true, sel := true, adr := 0, datW := 0x5A }
  else if k = 50 ∨ k = 51 then { cyc := true, stb := true, sel := true, adr := 1 }
  else if k = 60 ∨ k = 61 then { cyc := true, stb := true, sel := true, adr := 0 }
  else {}

/-- The hypotheses of `C47_write` hold of the write in cycle 2. -/
example : DataWrite (demoReq 2) 0x5A#8 ∧ (at_ 4 demoReq demoLine 2).ack = true ∧
    (at_ 4 demoReq demoLine 2).tx.ack = true := by
  refine ⟨⟨rfl, rfl, rfl, rfl, rfl, rfl⟩, ?_, ?_⟩ <;> decide +kernel

/-- The hypotheses of `C47_receive` hold of the frame that starts in cycle 3 and the read in cycle 60. -/
example : (at_ 4 demoReq demoLine 3).rx.count = 0 ∧ (at_ 4 demoReq demoLine 3).rx.rdy = false ∧
    demoLine 3 = false ∧
    (∀ i, (h : i < (uartFrame (byteBits 0xA5#8)).length) →
      demoLine (3 + (1 + 4 / 2 + i * 4)) = (uartFrame (byteBits 0xA5#8))[i]) ∧
    3 + rxLatency 4 8 ≤ 60 ∧ (∀ k, 3 + rxLatency 4 8 ≤ k → k < 60 → ¬ DataRead (demoReq k)) ∧
    DataRead (demoReq 60) ∧ (at_ 4 demoReq demoLine 60).ack = false := by
  refine ⟨by decide +kernel, by decide +kernel, by decide +kernel, by decide +kernel, by decide +kernel,
    fun k h1 h2 h => ?_, ⟨rfl, rfl, rfl, rfl, rfl⟩, by decide +kernel⟩
  have h60 : ∀ j : _root_.Fin 60, (demoReq j).adr.getLsbD 0 = true ∨ (demoReq j).cyc = false ∨ (demoReq j).we = true := by
    decide +kernel
  rcases h60 ⟨k, h2⟩ with e | e | e
  · have := h.2.2.2.2; rw [e] at this; exact absurd this (by decide)
  · have := h.1; rw [e] at this; exact absurd this (by decide)
  · have := h.2.2.2.1; rw [e] at this; exact absurd this (by decide)

/-- The IRQ register is read in cycle 50 and returns both bits: the character has arrived and the
transmitter is ready again. -/
example : IrqReadAt 4 demoReq demoLine 50 ∧ (at_ 4 demoReq demoLine 51).datR = 3#8 ∧
    (at_ 4 demoReq demoLine 50).irq = true ∧ (at_ 4 demoReq demoLine 51).irq = false ∧
    (at_ 4 demoReq demoLine 61).datR = 0xA5#8 := by
  refine ⟨⟨rfl, rfl, rfl, rfl, rfl, ?_⟩, ?_, ?_, ?_, ?_⟩ <;> decide +kernel

/-- A line with the frames of 0xA5 from cycle 3 and of 0x3C from cycle 47, 4 cycles per bit. -/
def rxRaceLine (k : Nat) : Bool :=
  if 3 ≤ k ∧ k < 43 then (uartFrame (byteBits 0xA5#8))[(k - 3) / 4]?.getD true
  else if 47 ≤ k ∧ k < 87 then (uartFrame (byteBits 0x3C#8))[(k - 47) / 4]?.getD true
  else true

/-- Reads of the data register in cycles 42-43 and 100-101. -/
def rxRaceReq (k : Nat) : WbReq :=
  if k = 42 ∨ k = 43 ∨ k = 100 ∨ k = 101 then { cyc := true, stb := true, sel := true, adr := 0 } else {}

/-- **C47** (limit): the condition that no read is under way when the character becomes available is
needed.  Here 0xA5 becomes available in cycle 43, the second cycle of a read that returns the half-shifted
contents 0x4A; that read still takes the character, so the next frame overwrites it, the next read returns
0x3C, and the overflow flag is never raised. -/
theorem C47_race : RxEvent 4 rxRaceReq rxRaceLine 43 ∧ (at_ 4 rxRaceReq rxRaceLine 43).rx.data = byteBits 0xA5#8 ∧
    (at_ 4 rxRaceReq rxRaceLine 43).ack = true ∧ (at_ 4 rxRaceReq rxRaceLine 43).datR = 0x4A#8 ∧
    (at_ 4 rxRaceReq rxRaceLine 101).ack = true ∧ (at_ 4 rxRaceReq rxRaceLine 101).datR = 0x3C#8 ∧
    ∀ k < 102, (at_ 4 rxRaceReq rxRaceLine k).rx.ovf = false := by
  refine ⟨⟨?_, .inr ?_⟩, ?_, ?_, ?_, ?_, ?_, ?_⟩ <;> decide +kernel

/-! ## C48: LEDs and GPIO -/

/-- `v` is what was written last before cycle `n`, or `z` if nothing was; `w k` is the value written in
cycle `k`, if any. -/
def LastWritten (w : Nat → Option (BitVec 8)) (z : BitVec 8) (n : Nat) (v : BitVec 8) : Prop :=
  (∃ k < n, w k = some v ∧ ∀ j, k < j → j < n → w j = none) ∨ (v = z ∧ ∀ j < n, w j = none)

theorem lastWritten_of {w : Nat → Option (BitVec 8)} {z : BitVec 8} {f : Nat → BitVec 8} (h0 : f 0 = z)
    (hs : ∀ n, f (n + 1) = (w n).getD (f n)) (n : Nat) : LastWritten w z n (f n) := by
  induction n with
  | zero => exact .inr ⟨h0, fun j hj => by omega⟩
  | succ n ih =>
    cases hw : w n with
    | some v =>
      rw [hs, hw]
      exact .inl ⟨n, by omega, hw, fun j h1 h2 => by omega⟩
    | none =>
      rw [hs, hw]
      have hj : ∀ j, j < n + 1 → (j < n → w j = none) → w j = none := fun j h1 h2 => by
        by_cases e : j = n
        · rw [e]; exact hw
        · exact h2 (by omega)
      rcases ih with ⟨k, hk, hv, hno⟩ | ⟨hv, hno⟩
      · exact .inl ⟨k, by omega, hv, fun j h1 h2 => hj j h2 fun h => hno j h1 h⟩
      · exact .inr ⟨hv, fun j h => hj j h (hno j)⟩

/-- What is last written is unique, so `LastWritten` determines the register. -/
theorem LastWritten.unique {w : Nat → Option (BitVec 8)} {z v v' : BitVec 8} {n : Nat}
    (h : LastWritten w z n v) (h' : LastWritten w z n v') : v = v' := by
  rcases h with ⟨k, hk, hv, hno⟩ | ⟨hv, hno⟩ <;> rcases h' with ⟨k', hk', hv', hno'⟩ | ⟨hv', hno'⟩
  · rcases Nat.lt_trichotomy k k' with h | h | h
    · rw [hno k' h hk'] at hv'; simp at hv'
    · subst h; rw [hv] at hv'; exact Option.some.inj hv'
    · rw [hno' k h hk] at hv; simp at hv
  · rw [hno' k hk] at hv; simp at hv
  · rw [hno k' hk'] at hv'; simp at hv'
  · rw [hv, hv']

/-- The value the request `q` writes to register `a`, if it is a write to it. -/
def WbReq.writes (q : WbReq) (a : BitVec 2) : Option (BitVec 8) :=
  if q.cyc = true ∧ q.stb = true ∧ q.we = true ∧ q.sel = true ∧ q.adr = a then some q.datW else none

theorem WbLeds.step_writes (s : WbLeds) (q : WbReq) (g : BitVec 8) :
    (s.step q g).leds = (if s.ack = true then q.writes 0 else none).getD s.leds ∧
    (s.step q g).gpioO = (if s.ack = false then q.writes 1 else none).getD s.gpioO ∧
    (s.step q g).gpioOe = (if s.ack = false then q.writes 2 else none).getD s.gpioOe := by
  obtain ⟨cyc, stb, we, sel, adr, datW⟩ := q
  obtain ⟨l, o, oe, d, ack⟩ := s
  unfold WbLeds.step WbReq.writes
  refine ⟨?_, ?_, ?_⟩ <;> cases cyc <;> cases stb <;> cases we <;> cases sel <;> cases ack <;> simp <;>
    split <;> rfl

/-- **C48.** For every history of the bus, from reset: the LEDs show the last value written to register 0
(acknowledged), the pins drive the last value written to register 1 and their output enables are the last
value written to register 2; all are 0 before the first.  Nothing else changes them.  A read of register 1
returns the pins, sampled in the cycle in which it begins. -/
theorem C48_leds (r : Nat → WbReq) (gpioI : Nat → BitVec 8) (n : Nat) :
    let at' := fun n => WbLeds.run {} r gpioI n
    LastWritten (fun k => if (at' k).ack = true then (r k).writes 0 else none) 0 n (at' n).leds ∧
    LastWritten (fun k => if (at' k).ack = false then (r k).writes 1 else none) 0 n (at' n).gpioO ∧
    LastWritten (fun k => if (at' k).ack = false then (r k).writes 2 else none) 0 n (at' n).gpioOe ∧
    ((r n).cyc = true → (r n).stb = true → (r n).sel = true → (r n).we = false → (r n).adr = 1 →
      (at' n).ack = false → (at' (n + 1)).ack = true ∧ (at' (n + 1)).datR = gpioI n) ∧
    ((at' (n + 1)).ack = true ↔ (r n).cyc = true ∧ (r n).stb = true ∧ (at' n).ack = false) := by
  intro at'
  refine ⟨lastWritten_of (f := fun n => (at' n).leds) rfl (fun k => ?_) n,
    lastWritten_of (f := fun n => (at' n).gpioO) rfl (fun k => ?_) n,
    lastWritten_of (f := fun n => (at' n).gpioOe) rfl (fun k => ?_) n,
    fun h1 h2 h3 h4 h5 h6 => ?_, ?_⟩
  · exact (WbLeds.step_writes (at' k) (r k) (gpioI k)).1
  · exact (WbLeds.step_writes (at' k) (r k) (gpioI k)).2.1
  · exact (WbLeds.step_writes (at' k) (r k) (gpioI k)).2.2
  · refine ⟨?_, ?_⟩
    · show ((r n).stb && (r n).cyc && !(at' n).ack) = true
      simp [h1, h2, h6]
    · show (if _ then _ else _) = _
      rw [if_pos (by simp [h1, h2, h3, h4, h5]; exact h6)]
  · show ((r n).stb && (r n).cyc && !(at' n).ack) = true ↔ _
    cases (at' n).ack <;> cases (r n).cyc <;> cases (r n).stb <;> simp

/-- **C48** (a whole transfer): a write held for the two cycles of a transfer takes effect whichever
register it is for. -/
theorem C48_write {r : Nat → WbReq} {gpioI : Nat → BitVec 8} {n : Nat} {v : BitVec 8}
    (hidle : (WbLeds.run {} r gpioI n).ack = false) (a : BitVec 2)
    (h0 : (r n).writes a = some v) (h1 : (r (n + 1)).writes a = some v) :
    (a = 0 → (WbLeds.run {} r gpioI (n + 2)).leds = v) ∧ (a = 1 → (WbLeds.run {} r gpioI (n + 2)).gpioO = v) ∧
    (a = 2 → (WbLeds.run {} r gpioI (n + 2)).gpioOe = v) := by
  have hack : (WbLeds.run {} r gpioI (n + 1)).ack = true := by
    refine (C48_leds r gpioI n).2.2.2.2.2 ?_
    unfold WbReq.writes at h0
    split at h0
    · rename_i h; exact ⟨h.1, h.2.1, hidle⟩
    · simp at h0
  refine ⟨fun e => ?_, fun e => ?_, fun e => ?_⟩ <;> subst e
  · exact LastWritten.unique (C48_leds r gpioI (n + 2)).1
      (.inl ⟨n + 1, by omega, by simp only [hack, if_true]; exact h1, fun j h1 h2 => by omega⟩)
  · refine LastWritten.unique (C48_leds r gpioI (n + 2)).2.1 (.inl ⟨n, by omega, ?_, fun j g1 g2 => ?_⟩)
    · simp only [hidle, if_true]; exact h0
    · rw [show j = n + 1 by omega]; simp only [hack]; rfl
  · refine LastWritten.unique (C48_leds r gpioI (n + 2)).2.2.1 (.inl ⟨n, by omega, ?_, fun j g1 g2 => ?_⟩)
    · simp only [hidle, if_true]; exact h0
    · rw [show j = n + 1 by omega]; simp only [hack]; rfl

/-- **C48** for the CSR-bus version. -/
theorem C48_csr (r : Nat → LedStb) (n : Nat) :
    LastWritten (fun k => (r k).leds) 0 n (CsrLeds.run {} r n).leds ∧
    LastWritten (fun k => (r k).inout) 0 n (CsrLeds.run {} r n).gpioO ∧
    LastWritten (fun k => (r k).oe) 0 n (CsrLeds.run {} r n).gpioOe :=
  ⟨lastWritten_of (f := fun n => (CsrLeds.run {} r n).leds) rfl (fun _ => rfl) n,
    lastWritten_of (f := fun n => (CsrLeds.run {} r n).gpioO) rfl (fun _ => rfl) n,
    lastWritten_of (f := fun n => (CsrLeds.run {} r n).gpioOe) rfl (fun _ => rfl) n⟩

/-- `C48_write` is not vacuous: 0x5A is written to the LEDs in cycles 1-2. -/
example : (WbLeds.run {} demoReq (fun _ => 0) 1).ack = false ∧ (demoReq 1).writes 0 = some 0x5A#8 ∧
    (demoReq 2).writes 0 = some 0x5A#8 ∧ (WbLeds.run {} demoReq (fun _ => 0) 3).leds = 0x5A#8 := by
  refine ⟨?_, ?_, ?_, ?_⟩ <;> decide +kernel

end Sentinel
