import Verif.Proof.FirmwareTime
import Verif.Proof.FirmwareRx
/-!
# Interrupts leave time for `main`
-/

set_option linter.unusedSimpArgs false

namespace Sentinel.Fw

variable {D K : Nat} {e : Nat → Env}

/-! ## Counting events -/

/-- How many of the `k` numbers from `m` on have the property. -/
def times (b : Nat → Bool) (m : Nat) : Nat → Nat
  | 0 => 0
  | k + 1 => times b m k + (b (m + k)).toNat

/-- Events that are `S` apart: `f` is a lower bound for the time until the next one. -/
theorem times_le {b : Nat → Bool} {f : Nat → Nat} {S : Nat} (h0 : ∀ n, b n = true → f n = 0) (h1 : ∀ n, f n ≤ f (n + 1) + 1)
    (h2 : ∀ n, b n = true → S ≤ f (n + 1) + 1) (m k : Nat) (hk : k ≤ S) : times b m k ≤ 1 := by
  have key : ∀ k, k ≤ S → times b m k = 0 ∨ (times b m k = 1 ∧ S ≤ f (m + k) + k) := by
    intro k
    induction k with
    | zero => intro _; exact .inl rfl
    | succ k ih =>
      intro hk
      have g1 := h1 (m + k)
      rw [times, show f (m + (k + 1)) = f (m + k + 1) from rfl]
      cases hb : b (m + k) with
      | false =>
        rcases ih (by omega) with ih | ⟨i1, i2⟩
        · exact .inl (by simpa using ih)
        · exact .inr ⟨by simpa using i1, by omega⟩
      | true =>
        have g0 := h0 _ hb
        have g2 := h2 _ hb
        rcases ih (by omega) with ih | ⟨i1, i2⟩
        · exact .inr ⟨by simp [ih], by omega⟩
        · omega
  rcases key k hk with h | ⟨h, -⟩ <;> omega

/-- The transmitter has become ready. -/
def txEv (s : WbSerial) : Bool := s.tx.ack && !s.txPrev

/-- A character has arrived. -/
def rxEv (s : WbSerial) : Bool := s.rx.rdy && !s.rxPrev

/-- When the transmitter can become ready next. -/
def txFar (D : Nat) (s : WbSerial) : Nat :=
  if s.tx.count = 0 then (if s.txPrev then 10 * D + 1 else 0) else (s.tx.count - 1) * D + s.tx.phase + 1

theorem txFar_step (hD : 0 < D) {s : WbSerial} (hl : s.tx.shreg.length = 10) (hp : s.tx.phase < D) (hc : s.tx.count ≤ 10) (r : WbReq) (x : Bool) :
    (txEv s = true → txFar D s = 0) ∧ txFar D s ≤ txFar D (s.step D r x) + 1 ∧ (txEv s = true → 10 * D ≤ txFar D (s.step D r x)) := by
  obtain ⟨⟨ph, sh, ct⟩, rx, dr, ak, ri, rp, ti, tp⟩ := s
  simp only at hl hp hc
  generalize hs : WbSerial.step D _ r x = s'
  have e1 : s'.txPrev = (ct == 0) := by rw [← hs]; rfl
  have e2 : s'.tx = UartTx.step D ⟨ph, sh, ct⟩ (WbSerial.txRdy ⟨⟨ph, sh, ct⟩, rx, dr, ak, ri, rp, ti, tp⟩ r) (byteBits r.datW) := by rw [← hs]; rfl
  generalize WbSerial.txRdy _ r = rdy at e2
  generalize byteBits r.datW = dat at e2
  unfold txFar txEv
  rw [e1, e2]
  clear hs e1 e2
  simp only [UartTx.ack, UartTx.step]
  by_cases h0 : ct = 0
  · subst h0
    cases rdy <;> cases tp <;> simp [hl] <;> omega
  · simp only [h0, if_false]
    by_cases h1 : ph = 0
    · subst h1
      by_cases h2 : ct = 1
      · subst h2; simp
      · obtain ⟨c, rfl⟩ : ∃ c, ct = c + 2 := ⟨ct - 2, by omega⟩
        simp
        have : (c + 1) * D = c * D + D := Nat.succ_mul c D
        omega
    · simp [h0, h1]
      omega

/-- When a character can arrive next. -/
def rxFar (D : Nat) (s : WbSerial) : Nat :=
  if s.rx.rdy && !s.rxPrev then 0 else if s.rx.count = 0 then 9 * D + 1 else (s.rx.count - 1) * D + s.rx.phase + 1

theorem rxFar_step (hD : 0 < D) {s : WbSerial} (hl : s.rx.shreg.length = 10) (hi : s.rx.rdy = true → s.rx.count = 0) (r : WbReq) (x : Bool) :
    (rxEv s = true → rxFar D s = 0) ∧ rxFar D s ≤ rxFar D (s.step D r x) + 1 ∧ (rxEv s = true → 9 * D ≤ rxFar D (s.step D r x)) := by
  obtain ⟨tx, ⟨ph, sh, ct, rdy, ovf⟩, dr, ak, ri, rp, ti, tp⟩ := s
  simp only at hl hi
  generalize hs : WbSerial.step D _ r x = s'
  have e1 : s'.rxPrev = rdy := by rw [← hs]; rfl
  have e2 : s'.rx = UartRx.step D ⟨ph, sh, ct, rdy, ovf⟩ x (WbSerial.rxAck r) := by rw [← hs]; rfl
  generalize WbSerial.rxAck r = ak' at e2
  unfold rxFar rxEv
  rw [e1, e2]
  clear hs e1 e2
  simp only [UartRx.step]
  by_cases h0 : ct = 0
  · subst h0
    cases x <;> cases rdy <;> cases rp <;> cases ak' <;> simp [hl] <;> omega
  · have hr : rdy = false := by
      cases rdy
      · rfl
      · exact absurd (hi rfl) h0
    subst hr
    simp only [h0, if_false]
    by_cases h1 : ph = 0
    · subst h1
      by_cases h2 : ct = 1
      · subst h2; simp
      · obtain ⟨c, rfl⟩ : ∃ c, ct = c + 2 := ⟨ct - 2, by omega⟩
        simp
        have : (c + 1) * D = c * D + D := Nat.succ_mul c D
        omega
    · simp [h0, h1]
      omega

theorem rx_len (n : Nat) : (Sys.at_ D e n).ser.rx.shreg.length = 10 := by
  induction n with
  | zero => rfl
  | succ n ih =>
    have e2 : (Sys.at_ D e (n + 1)).ser.rx = UartRx.step D (Sys.at_ D e n).ser.rx (e n).rx (WbSerial.rxAck (serReq (Sys.at_ D e n).soft.access)) := rfl
    rw [e2]
    unfold UartRx.step
    (repeat' split) <;> simp [ih]

theorem tx_times (hD : 0 < D) (m k : Nat) (hk : k ≤ 10 * D) : times (fun n => txEv (Sys.at_ D e n).ser) m k ≤ 1 := by
  have h := fun n => txFar_step hD (inv_at (D := D) e n).len (tx_bound hD n).1 (tx_bound hD n).2 (serReq (Sys.at_ D e n).soft.access) (e n).rx
  refine times_le (f := fun n => txFar D (Sys.at_ D e n).ser) (S := 10 * D + 1) (fun n => (h n).1) (fun n => (h n).2.1) (fun n hb => ?_) m k (by omega)
  exact Nat.succ_le_succ ((h n).2.2 hb)

theorem rx_times (hD : 0 < D) (m k : Nat) (hk : k ≤ 9 * D) : times (fun n => rxEv (Sys.at_ D e n).ser) m k ≤ 1 := by
  have h := fun n => rxFar_step hD (rx_len n) (rxInv_at (D := D) e n).1 (serReq (Sys.at_ D e n).soft.access) (e n).rx
  refine times_le (f := fun n => rxFar D (Sys.at_ D e n).ser) (S := 9 * D + 1) (fun n => (h n).1) (fun n => (h n).2.1) (fun n hb => ?_) m k (by omega)
  exact Nat.succ_le_succ ((h n).2.2 hb)

/-- Events in `k` cycles from `m` on. -/
def evs (D : Nat) (e : Nat → Env) (m k : Nat) : Nat :=
  ((m + k) / 2 ^ 14 - m / 2 ^ 14) + times (fun n => rxEv (Sys.at_ D e n).ser) m k + times (fun n => txEv (Sys.at_ D e n).ser) m k

theorem evs_le (hD : 0 < D) (m k : Nat) (hk : k ≤ 9 * D) (hk' : k ≤ 2 ^ 14) : evs D e m k ≤ 3 := by
  have h1 := tx_times (e := e) hD m k (by omega)
  have h2 := rx_times (e := e) hD m k hk
  have h3 : (m + k) / 2 ^ 14 ≤ m / 2 ^ 14 + 1 := by
    omega
  unfold evs
  omega

theorem evs_succ (m k : Nat) : evs D e m (k + 1) = evs D e m k + ((m + k + 1) / 2 ^ 14 - (m + k) / 2 ^ 14) +
    (rxEv (Sys.at_ D e (m + k)).ser).toNat + (txEv (Sys.at_ D e (m + k)).ser).toNat := by
  unfold evs
  rw [times, times, ← Nat.add_assoc]
  have h1 : m / 2 ^ 14 ≤ (m + k) / 2 ^ 14 := Nat.div_le_div_right (by omega)
  have h2 : (m + k) / 2 ^ 14 ≤ (m + k + 1) / 2 ^ 14 := Nat.div_le_div_right (by omega)
  omega

/-! ## What the handler has not seen -/

/-- Interrupts that are pending and that the handler, if it is running, will not see. -/
def unseen (s : Sys) : Nat :=
  match s.soft.isr with
  | some .enter => 0
  | some .rdTimer => if s.timer.ack then s.timer.irq.toNat else 0
  | some (.gotTimer _) => s.timer.irq.toNat
  | some .rdInt => s.timer.irq.toNat + if s.ser.ack then s.ser.rxIrq.toNat + s.ser.txIrq.toNat else 0
  | _ => s.timer.irq.toNat + (s.ser.rxIrq.toNat + s.ser.txIrq.toNat)

theorem flags_step {s : WbSerial} {r : WbReq} {x : Bool} :
    (s.step D r x).rxIrq.toNat + (s.step D r x).txIrq.toNat ≤
      (if s.irqRead r then 0 else s.rxIrq.toNat + s.txIrq.toNat) + (rxEv s).toNat + (txEv s).toNat := by
  simp only [WbSerial.step, rxEv, txEv]
  generalize (s.rx.rdy && !s.rxPrev) = a
  generalize (s.tx.ack && !s.txPrev) = b
  cases a <;> cases b <;> cases s.irqRead r <;> cases s.rxIrq <;> cases s.txIrq <;> decide

theorem unseen_step (n : Nat) : unseen (Sys.at_ D e (n + 1)) ≤ unseen (Sys.at_ D e n) + ((n + 1) / 2 ^ 14 - n / 2 ^ 14) +
    (rxEv (Sys.at_ D e n).ser).toNat + (txEv (Sys.at_ D e n).ser).toNat := by
  have hi := irq_next (D := D) (e := e) n
  rw [timerReqs] at hi
  have hf := flags_step (D := D) (s := (Sys.at_ D e n).ser) (r := serReq (Sys.at_ D e n).soft.access) (x := (e n).rx)
  have hn := isr_none_step (D := D) (e := e) (n := n)
  have e1 : (Sys.at_ D e (n + 1)).timer = (Sys.at_ D e n).timer.step ((Sys.at_ D e n).timerSees (e n).csr) := rfl
  have e3 : (Sys.at_ D e (n + 1)).ser = (Sys.at_ D e n).ser.step D (serReq (Sys.at_ D e n).soft.access) (e n).rx := rfl
  rw [← e3, irqRead_eq] at hf
  have ka := ser_ack (D := D) (s := (Sys.at_ D e n).ser) (rx := (e n).rx) (Sys.at_ D e n).soft.access
  rw [← e3] at ka
  clear e3
  have e2 := soft_succ (D := D) (e := e) n
  generalize (n + 1) / 2 ^ 14 - n / 2 ^ 14 = t at hi ⊢
  unfold unseen
  generalize Sys.at_ D e (n + 1) = s' at *
  generalize Sys.at_ D e n = s at *
  obtain ⟨⟨q, busy, box, cnt, main, isr⟩, ser, tm, ld⟩ := s
  obtain ⟨soft', ser', tm', ld'⟩ := s'
  simp only at *
  subst e2
  generalize (rxEv ser).toNat = ev1 at *
  generalize (txEv ser).toNat = ev2 at *
  have tb : ∀ b : Bool, b.toNat ≤ 1 := fun b => by cases b <;> decide
  rcases isr with _ | i
  · have hf' : ser'.rxIrq.toNat + ser'.txIrq.toNat ≤ ser.rxIrq.toNat + ser.txIrq.toNat + ev1 + ev2 := by
      have hle : ∀ (b : Bool) (x : Nat), (if b = true then 0 else x) ≤ x := fun b x => by cases b <;> simp
      refine Nat.le_trans hf ?_
      exact Nat.add_le_add_right (Nat.add_le_add_right (hle _ _) _) _
    simp only
    rcases hn rfl with h | h <;> rw [h] <;> simp only <;> omega
  · cases i
    case rdTimer =>
      simp [-BitVec.getLsbD_eq_getElem, Soft.access, Isr.access] at hf
      cases htm : tm.ack
      · have h1 : tm'.ack = true := by
          rw [e1]
          simp only [Sys.timerSees, Soft.access, Isr.access, timerReq, WbTimer.step, htm]
          simp
        simp [Sys.timerSees, Soft.access, Isr.access, timerReq, htm] at hi
        simp [-BitVec.getLsbD_eq_getElem, Sys.softNext, Soft.access, Isr.access, Sys.reply, htm, h1]
        omega
      · have hi' : tm'.irq.toNat ≤ tm.irq.toNat + t := by omega
        simp [-BitVec.getLsbD_eq_getElem, Sys.softNext, Soft.access, Isr.access, Sys.reply, htm, Soft.done, Isr.done]
        omega
    case gotTimer v =>
      have : ser'.ack = false := by rw [ka]; simp [Soft.access, Isr.access]
      cases hact : (e n).act <;>
        simp [-BitVec.getLsbD_eq_getElem, Sys.softNext, Soft.access, Isr.access, hact, Soft.isrAct, this] at hi hf ⊢
      · omega
      · omega
    case enter =>
      have : tm'.ack = false := by rw [e1]; simp [Sys.timerSees, Soft.access, Isr.access, timerReq, WbTimer.step]
      cases hact : (e n).act <;>
        simp [-BitVec.getLsbD_eq_getElem, Sys.softNext, Soft.access, Isr.access, hact, Soft.isrAct, this] at hi hf ⊢
    case rdInt =>
      cases hak : ser.ack <;>
        simp [-BitVec.getLsbD_eq_getElem, Sys.softNext, Soft.access, Isr.access, Sys.reply, Soft.done, Isr.done, hak] at hi hf ka ⊢
      · rw [ka]; simp [Access.isSer]; omega
      · omega
    case rdRx v =>
      cases hak : ser.ack <;>
        simp [-BitVec.getLsbD_eq_getElem, Sys.softNext, Soft.access, Isr.access, Sys.reply, Soft.done, Isr.done, hak] at hi hf ⊢ <;> omega
    case send b =>
      cases hak : ser.ack <;>
        simp [-BitVec.getLsbD_eq_getElem, Sys.softNext, Soft.access, Isr.access, Sys.reply, Soft.done, Isr.done, hak] at hi hf ⊢ <;> omega
    case gotInt v =>
      cases hact : (e n).act <;> cases hv : v.getLsbD 0 <;>
        simp [-BitVec.getLsbD_eq_getElem, Sys.softNext, Soft.access, Isr.access, hact, Soft.isrAct, hv] at hi hf ⊢ <;> omega
    case gotRx v d =>
      cases hact : (e n).act <;>
        simp [-BitVec.getLsbD_eq_getElem, Sys.softNext, Soft.access, Isr.access, hact, Soft.isrAct] at hi hf ⊢ <;> omega
    case tx v =>
      cases hact : (e n).act <;> cases hv : v.getLsbD 1 <;>
        simp [-BitVec.getLsbD_eq_getElem, Sys.softNext, Soft.access, Isr.access, hact, Soft.isrAct, hv] at hi hf ⊢ <;> omega
    case deq m =>
      cases hact : (e n).act <;> cases busy <;> cases m <;>
        simp [-BitVec.getLsbD_eq_getElem, Sys.softNext, Soft.access, Isr.access, hact, Soft.isrAct] at hi hf ⊢ <;> omega
    case leave =>
      cases hact : (e n).act <;>
        simp [-BitVec.getLsbD_eq_getElem, Sys.softNext, Soft.access, Isr.access, hact, Soft.isrAct] at hi hf ⊢ <;> omega

theorem unseen_at (m a k : Nat) : unseen (Sys.at_ D e (m + (a + k))) + evs D e m a ≤ unseen (Sys.at_ D e (m + a)) + evs D e m (a + k) := by
  induction k with
  | zero => simp
  | succ k ih =>
    have := unseen_step (D := D) (e := e) (m + (a + k))
    have h2 := evs_succ (D := D) (e := e) m (a + k)
    rw [← Nat.add_assoc a, h2]
    rw [← Nat.add_assoc m]
    omega

/-! ## `main` gets its turn -/

/-- `main` does an action in cycle `n`. -/
def MainActs (D : Nat) (e : Nat → Env) (n : Nat) : Prop :=
  (e n).act.isSome = true ∧ (Sys.at_ D e n).soft.access = none ∧ (Sys.at_ D e n).soft.isr = none ∧
    ((Sys.at_ D e n).soft.main.enabled = false ∨ (Sys.at_ D e n).irq = false)

/-- Either `main` does the next action, or an interrupt is taken. -/
theorem acts_or_enters (hK : ∀ n, ∃ m ≥ n, m < n + K ∧ (e m).act.isSome = true) {n : Nat} (hi : (Sys.at_ D e n).soft.isr = none)
    (ha : (Sys.at_ D e n).soft.access = none) :
    (∃ m ≥ n, m < n + K ∧ MainActs D e m) ∨
    (∃ m ≥ n, m < n + K ∧ (Sys.at_ D e m).soft.isr = none ∧ 1 ≤ unseen (Sys.at_ D e m) ∧ (Sys.at_ D e (m + 1)).soft.isr = some .enter ∧
      (Sys.at_ D e (m + 1)).soft.main = (Sys.at_ D e n).soft.main ∧ (Sys.at_ D e n).soft.main.access = none) := by
  obtain ⟨m, op, h1, h1', h2, h3⟩ := wait_act_le hK ha
  have hma : (Sys.at_ D e n).soft.main.access = none := by simpa [Soft.access, hi] using ha
  by_cases hq : (Sys.at_ D e m).soft.main.enabled = false ∨ (Sys.at_ D e m).irq = false
  · exact .inl ⟨m, h1, h1', by rw [h2]; rfl, by rw [h3]; exact ha, by rw [h3]; exact hi, hq⟩
  · simp only [not_or, Bool.not_eq_false] at hq
    have h4 : (Sys.at_ D e (m + 1)).soft = { (Sys.at_ D e m).soft with isr := some .enter } := by
      rw [soft_succ]
      unfold Sys.softNext
      rw [h3] at hq ⊢
      rw [ha, h2, hi]
      simp [hq.1, hq.2]
    refine .inr ⟨m, h1, h1', by rw [h3]; exact hi, ?_, by rw [h4], by rw [h4, h3], hma⟩
    have := hq.2
    unfold unseen
    rw [h3, hi]
    simp only [Sys.irq, WbSerial.irq] at this ⊢
    revert this
    cases (Sys.at_ D e m).timer.irq <;> cases (Sys.at_ D e m).ser.rxIrq <;> cases (Sys.at_ D e m).ser.txIrq <;> decide

/-- After `j` more runs of the handler there have been `j` events. -/
theorem runs_events (hK : ∀ n, ∃ m ≥ n, m < n + K ∧ (e m).act.isSome = true) {x : Nat} (hx : (Sys.at_ D e x).soft.isr = some .enter)
    (hm : (Sys.at_ D e x).soft.main.access = none) (j : Nat) :
    (∃ m ≥ x, m < x + (7 * K + 8) + j * (8 * K + 9) ∧ MainActs D e m) ∨
    (∃ y ≤ (7 * K + 8) + j * (8 * K + 9), (Sys.at_ D e (x + y)).soft.isr = none ∧ (Sys.at_ D e (x + y)).soft.access = none ∧
      (Sys.at_ D e (x + y)).soft.main.access = none ∧ j + unseen (Sys.at_ D e (x + y)) ≤ evs D e x y) := by
  induction j with
  | zero =>
    obtain ⟨m, m1, m2, m3, m4⟩ := isr_leaves_le (D := D) hK x
    obtain ⟨y, rfl⟩ := Nat.exists_eq_add_of_le m1
    refine .inr ⟨y, by omega, m3, by simp [Soft.access, m3, m4, hm], by rw [m4]; exact hm, ?_⟩
    have h1 := unseen_at (D := D) (e := e) x 0 y
    simp only [Nat.zero_add, Nat.add_zero] at h1
    have h2 : unseen (Sys.at_ D e x) = 0 := by simp [unseen, hx]
    omega
  | succ j ih =>
    rw [Nat.succ_mul j (8 * K + 9)]
    rcases ih with ⟨m, m1, m2, m3⟩ | ⟨y, y1, y2, y3, y4, y5⟩
    · exact .inl ⟨m, m1, by omega, m3⟩
    · rcases acts_or_enters hK y2 y3 with ⟨m, m1, m2, m3⟩ | ⟨z, z1, z2, z3, z4, z5, z6, z7⟩
      · exact .inl ⟨m, by omega, by omega, m3⟩
      · obtain ⟨a, rfl⟩ := Nat.exists_eq_add_of_le z1
        rw [Nat.add_assoc x y a] at z3 z4 z5 z6
        have h1 := unseen_at (D := D) (e := e) x y a
        obtain ⟨m, m1, m2, m3, m4⟩ := isr_leaves_le (D := D) hK (x + (y + a) + 1)
        obtain ⟨b, rfl⟩ := Nat.exists_eq_add_of_le m1
        have h2 := unseen_at (D := D) (e := e) x (y + a + 1) b
        have h3 : unseen (Sys.at_ D e (x + (y + a + 1))) = 0 := by
          rw [← Nat.add_assoc x]
          simp [unseen, z5]
        have h4 := evs_succ (D := D) (e := e) x (y + a)
        refine .inr ⟨y + a + 1 + b, by omega, ?_⟩
        rw [show x + (y + a + 1 + b) = x + (y + a) + 1 + b by omega]
        rw [show x + (y + a + 1 + b) = x + (y + a) + 1 + b by omega] at h2
        have hma : (Sys.at_ D e (x + (y + a) + 1 + b)).soft.main.access = none := by rw [m4, z6]; exact z7
        exact ⟨m3, by simp [Soft.access, m3, hma], hma, by omega⟩

theorem main_acts (hD : 0 < D) (hK : ∀ n, ∃ m ≥ n, m < n + K ∧ (e m).act.isSome = true) (h1 : 32 * K + 36 ≤ 9 * D) (h2 : 32 * K + 36 ≤ 2 ^ 14)
    (n : Nat) : ∃ m ≥ n, m < n + (40 * K + 44) ∧ MainActs D e m := by
  -- no handler and no bus access
  obtain ⟨y, y1, y1', y2, y3⟩ : ∃ y ≥ n, y ≤ n + (7 * K + 8) ∧ (Sys.at_ D e y).soft.isr = none ∧ (Sys.at_ D e y).soft.access = none := by
    cases hi : (Sys.at_ D e n).soft.isr with
    | some i =>
      obtain ⟨m, m1, m2, m3, m4⟩ := isr_leaves_le (D := D) hK n
      have := ((inv_at (D := D) e n).isr (by rw [hi]; nofun)).2
      exact ⟨m, m1, m2, m3, by simp [Soft.access, m3, m4, this]⟩
    | none =>
      cases ha : (Sys.at_ D e n).soft.access with
      | none => exact ⟨n, by omega, by omega, hi, ha⟩
      | some a =>
        obtain ⟨m, d, g1, g2, g3⟩ := access_done_le ha
        refine ⟨m, by omega, by omega, by rw [g3]; simp [Soft.done, hi], ?_⟩
        rw [g3]
        simp only [Soft.access, hi] at ha
        simp only [Soft.done, hi, Soft.access]
        cases hm : (Sys.at_ D e n).soft.main with
        | gpio n => cases n <;> rfl
        | leds n b => cases n <;> rfl
        | send n b => rfl
        | _ => rw [hm] at ha; cases ha
  rcases acts_or_enters hK y2 y3 with ⟨m, m1, m2, m3⟩ | ⟨z, z1, z2, z3, z4, z5, z6, z7⟩
  · exact ⟨m, by omega, by omega, m3⟩
  · rcases runs_events hK z5 (by rw [z6]; exact z7) 3 with ⟨m, m1, m2, m3⟩ | ⟨w, w1, w2, w3, w4, w5⟩
    · exact ⟨m, by omega, by omega, m3⟩
    · rcases acts_or_enters hK w2 w3 with ⟨m, m1, m2, m3⟩ | ⟨v, v1, v2, v3, v4, v5, v6, v7⟩
      · exact ⟨m, by omega, by omega, m3⟩
      · exfalso
        obtain ⟨a, rfl⟩ := Nat.exists_eq_add_of_le v1
        have g1 := unseen_at (D := D) (e := e) (z + 1) w a
        have g2 := evs_le (e := e) hD (z + 1) (w + a) (by omega) (by omega)
        rw [Nat.add_assoc] at v4
        omega

end Sentinel.Fw
