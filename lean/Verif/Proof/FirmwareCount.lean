import Verif.Proof.FirmwareFair
/-!
# The ticks of the timer are counted when nothing else is going on
-/

set_option linter.unusedSimpArgs false

namespace Sentinel.Fw

variable {D K : Nat} {e : Nat → Env}

/-- The timer has ticked, and that is going to be counted. -/
def Ticking (s : Sys) : Prop :=
  match s.soft.isr with
  | none | some .enter => s.timer.irq = true
  | some .rdTimer => if s.timer.ack then s.timer.datR.getLsbD 0 = true else s.timer.irq = true
  | some (.gotTimer v) => v.getLsbD 0 = true
  | _ => False

/-- The interrupt of the timer stays, if it is not read, until the next tick. -/
theorem irq_keep {n : Nat} (hn : (n + 1) % 2 ^ 14 ≠ 0) (hi : (Sys.at_ D e n).timer.irq = true) (ha : (Sys.at_ D e n).soft.access ≠ some .timer) :
    (Sys.at_ D e (n + 1)).timer.irq = true := by
  have h := WbTimer.step_toNat (Sys.at_ D e n).timer (timerReqs D e n)
  have hl := WbTimer.low_run {} (timerReqs D e) n
  rw [← timer_run] at hl
  rw [WbTimer.irq_iff] at hi ⊢
  have e1 : (Sys.at_ D e (n + 1)).timer = (Sys.at_ D e n).timer.step (timerReqs D e n) := rfl
  rw [← e1] at h
  have hr : (timerReqs D e n).stb = false := by
    unfold timerReqs Sys.timerSees
    split
    · rfl
    · generalize (Sys.at_ D e n).soft.access = a at ha
      rcases a with _ | (_ | _ | _ | _ | _ | _) <;> simp [timerReq] at ha ⊢
  have z : (({} : WbTimer).prescalar).toNat = 0 := rfl
  rw [z, timerPeriod] at hl
  rw [hr] at h
  simp only [Bool.false_eq_true, false_and, if_false] at h
  have hp := (Sys.at_ D e n).timer.prescalar.isLt
  omega

/-- A tick. -/
theorem irq_tick {n : Nat} (hn : (n + 1) % 2 ^ 14 = 0) (hi : (Sys.at_ D e n).timer.irq = false) : (Sys.at_ D e (n + 1)).timer.irq = true := by
  have h := WbTimer.step_toNat (Sys.at_ D e n).timer (timerReqs D e n)
  have hl := WbTimer.low_run {} (timerReqs D e) n
  rw [← timer_run] at hl
  have hi' := WbTimer.irq_iff (Sys.at_ D e n).timer
  rw [hi] at hi'
  rw [WbTimer.irq_iff]
  have e1 : (Sys.at_ D e (n + 1)).timer = (Sys.at_ D e n).timer.step (timerReqs D e n) := rfl
  rw [← e1] at h
  have z : (({} : WbTimer).prescalar).toNat = 0 := rfl
  rw [z, timerPeriod] at hl
  simp only [Bool.false_eq_true, false_iff, Nat.not_le] at hi'
  rw [if_neg (by omega)] at h
  omega

theorem irq_low {n : Nat} (hn : (n + 1) % 2 ^ 14 ≠ 0) (hi : (Sys.at_ D e n).timer.irq = false) : (Sys.at_ D e (n + 1)).timer.irq = false := by
  have h := irq_next (D := D) (e := e) n
  rw [hi] at h
  have : (n + 1) / 2 ^ 14 = n / 2 ^ 14 := by omega
  rw [this] at h
  cases hx : (Sys.at_ D e (n + 1)).timer.irq
  · rfl
  · rw [hx] at h; simp at h

theorem ticking_step {n : Nat} (hn : (n + 1) % 2 ^ 14 ≠ 0) (h : Ticking (Sys.at_ D e n)) :
    Ticking (Sys.at_ D e (n + 1)) ∨ (Sys.at_ D e (n + 1)).soft.count = (Sys.at_ D e n).soft.count + 1 := by
  have hk := irq_keep (D := D) (e := e) hn
  have hno := isr_none_step (D := D) (e := e) (n := n)
  have e1 : (Sys.at_ D e (n + 1)).timer = (Sys.at_ D e n).timer.step ((Sys.at_ D e n).timerSees (e n).csr) := rfl
  have e2 := soft_succ (D := D) (e := e) n
  unfold Ticking at *
  generalize Sys.at_ D e (n + 1) = s' at *
  generalize Sys.at_ D e n = s at *
  obtain ⟨⟨q, busy, box, cnt, main, isr⟩, ser, tm, ld⟩ := s
  obtain ⟨soft', ser', tm', ld'⟩ := s'
  simp only at *
  subst e2
  rcases isr with _ | i
  · left
    have ha : Soft.access ⟨q, busy, box, cnt, main, none⟩ ≠ some .timer := by
      simp only [Soft.access]
      cases main <;> simp [Main.access]
    have := hk h ha
    rcases hno rfl with g | g <;> rw [g] <;> exact this
  · cases i <;> (try (exfalso; exact h))
    case enter =>
      left
      have h1 := hk h (by simp [Soft.access, Isr.access])
      have : tm'.ack = false := by rw [e1]; simp [Sys.timerSees, Soft.access, Isr.access, timerReq, WbTimer.step]
      cases hact : (e n).act <;>
        simp [-BitVec.getLsbD_eq_getElem, Sys.softNext, Soft.access, Isr.access, hact, Soft.isrAct, this, h1]
    case rdTimer =>
      left
      cases htm : tm.ack
      · have h1 : tm'.ack = true ∧ tm'.datR.getLsbD 0 = tm.irq := by
          rw [e1]
          simp only [Sys.timerSees, Soft.access, Isr.access, timerReq, WbTimer.step, htm]
          cases tm.irq <;> simp
        rw [htm] at h
        simp [-BitVec.getLsbD_eq_getElem, Sys.softNext, Soft.access, Isr.access, Sys.reply, htm, h1]
        exact h
      · rw [htm] at h
        simp [-BitVec.getLsbD_eq_getElem, Sys.softNext, Soft.access, Isr.access, Sys.reply, htm, Soft.done, Isr.done]
        exact h
    case gotTimer v =>
      simp only at h
      cases hact : (e n).act with
      | none => left; simp [-BitVec.getLsbD_eq_getElem, Sys.softNext, Soft.access, Isr.access, hact, h]
      | some op => right; simp [-BitVec.getLsbD_eq_getElem, Sys.softNext, Soft.access, Isr.access, hact, Soft.isrAct, h]

theorem isr_stays {n : Nat} (hi : (Sys.at_ D e n).soft.isr = none) (hq : (Sys.at_ D e n).irq = false) : (Sys.at_ D e (n + 1)).soft.isr = none := by
  rw [soft_succ]
  generalize Sys.at_ D e n = s at *
  unfold Sys.softNext
  split
  · split
    · simp [Soft.done, hi]
    · exact hi
  · split
    · exact hi
    · rw [hi]
      simp only [hq, Bool.and_false, Bool.false_eq_true, if_false]
      rename_i op _
      unfold Soft.mainAct
      split <;> (try (simp only [Soft.opAct]; cases op)) <;> (try split) <;> (try split) <;> simp [hi]

/-- If the serial port does not interrupt, each tick is counted. -/
theorem tick_counted (hD : 0 < D) (hK : ∀ n, ∃ m ≥ n, m < n + K ∧ (e m).act.isSome = true) (h1 : 32 * K + 36 ≤ 9 * D) (h2 : 40 * K + 45 ≤ 2 ^ 14)
    {n : Nat} (hs : ∀ m ≥ n, (Sys.at_ D e m).ser.irq = false) (hen : ∀ m ≥ n, (Sys.at_ D e m).soft.main.enabled = true) :
    ∃ m ≥ n, (Sys.at_ D e (m + 1)).soft.count = (Sys.at_ D e m).soft.count + 1 := by
  obtain ⟨U, hj, hU⟩ : ∃ U, n ≤ U ∧ U % 2 ^ 14 = 0 := ⟨n * 2 ^ 14, by omega, by omega⟩
  obtain ⟨T, hT2⟩ : ∃ T, T = U + 2 ^ 14 := ⟨_, rfl⟩
  have hT' : T % 2 ^ 14 = 0 := by omega
  obtain ⟨m, m1, m2, m3, m4, m5, m6⟩ := main_acts hD hK h1 (by omega) U
  have q6 := m6.resolve_left (by rw [hen m (by omega)]; nofun)
  simp only [Sys.irq, Bool.or_eq_false_iff] at q6
  -- nothing happens until the next tick
  have idle : ∀ d, m + d < T → (Sys.at_ D e (m + d)).soft.isr = none ∧ (Sys.at_ D e (m + d)).timer.irq = false := by
    intro d
    induction d with
    | zero => intro _; exact ⟨m5, q6.1⟩
    | succ d ih =>
      intro hd
      obtain ⟨i1, i2⟩ := ih (by omega)
      exact ⟨isr_stays i1 (by simp [Sys.irq, i2, hs (m + d) (by omega)]), irq_low (n := m + d) (by omega) i2⟩
  obtain ⟨d, hd⟩ := Nat.exists_eq_add_of_le (show m ≤ T - 1 by omega)
  obtain ⟨i1, i2⟩ := idle d (by omega)
  rw [← hd] at i1 i2
  have t0 := irq_tick (D := D) (e := e) (n := T - 1) (by omega) i2
  rw [show T - 1 + 1 = T by omega] at t0
  have n0 : (Sys.at_ D e (T)).soft.isr = none ∨ (Sys.at_ D e (T)).soft.isr = some .enter := by
    have := isr_none_step (D := D) i1
    rwa [show T - 1 + 1 = T by omega] at this
  have k0 : Ticking (Sys.at_ D e (T)) := by
    unfold Ticking
    rcases n0 with h | h <;> rw [h] <;> exact t0
  obtain ⟨x, x1, x2, x3, x4, x5, x6⟩ := main_acts hD hK h1 (by omega) (T)
  have p6 := x6.resolve_left (by rw [hen x (by omega)]; nofun)
  simp only [Sys.irq, Bool.or_eq_false_iff] at p6
  by_contra hno
  have all : ∀ d, T + d ≤ x → Ticking (Sys.at_ D e (T + d)) := by
    intro d
    induction d with
    | zero => intro _; exact k0
    | succ d ih =>
      intro hd
      rcases ticking_step (D := D) (e := e) (n := T + d) (by omega) (ih (by omega)) with h | h
      · exact h
      · exact absurd ⟨_, by omega, h⟩ hno
  obtain ⟨d, rfl⟩ := Nat.exists_eq_add_of_le x1
  have := all d (by omega)
  unfold Ticking at this
  rw [x5] at this
  simp only at this
  rw [p6.1] at this
  cases this

/-! ## The serial port comes to rest -/

/-- With the receive line idle, nothing is received after a while. -/
theorem rx_rest {n : Nat} (hr : ∀ m ≥ n, (e m).rx = true) : ∃ k ≥ n, ∀ m ≥ k, rxEv (Sys.at_ D e m).ser = false := by
  have st : ∀ m, (Sys.at_ D e (m + 1)).ser.rx = UartRx.step D (Sys.at_ D e m).ser.rx (e m).rx (WbSerial.rxAck (serReq (Sys.at_ D e m).soft.access)) := fun _ => rfl
  -- the receiver becomes idle
  have idle : ∀ c p m, n ≤ m → (Sys.at_ D e m).ser.rx.count = c → (Sys.at_ D e m).ser.rx.phase = p → ∃ k ≥ n, (Sys.at_ D e k).ser.rx.count = 0 := by
    intro c
    induction c with
    | zero => intro p m hm hc _; exact ⟨m, hm, hc⟩
    | succ c ihc =>
      intro p
      induction p with
      | zero =>
        intro m hm hc hp
        have e1 := st m
        refine ihc _ (m + 1) (by omega) ?_ rfl
        rw [e1]; simp [UartRx.step, hc, hp]
      | succ p ihp =>
        intro m hm hc hp
        have e1 := st m
        refine ihp (m + 1) (by omega) ?_ ?_ <;> rw [e1] <;> simp [UartRx.step, hc, hp]
  obtain ⟨k, k1, k2⟩ := idle _ _ n (by omega) rfl rfl
  have step : ∀ m ≥ n, (Sys.at_ D e m).ser.rx.count = 0 → (Sys.at_ D e (m + 1)).ser.rx.count = 0 ∧
      ((Sys.at_ D e (m + 1)).ser.rx.rdy = true → (Sys.at_ D e (m + 1)).ser.rxPrev = true) := by
    intro m hm hc
    have e1 := st m
    rw [hr m hm] at e1
    have e2 : (Sys.at_ D e (m + 1)).ser.rxPrev = (Sys.at_ D e m).ser.rx.rdy := rfl
    rw [e1, e2]
    cases WbSerial.rxAck (serReq (Sys.at_ D e m).soft.access) <;> simp [UartRx.step, hc]
  have all : ∀ d, (Sys.at_ D e (k + d)).ser.rx.count = 0 := by
    intro d
    induction d with
    | zero => exact k2
    | succ d ih => exact (step (k + d) (by omega) ih).1
  refine ⟨k + 1, by omega, fun m hm => ?_⟩
  obtain ⟨d, rfl⟩ := Nat.exists_eq_add_of_le hm
  have := (step (k + d) (by omega) (all d)).2
  rw [show k + 1 + d = k + d + 1 by omega]
  unfold rxEv
  cases h : (Sys.at_ D e (k + d + 1)).ser.rx.rdy
  · rfl
  · rw [this h]; rfl

/-- With nothing written, the transmitter does not become ready any more after a while. -/
theorem tx_rest {n : Nat} (h0 : ∀ m ≥ n, (Sys.at_ D e m).started = []) : ∃ k ≥ n, ∀ m ≥ k, txEv (Sys.at_ D e m).ser = false := by
  obtain ⟨k, k1, k2⟩ := tx_idle h0
  have step : ∀ m ≥ n, (Sys.at_ D e m).ser.tx.count = 0 → (Sys.at_ D e (m + 1)).ser.tx.count = 0 ∧ (Sys.at_ D e (m + 1)).ser.txPrev = true := by
    intro m hm hc
    exact ready_step (D := D) hc (txRdy_of_started (h0 m hm))
  have all : ∀ d, (Sys.at_ D e (k + d)).ser.tx.count = 0 := by
    intro d
    induction d with
    | zero => exact k2
    | succ d ih => exact (step (k + d) (by omega) ih).1
  refine ⟨k + 1, by omega, fun m hm => ?_⟩
  obtain ⟨d, rfl⟩ := Nat.exists_eq_add_of_le hm
  have := (step (k + d) (by omega) (all d)).2
  rw [show k + 1 + d = k + d + 1 by omega]
  unfold txEv
  rw [this]
  simp

/-- After that it does not interrupt. -/
theorem ser_rest (hD : 0 < D) (hK : ∀ n, ∃ m ≥ n, m < n + K ∧ (e m).act.isSome = true) (h1 : 32 * K + 36 ≤ 9 * D) (h2 : 32 * K + 36 ≤ 2 ^ 14)
    {n : Nat} (hr : ∀ m ≥ n, (e m).rx = true) (h0 : ∀ m ≥ n, (Sys.at_ D e m).started = [])
    (hen : ∀ m ≥ n, (Sys.at_ D e m).soft.main.enabled = true) : ∃ k ≥ n, ∀ m ≥ k, (Sys.at_ D e m).ser.irq = false := by
  obtain ⟨a, a1, a2⟩ := rx_rest (D := D) hr
  obtain ⟨b, b1, b2⟩ := tx_rest h0
  obtain ⟨m, m1, m2, m3, m4, m5, m6⟩ := main_acts hD hK h1 h2 (max a b)
  have q6 := m6.resolve_left (by rw [hen m (by omega)]; nofun)
  simp only [Sys.irq, Bool.or_eq_false_iff] at q6
  refine ⟨m, by omega, fun k hk => ?_⟩
  obtain ⟨d, rfl⟩ := Nat.exists_eq_add_of_le hk
  clear hk
  induction d with
  | zero => exact q6.2
  | succ d ih =>
    have hf := flags_step (D := D) (s := (Sys.at_ D e (m + d)).ser) (r := serReq (Sys.at_ D e (m + d)).soft.access) (x := (e (m + d)).rx)
    rw [a2 (m + d) (by omega), b2 (m + d) (by omega)] at hf
    simp only [WbSerial.irq, Bool.or_eq_false_iff] at ih ⊢
    rw [ih.1, ih.2] at hf
    have e3 : (Sys.at_ D e (m + d + 1)).ser = (Sys.at_ D e (m + d)).ser.step D (serReq (Sys.at_ D e (m + d)).soft.access) (e (m + d)).rx := rfl
    rw [← e3] at hf
    rw [← Nat.add_assoc]
    revert hf
    cases (Sys.at_ D e (m + d + 1)).ser.rxIrq <;> cases (Sys.at_ D e (m + d + 1)).ser.txIrq <;> simp

end Sentinel.Fw
