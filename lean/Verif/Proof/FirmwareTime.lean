import Verif.Proof.FirmwareLive
import Verif.Props.Firmware
import Verif.Props.Timer
/-!
# How long the firmware takes
-/

set_option linter.unusedSimpArgs false

namespace Sentinel.Fw

variable {D K : Nat} {e : Nat → Env}

/-! ## The counter -/

/-- Requests that the timer sees. -/
def timerReqs (D : Nat) (e : Nat → Env) (n : Nat) : WbReq := (Sys.at_ D e n).timerSees (e n).csr

theorem timer_run (n : Nat) : (Sys.at_ D e n).timer = WbTimer.run {} (timerReqs D e) n := by
  induction n with
  | zero => rfl
  | succ n ih =>
    show WbTimer.step (Sys.at_ D e n).timer _ = WbTimer.step (WbTimer.run {} (timerReqs D e) n) _
    rw [ih]; rfl

/-- The handler has read from the timer that it has ticked, and has not counted that yet. -/
def isrTick (s : Sys) : Bool :=
  match s.soft.isr with
  | some .rdTimer => s.timer.ack && s.timer.datR.getLsbD 0
  | some (.gotTimer v) => v.getLsbD 0
  | _ => false

/-- Ticks that are not counted yet. -/
def tickTok (s : Sys) : Nat := s.timer.irq.toNat + (isrTick s).toNat

theorem irq_next (n : Nat) : (Sys.at_ D e (n + 1)).timer.irq.toNat +
      ((Sys.at_ D e n).timer.irq && (timerReqs D e n).stb).toNat ≤
    (Sys.at_ D e n).timer.irq.toNat + ((n + 1) / 2 ^ 14 - n / 2 ^ 14) := by
  have h := WbTimer.step_toNat (Sys.at_ D e n).timer (timerReqs D e n)
  have hl := WbTimer.low_run {} (timerReqs D e) n
  rw [← timer_run] at hl
  have hi := WbTimer.irq_iff (Sys.at_ D e n).timer
  have hi' := WbTimer.irq_iff (Sys.at_ D e (n + 1)).timer
  have e1 : (Sys.at_ D e (n + 1)).timer = (Sys.at_ D e n).timer.step (timerReqs D e n) := rfl
  rw [← e1] at h
  have hp := (Sys.at_ D e n).timer.prescalar.isLt
  have hr : ((timerReqs D e n).stb = true ∧ (timerReqs D e n).cyc = true ∧ (timerReqs D e n).we = false ∧ (timerReqs D e n).sel = true) ↔
      (timerReqs D e n).stb = true := by
    unfold timerReqs Sys.timerSees
    split
    · simp
    · generalize (Sys.at_ D e n).soft.access = a
      rcases a with _ | (_ | _ | _ | _ | _ | _) <;> simp [timerReq]
  have z : (({} : WbTimer).prescalar).toNat = 0 := rfl
  rw [z, timerPeriod] at hl
  generalize (Sys.at_ D e n).timer.prescalar.toNat = p at *
  generalize (Sys.at_ D e (n + 1)).timer.prescalar.toNat = p' at *
  generalize (Sys.at_ D e n).timer.irq = i at *
  generalize (Sys.at_ D e (n + 1)).timer.irq = i' at *
  have hc : ((timerReqs D e n).stb = true ∧ (timerReqs D e n).cyc = true ∧ (timerReqs D e n).we = false ∧ (timerReqs D e n).sel = true ∧ 2 ^ 14 ≤ p) ↔
      (timerReqs D e n).stb = true ∧ 2 ^ 14 ≤ p := by tauto
  simp only [hc] at h
  clear hc hr
  generalize (timerReqs D e n).stb = rd at *
  cases i <;> cases i' <;> cases rd <;> simp at hi hi' h ⊢ <;> (try split at h) <;> omega

/-- A step of the counter. -/
theorem count_step (n : Nat) : (Sys.at_ D e (n + 1)).soft.count.toNat + tickTok (Sys.at_ D e (n + 1)) ≤
    (Sys.at_ D e n).soft.count.toNat + tickTok (Sys.at_ D e n) + ((n + 1) / 2 ^ 14 - n / 2 ^ 14) := by
  have hi := irq_next (D := D) (e := e) n
  rw [timerReqs] at hi
  have e1 : (Sys.at_ D e (n + 1)).timer = (Sys.at_ D e n).timer.step ((Sys.at_ D e n).timerSees (e n).csr) := rfl
  have e2 := soft_succ (D := D) (e := e) n
  generalize (n + 1) / 2 ^ 14 - n / 2 ^ 14 = t at hi ⊢
  unfold tickTok
  generalize Sys.at_ D e (n + 1) = s' at *
  generalize Sys.at_ D e n = s at *
  obtain ⟨⟨q, busy, box, cnt, main, isr⟩, ser, tm, ld⟩ := s
  obtain ⟨soft', ser', tm', ld'⟩ := s'
  simp only at *
  subst e2
  have hcnt : (cnt + 1#8).toNat ≤ cnt.toNat + 1 := by rw [BitVec.toNat_add]; exact Nat.mod_le _ _
  rcases isr with _ | i
  · have hc : ∀ f : Soft, f = Sys.softNext ⟨⟨q, busy, box, cnt, main, none⟩, ser, tm, ld⟩ (e n).act →
        (f.isr = none ∨ f.isr = some .enter) ∧ f.count.toNat ≤ cnt.toNat := by
      rintro f rfl
      unfold Sys.softNext
      split
      · split
        · simp [Soft.done]
        · simp
      · split
        · simp
        · simp only
          split
          · simp
          · rename_i op _ _
            unfold Soft.mainAct
            split <;> (try (simp only [Soft.opAct]; cases op)) <;> (try split) <;> (try split) <;> simp
    obtain ⟨h1, h2⟩ := hc _ rfl
    have h3 : isrTick ⟨Sys.softNext ⟨⟨q, busy, box, cnt, main, none⟩, ser, tm, ld⟩ (e n).act, ser', tm', ld'⟩ = false := by
      unfold isrTick
      rcases h1 with h1 | h1 <;> simp [h1]
    rw [h3]
    simp [isrTick] at hi ⊢
    omega
  · cases i
    case rdTimer =>
      cases htm : tm.ack
      · have h1 : tm'.ack = true ∧ tm'.datR.getLsbD 0 = tm.irq := by
          rw [e1]
          simp only [Sys.timerSees, Soft.access, Isr.access, timerReq, WbTimer.step, htm]
          cases tm.irq <;> simp
        simp [Sys.timerSees, Soft.access, Isr.access, timerReq, htm] at hi
        simp [-BitVec.getLsbD_eq_getElem, Sys.softNext, Soft.access, Isr.access, Sys.reply, htm, isrTick, h1]
        omega
      · simp [-BitVec.getLsbD_eq_getElem, Sys.softNext, Soft.access, Isr.access, Sys.reply, htm, isrTick, Soft.done, Isr.done]
        omega
    case gotTimer v =>
      cases hact : (e n).act <;>
        simp [-BitVec.getLsbD_eq_getElem, Sys.softNext, Soft.access, Isr.access, hact, isrTick, Soft.isrAct] at hi ⊢
      · omega
      · cases v.getLsbD 0 <;> simp [-BitVec.toNat_add] <;> omega
    case enter =>
      have : tm'.ack = false := by rw [e1]; simp [Sys.timerSees, Soft.access, Isr.access, timerReq, WbTimer.step]
      cases hact : (e n).act <;>
        simp [-BitVec.getLsbD_eq_getElem, Sys.softNext, Soft.access, Isr.access, hact, isrTick, Soft.isrAct, this] at hi ⊢ <;> omega
    case rdInt =>
      cases hak : ser.ack <;>
        simp [-BitVec.getLsbD_eq_getElem, Sys.softNext, Soft.access, Isr.access, Sys.reply, isrTick, Soft.done, Isr.done, hak] at hi ⊢ <;> omega
    case rdRx v =>
      cases hak : ser.ack <;>
        simp [-BitVec.getLsbD_eq_getElem, Sys.softNext, Soft.access, Isr.access, Sys.reply, isrTick, Soft.done, Isr.done, hak] at hi ⊢ <;> omega
    case send b =>
      cases hak : ser.ack <;>
        simp [-BitVec.getLsbD_eq_getElem, Sys.softNext, Soft.access, Isr.access, Sys.reply, isrTick, Soft.done, Isr.done, hak] at hi ⊢ <;> omega
    case gotInt v =>
      cases hact : (e n).act <;> cases hv : v.getLsbD 0 <;>
        simp [-BitVec.getLsbD_eq_getElem, Sys.softNext, Soft.access, Isr.access, hact, isrTick, Soft.isrAct, hv] at hi ⊢ <;> omega
    case gotRx v d =>
      cases hact : (e n).act <;>
        simp [-BitVec.getLsbD_eq_getElem, Sys.softNext, Soft.access, Isr.access, hact, isrTick, Soft.isrAct] at hi ⊢ <;> omega
    case tx v =>
      cases hact : (e n).act <;> cases hv : v.getLsbD 1 <;>
        simp [-BitVec.getLsbD_eq_getElem, Sys.softNext, Soft.access, Isr.access, hact, isrTick, Soft.isrAct, hv] at hi ⊢ <;> omega
    case deq m =>
      cases hact : (e n).act <;> cases busy <;> cases m <;>
        simp [-BitVec.getLsbD_eq_getElem, Sys.softNext, Soft.access, Isr.access, hact, isrTick, Soft.isrAct] at hi ⊢ <;> omega
    case leave =>
      cases hact : (e n).act <;>
        simp [-BitVec.getLsbD_eq_getElem, Sys.softNext, Soft.access, Isr.access, hact, isrTick, Soft.isrAct] at hi ⊢ <;> omega

theorem count_at (m k : Nat) : (Sys.at_ D e (m + k)).soft.count.toNat + tickTok (Sys.at_ D e (m + k)) ≤
    (Sys.at_ D e m).soft.count.toNat + tickTok (Sys.at_ D e m) + ((m + k) / 2 ^ 14 - m / 2 ^ 14) := by
  induction k with
  | zero => simp
  | succ k ih =>
    have := count_step (D := D) (e := e) (m + k)
    have h1 : m / 2 ^ 14 ≤ (m + k) / 2 ^ 14 := Nat.div_le_div_right (by omega)
    have h2 : (m + k) / 2 ^ 14 ≤ (m + k + 1) / 2 ^ 14 := Nat.div_le_div_right (by omega)
    rw [← Nat.add_assoc]
    omega

/-! ## Bounds -/

/-- A bus access is over after at most two cycles. -/
theorem access_done_le {n : Nat} {a : Access} (h : (Sys.at_ D e n).soft.access = some a) :
    ∃ m d, n < m ∧ m ≤ n + 2 ∧ (Sys.at_ D e m).soft = (Sys.at_ D e n).soft.done d := by
  have one : ∀ k, (Sys.at_ D e k).soft.access = some a → ((Sys.at_ D e k).reply a).1 = true →
      (Sys.at_ D e (k + 1)).soft = (Sys.at_ D e k).soft.done ((Sys.at_ D e k).reply a).2 := by
    intro k h1 h2
    rw [soft_succ]
    unfold Sys.softNext
    rw [h1]
    simp only [h2, if_true]
  cases hr : ((Sys.at_ D e n).reply a).1
  · have h1 : (Sys.at_ D e (n + 1)).soft = (Sys.at_ D e n).soft := by
      rw [soft_succ]
      unfold Sys.softNext
      rw [h]
      simp only [hr]
      rfl
    have h2 : ((Sys.at_ D e (n + 1)).reply a).1 = true := by
      show ((Sys.step D (Sys.at_ D e n) (e n)).reply a).1 = true
      generalize Sys.at_ D e n = s at h hr
      cases a <;> simp [Sys.step, Sys.reply, h, WbTimer.step, WbSerial.step, WbLeds.step, timerReq, serReq, ledsReq] at hr ⊢ <;>
        simp [Sys.timerSees, h, hr, timerReq]
    exact ⟨n + 2, _, by omega, by omega, by rw [one (n + 1) (by rw [h1]; exact h) h2, h1]⟩
  · exact ⟨n + 1, _, by omega, by omega, one n h hr⟩

/-- Without a bus access, the next action is at most `K` cycles away. -/
theorem wait_act_le (hK : ∀ n, ∃ m ≥ n, m < n + K ∧ (e m).act.isSome = true) {n : Nat} (h : (Sys.at_ D e n).soft.access = none) :
    ∃ m op, n ≤ m ∧ m < n + K ∧ (e m).act = some op ∧ (Sys.at_ D e m).soft = (Sys.at_ D e n).soft := by
  obtain ⟨m, hm, hlt, hs⟩ := hK n
  obtain ⟨d, rfl⟩ := Nat.exists_eq_add_of_le hm
  have hd : d < K := by omega
  clear hm hK hlt
  induction d generalizing n K with
  | zero =>
    obtain ⟨op, hop⟩ := Option.isSome_iff_exists.1 hs
    exact ⟨n, op, by omega, by omega, hop, rfl⟩
  | succ d ih =>
    cases hn : (e n).act with
    | some op => exact ⟨n, op, by omega, by omega, hn, rfl⟩
    | none =>
      have h1 : (Sys.at_ D e (n + 1)).soft = (Sys.at_ D e n).soft := by
        rw [soft_succ]
        unfold Sys.softNext
        rw [h, hn]
      obtain ⟨m, op, g1, g4, g2, g3⟩ := ih (n := n + 1) (K := K - 1) (by rw [h1]; exact h) (by rw [show n + 1 + d = n + (d + 1) by omega]; exact hs) (by omega)
      exact ⟨m, op, by omega, by omega, g2, by rw [g3, h1]⟩

/-- Cycles until the end of the handler. -/
def Isr.lim (K : Nat) : Isr → Nat
  | .enter => 7 * K + 8 | .rdTimer => 6 * K + 8 | .gotTimer _ => 6 * K + 6 | .rdInt => 5 * K + 6 | .gotInt _ => 5 * K + 4
  | .rdRx _ => 4 * K + 4 | .gotRx _ _ => 4 * K + 2 | .tx _ => 3 * K + 2 | .deq _ => 2 * K + 2 | .send _ => K + 2 | .leave => K

theorem isr_leaves_le (hK : ∀ n, ∃ m ≥ n, m < n + K ∧ (e m).act.isSome = true) (n : Nat) :
    ∃ m ≥ n, m ≤ n + (7 * K + 8) ∧ (Sys.at_ D e m).soft.isr = none ∧ (Sys.at_ D e m).soft.main = (Sys.at_ D e n).soft.main := by
  have lim_le : ∀ i : Isr, i.lim K ≤ 7 * K + 8 := by intro i; cases i <;> simp only [Isr.lim] <;> omega
  have key : ∀ r i n, i.rank = r → (Sys.at_ D e n).soft.isr = some i →
      ∃ m ≥ n, m ≤ n + i.lim K ∧ (Sys.at_ D e m).soft.isr = none ∧ (Sys.at_ D e m).soft.main = (Sys.at_ D e n).soft.main := by
    intro r
    induction r using Nat.strongRecOn with
    | ind r ih =>
      intro i n hr hi
      have nx : ∃ m ≥ n, (Sys.at_ D e m).soft.main = (Sys.at_ D e n).soft.main ∧
          (((Sys.at_ D e m).soft.isr = none ∧ m ≤ n + i.lim K) ∨
            ∃ j, (Sys.at_ D e m).soft.isr = some j ∧ j.rank < i.rank ∧ m + j.lim K ≤ n + i.lim K) := by
        cases hacc : (Sys.at_ D e n).soft.access with
        | some a =>
          obtain ⟨m, d, h1, h1', h2⟩ := access_done_le hacc
          refine ⟨m, by omega, ?_⟩
          rw [h2]
          simp only [Soft.access, hi] at hacc
          simp only [Soft.done, hi]
          refine ⟨trivial, .inr ⟨_, rfl, ?_⟩⟩
          cases i <;> simp [Isr.access] at hacc <;> simp only [Isr.done, Isr.rank, Isr.lim] <;> omega
        | none =>
          obtain ⟨m, op, h1, h1', h2, h3⟩ := wait_act_le hK hacc
          have h4 : (Sys.at_ D e (m + 1)).soft = (Sys.at_ D e n).soft.isrAct i := by
            rw [soft_succ]
            unfold Sys.softNext
            rw [h3, hacc, h2, hi]
          refine ⟨m + 1, by omega, ?_⟩
          rw [h4]
          simp only [Soft.access, hi] at hacc
          generalize (Sys.at_ D e n).soft = f
          cases i <;> simp [Isr.access] at hacc <;> simp [Soft.isrAct, Isr.rank, Isr.lim] <;> (try split) <;> (try split) <;>
            (try simp [Isr.rank, Isr.lim]) <;> omega
      obtain ⟨m, h1, h2, ⟨h3, h4⟩ | ⟨j, h3, h4, h5⟩⟩ := nx
      · exact ⟨m, h1, h4, h3, h2⟩
      · obtain ⟨m', g1, g2, g3, g4⟩ := ih j.rank (by omega) j m rfl h3
        exact ⟨m', by omega, by omega, g3, by rw [g4, h2]⟩
  cases hi : (Sys.at_ D e n).soft.isr with
  | none => exact ⟨n, by omega, by omega, hi, rfl⟩
  | some i =>
    obtain ⟨m, h1, h2, h3⟩ := key _ i n rfl hi
    exact ⟨m, h1, by have := lim_le i; omega, h3⟩

/-! ## The transmitter -/

theorem tx_bound (hD : 0 < D) (n : Nat) : (Sys.at_ D e n).ser.tx.phase < D ∧ (Sys.at_ D e n).ser.tx.count ≤ 10 := by
  refine ⟨?_, (ones_at n).2.1⟩
  induction n with
  | zero => exact hD
  | succ n ih =>
    have e1 : (Sys.at_ D e (n + 1)).ser.tx = (Sys.at_ D e n).ser.tx.step D ((Sys.at_ D e n).ser.txRdy (serReq (Sys.at_ D e n).soft.access)) _ := rfl
    rw [e1]
    unfold UartTx.step
    split
    · split
      · show D - 1 < D
        omega
      · exact ih
    · split
      · show _ - 1 < D
        omega
      · show D - 1 < D
        omega

/-- Without a write, the transmitter is idle after a frame. -/
theorem tx_idle_le (hD : 0 < D) {n : Nat} (h0 : ∀ m, n ≤ m → m < n + 10 * D → (Sys.at_ D e m).started = []) :
    ∃ m ≥ n, m ≤ n + 10 * D ∧ (Sys.at_ D e m).ser.tx.count = 0 := by
  have key : ∀ c p m, n ≤ m → m + ((c - 1) * D + p + 1) ≤ n + 10 * D → (Sys.at_ D e m).ser.tx.count = c → (Sys.at_ D e m).ser.tx.phase = p →
      ∃ m ≥ n, m ≤ n + 10 * D ∧ (Sys.at_ D e m).ser.tx.count = 0 := by
    intro c
    induction c with
    | zero => intro p m hm hb hc _; exact ⟨m, hm, by omega, hc⟩
    | succ c ihc =>
      intro p
      induction p with
      | zero =>
        intro m hm hb hc hp
        have e1 : (Sys.at_ D e (m + 1)).ser.tx = (Sys.at_ D e m).ser.tx.step D ((Sys.at_ D e m).ser.txRdy (serReq (Sys.at_ D e m).soft.access)) _ := rfl
        rw [txRdy_of_started (h0 m hm (by omega))] at e1
        rcases c with _ | c
        · exact ⟨m + 1, by omega, by omega, by rw [e1]; simp [UartTx.step, hc, hp]⟩
        · refine ihc (D - 1) (m + 1) (by omega) ?_ ?_ ?_
          · simp only [Nat.add_sub_cancel, Nat.add_mul] at hb ⊢
            omega
          · rw [e1]; simp [UartTx.step, hc, hp]
          · rw [e1]; simp [UartTx.step, hc, hp]
      | succ p ihp =>
        intro m hm hb hc hp
        have e1 : (Sys.at_ D e (m + 1)).ser.tx = (Sys.at_ D e m).ser.tx.step D ((Sys.at_ D e m).ser.txRdy (serReq (Sys.at_ D e m).soft.access)) _ := rfl
        rw [txRdy_of_started (h0 m hm (by omega))] at e1
        refine ihp (m + 1) (by omega) (by omega) ?_ ?_ <;> rw [e1] <;> simp [UartTx.step, hc, hp]
  obtain ⟨h1, h2⟩ := tx_bound (e := e) hD n
  by_cases hc : (Sys.at_ D e n).ser.tx.count = 0
  · exact ⟨n, by omega, by omega, hc⟩
  · refine key _ _ n (by omega) ?_ rfl rfl
    have : ((Sys.at_ D e n).ser.tx.count - 1) * D ≤ 9 * D := Nat.mul_le_mul_right _ (by omega)
    omega

/-- With an action every `K` cycles, and interrupts enabled, a byte that is held is written to the serial
port after at most `10 * D + 15 * K + 19` cycles. -/
theorem held_starts_le (hD : 0 < D) (hK : ∀ n, ∃ m ≥ n, m < n + K ∧ (e m).act.isSome = true) {n : Nat}
    (hen : ∀ m, n ≤ m → m < n + (10 * D + 15 * K + 19) → (Sys.at_ D e m).soft.main.enabled = true)
    (h : (Sys.at_ D e n).soft.hand ++ (Sys.at_ D e n).soft.queue ≠ []) :
    ∃ m ≥ n, m < n + (10 * D + 15 * K + 19) ∧ (Sys.at_ D e m).started ≠ [] := by
  by_contra hno
  have h0 : ∀ m, n ≤ m → m < n + (10 * D + 15 * K + 19) → (Sys.at_ D e m).started = [] := fun m hm hm' => by
    by_contra hx; exact hno ⟨m, hm, hm', hx⟩
  clear hno
  have held : ∀ m, n ≤ m → m ≤ n + (10 * D + 15 * K + 19) → (Sys.at_ D e m).soft.hand ++ (Sys.at_ D e m).soft.queue ≠ [] := by
    intro m hm hm'
    obtain ⟨d, rfl⟩ := Nat.exists_eq_add_of_le hm
    clear hm
    induction d with
    | zero => exact h
    | succ d ih => exact held_step (inv_at e _) (h0 _ (by omega) (by omega)) (ih (by omega)) _
  obtain ⟨m1, hm1, hm1', hc1⟩ := tx_idle_le (e := e) hD (n := n) (fun m g1 g2 => h0 m g1 (by omega))
  have idle : ∀ d, m1 + 1 + d ≤ n + (10 * D + 15 * K + 19) →
      (Sys.at_ D e (m1 + 1 + d)).ser.tx.count = 0 ∧ (Sys.at_ D e (m1 + 1 + d)).ser.txPrev = true := by
    have one : ∀ m, n ≤ m → m < n + (10 * D + 15 * K + 19) → (Sys.at_ D e m).ser.tx.count = 0 →
        (Sys.at_ D e (m + 1)).ser.tx.count = 0 ∧ (Sys.at_ D e (m + 1)).ser.txPrev = true := by
      intro m hm hm' hc
      exact ready_step (D := D) hc (txRdy_of_started (h0 m hm hm'))
    intro d
    induction d with
    | zero => intro _; exact one m1 hm1 (by omega) hc1
    | succ d ih => intro hd; exact one (m1 + 1 + d) (by omega) (by omega) (ih (by omega)).1
  have pend : ∀ m, m1 + 1 ≤ m → m ≤ n + (10 * D + 15 * K + 19) → (Sys.at_ D e m).soft.isr = none ∨ (Sys.at_ D e m).soft.isr = some .enter →
      (Sys.at_ D e m).ser.txIrq = true := by
    intro m hm hm' hi
    have hb := held_busy (inv_at e m) (held m (by omega) hm')
    have ht := (inv_at (D := D) e m).tok
    obtain ⟨d, rfl⟩ := Nat.exists_eq_add_of_le hm
    obtain ⟨h1, h2⟩ := idle d hm'
    unfold TokOk at ht
    rw [if_pos hb] at ht
    rcases hi with hi | hi <;> rw [hi] at ht <;> simpa [tok, isrTok, hi, hwTok, h1, h2] using ht
  obtain ⟨m3, hm3, hm3', no3, -⟩ := isr_leaves_le (D := D) hK (m1 + 1)
  have en3 : (Sys.at_ D e m3).soft.main.enabled = true := hen m3 (by omega) (by omega)
  obtain ⟨m4, hm4, hm4', no4, ac4⟩ : ∃ m ≥ m3, m ≤ m3 + 2 ∧ (Sys.at_ D e m).soft.isr = none ∧
      (Sys.at_ D e m).soft.access = none := by
    cases hac : (Sys.at_ D e m3).soft.access with
    | none => exact ⟨m3, by omega, by omega, no3, hac⟩
    | some a =>
      obtain ⟨m, d, h1, h1', h2⟩ := access_done_le hac
      refine ⟨m, by omega, by omega, ?_⟩
      rw [h2]
      have := done_enabled no3 en3 hac d
      exact ⟨this.1, this.2.2⟩
  obtain ⟨m5, op, hm5, hm5', ac5, eq5⟩ := wait_act_le hK ac4
  have q5 := pend m5 (by omega) (by omega) (.inl (by rw [eq5]; exact no4))
  have en5 := hen m5 (by omega) (by omega)
  have eq6 : (Sys.at_ D e (m5 + 1)).soft = { (Sys.at_ D e m5).soft with isr := some .enter } := by
    rw [soft_succ]
    unfold Sys.softNext
    rw [eq5] at en5 ⊢
    rw [ac4, ac5, no4]
    simp only [en5, Sys.irq, WbSerial.irq]
    rw [q5]
    simp
  have s6 : Sending (Sys.at_ D e (m5 + 1)) := by
    have i6 : (Sys.at_ D e (m5 + 1)).soft.isr = some .enter := by rw [eq6]
    refine ⟨held_busy (inv_at e _) (held _ (by omega) (by omega)), ?_⟩
    rw [i6]
    refine ⟨pend _ (by omega) (by omega) (.inr i6), ?_⟩
    have := held (m5 + 1) (by omega) (by omega)
    simpa [Soft.hand, i6, Isr.hand] using this
  obtain ⟨m8, hm8, hm8', no8, -⟩ := isr_leaves_le (D := D) hK (m5 + 1)
  have s7 : ∀ d, m5 + 1 + d ≤ m8 → Sending (Sys.at_ D e (m5 + 1 + d)) := by
    intro d
    induction d with
    | zero => intro _; exact s6
    | succ d ih => intro hd; exact sending_step (inv_at e _) (ih (by omega)) (h0 (m5 + 1 + d) (by omega) (by omega)) _
  obtain ⟨d, rfl⟩ := Nat.exists_eq_add_of_le hm8
  have := (s7 d (by omega)).2
  rw [no8] at this
  exact this

end Sentinel.Fw
