import Verif.Proof.FirmwareTx
/-!
# The transmit path of the firmware makes progress
-/

set_option linter.unusedSimpArgs false

namespace Sentinel.Fw

variable {D : Nat} {e : Nat → Env}

theorem soft_succ (n : Nat) : (Sys.at_ D e (n + 1)).soft = (Sys.at_ D e n).softNext (e n).act := rfl

/-- A bus access is over after at most two cycles. -/
theorem access_done {n : Nat} {a : Access} (h : (Sys.at_ D e n).soft.access = some a) :
    ∃ m d, n < m ∧ (Sys.at_ D e m).soft = (Sys.at_ D e n).soft.done d := by
  have one : ∀ k, (Sys.at_ D e k).soft.access = some a → ((Sys.at_ D e k).reply a).1 = true →
      (Sys.at_ D e (k + 1)).soft = (Sys.at_ D e k).soft.done ((Sys.at_ D e k).reply a).2 := by
    intro k h1 h2
    rw [soft_succ]
    unfold Sys.softNext
    rw [h1]
    simp only [h2, if_true]
  cases hr : ((Sys.at_ D e n).reply a).1
  · have h1 : (Sys.at_ D e (n + 1)).soft = (Sys.at_ D e n).soft := by
      rw [soft_succ]
      unfold Sys.softNext
      rw [h]
      simp only [hr]
      rfl
    have h2 : ((Sys.at_ D e (n + 1)).reply a).1 = true := by
      show ((Sys.step D (Sys.at_ D e n) (e n)).reply a).1 = true
      generalize Sys.at_ D e n = s at h hr
      cases a <;> simp [Sys.step, Sys.reply, h, WbTimer.step, WbSerial.step, WbLeds.step, timerReq, serReq, ledsReq] at hr ⊢ <;>
        simp [Sys.timerSees, h, hr, timerReq]
    exact ⟨n + 2, _, by omega, by rw [one (n + 1) (by rw [h1]; exact h) h2, h1]⟩
  · exact ⟨n + 1, _, by omega, one n h hr⟩

/-- Without a bus access, nothing happens in the firmware before the next action. -/
theorem wait_act (ha : ∀ n, ∃ m ≥ n, (e m).act.isSome = true) {n : Nat} (h : (Sys.at_ D e n).soft.access = none) :
    ∃ m op, n ≤ m ∧ (e m).act = some op ∧ (Sys.at_ D e m).soft = (Sys.at_ D e n).soft := by
  obtain ⟨m, hm, hs⟩ := ha n
  obtain ⟨d, rfl⟩ := Nat.exists_eq_add_of_le hm
  clear hm
  induction d generalizing n with
  | zero =>
    obtain ⟨op, hop⟩ := Option.isSome_iff_exists.1 hs
    exact ⟨n, op, by omega, hop, rfl⟩
  | succ d ih =>
    cases hn : (e n).act with
    | some op => exact ⟨n, op, by omega, hn, rfl⟩
    | none =>
      have h1 : (Sys.at_ D e (n + 1)).soft = (Sys.at_ D e n).soft := by
        rw [soft_succ]
        unfold Sys.softNext
        rw [h, hn]
      obtain ⟨m, op, g1, g2, g3⟩ := ih (n := n + 1) (by rw [h1]; exact h) (by rw [show n + 1 + d = n + (d + 1) by omega]; exact hs)
      exact ⟨m, op, by omega, g2, by rw [g3, h1]⟩

/-- How far the handler is from its end. -/
def Isr.rank : Isr → Nat
  | .enter => 10 | .rdTimer => 9 | .gotTimer _ => 8 | .rdInt => 7 | .gotInt _ => 6 | .rdRx _ => 5
  | .gotRx _ _ => 4 | .tx _ => 3 | .deq _ => 2 | .send _ => 1 | .leave => 0

theorem isr_next (ha : ∀ n, ∃ m ≥ n, (e m).act.isSome = true) {n : Nat} {i : Isr}
    (h : (Sys.at_ D e n).soft.isr = some i) :
    ∃ m, n < m ∧ (Sys.at_ D e m).soft.main = (Sys.at_ D e n).soft.main ∧
      ((Sys.at_ D e m).soft.isr = none ∨ ∃ j, (Sys.at_ D e m).soft.isr = some j ∧ j.rank < i.rank) := by
  cases hacc : (Sys.at_ D e n).soft.access with
  | some a =>
    obtain ⟨m, d, h1, h2⟩ := access_done hacc
    refine ⟨m, h1, ?_⟩
    rw [h2]
    simp only [Soft.access, h] at hacc
    simp only [Soft.done, h]
    refine ⟨trivial, .inr ⟨_, rfl, ?_⟩⟩
    cases i <;> simp [Isr.access] at hacc <;> simp [Isr.done, Isr.rank]
  | none =>
    obtain ⟨m, op, h1, h2, h3⟩ := wait_act ha hacc
    have h4 : (Sys.at_ D e (m + 1)).soft = (Sys.at_ D e n).soft.isrAct i := by
      rw [soft_succ]
      unfold Sys.softNext
      rw [h3, hacc, h2, h]
    refine ⟨m + 1, by omega, ?_⟩
    rw [h4]
    simp only [Soft.access, h] at hacc
    generalize (Sys.at_ D e n).soft = f
    cases i <;> simp [Isr.access] at hacc <;> simp [Soft.isrAct, Isr.rank] <;> (try split) <;> (try split) <;> simp [Isr.rank]

/-- The handler always comes to its end. -/
theorem isr_leaves (ha : ∀ n, ∃ m ≥ n, (e m).act.isSome = true) (n : Nat) :
    ∃ m ≥ n, (Sys.at_ D e m).soft.isr = none ∧ (Sys.at_ D e m).soft.main = (Sys.at_ D e n).soft.main := by
  cases hi : (Sys.at_ D e n).soft.isr with
  | none => exact ⟨n, by omega, hi, rfl⟩
  | some i =>
    induction hr : i.rank using Nat.strongRecOn generalizing n i with
    | ind r ih =>
      obtain ⟨m, h1, h2, h3⟩ := isr_next ha hi
      rcases h3 with h3 | ⟨j, h3, h4⟩
      · exact ⟨m, by omega, h3, h2⟩
      · obtain ⟨k, g1, g2, g3⟩ := ih j.rank (by omega) m j h3 rfl
        exact ⟨k, by omega, g2, by rw [g3, h2]⟩

/-- The handler is on its way to send a byte. -/
def Sending (s : Sys) : Prop :=
  s.soft.busy = true ∧
  match s.soft.isr with
  | some .enter | some .rdTimer | some (.gotTimer _) => s.ser.txIrq = true ∧ s.soft.queue ≠ []
  | some .rdInt => (if s.ser.ack then s.ser.datR.getLsbD 1 = true else s.ser.txIrq = true) ∧ s.soft.queue ≠ []
  | some (.gotInt v) | some (.rdRx v) | some (.gotRx v _) | some (.tx v) => v.getLsbD 1 = true ∧ s.soft.queue ≠ []
  | some (.deq (some _)) | some (.send _) => True
  | _ => False

theorem txIrq_keep {s : WbSerial} {r : WbReq} {rx : Bool} (h : s.txIrq = true) (h1 : s.irqRead r = false) :
    (s.step D r rx).txIrq = true := by
  simp [WbSerial.step, h, h1]

theorem sending_step {s : Sys} (hi : Inv s) (h : Sending s) (h0 : s.started = []) (e : Env) : Sending (s.step D e) := by
  have ha := hi.ack
  have es : (s.step D e).ser = s.ser.step D (serReq s.soft.access) e.rx := rfl
  have ef : (s.step D e).soft = s.softNext e.act := rfl
  generalize s.step D e = s' at es ef ⊢
  have k1 := txIrq_keep (D := D) (s := s.ser) (r := serReq s.soft.access) (rx := e.rx)
  rw [irqRead_eq] at k1
  have k2 := ser_ack (D := D) (s := s.ser) (rx := e.rx) s.soft.access
  have k3 : s.soft.access = some .serInt → s.ser.ack = false →
      (s.ser.step D (serReq s.soft.access) e.rx).datR.getLsbD 1 = s.ser.txIrq := by
    intro h1 h2
    rw [h1]
    simp only [WbSerial.step, irqRead_eq, h2, Bool.not_false, Bool.true_and, if_true]
    cases s.ser.txIrq <;> cases s.ser.rxIrq <;> rfl
  rw [← es] at k1 k2 k3
  clear es hi
  obtain ⟨⟨q, busy, box, cnt, main, isr⟩, ser, tm, ld⟩ := s
  obtain ⟨soft', ser', tm', ld'⟩ := s'
  simp only at *
  subst ef
  obtain ⟨hb, h⟩ := h
  simp only at hb
  subst hb
  rcases isr with _ | i
  · exact absurd h id
  · cases i
    case enter | gotTimer v =>
      cases hact : e.act <;>
        simp [Sending, Sys.softNext, Soft.access, Isr.access, Soft.isrAct, hact] at h k1 k2 ⊢ <;>
        simp_all [Access.isSer]
    case rdTimer =>
      cases htm : tm.ack <;>
        simp [Sending, Sys.softNext, Soft.access, Isr.access, Soft.done, Isr.done, Sys.reply, htm] at h k1 k2 ⊢ <;>
        simp_all
    case rdInt =>
      cases hak : ser.ack <;>
        simp [-BitVec.getLsbD_eq_getElem, Sending, Sys.softNext, Soft.access, Isr.access, Soft.done, Isr.done, Sys.reply, hak, Access.isSer] at h k1 k2 k3 ⊢
      · simp only [k2, if_true]
        exact ⟨by rw [k3]; exact h.1, h.2⟩
      · exact h
    case rdRx v =>
      cases hak : ser.ack <;>
        simp [-BitVec.getLsbD_eq_getElem, Sending, Sys.softNext, Soft.access, Isr.access, Soft.done, Isr.done, Sys.reply, hak, Access.isSer] at h ⊢ <;> exact h
    case gotInt v | gotRx v d =>
      cases hact : e.act <;>
        simp [-BitVec.getLsbD_eq_getElem, Sending, Sys.softNext, Soft.access, Isr.access, Soft.isrAct, hact] at h ⊢ <;>
        (try split) <;> first | exact h | exact ⟨rfl, h⟩
    case tx v =>
      cases hact : e.act <;> cases q <;>
        simp [-BitVec.getLsbD_eq_getElem, Sending, Sys.softNext, Soft.access, Isr.access, Soft.isrAct, hact] at h ⊢ <;>
        simp [h]
    case deq m =>
      cases m
      · exact absurd h id
      · cases hact : e.act <;>
          simp [Sending, Sys.softNext, Soft.access, Isr.access, Soft.isrAct, hact]
    case send b =>
      cases hak : ser.ack <;>
        simp [Sending, Sys.started, Sys.softNext, Soft.access, Isr.access, Sys.reply, hak] at h0 ⊢
    case leave => exact absurd h id

theorem held_busy {s : Sys} (hi : Inv s) (h : s.soft.hand ++ s.soft.queue ≠ []) : s.soft.busy = true := by
  by_contra hb
  obtain ⟨h1, h2⟩ := hi.idle (by simpa using hb)
  apply h
  rw [h1, List.append_nil]
  unfold Soft.hand
  split
  · next i hi =>
    cases i
    case deq m =>
      cases m
      · rfl
      · exact absurd hi (h2 _).2
    case send b => exact absurd hi (h2 _).1
    all_goals rfl
  · rfl

/-- Bytes in the queue or in the handler stay there until they are written to the serial port. -/
theorem held_step {s : Sys} (hi : Inv s) (h0 : s.started = []) (h : s.soft.hand ++ s.soft.queue ≠ []) (e : Env) :
    (s.step D e).soft.hand ++ (s.step D e).soft.queue ≠ [] := by
  have hp := pend_step (D := D) hi e
  have hb := held_busy hi h
  intro h'
  rw [h0, List.nil_append, Soft.pend, Soft.pend, h', List.nil_append] at hp
  have hf : ∀ n b, s.soft.main ≠ .flag n b := fun n b hm => by
    have := hi.flag n b (.inr hm)
    rw [hb] at this; cases this
  have hl := congrArg List.length hp
  have hl2 : 0 < (s.soft.hand ++ s.soft.queue).length := List.length_pos_iff.2 h
  simp only [List.length_append] at hl hl2
  generalize s.soft.main = m at hp hl hf
  generalize (s.step D e).soft.main = m' at hp hl
  generalize s.soft.hand.length = x at hl hl2
  generalize s.soft.queue.length = y at hl hl2
  clear hp
  cases m <;> cases m' <;> simp only [Main.cur, called, Main.writing, List.length_nil, List.length_cons] at hl <;>
    first | omega | exact hf _ _ rfl

theorem txRdy_of_started {s : Sys} (h : s.started = []) : s.ser.txRdy (serReq s.soft.access) = false := by
  unfold Sys.started at h
  rw [txRdy_eq]
  generalize s.soft.access = a at h
  rcases a with _ | (_ | _ | _ | b | _ | _) <;> cases ha : s.ser.ack <;> simp [ha] at h ⊢

theorem done_enabled {f : Soft} {a : Access} (h : f.isr = none) (he : f.main.enabled = true) (ha : f.access = some a)
    (d : BitVec 8) : (f.done d).isr = none ∧ (f.done d).main.enabled = true ∧ (f.done d).access = none := by
  obtain ⟨q, busy, box, cnt, main, isr⟩ := f
  simp only at h he
  subst h
  simp only [Soft.access] at ha
  cases main
  case gpio n => cases n <;> simp [Main.enabled] at he; exact ⟨rfl, rfl, rfl⟩
  case leds n b => cases n <;> simp [Main.enabled] at he; exact ⟨rfl, rfl, rfl⟩
  case send => cases he
  all_goals cases ha

/-- Without a write, the transmitter becomes idle. -/
theorem tx_idle {n : Nat} (h0 : ∀ m ≥ n, (Sys.at_ D e m).started = []) : ∃ m ≥ n, (Sys.at_ D e m).ser.tx.count = 0 := by
  have hr : ∀ m ≥ n, (Sys.at_ D e m).ser.txRdy (serReq (Sys.at_ D e m).soft.access) = false :=
    fun m hm => txRdy_of_started (h0 m hm)
  have key : ∀ c p m, n ≤ m → (Sys.at_ D e m).ser.tx.count = c → (Sys.at_ D e m).ser.tx.phase = p →
      ∃ m ≥ n, (Sys.at_ D e m).ser.tx.count = 0 := by
    intro c
    induction c with
    | zero => intro p m hm hc _; exact ⟨m, hm, hc⟩
    | succ c ihc =>
      intro p
      induction p with
      | zero =>
        intro m hm hc hp
        have e1 : (Sys.at_ D e (m + 1)).ser.tx = (Sys.at_ D e m).ser.tx.step D ((Sys.at_ D e m).ser.txRdy (serReq (Sys.at_ D e m).soft.access)) _ := rfl
        rw [hr m hm] at e1
        refine ihc (D - 1) (m + 1) (by omega) ?_ ?_ <;> rw [e1] <;> simp [UartTx.step, hc, hp]
      | succ p ihp =>
        intro m hm hc hp
        have e1 : (Sys.at_ D e (m + 1)).ser.tx = (Sys.at_ D e m).ser.tx.step D ((Sys.at_ D e m).ser.txRdy (serReq (Sys.at_ D e m).soft.access)) _ := rfl
        rw [hr m hm] at e1
        refine ihp (m + 1) (by omega) ?_ ?_ <;> rw [e1] <;> simp [UartTx.step, hc, hp]
  exact key _ _ n (by omega) rfl rfl

/-- With actions, and interrupts enabled again and again, a byte that is held is written to the serial port. -/
theorem held_starts (ha : ∀ n, ∃ m ≥ n, (e m).act.isSome = true)
    (hen : ∀ n, ∃ m ≥ n, (Sys.at_ D e m).soft.main.enabled = true) {n : Nat}
    (h : (Sys.at_ D e n).soft.hand ++ (Sys.at_ D e n).soft.queue ≠ []) :
    ∃ m ≥ n, (Sys.at_ D e m).started ≠ [] := by
  by_contra hno
  have h0 : ∀ m ≥ n, (Sys.at_ D e m).started = [] := fun m hm => by
    by_contra hx; exact hno ⟨m, hm, hx⟩
  clear hno
  have held : ∀ m ≥ n, (Sys.at_ D e m).soft.hand ++ (Sys.at_ D e m).soft.queue ≠ [] := by
    intro m hm
    obtain ⟨d, rfl⟩ := Nat.exists_eq_add_of_le hm
    clear hm
    induction d with
    | zero => exact h
    | succ d ih => exact held_step (inv_at e _) (h0 _ (by omega)) ih _
  -- the transmitter becomes idle for good
  obtain ⟨m1, hm1, hc1⟩ := tx_idle h0
  have idle : ∀ d, (Sys.at_ D e (m1 + 1 + d)).ser.tx.count = 0 ∧ (Sys.at_ D e (m1 + 1 + d)).ser.txPrev = true := by
    have one : ∀ m ≥ n, (Sys.at_ D e m).ser.tx.count = 0 →
        (Sys.at_ D e (m + 1)).ser.tx.count = 0 ∧ (Sys.at_ D e (m + 1)).ser.txPrev = true := by
      intro m hm hc
      exact ready_step (D := D) hc (txRdy_of_started (h0 m hm))
    intro d
    induction d with
    | zero => exact one m1 hm1 hc1
    | succ d ih => exact one (m1 + 1 + d) (by omega) ih.1
  have idle' : ∀ m ≥ m1 + 1, (Sys.at_ D e m).ser.tx.count = 0 ∧ (Sys.at_ D e m).ser.txPrev = true := by
    intro m hm
    obtain ⟨d, rfl⟩ := Nat.exists_eq_add_of_le hm
    exact idle d
  -- so the interrupt is pending whenever the handler has not noticed it
  have pend : ∀ m ≥ m1 + 1, (Sys.at_ D e m).soft.isr = none ∨ (Sys.at_ D e m).soft.isr = some .enter →
      (Sys.at_ D e m).ser.txIrq = true := by
    intro m hm hi
    have hb := held_busy (inv_at e m) (held m (by omega))
    have ht := (inv_at (D := D) e m).tok
    obtain ⟨h1, h2⟩ := idle' m hm
    unfold TokOk at ht
    rw [if_pos hb] at ht
    rcases hi with hi | hi <;> rw [hi] at ht <;> simpa [tok, isrTok, hi, hwTok, h1, h2] using ht
  -- wait until the handler is not running and interrupts are enabled
  obtain ⟨m2, hm2, en2⟩ := hen (m1 + 1)
  obtain ⟨m3, hm3, no3, eq3⟩ := isr_leaves ha m2
  have en3 : (Sys.at_ D e m3).soft.main.enabled = true := by rw [eq3]; exact en2
  -- and no bus access is going on
  obtain ⟨m4, hm4, no4, en4, ac4⟩ : ∃ m ≥ m3, (Sys.at_ D e m).soft.isr = none ∧
      (Sys.at_ D e m).soft.main.enabled = true ∧ (Sys.at_ D e m).soft.access = none := by
    cases hac : (Sys.at_ D e m3).soft.access with
    | none => exact ⟨m3, by omega, no3, en3, hac⟩
    | some a =>
      obtain ⟨m, d, h1, h2⟩ := access_done hac
      refine ⟨m, by omega, ?_⟩
      rw [h2]
      exact done_enabled no3 en3 hac d
  obtain ⟨m5, op, hm5, ac5, eq5⟩ := wait_act ha ac4
  have q5 := pend m5 (by omega) (.inl (by rw [eq5]; exact no4))
  have eq6 : (Sys.at_ D e (m5 + 1)).soft = { (Sys.at_ D e m5).soft with isr := some .enter } := by
    rw [soft_succ]
    unfold Sys.softNext
    rw [eq5, ac4, ac5, no4]
    simp only [en4, Sys.irq, WbSerial.irq]
    rw [q5]
    simp
  have s6 : Sending (Sys.at_ D e (m5 + 1)) := by
    have i6 : (Sys.at_ D e (m5 + 1)).soft.isr = some .enter := by rw [eq6]
    refine ⟨held_busy (inv_at e _) (held _ (by omega)), ?_⟩
    rw [i6]
    refine ⟨pend _ (by omega) (.inr i6), ?_⟩
    have := held (m5 + 1) (by omega)
    simpa [Soft.hand, i6, Isr.hand] using this
  have s7 : ∀ m ≥ m5 + 1, Sending (Sys.at_ D e m) := by
    intro m hm
    obtain ⟨d, rfl⟩ := Nat.exists_eq_add_of_le hm
    clear hm
    induction d with
    | zero => exact s6
    | succ d ih => exact sending_step (inv_at e _) ih (h0 _ (by omega)) _
  obtain ⟨m8, hm8, no8, -⟩ := isr_leaves ha (m5 + 1)
  have := (s7 m8 hm8).2
  rw [no8] at this
  exact this

end Sentinel.Fw
