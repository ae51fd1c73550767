import Verif.Spec.FirmwareCsr
import Verif.Proof.FirmwareRx
/-!
# The firmware on the CSR bus does what it does on the Wishbone bus

Each run of `FwCsr.Sys` goes with a run of `Fw.Sys` (with the flag `csr`), cycle by cycle: an access begins in the same cycle, the peripherals
see it in the same cycles, and the firmware of the latter, which has the result earlier, waits until that of the former has it.
-/

set_option linter.unusedSimpArgs false

namespace Sentinel.FwCsr

open Fw (Access Op Main Isr Soft Env App Pins serReq timerReq ledsReq)

variable {D : Nat}

/-- What the Wishbone system is made to do. -/
def shadow (s : Sys) (e : Env) : Env := { e with act := if s.soft.access.isSome then none else e.act, csr := true }

/-- The peripherals are in the same state. -/
structure Same (c : Sys) (w : Fw.Sys) : Prop where
  tx : w.ser.tx = c.ser.tx
  rx : w.ser.rx = c.ser.rx
  rxIrq : w.ser.rxIrq = c.ser.rxIrq
  rxPrev : w.ser.rxPrev = c.ser.rxPrev
  txIrq : w.ser.txIrq = c.ser.txIrq
  txPrev : w.ser.txPrev = c.ser.txPrev
  timer : w.timer.prescalar = c.timer.prescaler
  leds : w.leds.leds = c.leds.leds

/-- The register of an access. -/
def reg : Access → CsrReg
  | .timer => .timer
  | .serInt => .irq
  | .serRx | .serTx _ => .txrx
  | .gpio => .inout
  | .leds _ => .leds

/-- No acknowledgement. -/
def NoAck (w : Fw.Sys) : Prop := w.timer.ack = false ∧ w.ser.ack = false ∧ w.leds.ack = false

/-- Where the two are, in an access. -/
inductive At (c : Sys) (w : Fw.Sys) : Prop
  /-- No access, or its first cycle. -/
  | idle (hc : c.bridge.cycle = 0) (ha : c.bridge.ack = false) (hw : c.bus.w = none) (hs : w.soft = c.soft) (hn : NoAck w)
  /-- The second cycle. -/
  | first (a : Access) (hac : c.soft.access = some a) (hc : c.bridge.cycle = 1) (ha : c.bridge.ack = false)
      (hw : c.bus.w = (data a).map fun d => (reg a, d)) (hs : w.soft = c.soft) (hack : (w.reply a).1 = true)
      (ht : w.timer.ack = true → a = .timer) (hser : w.ser.ack = true → reg a = .txrx ∨ reg a = .irq) (hl : w.leds.ack = true → reg a = .inout ∨ reg a = .leds)
      (hd : data a = none → (w.reply a).2 = c.bus.rData)
  /-- The other ones. -/
  | later (a : Access) (hac : c.soft.access = some a) (hc : 2 ≤ c.bridge.cycle ∧ c.bridge.cycle ≤ 4) (ha : c.bridge.ack = true → c.bridge.cycle = 4)
      (hw : c.bus.w = none) (hs : w.soft = c.soft.done c.bridge.b0) (hn : NoAck w)

structure Sim (c : Sys) (w : Fw.Sys) : Prop where
  same : Same c w
  at_ : At c w

theorem sim_init : Sim {} (Fw.Sys.init true) :=
  ⟨⟨rfl, rfl, rfl, rfl, rfl, rfl, rfl, rfl⟩, .idle rfl rfl rfl rfl ⟨rfl, rfl, rfl⟩⟩

/-! ## The CSR bus -/

theorem reg_ok (a : Access) : csrReg (((address a).extractLsb' 2 30).setWidth 23 ++ BitVec.ofNat 2 0) = some (reg a) := by
  cases a <;> simp only [address, reg] <;> decide

theorem reads_of {s : Sys} (h : s.req.rStb = false) : s.reads = none := by
  unfold Sys.reads
  exact if_neg (by rw [h]; decide)

theorem req_none {s : Sys} (h : s.soft.access = none) : s.req = s.bridge.req false false 0 0 0 := by
  unfold Sys.req; rw [h]

theorem req_some {s : Sys} {a : Access} (h : s.soft.access = some a) :
    s.req = s.bridge.req true (data a).isSome ((address a).extractLsb' 2 30) 0b0001 (((data a).getD 0).setWidth 32) := by
  unfold Sys.req; rw [h]

theorem reads_none {s : Sys} (h : s.soft.access = none) : s.reads = none ∧ s.req.wStb = false := by
  have hr := req_none h
  exact ⟨reads_of (by rw [hr]; rfl), by rw [hr]; rfl⟩

theorem reads_later {s : Sys} (h : s.bridge.cycle ≠ 0) : s.reads = none ∧ s.req.wStb = false := by
  have : ∀ c : Nat, c ≠ 0 → c < 4 → BitVec.getLsbD (0b0001 : BitVec 4) c = false := by
    intro c h1 h2
    have : c = 1 ∨ c = 2 ∨ c = 3 := by omega
    rcases this with rfl | rfl | rfl <;> rfl
  cases ha : s.soft.access with
  | none => exact reads_none ha
  | some a =>
    have hr := req_some ha
    by_cases h4 : s.bridge.cycle < 4
    · have := this _ h h4
      exact ⟨reads_of (by rw [hr]; simp only [WbCsr.req, this]; simp), by rw [hr]; simp only [WbCsr.req, this]; simp⟩
    · exact ⟨reads_of (by rw [hr]; simp [WbCsr.req, h4]), by rw [hr]; simp [WbCsr.req, h4]⟩

theorem reads_first {s : Sys} {a : Access} (h : s.soft.access = some a) (hc : s.bridge.cycle = 0) :
    s.reads = (if (data a).isSome then none else some (reg a)) ∧
    (if s.req.wStb then (csrReg s.req.addr).map fun r => (r, s.req.wData) else none) = (data a).map fun d => (reg a, d) := by
  have hr := req_some h
  unfold Sys.reads
  generalize s.req = q at hr
  subst hr
  simp only [WbCsr.req, hc]
  rw [reg_ok]
  cases hd : data a with
  | none => simp
  | some d =>
    simp
    apply BitVec.eq_of_toNat_eq
    simp
    exact d.isLt

theorem back_access (n : Bool) : (Main.back n).access = none := by cases n <;> rfl

theorem done_access {f : Soft} {a : Access} (h : f.access = some a) (d : BitVec 8) : (f.done d).access = none := by
  obtain ⟨q, busy, box, cnt, main, isr⟩ := f
  rcases isr with _ | i
  · cases main <;> simp [Soft.access, Main.access] at h <;> simp only [Soft.done, Soft.access, Main.done, back_access]
    rfl
  · cases i <;> simp [Soft.access, Isr.access] at h <;> simp [Soft.done, Soft.access, Isr.done, Isr.access]

/-- What a write returns does not matter. -/
theorem done_write {f : Soft} {a : Access} (h : f.access = some a) (hd : (data a).isSome = true) (d d' : BitVec 8) : f.done d = f.done d' := by
  obtain ⟨q, busy, box, cnt, main, isr⟩ := f
  rcases isr with _ | i
  · rfl
  · cases i <;> simp [Soft.access, Isr.access] at h <;> subst h <;> simp [data] at hd <;> rfl

theorem rx_again {s : UartRx} (h : s.rdy = false) (x : Bool) : s.step D x true = s.step D x false := by
  obtain ⟨ph, sh, ct, rdy, ovf⟩ := s
  simp only at h
  subst h
  unfold UartRx.step
  cases x <;> simp

theorem access_rx {f : Soft} (h : f.access = some .serRx) : ∃ v, f.isr = some (.rdRx v) := by
  obtain ⟨q, busy, box, cnt, main, isr⟩ := f
  rcases isr with _ | i
  · cases main <;> simp [Soft.access, Main.access] at h
  · cases i <;> simp [Soft.access, Isr.access] at h
    exact ⟨_, rfl⟩

/-! ## A step -/

theorem same_step {c : Sys} {w : Fw.Sys} {e : Env} (h : Same c w)
    (htx : w.ser.txRdy (serReq w.soft.access) = c.serStb.wStb)
    (hdat : c.serStb.wStb = true → (serReq w.soft.access).datW = c.serStb.wData)
    (hrx : w.ser.rx.step D e.rx (WbSerial.rxAck (serReq w.soft.access)) = w.ser.rx.step D e.rx c.serStb.rStb)
    (hirq : w.ser.irqRead (serReq w.soft.access) = c.serStb.irqStb)
    (htm : ((w.timerSees true).stb && (w.timerSees true).cyc && !(w.timerSees true).we && (w.timerSees true).sel) = decide (c.reads = some .timer))
    (hl : (w.leds.step (ledsReq w.soft.access) e.gpioI).leds = (c.leds.step c.ledStb).leds) :
    Same (c.step D e) (w.step D (shadow c e)) := by
  obtain ⟨g1, g2, g3, g4, g5, g6, g7, g8⟩ := h
  refine ⟨?_, ?_, ?_, ?_, ?_, ?_, ?_, hl⟩
  · show w.ser.tx.step D (w.ser.txRdy (serReq w.soft.access)) (byteBits (serReq w.soft.access).datW) = c.ser.tx.step D c.serStb.wStb (byteBits c.serStb.wData)
    rw [htx, g1]
    cases hb : c.serStb.wStb with
    | true => rw [hdat hb]
    | false => unfold UartTx.step; simp
  · show w.ser.rx.step D e.rx (WbSerial.rxAck (serReq w.soft.access)) = c.ser.rx.step D e.rx c.serStb.rStb
    rw [hrx, g2]
  · show (if _ then _ else if w.ser.irqRead (serReq w.soft.access) then _ else _) = if _ then _ else if c.serStb.irqStb then _ else _
    rw [hirq, g2, g3, g4]
  · show w.ser.rx.rdy = c.ser.rx.rdy
    rw [g2]
  · show (if _ then _ else if w.ser.irqRead (serReq w.soft.access) then _ else _) = if _ then _ else if c.serStb.irqStb then _ else _
    rw [hirq, g1, g5, g6]
  · show w.ser.tx.ack = c.ser.tx.ack
    rw [g1]
  · show (WbTimer.step w.timer (w.timerSees true)).prescalar = (CsrTimer.step c.timer (decide (c.reads = some .timer))).prescaler
    unfold WbTimer.step CsrTimer.step WbTimer.irq CsrTimer.irq
    simp only [htm, g7]

theorem stb_none {c : Sys} (hw : c.bus.w = none) (hr : c.reads = none) : c.serStb = {} ∧ c.ledStb = {} := by
  unfold Sys.serStb Sys.ledStb Sys.written
  rw [hw, hr]
  exact ⟨rfl, rfl⟩

theorem irq_same {c : Sys} {w : Fw.Sys} (h : Same c w) : w.irq = c.irq := by
  unfold Fw.Sys.irq Sys.irq WbTimer.irq CsrTimer.irq WbSerial.irq CsrSerial.irq
  rw [h.timer, h.rxIrq, h.txIrq]

theorem sim_step {c : Sys} {w : Fw.Sys} (h : Sim c w) (hi : Fw.RxInv w) (e : Env) : Sim (c.step D e) (w.step D (shadow c e)) := by
  obtain ⟨hs, ha⟩ := h
  cases ha with
  | idle h1 h2 h3 h4 h5 =>
    obtain ⟨n1, n2, n3⟩ := h5
    cases hac : c.soft.access with
    | none =>
      obtain ⟨r1, r2⟩ := reads_none hac
      obtain ⟨s1, s2⟩ := stb_none h3 r1
      have hwa : w.soft.access = none := by rw [h4]; exact hac
      have hts : w.timerSees true = {} := by unfold Fw.Sys.timerSees; rw [hwa, n1]; rfl
      refine ⟨same_step hs ?_ ?_ ?_ ?_ ?_ ?_, .idle ?_ ?_ ?_ ?_ ⟨?_, ?_, ?_⟩⟩
      · rw [s1, hwa]; rfl
      · rw [s1]; nofun
      · rw [s1, hwa]; rfl
      · rw [s1, hwa]; rfl
      · rw [hts, r1]; rfl
      · rw [s2, hwa]; exact hs.leds
      · simp [Sys.step, WbCsr.step, h1, h2, hac]
      · simp [Sys.step, WbCsr.step, h1, h2, hac]
      · simp [Sys.step, r2]
      · show w.softNext (shadow c e).act = c.softNext e.act
        unfold Fw.Sys.softNext Sys.softNext
        rw [hwa, hac, irq_same hs, h4]
        simp only [shadow, hac]
        rfl
      · show (WbTimer.step w.timer (w.timerSees true)).ack = false
        rw [hts]; rfl
      · show (WbSerial.step D w.ser (serReq w.soft.access) _).ack = false
        rw [hwa]; rfl
      · show (WbLeds.step w.leds (ledsReq w.soft.access) _).ack = false
        rw [hwa]; rfl
    | some a =>
      obtain ⟨r1, r2⟩ := reads_first hac h1
      have hwa : w.soft.access = some a := by rw [h4]; exact hac
      have hts : w.timerSees true = timerReq (some a) := by unfold Fw.Sys.timerSees; rw [hwa, n1]; rfl
      have hw : ∀ r, c.written r = none := fun r => by unfold Sys.written; rw [h3]
      refine ⟨same_step hs ?_ ?_ ?_ ?_ ?_ ?_, .first a ?_ ?_ ?_ ?_ ?_ ?_ ?_ ?_ ?_ ?_⟩
      · simp [Sys.serStb, hw, WbSerial.txRdy, n2]
      · simp [Sys.serStb, hw]
      · rw [hwa]; simp only [Sys.serStb, r1]; cases a <;> simp [WbSerial.rxAck, WbSerial.dataReq, serReq, data, reg]
      · rw [hwa]; simp only [Sys.serStb, r1, WbSerial.irqRead, n2]; cases a <;> simp [serReq, data, reg]
      · rw [hts, r1]; cases a <;> rfl
      · simp [WbLeds.step, n3, CsrLeds.step, Sys.ledStb, hw, hs.leds]
      · show (c.softNext e.act).access = some a
        unfold Sys.softNext; rw [hac]; simp [h2, hac]
      · simp [Sys.step, WbCsr.step, h1, h2, hac]
      · simp [Sys.step, WbCsr.step, h1, h2, hac]
      · exact r2
      · show w.softNext _ = c.softNext _
        have : (w.reply a).1 = false := by cases a <;> assumption
        unfold Fw.Sys.softNext Sys.softNext; rw [hac, hwa]; simp [h2, this, h4]
      · show ((w.step D (shadow c e)).reply a).1 = true
        cases a <;> simp [Fw.Sys.reply, Fw.Sys.step, WbTimer.step, WbSerial.step, WbLeds.step, hwa, hts, shadow, serReq, ledsReq, timerReq, n1, n2, n3]
      · cases a <;> simp [Fw.Sys.reply, Fw.Sys.step, WbTimer.step, WbSerial.step, WbLeds.step, hwa, hts, shadow, serReq, ledsReq, timerReq, n1, n2, n3]
      · cases a <;> simp [Fw.Sys.reply, Fw.Sys.step, WbTimer.step, WbSerial.step, WbLeds.step, hwa, hts, shadow, serReq, ledsReq, timerReq, n1, n2, n3, reg]
      · cases a <;> simp [Fw.Sys.reply, Fw.Sys.step, WbTimer.step, WbSerial.step, WbLeds.step, hwa, hts, shadow, serReq, ledsReq, timerReq, n1, n2, n3, reg]
      · intro hd
        rw [hd] at r1
        show _ = match c.reads with | some r => c.value e.gpioI r | none => 0
        rw [r1]
        have t := hs.timer
        have u1 := hs.rx
        have u2 := hs.rxIrq
        have u3 := hs.txIrq
        cases a <;> simp [data] at hd <;>
          simp [Fw.Sys.reply, Fw.Sys.step, WbTimer.step, WbSerial.step, WbLeds.step, hwa, hts, shadow, serReq, ledsReq, timerReq, n1, n2, n3, reg, Sys.value,
            WbSerial.irqRead, WbSerial.dataReq, CsrSerial.data, CsrSerial.irqData, CsrLeds.inoutData, WbTimer.irq, CsrTimer.irq, t, u1, u2, u3]
        · split <;> simp_all
        · cases c.ser.txIrq <;> cases c.ser.rxIrq <;> rfl
  | first a h0 h1 h2 h3 h4 h5 h6 h7 h8 h9 =>
    obtain ⟨r1, r2⟩ := reads_later (s := c) (by omega)
    have hwa : w.soft.access = some a := by rw [h4]; exact h0
    have hts : w.timerSees true = {} := by
      unfold Fw.Sys.timerSees
      rw [hwa]
      cases a <;> (first | rfl | skip) <;> simp [timerReq]
      exact h5
    refine ⟨same_step hs ?_ ?_ ?_ ?_ ?_ ?_, .later a ?_ ?_ ?_ ?_ ?_ ⟨?_, ?_, ?_⟩⟩
    · rw [hwa]
      simp only [Sys.serStb, Sys.written, h3, r1]
      cases a <;> simp [WbSerial.txRdy, WbSerial.dataReq, serReq, data, reg]
      exact h5
    · rw [hwa]
      simp only [Sys.serStb, Sys.written, h3, r1]
      cases a <;> simp [serReq, data, reg]
    · rw [hwa]
      simp only [Sys.serStb, r1]
      cases a <;> simp [WbSerial.rxAck, WbSerial.dataReq, serReq]
      obtain ⟨v, hv⟩ := access_rx hwa
      exact rx_again (hi.read v hv h5) _
    · rw [hwa]
      simp only [Sys.serStb, r1]
      cases a <;> simp [WbSerial.irqRead, serReq]
      exact h5
    · rw [hts, r1]; rfl
    · rw [hwa]
      simp only [Sys.ledStb, Sys.written, h3, CsrLeds.step]
      have := hs.leds
      cases a <;> simp [WbLeds.step, ledsReq, data, reg, this]
      intro hx
      exact absurd h5 (by rw [Fw.Sys.reply]; simp [hx])
    · show (c.softNext e.act).access = some a
      unfold Sys.softNext; rw [h0]; simp [h2, h0]
    · simp [Sys.step, WbCsr.step, h1, h2, h0]
    · simp [Sys.step, WbCsr.step, h1, h2, h0]
    · simp [Sys.step, r2]
    · show w.softNext _ = (c.softNext _).done (c.step D e).bridge.b0
      have hb : (c.step D e).bridge.b0 = c.bus.rData := by simp [Sys.step, WbCsr.step, h1, h0]
      unfold Fw.Sys.softNext Sys.softNext
      rw [h0, hwa, hb]
      simp only [h2, h5, if_true, h4]
      cases hd : data a with
      | none => rw [h9 hd]; rfl
      | some d => exact done_write h0 (by rw [hd]; rfl) _ _
    · show (WbTimer.step w.timer (w.timerSees true)).ack = false
      rw [hts]; rfl
    · show (WbSerial.step D w.ser (serReq w.soft.access) _).ack = false
      rw [hwa]
      cases a <;> simp [WbSerial.step, serReq] <;> exact h5
    · show (WbLeds.step w.leds (ledsReq w.soft.access) _).ack = false
      rw [hwa]
      cases a <;> simp [WbLeds.step, ledsReq] <;> exact h5
  | later a h0 h1 h2 h3 h4 h5 =>
    obtain ⟨n1, n2, n3⟩ := h5
    obtain ⟨r1, r2⟩ := reads_later (s := c) (by omega)
    obtain ⟨s1, s2⟩ := stb_none h3 r1
    have hwa : w.soft.access = none := by rw [h4]; exact done_access h0 _
    have hts : w.timerSees true = {} := by unfold Fw.Sys.timerSees; rw [hwa, n1]; rfl
    have hsame : Same (c.step D e) (w.step D (shadow c e)) := by
      refine same_step hs ?_ ?_ ?_ ?_ ?_ ?_
      · rw [s1, hwa]; rfl
      · rw [s1]; nofun
      · rw [s1, hwa]; rfl
      · rw [s1, hwa]; rfl
      · rw [hts, r1]; rfl
      · rw [s2, hwa]; exact hs.leds
    have hno : NoAck (w.step D (shadow c e)) := by
      refine ⟨?_, ?_, ?_⟩
      · show (WbTimer.step w.timer (w.timerSees true)).ack = false
        rw [hts]; rfl
      · show (WbSerial.step D w.ser (serReq w.soft.access) _).ack = false
        rw [hwa]; rfl
      · show (WbLeds.step w.leds (ledsReq w.soft.access) _).ack = false
        rw [hwa]; rfl
    have hws : (w.step D (shadow c e)).soft = w.soft := by
      show w.softNext _ = _
      unfold Fw.Sys.softNext
      rw [hwa]
      simp [shadow, h0]
    have hbw : (c.step D e).bus.w = none := by simp [Sys.step, r2]
    cases hb : c.bridge.ack with
    | true =>
      refine ⟨hsame, .idle ?_ ?_ hbw ?_ hno⟩
      · simp [Sys.step, WbCsr.step, hb]
      · simp [Sys.step, WbCsr.step, hb]
      · rw [hws, h4]
        show _ = c.softNext _
        unfold Sys.softNext
        rw [h0]; simp [hb]
    | false =>
      have hcs : (c.step D e).soft = c.soft := by
        show c.softNext _ = _
        unfold Sys.softNext
        rw [h0]; simp [hb]
      refine ⟨hsame, .later a (by rw [hcs]; exact h0) ?_ ?_ hbw ?_ hno⟩
      · simp [Sys.step, WbCsr.step, hb, h0]
        split <;> omega
      · simp [Sys.step, WbCsr.step, hb, h0]
        split <;> omega
      · rw [hws, h4, hcs]
        congr 1
        simp [Sys.step, WbCsr.step, h0]
        omega

/-! ## Runs -/

/-- What the Wishbone system is made to do, cycle by cycle. -/
def shadows (D : Nat) (e : Nat → Env) (n : Nat) : Env := shadow (Sys.at_ D e n) (e n)

theorem sim_at (e : Nat → Env) (n : Nat) : Sim (Sys.at_ D e n) (Fw.Sys.at_ D (shadows D e) n) := by
  induction n with
  | zero => exact sim_init
  | succ n ih => exact sim_step ih (Fw.rxInv_at _ n) (e n)

theorem done_writing (f : Soft) (d : BitVec 8) : (f.done d).main.writing = f.main.writing ∧ (f.done d).main.enabled = f.main.enabled ∧
    (f.done d).rxBox = f.rxBox ∧ (f.done d).queue = f.queue ∧ (f.done d).count = f.count ∧ (f.done d).busy = f.busy ∧
    ((f.done d).isr = none ↔ f.isr = none) := by
  obtain ⟨q, busy, box, cnt, main, isr⟩ := f
  rcases isr with _ | i
  · have hb : ∀ n, (Main.back n).writing = none ∧ (Main.back n).enabled = !n := by intro n; cases n <;> exact ⟨rfl, rfl⟩
    cases main <;> refine ⟨?_, ?_, rfl, rfl, rfl, rfl, Iff.rfl⟩ <;> (first | rfl | exact (hb _).1 | skip)
    all_goals rename_i n; refine (hb _).2.trans ?_; cases ‹Bool› <;> rfl
  · simp [Soft.done]

/-- What is observed of the software is the same. -/
theorem soft_same {c : Sys} {w : Fw.Sys} (h : Sim c w) : w.soft.main.writing = c.soft.main.writing ∧ w.soft.main.enabled = c.soft.main.enabled ∧
    w.soft.rxBox = c.soft.rxBox ∧ w.soft.queue = c.soft.queue ∧ w.soft.count = c.soft.count ∧ w.soft.busy = c.soft.busy ∧
    (w.soft.isr = none ↔ c.soft.isr = none) := by
  cases h.at_ with
  | idle h1 h2 h3 h4 h5 => rw [h4]; simp
  | first a h0 h1 h2 h3 h4 => rw [h4]; simp
  | later a h0 h1 h2 h3 h4 => rw [h4]; exact done_writing _ _

variable {e : Nat → Env}

theorem idle_at {n : Nat} (h : (Sys.at_ D e n).soft.access = none) : (Sys.at_ D e n).bridge.cycle = 0 ∧
    (Sys.at_ D e n).bridge.ack = false ∧ (Fw.Sys.at_ D (shadows D e) n).soft = (Sys.at_ D e n).soft ∧ (shadows D e n).act = (e n).act := by
  have hx : (shadows D e n).act = (e n).act := by unfold shadows shadow; rw [h]; rfl
  cases (sim_at (D := D) e n).at_ with
  | idle h1 h2 h3 h4 h5 => exact ⟨h1, h2, h4, hx⟩
  | first a h0 => rw [h] at h0; cases h0
  | later a h0 => rw [h] at h0; cases h0

/-- The software acts in the same way in the same cycle. -/
theorem idle_next {n : Nat} (h : (Sys.at_ D e n).soft.access = none) :
    (Fw.Sys.at_ D (shadows D e) (n + 1)).soft = (Sys.at_ D e (n + 1)).soft := by
  obtain ⟨-, -, h3, h4⟩ := idle_at h
  show (Fw.Sys.at_ D (shadows D e) n).softNext (shadows D e n).act = (Sys.at_ D e n).softNext (e n).act
  unfold Fw.Sys.softNext Sys.softNext
  rw [h3, h, irq_same (sim_at e n).same, h4]
  rfl

/-- In the middle of an access, the software does nothing but end it. -/
theorem busy_next {n : Nat} {a : Access} (h : (Sys.at_ D e n).soft.access = some a) :
    (Sys.at_ D e (n + 1)).soft = if (Sys.at_ D e n).bridge.ack then (Sys.at_ D e n).soft.done (Sys.at_ D e n).bridge.b0 else (Sys.at_ D e n).soft := by
  show (Sys.at_ D e n).softNext (e n).act = _
  unfold Sys.softNext
  rw [h]

theorem shadow_busy {n : Nat} {a : Access} (h : (Sys.at_ D e n).soft.access = some a) : (shadows D e n).act = none := by
  unfold shadows shadow; rw [h]; rfl

/-- The bridge takes its time. -/
theorem bridge_next {n : Nat} {a : Access} (h : (Sys.at_ D e n).soft.access = some a) :
    (Sys.at_ D e (n + 1)).bridge.cycle = (if (Sys.at_ D e n).bridge.ack then 0 else if (Sys.at_ D e n).bridge.cycle < 4 then (Sys.at_ D e n).bridge.cycle + 1 else (Sys.at_ D e n).bridge.cycle) ∧
    (Sys.at_ D e (n + 1)).bridge.ack = (!(Sys.at_ D e n).bridge.ack && !decide ((Sys.at_ D e n).bridge.cycle < 4)) := by
  show (WbCsr.step _ (Sys.at_ D e n).soft.access.isSome _).cycle = _ ∧ (WbCsr.step _ (Sys.at_ D e n).soft.access.isSome _).ack = _
  rw [h]
  simp [WbCsr.step]

/-- How many cycles an access takes, from where it is. -/
def left (s : Sys) : Nat := if s.soft.access.isSome then (if s.bridge.ack then 1 else 6 - s.bridge.cycle) else 0

theorem left_le (e : Nat → Env) (n : Nat) : left (Sys.at_ D e n) ≤ 6 := by
  unfold left; split
  · split <;> omega
  · omega

theorem left_next {n : Nat} (h : left (Sys.at_ D e n) ≠ 0) : left (Sys.at_ D e (n + 1)) + 1 = left (Sys.at_ D e n) := by
  cases ha : (Sys.at_ D e n).soft.access with
  | none => simp [left, ha] at h
  | some a =>
    have h1 := busy_next ha
    obtain ⟨h2, h3⟩ := bridge_next ha
    have hc : (Sys.at_ D e n).bridge.cycle ≤ 4 := by
      cases (sim_at (D := D) e n).at_ with
      | idle g => omega
      | first a _ g => omega
      | later a _ g => omega
    unfold left
    rw [ha]
    cases hb : (Sys.at_ D e n).bridge.ack with
    | true =>
      rw [hb] at h1
      simp only [if_true] at h1
      rw [h1, done_access ha]
      simp
    | false =>
      rw [hb] at h1 h2 h3
      simp only [Bool.false_eq_true, if_false] at h1 h2 h3
      rw [h1, ha, h2, h3]
      by_cases h4 : (Sys.at_ D e n).bridge.cycle < 4
      · simp [h4]; omega
      · simp [h4]; omega

/-- At most six cycles later, there is no access. -/
theorem idle_soon (e : Nat → Env) (n : Nat) : ∃ m ≥ n, m ≤ n + 6 ∧ (Sys.at_ D e m).soft.access = none := by
  have key : ∀ d n, left (Sys.at_ D e n) = d → (Sys.at_ D e (n + d)).soft.access = none := by
    intro d
    induction d with
    | zero =>
      intro n h
      cases ha : (Sys.at_ D e n).soft.access with
      | none => rfl
      | some a =>
        exfalso
        cases (sim_at (D := D) e n).at_ with
        | idle g1 g2 => simp [left, ha, g1, g2] at h
        | first a _ g1 g2 => simp [left, ha, g1, g2] at h
        | later a _ g1 =>
          unfold left at h
          rw [ha] at h
          simp only [Option.isSome_some, if_true] at h
          split at h <;> omega
    | succ d ih =>
      intro n h
      have := left_next (D := D) (e := e) (n := n) (by omega)
      have := ih (n + 1) (by omega)
      rw [show n + (d + 1) = n + 1 + d by omega]
      exact this
  exact ⟨n + left (Sys.at_ D e n), by omega, by have := left_le (D := D) e n; omega, key _ n rfl⟩

/-- Without an access and an action, nothing happens. -/
theorem stay {n : Nat} (h : (Sys.at_ D e n).soft.access = none) (ha : (e n).act = none) : (Sys.at_ D e (n + 1)).soft = (Sys.at_ D e n).soft := by
  show (Sys.at_ D e n).softNext (e n).act = _
  unfold Sys.softNext
  rw [h, ha]

/-- The next action. -/
theorem shadow_act {n m : Nat} (hm : n ≤ m) (h : (Sys.at_ D e n).soft.access = none) (ha : (e m).act.isSome = true) :
    ∃ k ≥ n, k ≤ m ∧ (Sys.at_ D e k).soft.access = none ∧ (e k).act.isSome = true := by
  obtain ⟨d, rfl⟩ := Nat.exists_eq_add_of_le hm
  clear hm
  induction d generalizing n with
  | zero => exact ⟨n, by omega, by omega, h, ha⟩
  | succ d ih =>
    cases hn : (e n).act with
    | some op => exact ⟨n, by omega, by omega, h, by rw [hn]; rfl⟩
    | none =>
      have h1 := stay h hn
      obtain ⟨k, k1, k2, k3, k4⟩ := ih (n := n + 1) (by rw [h1]; exact h) (by rw [show n + 1 + d = n + (d + 1) by omega]; exact ha)
      exact ⟨k, by omega, by omega, k3, k4⟩

theorem acts_often (h : ∀ n, ∃ m ≥ n, (e m).act.isSome = true) (n : Nat) : ∃ m ≥ n, (shadows D e m).act.isSome = true := by
  obtain ⟨m, h1, -, h2⟩ := idle_soon (D := D) e n
  obtain ⟨k, h3, h4⟩ := h m
  obtain ⟨j, j1, j2, j3, j4⟩ := shadow_act h3 h2 h4
  exact ⟨j, by omega, by rw [(idle_at j3).2.2.2]; exact j4⟩

theorem acts_soon {K : Nat} (h : ∀ n, ∃ m ≥ n, m < n + K ∧ (e m).act.isSome = true) (n : Nat) :
    ∃ m ≥ n, m < n + (K + 6) ∧ (Sys.at_ D e m).soft.access = none ∧ (e m).act.isSome = true := by
  obtain ⟨m, h1, h1', h2⟩ := idle_soon (D := D) e n
  obtain ⟨k, h3, h3', h4⟩ := h m
  obtain ⟨j, j1, j2, j3, j4⟩ := shadow_act h3 h2 h4
  exact ⟨j, by omega, by omega, j3, j4⟩

theorem shadow_soon {K : Nat} (h : ∀ n, ∃ m ≥ n, m < n + K ∧ (e m).act.isSome = true) (n : Nat) :
    ∃ m ≥ n, m < n + (K + 6) ∧ (shadows D e m).act.isSome = true := by
  obtain ⟨m, m1, m2, m3, m4⟩ := acts_soon (D := D) h n
  exact ⟨m, m1, m2, by rw [(idle_at m3).2.2.2]; exact m4⟩

/-! ## Observations -/

theorem writing_eq (n : Nat) : writing D e n = Fw.writing D (shadows D e) n := (soft_same (sim_at e n)).1.symm

theorem calls_eq (n : Nat) : calls D e n = Fw.calls D (shadows D e) n := by
  induction n with
  | zero => rfl
  | succ n ih => rw [calls, Fw.calls, ih, writing_eq, writing_eq]; rfl

theorem returned_eq (n : Nat) : returned D e n = Fw.returned D (shadows D e) n := by
  induction n with
  | zero => rfl
  | succ n ih => rw [returned, Fw.returned, ih, writing_eq, writing_eq]; rfl

theorem line_eq : line D e = Fw.line D (shadows D e) := by
  funext n
  unfold line Fw.line CsrSerial.txO WbSerial.txO
  rw [(sim_at e n).same.tx]

theorem frameStarts_eq (n : Nat) : frameStarts D e n = Fw.frameStarts D (shadows D e) n := by
  unfold frameStarts Fw.frameStarts
  rw [(sim_at e n).same.tx, (sim_at e (n + 1)).same.tx]

theorem lineByte_eq (n : Nat) : lineByte D e n = Fw.lineByte D (shadows D e) n := by
  unfold lineByte Fw.lineByte; rw [line_eq]

theorem frames_eq (n : Nat) : frames D e n = Fw.frames D (shadows D e) n := by
  induction n with
  | zero => rfl
  | succ n ih => rw [frames, Fw.frames, ih, frameStarts_eq, lineByte_eq]

theorem terminal_eq (take : Nat → Bool) (n : Nat) : terminal D e take n = Fw.terminal D (shadows D e) take n := by
  unfold terminal Fw.terminal; rw [line_eq]

theorem shown_eq (take : Nat → Bool) (n : Nat) : shown D e take n = Fw.shown D (shadows D e) take n := by
  induction n with
  | zero => rfl
  | succ n ih => rw [shown, Fw.shown, ih, terminal_eq, terminal_eq]

theorem keepsUp_eq (take : Nat → Bool) : TerminalKeepsUp D e take ↔ Fw.TerminalKeepsUp D (shadows D e) take := by
  unfold TerminalKeepsUp Fw.TerminalKeepsUp
  simp only [frameStarts_eq, terminal_eq]

theorem received_eq (n : Nat) : received D e n = Fw.received D (shadows D e) n := by
  induction n with
  | zero => rfl
  | succ n ih => rw [received, Fw.received, ih, (sim_at e n).same.rx, (sim_at e (n + 1)).same.rx]

theorem mailbox_eq (n : Nat) : mailbox D e n = Fw.mailbox D (shadows D e) n := (soft_same (sim_at e n)).2.2.1.symm

theorem storing_eq (n : Nat) : storing D e n = Fw.storing D (shadows D e) n := by
  unfold storing Fw.storing
  cases ha : (Sys.at_ D e n).soft.access with
  | none => rw [(idle_at ha).2.2.1, idle_next ha]; rfl
  | some a =>
    have hs := busy_next ha
    -- in the middle of an access, neither of them stores
    have h1 : ∀ v d, (Sys.at_ D e n).soft.isr ≠ some (.gotRx v d) := by
      intro v d h
      simp [Soft.access, h, Isr.access] at ha
    have h2 : ∀ v d v', (Fw.Sys.at_ D (shadows D e) n).soft.isr = some (.gotRx v d) → (Fw.Sys.at_ D (shadows D e) (n + 1)).soft.isr ≠ some (.tx v') := by
      intro v d v' h
      have : (Fw.Sys.at_ D (shadows D e) (n + 1)).soft = (Fw.Sys.at_ D (shadows D e) n).soft := by
        rw [Fw.soft_succ]
        unfold Fw.Sys.softNext
        rw [shadow_busy ha]
        simp [Soft.access, h, Isr.access]
      rw [this, h]
      simp
    split
    · next v d _ h _ => exact absurd h (h1 v d)
    · split
      · next v d v' h h' => exact absurd h' (h2 v d v' h)
      · rfl

theorem stores_eq (n : Nat) : stores D e n = Fw.stores D (shadows D e) n := by
  induction n with
  | zero => rfl
  | succ n ih => rw [stores, Fw.stores, ih, storing_eq]


theorem locked_access {n : Nat} (h : (Sys.at_ D e n).soft.main = .locked) : (Sys.at_ D e n).soft.access = none := by
  have h1 := soft_same (sim_at (D := D) e n)
  have h2 := (Fw.inv_at (D := D) (shadows D e) n).isr
  have h3 : (Sys.at_ D e n).soft.isr = none := by
    rw [← h1.2.2.2.2.2.2]
    by_contra hc
    have := (h2 hc).1
    rw [h1.2.1, h] at this
    cases this
  unfold Soft.access
  rw [h3, h]
  rfl

theorem taken_eq (n : Nat) : taken D e n = Fw.taken D (shadows D e) n := by
  induction n with
  | zero => rfl
  | succ n ih =>
    rw [taken, Fw.taken, ih, mailbox_eq]
    cases ha : (Sys.at_ D e n).soft.access with
    | none => rw [(idle_at ha).2.2.1, (idle_at ha).2.2.2]; rfl
    | some a =>
      rw [shadow_busy ha]
      split
      · next h _ => rw [locked_access h] at ha; cases ha
      · split
        · next h => cases h
        · rfl

theorem clearing_iff (n : Nat) : Clearing D e n ↔ Fw.Clearing D (shadows D e) n := by
  unfold Clearing Fw.Clearing
  cases ha : (Sys.at_ D e n).soft.access with
  | none => rw [(idle_at ha).2.2.1, (idle_at ha).2.2.2]
  | some a =>
    rw [shadow_busy ha]
    constructor
    · rintro ⟨h, -⟩; rw [locked_access h] at ha; cases ha
    · rintro ⟨-, h⟩; cases h

theorem wired_iff (keys : Nat → Option (BitVec 8)) : Fw.Wired D e keys ↔ Fw.Wired D (shadows D e) keys := Iff.rfl

theorem driver_iff (keys : Nat → Option (BitVec 8)) : DriverKeepsUp D e keys ↔ Fw.DriverKeepsUp D (shadows D e) keys := by
  unfold DriverKeepsUp Fw.DriverKeepsUp
  simp only [(sim_at e _).same.rx]
