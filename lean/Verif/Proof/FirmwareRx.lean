import Verif.Proof.FirmwareLive
import Verif.Spec.Firmware
/-!
# The receive path of the firmware
-/

set_option linter.unusedSimpArgs false

namespace Sentinel.Fw

variable {D : Nat}

/-! ## The receiver -/

/-- What a clock does to the receiver, as far as characters are concerned. -/
structure RxStep (s s' : UartRx) (ack : Bool) : Prop where
  idle : s'.rdy = true → s'.count = 0
  keep : s.rdy = true → ack = false → s'.rdy = true ∧ s'.data = s.data
  take : s.rdy = true → ack = true → s'.rdy = false

theorem rx_step {s : UartRx} (h : s.rdy = true → s.count = 0) (x ack : Bool) : RxStep s (s.step D x ack) ack := by
  obtain ⟨ph, sh, ct, rdy, ovf⟩ := s
  simp only at h
  by_cases hc : ct = 0
  · subst hc
    constructor
    · cases x <;> cases ack <;> cases rdy <;> simp [UartRx.step]
    · rintro h1 rfl
      simp only at h1
      subst h1
      cases x <;> simp [UartRx.step, UartRx.data]
    · rintro h1 rfl
      simp only at h1
      subst h1
      cases x <;> simp [UartRx.step]
  · have hr : rdy = false := by
      cases rdy
      · rfl
      · exact absurd (h rfl) hc
    subst hr
    refine ⟨?_, nofun, nofun⟩
    by_cases hp : ph = 0
    · subst hp
      simp [UartRx.step, hc]
      intro h1; omega
    · simp [UartRx.step, hc, hp]

/-! ## The invariant -/

/-- The handler has read from the serial port that there is a character, and has not read it yet. -/
def isrRx (s : Sys) : Bool :=
  match s.soft.isr with
  | some .rdInt => s.ser.ack && s.ser.datR.getLsbD 0
  | some (.gotInt v) => v.getLsbD 0
  | some (.rdRx _) => !s.ser.ack
  | _ => false

/-- A character has arrived, or that has been noted as an interrupt, or by the handler. -/
def rxTok (s : Sys) : Nat := (s.ser.rx.rdy && !s.ser.rxPrev).toNat + s.ser.rxIrq.toNat + (isrRx s).toNat

/-- The character that the handler has read and not stored yet. -/
def rxHand (s : Sys) : List (BitVec 8) :=
  match s.soft.isr with
  | some (.rdRx _) => if s.ser.ack then [s.ser.datR] else []
  | some (.gotRx _ d) => [d]
  | _ => []

/-- The character that the receiver holds. -/
def rxHeld (s : Sys) : List (BitVec 8) := if s.ser.rx.rdy then [bitsByte s.ser.rx.data] else []

structure RxInv (s : Sys) : Prop where
  idle : s.ser.rx.rdy = true → s.ser.rx.count = 0
  tok : rxTok s = s.ser.rx.rdy.toNat
  read : ∀ v, s.soft.isr = some (.rdRx v) → s.ser.ack = true → s.ser.rx.rdy = false

/-- A character is stored in `RX`. -/
def stored (i i' : Option Isr) : List (BitVec 8) :=
  match i, i' with
  | some (.gotRx _ d), some (.tx _) => [d]
  | _, _ => []

/-- A character becomes available. -/
def arrived (s s' : WbSerial) : List (BitVec 8) :=
  if !s.rx.rdy && s'.rx.rdy then [bitsByte s'.rx.data] else []

/-- A read of the data register. -/
def isDataRead : Option Access → Bool
  | some .serRx => true
  | _ => false

/-- A read of the interrupt register. -/
def isIntRead : Option Access → Bool
  | some .serInt => true
  | _ => false

theorem rxAck_eq (a : Option Access) : WbSerial.rxAck (serReq a) = isDataRead a := by
  rcases a with _ | (_ | _ | _ | _ | _ | _) <;> simp [WbSerial.rxAck, WbSerial.dataReq, serReq, isDataRead]

/-- What the serial port itself knows of a character. -/
def serTok (s : WbSerial) : Nat := (s.rx.rdy && !s.rxPrev).toNat + s.rxIrq.toNat

structure SerStep (a : Option Access) (s s' : WbSerial) : Prop where
  ack : s'.ack = ((a.map Access.isSer).getD false && !s.ack)
  idle : s'.rx.rdy = true → s'.rx.count = 0
  keep : s.rx.rdy = true → isDataRead a = false → s'.rx.rdy = true ∧ s'.rx.data = s.rx.data
  take : s.rx.rdy = true → isDataRead a = true → s'.rx.rdy = false
  /-- nothing is read -/
  tok : (isIntRead a = true → s.ack = true) → s.rx.rdy = true → serTok s ≤ 1 → serTok s' = serTok s
  none : s.rx.rdy = false → serTok s = 0 → serTok s' = s'.rx.rdy.toNat
  int : isIntRead a = true → s.ack = false → s.rx.rdy = true → serTok s ≤ 1 → serTok s' + (s'.datR.getLsbD 0).toNat = serTok s
  int0 : isIntRead a = true → s.ack = false → s.rx.rdy = false → serTok s = 0 → s'.datR.getLsbD 0 = false
  datR : isIntRead a = true → s.ack = true → s'.datR = s.datR
  data : isDataRead a = true → s.ack = false → s'.datR = bitsByte s.rx.data

theorem ser_step {s : WbSerial} (h : s.rx.rdy = true → s.rx.count = 0) (a : Option Access) (x : Bool) :
    SerStep a s (s.step D (serReq a) x) := by
  have w : RxStep s.rx (s.step D (serReq a) x).rx (isDataRead a) := by
    rw [← rxAck_eq]; exact rx_step h x _
  have ir : s.irqRead (serReq a) = (isIntRead a && !s.ack) := by
    rw [irqRead_eq]
    rcases a with _ | (_ | _ | _ | _ | _ | _) <;> simp [isIntRead]
  have hi : (s.step D (serReq a) x).rxIrq = (if s.rx.rdy && !s.rxPrev then true
    else if isIntRead a && !s.ack then false else s.rxIrq) := by rw [← ir]; rfl
  have hp : (s.step D (serReq a) x).rxPrev = s.rx.rdy := rfl
  have hd : isIntRead a = true → s.ack = false → (s.step D (serReq a) x).datR.getLsbD 0 = s.rxIrq := by
    intro h1 h2
    simp only [WbSerial.step, ir, h1, h2, Bool.not_false, Bool.true_and, if_true]
    cases s.txIrq <;> cases s.rxIrq <;> rfl
  obtain ⟨w1, w2, w3⟩ := w
  refine ⟨ser_ack a, w1, w2, w3, ?_, ?_, ?_, ?_, ?_, ?_⟩
  · intro h1 h2 h3
    have : isDataRead a = true ∨ isDataRead a = false := by cases isDataRead a <;> simp
    unfold serTok at h3 ⊢
    rw [hi, hp, h2]
    simp only [h2] at h3
    have : (isIntRead a && !s.ack) = false := by
      cases hx : isIntRead a
      · rfl
      · simp [h1 hx]
    rw [this]
    revert h3
    cases s.rxPrev <;> cases s.rxIrq <;> cases (s.step D (serReq a) x).rx.rdy <;> decide
  · intro h2 h3
    unfold serTok at h3 ⊢
    rw [hi, hp, h2]
    have : s.rxIrq = false := by
      cases hx : s.rxIrq
      · rfl
      · rw [hx] at h3; simp at h3
    cases isIntRead a && !s.ack <;> simp [this]
  · intro h1 h2 h3 h4
    rw [hd h1 h2]
    unfold serTok at h4 ⊢
    rw [hi, hp, h3, h1, h2]
    simp only [h3] at h4
    revert h4
    cases s.rxPrev <;> cases s.rxIrq <;> cases (s.step D (serReq a) x).rx.rdy <;> decide
  · intro h1 h2 h3 h4
    rw [hd h1 h2]
    cases hx : s.rxIrq
    · rfl
    · simp [serTok, hx] at h4
  · intro h1 h2
    rcases a with _ | (_ | _ | _ | _ | _ | _) <;> simp [isIntRead] at h1
    simp [WbSerial.step, WbSerial.irqRead, WbSerial.dataReq, serReq, h2]
  · intro h1 h2
    rcases a with _ | (_ | _ | _ | _ | _ | _) <;> simp [isDataRead] at h1
    simp [WbSerial.step, WbSerial.irqRead, WbSerial.dataReq, serReq, h2]

theorem rxInv_init (c : Bool) : RxInv (Sys.init c) := ⟨nofun, by cases c <;> rfl, nofun⟩

/-- Nothing happens to the characters. -/
theorem rx_quiet {a : Option Access} {s s' : Sys} (h : RxInv s) (w : SerStep a s.ser s'.ser) (hd : isDataRead a = false)
    (hn : isIntRead a = true → s.ser.ack = true) (hx : isrRx s' = isrRx s) (hh : rxHand s' = rxHand s)
    (hr : ∀ v, s'.soft.isr = some (.rdRx v) → s'.ser.ack = false) :
    RxInv s' ∧ rxHand s ++ rxHeld s ++ arrived s.ser s'.ser = rxHand s' ++ rxHeld s' := by
  obtain ⟨h1, h2, h3⟩ := h
  have h2' : serTok s.ser + (isrRx s).toNat = s.ser.rx.rdy.toNat := h2
  rw [hh, List.append_assoc]
  cases hrdy : s.ser.rx.rdy
  · rw [hrdy] at h2'
    have := w.none hrdy (by simp at h2'; omega)
    refine ⟨⟨w.idle, ?_, fun v h4 h5 => by rw [hr v h4] at h5; cases h5⟩, ?_⟩
    · show serTok s'.ser + (isrRx s').toNat = _
      rw [this, hx]; simp at h2'; simp [h2']
    · unfold rxHeld arrived
      cases s'.ser.rx.rdy <;> simp [hrdy]
  · rw [hrdy] at h2'
    have := w.tok hn hrdy (by simp at h2'; omega)
    obtain ⟨k1, k2⟩ := w.keep hrdy hd
    refine ⟨⟨w.idle, ?_, fun v h4 h5 => by rw [hr v h4] at h5; cases h5⟩, ?_⟩
    · show serTok s'.ser + (isrRx s').toNat = _
      rw [this, hx, k1]; exact h2'
    · simp [rxHeld, arrived, hrdy, k1, k2]

theorem rx_inv_step {s : Sys} (hi : Inv s) (h : RxInv s) (e : Env) :
    RxInv (s.step D e) ∧
    rxHand s ++ rxHeld s ++ arrived s.ser (s.step D e).ser =
      stored s.soft.isr (s.step D e).soft.isr ++ (rxHand (s.step D e) ++ rxHeld (s.step D e)) := by
  have ha := hi.ack
  have hmi := hi.isr
  have w := ser_step (D := D) h.idle s.soft.access e.rx
  have es : (s.step D e).ser = s.ser.step D (serReq s.soft.access) e.rx := rfl
  have ef : (s.step D e).soft = s.softNext e.act := rfl
  generalize s.step D e = s' at es ef ⊢
  rw [← es] at w
  clear es hi
  cases hs : s.soft.isr with
  | none =>
    have ha1 : isDataRead s.soft.access = false := by
      simp only [Soft.access, hs]; cases s.soft.main <;> rfl
    have ha2 : isIntRead s.soft.access = false := by
      simp only [Soft.access, hs]; cases s.soft.main <;> rfl
    have hs' : s'.soft.isr = none ∨ s'.soft.isr = some .enter := by
      rw [ef]
      unfold Sys.softNext
      split
      · split
        · simp [Soft.done, hs]
        · simp [hs]
      · split
        · simp [hs]
        · rw [hs]
          simp only
          split
          · simp
          · left
            rename_i op _ _
            unfold Soft.mainAct
            split <;> (try simp only [Soft.opAct]) <;> (try split) <;> (try split) <;> simp_all
    have := rx_quiet h w ha1 (fun h => by rw [ha2] at h; cases h)
      (by unfold isrRx; rcases hs' with h | h <;> rw [h, hs])
      (by unfold rxHand; rcases hs' with h | h <;> rw [h, hs])
      (by intro v h; rcases hs' with h' | h' <;> rw [h'] at h <;> cases h)
    exact this
  | some i =>
    have ac : s.soft.access = i.access := by simp [Soft.access, hs]
    have ra : s.ser.ack = true → (i.access.map Access.isSer).getD false = true := fun h => by rw [← ac]; exact ha h
    have wa := w.ack
    have sn := ef
    unfold Sys.softNext at sn
    rw [ac] at sn wa
    cases i with
    | enter =>
      have nx : s'.soft.isr = some .enter ∨ s'.soft.isr = some .rdTimer := by
        rw [sn]; simp only [Isr.access]
        cases e.act <;> simp [hs, Soft.isrAct]
      have q := rx_quiet h w (by rw [ac]; rfl) (by rw [ac]; nofun)
        (by unfold isrRx; rcases nx with h | h <;> rw [h, hs])
        (by unfold rxHand; rcases nx with h | h <;> rw [h, hs])
        (by intro v h; rcases nx with h' | h' <;> rw [h'] at h <;> cases h)
      rcases nx with h | h <;> rw [h] <;> exact q
    | rdTimer =>
      have nx : s'.soft.isr = some .rdTimer ∨ ∃ v, s'.soft.isr = some (.gotTimer v) := by
        rw [sn]; simp only [Isr.access]
        split <;> simp [hs, Soft.done, Isr.done]
      have q := rx_quiet h w (by rw [ac]; rfl) (by rw [ac]; nofun)
        (by unfold isrRx; rcases nx with h | ⟨v, h⟩ <;> rw [h, hs])
        (by unfold rxHand; rcases nx with h | ⟨v, h⟩ <;> rw [h, hs])
        (by intro v h; rcases nx with h' | ⟨_, h'⟩ <;> rw [h'] at h <;> cases h)
      rcases nx with h | ⟨v, h⟩ <;> rw [h] <;> exact q
    | gotTimer v =>
      have hak : s.ser.ack = false := by
        cases hx : s.ser.ack
        · rfl
        · have := ra hx; simp [Isr.access] at this
      have hak' : s'.ser.ack = false := by rw [wa]; simp [Isr.access]
      have nx : s'.soft.isr = some (.gotTimer v) ∨ s'.soft.isr = some .rdInt := by
        rw [sn]; simp only [Isr.access]
        cases e.act <;> simp [hs, Soft.isrAct]
      have q := rx_quiet h w (by rw [ac]; rfl) (by rw [ac]; nofun)
        (by unfold isrRx; rcases nx with h | h <;> rw [h, hs] <;> simp [hak'])
        (by unfold rxHand; rcases nx with h | h <;> rw [h, hs])
        (by intro v h; rcases nx with h' | h' <;> rw [h'] at h <;> cases h)
      rcases nx with h | h <;> rw [h] <;> exact q
    | rdInt =>
      cases hak : s.ser.ack with
      | false =>
        have nx : s'.soft.isr = some .rdInt := by
          rw [sn]; simp only [Isr.access, Sys.reply, hak]
          simp [hs]
        have hak' : s'.ser.ack = true := by rw [wa, hak]; rfl
        have hI : isIntRead s.soft.access = true := by rw [ac]; rfl
        have hD : isDataRead s.soft.access = false := by rw [ac]; rfl
        have x0 : isrRx s = false := by simp [isrRx, hs, hak]
        have x1 : isrRx s' = s'.ser.datR.getLsbD 0 := by simp [isrRx, nx, hak']
        have t0 : serTok s.ser + (isrRx s).toNat = s.ser.rx.rdy.toNat := h.tok
        have g0 : rxHand s = [] := by simp [rxHand, hs]
        have g1 : rxHand s' = [] := by simp [rxHand, nx]
        have g2 : stored (some .rdInt) s'.soft.isr = [] := by rw [nx]; rfl
        rw [g0, g1, g2]
        rw [x0] at t0
        cases hr : s.ser.rx.rdy with
        | false =>
          rw [hr] at t0
          have t1 : serTok s.ser = 0 := by simpa using t0
          refine ⟨⟨w.idle, ?_, by rw [nx]; nofun⟩, ?_⟩
          · show serTok s'.ser + (isrRx s').toNat = _
            rw [x1, w.int0 hI hak hr t1, w.none hr t1]; rfl
          · unfold rxHeld arrived
            cases s'.ser.rx.rdy <;> simp [hr]
        | true =>
          rw [hr] at t0
          have t1 : serTok s.ser = 1 := by simpa using t0
          obtain ⟨k1, k2⟩ := w.keep hr hD
          refine ⟨⟨w.idle, ?_, by rw [nx]; nofun⟩, ?_⟩
          · show serTok s'.ser + (isrRx s').toNat = _
            rw [x1, w.int hI hak hr (by omega), t1, k1]; rfl
          · simp [rxHeld, arrived, hr, k1, k2]
      | true =>
        have nx : s'.soft.isr = some (.gotInt s.ser.datR) := by
          rw [sn]; simp only [Isr.access, Sys.reply, hak, if_true]
          simp [Soft.done, hs, Isr.done]
        have q := rx_quiet h w (by rw [ac]; rfl) (fun _ => hak)
          (by simp [isrRx, nx, hs, hak])
          (by simp [rxHand, nx, hs])
          (by intro v h; rw [nx] at h; cases h)
        rw [nx]; exact q
    | gotInt v =>
      have hak : s.ser.ack = false := by
        cases hx : s.ser.ack
        · rfl
        · have := ra hx; simp [Isr.access] at this
      have hak' : s'.ser.ack = false := by rw [wa]; simp [Isr.access]
      have nx : s'.soft.isr = some (.gotInt v) ∨ (v.getLsbD 0 = true ∧ s'.soft.isr = some (.rdRx v)) ∨
          (v.getLsbD 0 = false ∧ s'.soft.isr = some (.tx v)) := by
        rw [sn]; simp only [Isr.access]
        cases e.act
        · simp [hs]
        · cases hv : v.getLsbD 0 <;> simp [hs, Soft.isrAct, -BitVec.getLsbD_eq_getElem, hv]
      have q := rx_quiet h w (by rw [ac]; rfl) (by rw [ac]; nofun)
        (by unfold isrRx; rcases nx with h | ⟨hv, h⟩ | ⟨hv, h⟩ <;> rw [h, hs] <;> simp [hak', -BitVec.getLsbD_eq_getElem, hv])
        (by unfold rxHand; rcases nx with h | ⟨_, h⟩ | ⟨_, h⟩ <;> rw [h, hs] <;> simp [hak'])
        (fun _ _ => hak')
      rcases nx with h | ⟨_, h⟩ | ⟨_, h⟩ <;> rw [h] <;> exact q
    | rdRx v =>
      have hD : isDataRead s.soft.access = true := by rw [ac]; rfl
      have hI : isIntRead s.soft.access = true → s.ser.ack = true := by rw [ac]; nofun
      have t0 : serTok s.ser + (isrRx s).toNat = s.ser.rx.rdy.toNat := h.tok
      cases hak : s.ser.ack with
      | false =>
        have nx : s'.soft.isr = some (.rdRx v) := by
          rw [sn]; simp only [Isr.access, Sys.reply, hak]
          simp [hs]
        have hak' : s'.ser.ack = true := by rw [wa, hak]; rfl
        have x0 : isrRx s = true := by simp [isrRx, hs, hak]
        have x1 : isrRx s' = false := by simp [isrRx, nx, hak']
        rw [x0] at t0
        have hr : s.ser.rx.rdy = true := by
          cases hr : s.ser.rx.rdy
          · rw [hr] at t0; simp at t0
          · rfl
        rw [hr] at t0
        have t1 : serTok s.ser = 0 := by simpa using t0
        have k := w.take hr hD
        refine ⟨⟨w.idle, ?_, fun _ _ _ => k⟩, ?_⟩
        · show serTok s'.ser + (isrRx s').toNat = _
          rw [x1, w.tok hI hr (by omega), t1, k]; rfl
        · simp [rxHand, rxHeld, arrived, hs, nx, hak, hak', hr, k, w.data hD hak, stored]
      | true =>
        have hr := h.read v hs hak
        have nx : s'.soft.isr = some (.gotRx v s.ser.datR) := by
          rw [sn]; simp only [Isr.access, Sys.reply, hak, if_true]
          simp [Soft.done, hs, Isr.done]
        have x0 : isrRx s = false := by simp [isrRx, hs, hak]
        have x1 : isrRx s' = false := by simp [isrRx, nx]
        rw [x0, hr] at t0
        have t1 : serTok s.ser = 0 := by simpa using t0
        refine ⟨⟨w.idle, ?_, by rw [nx]; nofun⟩, ?_⟩
        · show serTok s'.ser + (isrRx s').toNat = _
          rw [x1, w.none hr t1]; rfl
        · unfold rxHeld arrived
          cases s'.ser.rx.rdy <;> simp [hr, rxHand, hs, nx, hak, stored]
    | gotRx v d =>
      have hak' : s'.ser.ack = false := by rw [wa]; simp [Isr.access]
      cases hact : e.act with
      | none =>
        have nx : s'.soft.isr = some (.gotRx v d) := by rw [sn, hact]; simp [Isr.access, hs]
        have q := rx_quiet h w (by rw [ac]; rfl) (by rw [ac]; nofun) (by simp [isrRx, nx, hs]) (by simp [rxHand, nx, hs])
          (fun _ _ => hak')
        rw [nx]; exact q
      | some op =>
        have nx : s'.soft.isr = some (.tx v) := by rw [sn, hact]; simp [Isr.access, hs, Soft.isrAct]
        have t0 : serTok s.ser + (isrRx s).toNat = s.ser.rx.rdy.toNat := h.tok
        have x0 : isrRx s = false := by simp [isrRx, hs]
        have x1 : isrRx s' = false := by simp [isrRx, nx]
        have hD : isDataRead s.soft.access = false := by rw [ac]; rfl
        have hI : isIntRead s.soft.access = true → s.ser.ack = true := by rw [ac]; nofun
        rw [x0] at t0
        cases hr : s.ser.rx.rdy with
        | false =>
          rw [hr] at t0
          have t1 : serTok s.ser = 0 := by simpa using t0
          refine ⟨⟨w.idle, ?_, by rw [nx]; nofun⟩, ?_⟩
          · show serTok s'.ser + (isrRx s').toNat = _
            rw [x1, w.none hr t1]; rfl
          · unfold rxHeld arrived
            cases s'.ser.rx.rdy <;> simp [hr, rxHand, hs, nx, stored]
        | true =>
          rw [hr] at t0
          have t1 : serTok s.ser = 1 := by simpa using t0
          obtain ⟨k1, k2⟩ := w.keep hr hD
          refine ⟨⟨w.idle, ?_, by rw [nx]; nofun⟩, ?_⟩
          · show serTok s'.ser + (isrRx s').toNat = _
            rw [x1, w.tok hI hr (by omega), t1, k1]; rfl
          · simp [rxHeld, arrived, hr, k1, k2, rxHand, hs, nx, stored]
    | tx v =>
      have nx : s'.soft.isr = some (.tx v) ∨ (∃ m, s'.soft.isr = some (.deq m)) ∨ s'.soft.isr = some .leave := by
        rw [sn]; simp only [Isr.access]
        cases e.act
        · simp [hs]
        · cases hv : v.getLsbD 1 <;> simp [hs, Soft.isrAct, -BitVec.getLsbD_eq_getElem, hv]
      have q := rx_quiet h w (by rw [ac]; rfl) (by rw [ac]; nofun)
        (by unfold isrRx; rcases nx with h | ⟨v, h⟩ | h <;> rw [h, hs])
        (by unfold rxHand; rcases nx with h | ⟨v, h⟩ | h <;> rw [h, hs])
        (by intro v h; rcases nx with h' | ⟨_, h'⟩ | h' <;> rw [h'] at h <;> cases h)
      rcases nx with h | ⟨v, h⟩ | h <;> rw [h] <;> exact q
    | deq m =>
      have nx : s'.soft.isr = some (.deq m) ∨ (∃ m, s'.soft.isr = some (.send m)) ∨ s'.soft.isr = some .leave := by
        rw [sn]; simp only [Isr.access]
        cases e.act
        · simp [hs]
        · cases hv : s.soft.busy <;> cases m <;> simp [hs, Soft.isrAct, hv]
      have q := rx_quiet h w (by rw [ac]; rfl) (by rw [ac]; nofun)
        (by unfold isrRx; rcases nx with h | ⟨v, h⟩ | h <;> rw [h, hs])
        (by unfold rxHand; rcases nx with h | ⟨v, h⟩ | h <;> rw [h, hs])
        (by intro v h; rcases nx with h' | ⟨_, h'⟩ | h' <;> rw [h'] at h <;> cases h)
      rcases nx with h | ⟨v, h⟩ | h <;> rw [h] <;> exact q
    | send b =>
      have nx : s'.soft.isr = some (.send b) ∨ s'.soft.isr = some .leave := by
        rw [sn]; simp only [Isr.access]
        split <;> simp [hs, Soft.done, Isr.done]
      have q := rx_quiet h w (by rw [ac]; rfl) (by rw [ac]; nofun)
        (by unfold isrRx; rcases nx with h | h <;> rw [h, hs])
        (by unfold rxHand; rcases nx with h | h <;> rw [h, hs])
        (by intro v h; rcases nx with h' | h' <;> rw [h'] at h <;> cases h)
      rcases nx with h | h <;> rw [h] <;> exact q
    | leave =>
      have nx : s'.soft.isr = some .leave ∨ s'.soft.isr = none := by
        rw [sn]; simp only [Isr.access]
        cases e.act <;> simp [hs, Soft.isrAct]
      have q := rx_quiet h w (by rw [ac]; rfl) (by rw [ac]; nofun)
        (by unfold isrRx; rcases nx with h | h <;> rw [h, hs])
        (by unfold rxHand; rcases nx with h | h <;> rw [h, hs])
        (by intro v h; rcases nx with h' | h' <;> rw [h'] at h <;> cases h)
      rcases nx with h | h <;> rw [h] <;> exact q

variable {e : Nat → Env}

theorem rxInv_at (e : Nat → Env) (n : Nat) : RxInv (Sys.at_ D e n) := by
  induction n with
  | zero => exact rxInv_init _
  | succ n ih => exact (rx_inv_step (D := D) (inv_at e n) ih (e n)).1

theorem storing_eq (n : Nat) : (storing D e n).toList = stored (Sys.at_ D e n).soft.isr (Sys.at_ D e (n + 1)).soft.isr := by
  unfold storing stored
  rcases (Sys.at_ D e n).soft.isr with _ | (_ | _ | _ | _ | _ | _ | _ | _ | _ | _ | _) <;>
    rcases (Sys.at_ D e (n + 1)).soft.isr with _ | (_ | _ | _ | _ | _ | _ | _ | _ | _ | _ | _) <;> rfl

theorem received_eq (n : Nat) : received D e n = stores D e n ++ (rxHand (Sys.at_ D e n) ++ rxHeld (Sys.at_ D e n)) := by
  induction n with
  | zero => rfl
  | succ n ih =>
    have h := (rx_inv_step (D := D) (s := Sys.at_ D e n) (inv_at e n) (rxInv_at e n) (e n)).2
    rw [received, stores, storing_eq, ih]
    change _ ++ arrived _ _ = _
    rw [List.append_assoc, List.append_assoc (stores D e n)]
    exact congrArg _ h

theorem isr_none_step {e : Nat → Env} {n : Nat} (hs : (Sys.at_ D e n).soft.isr = none) :
    (Sys.at_ D e (n + 1)).soft.isr = none ∨ (Sys.at_ D e (n + 1)).soft.isr = some .enter := by
  rw [soft_succ]
  generalize Sys.at_ D e n = s at *
  unfold Sys.softNext
  split
  · split
    · simp [Soft.done, hs]
    · simp [hs]
  · split
    · simp [hs]
    · rw [hs]
      simp only
      split
      · simp
      · left
        rename_i op _ _
        unfold Soft.mainAct
        split <;> (try simp only [Soft.opAct]) <;> (try split) <;> (try split) <;> simp_all

/-! ## Progress -/

/-- The handler is on its way to store a character. -/
def Storing (s : Sys) : Prop :=
  match s.soft.isr with
  | some .enter | some .rdTimer | some (.gotTimer _) => s.ser.rxIrq = true
  | some .rdInt => if s.ser.ack then s.ser.datR.getLsbD 0 = true else s.ser.rxIrq = true
  | some (.gotInt v) => v.getLsbD 0 = true
  | some (.rdRx _) | some (.gotRx _ _) => True
  | _ => False

theorem rxIrq_keep {s : WbSerial} {r : WbReq} {rx : Bool} (h : s.rxIrq = true) (h1 : s.irqRead r = false) :
    (s.step D r rx).rxIrq = true := by
  simp [WbSerial.step, h, h1]

theorem storing_step {s : Sys} (h : Storing s) (e : Env) (h0 : stored s.soft.isr (s.step D e).soft.isr = []) :
    Storing (s.step D e) := by
  have es : (s.step D e).ser = s.ser.step D (serReq s.soft.access) e.rx := rfl
  have ef : (s.step D e).soft = s.softNext e.act := rfl
  generalize s.step D e = s' at es ef h0 ⊢
  have k1 := rxIrq_keep (D := D) (s := s.ser) (r := serReq s.soft.access) (rx := e.rx)
  rw [irqRead_eq] at k1
  have k2 := ser_ack (D := D) (s := s.ser) (rx := e.rx) s.soft.access
  have k3 : s.soft.access = some .serInt → s.ser.ack = false →
      (s.ser.step D (serReq s.soft.access) e.rx).datR.getLsbD 0 = s.ser.rxIrq := by
    intro h1 h2
    rw [h1]
    simp only [WbSerial.step, irqRead_eq, h2, Bool.not_false, Bool.true_and, if_true]
    cases s.ser.txIrq <;> cases s.ser.rxIrq <;> rfl
  rw [← es] at k1 k2 k3
  clear es
  obtain ⟨⟨q, busy, box, cnt, main, isr⟩, ser, tm, ld⟩ := s
  obtain ⟨soft', ser', tm', ld'⟩ := s'
  simp only at *
  subst ef
  rcases isr with _ | i
  · exact absurd h id
  · cases i
    case enter | gotTimer v =>
      cases hact : e.act <;>
        simp [Storing, Sys.softNext, Soft.access, Isr.access, Soft.isrAct, hact] at h k1 k2 ⊢ <;>
        simp_all [Access.isSer]
    case rdTimer =>
      cases htm : tm.ack <;>
        simp [Storing, Sys.softNext, Soft.access, Isr.access, Soft.done, Isr.done, Sys.reply, htm] at h k1 k2 ⊢ <;>
        simp_all
    case rdInt =>
      cases hak : ser.ack <;>
        simp [-BitVec.getLsbD_eq_getElem, Storing, Sys.softNext, Soft.access, Isr.access, Soft.done, Isr.done, Sys.reply, hak, Access.isSer] at h k1 k2 k3 ⊢
      · simp only [k2, if_true]
        rw [k3]; exact h
      · exact h
    case rdRx v =>
      cases hak : ser.ack <;>
        simp [-BitVec.getLsbD_eq_getElem, Storing, Sys.softNext, Soft.access, Isr.access, Soft.done, Isr.done, Sys.reply, hak, Access.isSer] at h ⊢
    case gotInt v =>
      have h : v.getLsbD 0 = true := h
      cases hact : e.act <;>
        simp [-BitVec.getLsbD_eq_getElem, Storing, Sys.softNext, Soft.access, Isr.access, Soft.isrAct, hact, h]
    case gotRx v d =>
      cases hact : e.act <;>
        simp [-BitVec.getLsbD_eq_getElem, Storing, Sys.softNext, Soft.access, Isr.access, Soft.isrAct, hact, stored] at h0 ⊢
    case tx v => exact absurd h id
    case deq m => exact absurd h id
    case send b => exact absurd h id
    case leave => exact absurd h id

/-- A character that has been received gets stored. -/
theorem held_stored (ha : ∀ n, ∃ m ≥ n, (e m).act.isSome = true)
    (hen : ∀ n, ∃ m ≥ n, (Sys.at_ D e m).soft.main.enabled = true) {n : Nat}
    (h : rxHand (Sys.at_ D e n) ++ rxHeld (Sys.at_ D e n) ≠ []) :
    ∃ m ≥ n, stored (Sys.at_ D e m).soft.isr (Sys.at_ D e (m + 1)).soft.isr ≠ [] := by
  by_contra hno
  have h0 : ∀ m ≥ n, stored (Sys.at_ D e m).soft.isr (Sys.at_ D e (m + 1)).soft.isr = [] := fun m hm => by
    by_contra hx; exact hno ⟨m, hm, hx⟩
  clear hno
  have held : ∀ m ≥ n, rxHand (Sys.at_ D e m) ++ rxHeld (Sys.at_ D e m) ≠ [] := by
    intro m hm
    obtain ⟨d, rfl⟩ := Nat.exists_eq_add_of_le hm
    clear hm
    induction d with
    | zero => exact h
    | succ d ih =>
      have := (rx_inv_step (D := D) (s := Sys.at_ D e (n + d)) (inv_at e (n + d)) (rxInv_at e (n + d)) (e (n + d))).2
      change _ = stored _ (Sys.at_ D e (n + d + 1)).soft.isr ++ (rxHand (Sys.at_ D e (n + d + 1)) ++ rxHeld (Sys.at_ D e (n + d + 1))) at this
      rw [h0 (n + d) (by omega), List.nil_append] at this
      intro hx
      have hx' : rxHand (Sys.at_ D e (n + d + 1)) ++ rxHeld (Sys.at_ D e (n + d + 1)) = [] := hx
      rw [hx'] at this
      exact ih (List.append_eq_nil_iff.1 this).1
  -- while the handler is not running or has just been entered, the character is in the serial port
  have tok : ∀ m ≥ n, (Sys.at_ D e m).soft.isr = none ∨ (Sys.at_ D e m).soft.isr = some .enter →
      serTok (Sys.at_ D e m).ser = 1 ∧ (Sys.at_ D e m).ser.rx.rdy = true := by
    intro m hm hi
    have h1 := held m hm
    have h2 : rxHand (Sys.at_ D e m) = [] := by unfold rxHand; rcases hi with hi | hi <;> rw [hi]
    have h3 : isrRx (Sys.at_ D e m) = false := by unfold isrRx; rcases hi with hi | hi <;> rw [hi]
    rw [h2, List.nil_append] at h1
    have h4 : (Sys.at_ D e m).ser.rx.rdy = true := by
      by_contra hx
      apply h1
      simp [rxHeld, hx]
    have h5 : serTok (Sys.at_ D e m).ser + (isrRx (Sys.at_ D e m)).toNat = _ := (rxInv_at (D := D) e m).tok
    rw [h3, h4] at h5
    exact ⟨by simpa using h5, h4⟩
  -- in the next cycle the interrupt is pending
  have pend : ∀ m ≥ n, (Sys.at_ D e m).soft.isr = none → (Sys.at_ D e (m + 1)).ser.rxIrq = true := by
    intro m hm hi
    obtain ⟨h1, h2⟩ := tok m hm (.inl hi)
    have hnr : (Sys.at_ D e m).ser.irqRead (serReq (Sys.at_ D e m).soft.access) = false := by
      rw [irqRead_eq]
      simp only [Soft.access, hi]
      cases (Sys.at_ D e m).soft.main <;> simp [Main.access]
    have hx : (Sys.at_ D e (m + 1)).ser = (Sys.at_ D e m).ser.step D (serReq (Sys.at_ D e m).soft.access) (e m).rx := rfl
    rw [hx]
    simp only [WbSerial.step, hnr]
    simp only [serTok, h2] at h1 ⊢
    cases hp : (Sys.at_ D e m).ser.rxPrev <;> simp [hp] at h1 ⊢
    exact h1
  have keep : ∀ m, (Sys.at_ D e m).soft.isr = none → (Sys.at_ D e m).ser.rxIrq = true → (Sys.at_ D e (m + 1)).ser.rxIrq = true := by
    intro m hi hr
    have hnr : (Sys.at_ D e m).ser.irqRead (serReq (Sys.at_ D e m).soft.access) = false := by
      rw [irqRead_eq]
      simp only [Soft.access, hi]
      cases (Sys.at_ D e m).soft.main <;> simp [Main.access]
    exact rxIrq_keep hr hnr
  -- once the handler is not running, the interrupt is pending or the handler is on its way
  obtain ⟨m1, hm1, no1, -⟩ := isr_leaves (D := D) ha n
  have way : ∀ d, Storing (Sys.at_ D e (m1 + 1 + d)) ∨
      ((Sys.at_ D e (m1 + 1 + d)).soft.isr = none ∧ (Sys.at_ D e (m1 + 1 + d)).ser.rxIrq = true) := by
    have one : ∀ m, (Sys.at_ D e m).soft.isr = none → (Sys.at_ D e (m + 1)).ser.rxIrq = true →
        Storing (Sys.at_ D e (m + 1)) ∨ ((Sys.at_ D e (m + 1)).soft.isr = none ∧ (Sys.at_ D e (m + 1)).ser.rxIrq = true) := by
      intro m hi hr
      rcases isr_none_step (D := D) (e := e) hi with h | h
      · exact .inr ⟨h, hr⟩
      · left; unfold Storing; rw [h]; exact hr
    intro d
    induction d with
    | zero => exact one m1 no1 (pend m1 hm1 no1)
    | succ d ih =>
      rcases ih with ih | ⟨h1, h2⟩
      · exact .inl (storing_step ih _ (h0 (m1 + 1 + d) (by omega)))
      · exact one _ h1 (keep _ h1 h2)
  have way' : ∀ m ≥ m1 + 1, Storing (Sys.at_ D e m) ∨
      ((Sys.at_ D e m).soft.isr = none ∧ (Sys.at_ D e m).ser.rxIrq = true) := by
    intro m hm
    obtain ⟨d, rfl⟩ := Nat.exists_eq_add_of_le hm
    exact way d
  -- wait until the handler is not running and interrupts are enabled
  obtain ⟨m2, hm2, en2⟩ := hen (m1 + 1)
  obtain ⟨m3, hm3, no3, eq3⟩ := isr_leaves ha m2
  have en3 : (Sys.at_ D e m3).soft.main.enabled = true := by rw [eq3]; exact en2
  -- and no bus access is going on
  obtain ⟨m4, hm4, no4, en4, ac4⟩ : ∃ m ≥ m3, (Sys.at_ D e m).soft.isr = none ∧
      (Sys.at_ D e m).soft.main.enabled = true ∧ (Sys.at_ D e m).soft.access = none := by
    cases hac : (Sys.at_ D e m3).soft.access with
    | none => exact ⟨m3, by omega, no3, en3, hac⟩
    | some a =>
      obtain ⟨m, d, h1, h2⟩ := access_done hac
      refine ⟨m, by omega, ?_⟩
      rw [h2]
      exact done_enabled no3 en3 hac d
  obtain ⟨m5, op, hm5, ac5, eq5⟩ := wait_act ha ac4
  have no5 : (Sys.at_ D e m5).soft.isr = none := by rw [eq5]; exact no4
  have q5 : (Sys.at_ D e m5).ser.rxIrq = true := by
    rcases way' m5 (by omega) with h | h
    · unfold Storing at h; rw [no5] at h; exact absurd h id
    · exact h.2
  have i6 : (Sys.at_ D e (m5 + 1)).soft.isr = some .enter := by
    rw [soft_succ]
    unfold Sys.softNext
    rw [eq5, ac4, ac5, no4]
    simp only [en4, Sys.irq, WbSerial.irq]
    rw [q5]
    simp
  have s6 : Storing (Sys.at_ D e (m5 + 1)) := by
    rcases way' (m5 + 1) (by omega) with h | h
    · exact h
    · rw [i6] at h; cases h.1
  have s7 : ∀ m ≥ m5 + 1, Storing (Sys.at_ D e m) := by
    intro m hm
    obtain ⟨d, rfl⟩ := Nat.exists_eq_add_of_le hm
    clear hm
    induction d with
    | zero => exact s6
    | succ d ih => exact storing_step ih _ (h0 (m5 + 1 + d) (by omega))
  obtain ⟨m8, hm8, no8, -⟩ := isr_leaves ha (m5 + 1)
  have := s7 m8 hm8
  unfold Storing at this
  rw [no8] at this
  exact this

end Sentinel.Fw
