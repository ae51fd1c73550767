import Verif.Soc.Firmware
import Mathlib.Tactic.Common
/-!
# Invariants of the serial driver of the firmware
-/

set_option linter.unusedSimpArgs false

namespace Sentinel.Fw

/-! ## The transmitter and its interrupt -/

/-- The transmitter is busy, or has become ready, or that has been noted as an interrupt. -/
def hwTok (s : WbSerial) : Nat :=
  (decide (s.tx.count ≠ 0)).toNat + (decide (s.tx.count = 0) && !s.txPrev).toNat + s.txIrq.toNat

variable {D : Nat} {s : WbSerial} {r : WbReq} {rx : Bool}

theorem hwTok_idle (h : hwTok s ≤ 1) (h1 : s.txRdy r = false) (h2 : s.irqRead r = false) :
    hwTok (s.step D r rx) = hwTok s := by
  simp only [hwTok, WbSerial.step, UartTx.step, h1, h2, UartTx.ack] at h ⊢
  rcases s with ⟨⟨ph, sh, ct⟩, _, _, _, _, _, ti, tp⟩
  by_cases hc : ct = 0
  · subst hc
    cases ti <;> cases tp <;> simp at h ⊢
  · cases ti <;> cases tp <;> simp [hc] at h ⊢
    all_goals
      by_cases hp : ph = 0 <;> simp [hc, hp]
      by_cases h3 : ct = 1
      · subst h3; rfl
      · have : ¬ ct - 1 = 0 := by omega
        simp [this]

theorem hwTok_read (h : hwTok s ≤ 1) (h1 : s.txRdy r = false) (h2 : s.irqRead r = true) :
    hwTok (s.step D r rx) + ((s.step D r rx).datR.getLsbD 1).toNat = hwTok s := by
  have e : (s.step D r rx).datR.getLsbD 1 = s.txIrq := by
    simp only [WbSerial.step, h2, if_true]
    cases s.txIrq <;> cases s.rxIrq <;> rfl
  rw [e]
  simp only [hwTok, WbSerial.step, UartTx.step, h1, h2, UartTx.ack] at h ⊢
  rcases s with ⟨⟨ph, sh, ct⟩, _, _, _, _, _, ti, tp⟩
  by_cases hc : ct = 0
  · subst hc
    cases ti <;> cases tp <;> simp at h ⊢
  · cases ti <;> cases tp <;> simp [hc] at h ⊢
    all_goals
      by_cases hp : ph = 0 <;> simp [hc, hp]
      by_cases h3 : ct = 1
      · subst h3; rfl
      · have : ¬ ct - 1 = 0 := by omega
        simp [this]

theorem hwTok_send (h : hwTok s = 0) (hl : s.tx.shreg.length = 10) (h1 : s.txRdy r = true)
    (h2 : s.irqRead r = false) : hwTok (s.step D r rx) = 1 := by
  simp only [hwTok, WbSerial.step, UartTx.step, h1, h2, UartTx.ack] at h ⊢
  rcases s with ⟨⟨ph, sh, ct⟩, _, _, _, _, _, ti, tp⟩
  have hl : sh.length = 10 := hl
  by_cases hc : ct = 0
  · subst hc
    cases ti <;> cases tp <;> simp [hl] at h ⊢
  · cases ti <;> cases tp <;> simp [hc] at h ⊢

theorem ready_of_tok (h : hwTok s = 0) : s.tx.count = 0 := by
  unfold hwTok at h
  by_contra hc
  simp [hc] at h

theorem len_step (hl : s.tx.shreg.length = 10) (hb : (byteBits r.datW).length = 8) :
    (s.step D r rx).tx.shreg.length = 10 := by
  simp only [WbSerial.step, UartTx.step]
  split
  · split
    · simp [hb]
    · exact hl
  · split
    · exact hl
    · simp [hl]

theorem ready_step (h : s.tx.count = 0) (h1 : s.txRdy r = false) :
    (s.step D r rx).tx.count = 0 ∧ (s.step D r rx).txPrev = true := by
  simp [WbSerial.step, UartTx.step, h, h1, UartTx.ack]

/-! ## Requests -/

/-- An access to the serial port. -/
def Access.isSer : Access → Bool
  | .serInt | .serRx | .serTx _ => true
  | _ => false

theorem ser_ack (a : Option Access) : (s.step D (serReq a) rx).ack =
    ((a.map Access.isSer).getD false && !s.ack) := by
  rcases a with _ | (_ | _ | _ | _ | _ | _) <;> simp [WbSerial.step, serReq, Access.isSer]

theorem txRdy_eq (a : Option Access) : s.txRdy (serReq a) =
    (s.ack && match a with | some (.serTx _) => true | _ => false) := by
  rcases a with _ | (_ | _ | _ | _ | _ | _) <;> simp [WbSerial.txRdy, WbSerial.dataReq, serReq]

theorem irqRead_eq (a : Option Access) : s.irqRead (serReq a) =
    (!s.ack && match a with | some .serInt => true | _ => false) := by
  rcases a with _ | (_ | _ | _ | _ | _ | _) <;> simp [WbSerial.irqRead, serReq]

/-! ## The invariant of the transmit path -/

/-- The handler has read from the serial port that the transmitter had become ready, and has not acted
on it yet. -/
def isrTok (s : Sys) : Bool :=
  match s.soft.isr with
  | some .rdInt => s.ser.ack && s.ser.datR.getLsbD 1
  | some (.gotInt v) | some (.rdRx v) | some (.gotRx v _) | some (.tx v) => v.getLsbD 1
  | some (.deq _) => true
  | _ => false

/-- All places together. -/
def tok (s : Sys) : Nat := hwTok s.ser + (isrTok s).toNat

/-- While a transmission is in progress there is exactly one sign that it will end; else the transmitter
is ready. -/
def TokOk (s : Sys) : Prop :=
  if s.soft.busy then
    match s.soft.isr with
    | some (.send _) => tok s = 0
    | _ => tok s = 1
  else if s.soft.main.enabled then tok s ≤ 1 ∧ s.ser.tx.count = 0 ∧ s.ser.txPrev = true
  else
    match s.soft.main with
    | .flag _ _ => tok s = 1
    | .start => tok s ≤ 1 ∧ s.ser.tx.count = 0
    | _ => tok s = 0

structure Inv (s : Sys) : Prop where
  len : s.ser.tx.shreg.length = 10
  ack : s.ser.ack = true → (s.soft.access.map Access.isSer).getD false = true
  isr : s.soft.isr ≠ none → s.soft.main.enabled = true ∧ s.soft.main.access = none
  idle : s.soft.busy = false → s.soft.queue = [] ∧ ∀ b, s.soft.isr ≠ some (.send b) ∧ s.soft.isr ≠ some (.deq (some b))
  deq : s.soft.isr = some (.deq none) → s.soft.queue = []
  flag : ∀ n b, s.soft.main = .send n b ∨ s.soft.main = .flag n b → s.soft.busy = false
  tok : TokOk s

theorem inv_init (c : Bool) : Inv (Sys.init c) := by
  refine ⟨rfl, ?_, ?_, ?_, ?_, ?_, ?_⟩
  · intro h; cases h
  · intro h; exact absurd rfl h
  · intro _; exact ⟨rfl, fun b => ⟨nofun, nofun⟩⟩
  · intro h; cases h
  · intro n b h; rcases h with h | h <;> cases h
  · show tok (Sys.init c) ≤ 1 ∧ _
    cases c <;> exact ⟨by decide, rfl⟩

theorem byteBits_len (b : BitVec 8) : (byteBits b).length = 8 := by simp [byteBits]

/-- What a clock does to the serial port, as far as the invariant is concerned. -/
structure HwStep (a : Option Access) (s s' : WbSerial) : Prop where
  len : s'.tx.shreg.length = 10
  ack : s'.ack = ((a.map Access.isSer).getD false && !s.ack)
  send : ∀ b, a = some (.serTx b) → s.ack = true → hwTok s = 0 → hwTok s' = 1
  read : a = some .serInt → s.ack = false → hwTok s' + (s'.datR.getLsbD 1).toNat = hwTok s
  keep : (∀ b, a = some (.serTx b) → s.ack = false) → (a = some .serInt → s.ack = true) → hwTok s' = hwTok s
  datR : a = some .serInt → s.ack = true → s'.datR = s.datR
  ready : (∀ b, a = some (.serTx b) → s.ack = false) → s.tx.count = 0 → s'.tx.count = 0 ∧ s'.txPrev = true

theorem hw_step (hl : s.tx.shreg.length = 10) (hle : hwTok s ≤ 1) (a : Option Access) :
    HwStep a s (s.step D (serReq a) rx) := by
  refine ⟨len_step hl (byteBits_len _), ser_ack a, ?_, ?_, ?_, ?_, ?_⟩
  · rintro b rfl h1 h2
    exact hwTok_send h2 hl (by simp [txRdy_eq, h1]) (by simp [irqRead_eq, h1])
  · rintro rfl h1
    exact hwTok_read hle (by simp [txRdy_eq, h1]) (by simp [irqRead_eq, h1])
  · intro h1 h2
    refine hwTok_idle hle ?_ ?_
    · rw [txRdy_eq]
      split
      · next b => simp [h1 b rfl]
      · simp
    · rw [irqRead_eq]
      split
      · simp [h2 rfl]
      · simp
  · rintro rfl h1
    simp [WbSerial.step, WbSerial.irqRead, WbSerial.dataReq, serReq, h1]
  · intro h1 h2
    refine ready_step h2 ?_
    rw [txRdy_eq]
    split
    · next b => simp [h1 b rfl]
    · simp

theorem tok_le {s : Sys} (ht : TokOk s) : tok s ≤ 1 := by
  unfold TokOk at ht
  split at ht
  · split at ht <;> omega
  · split at ht
    · exact ht.1
    · split at ht <;> omega

theorem tokOk_enabled {s : Sys} (h : s.soft.main.enabled = true) : TokOk s ↔
    if s.soft.busy then
      match s.soft.isr with
      | some (.send _) => tok s = 0
      | _ => tok s = 1
    else tok s ≤ 1 ∧ s.ser.tx.count = 0 ∧ s.ser.txPrev = true := by
  unfold TokOk
  rw [if_pos h]

theorem flag_enabled {m : Main} (h : m.enabled = true) (n : Bool) (b : BitVec 8) :
    ¬ (m = .send n b ∨ m = .flag n b) := by
  rintro (rfl | rfl) <;> cases h

theorem inv_isr {s : Sys} {e : Env} {i : Isr} (h : Inv s) (hs : s.soft.isr = some i) : Inv (s.step D e) := by
  obtain ⟨hl, ha, hi, hd, hn, hf, ht⟩ := h
  have tle := tok_le ht
  have w := hw_step (D := D) (rx := e.rx) hl (by unfold tok at tle; omega) s.soft.access
  have es : (s.step D e).ser = s.ser.step D (serReq s.soft.access) e.rx := rfl
  have ef : (s.step D e).soft = s.softNext e.act := rfl
  generalize s.step D e = s' at es ef ⊢
  rw [← es] at w
  clear es
  obtain ⟨hm1, hm2⟩ := hi (by rw [hs]; nofun)
  rw [tokOk_enabled hm1] at ht
  -- the handler does not change where main is
  have hmain : s'.soft.main = s.soft.main := by
    rw [ef]
    unfold Sys.softNext
    split
    · split
      · simp [Soft.done, hs]
      · rfl
    · split
      · rfl
      · rw [hs]
        cases i <;> simp [Soft.isrAct] <;> (try split) <;> (try split) <;> rfl
  have hm1' : s'.soft.main.enabled = true := by rw [hmain]; exact hm1
  obtain ⟨v1, v2, v3, v4, v5, v6, v7⟩ := w
  suffices hh : (s'.ser.ack = true → (s'.soft.access.map Access.isSer).getD false = true) ∧
      (s'.soft.busy = false → s'.soft.queue = [] ∧
        ∀ b, s'.soft.isr ≠ some (.send b) ∧ s'.soft.isr ≠ some (.deq (some b))) ∧
      (s'.soft.isr = some (.deq none) → s'.soft.queue = []) ∧
      if s'.soft.busy then
        match s'.soft.isr with
        | some (.send _) => tok s' = 0
        | _ => tok s' = 1
      else tok s' ≤ 1 ∧ s'.ser.tx.count = 0 ∧ s'.ser.txPrev = true by
    obtain ⟨g1, g2, g4, g3⟩ := hh
    exact ⟨v1, g1, fun _ => ⟨hm1', by rw [hmain]; exact hm2⟩, g2, g4,
      fun n b h => absurd h (flag_enabled hm1' n b), (tokOk_enabled hm1').2 g3⟩
  clear hm1' hm1 hm2 hi hf
  obtain ⟨⟨q, busy, box, cnt, main, isr⟩, ser, tm, ld⟩ := s
  obtain ⟨soft', ser', tm', ld'⟩ := s'
  simp only at *
  subst hs
  subst ef
  cases i
  case enter | gotTimer | gotInt | gotRx | tx | deq | leave =>
    have k := v5 nofun nofun
    have k2 := v7 nofun
    have k3 : ser.ack = false := by
      cases h : ser.ack
      · rfl
      · have := ha h
        simp [Soft.access, Isr.access] at this
    clear v3 v4 v5 v6 v7
    simp only [Soft.access, Isr.access, Option.map_none, Option.getD_none, Bool.false_and] at v2
    refine ⟨fun h => by simp [v2] at h, ?_, ?_, ?_⟩
    · cases e.act <;> cases busy <;> simp [Sys.softNext, Soft.access, Isr.access, Soft.isrAct] at hd hn ⊢ <;>
        (try split) <;> (try split) <;> simp_all
    · cases e.act <;> cases busy <;> simp [Sys.softNext, Soft.access, Isr.access, Soft.isrAct] at hd hn ⊢ <;>
        (try split) <;> (try split) <;> simp_all
    · have k4 := ready_of_tok (s := ser)
      cases e.act <;> cases busy <;> simp [tok, isrTok, Sys.softNext, Soft.access, Isr.access, Soft.isrAct, k3, v2] at ht ⊢ <;>
        (try split) <;> (try split) <;> simp_all <;> (try omega)
  case rdTimer =>
    have k := v5 nofun nofun
    have k2 := v7 nofun
    have k3 : ser.ack = false := by
      cases h : ser.ack
      · rfl
      · have := ha h
        simp [Soft.access, Isr.access, Access.isSer] at this
    clear v3 v4 v5 v6 v7
    simp only [Soft.access, Isr.access, Option.map_some, Access.isSer, Option.getD_some, Bool.false_and] at v2
    refine ⟨fun h => by simp [v2] at h, ?_, ?_, ?_⟩ <;>
      cases htm : tm.ack <;> cases busy <;>
        simp [tok, isrTok, Sys.softNext, Soft.access, Isr.access, Soft.done, Isr.done, Sys.reply, k3, v2, htm] at ht hd hn ⊢ <;>
        simp_all
  case rdInt =>
    have k2 := v7 nofun
    simp only [Soft.access, Isr.access, Option.map_some, Access.isSer, Option.getD_some, Bool.true_and] at v2
    cases hak : ser.ack
    · have k1 := v4 rfl hak
      clear v3 v4 v5 v6 v7 ha
      simp only [hak, Bool.not_false] at v2
      refine ⟨?_, ?_, ?_, ?_⟩ <;> cases busy <;>
        simp [-BitVec.getLsbD_eq_getElem, tok, isrTok, Sys.softNext, Soft.access, Isr.access, Soft.done, Isr.done, Sys.reply, Access.isSer, v2, hak] at ht hd hn ⊢ <;>
        first
        | exact hd
        | omega
        | exact ⟨by omega, k2 ht.2.1⟩
    · have k3 := v5 nofun fun _ => hak
      have k4 := v6 rfl hak
      clear v3 v4 v5 v6 v7 ha
      simp only [hak, Bool.not_true] at v2
      refine ⟨?_, ?_, ?_, ?_⟩ <;> cases busy <;>
        simp [-BitVec.getLsbD_eq_getElem, tok, isrTok, Sys.softNext, Soft.access, Isr.access, Soft.done, Isr.done, Sys.reply, Access.isSer, v2, hak, k3, k4] at ht hd hn ⊢ <;>
        first
        | exact hd
        | omega
        | exact ⟨by omega, k2 ht.2.1⟩
  case rdRx =>
    have k2 := v7 nofun
    have k3 := v5 nofun nofun
    clear v3 v4 v5 v6 v7 ha
    simp only [Soft.access, Isr.access, Option.map_some, Access.isSer, Option.getD_some, Bool.true_and] at v2
    cases hak : ser.ack <;> simp only [hak, Bool.not_true, Bool.not_false] at v2 <;>
      refine ⟨?_, ?_, ?_, ?_⟩ <;> cases busy <;>
        simp [-BitVec.getLsbD_eq_getElem, tok, isrTok, Sys.softNext, Soft.access, Isr.access, Soft.done, Isr.done, Sys.reply, Access.isSer, v2, hak, k3] at ht hd hn ⊢ <;>
        first
        | exact hd
        | omega
        | exact ⟨by omega, k2 ht.2.1⟩
  case send b =>
    have hb : busy = true := by
      cases busy
      · exact absurd rfl ((hd rfl).2 b).1
      · rfl
    subst hb
    have ht' : hwTok ser = 0 := by simpa [tok, isrTok] using ht
    simp only [Soft.access, Isr.access, Option.map_some, Access.isSer, Option.getD_some, Bool.true_and] at v2
    cases hak : ser.ack
    · have k3 := v5 (fun _ _ => hak) nofun
      clear v3 v4 v5 v6 v7 ha
      simp only [hak, Bool.not_false] at v2
      refine ⟨?_, ?_, ?_, ?_⟩ <;>
        simp [-BitVec.getLsbD_eq_getElem, tok, isrTok, Sys.softNext, Soft.access, Isr.access, Soft.done, Isr.done, Sys.reply, Access.isSer, v2, hak, k3] at ht hd hn ⊢
      assumption
    · have k3 := v3 b rfl hak ht'
      clear v3 v4 v5 v6 v7 ha
      simp only [hak, Bool.not_true] at v2
      refine ⟨?_, ?_, ?_, ?_⟩ <;>
        simp [-BitVec.getLsbD_eq_getElem, tok, isrTok, Sys.softNext, Soft.access, Isr.access, Soft.done, Isr.done, Sys.reply, Access.isSer, v2, hak, k3] at ht hd hn ⊢

/-- With interrupts enabled, the transmitter idle and no interrupt pending, there is no sign left. -/
theorem tok_of_irq {s : Sys} (h : s.ser.tx.count = 0) (h1 : s.ser.txPrev = true) (h2 : s.irq = false) :
    hwTok s.ser = 0 := by
  simp only [Sys.irq, WbSerial.irq, Bool.or_eq_false_iff] at h2
  simp [hwTok, h, h1, h2]

set_option maxHeartbeats 4000000 in
theorem inv_main {s : Sys} {e : Env} (h : Inv s) (hs : s.soft.isr = none) : Inv (s.step D e) := by
  obtain ⟨hl, ha, hi, hd, hn, hf, ht⟩ := h
  have tle := tok_le ht
  have w := hw_step (D := D) (rx := e.rx) hl (by unfold tok at tle; omega) s.soft.access
  have es : (s.step D e).ser = s.ser.step D (serReq s.soft.access) e.rx := rfl
  have ef : (s.step D e).soft = s.softNext e.act := rfl
  generalize s.step D e = s' at es ef ⊢
  rw [← es] at w
  clear es
  obtain ⟨v1, v2, v3, v4, v5, v6, v7⟩ := w
  have hir : s.irq = false → s.ser.tx.count = 0 → s.ser.txPrev = true → hwTok s.ser = 0 :=
    fun a b c => tok_of_irq b c a
  obtain ⟨⟨q, busy, box, cnt, main, isr⟩, ser, tm, ld⟩ := s
  obtain ⟨soft', ser', tm', ld'⟩ := s'
  simp only at *
  subst hs
  subst ef
  cases main
  case send n b =>
    have hb : busy = false := hf n b (.inl rfl)
    subst hb
    have ht' : hwTok ser = 0 := by simpa [TokOk, tok, isrTok, Main.enabled] using ht
    simp only [Soft.access, Main.access, Option.map_some, Access.isSer, Option.getD_some, Bool.true_and] at v2
    cases hak : ser.ack
    · have k3 := v5 (fun _ _ => hak) nofun
      clear v3 v4 v5 v6 v7 ha
      simp only [hak, Bool.not_false] at v2
      refine ⟨v1, ?_, ?_, ?_, ?_, ?_, ?_⟩ <;>
        simp [TokOk, Main.enabled, tok, isrTok, Sys.softNext, Soft.access, Main.access, Soft.done, Main.done, Sys.reply, Access.isSer, v2, hak, k3] at ht hd hn ⊢ <;>
        assumption
    · have k3 := v3 b rfl hak ht'
      clear v3 v4 v5 v6 v7 ha
      simp only [hak, Bool.not_true] at v2
      refine ⟨v1, ?_, ?_, ?_, ?_, ?_, ?_⟩ <;>
        simp [TokOk, Main.enabled, tok, isrTok, Sys.softNext, Soft.access, Main.access, Soft.done, Main.done, Sys.reply, Access.isSer, v2, hak, k3] at ht hd hn ⊢ <;>
        assumption
  case gpio n | leds n b =>
    have k := v5 nofun nofun
    have k2 := v7 nofun
    have k3 : ser.ack = false := by
      cases h : ser.ack
      · rfl
      · have := ha h
        simp [Soft.access, Main.access, Access.isSer] at this
    clear v3 v4 v5 v6 v7
    simp only [Soft.access, Main.access, Option.map_some, Access.isSer, Option.getD_some, Bool.false_and] at v2
    refine ⟨v1, fun h => by simp [v2] at h, ?_, ?_, ?_, ?_, ?_⟩ <;>
      cases htm : ld.ack <;> cases busy <;> cases n <;>
        simp [TokOk, Main.enabled, Main.back, tok, isrTok, Sys.softNext, Soft.access, Main.access, Soft.done, Main.done, Sys.reply, k3, v2, htm] at ht hd hn ⊢ <;>
        simp_all
  case app | locked =>
    have k := v5 nofun nofun
    have k2 := v7 nofun
    have k3 : ser.ack = false := by
      cases h : ser.ack
      · rfl
      · have := ha h
        simp [Soft.access, Main.access] at this
    have k4 := ready_of_tok (s := ser)
    clear v3 v4 v5 v6 v7 ha tle hi
    simp only [Soft.access, Main.access, Option.map_none, Option.getD_none, Bool.false_and] at v2
    refine ⟨v1, fun h => by simp [v2] at h, ?_, ?_, ?_, ?_, ?_⟩ <;>
    (cases hact : e.act with
    | none =>
      simp [TokOk, Main.enabled, tok, isrTok, Sys.softNext, Soft.access, Main.access, k, k3, v2, hact] at ht hd hn hf ⊢ <;>
        grind
    | some op =>
      cases hq1 : tm.irq <;> cases hq2 : ser.irq <;> cases busy <;> cases op <;>
        simp [TokOk, Main.enabled, Main.back, tok, isrTok, Sys.softNext, Soft.access, Main.access, Soft.mainAct, Soft.opAct, k, k3, v2, hact, Sys.irq, hq1, hq2] at ht hd hn hf hir ⊢ <;>
        grind)
  case start | retry | crit | flag =>
    have k := v5 nofun nofun
    have k2 := v7 nofun
    have k3 : ser.ack = false := by
      cases h : ser.ack
      · rfl
      · have := ha h
        simp [Soft.access, Main.access] at this
    have k4 := ready_of_tok (s := ser)
    clear v3 v4 v5 v6 v7 ha tle hi
    simp only [Soft.access, Main.access, Option.map_none, Option.getD_none, Bool.false_and] at v2
    refine ⟨v1, fun h => by simp [v2] at h, ?_, ?_, ?_, ?_, ?_⟩ <;>
    (cases hact : e.act with
    | none =>
      simp [TokOk, Main.enabled, tok, isrTok, Sys.softNext, Soft.access, Main.access, k, k3, v2, hact] at ht hd hn hf ⊢ <;>
        grind
    | some op =>
      cases hq1 : tm.irq <;> cases hq2 : ser.irq <;> cases busy <;>
        simp [TokOk, Main.enabled, Main.back, tok, isrTok, Sys.softNext, Soft.access, Main.access, Soft.mainAct, Soft.opAct, k, k3, v2, hact, Sys.irq, hq1, hq2] at ht hd hn hf hir ⊢ <;>
        grind)

theorem inv_step {s : Sys} (h : Inv s) (e : Env) : Inv (s.step D e) := by
  cases hs : s.soft.isr with
  | none => exact inv_main h hs
  | some i => exact inv_isr h hs

theorem inv_at (e : Nat → Env) (n : Nat) : Inv (Sys.at_ D e n) := by
  induction n with
  | zero => exact inv_init _
  | succ n ih => exact inv_step ih _

end Sentinel.Fw
