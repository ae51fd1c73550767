import Verif.Proof.FirmwareTx
import Verif.Props.Serial
/-!
# C62 and following: the serial driver of the Rust firmware
-/

set_option linter.unusedSimpArgs false

namespace Sentinel

open Fw

/-- What is left in the shift register of an idle transmitter is ones. -/
def UartTx.Ones (s : UartTx) : Prop := s.shreg.length = 10 ∧ s.count ≤ 10 ∧ ∀ b ∈ s.shreg.drop s.count, b = true

theorem UartTx.ones_step {D : Nat} {s : UartTx} (h : s.Ones) (rdy : Bool) (d : BitVec 8) :
    (s.step D rdy (byteBits d)).Ones := by
  obtain ⟨h1, h2, h3⟩ := h
  unfold step
  split
  · split
    · refine ⟨by simp [byteBits_length], by simp [h1], ?_⟩
      simp only [h1]
      rw [List.drop_eq_nil_of_le (by simp [byteBits_length])]
      simp
    · exact ⟨h1, h2, h3⟩
  · next hc =>
    split
    · exact ⟨h1, h2, h3⟩
    · refine ⟨by simp [h1], by simp; omega, ?_⟩
      simp only
      rw [List.drop_append_of_le_length (by simp [h1]; omega), ← List.drop_one, List.drop_drop,
        show 1 + (s.count - 1) = s.count by omega]
      intro b hb
      rcases List.mem_append.1 hb with hb | hb
      · exact h3 b hb
      · simpa using hb

theorem UartTx.ones_idle {s : UartTx} (h : s.Ones) (hi : s.ack = true) : s.out = true := by
  obtain ⟨h1, -, h3⟩ := h
  have hc : s.count = 0 := by simpa [ack] using hi
  rw [hc] at h3
  unfold out
  rcases hs : s.shreg with _ | ⟨b, l⟩
  · rw [hs] at h1; cases h1
  · exact h3 b (by rw [hs]; simp)

namespace Fw
variable {D : Nat} {e : Nat → Env}

/-- Requests that the serial port sees. -/
def reqs (D : Nat) (e : Nat → Env) (n : Nat) : WbReq := serReq (Sys.at_ D e n).soft.access

/-- The serial port of the system and one on its own differ in what the interrupts are made from at most. -/
theorem ser_run (n : Nat) :
    (Sys.at_ D e n).ser.tx = (WbSerial.at_ D (reqs D e) (fun k => (e k).rx) n).tx ∧
    (Sys.at_ D e n).ser.ack = (WbSerial.at_ D (reqs D e) (fun k => (e k).rx) n).ack := by
  induction n with
  | zero => exact ⟨rfl, rfl⟩
  | succ n ih =>
    show (WbSerial.step D (Sys.at_ D e n).ser _ _).tx = (WbSerial.step D (WbSerial.at_ D (reqs D e) (fun k => (e k).rx) n) _ _).tx ∧
      (WbSerial.step D (Sys.at_ D e n).ser _ _).ack = (WbSerial.step D (WbSerial.at_ D (reqs D e) (fun k => (e k).rx) n) _ _).ack
    unfold WbSerial.step WbSerial.txRdy
    simp only [ih.1, ih.2]
    exact ⟨rfl, rfl⟩

theorem txO_run (n : Nat) : (Sys.at_ D e n).ser.txO = (WbSerial.at_ D (reqs D e) (fun k => (e k).rx) n).txO := by
  unfold WbSerial.txO; rw [(ser_run n).1]

theorem started_iff (n : Nat) (b : BitVec 8) : (Sys.at_ D e n).started = [b] ↔
    (Sys.at_ D e n).ser.ack = true ∧ DataWrite (reqs D e n) b := by
  unfold Sys.started reqs
  generalize (Sys.at_ D e n).soft.access = a
  rcases a with _ | (_ | _ | _ | _ | _ | _) <;> cases (Sys.at_ D e n).ser.ack <;> simp [DataWrite, serReq]

theorem started_cases (s : Sys) : s.started = [] ∨ ∃ b, s.started = [b] := by
  unfold Sys.started
  split
  · split
    · exact .inr ⟨_, rfl⟩
    · exact .inl rfl
  · exact .inl rfl

theorem ready_of_write {s : Sys} (h : Inv s) {b : BitVec 8} (hs : s.started = [b]) : s.ser.tx.ack = true := by
  have hc : s.soft.access = some (.serTx b) := by
    unfold Sys.started at hs
    split at hs
    · next b' hb =>
      split at hs
      · cases hs; exact hb
      · cases hs
    · cases hs
  have hl := tok_le h.tok
  have : hwTok s.ser = 0 := by
    have ht := h.tok
    unfold Soft.access at hc
    cases hi : s.soft.isr with
    | none =>
      rw [hi] at hc
      cases hm : s.soft.main <;> rw [hm] at hc <;> simp [Main.access] at hc
      subst hc
      have hb := h.flag _ _ (.inl hm)
      rw [TokOk, hb, hm] at ht
      simp [Main.enabled, Fw.tok] at ht
      exact ht.1
    | some i =>
      rw [hi] at hc
      cases i <;> simp [Isr.access] at hc
      subst hc
      have hb : s.soft.busy = true := by
        cases hb : s.soft.busy
        · exact absurd hi ((h.idle hb).2 _).1
        · rfl
      rw [TokOk, hb, hi] at ht
      simp [Fw.tok] at ht
      exact ht.1
  simp [UartTx.ack, ready_of_tok this]

theorem frameStarts_iff (n : Nat) : frameStarts D e n = true ↔ ∃ b, (Sys.at_ D e n).started = [b] := by
  have h := C47_start (D := D) (reqs D e) (fun k => (e k).rx) n
  rw [← (ser_run n).1, ← (ser_run n).2, ← (ser_run (n + 1)).1] at h
  unfold frameStarts
  rw [Bool.and_eq_true, Bool.not_eq_true', h]
  simp only [started_iff]
  constructor
  · rintro ⟨-, h1, b, h2⟩; exact ⟨b, h1, h2⟩
  · rintro ⟨b, h1, h2⟩
    exact ⟨ready_of_write (inv_at e n) ((started_iff n b).2 ⟨h1, h2⟩), h1, b, h2⟩

theorem frame_line (hD : 0 < D) {n : Nat} {b : BitVec 8} (hs : (Sys.at_ D e n).started = [b]) :
    ∀ k, (h : k < 10 * D) → line D e (n + 1 + k) = (uartFrame (byteBits b))[k / D]'(by
      rw [uartFrame_length, byteBits_length]; exact Nat.div_lt_of_lt_mul (by rw [Nat.mul_comm]; exact h)) := by
  obtain ⟨h1, h2⟩ := (started_iff n b).1 hs
  have h3 := ready_of_write (inv_at e n) hs
  rw [(ser_run n).2] at h1
  rw [(ser_run n).1] at h3
  intro k hk
  have := ((C47_write hD h2 h1 h3).1 k hk).1
  unfold line
  rw [txO_run]
  exact this

theorem line_byte (hD : 0 < D) {n : Nat} {b : BitVec 8} (hs : (Sys.at_ D e n).started = [b]) :
    lineByte D e (n + 1) = b := by
  have h := frame_line hD hs
  rw [lineByte, ← bitsByte_byteBits b]
  congr 1
  apply List.ext_getElem
  · simp [byteBits]
  · intro i h1 h2
    simp only [List.length_map, List.length_range] at h1
    have hi : (i + 1) * D < 10 * D := Nat.mul_lt_mul_of_pos_right (by omega) hD
    have h3 : (i + 1) * D / D = i + 1 := Nat.mul_div_cancel _ hD
    rw [List.getElem_map, List.getElem_range, h _ hi]
    simp only [h3, uartFrame]
    rw [List.getElem_cons_succ, List.getElem_append_left (by rw [byteBits_length]; exact h1)]

theorem frames_succ (hD : 0 < D) (n : Nat) : frames D e (n + 1) = frames D e n ++ (Sys.at_ D e n).started := by
  rw [frames]
  congr 1
  rcases started_cases (Sys.at_ D e n) with h | ⟨b, h⟩
  · rw [h, if_neg]
    rw [frameStarts_iff, h]
    rintro ⟨b, hb⟩; cases hb
  · rw [if_pos ((frameStarts_iff n).2 ⟨b, h⟩), line_byte hD h, h]

theorem calls_succ (n : Nat) : calls D e (n + 1) = calls D e n ++
    called (Sys.at_ D e n).soft.main (Sys.at_ D e (n + 1)).soft.main := rfl

/-- Every byte that `main` has written is on the line, or on its way. -/
theorem calls_eq (hD : 0 < D) (n : Nat) : calls D e n = frames D e n ++ (Sys.at_ D e n).soft.pend := by
  induction n with
  | zero => rfl
  | succ n ih =>
    rw [calls_succ, frames_succ hD, ih, List.append_assoc, List.append_assoc]
    congr 1
    exact pend_step (inv_at e n) (e n)

end Fw

namespace Fw
variable {D : Nat} {e : Nat → Env}

theorem ones_at (n : Nat) : (Sys.at_ D e n).ser.tx.Ones := by
  induction n with
  | zero =>
    show (UartTx.reset 8).Ones
    refine ⟨rfl, by decide, by decide⟩
  | succ n ih => exact UartTx.ones_step ih _ _

/-- The line between this computer and the terminal, as a link between two UARTs. -/
def link (D : Nat) (e : Nat → Env) (take : Nat → Bool) : UartLink :=
  { divisor := D, dataBits := 8, txRdy := fun k => (Sys.at_ D e k).ser.txRdy (reqs D e k),
    txData := fun k => byteBits (reqs D e k).datW, rxAck := take }

theorem link_tx (take : Nat → Bool) (n : Nat) : (link D e take).tx n = (Sys.at_ D e n).ser.tx := by
  induction n with
  | zero => rfl
  | succ n ih => rw [UartLink.tx_succ, ih]; rfl

theorem link_rx (take : Nat → Bool) (n : Nat) : (link D e take).rx n = terminal D e take n := by
  induction n with
  | zero => rfl
  | succ n ih => rw [UartLink.rx_succ, ih, link_tx]; rfl

theorem link_accepts (take : Nat → Bool) (n : Nat) : (link D e take).Accepts n ↔ frameStarts D e n = true := by
  rw [frameStarts_iff, UartLink.Accepts, link_tx]
  simp only [started_iff]
  show _ ∧ (Sys.at_ D e n).ser.txRdy (reqs D e n) = true ↔ _
  constructor
  · rintro ⟨h1, h2⟩
    refine ⟨(reqs D e n).datW, ?_⟩
    simp only [WbSerial.txRdy, WbSerial.dataReq, Bool.and_eq_true, Bool.not_eq_true'] at h2
    obtain ⟨⟨⟨⟨⟨a, b⟩, c⟩, d⟩, e⟩, f⟩ := h2
    exact ⟨e, b, a, c, f, d, rfl⟩
  · rintro ⟨b, h1, h2⟩
    refine ⟨ready_of_write (inv_at e n) ((started_iff n b).2 ⟨h1, h2⟩), ?_⟩
    obtain ⟨g1, g2, g3, g4, g5, -⟩ := h2
    simp [-BitVec.getLsbD_eq_getElem, WbSerial.txRdy, WbSerial.dataReq, *]

theorem frame_bit (b : BitVec 8) {q : Nat} (hq : q < 10) : (uartFrame (byteBits b))[q]'(by
    rw [uartFrame_length, byteBits_length]; exact hq) =
    if q = 0 then false else if q < 9 then b.getLsbD (q - 1) else true := by
  rcases q with _ | q
  · rfl
  · simp only [uartFrame, List.getElem_cons_succ, Nat.add_sub_cancel]
    by_cases hq : q < 8
    · rw [if_neg (by omega), if_pos (by omega), List.getElem_append_left (by rw [byteBits_length]; exact hq)]
      simp [byteBits]
    · have : q = 8 := by omega
      subst this
      simp [byteBits_length]

theorem lineByte_eq (hD : 0 < D) (take : Nat → Bool) {n : Nat} (h : frameStarts D e n = true) :
    byteBits (lineByte D e (n + 1)) = (link D e take).txData n := by
  obtain ⟨b, hb⟩ := (frameStarts_iff n).1 h
  rw [line_byte hD hb]
  show _ = byteBits _
  rw [((started_iff n b).1 hb).2.2.2.2.2.2]

/-- What the terminal has is what was on the line some time ago. -/
theorem shown_eq (hD : 4 ≤ D) {take : Nat → Bool} (hk : TerminalKeepsUp D e take) (n : Nat) :
    shown D e take n = frames D e (n - rxLatency D 8) := by
  have hs := C40_stream (link D e take) hD (fun t => byteBits_length _)
    (fun t ht => by rw [link_rx]; exact hk t ((link_accepts take t).1 ht))
  obtain ⟨h1, h2⟩ := hs
  simp only [UartLink.Delivers, link_rx, link_accepts] at h1 h2
  change ∀ t, _ → ∃ u, u = t + 1 + rxLatency D 8 ∧ _ at h1
  change ∀ u, _ → ∃ t, _ ∧ u = t + 1 + rxLatency D 8 at h2
  have hL : 0 < rxLatency D 8 := by rw [rxLatency]; omega
  induction n with
  | zero => rw [show 0 - rxLatency D 8 = 0 by omega]; rfl
  | succ n ih =>
    rw [shown, ih]
    by_cases hd : (terminal D e take n).rdy = false ∧ (terminal D e take (n + 1)).rdy = true
    · rw [if_pos (by simp [hd])]
      obtain ⟨t, ht, htn⟩ := h2 (n + 1) ⟨n, rfl, hd⟩
      obtain ⟨u, hu, -, hdat, -⟩ := h1 t ht
      have : u = n + 1 := by omega
      subst this
      rw [hdat, ← lineByte_eq (by omega) take ht, bitsByte_byteBits, show n + 1 - rxLatency D 8 = t + 1 by omega, frames, if_pos ht,
        show n - rxLatency D 8 = t by omega]
    · rw [if_neg (by simpa using hd), List.append_nil]
      by_cases hn : n < rxLatency D 8
      · rw [show n + 1 - rxLatency D 8 = 0 by omega, show n - rxLatency D 8 = 0 by omega]
      · obtain ⟨t, rfl⟩ := Nat.exists_eq_add_of_le (Nat.le_of_not_lt hn)
        rw [show rxLatency D 8 + t + 1 - rxLatency D 8 = t + 1 by omega, frames, show rxLatency D 8 + t - rxLatency D 8 = t by omega, if_neg,
          List.append_nil]
        intro ht
        obtain ⟨u, hu, ⟨v, hv, hr⟩, -⟩ := h1 t ht
        have e1 : v = rxLatency D 8 + t := by omega
        have e2 : u = rxLatency D 8 + t + 1 := by omega
        subst e1 e2
        exact hd hr

end Fw

/-- **C62** (order): whatever `main` writes, whenever interrupts come and however long anything takes: the
bytes on the serial line are the bytes that `main` has written, in that order, from the first on: none
is lost, repeated, changed or overtaken. -/
theorem C62_order {D : Nat} (hD : 0 < D) (e : Nat → Env) (n : Nat) : frames D e n <+: calls D e n :=
  ⟨_, (calls_eq hD n).symm⟩

/-- **C62** (backlog): at most 63 bytes whose `write_char` has returned are not on the line yet. -/
theorem C62_backlog {D : Nat} (hD : 0 < D) (e : Nat → Env) (n : Nat) :
    (returned D e n).length ≤ (frames D e n).length + 63 ∧
    calls D e n = returned D e n ++ (writing D e n).toList := by
  have h2 : calls D e n = returned D e n ++ (writing D e n).toList := by
    induction n with
    | zero => rfl
    | succ n ih =>
      rw [calls, returned, ih, List.append_assoc, List.append_assoc]
      congr 1
      have hw : ∀ b b', writing D e n = some b → writing D e (n + 1) = some b' → b' = b :=
        fun b b' => writing_step (D := D) (s := Sys.at_ D e n) (e := e n)
      generalize writing D e n = w at hw
      generalize writing D e (n + 1) = w' at hw
      cases w <;> cases w' <;> simp
      exact (hw _ _ rfl rfl).symm
  refine ⟨?_, h2⟩
  have h3 := congrArg List.length h2
  rw [calls_eq hD n] at h3
  have h4 := room_at (D := D) e n
  have h6 : ∀ m : Main, m.cur.length ≤ m.writing.toList.length := by
    intro m; cases m <;> simp [Main.cur, Main.writing]
  have h7 := h6 (Sys.at_ D e n).soft.main
  simp only [Soft.pend, List.length_append] at h3
  unfold capacity at h4
  unfold writing at h3
  omega

/-- **C62** (no write is wasted): no byte is written to the data register of the serial port unless the
transmitter is ready (it would be dropped: C47). -/
theorem C62_ready {D : Nat} (e : Nat → Env) {n : Nat} {b : BitVec 8} (h : DataWrite (serReq (Sys.at_ D e n).soft.access) b)
    (hack : (Sys.at_ D e n).ser.ack = true) : (Sys.at_ D e n).ser.tx.ack = true :=
  ready_of_write (inv_at e n) ((started_iff n b).2 ⟨hack, h⟩)

/-- **C62** (the line): each frame is a low start bit, eight data bits and a high stop bit of `D` cycles
each, with the transmitter busy all the time, and the line is high while the transmitter is ready. -/
theorem C62_line {D : Nat} (hD : 0 < D) (e : Nat → Env) (n : Nat) :
    (frameStarts D e n = true → ∀ k, k < 10 * D →
      line D e (n + 1 + k) =
        (if k < D then false else if k < 9 * D then (lineByte D e (n + 1)).getLsbD (k / D - 1) else true) ∧
      (Sys.at_ D e (n + 1 + k)).ser.tx.ack = false) ∧
    ((Sys.at_ D e n).ser.tx.ack = true → line D e n = true) := by
  constructor
  · intro h k hk
    obtain ⟨b, hb⟩ := (frameStarts_iff n).1 h
    rw [line_byte hD hb, frame_line hD hb k hk]
    constructor
    · have hk' : k / D < 10 := Nat.div_lt_of_lt_mul (by rwa [Nat.mul_comm])
      have e0 : k < D ↔ k / D = 0 := by rw [Nat.div_eq_zero_iff]; omega
      have e9 : k < 9 * D ↔ k / D < 9 := by rw [Nat.div_lt_iff_lt_mul hD]
      simp only [e0, e9]
      exact frame_bit b hk'
    · obtain ⟨h1, h2⟩ := (started_iff n b).1 hb
      have h3 := ready_of_write (inv_at e n) hb
      rw [(ser_run n).2] at h1
      rw [(ser_run n).1] at h3
      rw [(ser_run _).1]
      exact ((C47_write hD h2 h1 h3).1 k hk).2
  · exact fun h => UartTx.ones_idle (ones_at n) h

/-- **C62** (terminal): what a terminal with the same divisor, that keeps up, receives, are the bytes that
`main` has written, in that order, from the first on. -/
theorem C62_terminal {D : Nat} (hD : 4 ≤ D) (e : Nat → Env) {take : Nat → Bool} (hk : TerminalKeepsUp D e take) (n : Nat) :
    shown D e take n <+: calls D e n ∧ shown D e take (n + rxLatency D 8) = frames D e n := by
  constructor
  · rw [shown_eq hD hk]
    have mono : ∀ m k, frames D e m <+: frames D e (m + k) := by
      intro m k
      induction k with
      | zero => exact List.prefix_refl _
      | succ k ih => exact ih.trans ⟨_, rfl⟩
    have := mono (n - rxLatency D 8) (n - (n - rxLatency D 8))
    rw [show n - rxLatency D 8 + (n - (n - rxLatency D 8)) = n by omega] at this
    exact this.trans (C62_order (by omega) e n)
  · rw [shown_eq hD hk, Nat.add_sub_cancel]

end Sentinel
