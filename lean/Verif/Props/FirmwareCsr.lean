import Verif.Proof.AppCsr
import Verif.Props.Firmware
import Verif.Props.FirmwareLive
import Verif.Props.FirmwareRx
import Verif.Props.FirmwareTime
import Verif.Props.FirmwareFair
/-!
# C80, C81: the serial driver of the Rust firmware on the CSR bus
-/

set_option linter.unusedSimpArgs false

namespace Sentinel

open Fw (Env Main Isr Soft Pins keyboard typed)
open FwCsr

/-- **C80** (order): the bytes of the frames on the line are the bytes that `main` has written, in that order, from the first on. -/
theorem C80_order {D : Nat} (hD : 0 < D) (e : Nat → Env) (n : Nat) : frames D e n <+: calls D e n := by
  rw [frames_eq, calls_eq]; exact C62_order hD _ n

/-- **C80** (backlog): of the bytes whose call of `write_char` has returned, at most 63 are not on the line yet; one more may be being written. -/
theorem C80_backlog {D : Nat} (hD : 0 < D) (e : Nat → Env) (n : Nat) :
    (returned D e n).length ≤ (frames D e n).length + 63 ∧
    calls D e n = returned D e n ++ (writing D e n).toList := by
  rw [frames_eq, calls_eq, returned_eq, writing_eq]; exact C62_backlog hD _ n

/-- **C80** (never while busy): when the transmit register is written (its strobe), the transmitter is ready. -/
theorem C80_ready {D : Nat} (e : Nat → Env) {n : Nat} (h : (Sys.at_ D e n).serStb.wStb = true) :
    (Sys.at_ D e n).ser.tx.ack = true := by
  have hs := sim_at (D := D) e n
  rw [← hs.same.tx]
  have hw : ∀ w, (Sys.at_ D e n).bus.w = w → (match w with | some (r', d) => if r' = CsrReg.txrx then some d else none | none => none).isSome = true := by
    rintro w rfl; exact h
  cases hs.at_ with
  | idle _ _ g _ _ => exact absurd (hw _ g) (by simp)
  | later _ _ _ _ g _ _ => exact absurd (hw _ g) (by simp)
  | first a h0 h1 h2 h3 h4 h5 =>
    have := hw _ h3
    cases a <;> simp [FwCsr.data, reg] at this
    refine C62_ready (shadows D e) (n := n) (b := ‹BitVec 8›) ?_ h5
    rw [h4, h0]
    simp [DataWrite, Fw.serReq]

/-- **C80** (the line): a frame is a start bit, the eight bits of its byte and a stop bit, each `D` cycles long, during which the transmitter is busy; the line is high while the
transmitter is ready. -/
theorem C80_line {D : Nat} (hD : 0 < D) (e : Nat → Env) (n : Nat) :
    (frameStarts D e n = true → ∀ k, k < 10 * D →
      line D e (n + 1 + k) =
        (if k < D then false else if k < 9 * D then (lineByte D e (n + 1)).getLsbD (k / D - 1) else true) ∧
      (Sys.at_ D e (n + 1 + k)).ser.tx.ack = false) ∧
    ((Sys.at_ D e n).ser.tx.ack = true → line D e n = true) := by
  have h := C62_line hD (shadows D e) n
  rw [← frameStarts_eq, ← line_eq, ← lineByte_eq] at h
  simp only [(sim_at (D := D) e _).same.tx] at h
  exact h

/-- **C80** (terminal): what a terminal with the same divisor, that keeps up, receives, are the bytes that `main` has written, in that order, from the first on. -/
theorem C80_terminal {D : Nat} (hD : 4 ≤ D) (e : Nat → Env) {take : Nat → Bool} (hk : TerminalKeepsUp D e take) (n : Nat) :
    shown D e take n <+: calls D e n ∧ shown D e take (n + rxLatency D 8) = frames D e n := by
  rw [shown_eq, shown_eq, calls_eq, frames_eq]
  exact C62_terminal hD _ ((keepsUp_eq take).1 hk) n

/-- **C80** (progress): as long as the processor goes on executing and `main` does not stay in a critical section for ever, what has been written gets onto the line. -/
theorem C80_drain {D : Nat} (hD : 0 < D) {e : Nat → Env} (hact : ∀ n, ∃ m ≥ n, (e m).act.isSome = true)
    (hen : ∀ n, ∃ m ≥ n, (Sys.at_ D e m).soft.main.enabled = true) (n : Nat) :
    ∃ m ≥ n, returned D e n <+: frames D e m := by
  obtain ⟨m, h1, h2⟩ := C63_drain hD (acts_often hact) (fun n => by
    obtain ⟨m, h1, h2⟩ := hen n
    exact ⟨m, h1, by rw [(soft_same (sim_at e m)).2.1]; exact h2⟩) n
  exact ⟨m, h1, by rw [returned_eq, frames_eq]; exact h2⟩

/-- **C80** (in time): if the processor does an action at least every `K` cycles, everything is on the line this long after `main` has stopped writing, if it stays out of critical
sections. -/
theorem C80_drain_time {D : Nat} (hD : 0 < D) {K : Nat} {e : Nat → Env} (hK : ∀ n, ∃ m ≥ n, m < n + K ∧ (e m).act.isSome = true)
    {m k : Nat} (hk : 63 * (10 * D + 15 * (K + 6) + 19) ≤ k)
    (hen : ∀ i, i ≤ k → (Sys.at_ D e (m + i)).soft.main.enabled = true) (hw : ∀ i, i ≤ k → writing D e (m + i) = none) :
    frames D e (m + k) = calls D e (m + k) := by
  rw [frames_eq, calls_eq]
  exact C65_drain hD (shadow_soon hK) hk (fun i hi => by rw [(soft_same (sim_at e _)).2.1]; exact hen i hi)
    (fun i hi => by rw [← writing_eq]; exact hw i hi)

/-- **C80** (main runs): if the processor is fast enough, `main` does an action in each period of this many cycles, whatever arrives and is sent. -/
theorem C80_main {D : Nat} (hD : 0 < D) {K : Nat} {e : Nat → Env} (hK : ∀ n, ∃ m ≥ n, m < n + K ∧ (e m).act.isSome = true)
    (h1 : 32 * (K + 6) + 36 ≤ 9 * D) (h2 : 32 * (K + 6) + 36 ≤ 2 ^ 14) (n : Nat) :
    ∃ m ≥ n, m < n + (40 * (K + 6) + 44) ∧ ∃ op, (e m).act = some op ∧ (Sys.at_ D e (m + 1)).soft = (Sys.at_ D e m).soft.mainAct op := by
  obtain ⟨m, m1, m2, ⟨op, m3, m4⟩, -, -⟩ := C68_main hD (shadow_soon hK) h1 h2 n
  have ha : (Sys.at_ D e m).soft.access = none := by
    cases ha : (Sys.at_ D e m).soft.access with
    | none => rfl
    | some a => rw [shadow_busy ha] at m3; cases m3
  obtain ⟨-, -, i1, i2⟩ := idle_at ha
  refine ⟨m, m1, m2, op, by rw [← i2]; exact m3, ?_⟩
  rw [← idle_next ha, ← i1]
  exact m4

/-- **C80** (write_char returns): under the same conditions, each `write_char` called from outside critical sections returns. -/
theorem C80_write {D : Nat} (hD : 0 < D) {K : Nat} {e : Nat → Env} (hK : ∀ n, ∃ m ≥ n, m < n + K ∧ (e m).act.isSome = true)
    (h1 : 32 * (K + 6) + 36 ≤ 9 * D) (h2 : 32 * (K + 6) + 36 ≤ 2 ^ 14) {n : Nat} {b : BitVec 8} (h0 : (Sys.at_ D e n).soft.main = .app)
    (h : writing D e (n + 1) = some b) : ∃ m > n, writing D e m = none := by
  have ha : (Sys.at_ D e n).soft.access = none := by
    cases ha : (Sys.at_ D e n).soft.access with
    | none => rfl
    | some a =>
      -- the handler has the bus: `main` stays where it is
      exfalso
      rw [writing, busy_next ha] at h
      have : ∀ f : Soft, f.main = .app → f.main.writing = none := by intro f hf; rw [hf]; rfl
      split at h
      · rw [(done_writing _ _).1, this _ h0] at h; cases h
      · rw [this _ h0] at h; cases h
  obtain ⟨m, m1, m2⟩ := C68_write hD (shadow_soon hK) h1 h2 (n := n) (by rw [(idle_at ha).2.2.1]; exact h0) (by rw [← writing_eq]; exact h)
  exact ⟨m, m1, by rw [writing_eq]; exact m2⟩

/-- **C80** (inside a critical section): `write_char` called inside a critical section returns, in time, if at most 63 bytes, with its own, are not on the line yet... -/
theorem C80_nested {D : Nat} (hD : 0 < D) {K : Nat} {e : Nat → Env} (hK : ∀ n, ∃ m ≥ n, m < n + K ∧ (e m).act.isSome = true) {n : Nat} {b : BitVec 8}
    (h : (Sys.at_ D e n).soft.main = .locked) (hw : writing D e (n + 1) = some b)
    (hroom : (calls D e (n + 1)).length ≤ (frames D e (n + 1)).length + 63) :
    ∃ m > n, m ≤ n + (3 * (K + 6) + 3) ∧ writing D e m = none := by
  obtain ⟨m, m1, m2, m3, -⟩ := C65_nested_time hD (shadow_soon hK) (n := n) (b := b) (by rw [(idle_at (locked_access h)).2.2.1]; exact h)
    (by rw [← writing_eq]; exact hw) (by rw [← calls_eq, ← frames_eq]; exact hroom)
  exact ⟨m, m1, m2, by rw [writing_eq]; exact m3⟩

/-- **C80** (stuck): ... and never, if the queue is full. -/
theorem C80_stuck {D : Nat} {e : Nat → Env} {n : Nat} {b : BitVec 8}
    (h : (Sys.at_ D e n).soft.main = .retry true b) (hfull : (Sys.at_ D e n).soft.queue.length = 63) (k : Nat) :
    writing D e (n + k) = some b := by
  have hs := soft_same (sim_at (D := D) e n)
  have hi : (Sys.at_ D e n).soft.isr = none := by
    rw [← hs.2.2.2.2.2.2]
    by_contra hc
    have := ((Fw.inv_at (D := D) (shadows D e) n).isr hc).1
    rw [hs.2.1, h] at this
    cases this
  have ha : (Sys.at_ D e n).soft.access = none := by unfold Soft.access; rw [hi, h]; rfl
  rw [writing_eq]
  exact C63_stuck (by rw [(idle_at ha).2.2.1]; exact h) (by rw [(idle_at ha).2.2.1]; exact hfull) k

/-- A run: `main` writes four bytes; an action every other cycle. -/
def fwCsrEnv (k : Nat) : Env :=
  { act := if k % 2 = 0 then
      some (if k < 34 then .write (if k < 10 then 0x41#8 else if k < 20 then 0x42#8 else if k < 26 then 0x43#8 else 0x44#8) else .other)
    else none }

/-- In that run, the bytes are written and come out; three of them wait in the queue. -/
example : calls 4 fwCsrEnv 40 = [0x41#8, 0x42#8, 0x43#8, 0x44#8] ∧ returned 4 fwCsrEnv 40 = [0x41#8, 0x42#8, 0x43#8, 0x44#8] ∧
    (Sys.at_ 4 fwCsrEnv 40).soft.queue = [0x42#8, 0x43#8, 0x44#8] ∧ frames 4 fwCsrEnv 40 = [0x41#8] ∧
    frames 4 fwCsrEnv 260 = [0x41#8, 0x42#8, 0x43#8, 0x44#8] := by decide +kernel

example (n : Nat) : ∃ m ≥ n, m < n + 2 ∧ (fwCsrEnv m).act.isSome = true := by
  rcases Nat.mod_two_eq_zero_or_one n with h | h
  · exact ⟨n, by omega, by omega, by simp [fwCsrEnv, h]⟩
  · exact ⟨n + 1, by omega, by omega, by simp [fwCsrEnv, show (n + 1) % 2 = 0 by omega]⟩

/-- **C81** (order): the characters that the handler stores are those received by the serial port, in order, with at most two on the way. -/
theorem C81_order {D : Nat} (e : Nat → Env) (n : Nat) :
    stores D e n <+: received D e n ∧ (received D e n).length ≤ (stores D e n).length + 2 := by
  rw [stores_eq, received_eq]; exact C64_order _ n

/-- **C81** (progress): each one is stored. -/
theorem C81_progress {D : Nat} {e : Nat → Env} (hact : ∀ n, ∃ m ≥ n, (e m).act.isSome = true)
    (hen : ∀ n, ∃ m ≥ n, (Sys.at_ D e m).soft.main.enabled = true) (n : Nat) :
    ∃ m ≥ n, received D e n <+: stores D e m := by
  obtain ⟨m, h1, h2⟩ := C64_progress (D := D) (acts_often hact) (fun n => by
    obtain ⟨m, h1, h2⟩ := hen n
    exact ⟨m, h1, by rw [(soft_same (sim_at e m)).2.1]; exact h2⟩) n
  exact ⟨m, h1, by rw [received_eq, stores_eq]; exact h2⟩

/-- **C81** (mailbox): `RX` holds the last character stored, until `main` empties it. -/
theorem C81_mailbox {D : Nat} (e : Nat → Env) (n : Nat) :
    (∀ d, mailbox D e n = some d → (stores D e n).getLast? = some d) ∧
    (∀ d, storing D e n = some d → mailbox D e (n + 1) = some d) ∧
    (storing D e n = none → mailbox D e (n + 1) = mailbox D e n ∨ Clearing D e n ∧ mailbox D e (n + 1) = none) := by
  rw [mailbox_eq, mailbox_eq, storing_eq, stores_eq, clearing_iff]; exact C64_mailbox _ n

/-- **C81** (atomic): in a critical section, nothing but `main` changes `RX`. -/
theorem C81_atomic {D : Nat} (e : Nat → Env) {m k : Nat}
    (h : ∀ i, i ≤ k → (Sys.at_ D e (m + i)).soft.main.enabled = false) (hc : ∀ i, i < k → ¬ Clearing D e (m + i)) :
    mailbox D e (m + k) = mailbox D e m := by
  rw [mailbox_eq, mailbox_eq]
  exact C64_atomic _ (fun i hi => by rw [(soft_same (sim_at e _)).2.1]; exact h i hi) (fun i hi => by rw [← clearing_iff]; exact hc i hi)

/-- **C81** (taken): the characters that `main` takes are among those stored, in order and none twice; all of them, if none is stored while there is one. -/
theorem C81_take {D : Nat} (e : Nat → Env) (n : Nat) :
    (taken D e n).Sublist (stores D e n) ∧
    ((∀ k < n, storing D e k ≠ none → mailbox D e k = none) →
      stores D e n = taken D e n ++ (mailbox D e n).toList) := by
  rw [taken_eq, stores_eq, mailbox_eq]
  simp only [storing_eq, mailbox_eq]
  exact C64_take _ n

/-- **C81** (keyboard): if a keyboard with the same divisor is connected and the firmware keeps up, the characters received are those typed. -/
theorem C81_keyboard {D : Nat} (hD : 4 ≤ D) (e : Nat → Env) {keys : Nat → Option (BitVec 8)} (hw : Fw.Wired D e keys)
    (hk : DriverKeepsUp D e keys) (n : Nat) :
    received D e (n + rxLatency D 8) = typed D keys n ∧ stores D e n <+: typed D keys n := by
  rw [received_eq, stores_eq]
  exact C64_keyboard hD _ ((wired_iff keys).1 hw) ((driver_iff keys).1 hk) n

/-- Two characters are typed. -/
def fwCsrKeys (k : Nat) : Option (BitVec 8) := if k = 5 then some 0x61#8 else if k = 120 then some 0x62#8 else none

/-- `main` empties `RX` every 32 cycles, if it can. -/
def fwCsrTyped (k : Nat) : Env :=
  { act := some (if k % 32 = 0 then .lock else if k % 32 = 1 then .clearRx else .unlock), rx := (keyboard 8 fwCsrKeys k).out }

/-- In that run, both are received, stored and taken, and the conditions of C81_keyboard hold. -/
example : received 8 fwCsrTyped 300 = [0x61#8, 0x62#8] ∧ stores 8 fwCsrTyped 300 = [0x61#8, 0x62#8] ∧
    taken 8 fwCsrTyped 300 = [0x61#8, 0x62#8] := by decide +kernel

example : Fw.Wired 8 fwCsrTyped fwCsrKeys ∧ DriverKeepsUp 8 fwCsrTyped fwCsrKeys := by
  refine ⟨fun n => rfl, fun n _ hn => ?_⟩
  by_cases h1 : n = 5
  · subst h1; decide +kernel
  · by_cases h2 : n = 120
    · subst h2; decide +kernel
    · simp [fwCsrKeys, h1, h2] at hn

end Sentinel
