import Verif.Proof.Firmware
import Verif.Spec.Firmware
/-!
# What the transmit path of the firmware holds
-/

set_option linter.unusedSimpArgs false

namespace Sentinel.Fw

/-- The byte that the handler has taken from the queue and not written to the serial port yet. -/
def Isr.hand : Isr → List (BitVec 8)
  | .deq (some b) | .send b => [b]
  | _ => []

/-- The byte that `write_char` has neither put in the queue nor written to the serial port yet. -/
def Main.cur : Main → List (BitVec 8)
  | .retry _ b | .crit _ b | .send _ b => [b]
  | _ => []

def Soft.hand (f : Soft) : List (BitVec 8) :=
  match f.isr with
  | some i => i.hand
  | none => []

/-- Everything on the way to the serial port. -/
def Soft.pend (f : Soft) : List (BitVec 8) := f.hand ++ f.queue ++ f.main.cur

/-- The byte whose write is acknowledged by the serial port. -/
def Sys.started (s : Sys) : List (BitVec 8) :=
  match s.soft.access with
  | some (.serTx b) => if s.ser.ack then [b] else []
  | _ => []

/-- `write_char` is called. -/
def called (m m' : Main) : List (BitVec 8) :=
  match m.writing, m'.writing with
  | none, some b => [b]
  | _, _ => []

variable {D : Nat}

theorem pend_step {s : Sys} (h : Inv s) (e : Env) :
    s.soft.pend ++ called s.soft.main (s.step D e).soft.main = s.started ++ (s.step D e).soft.pend := by
  have hd := h.idle
  have hf := h.flag
  have ef : (s.step D e).soft = s.softNext e.act := rfl
  rw [ef]
  clear h ef
  obtain ⟨⟨q, busy, box, cnt, main, isr⟩, ser, tm, ld⟩ := s
  simp only at *
  rcases isr with _ | i
  · cases main
    case send n b =>
      have hb := hf n b (.inl rfl)
      subst hb
      cases hak : ser.ack <;>
        simp [Sys.softNext, Soft.pend, Soft.hand, Sys.started, called, Main.writing, Main.cur, Soft.access, Main.access, Soft.done, Main.done, Sys.reply, hak] at hd ⊢ <;>
        simp [hd]
    case gpio n | leds n b =>
      cases htm : ld.ack <;> cases n <;>
        simp [Sys.softNext, Soft.pend, Soft.hand, Sys.started, called, Main.writing, Main.cur, Soft.access, Main.access, Soft.done, Main.done, Main.back, Sys.reply, htm]
    case app | locked =>
      cases hact : e.act with
      | none =>
        simp [Sys.softNext, Soft.pend, Soft.hand, Sys.started, called, Main.writing, Main.cur, Soft.access, Main.access]
      | some op =>
        cases hq1 : tm.irq <;> cases hq2 : ser.irq <;> cases op <;>
          simp [Sys.softNext, Soft.pend, Soft.hand, Sys.started, called, Main.writing, Main.cur, Soft.access, Main.access, Main.enabled,
            Sys.irq, hq1, hq2, Soft.mainAct, Soft.opAct, Isr.hand]
    case start | retry n b | crit n b | flag n b =>
      cases hact : e.act with
      | none =>
        simp [Sys.softNext, Soft.pend, Soft.hand, Sys.started, called, Main.writing, Main.cur, Soft.access, Main.access]
      | some op =>
        by_cases hc : q.length < capacity <;> cases hq1 : tm.irq <;> cases hq2 : ser.irq <;> cases busy <;> (try cases n) <;>
          simp [hc, Sys.softNext, Soft.pend, Soft.hand, Sys.started, called, Main.writing, Main.cur, Soft.access, Main.access, Main.enabled,
            Sys.irq, hq1, hq2, Soft.mainAct, Isr.hand, Main.back]
  · have e1 : ∀ m : Main, called m m = [] := by intro m; cases m <;> rfl
    cases i
    case rdTimer =>
      cases htm : tm.ack <;>
        simp [Sys.softNext, Soft.pend, Soft.hand, Sys.started, e1, Soft.access, Isr.access, Soft.done, Isr.done, Sys.reply, htm, Isr.hand]
    case rdInt | rdRx | send =>
      cases hak : ser.ack <;>
        simp [Sys.softNext, Soft.pend, Soft.hand, Sys.started, e1, Soft.access, Isr.access, Soft.done, Isr.done, Sys.reply, hak, Isr.hand]
    case enter | gotTimer | gotInt | gotRx | leave =>
      cases hact : e.act <;>
        simp [Sys.softNext, Soft.pend, Soft.hand, Sys.started, e1, Soft.access, Isr.access, Soft.isrAct, Isr.hand] <;>
        (try split) <;> simp [e1]
    case tx v =>
      cases hact : e.act <;> cases q <;>
        simp [Sys.softNext, Soft.pend, Soft.hand, Sys.started, e1, Soft.access, Isr.access, Soft.isrAct, Isr.hand] <;>
        (try split) <;> simp [e1]
    case deq m =>
      cases hact : e.act <;> cases busy <;> cases m <;>
        simp [Sys.softNext, Soft.pend, Soft.hand, Sys.started, e1, Soft.access, Isr.access, Soft.isrAct, Isr.hand] at hd ⊢

theorem back_writing (n : Bool) : (Main.back n).writing = none := by cases n <;> rfl

/-- `write_char` stays with its byte. -/
theorem writing_step {s : Sys} {e : Env} {b b' : BitVec 8} (h : s.soft.main.writing = some b)
    (h' : (s.step D e).soft.main.writing = some b') : b' = b := by
  have ef : (s.step D e).soft = s.softNext e.act := rfl
  rw [ef] at h'
  clear ef
  obtain ⟨⟨q, busy, box, cnt, main, isr⟩, ser, tm, ld⟩ := s
  simp only at h
  have h0 : main.writing = some b' → b' = b := fun h'' => by rw [h] at h''; exact (Option.some.inj h'').symm
  unfold Sys.softNext at h'
  split at h'
  · split at h'
    · rcases isr with _ | i
      · cases main <;> simp [Main.writing] at h <;> simp [Soft.done, Main.done, Main.writing] at h'
        all_goals exact h'.symm.trans h
      · exact h0 h'
    · exact h0 h'
  · cases hact : e.act with
    | none => rw [hact] at h'; exact h0 h'
    | some op =>
      rw [hact] at h'
      rcases isr with _ | i
      · simp only at h'
        split at h'
        · exact h0 h'
        · cases main <;> simp [Main.writing] at h <;> simp only [Soft.mainAct] at h'
          case crit =>
            split at h'
            · split at h'
              · rw [back_writing] at h'; cases h'
              · exact (Option.some.inj h').symm.trans h
            · exact (Option.some.inj h').symm.trans h
          case flag => rw [back_writing] at h'; cases h'
          all_goals exact (Option.some.inj h').symm.trans h
      · have : ∀ f : Soft, (f.isrAct i).main = f.main := by
          intro f
          cases i <;> simp [Soft.isrAct] <;> (try split) <;> (try split) <;> rfl
        rw [this] at h'
        exact h0 h'

/-- Queue and handler together hold at most as much as the queue can. -/
theorem room_step {s : Sys} (h : s.soft.hand.length + s.soft.queue.length ≤ capacity) (e : Env) :
    (s.step D e).soft.hand.length + (s.step D e).soft.queue.length ≤ capacity := by
  have ef : (s.step D e).soft = s.softNext e.act := rfl
  rw [ef]
  clear ef
  obtain ⟨⟨q, busy, box, cnt, main, isr⟩, ser, tm, ld⟩ := s
  unfold Sys.softNext
  split
  · split
    · rcases isr with _ | i
      · simpa [Soft.done, Soft.hand] using h
      · cases i <;> simp [Soft.done, Soft.hand, Isr.done, Isr.hand] at h ⊢ <;> omega
    · exact h
  · cases hact : e.act with
    | none => exact h
    | some op =>
      rcases isr with _ | i
      · simp only [Soft.hand, List.length_nil, Nat.zero_add] at h
        simp only
        split
        · simpa [Soft.hand, Isr.hand] using h
        · cases main <;> simp only [Soft.mainAct]
          case app | locked =>
            cases op <;> simp [Soft.opAct, Soft.hand] <;> (try split) <;> exact h
          case crit n b =>
            split
            · split
              · simp [Soft.hand]; omega
              · simpa [Soft.hand] using h
            · simpa [Soft.hand] using h
          all_goals simpa [Soft.hand] using h
      · cases i
        case tx v _ =>
          simp only [Soft.isrAct]
          simp only [Soft.hand, Isr.hand, List.length_nil, Nat.zero_add] at h
          split
          · cases q <;> simp [Soft.hand, Isr.hand] at h ⊢; omega
          · simpa [Soft.hand, Isr.hand] using h
        case deq m _ =>
          cases busy <;> cases m <;> simp [Soft.isrAct, Soft.hand, Isr.hand] at h ⊢ <;> omega
        case gotInt v _ =>
          simp only [Soft.isrAct]
          split <;> simpa [Soft.hand, Isr.hand] using h
        all_goals
          simpa [Soft.isrAct, Soft.hand, Isr.hand] using h

theorem room_at (e : Nat → Env) (n : Nat) :
    (Sys.at_ D e n).soft.hand.length + (Sys.at_ D e n).soft.queue.length ≤ capacity := by
  induction n with
  | zero => exact Nat.zero_le _
  | succ n ih => exact room_step ih _

end Sentinel.Fw
