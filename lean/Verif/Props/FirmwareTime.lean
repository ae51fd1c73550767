import Verif.Proof.FirmwareTime
import Verif.Props.FirmwareLive
/-!
# C65: timing of the Rust firmware
-/

set_option linter.unusedSimpArgs false

namespace Sentinel

open Fw

/-- **C65** (waiting): `COUNT` counts at most once in 2^14 cycles.  If it is 0 while the handler is not running, it is
not `c` before `(c - 2) * 2^14` cycles have passed; whatever else happens.  (`do_demo` waits for 144 counts,
which is more than 2.3 million cycles, 0.19 seconds at 12 MHz.) -/
theorem C65_wait {D : Nat} (e : Nat → Env) {m k c : Nat} (hi : (Sys.at_ D e m).soft.isr = none)
    (h0 : (Sys.at_ D e m).soft.count = 0) (hc : 2 ≤ c) (h : c ≤ (Sys.at_ D e (m + k)).soft.count.toNat) :
    (c - 2) * 2 ^ 14 < k := by
  have h1 := count_at (D := D) (e := e) m k
  have h2 : tickTok (Sys.at_ D e m) ≤ 1 := by
    have : isrTick (Sys.at_ D e m) = false := by unfold isrTick; rw [hi]
    unfold tickTok
    rw [this]
    cases (Sys.at_ D e m).timer.irq <;> decide
  rw [h0] at h1
  have h3 : (0 : BitVec 8).toNat = 0 := rfl
  rw [h3] at h1
  omega

namespace Fw
variable {D : Nat} {e : Nat → Env}

theorem pend_quiet (m k : Nat) (hw : ∀ i, i ≤ k → writing D e (m + i) = none) (hD : 0 < D) :
    (Sys.at_ D e (m + k)).soft.pend.length + (frames D e (m + k)).length = (Sys.at_ D e m).soft.pend.length + (frames D e m).length := by
  have hc : ∀ i, i ≤ k → calls D e (m + i) = calls D e m := by
    intro i
    induction i with
    | zero => intro _; rfl
    | succ i ih =>
      intro hi
      rw [← Nat.add_assoc, calls, ih (by omega), hw i (by omega), show m + i + 1 = m + (i + 1) from rfl, hw (i + 1) hi]
      simp
  have h1 := congrArg List.length (calls_eq (e := e) hD (m + k))
  have h2 := congrArg List.length (calls_eq (e := e) hD m)
  rw [hc k (by omega), h2, List.length_append, List.length_append] at h1
  omega

theorem cur_nil {m : Main} (h : m.writing = none) : m.cur = [] := by
  cases m <;> simp [Main.writing] at h <;> rfl

end Fw

/-- **C65** (drain): if the processor does an action at least every `K` cycles, and `main` neither writes nor is in a
critical section, then all that it has written is on the line after at most `63 * (10 * D + 15 * K + 19)` cycles. -/
theorem C65_drain {D : Nat} (hD : 0 < D) {K : Nat} {e : Nat → Env} (hK : ∀ n, ∃ m ≥ n, m < n + K ∧ (e m).act.isSome = true)
    {m k : Nat} (hk : 63 * (10 * D + 15 * K + 19) ≤ k)
    (hen : ∀ i, i ≤ k → (Sys.at_ D e (m + i)).soft.main.enabled = true) (hw : ∀ i, i ≤ k → writing D e (m + i) = none) :
    frames D e (m + k) = calls D e (m + k) := by
  have hpend : ∀ i, i ≤ k → (Sys.at_ D e (m + i)).soft.pend = (Sys.at_ D e (m + i)).soft.hand ++ (Sys.at_ D e (m + i)).soft.queue := by
    intro i hi
    rw [Soft.pend, cur_nil (hw i hi), List.append_nil]
  have mono : ∀ i j, i ≤ j → j ≤ k → (Sys.at_ D e (m + j)).soft.pend.length ≤ (Sys.at_ D e (m + i)).soft.pend.length := by
    intro i j hij hj
    obtain ⟨d, rfl⟩ := Nat.exists_eq_add_of_le hij
    have := pend_quiet (e := e) (m + i) d (fun x hx => by rw [Nat.add_assoc]; exact hw _ (by omega)) hD
    have h2 := (frames_mono (D := D) (e := e) (m + i) d).length_le
    rw [← Nat.add_assoc]
    omega
  have key : ∀ j, j * (10 * D + 15 * K + 19) ≤ k → (Sys.at_ D e (m + j * (10 * D + 15 * K + 19))).soft.pend.length ≤ 63 - j := by
    intro j
    induction j with
    | zero =>
      intro _
      have h1 := hpend 0 (by omega)
      have h2 := room_at (D := D) e m
      simp only [Nat.zero_mul, Nat.add_zero] at h1 ⊢
      rw [h1, List.length_append]
      exact h2
    | succ j ih =>
      intro hj
      rw [Nat.add_mul, Nat.one_mul] at hj ⊢
      have ih := ih (by omega)
      generalize hx : j * (10 * D + 15 * K + 19) = x at *
      have hle := mono x (x + (10 * D + 15 * K + 19)) (by omega) hj
      by_cases hz : (Sys.at_ D e (m + x)).soft.pend = []
      · rw [hz] at hle
        simp at hle
        rw [hle]; simp
      · obtain ⟨m', g1, g2, g3⟩ := held_starts_le hD hK (n := m + x)
          (fun y h1 h2 => by
            obtain ⟨d, rfl⟩ := Nat.exists_eq_add_of_le h1
            rw [Nat.add_assoc]; exact hen _ (by omega))
          (by rw [← hpend x (by omega)]; exact hz)
        obtain ⟨d, rfl⟩ := Nat.exists_eq_add_of_le g1
        have q1 := pend_quiet (e := e) (m + x) (d + 1) (fun i hi => by rw [Nat.add_assoc]; exact hw _ (by omega)) hD
        have q2 := (frames_mono (D := D) (e := e) (m + x) d).length_le
        have q3 : (frames D e (m + x + (d + 1))).length = (frames D e (m + x + d)).length + (Sys.at_ D e (m + x + d)).started.length := by
          rw [← Nat.add_assoc, frames_succ hD, List.length_append]
        have q4 := List.length_pos_iff.2 g3
        have q5 := mono (x + (d + 1)) (x + (10 * D + 15 * K + 19)) (by omega) hj
        rw [← Nat.add_assoc m x (d + 1)] at q5
        omega
  have h1 := key 63 hk
  have h2 := mono _ k hk (by omega)
  have h3 : (Sys.at_ D e (m + k)).soft.pend = [] := List.eq_nil_of_length_eq_zero (by omega)
  have h4 := calls_eq (e := e) hD (m + k)
  rw [h3, List.append_nil] at h4
  exact h4.symm

/-- **C65** (writing in a critical section): `write_char` called from inside a critical section returns if no more than 63
bytes, with its own, are not on the line yet. -/
theorem C65_nested {D : Nat} (hD : 0 < D) {e : Nat → Env} (hact : ∀ n, ∃ m ≥ n, (e m).act.isSome = true) {n : Nat} {b : BitVec 8}
    (h : (Sys.at_ D e n).soft.main = .locked) (hw : writing D e (n + 1) = some b)
    (hroom : (calls D e (n + 1)).length ≤ (frames D e (n + 1)).length + 63) :
    ∃ m > n, writing D e m = none ∧ (Sys.at_ D e m).soft.main = .locked := by
  have hi := main_isr_none (D := D) (e := e) n (by rw [h]; rfl)
  have ha : (Sys.at_ D e n).soft.access = none := by simp [Soft.access, hi, h, Main.access]
  have h1 : (Sys.at_ D e (n + 1)).soft.main = .retry true b := by
    unfold writing at hw
    cases hop : (e n).act with
    | none =>
      rw [soft_succ] at hw
      unfold Sys.softNext at hw
      rw [ha, hop] at hw
      simp only [h] at hw; cases hw
    | some op =>
      rw [act_main hi ha hop (.inl (by rw [h]; rfl))] at hw ⊢
      simp only [Soft.mainAct, h] at hw ⊢
      cases op <;> simp [Soft.opAct, Main.writing, h] at hw ⊢
      exact hw
  have i1 := main_isr_none (D := D) (e := e) (n + 1) (by rw [h1]; rfl)
  have a1 : (Sys.at_ D e (n + 1)).soft.access = none := by simp [Soft.access, i1, h1, Main.access]
  have q1 : (Sys.at_ D e (n + 1)).soft.queue.length < 63 := by
    have := congrArg List.length (calls_eq (e := e) hD (n + 1))
    simp only [Soft.pend, Soft.hand, i1, h1, Main.cur, List.length_append, List.length_nil, List.length_singleton] at this
    omega
  obtain ⟨m2, op, g1, g2, g3⟩ := wait_act hact a1
  have h2 := act_main (by rw [g3]; exact i1) (by rw [g3]; exact a1) g2 (.inl (by rw [g3, h1]; rfl))
  rw [g3] at h2
  simp only [Soft.mainAct, h1] at h2
  have i2 := main_isr_none (D := D) (e := e) (m2 + 1) (by rw [h2]; rfl)
  have a2 : (Sys.at_ D e (m2 + 1)).soft.access = none := by rw [Soft.access, i2, h2]; rfl
  obtain ⟨m3, op', g4, g5, g6⟩ := wait_act hact a2
  have h3 := act_main (by rw [g6]; exact i2) (by rw [g6]; exact a2) g5 (.inl (by rw [g6, h2]; rfl))
  rw [g6, h2] at h3
  simp only [Soft.mainAct] at h3
  have hq : (Sys.at_ D e (n + 1)).soft.queue.length < capacity := q1
  cases hb : (Sys.at_ D e (n + 1)).soft.busy
  · rw [hb, if_neg (by simp)] at h3
    have i3 := main_isr_none (D := D) (e := e) (m3 + 1) (by rw [h3]; rfl)
    have a3 : (Sys.at_ D e (m3 + 1)).soft.access = some (.serTx b) := by rw [Soft.access, i3, h3]; rfl
    obtain ⟨m4, d, g7, g8⟩ := access_done a3
    have h4 : (Sys.at_ D e m4).soft.main = .flag true b := by
      have : (Sys.at_ D e (m3 + 1)).soft.main = .send true b := by rw [h3]
      rw [g8]; simp only [Soft.done, i3, this, Main.done]
    have i4 := main_isr_none (D := D) (e := e) m4 (by rw [h4]; rfl)
    have a4 : (Sys.at_ D e m4).soft.access = none := by rw [Soft.access, i4, h4]; rfl
    obtain ⟨m5, op5, g9, g10, g11⟩ := wait_act hact a4
    have h5 := act_main (by rw [g11]; exact i4) (by rw [g11]; exact a4) g10 (.inl (by rw [g11, h4]; rfl))
    rw [g11] at h5
    simp only [Soft.mainAct, h4] at h5
    exact ⟨m5 + 1, by omega, by unfold writing; rw [h5]; rfl, by rw [h5]; rfl⟩
  · rw [hb, if_pos rfl, if_pos hq] at h3
    exact ⟨m3 + 1, by omega, by unfold writing; rw [h3]; rfl, by rw [h3]; rfl⟩

/-- **C65** (writing in a critical section, time): it does so within `3 * K + 3` cycles if the processor does an action every `K` cycles. -/
theorem C65_nested_time {D : Nat} (hD : 0 < D) {K : Nat} {e : Nat → Env} (hact : ∀ n, ∃ m ≥ n, m < n + K ∧ (e m).act.isSome = true) {n : Nat} {b : BitVec 8}
    (h : (Sys.at_ D e n).soft.main = .locked) (hw : writing D e (n + 1) = some b)
    (hroom : (calls D e (n + 1)).length ≤ (frames D e (n + 1)).length + 63) :
    ∃ m > n, m ≤ n + (3 * K + 3) ∧ writing D e m = none ∧ (Sys.at_ D e m).soft.main = .locked := by
  have hi := main_isr_none (D := D) (e := e) n (by rw [h]; rfl)
  have ha : (Sys.at_ D e n).soft.access = none := by simp [Soft.access, hi, h, Main.access]
  have h1 : (Sys.at_ D e (n + 1)).soft.main = .retry true b := by
    unfold writing at hw
    cases hop : (e n).act with
    | none =>
      rw [soft_succ] at hw
      unfold Sys.softNext at hw
      rw [ha, hop] at hw
      simp only [h] at hw; cases hw
    | some op =>
      rw [act_main hi ha hop (.inl (by rw [h]; rfl))] at hw ⊢
      simp only [Soft.mainAct, h] at hw ⊢
      cases op <;> simp [Soft.opAct, Main.writing, h] at hw ⊢
      exact hw
  have i1 := main_isr_none (D := D) (e := e) (n + 1) (by rw [h1]; rfl)
  have a1 : (Sys.at_ D e (n + 1)).soft.access = none := by simp [Soft.access, i1, h1, Main.access]
  have q1 : (Sys.at_ D e (n + 1)).soft.queue.length < 63 := by
    have := congrArg List.length (calls_eq (e := e) hD (n + 1))
    simp only [Soft.pend, Soft.hand, i1, h1, Main.cur, List.length_append, List.length_nil, List.length_singleton] at this
    omega
  obtain ⟨m2, op, g1, l1, g2, g3⟩ := wait_act_le hact a1
  have h2 := act_main (by rw [g3]; exact i1) (by rw [g3]; exact a1) g2 (.inl (by rw [g3, h1]; rfl))
  rw [g3] at h2
  simp only [Soft.mainAct, h1] at h2
  have i2 := main_isr_none (D := D) (e := e) (m2 + 1) (by rw [h2]; rfl)
  have a2 : (Sys.at_ D e (m2 + 1)).soft.access = none := by rw [Soft.access, i2, h2]; rfl
  obtain ⟨m3, op', g4, l2, g5, g6⟩ := wait_act_le hact a2
  have h3 := act_main (by rw [g6]; exact i2) (by rw [g6]; exact a2) g5 (.inl (by rw [g6, h2]; rfl))
  rw [g6, h2] at h3
  simp only [Soft.mainAct] at h3
  have hq : (Sys.at_ D e (n + 1)).soft.queue.length < capacity := q1
  cases hb : (Sys.at_ D e (n + 1)).soft.busy
  · rw [hb, if_neg (by simp)] at h3
    have i3 := main_isr_none (D := D) (e := e) (m3 + 1) (by rw [h3]; rfl)
    have a3 : (Sys.at_ D e (m3 + 1)).soft.access = some (.serTx b) := by rw [Soft.access, i3, h3]; rfl
    obtain ⟨m4, d, g7, l3, g8⟩ := access_done_le a3
    have h4 : (Sys.at_ D e m4).soft.main = .flag true b := by
      have : (Sys.at_ D e (m3 + 1)).soft.main = .send true b := by rw [h3]
      rw [g8]; simp only [Soft.done, i3, this, Main.done]
    have i4 := main_isr_none (D := D) (e := e) m4 (by rw [h4]; rfl)
    have a4 : (Sys.at_ D e m4).soft.access = none := by rw [Soft.access, i4, h4]; rfl
    obtain ⟨m5, op5, g9, l4, g10, g11⟩ := wait_act_le hact a4
    have h5 := act_main (by rw [g11]; exact i4) (by rw [g11]; exact a4) g10 (.inl (by rw [g11, h4]; rfl))
    rw [g11] at h5
    simp only [Soft.mainAct, h4] at h5
    exact ⟨m5 + 1, by omega, by omega, by unfold writing; rw [h5]; rfl, by rw [h5]; rfl⟩
  · rw [hb, if_pos rfl, if_pos hq] at h3
    exact ⟨m3 + 1, by omega, by omega, by unfold writing; rw [h3]; rfl, by rw [h3]; rfl⟩

/-! ## Example -/

namespace Fw

/-- In the run of `fwQuiet`, the timer is counted. -/
structure Counting (n : Nat) (s : Sys) : Prop where
  low : s.timer.prescalar.toNat % 2 ^ 14 = n % 2 ^ 14
  count : s.soft.count = BitVec.ofNat 8 (match s.soft.isr with
    | none => if s.timer.prescalar = 16384#15 then n / 2 ^ 14 - 1 else n / 2 ^ 14
    | some .enter | some .rdTimer | some (.gotTimer _) => n / 2 ^ 14 - 1
    | _ => n / 2 ^ 14)
  late : s.soft.isr ≠ none → 2 ^ 14 ≤ n
  seen : match s.soft.isr with
    | some .rdTimer => s.timer.ack = true → s.timer.datR.getLsbD 0 = true
    | some (.gotTimer v) => v.getLsbD 0 = true
    | _ => True

theorem counting_step {D n : Nat} {s : Sys} (hn : 0 < n) (q : Quiet s) (h : Counting n s) :
    Counting (n + 1) (s.step D { act := some .other }) := by
  have hlow : (s.step D { act := some .other }).timer.prescalar.toNat % 2 ^ 14 = (n + 1) % 2 ^ 14 := by
    have h1 := WbTimer.step_toNat s.timer (timerReq s.soft.access)
    have h2 := h.low
    show (s.timer.step (timerReq s.soft.access)).prescalar.toNat % 2 ^ 14 = _
    rw [h1]
    split <;> omega
  suffices hx : _ ∧ _ ∧ _ from ⟨hlow, hx.1, hx.2.1, hx.2.2⟩
  obtain ⟨h1, h2, h3, ⟨t1, t2, t3⟩, ⟨r1, r2, r3, r4⟩, h6⟩ := q
  obtain ⟨low, hcnt, late, seen⟩ := h
  clear hlow
  obtain ⟨⟨q, busy, box, cnt, main, isr⟩, ⟨tx, rx, datR, ack, rxIrq, rxPrev, txIrq, txPrev⟩, ⟨p, tdat, tack⟩, ld⟩ := s
  simp only at *
  subst h1 h2 h3 t2 t3 r3 r4
  have hirq : ∀ p : BitVec 15, (p.getLsbD 14 = true) ↔ 16384 ≤ p.toNat := by
    intro p
    rw [BitVec.getLsbD, Nat.testBit_eq_decide_div_mod_eq, decide_eq_true_iff]
    have := p.isLt
    omega
  rcases isr with _ | i
  · obtain ⟨g1, g2, g3⟩ := h6
    subst g2 g3
    by_cases hp : p.toNat = 16384
    · have hp' : p = 16384#15 := BitVec.eq_of_toNat_eq hp
      subst hp'
      have e1 : (n + 1) / 2 ^ 14 = n / 2 ^ 14 := by simp at low; omega
      simp [-Nat.reducePow, Sys.step, Sys.softNext, Soft.access, Main.access, Sys.irq, WbTimer.irq, Main.enabled, WbTimer.step, Sys.timerSees, timerReq, WbSerial.step, serReq, e1]
      exact ⟨hcnt, by simp at low; omega⟩
    · have hq : p.getLsbD 14 = false := by
        rw [← Bool.not_eq_true, hirq]; omega
      have hne : p ≠ 16384#15 := fun h => hp (by rw [h]; rfl)
      rw [if_neg hne] at hcnt
      have e1 : (if p + 1#15 = 16384#15 then (n + 1) / 2 ^ 14 - 1 else (n + 1) / 2 ^ 14) = n / 2 ^ 14 := by
        have e2 : (p + 1#15).toNat = p.toNat + 1 := by rw [BitVec.toNat_add]; simp; omega
        have e3 : p + 1#15 = 16384#15 ↔ p.toNat + 1 = 16384 := by
          rw [← BitVec.toNat_inj, e2]; rfl
        simp only [e3]
        split <;> omega
      simp [-Nat.reducePow, -BitVec.getLsbD_eq_getElem, Sys.step, Sys.softNext, Soft.access, Main.access, Sys.irq, WbTimer.irq, Main.enabled, WbTimer.step, Sys.timerSees, timerReq, WbSerial.step, serReq, hq,
          WbSerial.irq, Soft.mainAct, Soft.opAct]
      rw [e1]; exact hcnt
  · have late := late (by simp)
    cases i <;> simp only at h6
    case rdTimer =>
      rcases h6 with ⟨⟨g1, g2⟩ | ⟨g1, g2⟩, g3⟩ <;> subst g1 g2 g3 <;> simp at low <;>
        have e1 : (n + 1) / 2 ^ 14 = n / 2 ^ 14 := by omega
      · simp [-Nat.reducePow, Sys.step, Sys.softNext, Soft.access, Isr.access, Soft.done, Isr.done, Sys.reply, WbTimer.irq, WbTimer.step, Sys.timerSees, timerReq, WbSerial.step, serReq, e1]
        exact ⟨hcnt, by omega⟩
      · simp [-Nat.reducePow, Sys.step, Sys.softNext, Soft.access, Isr.access, Soft.done, Isr.done, Sys.reply, WbTimer.irq, WbTimer.step, Sys.timerSees, timerReq, WbSerial.step, serReq, e1]
        exact ⟨hcnt, by omega, by simpa using seen⟩
    case rdInt =>
      rcases h6 with ⟨⟨g1, g2⟩ | ⟨g1, g2, g4⟩, g3⟩ <;> subst g1 g2 g3 <;> simp at low <;>
        have e1 : (n + 1) / 2 ^ 14 = n / 2 ^ 14 := by omega
      all_goals
        simp [-Nat.reducePow, Sys.step, Sys.softNext, Soft.access, Isr.access, Soft.done, Isr.done, Sys.reply, WbTimer.irq, WbTimer.step, Sys.timerSees, timerReq, WbSerial.step, serReq, e1]
        exact ⟨hcnt, by omega⟩
    case gotTimer v =>
      obtain ⟨g1, g2, g3⟩ := h6
      subst g1 g2
      simp at low
      have e1 : (n + 1) / 2 ^ 14 = n / 2 ^ 14 := by omega
      have e2 : n / 2 ^ 14 = n / 2 ^ 14 - 1 + 1 := by omega
      have hv : v.getLsbD 0 = true := seen
      have cnt' : cnt = BitVec.ofNat 8 (n / 2 ^ 14 - 1) := by assumption
      subst cnt'
      simp [-Nat.reducePow, -BitVec.getLsbD_eq_getElem, Sys.step, Sys.softNext, Soft.access, Isr.access, Soft.isrAct, WbTimer.irq, WbTimer.step, Sys.timerSees, timerReq, WbSerial.step, serReq, g3, e1, hv]
      refine ⟨?_, by omega⟩
      rw [e2, Nat.add_sub_cancel, BitVec.ofNat_add]
    case enter | gotInt v | tx v | leave =>
      obtain ⟨g1, g2, g3⟩ := h6
      subst g1 g2
      simp at low
      have e1 : (n + 1) / 2 ^ 14 = n / 2 ^ 14 := by omega
      simp [-Nat.reducePow, Sys.step, Sys.softNext, Soft.access, Isr.access, Soft.isrAct, WbTimer.irq, WbTimer.step, Sys.timerSees, timerReq, WbSerial.step, serReq, g3, e1]
      first | exact ⟨hcnt, by omega⟩ | exact hcnt

theorem counting_at (n : Nat) : Counting (100 + n) (Sys.at_ 4 fwQuiet (100 + n)) := by
  induction n with
  | zero =>
    have h : (Sys.at_ 4 fwQuiet (100 + 0)).soft.isr = none := by decide +kernel
    refine ⟨by decide +kernel, ?_, by rw [h]; simp, by rw [h]; trivial⟩
    rw [h]
    decide +kernel
  | succ n ih =>
    have e : fwQuiet (100 + n) = { act := some .other } := by
      unfold fwQuiet
      rw [if_neg (by omega)]
    have := counting_step (D := 4) (by omega) (quiet_at n) ih
    rw [← e] at this
    exact this

/-- In the run of `fwQuiet`, every period is counted. -/
theorem quiet_count (j : Nat) : (Sys.at_ 4 fwQuiet (100 + j * 2 ^ 14)).soft.isr = none ∧
    (Sys.at_ 4 fwQuiet (100 + j * 2 ^ 14)).soft.count = BitVec.ofNat 8 j := by
  obtain ⟨h1, h2, -, -⟩ := counting_at (j * 2 ^ 14)
  have h3 := (quiet_at (j * 2 ^ 14)).isr
  generalize Sys.at_ 4 fwQuiet (100 + j * 2 ^ 14) = s at *
  have e1 : (100 + j * 2 ^ 14) / 2 ^ 14 = j := by omega
  have e2 : (100 + j * 2 ^ 14) % 2 ^ 14 = 100 := by omega
  rw [e2] at h1
  cases hi : s.soft.isr with
  | none =>
    rw [hi] at h2
    simp only at h2
    rw [if_neg (by intro h; rw [h] at h1; cases h1), e1] at h2
    exact ⟨rfl, h2⟩
  | some i =>
    rw [hi] at h3
    exfalso
    cases i <;> simp only at h3
    case rdTimer => rcases h3.1 with h | h <;> rw [h.1] at h1 <;> cases h1
    case rdInt => rcases h3.1 with h | h <;> rw [h.1] at h1 <;> cases h1
    all_goals rw [h3.1] at h1; cases h1

end Fw

/-- The hypotheses of `C65_wait` hold of the run of `fwQuiet`, between cycle 100 and the cycle 150 periods later. -/
example : (Sys.at_ 4 fwQuiet 100).soft.isr = none ∧ (Sys.at_ 4 fwQuiet 100).soft.count = 0 ∧
    144 ≤ (Sys.at_ 4 fwQuiet (100 + 150 * 2 ^ 14)).soft.count.toNat := by
  refine ⟨(quiet_count 0).1, (quiet_count 0).2, ?_⟩
  rw [(quiet_count 150).2]
  decide

/-- The hypotheses of `C65_drain` hold of the run of `fwQuiet` from cycle 100 on. -/
example : (∀ n, ∃ m ≥ n, m < n + 1 ∧ (fwQuiet m).act.isSome = true) ∧
    (∀ i, (Sys.at_ 4 fwQuiet (100 + i)).soft.main.enabled = true) ∧ (∀ i, writing 4 fwQuiet (100 + i) = none) ∧
    calls 4 fwQuiet 100 = [0x41#8] := by
  refine ⟨fun n => ⟨n, by omega, by omega, rfl⟩, fun i => ?_, fun i => ?_, by decide +kernel⟩
  · rw [(quiet_at i).main]; rfl
  · unfold writing; rw [(quiet_at i).main]; rfl

/-- `main` writes 0x41 and 0x42 inside a critical section. -/
def fwNested (k : Nat) : Env := { act := some (if k < 30 then .other else if k = 30 then .lock else if k < 33 then .write 0x41#8 else .write 0x42#8) }

/-- The hypotheses of `C65_nested` hold of both calls: the first finds the transmitter ready, the second the queue with
room. -/
example : (∀ n, ∃ m ≥ n, (fwNested m).act.isSome = true) ∧
    (Sys.at_ 4 fwNested 31).soft.main = .locked ∧ writing 4 fwNested 32 = some 0x41#8 ∧
    (calls 4 fwNested 32).length ≤ (frames 4 fwNested 32).length + 63 ∧
    (∃ n, n < 60 ∧ (Sys.at_ 4 fwNested n).soft.main = .locked ∧ writing 4 fwNested (n + 1) = some 0x42#8 ∧
      (calls 4 fwNested (n + 1)).length ≤ (frames 4 fwNested (n + 1)).length + 63) := by
  refine ⟨fun n => ⟨n, by omega, rfl⟩, by decide +kernel, by decide +kernel, by decide +kernel, ⟨37, by omega, ?_⟩⟩
  decide +kernel

end Sentinel
