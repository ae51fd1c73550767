import Verif.Soc.Timer
/-!
# C39: the timers of the example SoC
-/

namespace Sentinel

/-- Number of cycles after which the counter sets or clears the interrupt by itself. -/
abbrev timerPeriod : Nat := 2 ^ 14

namespace WbTimer

/-- In cycle `n` the master requests a read of the IRQ register. -/
def Reads (r : Nat → WbReq) (n : Nat) : Prop :=
  (r n).stb = true ∧ (r n).cyc = true ∧ (r n).we = false ∧ (r n).sel = true

theorem irq_iff (s : WbTimer) : s.irq = true ↔ 2 ^ 14 ≤ s.prescalar.toNat := by
  have := BitVec.msb_eq_decide s.prescalar
  rw [BitVec.msb_eq_getLsbD_last] at this
  unfold irq
  simp at this
  simp [this]

theorem low_toNat (p : BitVec 15) : (0#1 ++ p.extractLsb' 0 14 : BitVec 15).toNat = p.toNat % 2 ^ 14 := by
  rw [BitVec.toNat_append, BitVec.extractLsb'_toNat]
  simp

theorem step_toNat (s : WbTimer) (q : WbReq) : (s.step q).prescalar.toNat =
    if q.stb = true ∧ q.cyc = true ∧ q.we = false ∧ q.sel = true ∧ 2 ^ 14 ≤ s.prescalar.toNat then
      (s.prescalar.toNat + 1) % 2 ^ 14
    else (s.prescalar.toNat + 1) % 2 ^ 15 := by
  have hi := irq_iff s
  have hp := s.prescalar.isLt
  unfold step
  simp only
  by_cases h : q.stb = true ∧ q.cyc = true ∧ q.we = false ∧ q.sel = true ∧ 2 ^ 14 ≤ s.prescalar.toNat
  · obtain ⟨h1, h2, h3, h4, h5⟩ := h
    rw [if_pos (by simp [h1, h2, h3, h4, hi.2 h5]), if_pos ⟨h1, h2, h3, h4, h5⟩, low_toNat, BitVec.toNat_add]
    simp
  · rw [if_neg, if_neg h, BitVec.toNat_add]
    · simp
    · simp only [Bool.and_eq_true, Bool.not_eq_true']
      rintro ⟨⟨⟨⟨h1, h2⟩, h3⟩, h4⟩, h5⟩
      exact h ⟨h1, h2, h3, h4, hi.1 h5⟩

/-- The lower bits count every cycle, whatever is read. -/
theorem low_run (s : WbTimer) (r : Nat → WbReq) (n : Nat) :
    (s.run r n).prescalar.toNat % timerPeriod = (s.prescalar.toNat + n) % timerPeriod := by
  induction n with
  | zero => rfl
  | succ n ih =>
    have h := step_toNat (s.run r n) (r n)
    rw [show s.run r (n + 1) = (s.run r n).step (r n) from rfl, h]
    unfold timerPeriod at *
    split <;> omega

end WbTimer

open WbTimer

/-- **C39** (exact law): whatever the bus does, the interrupt line of the next cycle is low if the IRQ
register is being read while it is high; otherwise it changes exactly when the number of cycles since
the counter was 0 is a multiple of 2^14. -/
theorem C39_next (s : WbTimer) (r : Nat → WbReq) (n : Nat) :
    ((s.run r (n + 1)).irq = true ↔
      ¬ (Reads r n ∧ (s.run r n).irq = true) ∧
      (((s.run r n).irq = true) ↔ ¬ timerPeriod ∣ s.prescalar.toNat + n + 1)) := by
  have h := step_toNat (s.run r n) (r n)
  have hl := low_run s r n
  have hp := (s.run r n).prescalar.isLt
  rw [irq_iff, irq_iff, show s.run r (n + 1) = (s.run r n).step (r n) from rfl, h]
  unfold Reads timerPeriod at *
  rw [Nat.dvd_iff_mod_eq_zero]
  by_cases hr : (r n).stb = true ∧ (r n).cyc = true ∧ (r n).we = false ∧ (r n).sel = true ∧
      2 ^ 14 ≤ (s.run r n).prescalar.toNat
  · rw [if_pos hr]
    constructor
    · intro hx; omega
    · rintro ⟨hx, -⟩
      exact absurd ⟨⟨hr.1, hr.2.1, hr.2.2.1, hr.2.2.2.1⟩, hr.2.2.2.2⟩ hx
  · rw [if_neg hr]
    have hr' : ¬ (((r n).stb = true ∧ (r n).cyc = true ∧ (r n).we = false ∧ (r n).sel = true) ∧
      2 ^ 14 ≤ (s.run r n).prescalar.toNat) := fun hx => hr ⟨hx.1.1, hx.1.2.1, hx.1.2.2.1, hx.1.2.2.2, hx.2⟩
    simp only [hr', not_false_eq_true, true_and]
    omega

/-- **C39** (unread timer): after reset, while the register is not read, the line is low for 2^14
cycles, then high for 2^14 cycles, and so on. -/
theorem C39_period {s : WbTimer} (hs : s.prescalar = 0) {r : Nat → WbReq} {n : Nat}
    (hr : ∀ i < n, ¬ Reads r i) : (s.run r n).irq = true ↔ n / timerPeriod % 2 = 1 := by
  have key : (s.run r n).prescalar.toNat = n % 2 ^ 15 := by
    induction n with
    | zero => simp [run, hs]
    | succ n ih =>
      have h := step_toNat (s.run r n) (r n)
      rw [if_neg (fun hx => hr n (by omega) ⟨hx.1, hx.2.1, hx.2.2.1, hx.2.2.2.1⟩),
        ih (fun i hi => hr i (by omega))] at h
      rw [show s.run r (n + 1) = (s.run r n).step (r n) from rfl, h]
      omega
  rw [irq_iff, key]
  unfold timerPeriod
  omega

/-- A read of the IRQ register in cycles `n` and `n + 1`, as the core makes it: the request is up in
cycle `n`, in which ACK is low, and is held in cycle `n + 1`. -/
structure ReadAt (s : WbTimer) (r : Nat → WbReq) (n : Nat) : Prop where
  first : Reads r n
  idle : (s.run r n).ack = false
  held : Reads r (n + 1)

/-- **C39** (read): the read is acknowledged in its second cycle, and only there, with the interrupt line of its first
cycle as data, and it clears the line; after it the line is low unless a period ends just then. -/
theorem C39_read {s : WbTimer} {r : Nat → WbReq} {n : Nat} (h : ReadAt s r n) :
    (s.run r (n + 1)).ack = true ∧ (s.run r (n + 2)).ack = false ∧
    (s.run r (n + 1)).datR = (if (s.run r n).irq then 1 else 0) ∧
    ((s.run r n).irq = true → (s.run r (n + 1)).irq = false) ∧
    ((s.run r (n + 2)).irq = true → timerPeriod ∣ s.prescalar.toNat + n + 2) := by
  obtain ⟨⟨h1, h2, h3, h4⟩, h5, h6⟩ := h
  refine ⟨?_, ?_, ?_, ?_, ?_⟩
  · simp [run, step, h1, h2, h5]
  · simp [run, step, h1, h2, h5]
  · rw [show s.run r (n + 1) = (s.run r n).step (r n) from rfl]
    simp only [step, h1, h2, h3, h4]
    cases (s.run r n).irq <;> rfl
  · intro hi
    have := C39_next s r n
    by_contra hx
    simp only [Bool.not_eq_false] at hx
    exact (this.1 hx).1 ⟨⟨h1, h2, h3, h4⟩, hi⟩
  · intro hx
    have ha := (C39_next s r (n + 1)).1 hx
    have hn : ¬ (s.run r (n + 1)).irq = true := fun hy => ha.1 ⟨h6, hy⟩
    by_contra hd
    exact hn (ha.2.2 hd)

/-- The interrupt of cycle `n` is reported: the register is read in that cycle, and the read returns 1. -/
def Reported (s : WbTimer) (r : Nat → WbReq) (n : Nat) : Prop :=
  Reads r n ∧ (s.run r n).ack = false ∧ (s.run r (n + 1)).ack = true ∧ (s.run r (n + 1)).datR = 1

/-- The master holds a read until it is acknowledged: a cycle with ACK is the second one of a read. -/
def Holds (s : WbTimer) (r : Nat → WbReq) : Prop :=
  ∀ n, Reads r (n + 1) → (s.run r (n + 1)).ack = true → Reads r n

/-- **C39, full statement**: the interrupt only goes away when it is reported, or by itself at the end
of a period. -/
def C39_full : Prop :=
  ∀ (s : WbTimer) (r : Nat → WbReq) (n : Nat), s.ack = false → Holds s r →
    (s.run r n).irq = true → (s.run r (n + 1)).irq = false →
    timerPeriod ∣ s.prescalar.toNat + n + 1 ∨ Reported s r n

/-- **C39**, except for the race D6: an interrupt that has been up for two cycles only goes away when
it is reported, or by itself at the end of a period. -/
theorem C39_no_loss_partial {s : WbTimer} {r : Nat → WbReq} {n : Nat} (hh : Holds s r)
    (h0 : (s.run r n).irq = true) (h1 : (s.run r (n + 1)).irq = true) (h2 : (s.run r (n + 2)).irq = false) :
    timerPeriod ∣ s.prescalar.toNat + n + 2 ∨ Reported s r (n + 1) := by
  have hn := C39_next s r (n + 1)
  by_cases hd : timerPeriod ∣ s.prescalar.toNat + (n + 1) + 1
  · exact .inl hd
  · right
    have hr : Reads r (n + 1) := by
      by_contra hx
      have := hn.2 ⟨fun hy => hx hy.1, fun _ => hd, fun _ => h1⟩
      rw [show n + 1 + 1 = n + 2 from rfl, h2] at this
      cases this
    have ha : (s.run r (n + 1)).ack = false := by
      by_contra hx
      simp only [Bool.not_eq_false] at hx
      have := (C39_next s r n).1 h1
      exact this.1 ⟨hh n hr hx, h0⟩
    refine ⟨hr, ha, ?_, ?_⟩
    · have hr' := hr
      obtain ⟨x1, x2, x3, x4⟩ := hr'
      show ((s.run r (n + 1)).step (r (n + 1))).ack = true
      simp [step, x1, x2, ha]
    · obtain ⟨x1, x2, x3, x4⟩ := hr
      show ((s.run r (n + 1)).step (r (n + 1))).datR = 1
      simp only [step, x1, x2, x3, x4, h1]
      rfl

/-- A timer one cycle before it raises its interrupt, and a read that starts in that cycle. -/
def raceTimer : WbTimer := { prescalar := 0x3FFF }
def raceReq (n : Nat) : WbReq := if n < 2 then { cyc := true, stb := true, sel := true } else {}

/-- **D6**: a read that starts in the last cycle before the interrupt returns 0 and removes the
interrupt. -/
theorem C39_race : ReadAt raceTimer raceReq 0 ∧ (raceTimer.run raceReq 0).irq = false ∧
    (raceTimer.run raceReq 1).irq = true ∧ (raceTimer.run raceReq 1).datR = 0 ∧
    (raceTimer.run raceReq 2).irq = false := by
  refine ⟨⟨⟨by decide, by decide, by decide, by decide⟩, by decide, ⟨by decide, by decide, by decide, by decide⟩⟩,
    by decide, by decide, by decide, by decide⟩

/-- **C39** does not hold in full. -/
theorem C39_full_false : ¬ C39_full := by
  intro h
  have hh : Holds raceTimer raceReq := by
    intro n hr ha
    cases n with
    | zero => exact ⟨rfl, rfl, rfl, rfl⟩
    | succ n =>
      obtain ⟨h1, -⟩ := hr
      have : raceReq (n + 1 + 1) = {} := by unfold raceReq; rw [if_neg (by omega)]
      rw [this] at h1
      cases h1
  have := h raceTimer raceReq 1 rfl hh (by decide) (by decide)
  rcases this with h | h
  · revert h; decide
  · exact absurd h.2.1 (by decide)

/-- An interrupt that is reported. -/
example : let s : WbTimer := { prescalar := 0x4000 }
    ReadAt s raceReq 0 ∧ (s.run raceReq 1).datR = 1 ∧ (s.run raceReq 1).irq = false := by
  refine ⟨⟨⟨by decide, by decide, by decide, by decide⟩, by decide, ⟨by decide, by decide, by decide, by decide⟩⟩,
    by decide, by decide⟩

/-! ## The timer on the CSR bus -/

theorem CsrTimer.step_toNat (s : CsrTimer) (q : Bool) : (s.step q).prescaler.toNat =
    if q = true ∧ 2 ^ 14 ≤ s.prescaler.toNat then (s.prescaler.toNat + 1) % 2 ^ 14
    else (s.prescaler.toNat + 1) % 2 ^ 15 := by
  have h := WbTimer.step_toNat { prescalar := s.prescaler } { cyc := true, stb := true, sel := q }
  simp only [true_and] at h
  rw [← h]
  cases q <;> rfl

theorem CsrTimer.irq_iff (s : CsrTimer) : s.irq = true ↔ 2 ^ 14 ≤ s.prescaler.toNat :=
  WbTimer.irq_iff { prescalar := s.prescaler }

theorem CsrTimer.low_run (s : CsrTimer) (r : Nat → Bool) (n : Nat) :
    (s.run r n).prescaler.toNat % timerPeriod = (s.prescaler.toNat + n) % timerPeriod := by
  induction n with
  | zero => rfl
  | succ n ih =>
    have h := CsrTimer.step_toNat (s.run r n) (r n)
    rw [show s.run r (n + 1) = (s.run r n).step (r n) from rfl, h]
    unfold timerPeriod at *
    split <;> omega

/-- **C39** for the timer on the CSR bus, without exception: an interrupt only goes away in a cycle in
which its register is read (as 1), or by itself at the end of a period; and it is only raised at the
end of a period. -/
theorem C39_csr (s : CsrTimer) (r : Nat → Bool) (n : Nat) :
    ((s.run r n).irq = true → (s.run r (n + 1)).irq = false → timerPeriod ∣ s.prescaler.toNat + n + 1 ∨ r n = true) ∧
    ((s.run r n).irq = true → r n = true → (s.run r (n + 1)).irq = false) ∧
    ((s.run r n).irq = false → ((s.run r (n + 1)).irq = true ↔ timerPeriod ∣ s.prescaler.toNat + n + 1)) := by
  have h := CsrTimer.step_toNat (s.run r n) (r n)
  have hl := CsrTimer.low_run s r n
  have hp := (s.run r n).prescaler.isLt
  have f : ∀ t : CsrTimer, t.irq = false ↔ ¬ 2 ^ 14 ≤ t.prescaler.toNat := fun t => by
    rw [← CsrTimer.irq_iff]; simp
  rw [f, f, CsrTimer.irq_iff, CsrTimer.irq_iff, show s.run r (n + 1) = (s.run r n).step (r n) from rfl, h]
  unfold timerPeriod at *
  rw [Nat.dvd_iff_mod_eq_zero]
  cases hq : r n
  · simp only [Bool.false_eq_true, false_and, if_false, or_false]
    refine ⟨?_, by simp, ?_⟩ <;> omega
  · simp only [true_and, or_true, implies_true]
    refine ⟨?_, ?_⟩ <;> intro hx
    · rw [if_pos hx]; omega
    · rw [if_neg hx]; omega

example : let s : CsrTimer := { prescaler := 0x7000 }
    s.irq = true ∧ (s.run (fun _ => true) 1).irq = false ∧ (s.run (fun _ => false) 1).irq = true := by decide

end Sentinel
