import Verif.Proof.ClockRun
/-!
# C95: telling the time by counting timer interrupts
-/

set_option linter.unusedSimpArgs false

namespace Sentinel.AttoCsr
open Spec Clock

variable {k D : Nat} {s : AttoCsr k} {p : Nat → AttoIn}

/-- In cycle `n` a read of the low byte of the timer's register is completed. -/
def TimerRead (s : AttoCsr k) (D : Nat) (p : Nat → AttoIn) (n : Nat) : Prop :=
  (s.run D p n).cpu.cyc = true ∧ (s.run D p n).ack = true ∧ (s.run D p n).cpu.req.byteAdr = 0x02800000 ∧
    (s.run D p n).cpu.req.we = false ∧ (s.run D p n).cpu.req.sel.getLsbD 0 = true

/-- **C95** (counting): whatever the program, if every interrupt of the timer is followed by a read of its register that begins before the next
period ends, then the number of reads that returned 1, with the interrupt that may still be pending, is the number of periods since reset. -/
theorem C95_count (h : s.AfterReset)
    (hr : ∀ q, 1 ≤ q → (s.run D p (timerPeriod * q)).timer.irq = true →
      ∃ n, timerPeriod * q + 5 ≤ n ∧ n < timerPeriod * (q + 1) + 4 ∧ TimerRead s D p n) (n : Nat) :
    ticks s D p (n + 5) + (if (s.run D p n).timer.irq then 1 else 0) = n / timerPeriod := by
  have e := fun n => (C73_devices h D p n).2.1
  rw [ticks_hits h, e]
  refine CsrTimer.hits_periods (fun q hq hi => ?_) n
  rw [← e] at hi
  obtain ⟨n, n1, n2, h1, h2, h3, h4, h5⟩ := hr q hq hi
  obtain ⟨-, hrd⟩ := read_strobe h ⟨h1, h2, by rw [Req.csrTarget, h3]; rfl⟩ h4 h5
  rw [Nat.mul_add, Nat.mul_one] at n2
  refine ⟨n - 5 - timerPeriod * q, by omega, ?_⟩
  rw [show timerPeriod * q + (n - 5 - timerPeriod * q) = n - 5 by omega]
  simp only [timerStbs, timerStb, hrd, h3]
  rfl

section
variable (h : s.AfterReset) (hM : HoldsProgram s.ram.mem clockProgram)
include h hM

theorem hits_clock (n : Nat) : ∃ u ≤ n, n ≤ u + 1022 ∧ ({} : CsrTimer).hits (s.timerStbs D p) n = u / timerPeriod := by
  refine CsrTimer.hits_recent (by decide) (fun q hq hi => ?_) n
  rw [← (C73_devices h D p _).2.1] at hi
  exact reads_prompt hM h q hq hi

/-- **C95** (promptness): the clock never misses an interrupt of the timer: one is raised at the end of every period, and it is read, by a read of the
register that returns 1, within 1027 cycles, whatever happens on the pins. -/
theorem C95_prompt (q : Nat) (hq : 1 ≤ q) : (s.run D p (timerPeriod * q)).timer.irq = true ∧
    ∃ n, timerPeriod * q + 5 ≤ n ∧ n < timerPeriod * q + 1027 ∧ TimerRead s D p n ∧ (s.run D p n).datR = 1 := by
  have e := fun n => (C73_devices h D p n).2.1
  have hpos : 0 < timerPeriod := by decide
  have hT : timerPeriod ≤ timerPeriod * q := Nat.le_mul_of_pos_right _ (by omega)
  have hp := CsrTimer.hits_periods (r := s.timerStbs D p) fun q hq hi => by
    rw [← e] at hi
    obtain ⟨j, hj, hst⟩ := reads_prompt hM h q hq hi
    exact ⟨j, by unfold timerPeriod; omega, hst⟩
  -- it is raised
  have hi : (s.run D p (timerPeriod * q)).timer.irq = true := by
    rw [e]
    obtain ⟨T, hT'⟩ : ∃ T, timerPeriod * q = T + 1 := ⟨timerPeriod * q - 1, by omega⟩
    have hd : T / timerPeriod = q - 1 := by
      obtain ⟨c, rfl⟩ : ∃ c, q = c + 1 := ⟨q - 1, by omega⟩
      rw [Nat.mul_add, Nat.mul_one] at hT'
      rw [show T = timerPeriod * c + (timerPeriod - 1) by omega, Nat.mul_add_div hpos, Nat.div_eq_of_lt (by omega)]
      omega
    obtain ⟨u, u1, u2, u3⟩ := hits_clock h hM (D := D) (p := p) T
    have hu : u / timerPeriod = q - 1 := by
      obtain ⟨c, rfl⟩ : ∃ c, q = c + 1 := ⟨q - 1, by omega⟩
      rw [Nat.mul_add, Nat.mul_one] at hT'
      have h14 : timerPeriod = 2 ^ 14 := rfl
      rw [show u = timerPeriod * c + (u - timerPeriod * c) by omega, Nat.mul_add_div hpos, Nat.div_eq_of_lt (by omega)]
      omega
    have h1 := hp T
    rw [hd, u3, hu] at h1
    have h2 := hp (timerPeriod * q)
    rw [Nat.mul_div_cancel_left _ hpos, hT'] at h2
    have h3 : ({} : CsrTimer).hits (s.timerStbs D p) (T + 1) = ({} : CsrTimer).hits (s.timerStbs D p) T := by
      unfold CsrTimer.hits
      rw [Nat.count_succ, if_neg, Nat.add_zero]
      intro g
      rw [g.2, if_pos rfl] at h1
      omega
    rw [h3, u3, hu] at h2
    rw [hT']
    cases hx : (({} : CsrTimer).run (s.timerStbs D p) (T + 1)).irq with
    | true => rfl
    | false => rw [hx, if_neg (by simp)] at h2; omega
  refine ⟨hi, ?_⟩
  obtain ⟨j, ⟨hj, hst⟩, hmin⟩ : ∃ j, (j < 1022 ∧ s.timerStbs D p (timerPeriod * q + j) = true) ∧
      ∀ i < j, s.timerStbs D p (timerPeriod * q + i) = false := by
    classical
    have hex := reads_prompt hM h q hq hi
    refine ⟨Nat.find hex, Nat.find_spec hex, fun i hx => ?_⟩
    have hl := (Nat.find_spec hex).1
    cases hb : s.timerStbs D p (timerPeriod * q + i) with
    | false => rfl
    | true => exact absurd ⟨by omega, hb⟩ (Nat.find_min hex hx)
  have hij := timer_holds h hi (j := j) hmin fun i h1 h2 hd => by
    rw [Nat.dvd_iff_mod_eq_zero, Nat.mul_add_mod] at hd
    unfold timerPeriod at hd
    omega
  have hk := (tickRead_iff (D := D) (p := p) h (timerPeriod * q + j)).2 ⟨hst, hij⟩
  simp only [timerStbs, timerStb, decide_eq_true_eq] at hst
  have hc := (C73_strobes (D := D) (p := p) h).1 (by rw [hst]; simp)
  obtain ⟨b1, b2, b3, b4⟩ := reads_reg h hst
  have hq := ((C73_access h hc).2 0 (by omega)).2.1
  rw [show timerPeriod * q + j + 5 - 5 + 0 = timerPeriod * q + j by omega] at hq
  rw [hq] at b2 b3 b4
  exact ⟨timerPeriod * q + j + 5, by omega, by omega, ⟨hc.cyc, hc.ack, b2, b3, b4⟩, hk.2.2.2.2⟩

omit hM in
theorem outputs_dispatch {t : Nat} (hd : s.cpu.Dispatching (s.inputs D p) t) :
    outputs s D p t = ledOutCsr (s.cpu.events (s.inputs D p) 1 (t - 1)) := by
  have : pend (s.run D p t) = [] := by
    unfold pend
    rw [if_neg]
    intro hx
    have := done_cyc (busInv h t) hx
    rw [dispatch_cyc hd] at this; cases this
  rw [outputs, this, List.append_nil]

omit hM in
theorem outputs_prefix (t n : Nat) : ∃ l, outputs s D p (t + n) = outputs s D p t ++ l := by
  induction n with
  | zero => exact ⟨[], by simp⟩
  | succ n ih =>
    obtain ⟨l, hl⟩ := ih
    obtain ⟨l', -, hl'⟩ := outputs_succ (D := D) (p := p) h (t + n)
    exact ⟨l ++ l', by rw [← Nat.add_assoc, hl', hl, List.append_assoc]⟩

/-- The LEDs at a dispatch. -/
def Stale (s : AttoCsr k) (D : Nat) (p : Nat → AttoIn) (t : Nat) : Prop :=
  ∃ t1 ≤ t, t ≤ t1 + 73 * age (at_ (s.run D p t).cpu.arch) ∧
    (s.run D p t).leds.leds = BitVec.ofNat 8 (({} : CsrTimer).hits (s.timerStbs D p) t1)

omit hM in
theorem stale_step (t m : Nat) (hs : StepC (ClockInv s.ram.mem) ClockStep s D p t m) (hq : Stale s D p t) : Stale s D p (t + m) := by
  obtain ⟨w', ha'⟩ := hs.next
  obtain ⟨l, d, hev, hR⟩ := hs.step
  rcases hR.stale with e | ⟨e, hage⟩
  · refine ⟨t + m, Nat.le_refl _, by omega, ?_⟩
    rw [← tickOut_hits h ha'.disp.1]
    obtain ⟨w, ha⟩ := hs.here
    have h1 := ha.disp.1.1
    rw [show t + m - 1 = (t - 1) + m by omega, State.events_add, show 1 + (t - 1) = t by omega, hev, ← List.append_assoc, tickOut_append]
    have hf : tickOut [.bus (fetchReq (s.run D p (t + m)).cpu.arch) d] = 0 := by
      obtain ⟨-, i, hi, hpc, -⟩ := ha'.inv.1
      have hn : ¬ TimerReq (fetchReq (s.run D p (t + m)).cpu.arch) := by
        rintro ⟨hx, -⟩
        have : (fetchReq (s.run D p (t + m)).cpu.arch).byteAdr = 4 * ((s.run D p (t + m)).cpu.arch.pc.toNat / 4) := by
          simp [fetchReq, Req.byteAdr, wordAdr, BitVec.extractLsb'_toNat, Nat.shiftRight_eq_div_pow]
          omega
        rw [this, hpc, BitVec.toNat_ofNat, Nat.mod_eq_of_lt (by omega)] at hx
        omega
      simp [tickOut, hn]
    rw [hf]; exact e
  · obtain ⟨t1, q1, q2, q3⟩ := hq
    have := hs.le
    exact ⟨t1, by omega, by rw [hage]; omega, by rw [← q3]; exact e⟩

/-- **C95** (the clock): whatever happens on the pins, in every cycle the LEDs show the number of timer periods from reset to a moment at
most 1241 cycles ago, modulo 256, for ever. -/
theorem C95_clock (t : Nat) : ∃ u ≤ t, t ≤ u + 1241 ∧ (s.run D p t).leds.leds = BitVec.ofNat 8 (u / timerPeriod) := by
  have hI := clock_ok hM
  have h0 := clock_start (D := D) (p := p) h
  obtain ⟨t0, w0, d0, hle, ha0, hev0⟩ := progC_first' hI h h0
  have hout0 : outputs s D p t0 = [] := by
    rw [outputs_dispatch h ha0.disp.1, hev0]
    simp [ledOutCsr, Req.ledWriteCsr, fetchReq]
  by_cases ht : t < t0
  · refine ⟨t, Nat.le_refl _, by omega, ?_⟩
    rw [leds_eq h]
    obtain ⟨l, hl⟩ := outputs_prefix (D := D) (p := p) h t (t0 - t)
    rw [show t + (t0 - t) = t0 by omega, hout0] at hl
    have : outputs s D p t = [] := by
      have := congrArg List.length hl
      simp only [List.length_append, List.length_nil] at this
      exact List.eq_nil_of_length_eq_zero (by omega)
    rw [this, Nat.div_eq_of_lt (by unfold timerPeriod; omega)]; rfl
  · have hst0 : Stale s D p t0 := by
      refine ⟨t0, Nat.le_refl _, by omega, ?_⟩
      rw [leds_eq h, hout0, ← tickOut_hits h ha0.disp.1, hev0]
      have hn : ¬ TimerReq (fetchReq (s.run D p 5).cpu.arch) := by
        obtain ⟨-, i, hi, hpc, -⟩ := h0
        rintro ⟨hx, -⟩
        have : (fetchReq (s.run D p 5).cpu.arch).byteAdr = 4 * ((s.run D p 5).cpu.arch.pc.toNat / 4) := by
          simp [fetchReq, Req.byteAdr, wordAdr, BitVec.extractLsb'_toNat, Nat.shiftRight_eq_div_pow]
          omega
        rw [this, hpc, BitVec.toNat_ofNat, Nat.mod_eq_of_lt (by omega)] at hx
        omega
      simp [tickOut, hn]
    obtain ⟨t1, m, hs, ⟨u1, q1, q2, q3⟩, c1, c2⟩ := cover hI h h0 ha0 hst0 (stale_step h) (show t0 ≤ t by omega)
    have hm := hs.le
    have hag : age (at_ (s.run D p t1).cpu.arch) ≤ 2 := by
      generalize at_ (s.run D p t1).cpu.arch = i
      unfold age; repeat' split
      all_goals omega
    -- within the instruction, the LEDs are those before it or those after it
    obtain ⟨w1, ha1⟩ := hs.here
    obtain ⟨w2, ha2⟩ := hs.next
    obtain ⟨l, d, hev, hR⟩ := hs.step
    have hpos := ha1.disp.1.1
    have hO : outputs s D p (t1 + m) = outputs s D p t1 ++ ledOutCsr l := by
      rw [outputs_dispatch h ha1.disp.1, outputs_dispatch h ha2.disp.1, show t1 + m - 1 = (t1 - 1) + m by omega, State.events_add,
        show 1 + (t1 - 1) = t1 by omega, hev, ledOutCsr_append, ledOutCsr_append]
      simp [ledOutCsr, Req.ledWriteCsr, fetchReq]
    obtain ⟨x, hx⟩ := outputs_prefix (D := D) (p := p) h t1 (t - t1)
    obtain ⟨y, hy⟩ := outputs_prefix (D := D) (p := p) h t (t1 + m - t)
    rw [show t1 + (t - t1) = t by omega] at hx
    rw [show t + (t1 + m - t) = t1 + m by omega, hO, hx, List.append_assoc, List.append_cancel_left_eq] at hy
    have hlen := hR.leds.1
    rw [hy, List.length_append] at hlen
    have hcase : (s.run D p t).leds.leds = (s.run D p t1).leds.leds ∨ (s.run D p t).leds.leds = (s.run D p (t1 + m)).leds.leds := by
      rw [leds_eq h, leds_eq h, leds_eq h, hx, hO, hy]
      rcases x with _ | ⟨v, _ | ⟨v', x⟩⟩
      · left; simp
      · right
        have : y = [] := List.eq_nil_of_length_eq_zero (by simp at hlen; rw [hlen]; rfl)
        rw [this]; simp
      · simp at hlen; omega
    have e1 : (s.run D p t).leds.leds = (s.run D p t1).leds.leds ∨
        (s.run D p t).leds.leds = BitVec.ofNat 8 (({} : CsrTimer).hits (s.timerStbs D p) t1) := by
      rcases hcase with e | e
      · exact .inl e
      · rcases hR.leds.2 with g | g
        · exact .inl (e.trans g)
        · exact .inr (by rw [e, ← tickOut_hits h ha1.disp.1]; exact g)
    rcases e1 with e | e
    · obtain ⟨u, v1, v2, v3⟩ := hits_clock h hM (D := D) (p := p) u1
      exact ⟨u, by omega, by omega, by rw [e, q3, v3]⟩
    · obtain ⟨u, v1, v2, v3⟩ := hits_clock h hM (D := D) (p := p) t1
      exact ⟨u, by omega, by omega, by rw [e, v3]⟩

/-- **C95** (accuracy): so, except in the first 1241 cycles of a period, the LEDs show exactly the number of the current period. -/
theorem C95_exact (t : Nat) (ht : 1241 ≤ t % timerPeriod) : (s.run D p t).leds.leds = BitVec.ofNat 8 (t / timerPeriod) := by
  obtain ⟨u, h1, h2, h3⟩ := C95_clock h hM (D := D) (p := p) t
  rw [h3]
  congr 1
  unfold timerPeriod at *
  omega

end

/-- The clock in 32 words of RAM. -/
theorem clock_holds : HoldsProgram (csrDemo clockProgram).ram.mem clockProgram := by
  intro i hi
  have : ∀ i : _root_.Fin 16, (csrDemo clockProgram).ram.mem (BitVec.ofNat 5 i) = clockProgram[i.val]'i.isLt := by
    decide +kernel
  exact this ⟨i, hi⟩

/-- The hypotheses of `C95_prompt`, `C95_clock` and `C95_exact` hold of it. -/
example : (csrDemo clockProgram).AfterReset ∧ HoldsProgram (csrDemo clockProgram).ram.mem clockProgram := ⟨csrDemo_reset _, clock_holds⟩

/-- The hypothesis of `C95_count` holds of it, whatever happens on the pins; and there is an interrupt at the end of every period. -/
example (D : Nat) (p : Nat → AttoIn) (q : Nat) (hq : 1 ≤ q) : ((csrDemo clockProgram).run D p (timerPeriod * q)).timer.irq = true ∧
    ∃ n, timerPeriod * q + 5 ≤ n ∧ n < timerPeriod * (q + 1) + 4 ∧ TimerRead (csrDemo clockProgram) D p n := by
  obtain ⟨h0, n, h1, h2, h3, -⟩ := C95_prompt (csrDemo_reset _) clock_holds (D := D) (p := p) q hq
  refine ⟨h0, n, h1, ?_, h3⟩
  rw [Nat.mul_add, Nat.mul_one]
  have : timerPeriod = 2 ^ 14 := rfl
  omega

end Sentinel.AttoCsr
