import Verif.Proof.Clock
import Verif.Proof.FirstDispatch
/-!
# The clock on the example SoC (C95)
-/

set_option linter.unusedSimpArgs false

namespace Sentinel
open Spec

/-- If every interrupt is read within `L` cycles, the number of interrupts read is the number of periods up to a cycle at most `L` cycles ago. -/
theorem CsrTimer.hits_recent {r : Nat → Bool} {L : Nat} (hL : L < timerPeriod)
    (hr : ∀ q, 1 ≤ q → (({} : CsrTimer).run r (timerPeriod * q)).irq = true → ∃ j, j < L ∧ r (timerPeriod * q + j) = true) (n : Nat) :
    ∃ u ≤ n, n ≤ u + L ∧ ({} : CsrTimer).hits r n = u / timerPeriod := by
  have hp := CsrTimer.hits_periods (r := r) fun q h1 h2 => (hr q h1 h2).imp fun j hj => ⟨by omega, hj.2⟩
  have hmono : ∀ {a b}, a ≤ b → ({} : CsrTimer).hits r a ≤ ({} : CsrTimer).hits r b := fun h => Nat.count_monotone _ h
  have hn := hp n
  cases hi : (({} : CsrTimer).run r n).irq with
  | false => exact ⟨n, Nat.le_refl _, by omega, by rw [hi] at hn; simpa using hn⟩
  | true =>
    rw [hi, if_pos rfl] at hn
    obtain ⟨q, hq⟩ : ∃ q, q = n / timerPeriod := ⟨_, rfl⟩
    rw [← hq] at hn
    have hpos : 0 < timerPeriod := by decide
    have hle : timerPeriod * q ≤ n := by rw [hq]; exact Nat.mul_div_le _ _
    have hT := hp (timerPeriod * q)
    rw [Nat.mul_div_cancel_left _ hpos] at hT
    have hm := hmono hle
    have hiT : (({} : CsrTimer).run r (timerPeriod * q)).irq = true := by
      cases hx : (({} : CsrTimer).run r (timerPeriod * q)).irq with
      | true => rfl
      | false => rw [hx, if_neg (by simp)] at hT; omega
    obtain ⟨j, hj, hrj⟩ := hr q (by omega) hiT
    have hJ := hp (timerPeriod * q + j)
    have hd : (timerPeriod * q + j) / timerPeriod = q := by
      rw [Nat.mul_add_div hpos, Nat.div_eq_of_lt (by omega), Nat.add_zero]
    rw [hd] at hJ
    have hs : ({} : CsrTimer).hits r (timerPeriod * q + j + 1) = ({} : CsrTimer).hits r (timerPeriod * q + j) +
        if r (timerPeriod * q + j) = true ∧ (({} : CsrTimer).run r (timerPeriod * q + j)).irq = true then 1 else 0 := by
      unfold CsrTimer.hits; rw [Nat.count_succ]
    have hge : q ≤ ({} : CsrTimer).hits r (timerPeriod * q + j + 1) := by
      rw [hs, hrj]
      cases hx : (({} : CsrTimer).run r (timerPeriod * q + j)).irq <;> rw [hx] at hJ <;> simp at hJ ⊢ <;> omega
    have hnj : n < timerPeriod * q + j + 1 := by
      by_contra hx
      have := hmono (show timerPeriod * q + j + 1 ≤ n by omega)
      omega
    have hTp : timerPeriod ≤ timerPeriod * q := Nat.le_mul_of_pos_right _ (by omega)
    refine ⟨timerPeriod * q - 1, by omega, by omega, ?_⟩
    obtain ⟨c, rfl⟩ : ∃ c, q = c + 1 := ⟨q - 1, by omega⟩
    rw [Nat.mul_add, Nat.mul_one, show timerPeriod * c + timerPeriod - 1 = timerPeriod * c + (timerPeriod - 1) by omega,
      Nat.mul_add_div hpos, Nat.div_eq_of_lt (by omega)]
    omega

theorem bus_mem {s : State} {inp : Nat → Input} {r : Req} {d : Word} : ∀ {m t : Nat}, Event.bus r d ∈ s.events inp t m →
    ∃ n, t ≤ n ∧ n < t + m ∧ (s.run inp n).cyc = true ∧ (inp n).ack = true ∧ (s.run inp n).req = r
  | 0, t, h => by simp [State.events] at h
  | m + 1, t, h => by
    rw [State.events, List.mem_append] at h
    rcases h with h | h
    · refine ⟨t, Nat.le_refl _, by omega, ?_⟩
      unfold State.obs at h
      cases hc : (s.run inp t).cyc <;> cases ha : (inp t).ack <;> cases hq : (s.run inp t).polls <;> simp [hc, ha, hq] at h ⊢
      all_goals exact h.1.symm
    · obtain ⟨n, h1, h2, h3⟩ := bus_mem h
      exact ⟨n, by omega, by omega, h3⟩

namespace AttoCsr
variable {k D : Nat} {s : AttoCsr k} {p : Nat → AttoIn}

theorem dispatch_cyc {t : Nat} (hd : s.cpu.Dispatching (s.inputs D p) t) : (s.run D p t).cpu.cyc = false := by
  rw [run_cpu]
  have hu := hd.2
  rw [Sentinel.rom_01] at hu
  simp [State.cyc, hu, Ucode.u_01]

/-- The first dispatch is in cycle 7. -/
theorem dispatch_seven (h : s.AfterReset) : s.cpu.Dispatching (s.inputs D p) 7 := by
  have hs : ∃ u mem rd, s.cpu = State.resetRegs u mem rd := by
    rcases h.cpu with h | ⟨σ, en, i, -, h⟩ <;> exact ⟨_, _, _, h⟩
  obtain ⟨b1, b2, b3, b4, -⟩ := boot_run hs (s.inputs D p)
  have hb5 := busInv (D := D) (p := p) h 5
  have c4 : (s.run D p 4).cpu.cyc = false := by rw [run_cpu]; exact b1 4 (by omega)
  have c5 : (s.run D p 5).cpu.cyc = true := by rw [run_cpu]; simp [State.cyc, b2, b3, Ucode.u_00]
  have a5 : (s.run D p 5).cpu.adr = 0 := by rw [run_cpu]; simp [State.adr, wbAdr, b2, b4, Ucode.u_00]
  have d5 : (s.run D p 5).dev = some .ram := by rw [dev, a5]; decide
  have r5 : (s.run D p 5).ram.ack = false := by
    rw [show s.run D p 5 = (s.run D p 4).step D (p 4) from rfl, step_ramAck]
    simp [devCyc, c4]
  have k5 : (s.run D p 5).ack = false := by simp only [ack, d5, r5]
  have hst := stable (D := D) (p := p) h c5 k5
  have r6 : (s.run D p 6).ram.ack = true := by
    rw [show s.run D p 6 = (s.run D p 5).step D (p 5) from rfl, step_ramAck, r5]
    simp [devCyc, c5, d5]
  have k6 : (s.run D p 6).ack = true := by
    have d6 : (s.run D p 6).dev = some .ram := by rw [← d5]; exact hst.dev
    simp only [ack, d6, r6]
  exact dispatch_after_ack h.cpu (n := 1) (fun j hj => by
    have hj0 : j = 0 := by omega
    rw [hj0]; exact k5) k6

section
variable {I : Arch → Plat k → List Event → Prop} {R : Arch → Plat k → List Event → Arch → Plat k → List Event → Prop}

theorem progC_first' (hI : ProgC I R) (h : s.AfterReset) (h0 : I (s.run D p 5).cpu.arch s.plat []) :
    ∃ t w d, t ≤ 7 ∧ AtC I s D p t w ∧ s.cpu.events (s.inputs D p) 1 (t - 1) = [.bus (fetchReq (s.run D p 5).cpu.arch) d] := by
  obtain ⟨t, w, d, ha, he, -⟩ := progC_first hI h h0
  refine ⟨t, w, d, ?_, ha, he⟩
  by_contra hx
  obtain ⟨l, hl⟩ := first_poll h (dispatch_seven (D := D) (p := p) h) (show 0 < t - 7 by omega)
  rw [show t - 1 = 6 + (t - 7) by omega, State.events_add, hl] at he
  have : Event.poll (s.run D p 7).irq ∈ [Event.bus (fetchReq (s.run D p 5).cpu.arch) d] := by rw [← he]; simp
  simp at this

/-- One instruction of a program with invariant. -/
structure StepC (I : Arch → Plat k → List Event → Prop) (R : Arch → Plat k → List Event → Arch → Plat k → List Event → Prop)
    (s : AttoCsr k) (D : Nat) (p : Nat → AttoIn) (t m : Nat) : Prop where
  here : ∃ w, AtC I s D p t w
  next : ∃ w, AtC I s D p (t + m) w
  pos : 0 < m
  le : m ≤ 73
  step : ∃ l d, s.cpu.events (s.inputs D p) t m = l ++ [.bus (fetchReq (s.run D p (t + m)).cpu.arch) d] ∧
      R (s.run D p t).cpu.arch (s.run D p t).plat (s.cpu.events (s.inputs D p) 1 (t - 1)) (s.run D p (t + m)).cpu.arch (s.run D p (t + m)).plat l

theorem stepC_of (hI : ProgC I R) (h : s.AfterReset) (h0 : I (s.run D p 5).cpu.arch s.plat []) {t : Nat} {w : Word} (ha : AtC I s D p t w) :
    ∃ m, StepC I R s D p t m := by
  obtain ⟨m, w', l, d, h1, h2, h3, h4, h5⟩ := progC_step hI h h0 ha
  exact ⟨m, ⟨w, ha⟩, ⟨w', h3⟩, h1.2.1, h2, l, d, h4, h5⟩

/-- Every cycle from the first dispatch on is within an instruction. -/
theorem cover (hI : ProgC I R) (h : s.AfterReset) (h0 : I (s.run D p 5).cpu.arch s.plat []) {Q : Nat → Prop} {t0 : Nat} {w0 : Word}
    (ha : AtC I s D p t0 w0) (hQ0 : Q t0) (hQ : ∀ t m, StepC I R s D p t m → Q t → Q (t + m)) {t : Nat} (ht : t0 ≤ t) :
    ∃ t1 m, StepC I R s D p t1 m ∧ Q t1 ∧ t1 ≤ t ∧ t < t1 + m := by
  obtain ⟨n, rfl⟩ := Nat.exists_eq_add_of_le ht
  clear ht
  induction n using Nat.strong_induction_on generalizing t0 w0 with
  | _ n ih =>
    obtain ⟨m, hs⟩ := stepC_of hI h h0 ha
    by_cases hlt : n < m
    · exact ⟨t0, m, hs, hQ0, by omega, by omega⟩
    · obtain ⟨w', ha'⟩ := hs.next
      have := ih (n - m) (by have := hs.pos; omega) ha' (hQ _ _ hs hQ0)
      rwa [show t0 + m + (n - m) = t0 + n by omega] at this

end

/-! ### The number of interrupts read -/

theorem read_value (h : s.AfterReset) {n : Nat} (hc : (s.run D p n).cpu.cyc = true) (ha : (s.run D p n).ack = true)
    (hr : Clock.TimerReq (s.run D p n).cpu.req) : (s.run D p n).datR = 0 ∨ (s.run D p n).datR = 1 := by
  have hC : Completes s D p n := ⟨hc, ha, by rw [Req.csrTarget, hr.1]; rfl⟩
  have := C73_read h hC hr.2
  by_cases hs : (s.run D p n).cpu.req.sel.getLsbD 0 = true
  · have e := (this.1 hs).2.1 hr.1
    revert e
    cases (s.run D p (n - 5)).timer.irq
    · intro e; exact .inl e
    · intro e; exact .inr e
  · exact .inl (this.2 fun hx => hs hx.1)

theorem tickOut_ticks (h : s.AfterReset) (n : Nat) : Clock.tickOut (s.cpu.events (s.inputs D p) 1 n) = ticks s D p (n + 1) := by
  classical
  induction n with
  | zero =>
    have : ¬ TickRead s D p 0 := fun hx => by have := tickRead_late h hx; omega
    unfold ticks
    rw [Nat.count_succ, Nat.count_zero, if_neg this]; rfl
  | succ n ih =>
    rw [State.events_snoc, Clock.tickOut_append, ih]
    unfold ticks
    rw [Nat.count_succ _ (n + 1), Nat.add_comm 1 n, ← run_cpu]
    congr 1
    unfold State.obs
    rw [show (s.inputs D p (n + 1)).ack = (s.run D p (n + 1)).ack from rfl, show (s.inputs D p (n + 1)).datR = (s.run D p (n + 1)).datR from rfl]
    have hpoll : ∀ b : Bool, Clock.tickOut (if b then [.poll (s.inputs D p (n + 1)).irq] else []) = 0 := by
      intro b; cases b <;> rfl
    rw [Clock.tickOut_append, hpoll, Nat.add_zero]
    by_cases hx : ((s.run D p (n + 1)).cpu.cyc && (s.run D p (n + 1)).ack) = true
    · rw [if_pos hx]
      simp only [Bool.and_eq_true] at hx
      simp only [Clock.tickOut, Nat.add_zero]
      by_cases hr : Clock.TimerReq (s.run D p (n + 1)).cpu.req
      · rw [if_pos hr]
        rcases read_value h hx.1 hx.2 hr with e | e
        · rw [if_neg fun g => by rw [g.2.2.2.2] at e; exact absurd e (by decide), e]; rfl
        · rw [if_pos ⟨hx.1, hx.2, hr.1, hr.2, e⟩, e]; rfl
      · rw [if_neg hr, if_neg fun g => hr ⟨g.2.2.1, g.2.2.2.1⟩]
    · rw [if_neg hx, if_neg fun g => hx (by rw [g.1, g.2.1]; rfl)]
      rfl

/-- A read of the timer that is completed after a dispatch begins after it. -/
theorem begins_after (h : s.AfterReset) {t n : Nat} (hd : s.cpu.Dispatching (s.inputs D p) t) (hc : Completes s D p n) (ht : t ≤ n) : t + 5 < n := by
  obtain ⟨h5, ha⟩ := C73_access h hc
  by_contra hx
  have := (ha (t - (n - 5)) (by omega)).1
  rw [show n - 5 + (t - (n - 5)) = t by omega, dispatch_cyc hd] at this
  cases this

theorem tickOut_hits (h : s.AfterReset) {t : Nat} (hd : s.cpu.Dispatching (s.inputs D p) t) :
    Clock.tickOut (s.cpu.events (s.inputs D p) 1 (t - 1)) = ({} : CsrTimer).hits (s.timerStbs D p) t := by
  classical
  rw [tickOut_ticks h, ← ticks_hits h, show t - 1 + 1 = t by have := hd.1; omega]
  have : ∀ j ≤ 5, ticks s D p (t + j) = ticks s D p t := by
    intro j hj
    induction j with
    | zero => rfl
    | succ j ih =>
      rw [← ih (by omega), ← Nat.add_assoc]
      unfold ticks
      rw [Nat.count_succ _ (t + j), if_neg, Nat.add_zero]
      intro g
      have := begins_after h hd ⟨g.1, g.2.1, by rw [Req.csrTarget, g.2.2.1]; rfl⟩ (show t ≤ t + j by omega)
      omega
  exact (this 5 (Nat.le_refl _)).symm

theorem timer_holds (h : s.AfterReset) {n j : Nat} (hi : (s.run D p n).timer.irq = true)
    (hr : ∀ i < j, s.timerStbs D p (n + i) = false) (hp : ∀ i, 1 ≤ i → i ≤ j → ¬ timerPeriod ∣ n + i) :
    (s.run D p (n + j)).timer.irq = true := by
  induction j with
  | zero => exact hi
  | succ j ih =>
    have i1 := ih (fun i hi => hr i (by omega)) fun i h1 h2 => hp i h1 (by omega)
    have e := fun n => (C73_devices h D p n).2.1
    have := (C39_csr ({} : CsrTimer) (s.timerStbs D p) (n + j)).1
    rw [← e, ← e] at this
    rw [← Nat.add_assoc]
    cases hx : (s.run D p (n + j + 1)).timer.irq with
    | true => rfl
    | false =>
      exfalso
      rcases this i1 hx with g | g
      · refine hp (j + 1) (by omega) (by omega) ?_
        rw [show (({} : CsrTimer).prescaler).toNat = 0 from rfl] at g
        rw [show n + (j + 1) = 0 + (n + j) + 1 by omega]; exact g
      · rw [hr j (by omega)] at g; cases g

/-! ### The clock -/

theorem clock_start (h : s.AfterReset) : Clock.ClockInv s.ram.mem (s.run D p 5).cpu.arch s.plat [] := by
  obtain ⟨h1, h2, -⟩ := C01_trace h.cpu (registered (D := D) (p := p) h) 0
  rw [← run_cpu] at h1 h2
  refine ⟨rfl, 0, by decide, h1, h2, ?_, rfl⟩
  show s.leds.leds = 0
  rw [h.leds]

section
open Clock
variable (hM : HoldsProgram s.ram.mem clockProgram) (h : s.AfterReset)
include hM h

/-- While the interrupt line is high the timer is read soon. -/
theorem reads_soon {N : Nat} : ∀ {t : Nat} {w : Word}, AtC (ClockInv s.ram.mem) s D p t w → mu (at_ (s.run D p t).cpu.arch) ≤ N →
    (∀ j, j ≤ 73 * N → (s.run D p (t + j)).irq = true) → ∃ i, t ≤ i ∧ i < t + 73 * N ∧ s.timerStbs D p i = true := by
  induction N with
  | zero =>
    intro t w ha hmu hi
    obtain ⟨-, i, hi, hpc, -⟩ := ha.inv.1
    rw [at_of hi hpc] at hmu
    unfold mu at hmu
    split at hmu <;> omega
  | succ N ih =>
    intro t w ha hmu hi
    obtain ⟨m, -, ⟨w', ha'⟩, hpos, hle, l, d, hev, hR⟩ := stepC_of (clock_ok hM) h (clock_start h) ha
    rcases hR.read with ⟨r, x, hx, hr, hsel⟩ | hmu'
    · have hx' : Event.bus r x ∈ s.cpu.events (s.inputs D p) t m := by rw [hev]; simp [hx]
      obtain ⟨n, n1, n2, n3, n4, n5⟩ := bus_mem hx'
      rw [← run_cpu] at n3 n5
      have hC : Completes s D p n := ⟨n3, n4, by rw [n5, Req.csrTarget, hr.1]; rfl⟩
      have hb := begins_after h ha.disp.1 hC n1
      obtain ⟨h5, hrd⟩ := read_strobe h hC (by rw [n5]; exact hr.2) (by rw [n5]; exact hsel)
      refine ⟨n - 5, by omega, by omega, ?_⟩
      simp only [timerStbs, timerStb, hrd, n5, hr.1]
      rfl
    · obtain ⟨l', hl'⟩ := first_poll h ha.disp.1 hpos
      have ht := hi 0 (by omega)
      rw [Nat.add_zero] at ht
      rw [ht, hev] at hl'
      have hh : l.head? = some (.poll true) := by
        cases l with
        | nil => simp at hl'
        | cons e l => simp only [List.cons_append, List.cons.injEq] at hl'; rw [hl'.1]; rfl
      have hlt := hmu' hh
      obtain ⟨i, i1, i2, i3⟩ := ih ha' (by omega) fun j hj => by rw [Nat.add_assoc]; exact hi _ (by omega)
      exact ⟨i, by omega, by omega, i3⟩

/-- Every interrupt of the timer is read within 1022 cycles. -/
theorem reads_prompt (q : Nat) (hq : 1 ≤ q) (hi : (s.run D p (timerPeriod * q)).timer.irq = true) :
    ∃ j, j < 1022 ∧ s.timerStbs D p (timerPeriod * q + j) = true := by
  by_contra hno
  have hno' : ∀ j < 1022, s.timerStbs D p (timerPeriod * q + j) = false := by
    intro j hj
    cases hx : s.timerStbs D p (timerPeriod * q + j) with
    | false => rfl
    | true => exact absurd ⟨j, hj, hx⟩ hno
  have hirq : ∀ j ≤ 1022, (s.run D p (timerPeriod * q + j)).irq = true := by
    intro j hj
    have := timer_holds h hi (j := j) (fun i hi => hno' i (by omega)) fun i h1 h2 hd => by
      rw [Nat.dvd_iff_mod_eq_zero, Nat.mul_add_mod] at hd
      unfold timerPeriod at hd
      omega
    simp [irq, this]
  obtain ⟨t0, w0, d0, hle, ha0, -⟩ := progC_first' (clock_ok hM) h (clock_start (D := D) (p := p) h)
  have hT : timerPeriod ≤ timerPeriod * q := Nat.le_mul_of_pos_right _ (by omega)
  have h14 : timerPeriod = 2 ^ 14 := rfl
  obtain ⟨t1, m, hs, -, c1, c2⟩ := cover (clock_ok hM) h (clock_start h) (Q := fun _ => True) ha0 trivial (fun _ _ _ _ => trivial)
    (show t0 ≤ timerPeriod * q by omega)
  obtain ⟨w, ha⟩ := hs.next
  have hmle := hs.le
  obtain ⟨i, i1, i2, i3⟩ := reads_soon hM h (N := 13) ha (by unfold mu; split <;> omega) fun j hj => by
    have := hirq (t1 + m + j - timerPeriod * q) (by omega)
    rwa [show timerPeriod * q + (t1 + m + j - timerPeriod * q) = t1 + m + j by omega] at this
  have := hno' (i - timerPeriod * q) (by omega)
  rw [show timerPeriod * q + (i - timerPeriod * q) = i by omega, i3] at this
  cases this

end

end AttoCsr
end Sentinel
