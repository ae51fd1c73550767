import Verif.Proof.Atto
import Verif.Props.Trace
import Verif.Props.Timer
import Verif.Props.Csr
import Verif.Props.Serial
import Verif.Props.Demo
import Verif.Props.Trap
import Verif.Proof.Wp
/-!
# C56-C59: the example SoC
-/

set_option linter.unusedSimpArgs false

namespace Sentinel.Atto
open Ucode Spec

variable {k D : Nat} {s : Atto k} {p : Nat → AttoIn} {t m : Nat}

/-! ## C56 -/

/-- **C56** (platform): for every program in RAM and whatever happens on the pins, what the core does on
the bus is a behaviour of the instruction-set machine on the platform: every access is to an address
where something is, reads of RAM return what was written last, reads of devices return a byte; and at
each dispatch the RAM, the LEDs, the GPIO outputs and their enables are what the accesses so far made
them. -/
theorem C56_trace (h : s.AfterReset) (D : Nat) (p : Nat → AttoIn) (n : Nat) :
    (s.run D p 5).cpu.arch.pc = 0 ∧
    Behaves (cycle .asBuilt) (fetch (s.run D p 5).cpu.arch) (s.cpu.events (s.inputs D p) 1 n) ∧
    PlatTrace s.plat (s.cpu.events (s.inputs D p) 1 n) ∧
    ∀ t, s.cpu.Dispatching (s.inputs D p) t →
      (s.run D p t).plat = s.plat.afterAll (s.cpu.events (s.inputs D p) 1 (t - 1)) := by
  have hc := C01_trace h.cpu (registered (D := D) (p := p) h) n
  rw [← run_cpu] at hc
  exact ⟨hc.1, hc.2.2.2.2, (inv h n).1, fun t hd => dispatch_plat h hd⟩

theorem dev_some (σ : Atto k) : σ.dev.isSome = σ.cpu.req.target.isSome := by
  rw [req_target]; cases σ.dev <;> rfl

theorem twoCycle (h : s.AfterReset)
    (hm : ∀ t, (s.run D p t).cpu.cyc = true → (s.run D p t).cpu.req.target.isSome = true) :
    s.cpu.TwoCycleAck (s.inputs D p) := by
  refine ⟨h.noAck, fun t => ?_⟩
  have e : (s.inputs D p (t + 1)).ack = ((s.run D p t).step D (p t)).ack := rfl
  have e' : (s.inputs D p t).ack = (s.run D p t).ack := rfl
  rw [← run_cpu, e, e']
  cases hc : (s.run D p t).cpu.cyc
  · cases ha : ((s.run D p t).step D (p t)).ack
    · rfl
    · have := (ack_of_step _ _ _ ha).1; rw [hc] at this; cases this
  · cases ha : (s.run D p t).ack
    · rw [ack_step D _ _ (stable (D := D) (p := p) h hc ha).2.2.1, hc, ha, dev_some, hm t hc]; rfl
    · cases ha' : ((s.run D p t).step D (p t)).ack
      · rfl
      · have := (ack_of_step _ _ _ ha').2.1; rw [ha] at this; cases this

/-- **C56** (progress): if the core never asks for an address where nothing is, instructions are executed
for ever, each in 4 to 69 cycles. -/
theorem C56_progress (h : s.AfterReset)
    (hm : ∀ t, (s.run D p t).cpu.cyc = true → (s.run D p t).cpu.req.target.isSome = true) :
    (∀ n, ∃ t w m, n ≤ t ∧ s.cpu.Executes (s.inputs D p) t w m) ∧
    ∀ t w m, s.cpu.Executes (s.inputs D p) t w m → 4 ≤ m ∧ m ≤ 69 := by
  have h2 := twoCycle h hm
  exact ⟨(C27_progress h.cpu h2.registered h2.fair).1, fun t w m he => C28_bound_two h.cpu h2 he⟩

/-- **C56** (nothing there): a request for an address where nothing is is never answered; it stays on
the bus for ever, and no further instruction is dispatched. -/
theorem C56_hang (h : s.AfterReset) (hc : (s.run D p t).cpu.cyc = true)
    (hd : (s.run D p t).cpu.req.target = none) (n : Nat) (hn : t ≤ n) :
    (s.run D p n).cpu.cyc = true ∧ (s.run D p n).cpu.req = (s.run D p t).cpu.req ∧
      (s.run D p n).ack = false ∧ ¬ s.cpu.Dispatching (s.inputs D p) n := by
  have hd' : (s.run D p t).dev = none := by
    have := dev_some (s.run D p t)
    rw [hd] at this
    simpa using this
  obtain ⟨j, rfl⟩ := Nat.exists_eq_add_of_le hn
  obtain ⟨h1, h2, h3⟩ := hang h hc hd' j
  refine ⟨h1, h2, by simp [ack, h3], fun hx => ?_⟩
  rw [run_cpu] at h1
  have hu := hx.2
  rw [rom_01] at hu
  simp [State.cyc, hu, u_01] at h1

theorem _root_.Sentinel.Spec.Behaves.prefix {α : Type} {next : α → Tree α} {T : Tree α} {l l' : List Event}
    (h : Behaves next T (l ++ l')) : Behaves next T l := by
  generalize hl : l ++ l' = l0 at h
  induction h generalizing l with
  | stop t => obtain ⟨rfl, rfl⟩ := List.append_eq_nil_iff.1 hl; exact .stop _
  | ret _ ih => exact .ret (ih hl)
  | @poll kk b l1 _ ih =>
    cases l with
    | nil => exact .stop _
    | cons e l => obtain ⟨rfl, rfl⟩ := List.cons_eq_cons.1 hl; exact .poll (ih rfl)
  | @bus r kk d l1 _ ih =>
    cases l with
    | nil => exact .stop _
    | cons e l => obtain ⟨rfl, rfl⟩ := List.cons_eq_cons.1 hl; exact .bus (ih rfl)

/-- A program never asks for an address where nothing is: no behaviour of the instruction-set machine,
started in `a` on platform `P`, that is a platform trace so far, goes on with such an access. -/
def Safe {k : Nat} (P : Plat k) (a : Arch) : Prop :=
  ∀ l r d, Behaves (cycle .asBuilt) (fetch a) (l ++ [.bus r d]) → PlatTrace P l → r.target.isSome = true

/-- **C56** (safe programs): for a program that is safe on the instruction-set machine, every request of
the core is for an address where something is and is answered in its second cycle, and instructions are
executed for ever. -/
theorem C56_safe (h : s.AfterReset) (hs : Safe s.plat (s.run D p 5).cpu.arch) :
    s.cpu.TwoCycleAck (s.inputs D p) ∧ (∀ n, ∃ t w m, n ≤ t ∧ s.cpu.Executes (s.inputs D p) t w m) ∧
      ∀ t, (s.run D p t).cpu.cyc = true → (s.run D p t).cpu.req.target.isSome = true := by
  have hm : ∀ t, (s.run D p t).cpu.cyc = true → (s.run D p t).cpu.req.target.isSome = true := by
    intro t hc
    by_contra hn
    have hd : (s.run D p t).cpu.req.target = none := by simpa using hn
    have ht : t ≠ 0 := by rintro rfl; rw [show (s.run D p 0).cpu = s.cpu from rfl, cyc_zero h] at hc; cases hc
    -- the same inputs, except that the request is answered in cycle t + 1
    let inp : Nat → Input := fun n => if n = t + 1 then { s.inputs D p n with ack := true } else s.inputs D p n
    have hrun : ∀ n, n ≤ t + 1 → s.cpu.run inp n = s.cpu.run (s.inputs D p) n := by
      intro n hn
      induction n with
      | zero => rfl
      | succ n ih =>
        have : inp n = s.inputs D p n := if_neg (by omega)
        rw [State.run, State.run, ih (by omega), this]
    have hev : ∀ n, n ≤ t → s.cpu.events inp 1 n = s.cpu.events (s.inputs D p) 1 n := by
      intro n hn
      induction n with
      | zero => rfl
      | succ n ih =>
        have : inp (1 + n) = s.inputs D p (1 + n) := if_neg (by omega)
        rw [State.events_snoc, State.events_snoc, ih (by omega), hrun _ (by omega), this]
    have hr : s.cpu.RegisteredAck inp := by
      intro n hf
      by_cases hnt : n = t + 1
      · subst hnt
        have := hf.2 t rfl
        rw [hrun _ (by omega), ← run_cpu] at this
        rw [this] at hc; cases hc
      · rw [show inp n = s.inputs D p n from if_neg hnt]
        by_cases hlt : n ≤ t
        · refine registered (D := D) (p := p) h n ⟨?_, fun j hj => ?_⟩
          · rw [← hrun _ (by omega)]; exact hf.1
          · rw [← hrun _ (by omega)]; exact hf.2 j hj
        · exact (C56_hang h hc hd n (by omega)).2.2.1
    have hb := (C01_trace h.cpu hr (t + 1)).2.2.2.2
    have hboot : (s.cpu.run inp 5).arch = (s.run D p 5).cpu.arch := by
      have hs' : ∃ u mem rd, s.cpu = State.resetRegs u mem rd := by
        rcases h.cpu with h | ⟨σ, en, i, -, h⟩ <;> exact ⟨_, _, _, h⟩
      rw [run_cpu, (boot_run hs' inp).2.2.2.2.1, (boot_run hs' (s.inputs D p)).2.2.2.2.1]
      have : inp 0 = s.inputs D p 0 := if_neg (by omega)
      rw [this]
    rw [State.events_snoc, hev t (by omega), hboot, Nat.add_comm 1 t, hrun _ (by omega)] at hb
    obtain ⟨g1, g2, g3, -⟩ := C56_hang h hc hd (t + 1) (by omega)
    rw [run_cpu] at g1
    have hi : inp (t + 1) = { s.inputs D p (t + 1) with ack := true } := if_pos rfl
    have hobs : ∃ l, (s.cpu.run (s.inputs D p) (t + 1)).obs (inp (t + 1)) =
        [.bus (s.cpu.run (s.inputs D p) (t + 1)).req (s.inputs D p (t + 1)).datR] ++ l := by
      rw [hi]; unfold State.obs; rw [g1]
      exact ⟨_, rfl⟩
    obtain ⟨l, hl⟩ := hobs
    rw [hl, ← List.append_assoc] at hb
    have := hs _ _ _ hb.prefix (inv h t).1
    rw [← run_cpu, g2, hd] at this
    cases this
  have h2 := twoCycle h hm
  exact ⟨h2, (C56_progress h hm).1, hm⟩

/-! ## C57 -/

theorem leds_run (D : Nat) (s : Atto k) (p : Nat → AttoIn) (n : Nat) :
    (s.run D p n).leds = s.leds.run (s.devReqs D p .leds) (fun j => (p j).gpioI) n := by
  induction n with
  | zero => rfl
  | succ n ih => simp only [WbLeds.run, ← ih]; rfl

theorem timer_run (D : Nat) (s : Atto k) (p : Nat → AttoIn) (n : Nat) :
    (s.run D p n).timer = s.timer.run (s.devReqs D p .timer) n := by
  induction n with
  | zero => rfl
  | succ n ih => simp only [WbTimer.run, ← ih]; rfl

theorem ser_run (D : Nat) (s : Atto k) (p : Nat → AttoIn) (n : Nat) :
    (s.run D p n).ser = s.ser.run D (s.devReqs D p .serial) (fun j => (p j).rx) n := by
  induction n with
  | zero => rfl
  | succ n ih => simp only [WbSerial.run, ← ih]; rfl

theorem devCyc_iff (σ : Atto k) (d : AttoDev) :
    σ.devCyc d = true ↔ σ.cpu.cyc = true ∧ σ.cpu.req.target = some d.target := by
  simp only [devCyc, Bool.and_eq_true, decide_eq_true_eq, req_target]
  refine and_congr_right fun _ => ?_
  cases hd : σ.dev with
  | none => simp
  | some e => cases e <;> cases d <;> simp [AttoDev.target]

/-- **C57** (devices): in the SoC, each device behaves as on its own (C39, C46-C48), from reset, with the
pins of the SoC; and a device is selected in exactly the cycles in which the core has a request on the
bus for an address of that device. -/
theorem C57_devices (h : s.AfterReset) (D : Nat) (p : Nat → AttoIn) (n : Nat) :
    (s.run D p n).leds = ({} : WbLeds).run (s.devReqs D p .leds) (fun j => (p j).gpioI) n ∧
    (s.run D p n).timer = ({} : WbTimer).run (s.devReqs D p .timer) n ∧
    (s.run D p n).ser = WbSerial.at_ D (s.devReqs D p .serial) (fun j => (p j).rx) n ∧
    (∀ d, (s.devReqs D p d n).cyc = true ↔
      (s.run D p n).cpu.cyc = true ∧ (s.run D p n).cpu.req.target = some d.target) ∧
    (s.inputs D p n).irq = ((s.run D p n).timer.irq || (s.run D p n).ser.irq) := by
  refine ⟨?_, ?_, ?_, fun d => devCyc_iff _ d, rfl⟩
  · rw [leds_run, h.leds]
  · rw [timer_run, h.timer]
  · rw [ser_run, h.ser]

/-- In cycle `t + 1` an access of the core to an address where something is is completed. -/
structure Completes (s : Atto k) (D : Nat) (p : Nat → AttoIn) (t : Nat) : Prop where
  cyc : (s.run D p (t + 1)).cpu.cyc = true
  ack : (s.run D p (t + 1)).ack = true

/-- An access has the bus for two cycles. -/
theorem completes_two (h : s.AfterReset) (hc : Completes s D p t) :
    (s.run D p t).cpu.cyc = true ∧ (s.run D p t).ack = false ∧
      (s.run D p t).cpu.req = (s.run D p (t + 1)).cpu.req ∧
      (s.run D p t).dev = (s.run D p (t + 1)).dev ∧ (s.run D p t).cpu.we = (s.run D p (t + 1)).cpu.we ∧
      (s.run D p t).cpu.adr = (s.run D p (t + 1)).cpu.adr := by
  obtain ⟨h1, h2, -⟩ := ack_of_step D (s.run D p t) (p t) hc.ack
  obtain ⟨-, c2, c3, c4, c5⟩ := stable (D := D) (p := p) h h1 h2
  exact ⟨h1, h2, c2.symm, c3.symm, c4.symm, c5.symm⟩

theorem adr0 (σ : State) : (σ.adr.setWidth 2).getLsbD 0 = decide (σ.req.byteAdr / 4 % 2 = 1) := by
  simp only [Req.byteAdr, State.req]
  rw [BitVec.getLsbD_setWidth, BitVec.getLsbD, Nat.testBit_zero]
  simp only [show 4 * σ.adr.toNat / 4 = σ.adr.toNat by omega]
  simp

theorem dev_of_target (σ : Atto k) (d : AttoDev) (h : σ.cpu.req.target = some d.target) : σ.dev = some d := by
  rw [req_target] at h
  cases hd : σ.dev with
  | none => rw [hd] at h; cases h
  | some e => rw [hd] at h; cases e <;> cases d <;> first | rfl | cases h

/-- **C57** (reads): a completed access was on the bus, unchanged and unanswered, in the cycle before; and
a read of the low byte of a device register returns: for GPIO the input pins, for the timer whether its
interrupt is pending, for the serial port the two interrupt bits or the receive buffer, all as they were
in that cycle. -/
theorem C57_read (h : s.AfterReset) (hc : Completes s D p t) :
    let r := (s.run D p (t + 1)).cpu.req
    let d := (s.run D p (t + 1)).datR
    (s.run D p t).cpu.cyc = true ∧ (s.run D p t).ack = false ∧ (s.run D p t).cpu.req = r ∧
    (r.we = false → r.sel.getLsbD 0 = true →
      (r.target = some .leds → r.byteAdr / 4 % 4 = 1 → d = (p t).gpioI.setWidth 32) ∧
      (r.target = some .timer → d = if (s.run D p t).timer.irq then 1 else 0) ∧
      (r.target = some .serial → r.byteAdr / 4 % 2 = 1 → d =
        (if (s.run D p t).ser.rxIrq then 1 else 0) ||| (if (s.run D p t).ser.txIrq then 2 else 0)) ∧
      (r.target = some .serial → r.byteAdr / 4 % 2 = 0 →
        d = (bitsByte (s.run D p t).ser.rx.data).setWidth 32)) := by
  obtain ⟨h1, h2, h3, h4, h5, h6⟩ := completes_two h hc
  intro r d
  refine ⟨h1, h2, h3, fun hw hs => ?_⟩
  have hw' : (s.run D p t).cpu.we = false := by rw [h5]; exact hw
  have hs' : (s.run D p t).cpu.sel.getLsbD 0 = true := by
    have : (s.run D p t).cpu.req.sel = r.sel := by rw [h3]
    rw [← this] at hs; exact hs
  have hst : s.run D p (t + 1) = (s.run D p t).step D (p t) := rfl
  have hadr : (s.run D p t).cpu.req.byteAdr = r.byteAdr := by rw [h3]
  have a0 := adr0 (s.run D p t).cpu
  rw [hadr] at a0
  refine ⟨?_, ?_, ?_, ?_⟩
  · intro ht ha
    have hd := dev_of_target _ .leds ht
    have hd' := h4.trans hd
    have hak : (s.run D p t).leds.ack = false := by
      have := h2; simp only [ack, hd'] at this; exact this
    have h1' := (low_adr (s.run D p t).cpu 1 (by omega)).2 (by rw [hadr]; exact ha)
    show datR _ = _
    simp only [datR, hd]
    rw [hst]
    simp only [step, WbLeds.step, devReq, devCyc, hd', h1, stb_cyc, hw', hs', hak, h1']
    rfl
  · intro ht
    have hd := dev_of_target _ .timer ht
    have hd' := h4.trans hd
    show datR _ = _
    simp only [datR, hd]
    rw [hst]
    simp only [step, WbTimer.step, devReq, devCyc, hd', h1, stb_cyc, hw', hs']
    cases (s.run D p t).timer.irq <;> rfl
  · intro ht ha
    have hd := dev_of_target _ .serial ht
    have hd' := h4.trans hd
    have hak : (s.run D p t).ser.ack = false := by
      have := h2; simp only [ack, hd'] at this; exact this
    show datR _ = _
    simp only [datR, hd]
    rw [hst]
    simp only [step, WbSerial.step, WbSerial.irqRead, devReq, devCyc, hd', h1, stb_cyc, hw', hs', hak, a0, ha]
    cases (s.run D p t).ser.rxIrq <;> cases (s.run D p t).ser.txIrq <;> rfl
  · intro ht ha
    have hd := dev_of_target _ .serial ht
    have hd' := h4.trans hd
    show datR _ = _
    simp only [datR, hd]
    rw [hst]
    simp [-BitVec.getLsbD_eq_getElem, step, WbSerial.step, WbSerial.irqRead, WbSerial.dataReq, devReq, devCyc, hd', h1, stb_cyc, hw', hs', a0, ha]

/-- **C57** (serial output): a store of a byte to the data register of the serial port, completed in cycle
`t + 1` when the transmitter is ready, sends exactly the frame of that byte on the TX pin, from the next
cycle on, each bit for `D` cycles, whatever the program does meanwhile. -/
theorem C57_send (hD : 0 < D) (h : s.AfterReset) (hc : Completes s D p t)
    (ht : (s.run D p (t + 1)).cpu.req.target = some .serial)
    (hw : (s.run D p (t + 1)).cpu.req.we = true) (hs : (s.run D p (t + 1)).cpu.req.sel.getLsbD 0 = true)
    (ha : (s.run D p (t + 1)).cpu.req.byteAdr / 4 % 2 = 0)
    (hr : (s.run D p (t + 1)).ser.tx.ack = true) :
    ∀ j, (hj : j < 10 * D) → (s.run D p (t + 2 + j)).ser.txO =
      (uartFrame (byteBits (byteOf (s.run D p (t + 1)).cpu.req.data 0)))[j / D]'(by
        rw [uartFrame_length, byteBits_length]; exact Nat.div_lt_of_lt_mul (by rw [Nat.mul_comm]; exact hj)) := by
  have hd := dev_of_target _ .serial ht
  have hak : (s.run D p (t + 1)).ser.ack = true := by
    have := hc.ack; simp only [ack, hd] at this; exact this
  have e := fun n => (C57_devices h D p n).2.2.1
  have a0 := adr0 (s.run D p (t + 1)).cpu
  have hdw : DataWrite (s.devReqs D p .serial (t + 1)) (byteOf (s.run D p (t + 1)).cpu.req.data 0) := by
    refine ⟨(devCyc_iff _ .serial).2 ⟨hc.cyc, ht⟩, hc.cyc, hs, hw, ?_, ?_⟩
    · show ((s.run D p (t + 1)).cpu.adr.setWidth 2).getLsbD 0 = false
      rw [a0, ha]; rfl
    · exact (low_byte _ hs hw).symm
  rw [e (t + 1)] at hak hr
  intro j hj
  rw [e]
  exact ((C47_write hD hdw hak hr).1 j hj).1

/-! ## C58 -/

/-- **C58** (latency): once the first instruction has been dispatched, from any cycle `t` on the next
instruction is dispatched within 70 cycles; and if the interrupt line is then high and interrupts are
enabled, the core enters the interrupt handler instead of executing it. -/
theorem C58_latency (h : s.AfterReset)
    (hm : ∀ t, (s.run D p t).cpu.cyc = true → (s.run D p t).cpu.req.target.isSome = true)
    {t0 : Nat} (h0 : s.cpu.Dispatching (s.inputs D p) t0) (ht : t0 ≤ t) :
    ∃ j < 70, s.cpu.Dispatching (s.inputs D p) (t + j) ∧
      (∀ i < j, ¬ s.cpu.Dispatching (s.inputs D p) (t + i)) ∧
      ((s.inputs D p (t + j)).irq = true → (s.run D p (t + j)).cpu.arch.mie = true →
        (s.run D p (t + j)).cpu.arch.meie = true → s.cpu.IrqTaken (s.inputs D p) (t + j)) := by
  classical
  have h2 := twoCycle h hm
  have key : ∃ j, j < 70 ∧ s.cpu.Dispatching (s.inputs D p) (t + j) := by
    obtain ⟨d, rfl⟩ := Nat.exists_eq_add_of_le ht
    clear ht
    induction d using Nat.strong_induction_on generalizing t0 with
    | _ d ih =>
      by_cases hd0 : d = 0
      · subst hd0; exact ⟨0, by omega, h0⟩
      obtain ⟨w, -, -, hd⟩ := at_dispatch h.cpu h2.registered h0
      obtain ⟨m, hm'⟩ := executes_of_fair h.cpu h2.registered h2.fair hd
      have hb := C28_bound_two h.cpu h2 hm'
      by_cases hlt : d < m
      · exact ⟨m - d, by omega, by rw [show t0 + d + (m - d) = t0 + m by omega]; exact hm'.2.2.1⟩
      · have := ih (d - m) (by omega) hm'.2.2.1
        rwa [show t0 + m + (d - m) = t0 + d by omega] at this
  have hf := Nat.find_spec key
  refine ⟨Nat.find key, hf.1, hf.2, fun i hi hx => ?_, fun g1 g2 g3 => ?_⟩
  · exact Nat.find_min key hi ⟨by have := hf.1; omega, hx⟩
  · rw [run_cpu] at g2 g3
    exact ⟨g1, g2, g3⟩

/-- In cycle `n` the core has a read of register `reg` (0 or 1) of the serial port on the bus. -/
def ReadsSerial (s : Atto k) (D : Nat) (p : Nat → AttoIn) (reg : Nat) (n : Nat) : Prop :=
  (s.run D p n).cpu.cyc = true ∧ (s.run D p n).cpu.req.target = some .serial ∧
    (s.run D p n).cpu.req.we = false ∧ (s.run D p n).cpu.req.sel.getLsbD 0 = true ∧
    (s.run D p n).cpu.req.byteAdr / 4 % 2 = reg

/-- In cycle `n` the core has a read of the timer on the bus. -/
def ReadsTimer (s : Atto k) (D : Nat) (p : Nat → AttoIn) (n : Nat) : Prop :=
  (s.run D p n).cpu.cyc = true ∧ (s.run D p n).cpu.req.target = some .timer ∧
    (s.run D p n).cpu.req.we = false ∧ (s.run D p n).cpu.req.sel.getLsbD 0 = true

theorem reads_timer (n : Nat) : WbTimer.Reads (s.devReqs D p .timer) n ↔ ReadsTimer s D p n := by
  have := devCyc_iff (s.run D p n) .timer
  constructor
  · rintro ⟨-, b, c, d⟩
    have := this.1 b
    exact ⟨this.1, this.2, c, d⟩
  · rintro ⟨a, b, c, d⟩
    exact ⟨a, this.2 ⟨a, b⟩, c, d⟩

theorem timer_stays (h : s.AfterReset) {n j : Nat} (hi : (s.run D p n).timer.irq = true)
    (hr : ∀ i < j, ¬ ReadsTimer s D p (n + i)) (hp : ∀ i, 1 ≤ i → i ≤ j → ¬ timerPeriod ∣ n + i) :
    (s.run D p (n + j)).timer.irq = true := by
  induction j with
  | zero => exact hi
  | succ j ih =>
    have i1 := ih (fun i hi => hr i (by omega)) fun i h1 h2 => hp i h1 (by omega)
    have := C39_next ({} : WbTimer) (s.devReqs D p .timer) (n + j)
    have e := fun n => (C57_devices h D p n).2.1
    rw [← e, ← e] at this
    rw [← Nat.add_assoc, this]
    refine ⟨fun hx => hr j (by omega) ((reads_timer _).1 hx.1), fun _ => ?_, fun _ => i1⟩
    have := hp (j + 1) (by omega) (by omega)
    simpa [Nat.add_assoc] using this

theorem serial_stays {n j : Nat} (hi : (s.run D p n).ser.irq = true)
    (hr : ∀ i < j, ¬ ReadsSerial s D p 1 (n + i)) : (s.run D p (n + j)).ser.irq = true := by
  induction j with
  | zero => exact hi
  | succ j ih =>
    have i1 := ih (fun i hi => hr i (by omega))
    have hn := hr j (by omega)
    have hq : (s.run D p (n + j)).ser.irqRead ((s.run D p (n + j)).devReq .serial) = false := by
      by_contra hx
      simp only [Bool.not_eq_false, WbSerial.irqRead, Bool.and_eq_true, Bool.not_eq_true'] at hx
      obtain ⟨⟨⟨⟨⟨a, b⟩, c⟩, d⟩, e⟩, f⟩ := hx
      have hb := (devCyc_iff _ .serial).1 b
      have a0 := adr0 (s.run D p (n + j)).cpu
      rw [show ((s.run D p (n + j)).cpu.adr.setWidth 2).getLsbD 0 = true from d] at a0
      exact hn ⟨hb.1, hb.2, e, c, by simpa using a0.symm⟩
    show WbSerial.irq (WbSerial.step D (s.run D p (n + j)).ser ((s.run D p (n + j)).devReq .serial) _) = true
    simp only [WbSerial.irq, Bool.or_eq_true] at i1 ⊢
    rw [show ∀ (a : WbSerial) b c, (a.step D b c).rxIrq = (if a.rx.rdy && !a.rxPrev then true
        else if a.irqRead b then false else a.rxIrq) from fun _ _ _ => rfl,
      show ∀ (a : WbSerial) b c, (a.step D b c).txIrq = (if a.tx.ack && !a.txPrev then true
        else if a.irqRead b then false else a.txIrq) from fun _ _ _ => rfl, hq]
    simp only [Bool.false_eq_true, if_false]
    rcases i1 with i1 | i1
    · left; rw [i1]; split <;> rfl
    · right; rw [i1]; split <;> rfl

/-- **C58** (timer and serial port): an interrupt of the timer that is pending in cycle `t`, and whose
period does not end within 70 cycles, or an interrupt of the serial port that is pending, is still pending
at the next dispatch, which comes within 70 cycles, unless the program itself reads the interrupt register
in between; and the handler is entered there if interrupts are enabled. -/
theorem C58_taken (h : s.AfterReset)
    (hm : ∀ t, (s.run D p t).cpu.cyc = true → (s.run D p t).cpu.req.target.isSome = true)
    {t0 : Nat} (h0 : s.cpu.Dispatching (s.inputs D p) t0) (ht : t0 ≤ t)
    (hp : ((s.run D p t).timer.irq = true ∧ ∀ j, 1 ≤ j → j < 70 → ¬ timerPeriod ∣ t + j) ∨
      (s.run D p t).ser.irq = true) :
    ∃ j < 70, s.cpu.Dispatching (s.inputs D p) (t + j) ∧
      (∀ i < j, ¬ s.cpu.Dispatching (s.inputs D p) (t + i)) ∧
      ((∀ i < j, ¬ ReadsTimer s D p (t + i) ∧ ¬ ReadsSerial s D p 1 (t + i)) →
        (s.run D p (t + j)).cpu.arch.mie = true → (s.run D p (t + j)).cpu.arch.meie = true →
        s.cpu.IrqTaken (s.inputs D p) (t + j)) := by
  obtain ⟨j, hj, h1, h2, h3⟩ := C58_latency (t := t) h hm h0 ht
  refine ⟨j, hj, h1, h2, fun hr => h3 ?_⟩
  rw [(C57_devices h D p (t + j)).2.2.2.2, Bool.or_eq_true]
  rcases hp with ⟨g1, g2⟩ | g1
  · exact .inl (timer_stays h g1 (fun i hi => (hr i hi).1) fun i h1 h2' => g2 i h1 (by omega))
  · exact .inr (serial_stays g1 fun i hi => (hr i hi).2)

/-! ## C59 -/

/-- **C59** (Wishbone): from the first cycle after reset on, and until the program reads the interrupt
register of the serial port, the interrupt line is high, whatever happens on the pins; so a program that
reads mip finds MEIP set.  The firmware takes this as the sign of Wishbone peripherals
(`sentinel-rt/examples/attosoc.rs` 80-83). -/
theorem C59_wishbone (h : s.AfterReset) {n : Nat} (hn : 1 ≤ n)
    (hr : ∀ j < n, ¬ ReadsSerial s D p 1 j) : (s.inputs D p n).irq = true := by
  rw [(C57_devices h D p n).2.2.2.2, Bool.or_eq_true]
  right
  have h1 : (s.run D p 1).ser.irq = true := by
    rw [(C57_devices h D p 1).2.2.1]; exact (C46_reset D _ _).1
  obtain ⟨j, rfl⟩ := Nat.exists_eq_add_of_le hn
  exact serial_stays h1 fun i hi => hr (1 + i) (by omega)

/-- **C59** (mip): an instruction that reads mip before the program has read the interrupt register of
the serial port gets 0x800. -/
theorem C59_mip {w : Word} {op : CsrOp} {rd : Reg} {src : CsrSrc} {adr : BitVec 12} (h : s.AfterReset)
    (hx : CsrRuns s.cpu (s.inputs D p) t w m)
    (hw : decode w = some (.csr op rd src adr)) (hk : csrKind adr = .impl .mip)
    (hr : ∀ j < t + 2, ¬ ReadsSerial s D p 1 j) :
    (s.run D p (t + m)).cpu.arch.reg rd = if rd = 0 then 0 else 0x800 := by
  have he := C32_mip hx hw hk
  have ht := hx.one.runs.1.1.1
  rw [C59_wishbone h (by omega) fun j hj => hr j (by omega)] at he
  rw [run_cpu, he]
  by_cases h0 : rd = 0
  · simp [Arch.reg, h0]
  · have h0 : ¬ rd = 0#5 := h0
    simp [Arch.reg, Arch.setReg, h0]

/-! ### The theorems about the SoC are not vacuous -/

/-- The SoC at power-on with the program `p` in RAM. -/
def attoDemo (p : List Word) : Atto 5 := ⟨powerOn, ⟨romOf p, 0, false⟩, {}, {}, WbSerial.reset⟩

theorem attoDemo_reset (p : List Word) : (attoDemo p).AfterReset := ⟨.inl rfl, rfl, rfl, rfl, rfl⟩

/-- Idle pins. -/
def idlePins : Nat → AttoIn := fun _ => {}

/-- A jump to 0xFFFFFFFC, where nothing is: the hypotheses of `C56_hang` hold in cycle 12. -/
example : ((attoDemo [0xFFDFF06F#32]).run 4 idlePins 12).cpu.cyc = true ∧
    ((attoDemo [0xFFDFF06F#32]).run 4 idlePins 12).cpu.req.target = none := by
  constructor <;> decide +kernel

/-- Send 0x55, read the interrupt register, loop. -/
def serialProgram : List Word := [0x800000B7#32, 0x05500113#32, 0x00208023#32, 0x0040A183#32, 0x0000006F#32]

/-- The hypotheses of `C57_send` hold of the store, completed in cycle 21. -/
example : Completes (attoDemo serialProgram) 4 idlePins 20 ∧
    ((attoDemo serialProgram).run 4 idlePins 21).cpu.req.target = some .serial ∧
    ((attoDemo serialProgram).run 4 idlePins 21).cpu.req.we = true ∧
    ((attoDemo serialProgram).run 4 idlePins 21).cpu.req.sel.getLsbD 0 = true ∧
    ((attoDemo serialProgram).run 4 idlePins 21).cpu.req.byteAdr / 4 % 2 = 0 ∧
    ((attoDemo serialProgram).run 4 idlePins 21).ser.tx.ack = true := by
  refine ⟨⟨?_, ?_⟩, ?_, ?_, ?_, ?_, ?_⟩ <;> decide +kernel

/-- Those of `C57_read` hold of the load, completed in cycle 30; it returns that the transmitter became
ready (after reset). -/
example : Completes (attoDemo serialProgram) 4 idlePins 29 ∧
    ((attoDemo serialProgram).run 4 idlePins 30).cpu.req.target = some .serial ∧
    ((attoDemo serialProgram).run 4 idlePins 30).cpu.req.we = false ∧
    ((attoDemo serialProgram).run 4 idlePins 30).cpu.req.sel.getLsbD 0 = true ∧
    ((attoDemo serialProgram).run 4 idlePins 30).cpu.req.byteAdr / 4 % 2 = 1 ∧
    ((attoDemo serialProgram).run 4 idlePins 30).datR = 2 := by
  refine ⟨⟨?_, ?_⟩, ?_, ?_, ?_, ?_, ?_⟩ <;> decide +kernel

/-- Enable interrupts and loop. -/
def irqProgram : List Word := [0x000010B7#32, 0x80008093#32, 0x3040A073#32, 0x30046073#32, 0x0000006F#32]

/-- The program is in memory and the program counter is in it. -/
def irqInv (a : Arch) (P : Plat 5) (_ : List (BitVec 8)) : Prop :=
  P.ram = romOf irqProgram ∧ a.mtvec = 0 ∧ (a.pc = 0 ∨ a.pc = 4 ∨ a.pc = 8 ∨ a.pc = 12 ∨ a.pc = 16)

theorem irqInv_ok : ProgInv (fun _ => True) irqInv (fun _ _ => True) where
  pc h := by rcases h.2.2 with e | e | e | e | e <;> rw [e] <;> decide
  ok _ := trivial
  step {a P h} hI := by
    obtain ⟨h1, h2, h3⟩ := hI
    have hI' : ∀ a' : Arch, a'.mtvec = 0 → (a'.pc = 0 ∨ a'.pc = 4 ∨ a'.pc = 8 ∨ a'.pc = 12 ∨ a'.pc = 16) →
        irqInv a' P h ∧ (h.length < h.length ∨ h = h ∧ True) := fun a' g1 g2 => ⟨⟨h1, g1, g2⟩, .inr ⟨rfl, trivial⟩⟩
    have ht : ∀ (Q : Arch → Plat 5 → List (BitVec 8) → Prop) (c : Bool) (T : Tree Arch),
        Q (a.takeInterrupt .asBuilt) P h → Wp (fun _ => True) Q T P h →
        Wp (fun _ => True) Q (if c then .ret (a.takeInterrupt .asBuilt) else T) P h := by
      intro Q c T g1 g2; cases c <;> assumption
    have hi := hI' (a.takeInterrupt .asBuilt) h2 (.inl (by rw [show (a.takeInterrupt .asBuilt).pc = a.mtvec from rfl, h2]))
    rw [h1]
    rcases h3 with e | e | e | e | e <;> (rw [e]; intro b; refine ht _ _ _ hi ?_)
    · exact hI' _ h2 (by right; left; show a.pc + 4 = 4; rw [e]; rfl)
    · exact hI' _ h2 (by right; right; left; show a.pc + 4 = 8; rw [e]; rfl)
    · intro b'; refine ht _ _ _ hi ?_
      exact hI' _ (by exact h2) (by right; right; right; left; show a.pc + 4 = 12; rw [e]; rfl)
    · intro b'; refine ht _ _ _ hi ?_
      exact hI' _ (by exact h2) (by right; right; right; right; show a.pc + 4 = 16; rw [e]; rfl)
    · have e' : targetOk (a.pc + (((0#20 : BitVec 20) ++ 0#1 : BitVec 21).signExtend 32)) = true := by rw [e]; rfl
      show Wp _ _ (if targetOk (a.pc + (((0#20 : BitVec 20) ++ 0#1 : BitVec 21).signExtend 32)) then _ else _) P h
      rw [e']
      exact hI' _ h2 (by right; right; right; right; show a.pc + _ = 16; rw [e]; rfl)

/-- `irqProgram` is safe, so `C56_safe` applies. -/
theorem irqProgram_safe (p : Nat → AttoIn) :
    Safe (attoDemo irqProgram).plat ((attoDemo irqProgram).run 4 p 5).cpu.arch := by
  have e : ((attoDemo irqProgram).run 4 p 5).cpu.arch = a0 := by
    rw [run_cpu, show (attoDemo irqProgram).cpu = powerOn from rfl,
      (boot_run (s := powerOn) ⟨_, _, _, rfl⟩ _).2.2.2.2.1]
    rfl
  rw [e]
  intro l r d hb hl
  exact ((irqInv_ok.behaves (P := (attoDemo irqProgram).plat) (h := []) ⟨rfl, rfl, .inl rfl⟩ hb).2 l r d rfl hl).isSome

/-- The hypotheses of `C58_taken` hold in cycle 25, in the middle of the instruction that enables
interrupts; the serial interrupt is pending since reset, and the next dispatch is in cycle 33. -/
example : (attoDemo irqProgram).cpu.Dispatching ((attoDemo irqProgram).inputs 4 idlePins) 24 ∧
    ((attoDemo irqProgram).run 4 idlePins 25).ser.irq = true ∧
    (attoDemo irqProgram).cpu.Dispatching ((attoDemo irqProgram).inputs 4 idlePins) 33 ∧
    ((attoDemo irqProgram).run 4 idlePins 33).cpu.arch.mie = true ∧
    ((attoDemo irqProgram).run 4 idlePins 33).cpu.arch.meie = true ∧
    (∀ t, ((attoDemo irqProgram).run 4 idlePins t).cpu.cyc = true →
      ((attoDemo irqProgram).run 4 idlePins t).cpu.req.target.isSome = true) := by
  refine ⟨⟨?_, ?_⟩, ?_, ⟨?_, ?_⟩, ?_, ?_, ?_⟩
  · decide
  · decide +kernel
  · decide +kernel
  · decide
  · decide +kernel
  · decide +kernel
  · decide +kernel
  · exact (C56_safe (attoDemo_reset _) (irqProgram_safe idlePins)).2.2

/-- The hypotheses of `C59_mip` hold of a program whose first instruction is `csrr x1, mip`. -/
example : CsrRuns (attoDemo [0x344020F3#32]).cpu ((attoDemo [0x344020F3#32]).inputs 4 idlePins) 7 0x344020F3#32 7 ∧
    decode 0x344020F3#32 = some (.csr .rs 1 (.reg 0) 0x344) ∧ csrKind 0x344 = .impl .mip ∧
    (∀ j < 14, ¬ ReadsSerial (attoDemo [0x344020F3#32]) 4 idlePins 1 j) ∧
    ((attoDemo [0x344020F3#32]).run 4 idlePins 14).cpu.arch.reg 1 = 0x800 := by
  have hr := attoDemo_reset [0x344020F3#32]
  have hx : CsrRuns (attoDemo [0x344020F3#32]).cpu ((attoDemo [0x344020F3#32]).inputs 4 idlePins) 7 0x344020F3#32 7 := by
    refine ⟨⟨hr.cpu, registered hr, runsCheck_sound (r := ⟨0, 15, false, 0⟩) (by decide +kernel)⟩, ?_, ?_⟩
    · rintro ⟨-, h, -⟩; rw [← run_cpu] at h; exact absurd h (by decide +kernel)
    · rintro ⟨-, h, -⟩; rw [← run_cpu] at h; exact absurd h (by decide +kernel)
  have hn : ∀ j < 14, ¬ ReadsSerial (attoDemo [0x344020F3#32]) 4 idlePins 1 j := by
    rintro j hj ⟨h1, h2, -⟩
    revert h1 h2
    have : ∀ i : _root_.Fin 14, ((attoDemo [0x344020F3#32]).run 4 idlePins i).cpu.cyc = true →
        ¬ ((attoDemo [0x344020F3#32]).run 4 idlePins i).cpu.req.target = some .serial := by decide +kernel
    exact fun h1 h2 => this ⟨j, hj⟩ h1 h2
  exact ⟨hx, rfl, rfl, hn, by rw [C59_mip (t := 7) (m := 7) hr hx (rd := 1) rfl rfl fun j hj => hn j (by omega)]; rfl⟩

end Sentinel.Atto

namespace Sentinel
open Spec

/-- **C59** (CSR bus): with the peripherals on the CSR bus, whatever their registers are read for, in the
first 2^14 cycles after reset the interrupt line is low as long as nothing is sent and the serial line is
idle. -/
theorem C59_csr (D : Nat) (rd : Nat → Bool) (q : Nat → SerialStb) (x : Nat → Bool) (n : Nat)
    (hn : n < 2 ^ 14) (hq : ∀ j < n, (q j).wStb = false ∧ x j = true) :
    ((({} : CsrTimer).run rd n).irq || (CsrSerial.reset.run D q x n).irq) = false := by
  rw [(C46_reset D (fun _ => {}) (fun _ => true)).2 q x n hq, Bool.or_false]
  have key : (({} : CsrTimer).run rd n).prescaler.toNat = n := by
    clear hq
    induction n with
    | zero => rfl
    | succ n ih =>
      have i1 := ih (by omega)
      have h := CsrTimer.step_toNat (({} : CsrTimer).run rd n) (rd n)
      rw [show ({} : CsrTimer).run rd (n + 1) = (({} : CsrTimer).run rd n).step (rd n) from rfl, h, i1,
        if_neg (by omega)]
      omega
  have := CsrTimer.irq_iff (({} : CsrTimer).run rd n)
  cases hi : (({} : CsrTimer).run rd n).irq
  · rfl
  · rw [hi, key] at this
    have := this.1 rfl
    omega

/-- The hypotheses of `C59_csr` hold of an idle line and reads of both registers in every cycle. -/
example : (16383 : Nat) < 2 ^ 14 ∧ ∀ j < 16383, (({ rStb := true, irqStb := true } : SerialStb)).wStb = false ∧
    (fun _ : Nat => true) j = true := ⟨by decide, fun _ _ => ⟨rfl, rfl⟩⟩

end Sentinel
