import Verif.Proof.AttoCsrTime
import Verif.Props.Atto
/-!
# C72-C74: the example SoC with the peripherals on the CSR bus
-/

set_option linter.unusedSimpArgs false

namespace Sentinel.AttoCsr
open Ucode Spec

variable {k D : Nat} {s : AttoCsr k} {p : Nat → AttoIn} {t m n : Nat}

/-! ## C72 -/

/-- **C72** (platform): for every program in RAM and whatever happens on the pins, what the core does on the bus is a behaviour of the
instruction-set machine on the platform: every access is to an address where something is, reads of RAM return what was written last, reads
of peripherals return a byte, and 0 where there is no register; and at each dispatch the RAM, the LEDs, the GPIO outputs and their enables are
what the accesses so far made them. -/
theorem C72_trace (h : s.AfterReset) (D : Nat) (p : Nat → AttoIn) (n : Nat) :
    (s.run D p 5).cpu.arch.pc = 0 ∧
    Behaves (cycle .asBuilt) (fetch (s.run D p 5).cpu.arch) (s.cpu.events (s.inputs D p) 1 n) ∧
    PlatTraceCsr s.plat (s.cpu.events (s.inputs D p) 1 n) ∧
    ∀ t, s.cpu.Dispatching (s.inputs D p) t →
      (s.run D p t).plat = s.plat.afterAllCsr (s.cpu.events (s.inputs D p) 1 (t - 1)) := by
  have hc := C01_trace h.cpu (registered (D := D) (p := p) h) n
  rw [← run_cpu] at hc
  exact ⟨hc.1, hc.2.2.2.2, (inv h n).1, fun t hd => dispatch_plat h hd⟩

theorem dev_some (σ : AttoCsr k) : σ.dev.isSome = σ.cpu.req.csrTarget.isSome := by
  rw [req_target]; cases σ.dev <;> rfl

/-- **C72** (cycles): an instruction takes its idle cycles (`Verif/Spec/Timing.lean`), 2 cycles for each access to RAM, and 6 for each access to
the peripherals; so at least 4 and at most 73 cycles, and at most 69 if the next instruction is in RAM. -/
theorem C72_cycles {w : Word} (h : s.AfterReset) (he : s.cpu.Executes (s.inputs D p) t w m) :
    m = idleCycles (s.run D p t).cpu.arch w (s.cpu.events (s.inputs D p) t m) + busTime (s.cpu.events (s.inputs D p) t m) ∧
    4 ≤ m ∧ m ≤ 73 ∧ ∀ l r d, s.cpu.events (s.inputs D p) t m = l ++ [.bus r d] → r.csrTarget = some .ram → m ≤ 69 := by
  have ho : OneInstr s.cpu (s.inputs D p) t w m := ⟨h.cpu, registered h, he⟩
  have h1 := C28_cycles ho
  have hb := busy_elapsed (D := D) (p := p) h t m fun j hj hc => by
    by_contra hn
    exact hang_dispatch h hc (by simpa using hn) (by omega) he.2.2.1
  rw [elapsed_dispatch h he.1.1, elapsed_dispatch h he.2.2.1] at hb
  rw [run_cpu]
  have hm : m = idleCycles (s.cpu.run (s.inputs D p) t).arch w (s.cpu.events (s.inputs D p) t m) + busTime (s.cpu.events (s.inputs D p) t m) := by
    omega
  refine ⟨hm, ?_⟩
  obtain ⟨l, r, d, hl, b1, b2, b3, b4⟩ := idle_bound ho
  generalize idleCycles (s.cpu.run (s.inputs D p) t).arch w (s.cpu.events (s.inputs D p) t m) = I at *
  rw [hl, busTime_append] at hm
  have hle := busTime_le l
  simp only [busTime] at hm
  refine ⟨?_, ?_, ?_⟩
  · revert hm; split <;> intro hm <;> omega
  · revert hm; split <;> intro hm <;> (rcases (by omega : busCount l = 0 ∨ busCount l = 1) with e | e <;> [skip; have := b4 e] <;> omega)
  · intro l' r' d' e ht
    rw [hl] at e
    obtain ⟨-, e⟩ := List.append_inj' e rfl
    cases e
    rw [ht, if_neg (by simp)] at hm
    rcases (by omega : busCount l = 0 ∨ busCount l = 1) with e | e <;> [skip; have := b4 e] <;> omega

/-- **C72** (progress): if the core never asks for an address where nothing is, instructions are executed for ever. -/
theorem C72_progress (h : s.AfterReset)
    (hm : ∀ t, (s.run D p t).cpu.cyc = true → (s.run D p t).cpu.req.csrTarget.isSome = true) :
    ∀ n, ∃ t w m, n ≤ t ∧ s.cpu.Executes (s.inputs D p) t w m :=
  (C27_progress h.cpu (registered h) (fair h fun t hc => by rw [dev_some]; exact hm t hc)).1

/-- **C72** (nothing there): a request for an address where nothing is is never answered; it stays on the bus for ever, and no further
instruction is dispatched. -/
theorem C72_hang (h : s.AfterReset) (hc : (s.run D p t).cpu.cyc = true)
    (hd : (s.run D p t).cpu.req.csrTarget = none) (n : Nat) (hn : t ≤ n) :
    (s.run D p n).cpu.cyc = true ∧ (s.run D p n).cpu.req = (s.run D p t).cpu.req ∧
      (s.run D p n).ack = false ∧ ¬ s.cpu.Dispatching (s.inputs D p) n := by
  have hd' : (s.run D p t).dev = none := by
    have := dev_some (s.run D p t)
    rw [hd] at this
    simpa using this
  refine ⟨?_, ?_, ?_, hang_dispatch h hc hd' hn⟩ <;> obtain ⟨j, rfl⟩ := Nat.exists_eq_add_of_le hn <;> obtain ⟨h1, h2, h3⟩ := hang h hc hd' j
  · exact h1
  · exact h2
  · simp [ack, h3]

/-- A program never asks for an address where nothing is: no behaviour of the instruction-set machine, started in `a` on platform `P`, that is
a platform trace so far, goes on with such an access. -/
def Safe {k : Nat} (P : Plat k) (a : Arch) : Prop :=
  ∀ l r d, Behaves (cycle .asBuilt) (fetch a) (l ++ [.bus r d]) → PlatTraceCsr P l → r.csrTarget.isSome = true

/-- **C72** (safe programs): for a program that is safe on the instruction-set machine, every request of the core is for an address where
something is, and instructions are executed for ever. -/
theorem C72_safe (h : s.AfterReset) (hs : Safe s.plat (s.run D p 5).cpu.arch) :
    (∀ t, (s.run D p t).cpu.cyc = true → (s.run D p t).cpu.req.csrTarget.isSome = true) ∧
      ∀ n, ∃ t w m, n ≤ t ∧ s.cpu.Executes (s.inputs D p) t w m := by
  have hm : ∀ t, (s.run D p t).cpu.cyc = true → (s.run D p t).cpu.req.csrTarget.isSome = true := by
    intro t hc
    by_contra hn
    have hd : (s.run D p t).cpu.req.csrTarget = none := by simpa using hn
    have ht : t ≠ 0 := by rintro rfl; rw [show (s.run D p 0).cpu = s.cpu from rfl, cyc_zero h] at hc; cases hc
    -- the same inputs, except that the request is answered in cycle t + 1
    let inp : Nat → Input := fun n => if n = t + 1 then { s.inputs D p n with ack := true } else s.inputs D p n
    have hrun : ∀ n, n ≤ t + 1 → s.cpu.run inp n = s.cpu.run (s.inputs D p) n := by
      intro n hn
      induction n with
      | zero => rfl
      | succ n ih =>
        have : inp n = s.inputs D p n := if_neg (by omega)
        rw [State.run, State.run, ih (by omega), this]
    have hev : ∀ n, n ≤ t → s.cpu.events inp 1 n = s.cpu.events (s.inputs D p) 1 n := by
      intro n hn
      induction n with
      | zero => rfl
      | succ n ih =>
        have : inp (1 + n) = s.inputs D p (1 + n) := if_neg (by omega)
        rw [State.events_snoc, State.events_snoc, ih (by omega), hrun _ (by omega), this]
    have hr : s.cpu.RegisteredAck inp := by
      intro n hf
      by_cases hnt : n = t + 1
      · subst hnt
        have := hf.2 t rfl
        rw [hrun _ (by omega), ← run_cpu] at this
        rw [this] at hc; cases hc
      · rw [show inp n = s.inputs D p n from if_neg hnt]
        by_cases hlt : n ≤ t
        · refine registered (D := D) (p := p) h n ⟨?_, fun j hj => ?_⟩
          · rw [← hrun _ (by omega)]; exact hf.1
          · rw [← hrun _ (by omega)]; exact hf.2 j hj
        · exact (C72_hang h hc hd n (by omega)).2.2.1
    have hb := (C01_trace h.cpu hr (t + 1)).2.2.2.2
    have hboot : (s.cpu.run inp 5).arch = (s.run D p 5).cpu.arch := by
      have hs' : ∃ u mem rd, s.cpu = State.resetRegs u mem rd := by
        rcases h.cpu with h | ⟨σ, en, i, -, h⟩ <;> exact ⟨_, _, _, h⟩
      rw [run_cpu, (boot_run hs' inp).2.2.2.2.1, (boot_run hs' (s.inputs D p)).2.2.2.2.1]
      have : inp 0 = s.inputs D p 0 := if_neg (by omega)
      rw [this]
    rw [State.events_snoc, hev t (by omega), hboot, Nat.add_comm 1 t, hrun _ (by omega)] at hb
    obtain ⟨g1, g2, g3, -⟩ := C72_hang h hc hd (t + 1) (by omega)
    rw [run_cpu] at g1
    have hi : inp (t + 1) = { s.inputs D p (t + 1) with ack := true } := if_pos rfl
    have hobs : ∃ l, (s.cpu.run (s.inputs D p) (t + 1)).obs (inp (t + 1)) =
        [.bus (s.cpu.run (s.inputs D p) (t + 1)).req (s.inputs D p (t + 1)).datR] ++ l := by
      rw [hi]; unfold State.obs; rw [g1]
      exact ⟨_, rfl⟩
    obtain ⟨l, hl⟩ := hobs
    rw [hl, ← List.append_assoc] at hb
    have := hs _ _ _ hb.prefix (inv h t).1
    rw [← run_cpu, g2, hd] at this
    cases this
  exact ⟨hm, C72_progress h hm⟩

/-! ## C73 -/

/-- The register at a byte address, from `sentinel-rt/examples/attosoc.rs` 91-95. -/
def regAt (byteAdr : Nat) : Option CsrReg :=
  match byteAdr with
  | 0x02000000 => some .leds
  | 0x02000004 => some .inout
  | 0x02000008 => some .oe
  | 0x02800000 => some .timer
  | 0x03000000 => some .txrx
  | 0x03000004 => some .irq
  | _ => none

theorem reg_eq {σ : AttoCsr k} (hd : σ.dev = some .periph) : σ.reg = regAt σ.cpu.req.byteAdr := by
  have ha := csrReg_addr σ.cpu.adr hd
  have hb : σ.cpu.req.byteAdr = 4 * σ.cpu.adr.toNat := rfl
  have hr : σ.reg = csrReg (σ.cpu.adr.setWidth 23 ++ BitVec.ofNat 2 0) := rfl
  rw [← hb, ← hr] at ha
  unfold regAt
  split <;> rename_i e
  · exact (ha .leds).2 e
  · exact (ha .inout).2 e
  · exact (ha .oe).2 e
  · exact (ha .timer).2 e
  · exact (ha .txrx).2 e
  · exact (ha .irq).2 e
  · rename_i f1 f2 f3 f4 f5
    cases hg : σ.reg with
    | none => rfl
    | some r => have := (ha r).1 hg; cases r <;> simp only [CsrReg.byteAdr] at this <;> contradiction

theorem periph_of {σ : AttoCsr k} (h : σ.cpu.req.csrTarget = some .periph) : σ.dev = some .periph := by
  rw [req_target] at h
  cases hd : σ.dev with
  | none => rw [hd] at h; cases h
  | some d => rw [hd] at h; cases d <;> first | rfl | cases h

theorem reads_zero {σ : AttoCsr k} (h : σ.devCyc .periph = true) (h0 : σ.bridge.cycle = 0) :
    σ.reads = if σ.cpu.we = false ∧ σ.cpu.sel.getLsbD 0 = true then σ.reg else none := by
  rw [reads_eq, h, h0]
  unfold reg
  cases σ.cpu.we <;> cases σ.cpu.sel.getLsbD 0 <;> rfl

theorem reads_pos {σ : AttoCsr k} (h0 : 0 < σ.bridge.cycle) (h4 : σ.bridge.cycle ≤ 4) : σ.reads = none := by
  rw [reads_eq]
  split
  · rename_i hx
    simp only [Bool.and_eq_true, decide_eq_true_eq] at hx
    exact csrReg_lane _ (by omega)
  · rfl

/-- The strobes of an access that begins in cycle `t`. -/
theorem strobes (h : s.AfterReset) (h1 : (s.run D p t).devCyc .periph = true) (h2 : (s.run D p t).bridge.cycle = 0) {j : Nat} (hj : j ≤ 5) :
    (s.run D p (t + j)).reads = (if j = 0 ∧ (s.run D p t).cpu.req.we = false ∧ (s.run D p t).cpu.req.sel.getLsbD 0 = true
      then regAt (s.run D p t).cpu.req.byteAdr else none) ∧
    (s.run D p (t + j)).bus.w = (if j = 1 ∧ (s.run D p t).cpu.req.we = true ∧ (s.run D p t).cpu.req.sel.getLsbD 0 = true
      then (regAt (s.run D p t).cpu.req.byteAdr).map fun r => (r, byteOf (s.run D p t).cpu.req.data 0) else none) := by
  obtain ⟨f1, f2, f3, f4, f5, f6, f7, f8, f9, f10⟩ := forward (D := D) (p := p) h h1 h2 j hj
  have hb := busInv (D := D) (p := p) h (t + j)
  have hr := reg_eq (ack_periph h1).2.1
  rw [← hr]
  constructor
  · by_cases hj0 : j = 0
    · subst hj0
      rw [Nat.add_zero, reads_zero h1 h2]
      simp only [true_and]; rfl
    · rw [if_neg (fun hx => hj0 hx.1), reads_pos (by rw [f8]; omega) hb.le]
  · rw [hb.wr, f8]
    by_cases hj1 : j = 1
    · subst hj1
      simp only [true_and, show min 1 4 = 1 from rfl, if_true]
      unfold pendW reg
      rw [f3, f4, f5, f6]
      have e1 : (s.run D p t).cpu.req.we = (s.run D p t).cpu.we := rfl
      have e2 : (s.run D p t).cpu.req.sel = (s.run D p t).cpu.sel := rfl
      rw [e1, e2]
      cases hw : (s.run D p t).cpu.we
      · simp
      · cases hs : (s.run D p t).cpu.sel.getLsbD 0
        · simp
        · rw [low_byte' _ hs hw]; simp [-BitVec.getLsbD_eq_getElem]
    · rw [if_neg (by omega), if_neg (fun hx => hj1 hx.1)]

/-- In cycle `n` an access to the peripherals is completed. -/
structure Completes (s : AttoCsr k) (D : Nat) (p : Nat → AttoIn) (n : Nat) : Prop where
  cyc : (s.run D p n).cpu.cyc = true
  ack : (s.run D p n).ack = true
  periph : (s.run D p n).cpu.req.csrTarget = some .periph

theorem start (h : s.AfterReset) (hc : Completes s D p n) :
    ∃ t, n = t + 5 ∧ (s.run D p t).devCyc .periph = true ∧ (s.run D p t).bridge.cycle = 0 ∧ (s.run D p t).cpu.req = (s.run D p n).cpu.req := by
  have hd := periph_of hc.periph
  have ha := hc.ack
  simp only [ack, hd] at ha
  obtain ⟨t, rfl, g1, g2⟩ := back_ack h ha
  exact ⟨t, rfl, g1, g2, (forward h g1 g2 5 (by omega)).2.1.symm⟩

/-- **C73** (accesses): a completed access to the peripherals was on the bus, unchanged, for 6 cycles, unanswered until the last one.  If it is a
read of the byte of a register, that register gets one read strobe, in the first cycle; if it is a write of that byte, the register gets one
write strobe with the byte, in the second cycle; there is no other strobe. -/
theorem C73_access (h : s.AfterReset) (hc : Completes s D p n) :
    let r := (s.run D p n).cpu.req
    5 ≤ n ∧ ∀ j ≤ 5,
      (s.run D p (n - 5 + j)).cpu.cyc = true ∧ (s.run D p (n - 5 + j)).cpu.req = r ∧
      ((s.run D p (n - 5 + j)).ack = true ↔ j = 5) ∧
      (s.run D p (n - 5 + j)).reads = (if j = 0 ∧ r.we = false ∧ r.sel.getLsbD 0 = true then regAt r.byteAdr else none) ∧
      (s.run D p (n - 5 + j)).bus.w =
        (if j = 1 ∧ r.we = true ∧ r.sel.getLsbD 0 = true then (regAt r.byteAdr).map fun g => (g, byteOf r.data 0) else none) := by
  obtain ⟨t, rfl, g1, g2, g3⟩ := start h hc
  intro r
  refine ⟨by omega, fun j hj => ?_⟩
  rw [Nat.add_sub_cancel]
  obtain ⟨f1, f2, f3, f4, f5, f6, f7, f8, f9, f10⟩ := forward (D := D) (p := p) h g1 g2 j hj
  have hst := strobes (D := D) (p := p) h g1 g2 hj
  rw [g3] at hst f2
  refine ⟨f1, f2, ?_, hst⟩
  rw [(ack_periph f7).2.2, f9]; simp

/-- **C73** (strobes): conversely, a read strobe of a register belongs to an access that is completed 5 cycles later, and a write strobe to
one that is completed 4 cycles later. -/
theorem C73_strobes (h : s.AfterReset) :
    ((s.run D p t).reads ≠ none → Completes s D p (t + 5)) ∧
    ((s.run D p t).bus.w ≠ none → 1 ≤ t ∧ Completes s D p (t + 4)) := by
  have hI := busInv (D := D) (p := p) h t
  have key : ∀ u, (s.run D p u).devCyc .periph = true → (s.run D p u).bridge.cycle = 0 → Completes s D p (u + 5) := by
    intro u g1 g2
    obtain ⟨f1, f2, f3, f4, f5, f6, f7, f8, f9, f10⟩ := forward (D := D) (p := p) h g1 g2 5 (by omega)
    obtain ⟨a1, a2, a3⟩ := ack_periph f7
    exact ⟨f1, by rw [a3, f9]; rfl, by rw [req_target, a2]; rfl⟩
  constructor
  · intro hn
    have hz : (s.run D p t).bridge.cycle = 0 := by
      by_contra hx
      exact hn (reads_pos (by omega) hI.le)
    have hd : (s.run D p t).devCyc .periph = true := by
      by_contra hx
      rw [reads_eq] at hn
      simp [hx] at hn
    exact key t hd hz
  · intro hn
    have hz : (s.run D p t).bridge.cycle = 1 := by
      by_contra hx
      rw [hI.wr, if_neg hx] at hn; exact hn rfl
    have ha : (s.run D p t).bridge.ack = false := by
      cases ha : (s.run D p t).bridge.ack with
      | false => rfl
      | true => have := hI.ack ha; omega
    obtain ⟨u, rfl, g1, g2⟩ := back h hz (by omega) ha
    exact ⟨by omega, key u g1 g2⟩

theorem regAt_some {a : Nat} {r : CsrReg} (h : regAt a = some r) : a = r.byteAdr := by
  unfold regAt at h
  split at h <;> cases h <;> rfl

theorem value_zero (σ : AttoCsr k) (g : BitVec 8) {a : Nat} (ha : a ∉ [0x02000004, 0x02800000, 0x03000000, 0x03000004]) :
    (match regAt a with | some r => σ.value g r | none => 0) = 0 := by
  cases hq : regAt a with
  | none => rfl
  | some q =>
    have e := regAt_some hq
    subst e
    cases q
    case leds | oe => rfl
    all_goals exact absurd (by decide) ha

/-- **C73** (reads): a completed read of the low byte of a word of the peripherals returns: for GPIO the input pins, for the timer whether its
interrupt is pending, for the serial port the two interrupt bits or the receive buffer, all as they were in the cycle of the strobe; and 0
elsewhere, and if the low byte is not read. -/
theorem C73_read (h : s.AfterReset) (hc : Completes s D p n) (hw : (s.run D p n).cpu.req.we = false) :
    let r := (s.run D p n).cpu.req
    let d := (s.run D p n).datR
    let σ := s.run D p (n - 5)
    (r.sel.getLsbD 0 = true →
      (r.byteAdr = 0x02000004 → d = (p (n - 5)).gpioI.setWidth 32) ∧
      (r.byteAdr = 0x02800000 → d = if σ.timer.irq then 1 else 0) ∧
      (r.byteAdr = 0x03000000 → d = (bitsByte σ.ser.rx.data).setWidth 32) ∧
      (r.byteAdr = 0x03000004 → d = (if σ.ser.rxIrq then 1 else 0) ||| (if σ.ser.txIrq then 2 else 0))) ∧
    (¬ (r.sel.getLsbD 0 = true ∧ r.byteAdr ∈ [0x02000004, 0x02800000, 0x03000000, 0x03000004]) → d = 0) := by
  obtain ⟨t, rfl, g1, g2, g3⟩ := start h hc
  intro r d σ
  have hb := busInv (D := D) (p := p) h (t + 5)
  have hd := periph_of hc.periph
  have hak := hc.ack
  simp only [ack, hd] at hak
  have f10 := (forward (D := D) (p := p) h g1 g2 5 (by omega)).2.2.2.2.2.2.2.2.2 (by omega)
  have hdat : d = ((s.run D p (t + 1)).bus.rData).setWidth 32 := by
    show (s.run D p (t + 5)).datR = _
    simp only [datR, hd]
    rw [datR_periph hb hak, f10]
  have hr : (s.run D p (t + 1)).bus.rData = match (s.run D p t).reads with | some r => (s.run D p t).value (p t).gpioI r | none => 0 :=
    step_r D (s.run D p t) (p t)
  have hst := (strobes (D := D) (p := p) h g1 g2 (j := 0) (by omega)).1
  rw [g3, hw] at hst
  simp only [true_and, Nat.add_zero] at hst
  rw [hst] at hr
  rw [hr] at hdat
  clear hr hst f10
  have hσ : σ = s.run D p t := by show s.run D p (t + 5 - 5) = _; rw [Nat.add_sub_cancel]
  have hr' : (s.run D p (t + 5)).cpu.req = r := rfl
  rw [hr'] at hdat
  rw [show t + 5 - 5 = t by omega, hσ]
  constructor
  · intro hs
    rw [if_pos hs] at hdat
    refine ⟨fun e => ?_, fun e => ?_, fun e => ?_, fun e => ?_⟩ <;> rw [e] at hdat <;> rw [hdat]
    · rfl
    · simp only [regAt, value]; cases (s.run D p t).timer.irq <;> rfl
    · rfl
    · simp only [regAt, value, CsrSerial.irqData]
      cases (s.run D p t).ser.rxIrq <;> cases (s.run D p t).ser.txIrq <;> rfl
  · intro hn
    rw [hdat]
    by_cases hs : r.sel.getLsbD 0 = true
    · rw [if_pos hs, value_zero _ _ fun hx => hn ⟨hs, hx⟩]; rfl
    · rw [if_neg hs]; rfl

/-- The strobes of the devices in each cycle. -/
def ledStbs (s : AttoCsr k) (D : Nat) (p : Nat → AttoIn) (n : Nat) : LedStb := (s.run D p n).ledStb
def timerStbs (s : AttoCsr k) (D : Nat) (p : Nat → AttoIn) (n : Nat) : Bool := (s.run D p n).timerStb
def serStbs (s : AttoCsr k) (D : Nat) (p : Nat → AttoIn) (n : Nat) : SerialStb := (s.run D p n).serStb

theorem leds_run (D : Nat) (s : AttoCsr k) (p : Nat → AttoIn) (n : Nat) : (s.run D p n).leds = s.leds.run (s.ledStbs D p) n := by
  induction n with
  | zero => rfl
  | succ n ih => simp only [CsrLeds.run, ← ih]; rfl

theorem timer_run (D : Nat) (s : AttoCsr k) (p : Nat → AttoIn) (n : Nat) : (s.run D p n).timer = s.timer.run (s.timerStbs D p) n := by
  induction n with
  | zero => rfl
  | succ n ih => simp only [CsrTimer.run, ← ih]; rfl

theorem ser_run (D : Nat) (s : AttoCsr k) (p : Nat → AttoIn) (n : Nat) :
    (s.run D p n).ser = s.ser.run D (s.serStbs D p) (fun j => (p j).rx) n := by
  induction n with
  | zero => rfl
  | succ n ih => simp only [CsrSerial.run, ← ih]; rfl

/-- **C73** (devices): in the SoC each device behaves as on its own (C39, C46-C48), from reset, with the pins of the SoC and the strobes of
`C73_access`; and the interrupt line of the core is that of the timer or the serial port. -/
theorem C73_devices (h : s.AfterReset) (D : Nat) (p : Nat → AttoIn) (n : Nat) :
    (s.run D p n).leds = ({} : CsrLeds).run (s.ledStbs D p) n ∧
    (s.run D p n).timer = ({} : CsrTimer).run (s.timerStbs D p) n ∧
    (s.run D p n).ser = CsrSerial.reset.run D (s.serStbs D p) (fun j => (p j).rx) n ∧
    (s.inputs D p n).irq = ((s.run D p n).timer.irq || (s.run D p n).ser.irq) := by
  refine ⟨?_, ?_, ?_, rfl⟩
  · rw [leds_run, h.leds]
  · rw [timer_run, h.timer]
  · rw [ser_run, h.ser]

/-- **C73** (serial output): a store of a byte to the data register of the serial port, completed in cycle `n`, sends exactly the frame of that byte
on the TX pin, from cycle `n - 3` on, each bit for `D` cycles, whatever the program does meanwhile, if the transmitter is ready in cycle
`n - 4`; and the transmitter starts a frame only then. -/
theorem C73_send (hD : 2 ≤ D) (h : s.AfterReset) :
    (∀ n, Completes s D p n → (s.run D p n).cpu.req.we = true → (s.run D p n).cpu.req.sel.getLsbD 0 = true →
      (s.run D p n).cpu.req.byteAdr = 0x03000000 → (s.run D p (n - 4)).ser.tx.ack = true →
      (∀ j, (hj : j < 10 * D) → (s.run D p (n - 3 + j)).ser.txO =
        (uartFrame (byteBits (byteOf (s.run D p n).cpu.req.data 0)))[j / D]'(by
          rw [uartFrame_length, byteBits_length]; exact Nat.div_lt_of_lt_mul (by rw [Nat.mul_comm]; exact hj))) ∧
      (s.run D p (n - 3 + 10 * D)).ser.tx.ack = true) ∧
    ∀ t, (s.run D p t).ser.tx.ack = true → (s.run D p (t + 1)).ser.tx.ack = false →
      Completes s D p (t + 4) ∧ (s.run D p (t + 4)).cpu.req.we = true ∧ (s.run D p (t + 4)).cpu.req.sel.getLsbD 0 = true ∧
        (s.run D p (t + 4)).cpu.req.byteAdr = 0x03000000 := by
  have hx := C47_csr hD (s.serStbs D p) (fun j => (p j).rx)
  have e := fun n => ((C73_devices h D p n).2.2.1).symm
  simp only [e] at hx
  obtain ⟨x1, x2, -⟩ := hx
  constructor
  · intro n hc hw hs ha hr
    obtain ⟨h5, hacc⟩ := C73_access h hc
    have hb := (hacc 1 (by omega)).2.2.2.2
    rw [if_pos ⟨rfl, hw, hs⟩, ha, show n - 5 + 1 = n - 4 by omega] at hb
    have hq : (s.serStbs D p (n - 4)).wStb = true ∧ (s.serStbs D p (n - 4)).wData = byteOf (s.run D p n).cpu.req.data 0 := by
      simp [serStbs, serStb, written, hb, regAt]
    have := x1 (n - 4) hq.1 hr
    rw [show n - 4 + 1 = n - 3 by omega] at this
    simp only [hq.2] at this
    exact ⟨fun j hj => (this.1 j hj).1, this.2.1⟩
  · intro t h1 h2
    have hq := ((x2 t).1 ⟨h1, h2⟩).2
    simp only [serStbs, serStb] at hq
    have hw : ∃ d, (s.run D p t).bus.w = some (.txrx, d) := by
      unfold written at hq
      cases hb : (s.run D p t).bus.w with
      | none => rw [hb] at hq; cases hq
      | some rd =>
        obtain ⟨r, d⟩ := rd
        rw [hb] at hq
        simp only at hq
        by_cases hr : r = .txrx
        · subst hr; exact ⟨d, rfl⟩
        · rw [if_neg hr] at hq; cases hq
    obtain ⟨d, hw⟩ := hw
    obtain ⟨ht, hc⟩ := (C73_strobes (D := D) (p := p) (t := t) h).2 (by rw [hw]; simp)
    obtain ⟨-, hacc⟩ := C73_access h hc
    have hb := (hacc 1 (by omega)).2.2.2.2
    rw [show t + 4 - 5 + 1 = t by omega, hw] at hb
    by_cases hcond : (s.run D p (t + 4)).cpu.req.we = true ∧ (s.run D p (t + 4)).cpu.req.sel.getLsbD 0 = true
    · rw [if_pos ⟨rfl, hcond⟩] at hb
      refine ⟨hc, hcond.1, hcond.2, ?_⟩
      generalize (s.run D p (t + 4)).cpu.req.byteAdr = a at hb
      unfold regAt at hb
      split at hb <;> simp_all
    · rw [if_neg fun hx => hcond hx.2] at hb; cases hb

/-- In cycle `n` the core has a read of the register at `a` on the bus. -/
def ReadsReg (s : AttoCsr k) (D : Nat) (p : Nat → AttoIn) (a n : Nat) : Prop :=
  (s.run D p n).cpu.cyc = true ∧ (s.run D p n).cpu.req.byteAdr = a ∧
    (s.run D p n).cpu.req.we = false ∧ (s.run D p n).cpu.req.sel.getLsbD 0 = true

theorem reads_reg (h : s.AfterReset) {r : CsrReg} (hr : (s.run D p n).reads = some r) : ReadsReg s D p r.byteAdr n := by
  have hc := (C73_strobes (D := D) (p := p) (t := n) h).1 (by rw [hr]; simp)
  obtain ⟨-, hacc⟩ := C73_access h hc
  obtain ⟨a1, a2, -, a4, -⟩ := hacc 0 (by omega)
  rw [show n + 5 - 5 + 0 = n by omega] at a1 a2 a4
  rw [hr, ← a2] at a4
  by_cases hcond : (s.run D p n).cpu.req.we = false ∧ (s.run D p n).cpu.req.sel.getLsbD 0 = true
  · rw [if_pos ⟨rfl, hcond⟩] at a4
    refine ⟨a1, ?_, hcond.1, hcond.2⟩
    generalize (s.run D p n).cpu.req.byteAdr = a at a4
    unfold regAt at a4
    split at a4 <;> cases a4 <;> rfl
  · rw [if_neg fun hx => hcond hx.2] at a4; cases a4

theorem _root_.Sentinel.UartRx.run_add'' (D : Nat) (s : UartRx) (x a : Nat → Bool) (m n : Nat) :
    s.run D x a (m + n) = (s.run D x a m).run D (fun k => x (m + k)) (fun k => a (m + k)) n := by
  induction n with
  | zero => rfl
  | succ n ih => rw [← Nat.add_assoc, UartRx.run, ih, UartRx.run]

/-- A read of a register, completed in cycle `n`, strobes it in cycle `n - 5`. -/
theorem read_strobe (h : s.AfterReset) (hc : Completes s D p n) (hw : (s.run D p n).cpu.req.we = false)
    (hs : (s.run D p n).cpu.req.sel.getLsbD 0 = true) : 5 ≤ n ∧ (s.run D p (n - 5)).reads = regAt (s.run D p n).cpu.req.byteAdr := by
  obtain ⟨h5, hacc⟩ := C73_access h hc
  have := (hacc 0 (by omega)).2.2.2.1
  rw [if_pos ⟨rfl, hw, hs⟩] at this
  exact ⟨h5, this⟩

/-- **C73** (serial input): if the receiver is idle and has room in cycle `t`, when the frame of the byte `d` begins on the RX pin, then the first read of the data register of
the serial port that begins when the frame has been received (`rxLatency` cycles later), however late, returns `d`; meanwhile an interrupt has been raised. -/
theorem C73_receive {d : BitVec 8} (hD : 2 ≤ D) (h : s.AfterReset) (hidle : (s.run D p t).ser.rx.count = 0) (hroom : (s.run D p t).ser.rx.rdy = false)
    (hstart : (p t).rx = false)
    (hbits : ∀ i, (h : i < (uartFrame (byteBits d)).length) → (p (t + (1 + D / 2 + i * D))).rx = (uartFrame (byteBits d))[i])
    (hc : Completes s D p n) (hw : (s.run D p n).cpu.req.we = false) (hs : (s.run D p n).cpu.req.sel.getLsbD 0 = true)
    (ha : (s.run D p n).cpu.req.byteAdr = 0x03000000) (hn : t + rxLatency D 8 ≤ n - 5)
    (hno : ∀ j, t + rxLatency D 8 ≤ j → j < n - 5 → ¬ ReadsReg s D p 0x03000000 j) :
    (s.run D p n).datR = d.setWidth 32 ∧ (s.run D p (t + rxLatency D 8 + 1)).ser.rxIrq = true ∧ (s.inputs D p (t + rxLatency D 8 + 1)).irq = true := by
  have hx := C47_csr hD (s.serStbs D p) (fun j => (p j).rx)
  have e := fun n => ((C73_devices h D p n).2.2.1).symm
  simp only [e] at hx
  have hq : ∀ k, t + rxLatency D 8 ≤ k → k < n - 5 → (s.serStbs D p k).rStb = false := by
    intro k h1 h2
    cases hb : (s.serStbs D p k).rStb with
    | false => rfl
    | true =>
      simp only [serStbs, serStb, decide_eq_true_eq] at hb
      exact absurd (reads_reg h hb) (hno k h1 h2)
  obtain ⟨x1, x2, -⟩ := hx.2.2 t (n - 5) d hidle hroom hstart hbits hn hq
  have hd := ((C73_read h hc hw).1 hs).2.2.1 ha
  have hirq : (s.run D p (t + rxLatency D 8 + 1)).ser.rxIrq = true := by
    have g1 := (hx.2.2 t (t + rxLatency D 8) d hidle hroom hstart hbits (Nat.le_refl _) (fun k h1 h2 => by omega)).1
    have hprev : (s.run D p (t + rxLatency D 8 - 1)).ser.rx.rdy = false := by
      have hr := fun k => CsrSerial.rx_run (D := D) (r := s.serStbs D p) (rxI := fun j => (p j).rx) (s := CsrSerial.reset) k
      have hadd := fun k => UartRx.run_add'' D CsrSerial.reset.rx (fun j => (p j).rx) (fun k => (s.serStbs D p k).rStb) t k
      have hl := (CsrSerial.lens (D := D) (r := s.serStbs D p) (rxI := fun j => (p j).rx) t).2
      rw [hr] at hl
      simp only [← e, hr] at hidle hroom ⊢
      have h40 := C40_receive hD (d := byteBits d) (rxI := fun k => (p (t + k)).rx) (ack := fun k => (s.serStbs D p (t + k)).rStb) hidle
        (by rw [byteBits_length]; exact hl) (.inl hroom) hstart hbits
      have hL : 2 ≤ rxLatency D 8 := by rw [rxLatency]; omega
      rw [byteBits_length] at h40
      have := h40.2.2.2.2.2 (rxLatency D 8 - 1) (by omega) (by omega)
      rw [← hadd, ← Nat.add_sub_assoc (by omega)] at this
      exact this
    have := (C46_csr D (s.serStbs D p) (fun j => (p j).rx) (t + rxLatency D 8 + 1)).1.2
    simp only [e] at this
    exact this ⟨t + rxLatency D 8, by omega, ⟨g1, by rw [rxLatency]; omega, hprev⟩, fun k h1 h2 => by omega⟩
  refine ⟨?_, hirq, ?_⟩
  · rw [hd]
    have : bitsByte (s.run D p (n - 5)).ser.rx.data = d := x2
    rw [this]
  · rw [(C73_devices h D p _).2.2.2]
    simp [CsrSerial.irq, hirq]

/-- **C73** (timer): the timer's interrupt is raised exactly at the ends of periods; it goes away only at the end of a period or by a read of the timer's register, which returns it; a read that returns 1
removes it.  So no interrupt is lost or reported twice. -/
theorem C73_timer (h : s.AfterReset) :
    (∀ t, (s.run D p t).timer.irq = false → ((s.run D p (t + 1)).timer.irq = true ↔ timerPeriod ∣ t + 1)) ∧
    (∀ t, (s.run D p t).timer.irq = true → (s.run D p (t + 1)).timer.irq = false → timerPeriod ∣ t + 1 ∨
      Completes s D p (t + 5) ∧ (s.run D p (t + 5)).cpu.req.byteAdr = 0x02800000 ∧ (s.run D p (t + 5)).cpu.req.we = false ∧ (s.run D p (t + 5)).datR = 1) ∧
    ∀ n, Completes s D p n → (s.run D p n).cpu.req.byteAdr = 0x02800000 → (s.run D p n).cpu.req.we = false → (s.run D p n).cpu.req.sel.getLsbD 0 = true →
      ((s.run D p n).datR = 1 ↔ (s.run D p (n - 5)).timer.irq = true) ∧ ((s.run D p n).datR = 1 → (s.run D p (n - 4)).timer.irq = false) := by
  have hx := fun n => C39_csr ({} : CsrTimer) (s.timerStbs D p) n
  have e := fun n => ((C73_devices h D p n).2.1).symm
  simp only [e] at hx
  have hz : ∀ t, (({} : CsrTimer).prescaler.toNat + t + 1) = t + 1 := fun t => by show 0 + t + 1 = _; omega
  simp only [hz] at hx
  refine ⟨fun t => (hx t).2.2, fun t h1 h2 => ?_, fun n hc ha hw hs => ?_⟩
  · rcases (hx t).1 h1 h2 with g | g
    · exact .inl g
    · right
      simp only [timerStbs, timerStb, decide_eq_true_eq] at g
      have hc := (C73_strobes (D := D) (p := p) (t := t) h).1 (by rw [g]; simp)
      obtain ⟨b1, b2, b3, b4⟩ := reads_reg h g
      have hq := (C73_access h hc).2 0 (by omega)
      rw [show t + 5 - 5 + 0 = t by omega] at hq
      rw [hq.2.1] at b2 b3 b4
      have hd := ((C73_read h hc b3).1 b4).2.1 b2
      rw [show t + 5 - 5 = t by omega, h1] at hd
      exact ⟨hc, b2, b3, hd⟩
  · have hd := ((C73_read h hc hw).1 hs).2.1 ha
    obtain ⟨h5, hr⟩ := read_strobe h hc hw hs
    have hiff : (s.run D p n).datR = 1 ↔ (s.run D p (n - 5)).timer.irq = true := by
      rw [hd]
      cases (s.run D p (n - 5)).timer.irq <;> simp
    refine ⟨hiff, fun g => ?_⟩
    have := (hx (n - 5)).2.1 (hiff.1 g) (by simp only [timerStbs, timerStb, hr, ha]; rfl)
    rwa [show n - 5 + 1 = n - 4 by omega] at this

/-! ## C74 -/

/-- **C74** (latency): once the first instruction has been dispatched, from any cycle `t` on the next instruction is dispatched within 74
cycles; and if the interrupt line is then high and interrupts are enabled, the core enters the interrupt handler instead of executing it. -/
theorem C74_latency (h : s.AfterReset)
    (hm : ∀ t, (s.run D p t).cpu.cyc = true → (s.run D p t).cpu.req.csrTarget.isSome = true)
    {t0 : Nat} (h0 : s.cpu.Dispatching (s.inputs D p) t0) (ht : t0 ≤ t) :
    ∃ j < 74, s.cpu.Dispatching (s.inputs D p) (t + j) ∧
      (∀ i < j, ¬ s.cpu.Dispatching (s.inputs D p) (t + i)) ∧
      ((s.inputs D p (t + j)).irq = true → (s.run D p (t + j)).cpu.arch.mie = true →
        (s.run D p (t + j)).cpu.arch.meie = true → s.cpu.IrqTaken (s.inputs D p) (t + j)) := by
  classical
  have hr := registered (D := D) (p := p) h
  have hf := fair (D := D) (p := p) h fun t hc => by rw [dev_some]; exact hm t hc
  have key : ∃ j, j < 74 ∧ s.cpu.Dispatching (s.inputs D p) (t + j) := by
    obtain ⟨d, rfl⟩ := Nat.exists_eq_add_of_le ht
    clear ht
    induction d using Nat.strong_induction_on generalizing t0 with
    | _ d ih =>
      obtain ⟨w, -, -, hd⟩ := at_dispatch h.cpu hr h0
      obtain ⟨m, hm'⟩ := executes_of_fair h.cpu hr hf hd
      have hb := (C72_cycles (D := D) (p := p) h hm').2
      by_cases hlt : d < m
      · exact ⟨m - d, by omega, by rw [show t0 + d + (m - d) = t0 + m by omega]; exact hm'.2.2.1⟩
      · have := ih (d - m) (by omega) hm'.2.2.1
        rwa [show t0 + m + (d - m) = t0 + d by omega] at this
  have hf := Nat.find_spec key
  refine ⟨Nat.find key, hf.1, hf.2, fun i hi hx => ?_, fun g1 g2 g3 => ?_⟩
  · exact Nat.find_min key hi ⟨by have := hf.1; omega, hx⟩
  · rw [run_cpu] at g2 g3
    exact ⟨g1, g2, g3⟩

theorem timer_stays (h : s.AfterReset) {n j : Nat} (hi : (s.run D p n).timer.irq = true)
    (hr : ∀ i < j, ¬ ReadsReg s D p 0x02800000 (n + i)) (hp : ∀ i, 1 ≤ i → i ≤ j → ¬ timerPeriod ∣ n + i) :
    (s.run D p (n + j)).timer.irq = true := by
  induction j with
  | zero => exact hi
  | succ j ih =>
    have i1 := ih (fun i hi => hr i (by omega)) fun i h1 h2 => hp i h1 (by omega)
    have e := fun n => (C73_devices h D p n).2.1
    have := (C39_csr ({} : CsrTimer) (s.timerStbs D p) (n + j)).1
    rw [← e, ← e] at this
    rw [← Nat.add_assoc]
    cases hx : (s.run D p (n + j + 1)).timer.irq with
    | true => rfl
    | false =>
      exfalso
      rcases this i1 hx with g | g
      · refine hp (j + 1) (by omega) (by omega) ?_
        rw [show (({} : CsrTimer).prescaler).toNat = 0 from rfl] at g
        rw [show n + (j + 1) = 0 + (n + j) + 1 by omega]; exact g
      · simp only [timerStbs, timerStb, decide_eq_true_eq] at g
        exact hr j (by omega) (reads_reg h g)

theorem serial_stays (h : s.AfterReset) {n j : Nat} (hi : (s.run D p n).ser.irq = true)
    (hr : ∀ i < j, ¬ ReadsReg s D p 0x03000004 (n + i)) : (s.run D p (n + j)).ser.irq = true := by
  induction j with
  | zero => exact hi
  | succ j ih =>
    have i1 := ih (fun i hi => hr i (by omega))
    have hn := hr j (by omega)
    have hq : (s.run D p (n + j)).serStb.irqStb = false := by
      by_contra hx
      simp only [serStb, Bool.not_eq_false, decide_eq_true_eq] at hx
      exact hn (reads_reg h hx)
    show CsrSerial.irq (CsrSerial.step D (s.run D p (n + j)).ser (s.run D p (n + j)).serStb _) = true
    simp only [CsrSerial.irq, Bool.or_eq_true] at i1 ⊢
    rw [show ∀ (a : CsrSerial) b c, (a.step D b c).rxIrq = (if a.rx.rdy && !a.rxPrev then true
        else if b.irqStb then false else a.rxIrq) from fun _ _ _ => rfl,
      show ∀ (a : CsrSerial) b c, (a.step D b c).txIrq = (if a.tx.ack && !a.txPrev then true
        else if b.irqStb then false else a.txIrq) from fun _ _ _ => rfl, hq]
    simp only [Bool.false_eq_true, if_false]
    rcases i1 with i1 | i1
    · left; rw [i1]; split <;> rfl
    · right; rw [i1]; split <;> rfl

/-- **C74** (timer and serial port): an interrupt of the timer that is pending in cycle `t`, and whose period does not end within 74 cycles, or
an interrupt of the serial port that is pending, is still pending at the next dispatch, which comes within 74 cycles, unless the program
itself reads the interrupt register in between; and the handler is entered there if interrupts are enabled. -/
theorem C74_taken (h : s.AfterReset)
    (hm : ∀ t, (s.run D p t).cpu.cyc = true → (s.run D p t).cpu.req.csrTarget.isSome = true)
    {t0 : Nat} (h0 : s.cpu.Dispatching (s.inputs D p) t0) (ht : t0 ≤ t)
    (hp : ((s.run D p t).timer.irq = true ∧ ∀ j, 1 ≤ j → j < 74 → ¬ timerPeriod ∣ t + j) ∨
      (s.run D p t).ser.irq = true) :
    ∃ j < 74, s.cpu.Dispatching (s.inputs D p) (t + j) ∧
      (∀ i < j, ¬ s.cpu.Dispatching (s.inputs D p) (t + i)) ∧
      ((∀ i < j, ¬ ReadsReg s D p 0x02800000 (t + i) ∧ ¬ ReadsReg s D p 0x03000004 (t + i)) →
        (s.run D p (t + j)).cpu.arch.mie = true → (s.run D p (t + j)).cpu.arch.meie = true →
        s.cpu.IrqTaken (s.inputs D p) (t + j)) := by
  obtain ⟨j, hj, h1, h2, h3⟩ := C74_latency (t := t) h hm h0 ht
  refine ⟨j, hj, h1, h2, fun hr => h3 ?_⟩
  rw [(C73_devices h D p (t + j)).2.2.2, Bool.or_eq_true]
  rcases hp with ⟨g1, g2⟩ | g1
  · exact .inl (timer_stays h g1 (fun i hi => (hr i hi).1) fun i h1 h2' => g2 i h1 (by omega))
  · exact .inr (serial_stays h g1 fun i hi => (hr i hi).2)

/-- In cycle `n` the core has a write of the register at `a` on the bus. -/
def WritesReg (s : AttoCsr k) (D : Nat) (p : Nat → AttoIn) (a n : Nat) : Prop :=
  (s.run D p n).cpu.cyc = true ∧ (s.run D p n).cpu.req.byteAdr = a ∧
    (s.run D p n).cpu.req.we = true ∧ (s.run D p n).cpu.req.sel.getLsbD 0 = true

theorem writes_reg (h : s.AfterReset) {r : CsrReg} {d : BitVec 8} (hw : (s.run D p n).bus.w = some (r, d)) :
    WritesReg s D p r.byteAdr n ∧ d = byteOf (s.run D p n).cpu.req.data 0 := by
  obtain ⟨ht, hc⟩ := (C73_strobes (D := D) (p := p) (t := n) h).2 (by rw [hw]; simp)
  obtain ⟨-, hacc⟩ := C73_access h hc
  obtain ⟨a1, a2, -, -, a5⟩ := hacc 1 (by omega)
  rw [show n + 4 - 5 + 1 = n by omega] at a1 a2 a5
  rw [hw, ← a2] at a5
  by_cases hcond : (s.run D p n).cpu.req.we = true ∧ (s.run D p n).cpu.req.sel.getLsbD 0 = true
  · rw [if_pos ⟨rfl, hcond⟩] at a5
    cases hq : regAt (s.run D p n).cpu.req.byteAdr with
    | none => rw [hq] at a5; cases a5
    | some q =>
      rw [hq] at a5
      cases a5
      exact ⟨⟨a1, regAt_some hq, hcond.1, hcond.2⟩, rfl⟩
  · rw [if_neg fun hx => hcond hx.2] at a5; cases a5

/-- **C74** (quiet after reset): in the first 2^14 cycles after reset the interrupt line is low, as long as the program has not written to the data
register of the serial port and the serial line is idle. -/
theorem C74_quiet (h : s.AfterReset) (hn : n < 2 ^ 14) (hq : ∀ j < n, ¬ WritesReg s D p 0x03000000 j ∧ (p j).rx = true) :
    (s.inputs D p n).irq = false := by
  obtain ⟨-, e1, e2, e3⟩ := C73_devices h D p n
  rw [e3, e1, e2]
  refine C59_csr D _ _ _ n hn fun j hj => ⟨?_, (hq j hj).2⟩
  cases hx : (s.serStbs D p j).wStb with
  | false => rfl
  | true =>
    exfalso
    simp only [serStbs, serStb, written] at hx
    cases hb : (s.run D p j).bus.w with
    | none => rw [hb] at hx; cases hx
    | some rd =>
      obtain ⟨r, d⟩ := rd
      rw [hb] at hx
      simp only at hx
      by_cases hr : r = .txrx
      · subst hr; exact (hq j hj).1 (writes_reg h hb).1
      · rw [if_neg hr] at hx; cases hx

/-- **C74** (mip): an instruction that reads mip in the first 2^14 cycles after reset, before the program has written to the serial port and with
the serial line idle, gets 0.  The firmware takes this as the sign of peripherals on the CSR bus
(`sentinel-rt/examples/attosoc.rs` 80-95; compare C59). -/
theorem C74_mip {w : Word} {op : CsrOp} {rd : Reg} {src : CsrSrc} {adr : BitVec 12} (h : s.AfterReset)
    (hx : CsrRuns s.cpu (s.inputs D p) t w m)
    (hw : decode w = some (.csr op rd src adr)) (hk : csrKind adr = .impl .mip) (hn : t + 2 < 2 ^ 14)
    (hq : ∀ j < t + 2, ¬ WritesReg s D p 0x03000000 j ∧ (p j).rx = true) :
    (s.run D p (t + m)).cpu.arch.reg rd = 0 := by
  have he := C32_mip hx hw hk
  rw [C74_quiet h (by omega) fun j hj => hq j (by omega)] at he
  rw [run_cpu, he]
  by_cases h0 : rd = 0
  · simp [Arch.reg, h0]
  · have h0 : ¬ rd = 0#5 := h0
    simp [Arch.reg, Arch.setReg, h0]

/-! ### The theorems about the SoC are not vacuous -/

/-- The SoC at power-on with the program `p` in RAM. -/
def csrDemo (p : List Word) : AttoCsr 5 := ⟨powerOn, ⟨romOf p, 0, false⟩, {}, {}, {}, {}, CsrSerial.reset⟩

theorem csrDemo_reset (p : List Word) : (csrDemo p).AfterReset := ⟨.inl rfl, rfl, rfl, rfl, rfl, rfl, rfl⟩

/-- Idle pins. -/
def idlePins : Nat → AttoIn := fun _ => {}

/-- A jump to 0xFFFFFFFC, where nothing is: the hypotheses of `C72_hang` hold in cycle 12. -/
example : ((csrDemo [0xFFDFF06F#32]).run 4 idlePins 12).cpu.cyc = true ∧
    ((csrDemo [0xFFDFF06F#32]).run 4 idlePins 12).cpu.req.csrTarget = none := by
  constructor <;> decide +kernel

/-- Send 0x55, wait, read the data register of the serial port, loop. -/
def csrSerialProgram : List Word := [0x030000B7#32, 0x05500113#32, 0x00208023#32, 0x00000013#32, 0x00000013#32, 0x00000013#32, 0x00000013#32,
  0x0000C183#32, 0x0000006F#32]

/-- A keyboard sends 0xA5 from cycle 0 on, 4 cycles for each bit. -/
def csrKeyPins (n : Nat) : AttoIn := { rx := (uartFrame (byteBits 0xA5#8))[n / 4]?.getD true }

/-- The hypotheses of `C73_send` hold of the store, completed in cycle 25. -/
example : Completes (csrDemo csrSerialProgram) 4 csrKeyPins 25 ∧
    ((csrDemo csrSerialProgram).run 4 csrKeyPins 25).cpu.req.we = true ∧
    ((csrDemo csrSerialProgram).run 4 csrKeyPins 25).cpu.req.sel.getLsbD 0 = true ∧
    ((csrDemo csrSerialProgram).run 4 csrKeyPins 25).cpu.req.byteAdr = 0x03000000 ∧
    ((csrDemo csrSerialProgram).run 4 csrKeyPins 21).ser.tx.ack = true := by
  refine ⟨⟨?_, ?_, ?_⟩, ?_, ?_, ?_, ?_⟩ <;> decide +kernel

/-- Those of `C73_receive` hold of the load, completed in cycle 54: it gets 0xA5. -/
example : ((csrDemo csrSerialProgram).run 4 csrKeyPins 54).datR = 0xA5 :=
  (C73_receive (t := 0) (d := 0xA5#8) (by decide) (csrDemo_reset _) rfl rfl rfl (by decide +kernel)
    ⟨by decide +kernel, by decide +kernel, by decide +kernel⟩ (by decide +kernel) (by decide +kernel) (by decide +kernel) (by decide)
    (fun j h1 h2 => by
      have : rxLatency 4 8 = 40 := rfl
      have hr : ∀ j < 49, 40 ≤ j → ((csrDemo csrSerialProgram).run 4 csrKeyPins j).cpu.req.byteAdr ≠ 0x03000000 := by decide +kernel
      exact fun hx => hr j (by omega) (by omega) hx.2.1)).1

end Sentinel.AttoCsr
