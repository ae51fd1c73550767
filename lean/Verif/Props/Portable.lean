import Verif.Proof.Portable
import Verif.Proof.ClockRun
import Verif.Props.Atto
import Verif.Props.AttoCsr
import Verif.Props.Latency
import Verif.Props.PrimesCsr
/-!
# C96: portable programs

A program that keeps to RAM, the LEDs and the GPIO outputs and leaves interrupts alone runs the same on the example SoC with either kind of
peripherals, whatever happens on the pins.
-/

set_option linter.unusedSimpArgs false

namespace Sentinel
open Ucode Spec

variable {k : Nat}

theorem seven_le {s : State} {inp : Nat → Input} (h : AfterReset s) (hr : s.RegisteredAck inp) (h5 : (inp 5).ack = false) (t : Nat)
    (hd : s.Dispatching inp t) : 7 ≤ t := by
  have hs : ∃ u mem rd, s = State.resetRegs u mem rd := by
    rcases h with h | ⟨σ, en, i, -, h⟩ <;> exact ⟨_, _, _, h⟩
  obtain ⟨b1, -⟩ := boot_run hs inp
  obtain ⟨w, -, hR, -⟩ := at_dispatch h hr hd
  have : ∃ r d, Event.bus r d ∈ s.events inp 1 (t - 1) := by
    revert hR
    generalize s.events inp 1 (t - 1) = l
    intro hR
    cases hR with
    | here hp => obtain ⟨-, hl⟩ := Tree.Path.fetch_inv hp; exact ⟨_, _, by rw [hl]; simp; exact ⟨rfl, rfl⟩⟩
    | more hp _ => obtain ⟨-, hl⟩ := Tree.Path.fetch_inv hp; exact ⟨_, _, by rw [hl]; simp; exact .inl ⟨rfl, rfl⟩⟩
  obtain ⟨r, d, hrd⟩ := this
  obtain ⟨n, n1, n2, n3, n4, -⟩ := bus_mem hrd
  have : ¬ n ≤ 4 := fun hn => by rw [b1 n hn] at n3; cases n3
  have : n ≠ 5 := by rintro rfl; rw [h5] at n4; cases n4
  omega

theorem busCount_mute (l : List Event) : busCount l = busCount (l.map mute) := by
  induction l with
  | nil => rfl
  | cons e l ih => cases e <;> simp [busCount, mute, ih]

theorem busTime_mute (l : List Event) : AttoCsr.busTime l = AttoCsr.busTime (l.map mute) := by
  induction l with
  | nil => rfl
  | cons e l ih => cases e <;> simp only [List.map_cons, mute, AttoCsr.busTime, ih]

namespace Atto
variable {D D' : Nat} {s : Atto k} {p p' : Nat → AttoIn}

theorem portable_safe (h : s.AfterReset) (hp : Portable s.plat (s.run D p 5).cpu.arch) : Safe s.plat (s.run D p 5).cpu.arch :=
  fun _ _ _ hb ht => (portable_some (portable_requests standard_wb hp hb (traceOf_wb.2 ht))).1

/-- **C96** (Wishbone peripherals): a portable program is executed on the SoC, for ever, as on the machine of the specification (RAM, LEDs, GPIO
outputs; it has no timer, no serial port, no input pins and no interrupts), whatever happens on the pins and whatever the divisor of the serial port:
at the `n`-th dispatch the registers, the word, the RAM and the outputs are those of the machine after `n` instructions. -/
theorem C96_wb (h : s.AfterReset) (hp : Portable s.plat (s.run D p 5).cpu.arch) : ∃ (T : Nat → Nat) (w : Nat → Word),
    (∀ t, s.cpu.Dispatching (s.inputs D p) t ↔ ∃ n, t = T n) ∧
    ∀ n, T n < T (n + 1) ∧ s.cpu.Executes (s.inputs D p) (T n) (w n) (T (n + 1) - T n) ∧
      portableRun s.plat (s.run D p 5).cpu.arch n = some (((s.run D p (T n)).cpu.arch, w n), (s.run D p (T n)).plat) := by
  have hs := C56_safe h (portable_safe h hp)
  have e5 : (s.run D p 5).cpu.arch = s.cpu.boot (s.inputs D p 0) := by rw [run_cpu, boot5 h.cpu]
  rw [e5] at hp ⊢
  obtain ⟨T, w, h1, h2⟩ := portable_core standard_wb h.cpu (registered h) hs.1.fair hp (fun n => traceOf_wb.2 (inv h n).1)
  refine ⟨T, w, h1, fun n => ⟨(h2 n).1, (h2 n).2.1, ?_⟩⟩
  rw [(h2 n).2.2, dispatch_plat h ((h1 _).2 ⟨n, rfl⟩), afterOf_wb, run_cpu]

theorem five (h : s.AfterReset) : (s.inputs D p 5).ack = false := by
  have hs : ∃ u mem rd, s.cpu = State.resetRegs u mem rd := by
    rcases h.cpu with h | ⟨σ, en, i, -, h⟩ <;> exact ⟨_, _, _, h⟩
  obtain ⟨b1, -⟩ := boot_run hs (s.inputs D p)
  cases ha : (s.inputs D p 5).ack
  · rfl
  · have := (ack_of_step D (s.run D p 4) (p 4) ha).1
    rw [run_cpu, b1 4 (by omega)] at this; cases this

theorem dispatch_seven (h : s.AfterReset) : s.cpu.Dispatching (s.inputs D p) 7 := by
  have hs : ∃ u mem rd, s.cpu = State.resetRegs u mem rd := by
    rcases h.cpu with h | ⟨σ, en, i, -, h⟩ <;> exact ⟨_, _, _, h⟩
  obtain ⟨b1, b2, b3, b4, -⟩ := boot_run hs (s.inputs D p)
  have c5 : (s.run D p 5).cpu.cyc = true := by rw [run_cpu]; simp [State.cyc, b2, b3, Ucode.u_00]
  have a5 : (s.run D p 5).cpu.adr = 0 := by rw [run_cpu]; simp [State.adr, wbAdr, b2, b4, Ucode.u_00]
  have d5 : (s.run D p 5).dev.isSome = true := by rw [dev, a5]; decide
  have k5 : (s.run D p 5).ack = false := five (D := D) (p := p) h
  have k6 : (s.inputs D p 6).ack = true := by
    show ((s.run D p 5).step D (p 5)).ack = true
    rw [ack_step D _ _ (stable (D := D) (p := p) h c5 k5).2.2.1, c5, k5, d5]; rfl
  exact dispatch_after_ack h.cpu (n := 1) (fun j hj => by
    have hj0 : j = 0 := by omega
    rw [hj0]; exact five h) k6

/-- **C96** (the pins do not matter): in two different environments, with different divisors, a portable program is executed cycle for cycle alike:
instructions are dispatched in the same cycles, with the same registers, RAM and outputs. -/
theorem C96_wb_pins (h : s.AfterReset) (hp : Portable s.plat (s.run D p 5).cpu.arch) (D' : Nat) (p' : Nat → AttoIn) (t : Nat) :
    (s.cpu.Dispatching (s.inputs D p) t ↔ s.cpu.Dispatching (s.inputs D' p') t) ∧
    (s.cpu.Dispatching (s.inputs D p) t →
      (s.run D p t).cpu.arch = (s.run D' p' t).cpu.arch ∧ (s.run D p t).plat = (s.run D' p' t).plat) := by
  have e5 : ∀ D p, (s.run D p 5).cpu.arch = s.cpu.boot (s.inputs D p 0) := fun D p => by rw [run_cpu, boot5 h.cpu]
  have e0 : s.inputs D p 0 = s.inputs D' p' 0 := rfl
  have hp' : Portable s.plat (s.run D' p' 5).cpu.arch := by rw [e5, ← e0, ← e5]; exact hp
  have hs := C56_safe h (portable_safe h hp)
  have hs' := C56_safe h (portable_safe h hp')
  rw [e5] at hp
  have := portable_times standard_wb h.cpu (registered (D := D) (p := p) h) (registered (D := D') (p := p') h) hs.1.fair hs'.1.fair e0 hp
    (fun n => traceOf_wb.2 (inv h n).1) (fun n => traceOf_wb.2 (inv h n).1) (c := fun l => 2 * busCount l)
    (fun l => by simp only [← busCount_mute]) (fun he => C28_two h.cpu hs.1 he) (fun he => C28_two h.cpu hs'.1 he)
    (seven_le h.cpu (registered h) (five h)) (seven_le h.cpu (registered h) (five h)) (dispatch_seven h) (dispatch_seven h) t
  refine ⟨this.1, fun hd => ?_⟩
  obtain ⟨g1, g2⟩ := this.2 hd
  rw [run_cpu, run_cpu, dispatch_plat h hd, dispatch_plat h (this.1.1 hd), ← afterOf_wb, ← afterOf_wb]
  exact ⟨g1, g2⟩

end Atto

namespace AttoCsr
variable {D D' : Nat} {s : AttoCsr k} {p p' : Nat → AttoIn}

theorem portable_safe (h : s.AfterReset) (hp : Portable s.plat (s.run D p 5).cpu.arch) : Safe s.plat (s.run D p 5).cpu.arch :=
  fun _ _ _ hb ht => (portable_some (portable_requests standard_csr hp hb (traceOf_csr.2 ht))).2

theorem portable_fair (h : s.AfterReset) (hp : Portable s.plat (s.run D p 5).cpu.arch) : s.cpu.FairAck (s.inputs D p) :=
  fair h fun t hc => by rw [dev_some]; exact (C72_safe h (portable_safe h hp)).1 t hc

/-- **C96** (CSR bus): as `Atto.C96_wb`. -/
theorem C96_csr (h : s.AfterReset) (hp : Portable s.plat (s.run D p 5).cpu.arch) : ∃ (T : Nat → Nat) (w : Nat → Word),
    (∀ t, s.cpu.Dispatching (s.inputs D p) t ↔ ∃ n, t = T n) ∧
    ∀ n, T n < T (n + 1) ∧ s.cpu.Executes (s.inputs D p) (T n) (w n) (T (n + 1) - T n) ∧
      portableRun s.plat (s.run D p 5).cpu.arch n = some (((s.run D p (T n)).cpu.arch, w n), (s.run D p (T n)).plat) := by
  have hf := portable_fair h hp
  have e5 : (s.run D p 5).cpu.arch = s.cpu.boot (s.inputs D p 0) := by rw [run_cpu, boot5 h.cpu]
  rw [e5] at hp ⊢
  obtain ⟨T, w, h1, h2⟩ := portable_core standard_csr h.cpu (registered h) hf hp (fun n => traceOf_csr.2 (inv h n).1)
  refine ⟨T, w, h1, fun n => ⟨(h2 n).1, (h2 n).2.1, ?_⟩⟩
  rw [(h2 n).2.2, dispatch_plat h ((h1 _).2 ⟨n, rfl⟩), afterOf_csr, run_cpu]

theorem five (h : s.AfterReset) : (s.inputs D p 5).ack = false := by
  have hs : ∃ u mem rd, s.cpu = State.resetRegs u mem rd := by
    rcases h.cpu with h | ⟨σ, en, i, -, h⟩ <;> exact ⟨_, _, _, h⟩
  obtain ⟨b1, -⟩ := boot_run hs (s.inputs D p)
  cases ha : (s.inputs D p 5).ack
  · rfl
  · obtain ⟨-, u, hu, hc, -⟩ := ack_cyc (D := D) (p := p) h (t := 5) ha
    rw [show u = 4 by omega, run_cpu, b1 4 (by omega)] at hc; cases hc

/-- **C96** (the pins do not matter, CSR bus): as `Atto.C96_wb_pins`. -/
theorem C96_csr_pins (h : s.AfterReset) (hp : Portable s.plat (s.run D p 5).cpu.arch) (D' : Nat) (p' : Nat → AttoIn) (t : Nat) :
    (s.cpu.Dispatching (s.inputs D p) t ↔ s.cpu.Dispatching (s.inputs D' p') t) ∧
    (s.cpu.Dispatching (s.inputs D p) t →
      (s.run D p t).cpu.arch = (s.run D' p' t).cpu.arch ∧ (s.run D p t).plat = (s.run D' p' t).plat) := by
  have e5 : ∀ D p, (s.run D p 5).cpu.arch = s.cpu.boot (s.inputs D p 0) := fun D p => by rw [run_cpu, boot5 h.cpu]
  have e0 : s.inputs D p 0 = s.inputs D' p' 0 := rfl
  have hp' : Portable s.plat (s.run D' p' 5).cpu.arch := by rw [e5, ← e0, ← e5]; exact hp
  have hf := portable_fair h hp
  have hf' := portable_fair h hp'
  rw [e5] at hp
  have := portable_times standard_csr h.cpu (registered (D := D) (p := p) h) (registered (D := D') (p := p') h) hf hf' e0 hp
    (fun n => traceOf_csr.2 (inv h n).1) (fun n => traceOf_csr.2 (inv h n).1) (c := busTime) busTime_mute
    (fun he => by have := (C72_cycles h he).1; rw [run_cpu] at this; exact this)
    (fun he => by have := (C72_cycles h he).1; rw [run_cpu] at this; exact this)
    (seven_le h.cpu (registered h) (five h)) (seven_le h.cpu (registered h) (five h)) (dispatch_seven h) (dispatch_seven h) t
  refine ⟨this.1, fun hd => ?_⟩
  obtain ⟨g1, g2⟩ := this.2 hd
  rw [run_cpu, run_cpu, dispatch_plat h hd, dispatch_plat h (this.1.1 hd), ← afterOf_csr, ← afterOf_csr]
  exact ⟨g1, g2⟩

end AttoCsr

/-- **C96** (same program, either kind of peripherals): two SoCs, one of each kind, with the same contents of the RAM and the same architectural state at the
first fetch: if the program is portable, then whatever happens on the pins of either, at the `n`-th dispatch they have the same architectural state, execute the
same word, and have the same RAM, LEDs and GPIO outputs (the cycles differ: an access to a peripheral on the CSR bus takes longer). -/
theorem C96_same {D D' : Nat} {s : Atto k} {s' : AttoCsr k} {p p' : Nat → AttoIn} (h : s.AfterReset) (h' : s'.AfterReset)
    (hm : s.ram.mem = s'.ram.mem) (ha : (s.run D p 5).cpu.arch = (s'.run D' p' 5).cpu.arch) (hp : Portable s.plat (s.run D p 5).cpu.arch) :
    ∃ (T T' : Nat → Nat) (w : Nat → Word), (∀ t, s.cpu.Dispatching (s.inputs D p) t ↔ ∃ n, t = T n) ∧
      (∀ t, s'.cpu.Dispatching (s'.inputs D' p') t ↔ ∃ n, t = T' n) ∧
      ∀ n, T n < T (n + 1) ∧ T' n < T' (n + 1) ∧ s.cpu.Executes (s.inputs D p) (T n) (w n) (T (n + 1) - T n) ∧
        s'.cpu.Executes (s'.inputs D' p') (T' n) (w n) (T' (n + 1) - T' n) ∧
        (s.run D p (T n)).cpu.arch = (s'.run D' p' (T' n)).cpu.arch ∧ (s.run D p (T n)).plat = (s'.run D' p' (T' n)).plat := by
  have e : s.plat = s'.plat := by simp only [Atto.plat, AttoCsr.plat, hm, h.leds, h'.leds]
  have hp' : Portable s'.plat (s'.run D' p' 5).cpu.arch := by rw [← e, ← ha]; exact hp
  obtain ⟨T, w, h1, h2⟩ := Atto.C96_wb h hp
  obtain ⟨T', w', h1', h2'⟩ := AttoCsr.C96_csr h' hp'
  refine ⟨T, T', w, h1, h1', fun n => ?_⟩
  have := (h2 n).2.2
  rw [e, ha, (h2' n).2.2] at this
  have := Option.some.inj this
  simp only [Prod.mk.injEq] at this
  obtain ⟨⟨g1, g2⟩, g3⟩ := this
  exact ⟨(h2 n).1, (h2' n).1, (h2 n).2.1, g2 ▸ (h2' n).2.1, g1.symm, g3.symm⟩

/-! ## The prime number firmware is portable -/

theorem common_portable {r : Req} (h : r.Common) : r.Portable := by
  rcases h with ⟨-, -, h⟩ | ⟨h1, h2⟩
  · exact .inl (by omega)
  · exact .inr ⟨h1, by rw [h2]; simp⟩

theorem common_answers {r : Req} (h : r.Common) (P : Plat k) : P.Answers r (if r.we then 0 else P.ram (r.adr.setWidth k)) := by
  rcases h with ⟨h1, h2, -⟩ | ⟨h1, h2⟩
  · exact ⟨.ram, h1, fun _ => by rw [h2]; rfl⟩
  · exact ⟨.leds, by rw [Req.target, h2]; rfl, fun h => by rw [h1] at h; cases h⟩

theorem wp_onPlat {α : Type} {G : List (BitVec 8) → Prop} {Q : α → Plat k → List (BitVec 8) → Prop} {T : Tree α} {P : Plat k}
    {h : List (BitVec 8)} (hT : Wp G Q T P h) : ∃ q h', T.onPlat P = some q ∧ Q q.1 q.2 h' := by
  induction T generalizing P h with
  | ret x => exact ⟨_, _, rfl, hT⟩
  | poll f ih => exact ih _ (hT false)
  | bus r f ih =>
    rw [Tree.onPlat, if_pos (common_portable hT.1)]
    exact ih _ (hT.2.2 _ (common_answers hT.1 P))

theorem progInv_portable {G : List (BitVec 8) → Prop} {I : Arch → Plat k → List (BitVec 8) → Prop} {R : Arch → Arch → Prop}
    (hI : ProgInv G I R) (hq : ∀ {a P h}, I a P h → a.intEnabled = false ∧ usesMip (P.ram ((wordAdr a.pc).setWidth k)) = false)
    {a : Arch} {P : Plat k} (h0 : I a P []) : Portable P a := by
  have key : ∀ n, ∃ q h, portableRun P a n = some q ∧ Fetched I q.1 q.2 h := by
    intro n
    induction n with
    | zero => exact wp_onPlat (hI.fetch h0)
    | succ n ih =>
      obtain ⟨q, h, e, hf⟩ := ih
      obtain ⟨h1, h2⟩ := hq hf.1
      rw [portableRun, e]
      show ∃ q' h', portableStep q = some q' ∧ _
      rw [portableStep, hf.2, h1, h2]
      exact wp_onPlat (hI.next _ _ _ hf)
  intro n
  obtain ⟨q, h, e, -⟩ := key n
  rw [e]; rfl

/-- **C96** (primes): the prime number firmware the example SoC comes with (`examples/attosoc.py` 949-984) is portable. -/
theorem C96_primes {M : Mem k} (hM : HoldsProgram M primesProgram) {a : Arch} (hpc : a.pc = 0) (hmie : a.mie = false) {P : Plat k} (hP : P.ram = M) :
    Portable P a := by
  have hok := Primes.primes_ok hM
  refine progInv_portable hok (fun {a P h} hi => ?_) (a := a) (P := P) ⟨hP, hmie, 0, by decide, by rw [hpc]; rfl, rfl⟩
  obtain ⟨e, hmie, i, hi, hpc, -⟩ := hi
  refine ⟨by simp [Arch.intEnabled, hmie], ?_⟩
  have e1 : (wordAdr a.pc).setWidth k = BitVec.ofNat k i := by
    rw [hpc]
    apply BitVec.eq_of_toNat_eq
    simp only [wordAdr, BitVec.toNat_setWidth, BitVec.extractLsb'_toNat, BitVec.toNat_ofNat, Nat.shiftRight_eq_div_pow]
    rw [Nat.mod_eq_of_lt (by omega : 4 * i < 2 ^ 32), show 4 * i / 2 ^ 2 = i by omega, Nat.mod_eq_of_lt (by omega : i < 2 ^ 30)]
  have key : ∀ i : _root_.Fin 28, usesMip (primesProgram[i.val]'i.isLt) = false := by decide +kernel
  rw [e, e1, hM i hi]
  exact key ⟨i, hi⟩

/-- `C96_same` applies to the prime number firmware on the two SoCs at power-on, with any pins. -/
example (D D' : Nat) (p p' : Nat → AttoIn) : ∀ s s', Atto.attoDemo primesProgram = s → AttoCsr.csrDemo primesProgram = s' →
    s.AfterReset ∧ s'.AfterReset ∧ s.ram.mem = s'.ram.mem ∧ (s.run D p 5).cpu.arch = (s'.run D' p' 5).cpu.arch ∧
      Portable s.plat (s.run D p 5).cpu.arch := by
  rintro s s' rfl rfl
  have h := Atto.attoDemo_reset primesProgram
  have h' := AttoCsr.csrDemo_reset primesProgram
  have hM : HoldsProgram (Atto.attoDemo primesProgram).ram.mem primesProgram := fun i hi => by
    have : ∀ i : _root_.Fin 28, (Atto.attoDemo primesProgram).ram.mem (BitVec.ofNat 5 i) = primesProgram[i.val]'i.isLt := by decide +kernel
    exact this ⟨i, hi⟩
  refine ⟨h, h', rfl, ?_, ?_⟩
  · rw [Atto.run_cpu, AttoCsr.run_cpu, boot5 h.cpu, boot5 h'.cpu]; rfl
  · obtain ⟨h1, h2, -⟩ := C01_trace h.cpu (Atto.registered (D := D) (p := p) h) 0
    rw [← Atto.run_cpu] at h1 h2
    exact C96_primes hM h1 h2 rfl

/-- A program with a byte store to RAM, one to the GPIO outputs and a load from RAM (`lui x1, 0x2000; addi x2, x0, 5; sb x2, 64(x0); lbu x3, 64(x0);
sb x3, 4(x1)`): the machine runs it, and the GPIO outputs are 5 after its five instructions. -/
example : (portableRun (Atto.attoDemo [0x020000B7#32, 0x00500113#32, 0x04200023#32, 0x04004183#32, 0x00308223#32]).plat ⟨0, fun _ => 0, false, false, false, 0, 0, 0, 0, false⟩ 5).map
    (fun q => q.2.gpioO) = some 5#8 := by decide +kernel

/-- A program that reads the GPIO input pins (`lui x1, 0x2000; lbu x2, 4(x1)`) is not portable. -/
example : portableRun (Atto.attoDemo [0x020000B7#32, 0x0040C103#32]).plat ⟨0, fun _ => 0, false, false, false, 0, 0, 0, 0, false⟩ 2 = none := by decide +kernel

end Sentinel
