import Verif.Proof.Button
import Verif.Props.Primes
import Verif.Props.PrimesCsr
import Verif.Props.RamSize
/-!
# C94: the reset button
-/

set_option linter.unusedSimpArgs false

namespace Sentinel

open Ucode Spec

theorem Spec.Req.Common.not_ram_write {r : Req} (h : r.Common) (hw : r.we = true) : r.target ≠ some .ram := by
  rcases h with ⟨-, h2, -⟩ | ⟨-, h3⟩
  · rw [hw] at h2; cases h2
  · rw [Req.target, h3]; decide

namespace Atto

variable {k D : Nat} {s : Atto k} {p : Nat → AttoIn}

/-- **C94** (reset): in whichever cycle of whichever run the button is pressed, the SoC is then as after any reset, even if the core waits for an
address where nothing is: LEDs and GPIO outputs are off, nothing is sent, and no interrupt is pending. -/
theorem C94_reset (h : s.AfterReset) (t : Nat) (q : AttoIn) : ∀ s', (s.run D p t).resetEdge D q = s' → s'.AfterReset ∧
    s'.leds.leds = 0 ∧ s'.leds.gpioO = 0 ∧ s'.leds.gpioOe = 0 ∧ s'.ser.tx.out = true ∧ s'.irq = false := by
  rintro s' rfl
  refine ⟨⟨.inr ⟨_, true, _, ?_, rfl⟩, rfl, rfl, rfl, rfl⟩, rfl, rfl, rfl, rfl,
    (by show (({} : WbTimer).irq || WbSerial.reset.irq) = false; decide)⟩
  rw [run_cpu]; exact reach_run_of h.cpu _ t

/-- **C94** (registers and RAM): if the program asks for nothing that does not exist, and the button is pressed in some cycle, then registers and RAM
are as before that run (nothing had been dispatched), or as at a dispatch, or as at the next dispatch; or the instruction was a shift, and all but
its destination register is as at its dispatch. -/
theorem C94_memory (h : s.AfterReset) (hs : Safe s.plat (s.run D p 5).cpu.arch) (t : Nat) :
    ∀ s', (s.run D p t).resetEdge D (p t) = s' →
      ((∀ u ≤ t + 1, ¬ s.cpu.Dispatching (s.inputs D p) u) ∧ (∀ q, s'.cpu.arch.reg q = s.cpu.arch.reg q) ∧ s'.ram.mem = s.ram.mem) ∨
      ∃ v w m, v ≤ t + 1 ∧ t + 1 ≤ v + m ∧ s.cpu.Executes (s.inputs D p) v w m ∧
        (((∀ q, s'.cpu.arch.reg q = (s.run D p v).cpu.arch.reg q) ∧ s'.ram.mem = (s.run D p v).ram.mem) ∨
        ((∀ q, s'.cpu.arch.reg q = (s.run D p (v + m)).cpu.arch.reg q) ∧ s'.ram.mem = (s.run D p (v + m)).ram.mem) ∨
        ∃ ins rd, decode w = some ins ∧ isShift ins = true ∧ destReg ins = some rd ∧
          (∀ q, q ≠ rd → s'.cpu.arch.reg q = (s.run D p v).cpu.arch.reg q) ∧ s'.ram.mem = (s.run D p v).ram.mem) := by
  rintro s' rfl
  have e1 : ∀ q, ((s.run D p t).resetEdge D (p t)).cpu.arch.reg q = (s.run D p (t + 1)).cpu.arch.reg q := fun _ => rfl
  have e2 : ((s.run D p t).resetEdge D (p t)).ram.mem = (s.run D p (t + 1)).ram.mem := rfl
  simp only [e1, e2]
  rcases last_dispatch_of h.cpu (registered (D := D) (p := p) h) (C56_safe h hs).1.fair (t + 1) with hb | ⟨v, w, m, h1, h2, he⟩
  · exact .inl ⟨hb, window_boot h (t + 1) hb⟩
  · right
    refine ⟨v, w, m, h1, h2, he, ?_⟩
    obtain ⟨j, hj⟩ := Nat.exists_eq_add_of_le h1
    have := window h he (j := j) (by omega)
    rw [← hj] at this
    exact this

section
variable {G : List (BitVec 8) → Prop} {I : Arch → Plat k → List (BitVec 8) → Prop} {R : Arch → Arch → Prop}

theorem prog_common (hI : ProgInv G I R) (h : s.AfterReset) (h0 : I (s.run D p 5).cpu.arch s.plat []) (t : Nat)
    (hc : (s.run D p t).cpu.cyc = true) : (s.run D p t).cpu.req.Common := by
  obtain ⟨-, -, hm⟩ := C56_safe h (prog_safe (D := D) (p := p) hI h h0).1
  obtain ⟨l, d, hb, hl⟩ := request_behaves h hm t hc
  exact (hI.behaves h0 hb).2 l _ d rfl hl

theorem prog_ram (hI : ProgInv G I R) (h : s.AfterReset) (h0 : I (s.run D p 5).cpu.arch s.plat []) (t : Nat) :
    (s.run D p t).ram.mem = s.ram.mem := by
  induction t with
  | zero => rfl
  | succ t ih =>
    rw [← ih]
    show ((s.run D p t).step D (p t)).ram.mem = _
    have hc := prog_common hI h h0 t
    simp only [step, WbMem.step]
    split
    · rename_i hw
      simp only [Bool.and_eq_true] at hw
      obtain ⟨hd, ht⟩ := (devCyc_iff _ _).1 hw.1.2
      exact absurd ht ((hc hd).not_ram_write hw.2)
    · rfl

end

/-- What may come of `s` when it runs, for any number of cycles with anything on the pins, is reset, and so on. -/
inductive Resets (D : Nat) (s : Atto k) : Atto k → Prop
  | refl : Resets D s s
  | press {s' : Atto k} (p : Nat → AttoIn) (t : Nat) : Resets D s s' → Resets D s ((s'.run D p t).resetEdge D (p t))

/-- **C94** (prime numbers): with the prime number firmware in RAM, the button may be pressed any number of times, in any cycles, with anything on
the pins: the firmware is still there, the SoC is as after reset, and the LEDs show the primes from the first on. -/
theorem C94_primes (h : s.AfterReset) (hM : HoldsProgram s.ram.mem primesProgram) {s' : Atto k} (hr : Resets D s s') :
    s'.AfterReset ∧ s'.ram.mem = s.ram.mem ∧
    ∃ c : Nat → Nat, c 0 = 0 ∧ (∀ t, c (t + 1) = c t ∨ c (t + 1) = c t + 1) ∧ (∀ n, ∃ t, n ≤ c t) ∧
      ∀ t, (s'.run D p t).leds.leds = if c t = 0 then 0 else BitVec.ofNat 8 (shown (c t - 1)) := by
  have key : s'.AfterReset ∧ s'.ram.mem = s.ram.mem := by
    induction hr with
    | refl => exact ⟨h, rfl⟩
    | @press s' p t _ ih =>
      obtain ⟨i1, i2⟩ := ih
      refine ⟨(C94_reset i1 t (p t) _ rfl).1, ?_⟩
      show (s'.run D p (t + 1)).ram.mem = _
      rw [← i2]
      have hM' : HoldsProgram s'.ram.mem primesProgram := by rw [i2]; exact hM
      have hI := Primes.primes_ok hM'
      exact prog_ram hI i1 (primes_start i1) (t + 1)
  exact ⟨key.1, key.2, C61_leds key.1 (by rw [key.2]; exact hM)⟩

/-- **C61** (RAM): the prime number firmware only reads its 28 words of RAM and only writes the LED register: RAM never changes. -/
theorem C61_requests (h : s.AfterReset) (hM : HoldsProgram s.ram.mem primesProgram) (t : Nat) :
    ((s.run D p t).cpu.cyc = true →
      ((s.run D p t).cpu.req.we = false ∧ (s.run D p t).cpu.req.byteAdr < 112) ∨
      ((s.run D p t).cpu.req.we = true ∧ (s.run D p t).cpu.req.byteAdr = 0x02000000)) ∧
    (s.run D p t).ram.mem = s.ram.mem := by
  have hI := Primes.primes_ok hM
  refine ⟨fun hc => ?_, prog_ram hI h (primes_start h) t⟩
  rcases prog_common hI h (primes_start h) t hc with ⟨-, h2, h3⟩ | h1
  · exact .inl ⟨h2, h3⟩
  · exact .inr h1

end Atto

namespace AttoN

variable {D : Nat} {s : AttoN} {p : Nat → AttoIn} {junk : Nat → Word}

/-- **C93** (prime numbers): the prime number firmware fits in any RAM of at least 28 words, so it shows the primes there. -/
theorem C93_primes (h : s.AfterReset) (h28 : ∀ i (hi : i < primesProgram.length), s.ram.rows[i]? = some primesProgram[i]) :
    Fits s.padded.plat (s.padded.run D p 5).cpu.arch (4 * s.depth) ∧
    ∃ c : Nat → Nat, c 0 = 0 ∧ (∀ t, c (t + 1) = c t ∨ c (t + 1) = c t + 1) ∧ (∀ n, ∃ t, n ≤ c t) ∧
      ∀ t, (s.run D p junk t).leds.leds = if c t = 0 then 0 else BitVec.ofNat 8 (shown (c t - 1)) := by
  have hlen : 28 ≤ s.depth := by
    have := h28 27 (by decide)
    rw [List.getElem?_eq_some_iff] at this
    exact this.1
  have hM : HoldsProgram s.padded.ram.mem primesProgram := by
    intro i hi
    show s.ram.rows.getD (BitVec.ofNat (ceilLog2 s.depth) i).toNat 0 = _
    have hi' : i < 28 := hi
    have e : (BitVec.ofNat (ceilLog2 s.depth) i).toNat = i := by
      rw [BitVec.toNat_ofNat, Nat.mod_eq_of_lt (Nat.lt_of_lt_of_le (by omega : i < s.depth) (le_two_pow_ceilLog2 _))]
    rw [e, List.getD_eq_getElem?_getD, h28 i hi]; rfl
  have hI := Primes.primes_ok hM
  have hst := Atto.primes_start (D := D) (p := p) (reset_padded h)
  have hf : Fits s.padded.plat (s.padded.run D p 5).cpu.arch (4 * s.depth) := by
    intro l r d hb hl
    have hc := (hI.behaves hst hb).2 l r d rfl hl
    refine ⟨hc.isSome, fun ht => ?_⟩
    rcases hc with ⟨-, -, h3⟩ | ⟨-, h3⟩
    · have : r.byteAdr = 4 * r.adr.toNat := rfl
      omega
    · rw [Req.target, h3] at ht; cases ht
  refine ⟨hf, ?_⟩
  obtain ⟨c, c1, c2, c3, c4⟩ := Atto.C61_leds (D := D) (p := p) (reset_padded h) hM
  refine ⟨c, c1, c2, c3, fun t => ?_⟩
  rw [(C93_same (junk := junk) h hf t).2.1]
  exact c4 t

end AttoN

namespace AttoCsr

variable {k D : Nat} {s : AttoCsr k} {p : Nat → AttoIn}

/-- **C94** (reset, CSR bus): as `Atto.C94_reset`; also the bridge forgets the access it was in. -/
theorem C94_reset (h : s.AfterReset) (t : Nat) (q : AttoIn) : ∀ s', (s.run D p t).resetEdge D q = s' → s'.AfterReset ∧
    s'.leds.leds = 0 ∧ s'.leds.gpioO = 0 ∧ s'.leds.gpioOe = 0 ∧ s'.ser.tx.out = true ∧ s'.irq = false := by
  rintro s' rfl
  refine ⟨⟨.inr ⟨_, true, _, ?_, rfl⟩, rfl, rfl, rfl, rfl, rfl, rfl⟩, rfl, rfl, rfl, rfl,
    (by show (({} : CsrTimer).irq || CsrSerial.reset.irq) = false; decide)⟩
  rw [run_cpu]; exact reach_run_of h.cpu _ t

/-- **C94** (registers and RAM, CSR bus): as `Atto.C94_memory`. -/
theorem C94_memory (h : s.AfterReset) (hs : Safe s.plat (s.run D p 5).cpu.arch) (t : Nat) :
    ∀ s', (s.run D p t).resetEdge D (p t) = s' →
      ((∀ u ≤ t + 1, ¬ s.cpu.Dispatching (s.inputs D p) u) ∧ (∀ q, s'.cpu.arch.reg q = s.cpu.arch.reg q) ∧ s'.ram.mem = s.ram.mem) ∨
      ∃ v w m, v ≤ t + 1 ∧ t + 1 ≤ v + m ∧ s.cpu.Executes (s.inputs D p) v w m ∧
        (((∀ q, s'.cpu.arch.reg q = (s.run D p v).cpu.arch.reg q) ∧ s'.ram.mem = (s.run D p v).ram.mem) ∨
        ((∀ q, s'.cpu.arch.reg q = (s.run D p (v + m)).cpu.arch.reg q) ∧ s'.ram.mem = (s.run D p (v + m)).ram.mem) ∨
        ∃ ins rd, decode w = some ins ∧ isShift ins = true ∧ destReg ins = some rd ∧
          (∀ q, q ≠ rd → s'.cpu.arch.reg q = (s.run D p v).cpu.arch.reg q) ∧ s'.ram.mem = (s.run D p v).ram.mem) := by
  rintro s' rfl
  have e1 : ∀ q, ((s.run D p t).resetEdge D (p t)).cpu.arch.reg q = (s.run D p (t + 1)).cpu.arch.reg q := fun _ => rfl
  have e2 : ((s.run D p t).resetEdge D (p t)).ram.mem = (s.run D p (t + 1)).ram.mem := rfl
  simp only [e1, e2]
  have hm := (C72_safe h hs).1
  have hf := fair (D := D) (p := p) h fun t hc => by rw [dev_some]; exact hm t hc
  rcases last_dispatch_of h.cpu (registered (D := D) (p := p) h) hf (t + 1) with hb | ⟨v, w, m, h1, h2, he⟩
  · exact .inl ⟨hb, window_boot h (t + 1) hb⟩
  · right
    refine ⟨v, w, m, h1, h2, he, ?_⟩
    obtain ⟨j, hj⟩ := Nat.exists_eq_add_of_le h1
    have := window h he (j := j) (by omega)
    rw [← hj] at this
    exact this

/-- If all requests are for addresses where something is, then every request of the core is one of a behaviour on the platform. -/
theorem request_behaves (h : s.AfterReset)
    (hm : ∀ t, (s.run D p t).cpu.cyc = true → (s.run D p t).cpu.req.csrTarget.isSome = true)
    (t : Nat) (hc : (s.run D p t).cpu.cyc = true) :
    ∃ l d, Behaves (cycle .asBuilt) (fetch (s.run D p 5).cpu.arch) (l ++ [.bus (s.run D p t).cpu.req d]) ∧
      PlatTraceCsr s.plat l := by
  have key : ∀ t, (s.run D p t).cpu.cyc = true → (s.run D p t).ack = true →
      ∃ l d, Behaves (cycle .asBuilt) (fetch (s.run D p 5).cpu.arch) (l ++ [.bus (s.run D p t).cpu.req d]) ∧
        PlatTraceCsr s.plat l := by
    intro t hc ha
    cases t with
    | zero => rw [show (s.run D p 0).cpu = s.cpu from rfl, cyc_zero h] at hc; cases hc
    | succ t =>
      obtain ⟨-, hb, -, -⟩ := C72_trace h D p (t + 1)
      rw [State.events_snoc, Nat.add_comm 1 t, ← run_cpu] at hb
      have hobs : ∃ l, (s.run D p (t + 1)).cpu.obs (s.inputs D p (t + 1)) =
          [.bus (s.run D p (t + 1)).cpu.req (s.inputs D p (t + 1)).datR] ++ l := by
        unfold State.obs
        rw [hc, show (s.inputs D p (t + 1)).ack = true from ha]
        exact ⟨_, rfl⟩
      obtain ⟨l, hl⟩ := hobs
      rw [hl, ← List.append_assoc] at hb
      exact ⟨_, _, hb.prefix, (inv h t).1⟩
  have hf := fair (D := D) (p := p) h fun t hc => by rw [dev_some]; exact hm t hc
  -- the request stays the same until it is answered
  have stay : ∀ n, (∃ j ≤ n, (s.run D p (t + j)).ack = true ∧ (s.run D p (t + j)).cpu.cyc = true ∧
      (s.run D p (t + j)).cpu.req = (s.run D p t).cpu.req) ∨
      ((∀ j ≤ n, (s.run D p (t + j)).ack = false ∧ (s.run D p (t + j)).cpu.cyc = true) ∧
        (s.run D p (t + n)).cpu.req = (s.run D p t).cpu.req) := by
    intro n
    induction n with
    | zero =>
      cases ha : (s.run D p t).ack
      · right
        refine ⟨fun j hj => ?_, rfl⟩
        obtain rfl : j = 0 := by omega
        exact ⟨ha, hc⟩
      · exact .inl ⟨0, by omega, ha, hc, rfl⟩
    | succ n ih =>
      rcases ih with ⟨j, hj, g⟩ | ⟨g1, g2⟩
      · exact .inl ⟨j, by omega, g⟩
      · have S := stable (D := D) (p := p) h (g1 n (by omega)).2 (g1 n (by omega)).1
        have e : t + n + 1 = t + (n + 1) := by omega
        rw [e] at S
        have hc' : (s.run D p (t + (n + 1))).cpu.cyc = true := by rw [S.cyc]; exact (g1 n (by omega)).2
        cases ha : (s.run D p (t + (n + 1))).ack
        · right
          refine ⟨fun j hj => ?_, by rw [S.req, g2]⟩
          by_cases e : j = n + 1
          · rw [e]; exact ⟨ha, hc'⟩
          · exact g1 j (by omega)
        · exact .inl ⟨n + 1, by omega, ha, hc', by rw [S.req, g2]⟩
  obtain ⟨u, hu, hx⟩ := hf t (by rw [← run_cpu]; exact hc)
  rcases stay (u - t) with ⟨j, -, g1, g2, g3⟩ | ⟨g1, -⟩
  · obtain ⟨l, d, g⟩ := key (t + j) g2 g1
    rw [g3] at g
    exact ⟨l, d, g⟩
  · have := g1 (u - t) (by omega)
    rw [show t + (u - t) = u by omega] at this
    rcases hx with hx | hx
    · rw [← run_cpu, this.2] at hx; cases hx
    · rw [show (s.inputs D p u).ack = (s.run D p u).ack from rfl, this.1] at hx; cases hx

section
variable {G : List (BitVec 8) → Prop} {I : Arch → Plat k → List (BitVec 8) → Prop} {R : Arch → Arch → Prop}

theorem prog_common (hI : ProgInv G I R) (h : s.AfterReset) (h0 : I (s.run D p 5).cpu.arch s.plat []) (t : Nat)
    (hc : (s.run D p t).cpu.cyc = true) : (s.run D p t).cpu.req.Common := by
  obtain ⟨hm, -⟩ := C72_safe h (prog_safe (D := D) (p := p) hI h h0).1
  obtain ⟨l, d, hb, hl⟩ := request_behaves h hm t hc
  have := (Wp.transfer hI.next (hI.fetch h0) hb.prefix hl).1
  exact (hI.behaves h0 hb).2 l _ d rfl this

theorem prog_ram (hI : ProgInv G I R) (h : s.AfterReset) (h0 : I (s.run D p 5).cpu.arch s.plat []) (t : Nat) :
    (s.run D p t).ram.mem = s.ram.mem := by
  induction t with
  | zero => rfl
  | succ t ih =>
    rw [← ih]
    show ((s.run D p t).step D (p t)).ram.mem = _
    have hc := prog_common hI h h0 t
    simp only [step, WbMem.step]
    split
    · rename_i hw
      simp only [Bool.and_eq_true] at hw
      have hd := hw.1.2
      simp only [devCyc, Bool.and_eq_true, decide_eq_true_eq] at hd
      have ht : (s.run D p t).cpu.req.csrTarget = some .ram := by rw [req_target, hd.2]; rfl
      rcases hc hd.1 with ⟨-, h2, -⟩ | ⟨-, h3⟩
      · have : (s.run D p t).cpu.req.we = true := hw.2
        rw [this] at h2; cases h2
      · rw [Req.csrTarget, h3] at ht; exact absurd ht (by decide)
    · rfl

end

/-- What may come of `s` when it runs, for any number of cycles with anything on the pins, is reset, and so on. -/
inductive Resets (D : Nat) (s : AttoCsr k) : AttoCsr k → Prop
  | refl : Resets D s s
  | press {s' : AttoCsr k} (p : Nat → AttoIn) (t : Nat) : Resets D s s' → Resets D s ((s'.run D p t).resetEdge D (p t))

/-- **C94** (prime numbers, CSR bus): as `Atto.C94_primes`. -/
theorem C94_primes (h : s.AfterReset) (hM : HoldsProgram s.ram.mem primesProgram) {s' : AttoCsr k} (hr : Resets D s s') :
    s'.AfterReset ∧ s'.ram.mem = s.ram.mem ∧
    ∃ c : Nat → Nat, c 0 = 0 ∧ (∀ t, c (t + 1) = c t ∨ c (t + 1) = c t + 1) ∧ (∀ n, ∃ t, n ≤ c t) ∧
      ∀ t, (s'.run D p t).leds.leds = if c t = 0 then 0 else BitVec.ofNat 8 (shown (c t - 1)) := by
  have key : s'.AfterReset ∧ s'.ram.mem = s.ram.mem := by
    induction hr with
    | refl => exact ⟨h, rfl⟩
    | @press s' p t _ ih =>
      obtain ⟨i1, i2⟩ := ih
      refine ⟨(C94_reset i1 t (p t) _ rfl).1, ?_⟩
      show (s'.run D p (t + 1)).ram.mem = _
      rw [← i2]
      have hM' : HoldsProgram s'.ram.mem primesProgram := by rw [i2]; exact hM
      have hI := Primes.primes_ok hM'
      exact prog_ram hI i1 (primes_start i1) (t + 1)
  exact ⟨key.1, key.2, C75_leds key.1 (by rw [key.2]; exact hM)⟩

/-- **C75** (RAM): the prime number firmware only reads its 28 words of RAM and only writes the LED register: RAM never changes. -/
theorem C75_requests (h : s.AfterReset) (hM : HoldsProgram s.ram.mem primesProgram) (t : Nat) :
    ((s.run D p t).cpu.cyc = true →
      ((s.run D p t).cpu.req.we = false ∧ (s.run D p t).cpu.req.byteAdr < 112) ∨
      ((s.run D p t).cpu.req.we = true ∧ (s.run D p t).cpu.req.byteAdr = 0x02000000)) ∧
    (s.run D p t).ram.mem = s.ram.mem := by
  have hI := Primes.primes_ok hM
  refine ⟨fun hc => ?_, prog_ram hI h (primes_start h) t⟩
  rcases prog_common hI h (primes_start h) t hc with ⟨-, h2, h3⟩ | h1
  · exact .inl ⟨h2, h3⟩
  · exact .inr h1

end AttoCsr

/-! ## Examples -/

/-- Pressed in the first cycle of the store of a program that counts in RAM, which meets the hypotheses of `C94_memory`: the store is done all the same, and
the next run counts on. -/
example : ∀ s, AttoN.countDemo.padded = s → s.AfterReset ∧ Atto.Safe s.plat (s.run 4 Atto.idlePins 5).cpu.arch ∧
    (s.run 4 Atto.idlePins 25).cpu.we = true ∧ (s.run 4 Atto.idlePins 25).ack = false ∧ (s.run 4 Atto.idlePins 25).ram.mem 4 = 0 ∧
    ((s.run 4 Atto.idlePins 25).resetEdge 4 {}).ram.mem 4 = 1 ∧
    (((s.run 4 Atto.idlePins 25).resetEdge 4 {}).run 4 Atto.idlePins 26).ram.mem 4 = 2 := by
  rintro s rfl
  refine ⟨⟨.inl rfl, rfl, rfl, rfl, rfl⟩, fun l r d hb hl => (AttoN.count_fits Atto.idlePins l r d hb hl).1, ?_⟩
  decide +kernel

/-- Pressed while the core waits for an address where nothing is (`lui x1, 0x8000; lw x2, 0(x1)`): six cycles later it fetches from address 0. -/
example : ∀ s, Atto.attoDemo [0x080000B7#32, 0x0000A103#32] = s → s.AfterReset ∧
    (s.run 4 Atto.idlePins 40).cpu.cyc = true ∧ (s.run 4 Atto.idlePins 40).cpu.req.target = none ∧
    (((s.run 4 Atto.idlePins 40).resetEdge 4 {}).run 4 Atto.idlePins 6).ack = true ∧
    (((s.run 4 Atto.idlePins 40).resetEdge 4 {}).run 4 Atto.idlePins 6).cpu.adr = 0 := by
  rintro s rfl
  refine ⟨Atto.attoDemo_reset _, ?_⟩
  decide +kernel

/-- The hypotheses of `C94_primes` are met after two presses, the first in cycle 17 and the second 60 cycles after that. -/
example : (Atto.attoDemo primesProgram).AfterReset ∧ HoldsProgram (Atto.attoDemo primesProgram).ram.mem primesProgram ∧
    Atto.Resets 4 (Atto.attoDemo primesProgram) (((((Atto.attoDemo primesProgram).run 4 Atto.idlePins 17).resetEdge 4 {}).run 4 Atto.idlePins 60).resetEdge 4 {}) := by
  refine ⟨Atto.attoDemo_reset _, fun i hi => ?_, .press Atto.idlePins 60 (.press Atto.idlePins 17 .refl)⟩
  have : ∀ i : _root_.Fin 28, (Atto.attoDemo primesProgram).ram.mem (BitVec.ofNat 5 i) = primesProgram[i.val]'i.isLt := by
    decide +kernel
  exact this ⟨i, hi⟩

/-- The hypotheses of `AttoCsr.C94_memory` and `AttoCsr.C94_primes` are met. -/
example (p : Nat → AttoIn) : (AttoCsr.csrDemo primesProgram).AfterReset ∧ HoldsProgram (AttoCsr.csrDemo primesProgram).ram.mem primesProgram ∧
    AttoCsr.Safe (AttoCsr.csrDemo primesProgram).plat ((AttoCsr.csrDemo primesProgram).run 4 p 5).cpu.arch := by
  have hM : HoldsProgram (AttoCsr.csrDemo primesProgram).ram.mem primesProgram := by
    intro i hi
    have : ∀ i : _root_.Fin 28, (AttoCsr.csrDemo primesProgram).ram.mem (BitVec.ofNat 5 i) = primesProgram[i.val]'i.isLt := by
      decide +kernel
    exact this ⟨i, hi⟩
  have hI := Primes.primes_ok hM
  exact ⟨AttoCsr.csrDemo_reset _, hM, (AttoCsr.prog_safe hI (AttoCsr.csrDemo_reset _) (AttoCsr.primes_start (AttoCsr.csrDemo_reset _))).1⟩

/-- The hypotheses of `C93_primes` are met by a RAM of 28 words, of which a RAM with 5 address bits has 32. -/
example : ∀ s : AttoN, ⟨powerOn, ⟨primesProgram, 0, false⟩, {}, {}, WbSerial.reset⟩ = s → s.AfterReset ∧ s.depth = 28 ∧
    ∀ i (hi : i < primesProgram.length), s.ram.rows[i]? = some primesProgram[i] := by
  rintro s rfl
  exact ⟨⟨.inl rfl, rfl, rfl, rfl, rfl⟩, rfl, fun i hi => List.getElem?_eq_getElem hi⟩

end Sentinel
