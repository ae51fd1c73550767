import Verif.Proof.RamSize
/-!
# C93: RAM of any size
-/

set_option linter.unusedSimpArgs false

namespace Sentinel.AttoN

open Spec Ucode

variable {D : Nat} {s : AttoN} {p : Nat → AttoIn} {junk : Nat → Word}

/-- A program fits in `n` bytes of RAM: no behaviour of the instruction-set machine, started in `a` on
platform `P`, that is a platform trace so far, goes on with an access to an address where nothing is, or
to a word of RAM that is not among the first `n` bytes. -/
def Fits {k : Nat} (P : Plat k) (a : Arch) (n : Nat) : Prop :=
  ∀ l r d, Behaves (cycle .asBuilt) (fetch a) (l ++ [.bus r d]) → PlatTrace P l →
    r.target.isSome = true ∧ (r.target = some .ram → r.byteAdr + 4 ≤ n)

theorem reset_padded (h : s.AfterReset) : s.padded.AfterReset := ⟨h.cpu, h.ram, h.leds, h.timer, h.ser⟩

theorem rowOk (h : s.AfterReset) (hf : Fits s.padded.plat (s.padded.run D p 5).cpu.arch (4 * s.depth)) (t : Nat) :
    (s.padded.run D p t).cpu.cyc = true → (s.padded.run D p t).cpu.req.target = some .ram →
      (s.padded.run D p t).cpu.adr.toNat < s.depth := by
  intro hc ht
  have hm := (Atto.C56_safe (D := D) (p := p) (reset_padded h) fun l r d hb hl => (hf l r d hb hl).1).2.2
  obtain ⟨l, d, hb, hl⟩ := Atto.request_behaves (reset_padded h) hm t hc
  have := (hf _ _ _ hb hl).2 ht
  have e : (s.padded.run D p t).cpu.req.byteAdr = 4 * (s.padded.run D p t).cpu.adr.toNat := rfl
  omega

theorem fits_same (h : s.AfterReset) (hf : Fits s.padded.plat (s.padded.run D p 5).cpu.arch (4 * s.depth)) (t : Nat) :
    Same s.depth (s.run D p junk t) (s.padded.run D p t) := by
  refine run_same (same_padded s) fun m _ hc ht => ?_
  rw [BitVec.toNat_setWidth]
  exact Nat.lt_of_le_of_lt (Nat.mod_le _ _) (rowOk h hf m hc ht)

/-- **C93** (same): the SoC with a RAM of any number of words, running a program that fits, does in every
cycle exactly what the SoC with a RAM of the next power of two does, whatever the rows that do not exist
read as: core, LEDs, GPIO, timer, serial port, and every word of RAM. -/
theorem C93_same (h : s.AfterReset)
    (hf : Fits s.padded.plat (s.padded.run D p 5).cpu.arch (4 * s.depth)) (t : Nat) :
    (s.run D p junk t).cpu = (s.padded.run D p t).cpu ∧
    (s.run D p junk t).leds = (s.padded.run D p t).leds ∧
    (s.run D p junk t).timer = (s.padded.run D p t).timer ∧
    (s.run D p junk t).ser = (s.padded.run D p t).ser ∧
    (s.run D p junk t).depth = s.depth ∧
    ∀ a < s.depth, (s.run D p junk t).ram.rows[a]? = some ((s.padded.run D p t).ram.mem (BitVec.ofNat _ a)) := by
  have hs := fits_same (junk := junk) h hf t
  refine ⟨hs.cpu, hs.leds, hs.timer, hs.ser, hs.len, fun a ha => ?_⟩
  have e : (BitVec.ofNat (ceilLog2 s.depth) a).toNat = a := by
    rw [BitVec.toNat_ofNat, Nat.mod_eq_of_lt (Nat.lt_of_lt_of_le ha (le_two_pow_ceilLog2 _))]
  have := hs.rows (BitVec.ofNat _ a) (by rw [e]; exact ha)
  rwa [e] at this

theorem inputs_eq (h : s.AfterReset)
    (hf : Fits s.padded.plat (s.padded.run D p 5).cpu.arch (4 * s.depth)) :
    s.inputs D p junk = s.padded.inputs D p := by
  funext t
  exact (fits_same (junk := junk) h hf t).input

/-- **C93** (programs): so a program that fits in the RAM runs as the instruction-set machine says: every
access is to a word that exists, every read of RAM returns what was written last, at each dispatch every
word of RAM is what the accesses so far made it, and instructions are executed for ever. -/
theorem C93_program (h : s.AfterReset)
    (hf : Fits s.padded.plat (s.padded.run D p 5).cpu.arch (4 * s.depth)) (n : Nat) :
    Behaves (cycle .asBuilt) (fetch (s.run D p junk 5).cpu.arch) (s.cpu.events (s.inputs D p junk) 1 n) ∧
    PlatTrace s.padded.plat (s.cpu.events (s.inputs D p junk) 1 n) ∧
    (∀ t, (s.run D p junk t).cpu.cyc = true → (s.run D p junk t).cpu.req.target = some .ram →
      (s.run D p junk t).cpu.req.byteAdr + 4 ≤ 4 * s.depth) ∧
    (∀ t, s.cpu.Dispatching (s.inputs D p junk) t → ∀ a < s.depth, (s.run D p junk t).ram.rows[a]? =
      some ((s.padded.plat.afterAll (s.cpu.events (s.inputs D p junk) 1 (t - 1))).ram (BitVec.ofNat _ a))) ∧
    ∃ t w m, n ≤ t ∧ s.cpu.Executes (s.inputs D p junk) t w m := by
  have hr := reset_padded h
  obtain ⟨-, g2, g3, g4⟩ := Atto.C56_trace hr D p n
  rw [inputs_eq h hf, (C93_same (junk := junk) h hf 5).1]
  refine ⟨g2, g3, fun t hc ht => ?_, fun t hd a ha => ?_, ?_⟩
  · rw [(C93_same (junk := junk) h hf t).1] at hc ht ⊢
    have := rowOk h hf t hc ht
    have e : (s.padded.run D p t).cpu.req.byteAdr = 4 * (s.padded.run D p t).cpu.adr.toNat := rfl
    omega
  · rw [(C93_same (junk := junk) h hf t).2.2.2.2.2 a ha]
    exact congrArg (fun P : Plat _ => some (P.ram _)) (g4 t hd)
  · exact (Atto.C56_safe hr fun l r d hb hl => (hf l r d hb hl).1).2.1 n

/-- **C93** (any row): also for programs that do not fit: until the first cycle in which the core asks for
a row that does not exist, the two are the same. -/
theorem C93_until (t : Nat)
    (hr : ∀ m < t, (s.padded.run D p m).cpu.cyc = true → (s.padded.run D p m).cpu.req.target = some .ram →
      (s.padded.run D p m).cpu.adr.toNat % 2 ^ ceilLog2 s.depth < s.depth) :
    (s.run D p junk t).cpu = (s.padded.run D p t).cpu ∧
    (s.run D p junk t).leds = (s.padded.run D p t).leds ∧
    (s.run D p junk t).timer = (s.padded.run D p t).timer ∧
    (s.run D p junk t).ser = (s.padded.run D p t).ser := by
  have hs := run_same (junk := junk) (same_padded s) (t := t) fun m hm hc ht => by
    rw [BitVec.toNat_setWidth]; exact hr m hm hc ht
  exact ⟨hs.cpu, hs.leds, hs.timer, hs.ser⟩

/-! ## A program that counts in the last of five words -/

/-- `lw x1, 16(x0); addi x1, x1, 1; sw x1, 16(x0); j 0`, and a word for the counter. -/
def countProgram : List Word := [0x01002083#32, 0x00108093#32, 0x00102823#32, 0xFF5FF06F#32, 0#32]

/-- The SoC at power-on with the program in a RAM of five words. -/
def countDemo : AttoN := ⟨powerOn, ⟨countProgram, 0, false⟩, {}, {}, WbSerial.reset⟩

def countInv (a : Arch) (P : Plat 3) : Prop :=
  a.mie = false ∧ P.ram 0 = 0x01002083#32 ∧ P.ram 1 = 0x00108093#32 ∧ P.ram 2 = 0x00102823#32 ∧
    P.ram 3 = 0xFF5FF06F#32 ∧ (a.pc = 0 ∨ a.pc = 4 ∨ a.pc = 8 ∨ a.pc = 12)

/-- Requests for what the SoC with five words has. -/
def Five (r : Req) : Prop := r.target.isSome = true ∧ (r.target = some .ram → r.byteAdr + 4 ≤ 20)

theorem count_step (a : Arch) (P : Plat 3) (h : countInv a P) :
    Asks Five countInv (exec .asBuilt a (P.ram ((wordAdr a.pc).setWidth 3))) P := by
  obtain ⟨hm, h0, h1, h2, h3, hpc⟩ := h
  have hi : ∀ b : Bool, (b && a.intEnabled) = false := by intro b; simp [Arch.intEnabled, hm]
  have hx : a.reg 0 = 0 := rfl
  rcases hpc with e | e | e | e <;> intro b <;> beta_reduce <;> (rw [hi b, e, if_neg (by decide)])
  · rw [show P.ram (BitVec.setWidth 3 (wordAdr 0)) = _ from h0,
      show decode 0x01002083#32 = some (.load .lw 1 0 16) by decide +kernel]
    show Asks _ _ (if aligned (a.reg 0 + 16) _ then Tree.bus (readReq (a.reg 0 + 16) _) _ else _) P
    rw [hx]
    refine ⟨⟨by decide, fun _ => by decide⟩, fun d _ => ?_⟩
    exact ⟨hm, h0, h1, h2, h3, .inr (.inl (by show a.pc + 4 = 4; rw [e]; rfl))⟩
  · rw [show P.ram (BitVec.setWidth 3 (wordAdr 4)) = _ from h1,
      show decode 0x00108093#32 = some (.opImm .add 1 1 1) by decide +kernel]
    exact ⟨hm, h0, h1, h2, h3, .inr (.inr (.inl (by show a.pc + 4 = 8; rw [e]; rfl)))⟩
  · rw [show P.ram (BitVec.setWidth 3 (wordAdr 8)) = _ from h2,
      show decode 0x00102823#32 = some (.store .sw 0 1 16) by decide +kernel]
    show Asks _ _ (if aligned (a.reg 0 + 16) _ then Tree.bus (writeReq (a.reg 0 + 16) _ (a.reg 1)) _ else _) P
    rw [hx]
    generalize a.reg 1 = v
    have et : (writeReq (0 + 16) StOp.sw.size v).target = some .ram := by rfl
    refine ⟨⟨by rw [et]; rfl, fun _ => Nat.le_refl _⟩, fun d _ => ?_⟩
    have er : ∀ x : BitVec 3, x ≠ 4 → (P.after (writeReq (0 + 16) StOp.sw.size v)).ram x = P.ram x := by
      intro x hx
      have hw : (writeReq (0 + 16) StOp.sw.size v).we = true := rfl
      rw [Plat.after, if_pos hw, et]
      show (P.ram.after (writeReq (0 + 16) StOp.sw.size v)) x = _
      rw [Mem.after, if_pos hw]
      exact if_neg hx
    refine ⟨hm, ?_, ?_, ?_, ?_, .inr (.inr (.inr (by show a.pc + 4 = 12; rw [e]; rfl)))⟩
    · rw [er 0 (by decide)]; exact h0
    · rw [er 1 (by decide)]; exact h1
    · rw [er 2 (by decide)]; exact h2
    · rw [er 3 (by decide)]; exact h3
  · rw [show P.ram (BitVec.setWidth 3 (wordAdr 12)) = _ from h3,
      show decode 0xFF5FF06F#32 = some (.jal 0#5 0xFFFFA#20) by decide +kernel]
    have et : a.pc + ((0xFFFFA#20 ++ 0#1 : BitVec 21).signExtend 32) = 0 := by rw [e]; decide
    have eo : targetOk (a.pc + ((0xFFFFA#20 ++ 0#1 : BitVec 21).signExtend 32)) = true := by rw [et]; rfl
    generalize hv : 0xFFFFA#20 = v at et eo ⊢
    show Asks _ _ (if targetOk (a.pc + ((v ++ 0#1 : BitVec 21).signExtend 32)) then _ else _) P
    rw [if_pos eo]
    exact ⟨hm, h0, h1, h2, h3, .inl et⟩

theorem count_fits (p : Nat → AttoIn) :
    Fits countDemo.padded.plat (countDemo.padded.run 4 p 5).cpu.arch (4 * countDemo.depth) := by
  have e : (countDemo.padded.run 4 p 5).cpu.arch = a0 := by
    rw [Atto.run_cpu, show countDemo.padded.cpu = powerOn from rfl,
      (boot_run (s := powerOn) ⟨_, _, _, rfl⟩ _).2.2.2.2.1]
    rfl
  rw [e]
  intro l r d hb hl
  refine asks_program (K := Five) (I := countInv) (fun a P h => ?_) count_step
    (P := countDemo.padded.plat) ⟨rfl, by decide, by decide, by decide, by decide, .inl rfl⟩ hb hl
  obtain ⟨-, -, -, -, -, e | e | e | e⟩ := h <;> (rw [fetchReq, e]; exact ⟨⟨by decide, fun _ => by decide⟩, by decide⟩)

/-- The hypotheses of `C93_same` and `C93_program` are met by a RAM of five words (three bits of address,
rows 5 to 7 do not exist); after 60 cycles the counter in the last word is 2. -/
example : countDemo.AfterReset ∧ countDemo.depth = 5 ∧ ceilLog2 countDemo.depth = 3 ∧
    Fits countDemo.padded.plat (countDemo.padded.run 4 Atto.idlePins 5).cpu.arch (4 * countDemo.depth) ∧
    (countDemo.run 4 Atto.idlePins (fun _ => 0xDEADBEEF) 60).ram.rows[4]? = some 2 := by
  refine ⟨⟨.inl rfl, rfl, rfl, rfl, rfl⟩, rfl, by decide, count_fits _, by decide +kernel⟩

end Sentinel.AttoN
