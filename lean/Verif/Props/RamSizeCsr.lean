import Verif.Soc.RamSizeCsr
import Verif.Proof.RamSize
import Verif.Props.AttoCsr
import Verif.Props.PrimesCsr
import Verif.Props.Portable
import Verif.Props.Button
/-!
# C93: RAM of any size, with the peripherals on the CSR bus
-/

set_option linter.unusedSimpArgs false

namespace Sentinel

open Spec Ucode

namespace AttoCsrN

variable {k D : Nat} {p : Nat → AttoIn} {junk : Nat → Word} {t : Nat}

/-- `s` and `σ` are the same system, but for rows of the RAM of `σ` from `d` on. -/
structure Same (d : Nat) (s : AttoCsrN) (σ : AttoCsr k) : Prop where
  cpu : s.cpu = σ.cpu
  bridge : s.bridge = σ.bridge
  bus : s.bus = σ.bus
  leds : s.leds = σ.leds
  timer : s.timer = σ.timer
  ser : s.ser = σ.ser
  rdata : s.ram.rdata = σ.ram.rdata
  ack : s.ram.ack = σ.ram.ack
  len : s.ram.rows.length = d
  bits : ceilLog2 d = k
  rows : ∀ a : BitVec k, a.toNat < d → s.ram.rows[a.toNat]? = some (σ.ram.mem a)

theorem same_padded (s : AttoCsrN) : Same s.depth s s.padded where
  cpu := rfl
  bridge := rfl
  bus := rfl
  leds := rfl
  timer := rfl
  ser := rfl
  rdata := rfl
  ack := rfl
  len := rfl
  bits := rfl
  rows a ha := by
    rw [List.getElem?_eq_getElem ha]
    show _ = some (s.ram.rows.getD a.toNat 0)
    rw [List.getD_eq_getElem?_getD, List.getElem?_eq_getElem ha]; rfl

variable {d : Nat} {s : AttoCsrN} {σ : AttoCsr k}

theorem Same.input (h : Same d s σ) : s.padded.input = σ.input := by
  obtain ⟨c, b, bu, l, ti, se, rd, ak, -, -, -⟩ := h
  simp only [AttoCsr.input, AttoCsr.datR, AttoCsr.ack, AttoCsr.irq, AttoCsr.dev, padded, RamN.padded, c, b, bu, l, ti, se, rd, ak]

theorem Same.step (h : Same d s σ) (q : AttoIn) (j : Word)
    (hr : σ.cpu.cyc = true → σ.cpu.req.csrTarget = some .ram → (σ.cpu.adr.setWidth k).toNat < d) :
    Same d (s.step D q j) (σ.step D q) := by
  have hrow : ∀ a, s.ram.row a = (a.setWidth k).toNat := fun a => by
    rw [RamN.row, h.len, h.bits, BitVec.toNat_setWidth]
  have hok : (σ.cpu.stb && σ.devCyc .ram) = true → (σ.cpu.adr.setWidth k).toNat < d := by
    intro hc
    have := (Bool.and_eq_true_iff.1 hc).2
    simp only [AttoCsr.devCyc, Bool.and_eq_true, decide_eq_true_eq] at this
    exact hr this.1 (by rw [AttoCsr.req_target, this.2]; rfl)
  obtain ⟨cpu, ⟨rows, rdata, ack⟩, bridge, bus, leds, timer, ser⟩ := s
  obtain ⟨cpu', ⟨mem', rdata', ack'⟩, bridge', bus', leds', timer', ser'⟩ := σ
  obtain ⟨rfl, rfl, rfl, rfl, rfl, rfl, rfl, rfl, h1, h2, h3⟩ := h
  have hc : ∀ x, AttoCsr.devCyc (padded ⟨cpu, ⟨rows, rdata, ack⟩, bridge, bus, leds, timer, ser⟩) x =
    AttoCsr.devCyc (⟨cpu, ⟨mem', rdata, ack⟩, bridge, bus, leds, timer, ser⟩ : AttoCsr k) x := fun _ => rfl
  constructor
  · rfl
  · rfl
  · rfl
  · rfl
  · rfl
  · rfl
  · show (if _ then _ else _) = (if _ then _ else _)
    rw [hrow]
    split
    · rename_i hx
      have := h3 _ (hok (Bool.and_eq_true_iff.1 hx).1)
      simp only at this
      rw [if_pos (by exact hx), List.getD_eq_getElem?_getD, this]; rfl
    · rename_i hx; rw [if_neg (by exact hx)]
  · rfl
  · show (if _ then _ else _ : List Word).length = d
    split
    · rw [List.length_modify]; exact h1
    · exact h1
  · exact h2
  · intro a ha
    show (if _ then _ else _ : List Word)[a.toNat]? = some ((if _ then _ else _ : Mem k) a)
    rw [hrow]
    split
    · rename_i hx
      have h3' := h3 a ha
      simp only at h3'
      rw [if_pos (by exact hx), List.getElem?_modify, h3']
      by_cases e : a = cpu.adr.setWidth k
      · subst e; simp
      · have : (cpu.adr.setWidth k).toNat ≠ a.toNat := fun x => e (BitVec.eq_of_toNat_eq x.symm)
        show some (if _ then _ else _) = some (if _ then _ else _)
        rw [if_neg this, if_neg e]
    · rename_i hx; rw [if_neg (by exact hx)]; exact h3 a ha

theorem run_same (h : Same d s σ) (hr : ∀ m < t, (σ.run D p m).cpu.cyc = true → (σ.run D p m).cpu.req.csrTarget = some .ram →
    ((σ.run D p m).cpu.adr.setWidth k).toNat < d) : Same d (s.run D p junk t) (σ.run D p t) := by
  induction t with
  | zero => exact h
  | succ t ih => exact (ih fun m hm => hr m (by omega)).step _ _ (hr t (by omega))

/-- A program fits in `n` bytes of RAM: as `AttoN.Fits`, on the platform with the CSR bus. -/
def Fits {k : Nat} (P : Plat k) (a : Arch) (n : Nat) : Prop :=
  ∀ l r d, Behaves (cycle .asBuilt) (fetch a) (l ++ [.bus r d]) → PlatTraceCsr P l →
    r.csrTarget.isSome = true ∧ (r.csrTarget = some .ram → r.byteAdr + 4 ≤ n)

theorem reset_padded (h : s.AfterReset) : s.padded.AfterReset := ⟨h.cpu, h.ram, h.bridge, h.bus, h.leds, h.timer, h.ser⟩

theorem rowOk (h : s.AfterReset) (hf : Fits s.padded.plat (s.padded.run D p 5).cpu.arch (4 * s.depth)) (t : Nat) :
    (s.padded.run D p t).cpu.cyc = true → (s.padded.run D p t).cpu.req.csrTarget = some .ram →
      (s.padded.run D p t).cpu.adr.toNat < s.depth := by
  intro hc ht
  have hm := (AttoCsr.C72_safe (D := D) (p := p) (reset_padded h) fun l r d hb hl => (hf l r d hb hl).1).1
  obtain ⟨l, d, hb, hl⟩ := AttoCsr.request_behaves (reset_padded h) hm t hc
  have := (hf _ _ _ hb hl).2 ht
  have e : (s.padded.run D p t).cpu.req.byteAdr = 4 * (s.padded.run D p t).cpu.adr.toNat := rfl
  omega

theorem fits_same (h : s.AfterReset) (hf : Fits s.padded.plat (s.padded.run D p 5).cpu.arch (4 * s.depth)) (t : Nat) :
    Same s.depth (s.run D p junk t) (s.padded.run D p t) := by
  refine run_same (same_padded s) fun m _ hc ht => ?_
  rw [BitVec.toNat_setWidth]
  exact Nat.lt_of_le_of_lt (Nat.mod_le _ _) (rowOk h hf m hc ht)

/-- **C93** (same, CSR bus): as `AttoN.C93_same`. -/
theorem C93_same (h : s.AfterReset) (hf : Fits s.padded.plat (s.padded.run D p 5).cpu.arch (4 * s.depth)) (t : Nat) :
    (s.run D p junk t).cpu = (s.padded.run D p t).cpu ∧
    (s.run D p junk t).bridge = (s.padded.run D p t).bridge ∧
    (s.run D p junk t).bus = (s.padded.run D p t).bus ∧
    (s.run D p junk t).leds = (s.padded.run D p t).leds ∧
    (s.run D p junk t).timer = (s.padded.run D p t).timer ∧
    (s.run D p junk t).ser = (s.padded.run D p t).ser ∧
    (s.run D p junk t).depth = s.depth ∧
    ∀ a < s.depth, (s.run D p junk t).ram.rows[a]? = some ((s.padded.run D p t).ram.mem (BitVec.ofNat _ a)) := by
  have hs := fits_same (junk := junk) h hf t
  refine ⟨hs.cpu, hs.bridge, hs.bus, hs.leds, hs.timer, hs.ser, hs.len, fun a ha => ?_⟩
  have e : (BitVec.ofNat (ceilLog2 s.depth) a).toNat = a := by
    rw [BitVec.toNat_ofNat, Nat.mod_eq_of_lt (Nat.lt_of_lt_of_le ha (le_two_pow_ceilLog2 _))]
  have := hs.rows (BitVec.ofNat _ a) (by rw [e]; exact ha)
  rwa [e] at this

theorem inputs_eq (h : s.AfterReset) (hf : Fits s.padded.plat (s.padded.run D p 5).cpu.arch (4 * s.depth)) :
    s.inputs D p junk = s.padded.inputs D p := by
  funext t
  exact (fits_same (junk := junk) h hf t).input

/-- **C93** (programs, CSR bus): as `AttoN.C93_program`. -/
theorem C93_program (h : s.AfterReset) (hf : Fits s.padded.plat (s.padded.run D p 5).cpu.arch (4 * s.depth)) (n : Nat) :
    Behaves (cycle .asBuilt) (fetch (s.run D p junk 5).cpu.arch) (s.cpu.events (s.inputs D p junk) 1 n) ∧
    PlatTraceCsr s.padded.plat (s.cpu.events (s.inputs D p junk) 1 n) ∧
    (∀ t, (s.run D p junk t).cpu.cyc = true → (s.run D p junk t).cpu.req.csrTarget = some .ram →
      (s.run D p junk t).cpu.req.byteAdr + 4 ≤ 4 * s.depth) ∧
    (∀ t, s.cpu.Dispatching (s.inputs D p junk) t → ∀ a < s.depth, (s.run D p junk t).ram.rows[a]? =
      some ((s.padded.plat.afterAllCsr (s.cpu.events (s.inputs D p junk) 1 (t - 1))).ram (BitVec.ofNat _ a))) ∧
    ∃ t w m, n ≤ t ∧ s.cpu.Executes (s.inputs D p junk) t w m := by
  have hr := reset_padded h
  obtain ⟨-, g2, g3, g4⟩ := AttoCsr.C72_trace hr D p n
  rw [inputs_eq h hf, (C93_same (junk := junk) h hf 5).1]
  refine ⟨g2, g3, fun t hc ht => ?_, fun t hd a ha => ?_, ?_⟩
  · rw [(C93_same (junk := junk) h hf t).1] at hc ht ⊢
    have := rowOk h hf t hc ht
    have e : (s.padded.run D p t).cpu.req.byteAdr = 4 * (s.padded.run D p t).cpu.adr.toNat := rfl
    omega
  · rw [(C93_same (junk := junk) h hf t).2.2.2.2.2.2.2 a ha]
    exact congrArg (fun P : Plat _ => some (P.ram _)) (g4 t hd)
  · exact (AttoCsr.C72_safe hr fun l r d hb hl => (hf l r d hb hl).1).2 n

/-- **C93** (any row, CSR bus): as `AttoN.C93_until`. -/
theorem C93_until (t : Nat)
    (hr : ∀ m < t, (s.padded.run D p m).cpu.cyc = true → (s.padded.run D p m).cpu.req.csrTarget = some .ram →
      (s.padded.run D p m).cpu.adr.toNat % 2 ^ ceilLog2 s.depth < s.depth) :
    (s.run D p junk t).cpu = (s.padded.run D p t).cpu ∧
    (s.run D p junk t).leds = (s.padded.run D p t).leds ∧
    (s.run D p junk t).timer = (s.padded.run D p t).timer ∧
    (s.run D p junk t).ser = (s.padded.run D p t).ser := by
  have hs := run_same (junk := junk) (same_padded s) (t := t) fun m hm hc ht => by
    rw [BitVec.toNat_setWidth]; exact hr m hm hc ht
  exact ⟨hs.cpu, hs.leds, hs.timer, hs.ser⟩

/-- **C93** (prime numbers, CSR bus): as `AttoN.C93_primes`. -/
theorem C93_primes (h : s.AfterReset) (h28 : ∀ i (hi : i < primesProgram.length), s.ram.rows[i]? = some primesProgram[i]) :
    Fits s.padded.plat (s.padded.run D p 5).cpu.arch (4 * s.depth) ∧
    ∃ c : Nat → Nat, c 0 = 0 ∧ (∀ t, c (t + 1) = c t ∨ c (t + 1) = c t + 1) ∧ (∀ n, ∃ t, n ≤ c t) ∧
      ∀ t, (s.run D p junk t).leds.leds = if c t = 0 then 0 else BitVec.ofNat 8 (shown (c t - 1)) := by
  have hlen : 28 ≤ s.depth := by
    have := h28 27 (by decide)
    rw [List.getElem?_eq_some_iff] at this
    exact this.1
  have hM : HoldsProgram s.padded.ram.mem primesProgram := by
    intro i hi
    show s.ram.rows.getD (BitVec.ofNat (ceilLog2 s.depth) i).toNat 0 = _
    have hi' : i < 28 := hi
    have e : (BitVec.ofNat (ceilLog2 s.depth) i).toNat = i := by
      rw [BitVec.toNat_ofNat, Nat.mod_eq_of_lt (Nat.lt_of_lt_of_le (by omega : i < s.depth) (le_two_pow_ceilLog2 _))]
    rw [e, List.getD_eq_getElem?_getD, h28 i hi]; rfl
  have hr := reset_padded h
  have hf : Fits s.padded.plat (s.padded.run D p 5).cpu.arch (4 * s.depth) := by
    intro l r d hb hl
    have hI := Primes.primes_ok hM
    have hst := AttoCsr.primes_start (D := D) (p := p) hr
    have hc := (hI.behaves hst hb).2 l r d rfl (Wp.transfer hI.next (hI.fetch hst) hb.prefix hl).1
    refine ⟨(portable_some (common_portable hc)).2, fun ht => ?_⟩
    rcases hc with ⟨-, -, h3⟩ | ⟨-, h3⟩
    · have : r.byteAdr = 4 * r.adr.toNat := rfl
      omega
    · rw [Req.csrTarget, h3] at ht; cases ht
  refine ⟨hf, ?_⟩
  obtain ⟨c, c1, c2, c3, c4⟩ := AttoCsr.C75_leds (D := D) (p := p) hr hM
  refine ⟨c, c1, c2, c3, fun t => ?_⟩
  rw [(C93_same (junk := junk) h hf t).2.2.2.1]
  exact c4 t

/-- The hypotheses of `C93_primes`, and so those of `C93_same` and `C93_program`, are met by a RAM of 28 words, of which a RAM with 5 address bits has 32. -/
example : ∀ s : AttoCsrN, ⟨powerOn, ⟨primesProgram, 0, false⟩, {}, {}, {}, {}, CsrSerial.reset⟩ = s → s.AfterReset ∧ s.depth = 28 ∧
    ∀ i (hi : i < primesProgram.length), s.ram.rows[i]? = some primesProgram[i] := by
  rintro s rfl
  exact ⟨⟨.inl rfl, rfl, rfl, rfl, rfl, rfl, rfl⟩, rfl, fun i hi => List.getElem?_eq_getElem hi⟩

end AttoCsrN

end Sentinel
