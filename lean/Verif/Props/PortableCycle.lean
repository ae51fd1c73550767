import Verif.Proof.PortableCycle
import Verif.Props.Portable
import Verif.Props.Button
/-!
# C96: portable programs, cycle by cycle

The requests of a portable program and everything on the output pins driven by it are the same in every single cycle, whatever happens on the
input pins.
-/

set_option linter.unusedSimpArgs false

namespace Sentinel
open Ucode Spec

variable {k : Nat}

theorem traffic_adr {σ τ : State} (h : σ.traffic = τ.traffic) : σ.cyc = τ.cyc ∧ (σ.cyc = true → σ.adr = τ.adr) := by
  unfold State.traffic at h
  cases h1 : σ.cyc <;> cases h2 : τ.cyc
  · exact ⟨rfl, nofun⟩
  · rw [h1, h2] at h; simp at h
  · rw [h1, h2] at h; simp at h
  · rw [h1, h2, if_pos rfl, if_pos rfl] at h
    exact ⟨rfl, fun _ => congrArg Traffic.adr (Option.some.inj h)⟩

namespace Atto
variable {D : Nat} {s : Atto k} {p : Nat → AttoIn}

theorem ack_succ (h : s.AfterReset) (t : Nat) :
    (s.run D p (t + 1)).ack = ((s.run D p t).cpu.cyc && (s.run D p t).dev.isSome && !(s.run D p t).ack) := by
  by_cases hc : (s.run D p t).cpu.cyc = true ∧ (s.run D p t).ack = false
  · exact ack_step D _ _ (stable (D := D) (p := p) h hc.1 hc.2).2.2.1
  · cases ha : (s.run D p (t + 1)).ack
    · cases h1 : (s.run D p t).cpu.cyc <;> cases h2 : (s.run D p t).ack <;> simp_all
    · exact absurd ⟨(ack_of_step D _ _ ha).1, (ack_of_step D _ _ ha).2.1⟩ hc

/-- **C96** (every cycle): in two different environments, with different divisors, a portable program makes the same requests in the same cycles, they are
answered in the same cycles, and RAM, LEDs, GPIO outputs and GPIO output enables are the same in every cycle. -/
theorem C96_wb_cycles (h : s.AfterReset) (hp : Portable s.plat (s.run D p 5).cpu.arch) (D' : Nat) (p' : Nat → AttoIn) (t : Nat) :
    (s.run D p t).cpu.cyc = (s.run D' p' t).cpu.cyc ∧
    ((s.run D p t).cpu.cyc = true → (s.run D p t).cpu.req = (s.run D' p' t).cpu.req) ∧
    (s.run D p t).ack = (s.run D' p' t).ack ∧ (s.run D p t).plat = (s.run D' p' t).plat := by
  have e5 : ∀ D p, (s.run D p 5).cpu.arch = s.cpu.boot (s.inputs D p 0) := fun D p => by rw [run_cpu, boot5 h.cpu]
  have e0 : s.inputs D p 0 = s.inputs D' p' 0 := rfl
  have hp' : Portable s.plat (s.run D' p' 5).cpu.arch := by rw [e5, ← e0, ← e5]; exact hp
  have hs := C56_safe h (portable_safe h hp)
  have hs' := C56_safe h (portable_safe h hp')
  rw [e5] at hp
  have hack : ∀ T, (∀ u ≤ T, (s.cpu.run (s.inputs D p) u).traffic = (s.cpu.run (s.inputs D' p') u).traffic) →
      (s.inputs D p T).ack = (s.inputs D' p' T).ack := by
    intro T
    induction T with
    | zero => intro _; rw [e0]
    | succ T ih =>
      intro hT
      show (s.run D p (T + 1)).ack = (s.run D' p' (T + 1)).ack
      have ih : (s.run D p T).ack = (s.run D' p' T).ack := ih fun u hu => hT u (by omega)
      obtain ⟨h1, h2⟩ := traffic_adr (hT T (by omega))
      rw [← run_cpu, ← run_cpu] at h1
      rw [← run_cpu, ← run_cpu] at h2
      rw [ack_succ h, ack_succ h, ih, ← h1]
      cases hc : (s.run D p T).cpu.cyc
      · rfl
      · rw [dev, dev, h2 hc]
  have key := portable_cycles standard_wb h.cpu (registered (D := D) (p := p) h) (registered (D := D') (p := p') h) hs.1.fair hs'.1.fair e0 hp
    (fun n => traceOf_wb.2 (inv h n).1) (fun n => traceOf_wb.2 (inv h n).1) (c := fun l => 2 * busCount l)
    (fun l => by simp only [← busCount_mute]) (fun he => C28_two h.cpu hs.1 he) (fun he => C28_two h.cpu hs'.1 he)
    (seven_le h.cpu (registered h) (five h)) (seven_le h.cpu (registered h) (five h)) (dispatch_seven h) (dispatch_seven h) hack
  obtain ⟨k1, k2, k3, -⟩ := key t
  rw [run_cpu, run_cpu]
  refine ⟨k1, k2, k3, ?_⟩
  cases t with
  | zero => rfl
  | succ t =>
    have k3 : (s.run D p (t + 1)).ack = (s.run D' p' (t + 1)).ack := k3
    have hpl : s.plat.afterAll (s.cpu.events (s.inputs D p) 1 t) = s.plat.afterAll (s.cpu.events (s.inputs D' p') 1 t) := by
      rw [← afterOf_wb, ← afterOf_wb, ← afterOf_reqs, (key t).2.2.2, afterOf_reqs]
    obtain ⟨-, i1, i2⟩ := inv (D := D) (p := p) h t
    obtain ⟨-, j1, j2⟩ := inv (D := D') (p := p') h t
    cases ha : (s.run D p (t + 1)).ack
    · rw [i1 ha, j1 (k3 ▸ ha), hpl]
    · obtain ⟨c1, i2, -⟩ := i2 ha
      obtain ⟨-, j2, -⟩ := j2 (k3 ▸ ha)
      rw [run_cpu] at c1
      rw [i2, j2, hpl, run_cpu, run_cpu, k2 c1]

/-- All requests of a portable program are portable. -/
theorem portable_cyc (h : s.AfterReset) (hp : Portable s.plat (s.run D p 5).cpu.arch) {t : Nat} (hc : (s.run D p t).cpu.cyc = true) :
    (s.run D p t).cpu.req.Portable := by
  obtain ⟨l, d, hb, hl⟩ := request_behaves h (C56_safe h (portable_safe h hp)).2.2 t hc
  exact portable_requests standard_wb hp hb (traceOf_wb.2 hl)

/-- **C96** (the transmitter): the serial output of the SoC stays high for ever with a portable program. -/
theorem C96_wb_tx (h : s.AfterReset) (hp : Portable s.plat (s.run D p 5).cpu.arch) (t : Nat) : (s.run D p t).ser.txO = true := by
  suffices key : (s.run D p t).ser.tx = UartTx.reset 8 by rw [WbSerial.txO, key]; rfl
  induction t with
  | zero => show s.ser.tx = _; rw [h.ser]; rfl
  | succ t ih =>
    show ((s.run D p t).ser.tx.step D ((s.run D p t).ser.txRdy ((s.run D p t).devReq .serial)) _) = _
    have hn : (s.run D p t).ser.txRdy ((s.run D p t).devReq .serial) = false := by
      cases hc : (s.run D p t).devCyc .serial with
      | false => simp [WbSerial.txRdy, WbSerial.dataReq, devReq, hc]
      | true =>
        simp only [devCyc, Bool.and_eq_true, decide_eq_true_eq] at hc
        have ht := req_target (s.run D p t)
        rw [hc.2] at ht
        rcases portable_cyc h hp hc.1 with hl | ⟨-, hm⟩
        · rw [Req.target, target, if_pos hl] at ht; cases ht
        · simp only [List.mem_cons, List.not_mem_nil, or_false] at hm
          rcases hm with hm | hm | hm <;> rw [Req.target, hm] at ht <;> cases ht
    rw [hn, ih]; rfl

end Atto

namespace AttoCsr
variable {D : Nat} {s : AttoCsr k} {p : Nat → AttoIn}

/-- All requests of a portable program are portable. -/
theorem portable_cyc (h : s.AfterReset) (hp : Portable s.plat (s.run D p 5).cpu.arch) {t : Nat} (hc : (s.run D p t).cpu.cyc = true) :
    (s.run D p t).cpu.req.Portable := by
  obtain ⟨l, d, hb, hl⟩ := request_behaves h (C72_safe h (portable_safe h hp)).1 t hc
  exact portable_requests standard_csr hp hb (traceOf_csr.2 hl)

/-- **C96** (the transmitter, CSR bus): as `Atto.C96_wb_tx`. -/
theorem C96_csr_tx (h : s.AfterReset) (hp : Portable s.plat (s.run D p 5).cpu.arch) (t : Nat) : (s.run D p t).ser.txO = true := by
  suffices key : (s.run D p t).ser.tx = UartTx.reset 8 by rw [CsrSerial.txO, key]; rfl
  induction t with
  | zero => show s.ser.tx = _; rw [h.ser]; rfl
  | succ t ih =>
    show ((s.run D p t).ser.tx.step D (s.run D p t).serStb.wStb _) = _
    have hn : (s.run D p t).serStb.wStb = false := by
      have hb := busInv (D := D) (p := p) h t
      show ((s.run D p t).written .txrx).isSome = false
      unfold written
      rw [hb.wr]
      by_cases h1 : (s.run D p t).bridge.cycle = 1
      · rw [if_pos h1]
        have hc := hb.cycle (by omega)
        obtain ⟨hcy, hdv, -⟩ := ack_periph hc
        have hport := portable_cyc h hp hcy
        have hreg : (s.run D p t).reg ≠ some .txrx := by
          have ht := req_target (s.run D p t)
          rw [hdv] at ht
          rcases hport with hl | ⟨-, hm⟩
          · rw [Req.csrTarget, csrTarget, if_pos hl] at ht; cases ht
          · have e : (s.run D p t).cpu.req.byteAdr = 4 * (s.run D p t).cpu.adr.toNat := rfl
            rw [e] at hm
            simp only [List.mem_cons, List.not_mem_nil, or_false] at hm
            have : ∀ a : BitVec 30, (4 * a.toNat = 0x02000000 ∨ 4 * a.toNat = 0x02000004 ∨ 4 * a.toNat = 0x02000008) →
                a = 0x800000#30 ∨ a = 0x800001#30 ∨ a = 0x800002#30 := by
              intro a ha; bv_omega
            unfold reg
            rcases this _ hm with e | e | e <;> rw [e] <;> decide
        unfold pendW
        cases hr : (s.run D p t).reg with
        | none => cases (s.run D p t).cpu.we && (s.run D p t).cpu.sel.getLsbD 0 <;> rfl
        | some r =>
          rw [hr] at hreg
          cases (s.run D p t).cpu.we && (s.run D p t).cpu.sel.getLsbD 0
          · rfl
          · cases r <;> first | rfl | exact absurd rfl hreg
      · rw [if_neg h1]; rfl
    rw [hn, ih]; rfl

/-- **C96** (every cycle, CSR bus): as `Atto.C96_wb_cycles`. -/
theorem C96_csr_cycles (h : s.AfterReset) (hp : Portable s.plat (s.run D p 5).cpu.arch) (D' : Nat) (p' : Nat → AttoIn) (t : Nat) :
    (s.run D p t).cpu.cyc = (s.run D' p' t).cpu.cyc ∧
    ((s.run D p t).cpu.cyc = true → (s.run D p t).cpu.req = (s.run D' p' t).cpu.req) ∧
    (s.run D p t).ack = (s.run D' p' t).ack ∧ (s.run D p t).plat = (s.run D' p' t).plat := by
  have e5 : ∀ D p, (s.run D p 5).cpu.arch = s.cpu.boot (s.inputs D p 0) := fun D p => by rw [run_cpu, boot5 h.cpu]
  have e0 : s.inputs D p 0 = s.inputs D' p' 0 := rfl
  have hp' : Portable s.plat (s.run D' p' 5).cpu.arch := by rw [e5, ← e0, ← e5]; exact hp
  have hf := portable_fair h hp
  have hf' := portable_fair h hp'
  rw [e5] at hp
  have hbr : ∀ T, (∀ u < T, (s.cpu.run (s.inputs D p) u).traffic = (s.cpu.run (s.inputs D' p') u).traffic) →
      (s.run D p T).ram.ack = (s.run D' p' T).ram.ack ∧ (s.run D p T).bridge.cycle = (s.run D' p' T).bridge.cycle ∧
      (s.run D p T).bridge.ack = (s.run D' p' T).bridge.ack := by
    intro T
    induction T with
    | zero => intro _; exact ⟨rfl, rfl, rfl⟩
    | succ T ih =>
      intro hT
      obtain ⟨i1, i2, i3⟩ := ih fun u hu => hT u (by omega)
      obtain ⟨h1, h2⟩ := traffic_adr (hT T (by omega))
      rw [← run_cpu, ← run_cpu] at h1
      rw [← run_cpu, ← run_cpu] at h2
      have hd : ∀ d, (s.run D p T).devCyc d = (s.run D' p' T).devCyc d := by
        intro d
        rw [devCyc, devCyc, ← h1]
        cases hc : (s.run D p T).cpu.cyc
        · rfl
        · rw [dev, dev, h2 hc]
      refine ⟨?_, ?_, ?_⟩
      · show ((s.run D p T).step D (p T)).ram.ack = ((s.run D' p' T).step D' (p' T)).ram.ack
        rw [step_ramAck, step_ramAck, hd, i1]
      · show ((s.run D p T).step D (p T)).bridge.cycle = ((s.run D' p' T).step D' (p' T)).bridge.cycle
        rw [step_cycle, step_cycle, hd, i2, i3]
      · show ((s.run D p T).step D (p T)).bridge.ack = ((s.run D' p' T).step D' (p' T)).bridge.ack
        rw [step_bridge, step_bridge]
        simp only [WbCsr.step, hd, i2, i3]
  have hack : ∀ T, (∀ u ≤ T, (s.cpu.run (s.inputs D p) u).traffic = (s.cpu.run (s.inputs D' p') u).traffic) →
      (s.inputs D p T).ack = (s.inputs D' p' T).ack := by
    intro T hT
    show (s.run D p T).ack = (s.run D' p' T).ack
    obtain ⟨h1, h2⟩ := traffic_adr (hT T (Nat.le_refl T))
    rw [← run_cpu, ← run_cpu] at h1
    rw [← run_cpu, ← run_cpu] at h2
    obtain ⟨b1, -, b3⟩ := hbr T fun u hu => hT u (by omega)
    cases hc : (s.run D p T).cpu.cyc
    · have key : ∀ D p, (s.run D p T).cpu.cyc = false → (s.run D p T).ack = false := by
        intro D p hc
        cases ha : (s.run D p T).ack
        · rfl
        · rw [(ack_cyc h ha).1] at hc; cases hc
      rw [key D p hc, key D' p' (h1 ▸ hc)]
    · unfold ack
      rw [dev, dev, h2 hc, b1, b3]
  have key := portable_cycles standard_csr h.cpu (registered (D := D) (p := p) h) (registered (D := D') (p := p') h) hf hf' e0 hp
    (fun n => traceOf_csr.2 (inv h n).1) (fun n => traceOf_csr.2 (inv h n).1) (c := busTime) busTime_mute
    (fun he => by have := (C72_cycles h he).1; rw [run_cpu] at this; exact this)
    (fun he => by have := (C72_cycles h he).1; rw [run_cpu] at this; exact this)
    (seven_le h.cpu (registered h) (five h)) (seven_le h.cpu (registered h) (five h)) (dispatch_seven h) (dispatch_seven h) hack
  obtain ⟨k1, k2, k3, -⟩ := key t
  rw [run_cpu, run_cpu]
  refine ⟨k1, k2, k3, ?_⟩
  cases t with
  | zero => rfl
  | succ t =>
    have htr : ∀ u, (s.cpu.run (s.inputs D p) u).traffic = (s.cpu.run (s.inputs D' p') u).traffic := by
      intro u
      obtain ⟨c1, c2, -⟩ := key u
      unfold State.traffic
      cases hc : (s.cpu.run (s.inputs D p) u).cyc
      · rw [← c1, hc]; rfl
      · rw [← c1, hc, if_pos rfl, if_pos rfl]
        have := congrArg Req.traffic (c2 hc)
        exact congrArg some this
    obtain ⟨b1, b2, -⟩ := hbr (t + 1) fun u _ => htr u
    have hpl : s.plat.afterAllCsr (s.cpu.events (s.inputs D p) 1 t) = s.plat.afterAllCsr (s.cpu.events (s.inputs D' p') 1 t) := by
      rw [← afterOf_csr, ← afterOf_csr, ← afterOf_reqs, (key t).2.2.2, afterOf_reqs]
    have i := (inv (D := D) (p := p) h t).2.plat
    have j := (inv (D := D') (p := p') h t).2.plat
    have hb := busInv (D := D) (p := p) h (t + 1)
    have hD : Done (s.run D p (t + 1)) ↔ Done (s.run D' p' (t + 1)) := by unfold Done; rw [b1, b2]
    by_cases hd : Done (s.run D p (t + 1))
    · have hc : (s.run D p (t + 1)).cpu.cyc = true := by
        rcases hd with hd | hd
        · exact (ack_ram (hb.ramAck hd)).1
        · exact (ack_periph (hb.cycle (by omega))).1
      rw [run_cpu] at hc
      rw [i, j, if_pos hd, if_pos (hD.1 hd), hpl, run_cpu, run_cpu, k2 hc]
    · rw [i, j, if_neg hd, if_neg (fun h' => hd (hD.2 h')), hpl]

end AttoCsr

/-- The hypotheses of the theorems of this file are met by the prime number firmware on either SoC at power-on, with any pins. -/
example (D D' : Nat) (p p' : Nat → AttoIn) :
    ((Atto.attoDemo primesProgram).AfterReset ∧ Portable (Atto.attoDemo primesProgram).plat ((Atto.attoDemo primesProgram).run D p 5).cpu.arch) ∧
    ((AttoCsr.csrDemo primesProgram).AfterReset ∧ Portable (AttoCsr.csrDemo primesProgram).plat ((AttoCsr.csrDemo primesProgram).run D' p' 5).cpu.arch) := by
  have h := Atto.attoDemo_reset primesProgram
  have h' := AttoCsr.csrDemo_reset primesProgram
  have hM : HoldsProgram (Atto.attoDemo primesProgram).ram.mem primesProgram := fun i hi => by
    have : ∀ i : _root_.Fin 28, (Atto.attoDemo primesProgram).ram.mem (BitVec.ofNat 5 i) = primesProgram[i.val]'i.isLt := by decide +kernel
    exact this ⟨i, hi⟩
  refine ⟨⟨h, ?_⟩, h', ?_⟩
  · obtain ⟨h1, h2, -⟩ := C01_trace h.cpu (Atto.registered (D := D) (p := p) h) 0
    rw [← Atto.run_cpu] at h1 h2
    exact C96_primes hM h1 h2 rfl
  · obtain ⟨h1, h2, -⟩ := C01_trace h'.cpu (AttoCsr.registered (D := D') (p := p') h') 0
    rw [← AttoCsr.run_cpu] at h1 h2
    exact C96_primes hM h1 h2 rfl

end Sentinel
