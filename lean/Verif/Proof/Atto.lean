import Verif.Soc.Atto
import Verif.Spec.Platform
import Verif.Proof.SocRun
/-!
# The example SoC: invariant of the bus
-/

set_option linter.unusedSimpArgs false

namespace Sentinel
open Ucode Spec

/-- A subordinate of the model in the terms of the memory map. -/
def AttoDev.target : AttoDev → Target
  | .ram => .ram
  | .leds => .leds
  | .timer => .timer
  | .serial => .serial

theorem attoDecode_eq (adr : BitVec 30) : (attoDecode adr).map AttoDev.target = target (4 * adr.toNat) := by
  have h1 : ∀ c : BitVec 7, adr.extractLsb' 23 7 = c ↔ adr.toNat / 2 ^ 23 % 2 ^ 7 = c.toNat := by
    intro c
    rw [← BitVec.toNat_inj, BitVec.extractLsb'_toNat, Nat.shiftRight_eq_div_pow]
  have h2 : ∀ c : BitVec 2, adr.extractLsb' 28 2 = c ↔ adr.toNat / 2 ^ 28 % 2 ^ 2 = c.toNat := by
    intro c
    rw [← BitVec.toNat_inj, BitVec.extractLsb'_toNat, Nat.shiftRight_eq_div_pow]
  have hlt := adr.isLt
  unfold attoDecode target
  simp only [h1, h2]
  simp only [show (0b0000000#7).toNat = 0 from rfl, show (0b0000001#7).toNat = 1 from rfl,
    show (0b01#2).toNat = 1 from rfl, show (0b10#2).toNat = 2 from rfl]
  repeat' split
  all_goals first | rfl | omega

namespace Atto
variable {k D : Nat} {s : Atto k} {p : Nat → AttoIn}

theorem req_target (s : Atto k) : s.cpu.req.target = s.dev.map AttoDev.target := by
  rw [dev, attoDecode_eq]; rfl

theorem run_cpu (D : Nat) (s : Atto k) (p : Nat → AttoIn) (n : Nat) :
    (s.run D p n).cpu = s.cpu.run (s.inputs D p) n := by
  induction n with
  | zero => rfl
  | succ n ih => simp only [run, State.run, step, ih]; rfl

theorem stb_cyc (σ : State) : σ.stb = σ.cyc := rfl

theorem plat_idle (D : Nat) (s : Atto k) (q : AttoIn) (h : s.cpu.cyc = false) :
    (s.step D q).plat = s.plat := by
  simp [plat, step, WbMem.step, WbLeds.step, devReq, devCyc, stb_cyc, h]

theorem low_byte (σ : State) (h : σ.sel.getLsbD 0 = true) (hw : σ.we = true) :
    byteOf σ.req.data 0 = σ.datW.setWidth 8 := by
  have := laneMask_byte σ.sel 0
  simp only [State.req, hw, if_true, byteOf_and]
  rw [show byteOf (laneMask σ.sel) 0 = 0xFF#8 from this.trans (if_pos h), and_ff]
  apply BitVec.eq_of_getLsbD_eq; intro i hi
  simp [-BitVec.getLsbD_eq_getElem, byteOf, BitVec.getLsbD_extractLsb', hi]

theorem low_adr (σ : State) (n : Nat) (hn : n < 4) : σ.adr.setWidth 2 = BitVec.ofNat 2 n ↔
    σ.req.byteAdr / 4 % 4 = n := by
  rw [← BitVec.toNat_inj, BitVec.toNat_setWidth, BitVec.toNat_ofNat]
  simp only [Req.byteAdr, State.req]
  omega

theorem lowAdr_lt (σ : State) : σ.req.byteAdr / 4 % 4 < 4 := Nat.mod_lt _ (by omega)

/-- First cycle of a request: everything but the LEDs is written. -/
theorem plat_first (D : Nat) (s : Atto k) (q : AttoIn) (h : s.cpu.cyc = true) (ha : s.ack = false) :
    (s.step D q).plat = { s.plat.after s.cpu.req with leds := s.leds.leds } := by
  have ht := req_target s
  cases hw : s.cpu.we
  · have : s.cpu.req.we = false := hw
    simp [plat, step, WbMem.step, WbLeds.step, Plat.after, this, stb_cyc, h, hw, devReq]
  · have hw' : s.cpu.req.we = true := hw
    have hb := low_byte s.cpu
    have h0 := low_adr s.cpu 0 (by omega)
    have h1 := low_adr s.cpu 1 (by omega)
    have h2 := low_adr s.cpu 2 (by omega)
    have hlt := lowAdr_lt s.cpu
    unfold ack at ha
    unfold Plat.after
    rw [ht]
    cases hd : s.dev with
    | none => simp [plat, step, WbMem.step, WbLeds.step, devReq, devCyc, hd, hw']
    | some d =>
      cases d with
      | ram =>
        simp only [Option.map_some, AttoDev.target, hw', if_true]
        rw [plat, Soc.after_req _ _ hw]
        simp [plat, step, WbMem.step, WbLeds.step, devReq, devCyc, hd, hw, h, stb_cyc]
      | timer | serial =>
        simp [plat, step, WbMem.step, WbLeds.step, devReq, devCyc, hd, hw', AttoDev.target]
      | leds =>
        rw [hd] at ha
        simp only [Option.map_some, AttoDev.target, hw', if_true]
        cases hs : s.cpu.sel.getLsbD 0
        · simp [-BitVec.getLsbD_eq_getElem, plat, step, WbMem.step, WbLeds.step, devReq, devCyc, hd, hw, h, stb_cyc, State.req, hs]
        · rw [hb hs hw]
          have hs' : s.cpu.req.sel.getLsbD 0 = true := hs
          rw [hs', if_pos rfl]
          generalize hn : s.cpu.req.byteAdr / 4 % 4 = n at *
          have e0 : (s.cpu.adr.setWidth 2 == (0 : BitVec 2)) = decide (n = 0) := by
            rw [Bool.eq_iff_iff]; simpa using h0
          have e1 : (s.cpu.adr.setWidth 2 == (1 : BitVec 2)) = decide (n = 1) := by
            rw [Bool.eq_iff_iff]; simpa using h1
          have e2 : (s.cpu.adr.setWidth 2 == (2 : BitVec 2)) = decide (n = 2) := by
            rw [Bool.eq_iff_iff]; simpa using h2
          simp only [plat, step, WbMem.step, WbLeds.step, devReq, devCyc, hd, hw, h, stb_cyc, hs, ha, e0, e1, e2]
          obtain rfl | rfl | rfl | rfl : n = 0 ∨ n = 1 ∨ n = 2 ∨ n = 3 := by omega
          all_goals simp [Plat.setLeds]

/-- Cycle of the acknowledgement: the LEDs are written, and the RAM once more. -/
theorem plat_second (D : Nat) (s : Atto k) (q : AttoIn) (P : Plat k) (h : s.cpu.cyc = true)
    (ha : s.ack = true) (hp : s.plat = { P.after s.cpu.req with leds := P.leds }) :
    (s.step D q).plat = P.after s.cpu.req := by
  have ht := req_target s
  obtain ⟨e1, e2, e3, e4⟩ : s.ram.mem = (P.after s.cpu.req).ram ∧ s.leds.leds = P.leds ∧
      s.leds.gpioO = (P.after s.cpu.req).gpioO ∧ s.leds.gpioOe = (P.after s.cpu.req).gpioOe := by
    simp only [plat, Plat.mk.injEq] at hp; exact hp
  have ext : ∀ Q : Plat k, Q.ram = (s.step D q).ram.mem → Q.leds = (s.step D q).leds.leds →
      Q.gpioO = (s.step D q).leds.gpioO → Q.gpioOe = (s.step D q).leds.gpioOe → (s.step D q).plat = Q := by
    rintro ⟨_, _, _, _⟩ h1 h2 h3 h4
    simp only [plat]; congr <;> exact (by assumption : _ = _).symm
  refine ext _ ?_ ?_ ?_ ?_
  · -- RAM
    unfold Plat.after at e1 ⊢
    rw [ht] at e1 ⊢
    cases hw : s.cpu.we
    · have : s.cpu.req.we = false := hw
      simp only [this] at e1 ⊢
      simp [step, WbMem.step, hw, e1]
    · have hw' : s.cpu.req.we = true := hw
      simp only [hw', if_true] at e1 ⊢
      cases hd : s.dev with
      | none => simp [hd] at e1; simp [step, WbMem.step, devCyc, hd, e1]
      | some d =>
        cases d with
        | ram =>
          simp only [hd, Option.map_some, AttoDev.target] at e1 ⊢
          have e5 := Soc.after_req s.ram.mem s.cpu hw
          rw [e1, Soc.after_req_idem] at e5
          simp only [step, WbMem.step, devCyc, hd, h, stb_cyc, hw, decide_true, Bool.and_self, if_true]
          rw [e1]; exact e5
        | timer | serial => simp [hd, AttoDev.target] at e1; simp [step, WbMem.step, devCyc, hd, e1, AttoDev.target]
        | leds =>
          simp only [hd, Option.map_some, AttoDev.target] at e1 ⊢
          simp only [step, WbMem.step, devCyc, hd]
          simp [e1]
  · -- LEDs
    cases hw : s.cpu.we
    · have : s.cpu.req.we = false := hw
      simp [Plat.after, this, step, WbLeds.step, devReq, hw, e2]
    · have hw' : s.cpu.req.we = true := hw
      unfold Plat.after ack at *
      rw [ht]
      simp only [hw', if_true]
      cases hd : s.dev with
      | none => simp [step, WbLeds.step, devReq, devCyc, hd, e2]
      | some d =>
        cases d with
        | ram | timer | serial => simp [step, WbLeds.step, devReq, devCyc, hd, e2, AttoDev.target]
        | leds =>
          rw [hd] at ha
          simp only [Option.map_some, AttoDev.target]
          have hb := low_byte s.cpu
          have h0 := low_adr s.cpu 0 (by omega)
          have hlt := lowAdr_lt s.cpu
          have hs' : s.cpu.req.sel = s.cpu.sel := rfl
          rw [hs']
          cases hs : s.cpu.sel.getLsbD 0
          · simp [-BitVec.getLsbD_eq_getElem, step, WbLeds.step, devReq, devCyc, hd, hs, e2]
          · rw [hb hs hw, if_pos rfl]
            generalize hn : s.cpu.req.byteAdr / 4 % 4 = n at *
            have e0 : (s.cpu.adr.setWidth 2 == (0 : BitVec 2)) = decide (n = 0) := by
              rw [Bool.eq_iff_iff]; simpa using h0
            simp only [step, WbLeds.step, devReq, devCyc, hd, hw, h, stb_cyc, hs, ha, e0]
            obtain rfl | rfl | rfl | rfl : n = 0 ∨ n = 1 ∨ n = 2 ∨ n = 3 := by omega
            all_goals simp [Plat.setLeds, e2]
  · rw [← e3]
    cases hd : s.dev with
    | none => simp [step, WbLeds.step, devReq, devCyc, hd]
    | some d =>
      cases d with
      | ram | timer | serial => simp [step, WbLeds.step, devReq, devCyc, hd]
      | leds =>
        unfold ack at ha
        rw [hd] at ha
        simp [step, WbLeds.step, ha]
  · rw [← e4]
    cases hd : s.dev with
    | none => simp [step, WbLeds.step, devReq, devCyc, hd]
    | some d =>
      cases d with
      | ram | timer | serial => simp [step, WbLeds.step, devReq, devCyc, hd]
      | leds =>
        unfold ack at ha
        rw [hd] at ha
        simp [step, WbLeds.step, ha]

/-- An acknowledgement of a subordinate answers a request of the cycle before. -/
theorem acks_step (D : Nat) (s : Atto k) (q : AttoIn) :
    ((s.step D q).ram.ack = true → s.devCyc .ram = true ∧ s.ack = false) ∧
    ((s.step D q).leds.ack = true → s.devCyc .leds = true ∧ s.ack = false) ∧
    ((s.step D q).timer.ack = true → s.devCyc .timer = true ∧ s.ack = false) ∧
    ((s.step D q).ser.ack = true → s.devCyc .serial = true ∧ s.ack = false) := by
  refine ⟨?_, ?_, ?_, ?_⟩ <;> intro h <;>
    simp only [step, WbMem.step, WbLeds.step, WbTimer.step, WbSerial.step, devReq, stb_cyc,
      Bool.and_eq_true, Bool.not_eq_true'] at h <;>
    refine ⟨h.1.2, ?_⟩ <;>
    · have hd := h.1.2
      simp only [devCyc, Bool.and_eq_true, decide_eq_true_eq] at hd
      simp only [ack, hd.2]
      exact h.2

/-- The core is acknowledged exactly by the subordinate it asked in the cycle before. -/
theorem ack_step (D : Nat) (s : Atto k) (q : AttoIn) (h : (s.step D q).dev = s.dev) :
    (s.step D q).ack = (s.cpu.cyc && s.dev.isSome && !s.ack) := by
  unfold ack
  rw [h]
  cases hd : s.dev with
  | none => simp
  | some d =>
    cases d <;> simp [step, WbMem.step, WbLeds.step, WbTimer.step, WbSerial.step, devReq, devCyc, stb_cyc, hd]

theorem ack_of_step (D : Nat) (s : Atto k) (q : AttoIn) (h : (s.step D q).ack = true) :
    s.cpu.cyc = true ∧ s.ack = false ∧ (s.step D q).dev = s.dev := by
  obtain ⟨h1, h2, h3, h4⟩ := acks_step D s q
  have key : ∀ d, s.devCyc d = true ∧ s.ack = false → (s.step D q).dev = some d →
      s.cpu.cyc = true ∧ s.ack = false ∧ (s.step D q).dev = s.dev := by
    intro d ⟨hc, ha⟩ hd
    simp only [devCyc, Bool.and_eq_true, decide_eq_true_eq] at hc
    exact ⟨hc.1, ha, by rw [hd, hc.2]⟩
  cases hd : (s.step D q).dev with
  | none => simp [ack, hd] at h
  | some d =>
    cases d <;> simp only [ack, hd] at h
    · exact hd ▸ key _ (h1 h) hd
    · exact hd ▸ key _ (h2 h) hd
    · exact hd ▸ key _ (h3 h) hd
    · exact hd ▸ key _ (h4 h) hd

theorem AfterReset.noAck (h : AfterReset s) : s.ack = false := by
  unfold ack
  cases s.dev with
  | none => rfl
  | some d =>
    cases d
    · exact h.ram
    · simp only; rw [h.leds]
    · simp only; rw [h.timer]
    · simp only; rw [h.ser]; rfl

theorem registered (h : AfterReset s) : s.cpu.RegisteredAck (s.inputs D p) := by
  intro t ht
  cases t with
  | zero => exact h.noAck
  | succ t =>
    cases ha : (s.inputs D p (t + 1)).ack
    · rfl
    · obtain ⟨hc, -, -⟩ := ack_of_step D (s.run D p t) (p t) ha
      rw [run_cpu, ht.2 t rfl] at hc; cases hc

theorem stable (h : AfterReset s) {t : Nat} (hc : (s.run D p t).cpu.cyc = true)
    (ha : (s.run D p t).ack = false) : (s.run D p (t + 1)).cpu.cyc = true ∧
      (s.run D p (t + 1)).cpu.req = (s.run D p t).cpu.req ∧ (s.run D p (t + 1)).dev = (s.run D p t).dev ∧
      (s.run D p (t + 1)).cpu.we = (s.run D p t).cpu.we ∧ (s.run D p (t + 1)).cpu.adr = (s.run D p t).cpu.adr := by
  have hst := C23_stable (t := t) h.cpu (s.inputs D p)
  rw [← run_cpu, ← run_cpu] at hst
  obtain ⟨c1, -, c3, c4, c5, c6⟩ := hst hc ha
  exact ⟨c1, Soc.req_of c3 c4 c5 c6, by rw [dev, dev, c3], c5, c3⟩

theorem plat_obs (σ : State) (i : Input) (P : Plat k) :
    P.afterAll (σ.obs i) = if σ.cyc && i.ack then P.after σ.req else P := by
  unfold State.obs
  cases σ.cyc && i.ack <;> cases σ.polls <;> rfl

theorem platTrace_obs (σ : State) (i : Input) (P : Plat k) :
    PlatTrace P (σ.obs i) ↔ (σ.cyc = true → i.ack = true → P.Answers σ.req i.datR) := by
  unfold State.obs
  cases hc : σ.cyc <;> cases ha : i.ack <;> cases σ.polls <;>
    simp [PlatTrace]

theorem cyc_zero (h : AfterReset s) : s.cpu.cyc = false := by
  have hs : ∃ u mem rd, s.cpu = State.resetRegs u mem rd := by
    rcases h.cpu with h | ⟨σ, en, i, -, h⟩ <;> exact ⟨_, _, _, h⟩
  exact (boot_run hs (fun _ => {})).1 0 (by omega)

/-- What holds of the platform in cycle `t + 1`. -/
theorem inv (h : AfterReset s) (t : Nat) :
    PlatTrace s.plat (s.cpu.events (s.inputs D p) 1 t) ∧
    ((s.run D p (t + 1)).ack = false →
      (s.run D p (t + 1)).plat = s.plat.afterAll (s.cpu.events (s.inputs D p) 1 t)) ∧
    ((s.run D p (t + 1)).ack = true → (s.run D p (t + 1)).cpu.cyc = true ∧
      (s.run D p (t + 1)).plat =
        { (s.plat.afterAll (s.cpu.events (s.inputs D p) 1 t)).after (s.run D p (t + 1)).cpu.req with
          leds := (s.plat.afterAll (s.cpu.events (s.inputs D p) 1 t)).leds } ∧
      ((s.run D p (t + 1)).cpu.we = false → (s.run D p (t + 1)).dev = some .ram →
        (s.run D p (t + 1)).ram.rdata =
          (s.plat.afterAll (s.cpu.events (s.inputs D p) 1 t)).ram ((s.run D p (t + 1)).cpu.adr.setWidth k))) := by
  induction t with
  | zero =>
    have hc := cyc_zero h
    refine ⟨trivial, ?_, ?_⟩
    · intro _; exact plat_idle D s (p 0) hc
    · intro ha
      have := (ack_of_step D s (p 0) ha).1
      rw [hc] at this; cases this
  | succ t ih =>
    obtain ⟨i1, i2, i3⟩ := ih
    rw [State.events_snoc, Nat.add_comm 1 t, PlatTrace.append, Plat.afterAll_append, platTrace_obs, plat_obs,
      ← run_cpu]
    generalize hM : s.plat.afterAll (s.cpu.events (s.inputs D p) 1 t) = P at *
    have hst : s.run D p (t + 1 + 1) = (s.run D p (t + 1)).step D (p (t + 1)) := rfl
    have hack : (s.inputs D p (t + 1)).ack = (s.run D p (t + 1)).ack := rfl
    have hdat : (s.inputs D p (t + 1)).datR = (s.run D p (t + 1)).datR := rfl
    have hstable := stable (D := D) (p := p) h (t := t + 1)
    have hnext := ack_of_step D (s.run D p (t + 1)) (p (t + 1))
    rw [← hst] at hnext
    rw [hack, hdat]
    generalize hσ : s.run D p (t + 1) = σ at *
    cases ha : σ.ack
    · have hm := i2 ha
      refine ⟨⟨i1, by intro _ h; cases h⟩, ?_, ?_⟩
      · intro ha'
        simp only [Bool.and_false, if_false, Bool.false_eq_true]
        cases hc : σ.cpu.cyc
        · rw [hst, plat_idle _ _ _ hc, hm]
        · -- a request nobody answers
          obtain ⟨-, -, c3, -, -⟩ := hstable hc ha
          have hn := ack_step D σ (p (t + 1)) (by rw [← hst]; exact c3)
          rw [← hst, ha', hc, ha] at hn
          have hd : σ.dev = none := by
            cases hd : σ.dev with
            | none => rfl
            | some d => simp [hd] at hn
          rw [hst, plat_first _ _ _ hc ha, hm]
          simp only [Plat.after]
          rw [req_target, hd]
          have : σ.leds.leds = P.leds := by rw [← hm]; rfl
          rw [this]
          split <;> rfl
      · intro ha'
        obtain ⟨hc, -, hd⟩ := hnext ha'
        obtain ⟨c1, c2, c3, c4, c5⟩ := hstable hc ha
        simp only [Bool.and_false, if_false, Bool.false_eq_true]
        refine ⟨c1, ?_, ?_⟩
        · rw [c2, hst, plat_first _ _ _ hc ha, hm]
          have : σ.leds.leds = P.leds := by rw [← hm]; rfl
          rw [this]
        · intro hw hr
          rw [c4] at hw
          rw [c3] at hr
          rw [c5, hst]
          have : P.ram = σ.ram.mem := by rw [← hm]; rfl
          simp [step, WbMem.step, hw, devCyc, hr, hc, stb_cyc, this]
    · obtain ⟨hc, hm, hr⟩ := i3 ha
      refine ⟨⟨i1, ?_⟩, ?_, ?_⟩
      · intro _ _
        have ht := req_target σ
        cases hd : σ.dev with
        | none => simp [ack, hd] at ha
        | some d =>
          refine ⟨d.target, by rw [ht, hd]; rfl, fun hw => ?_⟩
          cases d with
          | ram => simp only [AttoDev.target, if_true, datR, hd]; exact hr hw hd
          | leds | timer | serial =>
            rw [if_neg (by simp [AttoDev.target])]
            simp only [datR, hd, BitVec.toNat_setWidth]
            have := BitVec.isLt (σ.leds.datR); have := BitVec.isLt (σ.timer.datR)
            have := BitVec.isLt (σ.ser.datR)
            omega
      · intro _
        rw [hst, plat_second _ _ _ P hc ha hm, hc]; rfl
      · intro ha'
        have := (hnext ha').2.1
        rw [ha] at this; cases this

/-- At a dispatch no request is under way. -/
theorem dispatch_plat (h : AfterReset s) {t : Nat} (hd : s.cpu.Dispatching (s.inputs D p) t) :
    (s.run D p t).plat = s.plat.afterAll (s.cpu.events (s.inputs D p) 1 (t - 1)) := by
  obtain ⟨t, rfl⟩ : ∃ t', t = t' + 1 := ⟨t - 1, by have := hd.1; omega⟩
  refine (inv h t).2.1 ?_
  cases ha : (s.run D p (t + 1)).ack
  · rfl
  · have hc := ((inv (D := D) (p := p) h t).2.2 ha).1
    rw [run_cpu] at hc
    have hu := hd.2
    rw [rom_01] at hu
    simp [State.cyc, hu, u_01] at hc

/-- Every request so far is to an address where something is. -/
theorem fair (h : AfterReset s) (hm : ∀ t, (s.run D p t).cpu.cyc = true → (s.run D p t).dev.isSome) :
    s.cpu.FairAck (s.inputs D p) := by
  intro t hc
  cases ha : (s.inputs D p t).ack
  · rw [← run_cpu] at hc
    have ha' : (s.run D p t).ack = false := ha
    obtain ⟨-, -, c3, -, -⟩ := stable (D := D) (p := p) h hc ha'
    refine ⟨t + 1, by omega, .inr ?_⟩
    have := ack_step D (s.run D p t) (p t) c3
    rw [hc, hm t hc, ha'] at this
    exact this
  · exact ⟨t, by omega, .inr ha⟩

/-- A request to an address where nothing is stays on the bus for ever. -/
theorem hang (h : AfterReset s) {t : Nat} (hc : (s.run D p t).cpu.cyc = true) (hd : (s.run D p t).dev = none)
    (n : Nat) : (s.run D p (t + n)).cpu.cyc = true ∧ (s.run D p (t + n)).cpu.req = (s.run D p t).cpu.req ∧
      (s.run D p (t + n)).dev = none := by
  induction n with
  | zero => exact ⟨hc, rfl, hd⟩
  | succ n ih =>
    obtain ⟨i1, i2, i3⟩ := ih
    have ha : (s.run D p (t + n)).ack = false := by simp [ack, i3]
    obtain ⟨c1, c2, c3, -, -⟩ := stable (D := D) (p := p) h i1 ha
    exact ⟨c1, c2.trans i2, c3.trans i3⟩

end Atto

end Sentinel
