import Verif.Soc.AttoCsr
import Verif.Proof.Atto
/-!
# The example SoC with the CSR bus: invariant of the bus
-/

set_option linter.unusedSimpArgs false

namespace Sentinel
open Ucode Spec

/-- A subordinate of the model in the terms of the memory map. -/
def CsrDev.target : CsrDev → CsrTarget
  | .ram => .ram
  | .periph => .periph

/-- Byte address of a register. -/
def CsrReg.byteAdr : CsrReg → Nat
  | .leds => 0x02000000
  | .inout => 0x02000004
  | .oe => 0x02000008
  | .timer => 0x02800000
  | .txrx => 0x03000000
  | .irq => 0x03000004

theorem csrSocDecode_eq (adr : BitVec 30) : (csrSocDecode adr).map CsrDev.target = csrTarget (4 * adr.toNat) := by
  have h1 : ∀ c : BitVec 7, adr.extractLsb' 23 7 = c ↔ adr.toNat / 2 ^ 23 % 2 ^ 7 = c.toNat := by
    intro c
    rw [← BitVec.toNat_inj, BitVec.extractLsb'_toNat, Nat.shiftRight_eq_div_pow]
  have hlt := adr.isLt
  unfold csrSocDecode csrTarget
  simp only [h1]
  simp only [show (0b0000000#7).toNat = 0 from rfl, show (0b0000001#7).toNat = 1 from rfl]
  repeat' split
  all_goals first | rfl | omega

theorem csrAddr_toNat (adr : BitVec 30) (c : Nat) : (adr.setWidth 23 ++ BitVec.ofNat 2 c : BitVec 25).toNat = adr.toNat % 2 ^ 23 * 4 + c % 4 := by
  rw [BitVec.toNat_append, BitVec.toNat_setWidth, BitVec.toNat_ofNat, Nat.shiftLeft_eq, ← Nat.shiftLeft_eq,
    ← Nat.shiftLeft_add_eq_or_of_lt (by omega), Nat.shiftLeft_eq]

/-- The other bytes of a word are no registers. -/
theorem csrReg_lane (adr : BitVec 30) {c : Nat} (h : c % 4 ≠ 0) : csrReg (adr.setWidth 23 ++ BitVec.ofNat 2 c : BitVec 25) = none := by
  have hn := csrAddr_toNat adr c
  unfold csrReg
  simp only [← BitVec.toNat_inj, hn]
  simp only [BitVec.toNat_ofNat]
  repeat' split
  all_goals first | rfl | omega

theorem csrReg_addr (adr : BitVec 30) (h : csrSocDecode adr = some .periph) (r : CsrReg) :
    csrReg (adr.setWidth 23 ++ BitVec.ofNat 2 0 : BitVec 25) = some r ↔ 4 * adr.toNat = r.byteAdr := by
  have hn := csrAddr_toNat adr 0
  have hp : adr.toNat / 2 ^ 23 = 1 := by
    have h1 := csrSocDecode_eq adr
    rw [h] at h1
    unfold csrTarget at h1
    revert h1
    repeat' split
    all_goals first | (intro h1; omega) | (intro h1; cases h1)
  unfold csrReg
  simp only [← BitVec.toNat_inj, hn]
  simp only [BitVec.toNat_ofNat]
  cases r <;> simp only [CsrReg.byteAdr] <;> repeat' split
  all_goals first
    | (constructor <;> intro hh <;> first | (cases hh; done) | omega)
    | (simp; omega)

namespace AttoCsr
variable {k D : Nat} {s : AttoCsr k} {p : Nat → AttoIn}

theorem req_target (s : AttoCsr k) : s.cpu.req.csrTarget = s.dev.map CsrDev.target := by
  rw [dev, csrSocDecode_eq]; rfl

theorem run_cpu (D : Nat) (s : AttoCsr k) (p : Nat → AttoIn) (n : Nat) :
    (s.run D p n).cpu = s.cpu.run (s.inputs D p) n := by
  induction n with
  | zero => rfl
  | succ n ih => simp only [run, State.run, step, ih]; rfl

/-- The request is the same as in the cycle before. -/
structure Same (σ τ : AttoCsr k) : Prop where
  cyc : τ.cpu.cyc = σ.cpu.cyc
  req : τ.cpu.req = σ.cpu.req
  adr : τ.cpu.adr = σ.cpu.adr
  we : τ.cpu.we = σ.cpu.we
  sel : τ.cpu.sel = σ.cpu.sel
  datW : τ.cpu.datW = σ.cpu.datW

theorem Same.dev {σ τ : AttoCsr k} (h : Same σ τ) : τ.dev = σ.dev := by rw [AttoCsr.dev, h.adr]; rfl

theorem Same.devCyc {σ τ : AttoCsr k} (h : Same σ τ) (d : CsrDev) : τ.devCyc d = σ.devCyc d := by
  unfold AttoCsr.devCyc; rw [h.cyc, h.dev]

theorem Same.trans {σ τ υ : AttoCsr k} (h : Same σ τ) (h' : Same τ υ) : Same σ υ :=
  ⟨h'.cyc.trans h.cyc, h'.req.trans h.req, h'.adr.trans h.adr, h'.we.trans h.we, h'.sel.trans h.sel, h'.datW.trans h.datW⟩

theorem stable (h : AfterReset s) {t : Nat} (hc : (s.run D p t).cpu.cyc = true)
    (ha : (s.run D p t).ack = false) : Same (s.run D p t) (s.run D p (t + 1)) := by
  have hst := C23_stable (t := t) h.cpu (s.inputs D p)
  rw [← run_cpu, ← run_cpu] at hst
  obtain ⟨c1, -, c3, c4, c5, c6⟩ := hst hc ha
  exact ⟨by rw [c1, hc], Soc.req_of c3 c4 c5 c6, c3, c5, c4, c6⟩

/-- The register that the request is for. -/
def reg (σ : AttoCsr k) : Option CsrReg := csrReg (σ.cpu.adr.setWidth 23 ++ BitVec.ofNat 2 0)

/-- The write that the request makes. -/
def pendW (σ : AttoCsr k) : Option (CsrReg × BitVec 8) :=
  if σ.cpu.we && σ.cpu.sel.getLsbD 0 then σ.reg.map fun r => (r, σ.cpu.datW.extractLsb' 0 8) else none

/-- The register can be read, and the request is for its byte. -/
def Readable (σ : AttoCsr k) : Prop := σ.cpu.sel.getLsbD 0 = true ∧ ∃ r, σ.reg = some r ∧ r ≠ .leds ∧ r ≠ .oe

theorem Same.pendW {σ τ : AttoCsr k} (h : Same σ τ) : τ.pendW = σ.pendW := by
  unfold AttoCsr.pendW reg; rw [h.we, h.sel, h.adr, h.datW]

theorem Same.readable {σ τ : AttoCsr k} (h : Same σ τ) : Readable τ ↔ Readable σ := by
  unfold Readable reg; rw [h.sel, h.adr]

/-- What holds of the bus. -/
structure BusInv (σ : AttoCsr k) : Prop where
  ramAck : σ.ram.ack = true → σ.devCyc .ram = true
  cycle : 0 < σ.bridge.cycle → σ.devCyc .periph = true
  le : σ.bridge.cycle ≤ 4
  ack : σ.bridge.ack = true → σ.bridge.cycle = 4
  wr : σ.bus.w = if σ.bridge.cycle = 1 then σ.pendW else none
  rd : σ.bridge.cycle ≠ 1 → σ.bus.rData = 0
  rd1 : σ.bridge.cycle = 1 → ¬ Readable σ → σ.bus.rData = 0
  b0 : 2 ≤ σ.bridge.cycle → ¬ Readable σ → σ.bridge.b0 = 0
  b1 : 3 ≤ σ.bridge.cycle → σ.bridge.b1 = 0
  b2 : 4 ≤ σ.bridge.cycle → σ.bridge.b2 = 0
  b3 : σ.bridge.ack = true → σ.bridge.b3 = 0

theorem reads_eq (σ : AttoCsr k) : σ.reads = if (σ.devCyc .periph && decide (σ.bridge.cycle < 4) && σ.cpu.sel.getLsbD σ.bridge.cycle && !σ.cpu.we) = true
    then csrReg (σ.cpu.adr.setWidth 23 ++ BitVec.ofNat 2 σ.bridge.cycle) else none := by
  have : (σ.devCyc .periph && σ.cpu.stb) = σ.devCyc .periph := by
    rw [Atto.stb_cyc]; unfold devCyc; cases σ.cpu.cyc <;> simp
  unfold reads req WbCsr.req
  rw [this]

theorem active_eq (σ : AttoCsr k) : (σ.devCyc .periph && σ.cpu.stb) = σ.devCyc .periph := by
  rw [Atto.stb_cyc]; unfold devCyc; cases σ.cpu.cyc <;> simp

theorem step_w (D : Nat) (σ : AttoCsr k) (q : AttoIn) : (σ.step D q).bus.w =
    if (σ.devCyc .periph && decide (σ.bridge.cycle < 4) && σ.cpu.sel.getLsbD σ.bridge.cycle && σ.cpu.we) = true
    then (csrReg (σ.cpu.adr.setWidth 23 ++ BitVec.ofNat 2 σ.bridge.cycle)).map fun r => (r, σ.cpu.datW.extractLsb' (8 * σ.bridge.cycle) 8) else none := by
  show (if (σ.req).wStb = true then _ else _) = _
  unfold req WbCsr.req
  rw [active_eq]

theorem step_r (D : Nat) (σ : AttoCsr k) (q : AttoIn) : (σ.step D q).bus.rData = match σ.reads with | some r => σ.value q.gpioI r | none => 0 := rfl

theorem step_bridge (D : Nat) (σ : AttoCsr k) (q : AttoIn) : (σ.step D q).bridge = σ.bridge.step (σ.devCyc .periph) σ.bus.rData := by
  show σ.bridge.step (σ.devCyc .periph && σ.cpu.stb) σ.bus.rData = _
  rw [active_eq]

/-- The request of the core is not being answered in this cycle. -/
theorem ack_periph {σ : AttoCsr k} (h : σ.devCyc .periph = true) : σ.cpu.cyc = true ∧ σ.dev = some .periph ∧ σ.ack = σ.bridge.ack := by
  simp only [devCyc, Bool.and_eq_true, decide_eq_true_eq] at h
  exact ⟨h.1, h.2, by rw [AttoCsr.ack, h.2]⟩

theorem ack_ram {σ : AttoCsr k} (h : σ.devCyc .ram = true) : σ.cpu.cyc = true ∧ σ.dev = some .ram ∧ σ.ack = σ.ram.ack := by
  simp only [devCyc, Bool.and_eq_true, decide_eq_true_eq] at h
  exact ⟨h.1, h.2, by rw [AttoCsr.ack, h.2]⟩

theorem busInv_step (σ : AttoCsr k) (q : AttoIn) (h : BusInv σ) (hs : σ.cpu.cyc = true → σ.ack = false → Same σ (σ.step D q)) : BusInv (σ.step D q) := by
  have hram : (σ.step D q).ram.ack = true → σ.devCyc .ram = true ∧ σ.ram.ack = false := by
    intro hx
    simp only [step, WbMem.step, Atto.stb_cyc, Bool.and_eq_true, Bool.not_eq_true'] at hx
    exact ⟨hx.1.2, hx.2⟩
  have hram' : (σ.step D q).ram.ack = true → (σ.step D q).devCyc .ram = true := by
    intro hx
    obtain ⟨h1, h2⟩ := hram hx
    obtain ⟨a1, a2, a3⟩ := ack_ram h1
    rw [(hs a1 (by rw [a3, h2])).devCyc]; exact h1
  have hb := step_bridge D σ q
  have hw := step_w D σ q
  have hr := step_r D σ q
  rw [reads_eq] at hr
  cases hact : σ.devCyc .periph with
  | false =>
    have hc : σ.bridge.cycle = 0 := by
      by_contra hc
      have := h.cycle (by omega)
      rw [hact] at this; cases this
    have ha : σ.bridge.ack = false := by
      cases ha : σ.bridge.ack with
      | false => rfl
      | true => have := h.ack ha; omega
    rw [hact] at hb hw hr
    simp only [Bool.false_and, Bool.false_eq_true, if_false] at hw hr
    simp only [WbCsr.step, ha, hc, Bool.false_and, Bool.and_false, Bool.false_eq_true, if_false] at hb
    exact ⟨hram', by rw [hb]; simp, by rw [hb]; simp, by rw [hb]; simp, by rw [hb, hw]; simp, fun _ => hr, fun _ _ => hr,
      by rw [hb]; simp, by rw [hb]; simp, by rw [hb]; simp, by rw [hb]; simp⟩
  | true =>
    obtain ⟨a1, a2, a3⟩ := ack_periph hact
    rw [hact] at hb hw hr
    cases ha : σ.bridge.ack with
    | true =>
      have hc := h.ack ha
      simp only [hc, Bool.true_and, Bool.false_and, Bool.and_false, show ¬ (4 < 4) by omega, decide_false, Bool.false_eq_true, if_false] at hw hr
      simp only [WbCsr.step, ha, hc, Bool.false_and, Bool.and_false, Bool.not_true, if_true] at hb
      exact ⟨hram', by rw [hb]; simp, by rw [hb]; simp, by rw [hb]; simp, by rw [hb, hw]; simp, fun _ => hr, fun _ _ => hr,
        by rw [hb]; simp, by rw [hb]; simp, by rw [hb]; simp, by rw [hb]; simp⟩
    | false =>
      have S := hs a1 (by rw [a3, ha])
      have hd := S.devCyc .periph
      rw [hact] at hd
      have hp := S.pendW
      have hre := S.readable
      have hle := h.le
      have hn : ∀ r, σ.reg = some r → ¬ Readable σ → σ.cpu.sel.getLsbD 0 = true → σ.value q.gpioI r = 0 := by
        intro r h1 h2 h3
        have : r = .leds ∨ r = .oe := by
          by_contra hx
          exact h2 ⟨h3, r, h1, fun e => hx (.inl e), fun e => hx (.inr e)⟩
        rcases this with rfl | rfl <;> rfl
      generalize hcy : σ.bridge.cycle = c at hw hr hb
      rcases (by omega : c = 0 ∨ c = 1 ∨ c = 2 ∨ c = 3 ∨ c = 4) with rfl | rfl | rfl | rfl | rfl
      · simp [-BitVec.getLsbD_eq_getElem, WbCsr.step, ha, hcy] at hb
        refine ⟨hram', fun _ => hd, by rw [hb]; simp, by rw [hb]; simp, ?_, by rw [hb]; simp, ?_, by rw [hb]; simp, by rw [hb]; simp, by rw [hb]; simp, by rw [hb]; simp⟩
        · rw [hw, hb, hp]
          simp only [if_true, pendW, reg]
          cases σ.cpu.sel.getLsbD 0 <;> cases σ.cpu.we <;> rfl
        · intro _ hx
          rw [hr]
          cases h3 : σ.cpu.sel.getLsbD 0 with
          | false => simp
          | true =>
            cases h4 : σ.cpu.we with
            | true => simp
            | false =>
              have := hn
              unfold reg at this
              simp only [Bool.true_and, decide_true, Bool.not_false, if_true, show (0 < 4) = True by simp]
              split
              · rename_i r hr'
                exact hn r hr' (fun hy => hx (hre.2 hy)) h3
              · rfl
      · rw [csrReg_lane _ (by omega)] at hw hr
        simp [-BitVec.getLsbD_eq_getElem, WbCsr.step, ha, hcy] at hb
        have hr0 : (σ.step D q).bus.rData = 0 := by rw [hr]; split <;> simp_all
        refine ⟨hram', fun _ => hd, by rw [hb]; simp, by rw [hb]; simp, ?_, fun _ => hr0, fun _ _ => hr0, ?_, by rw [hb]; simp, by rw [hb]; simp, by rw [hb]; simp⟩
        · rw [hw, hb]; simp
        · intro _ hx
          rw [hb]
          exact h.rd1 hcy (fun hy => hx (hre.2 hy))
      · rw [csrReg_lane _ (by omega)] at hw hr
        simp [-BitVec.getLsbD_eq_getElem, WbCsr.step, ha, hcy] at hb
        have hr0 : (σ.step D q).bus.rData = 0 := by rw [hr]; split <;> simp_all
        refine ⟨hram', fun _ => hd, by rw [hb]; simp, by rw [hb]; simp, ?_, fun _ => hr0, fun _ _ => hr0, ?_, ?_, by rw [hb]; simp, by rw [hb]; simp⟩
        · rw [hw, hb]; simp
        · intro _ hx
          rw [hb]
          exact h.b0 (by omega) (fun hy => hx (hre.2 hy))
        · intro _; rw [hb]; exact h.rd (by omega)
      · rw [csrReg_lane _ (by omega)] at hw hr
        simp [-BitVec.getLsbD_eq_getElem, WbCsr.step, ha, hcy] at hb
        have hr0 : (σ.step D q).bus.rData = 0 := by rw [hr]; split <;> simp_all
        refine ⟨hram', fun _ => hd, by rw [hb], by rw [hb]; simp, ?_, fun _ => hr0, fun _ _ => hr0, ?_, ?_, ?_, by rw [hb]; simp⟩
        · rw [hw, hb]; simp
        · intro _ hx
          rw [hb]
          exact h.b0 (by omega) (fun hy => hx (hre.2 hy))
        · intro _; rw [hb]; exact h.b1 (by omega)
        · intro _; rw [hb]; exact h.rd (by omega)
      · simp [-BitVec.getLsbD_eq_getElem, WbCsr.step, ha, hcy] at hb hw hr
        refine ⟨hram', fun _ => hd, by rw [hb], by rw [hb]; simp, ?_, fun _ => hr, fun _ _ => hr, ?_, ?_, ?_, ?_⟩
        · rw [hw, hb]; simp
        · intro _ hx
          rw [hb]
          exact h.b0 (by omega) (fun hy => hx (hre.2 hy))
        · intro _; rw [hb]; exact h.b1 (by omega)
        · intro _; rw [hb]; exact h.b2 (by omega)
        · intro _; rw [hb]; exact h.rd (by omega)

theorem busInv (h : AfterReset s) (t : Nat) : BusInv (s.run D p t) := by
  induction t with
  | zero =>
    show BusInv s
    have h0 := h.ram
    refine ⟨by rw [h0]; nofun, ?_, ?_, ?_, ?_, ?_, ?_, ?_, ?_, ?_, ?_⟩ <;> rw [h.bridge] <;> (try rw [h.bus]) <;> simp
  | succ t ih => exact busInv_step _ _ ih (fun h1 h2 => stable h h1 h2)

/-! ## The platform -/

theorem not_both (σ : AttoCsr k) (h : σ.devCyc .periph = true) : σ.devCyc .ram = false := by
  obtain ⟨-, h2, -⟩ := ack_periph h
  simp [devCyc, h2]

theorem BusInv.ack_none {σ : AttoCsr k} (h : BusInv σ) (h1 : σ.devCyc .ram = false) : σ.ram.ack = false := by
  cases ha : σ.ram.ack with
  | false => rfl
  | true => rw [h.ramAck ha] at h1; cases h1

theorem BusInv.cycle_zero {σ : AttoCsr k} (h : BusInv σ) (h1 : σ.devCyc .periph = false) : σ.bridge.cycle = 0 := by
  by_contra hc
  rw [h.cycle (by omega)] at h1; cases h1

theorem leds_idle (σ : AttoCsr k) (h : σ.bus.w = none) : σ.leds.step σ.ledStb = σ.leds := by
  simp [CsrLeds.step, ledStb, written, h]

/-- Nothing is written to RAM, and no register has a write strobe. -/
theorem plat_idle (D : Nat) (σ : AttoCsr k) (q : AttoIn) (h : σ.devCyc .ram = false) (hw : σ.bus.w = none) :
    (σ.step D q).plat = σ.plat := by
  have e : (σ.step D q).leds = σ.leds := leds_idle σ hw
  have e' : (σ.step D q).ram.mem = σ.ram.mem := by simp [step, WbMem.step, h]
  simp only [plat, e, e']

theorem plat_ram (D : Nat) (σ : AttoCsr k) (q : AttoIn) (h : σ.devCyc .ram = true) (hw : σ.bus.w = none) :
    (σ.step D q).plat = σ.plat.afterCsr σ.cpu.req := by
  obtain ⟨hc, hd, -⟩ := ack_ram h
  have e : (σ.step D q).leds = σ.leds := leds_idle σ hw
  have ht := req_target σ
  unfold Plat.afterCsr
  rw [ht, hd]
  simp only [plat, e]
  cases hwe : σ.cpu.we
  · have : σ.cpu.req.we = false := hwe
    simp [this, step, WbMem.step, hwe]
  · have hw' : σ.cpu.req.we = true := hwe
    simp only [hw', if_true, Option.map_some, CsrDev.target]
    rw [Soc.after_req _ _ hwe]
    simp [step, WbMem.step, h, hwe, hc, Atto.stb_cyc]

theorem afterCsr_ram_idem (P : Plat k) (r : Req) (h : r.csrTarget = some .ram) :
    (P.afterCsr r).afterCsr r = P.afterCsr r := by
  unfold Plat.afterCsr
  cases hw : r.we
  · simp
  · simp only [if_true, h]
    have : (P.ram.after r).after r = P.ram.after r := Soc.after_req_idem _ _
    rw [this]

theorem low_byte' (σ : State) (h : σ.sel.getLsbD 0 = true) (hw : σ.we = true) :
    byteOf σ.req.data 0 = σ.datW.extractLsb' 0 8 := by
  rw [Atto.low_byte σ h hw]
  apply BitVec.eq_of_getLsbD_eq; intro i hi
  simp [-BitVec.getLsbD_eq_getElem, BitVec.getLsbD_extractLsb', hi]

theorem plat_strobe (D : Nat) (σ : AttoCsr k) (q : AttoIn) (h : σ.devCyc .periph = true) (hw : σ.bus.w = σ.pendW) :
    (σ.step D q).plat = σ.plat.afterCsr σ.cpu.req := by
  obtain ⟨hc, hd, -⟩ := ack_periph h
  have hr := not_both σ h
  have e' : (σ.step D q).ram.mem = σ.ram.mem := by simp [step, WbMem.step, hr]
  have ht := req_target σ
  have ha := csrReg_addr σ.cpu.adr hd
  unfold Plat.afterCsr
  rw [ht, hd]
  have e : (σ.step D q).leds = σ.leds.step σ.ledStb := rfl
  unfold pendW at hw
  cases hwe : σ.cpu.we
  · have : σ.cpu.req.we = false := hwe
    rw [hwe] at hw
    rw [leds_idle σ (by rw [hw]; rfl)] at e
    simp [this, plat, e, e']
  · have hw' : σ.cpu.req.we = true := hwe
    simp only [hw', if_true, Option.map_some, CsrDev.target]
    have hs' : σ.cpu.req.sel = σ.cpu.sel := rfl
    rw [hs']
    cases hs : σ.cpu.sel.getLsbD 0
    · rw [hs, Bool.and_false] at hw
      rw [leds_idle σ (by rw [hw]; rfl)] at e
      simp [plat, e, e']
    · rw [hs, hwe] at hw
      rw [low_byte' _ hs hwe]
      simp only [Bool.and_self, if_true, reg] at hw ⊢
      have hb : σ.cpu.req.byteAdr = 4 * σ.cpu.adr.toNat := rfl
      rw [hb]
      unfold Plat.setCsr
      simp only [plat, e, e']
      cases hreg : csrReg (σ.cpu.adr.setWidth 23 ++ BitVec.ofNat 2 0 : BitVec 25) with
      | none =>
        rw [hreg] at hw
        rw [leds_idle σ hw]
        have h1 : ∀ r : CsrReg, 4 * σ.cpu.adr.toNat ≠ r.byteAdr := by
          intro r hx; have := (ha r).2 hx; rw [hreg] at this; cases this
        have g1 := h1 .leds; have g2 := h1 .inout; have g3 := h1 .oe
        simp only [CsrReg.byteAdr] at g1 g2 g3
        simp [g1, g2, g3]
      | some r =>
        rw [hreg] at hw
        have hx := (ha r).1 hreg
        rw [hx]
        cases r <;> simp [CsrReg.byteAdr, CsrLeds.step, ledStb, written, hw]

/-- The effect of the request that is on the bus has happened. -/
def Done (σ : AttoCsr k) : Prop := σ.ram.ack = true ∨ 2 ≤ σ.bridge.cycle

instance (σ : AttoCsr k) : Decidable (Done σ) := by unfold Done; infer_instance

theorem plat_obs (σ : State) (i : Input) (P : Plat k) :
    P.afterAllCsr (σ.obs i) = if σ.cyc && i.ack then P.afterCsr σ.req else P := by
  unfold State.obs
  cases σ.cyc && i.ack <;> cases σ.polls <;> rfl

theorem platTrace_obs (σ : State) (i : Input) (P : Plat k) :
    PlatTraceCsr P (σ.obs i) ↔ (σ.cyc = true → i.ack = true → P.AnswersCsr σ.req i.datR) := by
  unfold State.obs
  cases hc : σ.cyc <;> cases ha : i.ack <;> cases σ.polls <;>
    simp [PlatTraceCsr]

theorem cyc_zero (h : AfterReset s) : s.cpu.cyc = false := by
  have hs : ∃ u mem rd, s.cpu = State.resetRegs u mem rd := by
    rcases h.cpu with h | ⟨σ, en, i, -, h⟩ <;> exact ⟨_, _, _, h⟩
  exact (boot_run hs (fun _ => {})).1 0 (by omega)

/-- What the state says about the platform. -/
structure PlatInv (σ : AttoCsr k) (P : Plat k) : Prop where
  plat : σ.plat = if Done σ then P.afterCsr σ.cpu.req else P
  rdata : σ.ram.ack = true → σ.cpu.we = false → σ.ram.rdata = P.ram (σ.cpu.adr.setWidth k)

theorem step_ramAck (D : Nat) (σ : AttoCsr k) (q : AttoIn) : (σ.step D q).ram.ack = (σ.devCyc .ram && !σ.ram.ack) := by
  simp only [step, WbMem.step, Atto.stb_cyc, devCyc]
  cases σ.cpu.cyc <;> simp

theorem step_cycle (D : Nat) (σ : AttoCsr k) (q : AttoIn) : (σ.step D q).bridge.cycle =
    if σ.bridge.ack then 0 else if σ.devCyc .periph && σ.bridge.cycle < 4 then σ.bridge.cycle + 1 else σ.bridge.cycle := by
  rw [step_bridge]; rfl

theorem platInv_step (σ : AttoCsr k) (q : AttoIn) (P : Plat k) (hb : BusInv σ)
    (hs : σ.cpu.cyc = true → σ.ack = false → Same σ (σ.step D q)) (h : PlatInv σ P) :
    PlatInv (σ.step D q) (if σ.cpu.cyc && σ.ack then P.afterCsr σ.cpu.req else P) := by
  have hra := step_ramAck D σ q
  have hcy := step_cycle D σ q
  have hp := h.plat
  cases h1 : σ.devCyc .ram with
  | true =>
    obtain ⟨hc, hd, ha⟩ := ack_ram h1
    have h2 : σ.devCyc .periph = false := by
      cases h2 : σ.devCyc .periph with
      | false => rfl
      | true => rw [not_both σ h2] at h1; cases h1
    have h3 := hb.cycle_zero h2
    have h4 : σ.bus.w = none := by rw [hb.wr, h3]; rfl
    have h5 : σ.bridge.ack = false := by
      cases h5 : σ.bridge.ack with
      | false => rfl
      | true => have := hb.ack h5; omega
    have hpr := plat_ram D σ q h1 h4
    rw [h2, h3, h5] at hcy
    simp only [Bool.false_and, Bool.false_eq_true, if_false] at hcy
    rw [hc, ha]
    cases h6 : σ.ram.ack with
    | false =>
      have S := hs hc (by rw [ha, h6])
      have hnd : ¬ Done σ := by unfold Done; rw [h6, h3]; simp
      rw [if_neg hnd] at hp
      rw [h6, h1] at hra
      constructor
      · rw [if_pos (.inl hra), hpr, hp, S.req]; rfl
      · intro _ hwe
        rw [S.we] at hwe
        rw [S.adr]
        have : P.ram = σ.ram.mem := by rw [← hp]; rfl
        simp [step, WbMem.step, hwe, h1, hc, Atto.stb_cyc, this]
    | true =>
      rw [if_pos (.inl h6)] at hp
      rw [h6, h1] at hra
      simp only [Bool.and_self, if_true]
      constructor
      · rw [if_neg (by unfold Done; rw [hra, hcy]; simp), hpr, hp, afterCsr_ram_idem _ _ (by rw [req_target, hd]; rfl)]
      · rw [hra]; intro hx; cases hx
  | false =>
    have h6 := hb.ack_none h1
    rw [h1, Bool.false_and] at hra
    cases h2 : σ.devCyc .periph with
    | false =>
      have h3 := hb.cycle_zero h2
      have h4 : σ.bus.w = none := by rw [hb.wr, h3]; rfl
      have hi := plat_idle D σ q h1 h4
      have hn : (σ.cpu.cyc && σ.ack) = false := by
        cases hc : σ.cpu.cyc with
        | false => rfl
        | true =>
          have : σ.dev = none := by
            cases hd : σ.dev with
            | none => rfl
            | some d => cases d <;> simp [devCyc, hc, hd] at h1 h2
          simp [AttoCsr.ack, this]
      rw [hn]
      rw [h3, h2] at hcy
      have hcy' : (σ.step D q).bridge.cycle = 0 := by rw [hcy]; split <;> rfl
      rw [if_neg (by unfold Done; rw [h6, h3]; simp)] at hp
      constructor
      · rw [if_neg (by unfold Done; rw [hra, hcy']; simp), hi, hp]; rfl
      · rw [hra]; intro hx; cases hx
    | true =>
      obtain ⟨hc, hd, ha⟩ := ack_periph h2
      rw [hc, ha]
      rw [h2] at hcy
      refine ⟨?_, by rw [hra]; intro hx; cases hx⟩
      cases h5 : σ.bridge.ack with
      | true =>
        have h3 := hb.ack h5
        have h4 : σ.bus.w = none := by rw [hb.wr, h3]; rfl
        rw [if_pos (.inr (by omega))] at hp
        rw [h5, if_pos rfl] at hcy
        rw [if_neg (by unfold Done; rw [hra, hcy]; simp), plat_idle D σ q h1 h4, hp]; rfl
      | false =>
        have S := hs hc (by rw [ha, h5])
        rw [h5] at hcy
        simp only [Bool.true_and, Bool.false_eq_true, if_false, Bool.and_false] at hcy ⊢
        have hle := hb.le
        by_cases h1c : σ.bridge.cycle = 1
        · have h4 : σ.bus.w = σ.pendW := by rw [hb.wr, h1c]; rfl
          rw [if_neg (by unfold Done; rw [h6, h1c]; simp)] at hp
          have hcy' : (σ.step D q).bridge.cycle = 2 := by rw [hcy, h1c]; rfl
          rw [if_pos (.inr (by omega)), plat_strobe D σ q h2 h4, hp, S.req]
        · have h4 : σ.bus.w = none := by rw [hb.wr, if_neg h1c]
          rw [plat_idle D σ q h1 h4, hp, S.req]
          have : Done (σ.step D q) ↔ Done σ := by
            unfold Done
            rw [hra, h6, hcy]
            by_cases h4c : σ.bridge.cycle < 4
            · rw [if_pos (by simp [h4c])]; simp; omega
            · rw [if_neg (by simp [h4c])]
          simp only [this]

theorem datR_periph {σ : AttoCsr k} (hb : BusInv σ) (ha : σ.bridge.ack = true) : σ.bridge.datR = σ.bridge.b0.setWidth 32 := by
  have h3 := hb.ack ha
  unfold WbCsr.datR
  rw [hb.b1 (by omega), hb.b2 (by omega), hb.b3 ha]
  apply BitVec.eq_of_getLsbD_eq; intro i hi
  simp only [BitVec.getLsbD_append, BitVec.getLsbD_setWidth]
  by_cases h8 : i < 8
  · simp [-BitVec.getLsbD_eq_getElem, h8, hi]
  · simp [-BitVec.getLsbD_eq_getElem, h8, hi, BitVec.getLsbD_of_ge σ.bridge.b0 i (by omega)]

theorem readable_of {σ : AttoCsr k} (hd : σ.dev = some .periph) (h : Readable σ) :
    σ.cpu.req.sel.getLsbD 0 = true ∧ σ.cpu.req.byteAdr ∈ [0x02000004, 0x02800000, 0x03000000, 0x03000004] := by
  obtain ⟨h1, r, h2, h3, h4⟩ := h
  have := (csrReg_addr σ.cpu.adr hd r).1 h2
  have hb : σ.cpu.req.byteAdr = 4 * σ.cpu.adr.toNat := rfl
  rw [hb, this]
  refine ⟨h1, ?_⟩
  cases r <;> simp [CsrReg.byteAdr] at h3 h4 ⊢

theorem answers (σ : AttoCsr k) (P : Plat k) (hb : BusInv σ) (h : PlatInv σ P) (hc : σ.cpu.cyc = true) (ha : σ.ack = true) :
    P.AnswersCsr σ.cpu.req σ.datR := by
  have ht := req_target σ
  cases hd : σ.dev with
  | none => simp [AttoCsr.ack, hd] at ha
  | some d =>
    refine ⟨d.target, by rw [ht, hd]; rfl, fun hw => ?_⟩
    cases d with
    | ram =>
      simp only [AttoCsr.ack, hd] at ha
      simp only [CsrDev.target, if_true, datR, hd]; exact h.rdata ha hw
    | periph =>
      simp only [AttoCsr.ack, hd] at ha
      rw [if_neg (by simp [CsrDev.target])]
      simp only [datR, hd]
      rw [datR_periph hb ha]
      refine ⟨?_, fun hn => ?_⟩
      · rw [BitVec.toNat_setWidth]
        have := σ.bridge.b0.isLt
        omega
      · have h3 := hb.ack ha
        rw [hb.b0 (by omega) fun hx => hn (readable_of hd hx)]
        rfl

theorem inv (h : AfterReset s) (t : Nat) :
    PlatTraceCsr s.plat (s.cpu.events (s.inputs D p) 1 t) ∧
    PlatInv (s.run D p (t + 1)) (s.plat.afterAllCsr (s.cpu.events (s.inputs D p) 1 t)) := by
  induction t with
  | zero =>
    have hc := cyc_zero h
    refine ⟨trivial, ?_⟩
    have h0 : PlatInv s s.plat := by
      refine ⟨?_, by rw [h.ram]; nofun⟩
      rw [if_neg]
      unfold Done
      rw [h.ram, h.bridge]; simp
    have := platInv_step (D := D) s (p 0) s.plat (busInv (D := D) (p := p) h 0) (by rw [hc]; nofun) h0
    rw [hc] at this
    exact this
  | succ t ih =>
    obtain ⟨i1, i2⟩ := ih
    rw [State.events_snoc, Nat.add_comm 1 t, PlatTraceCsr.append, Plat.afterAllCsr_append, platTrace_obs, plat_obs, ← run_cpu]
    exact ⟨⟨i1, fun hc ha => answers _ _ (busInv h _) i2 hc ha⟩,
      platInv_step _ _ _ (busInv h _) (fun h1 h2 => stable h h1 h2) i2⟩

/-- At a dispatch no request is under way. -/
theorem dispatch_plat (h : AfterReset s) {t : Nat} (hd : s.cpu.Dispatching (s.inputs D p) t) :
    (s.run D p t).plat = s.plat.afterAllCsr (s.cpu.events (s.inputs D p) 1 (t - 1)) := by
  obtain ⟨t, rfl⟩ : ∃ t', t = t' + 1 := ⟨t - 1, by have := hd.1; omega⟩
  have hi := (inv (D := D) (p := p) h t).2.plat
  have hb := busInv (D := D) (p := p) h (t + 1)
  have hc : (s.run D p (t + 1)).cpu.cyc = false := by
    rw [run_cpu]
    have hu := hd.2
    rw [rom_01] at hu
    simp [State.cyc, hu, u_01]
  have hdc : ∀ d, (s.run D p (t + 1)).devCyc d = false := fun d => by simp [devCyc, hc]
  rw [if_neg] at hi
  · exact hi
  · unfold Done
    rw [hb.ack_none (hdc _), hb.cycle_zero (hdc _)]
    simp

end AttoCsr

end Sentinel
