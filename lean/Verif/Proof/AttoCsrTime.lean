import Verif.Proof.AttoCsr
import Verif.Props.Trace
/-!
# The example SoC with the CSR bus: the course of an access, and its duration
-/

set_option linter.unusedSimpArgs false

namespace Sentinel
open Ucode Spec

/-- Shape and idle cycles of an instruction, whatever the bus: the last event is the fetch; there is at most one access before it. -/
theorem idle_bound {s : State} {inp : Nat → Input} {t m : Nat} {w : Word} (ho : OneInstr s inp t w m) :
    ∃ l r d, s.events inp t m = l ++ [.bus r d] ∧ busCount l ≤ 1 ∧
      2 ≤ idleCycles (s.run inp t).arch w (s.events inp t m) ∧ idleCycles (s.run inp t).arch w (s.events inp t m) ≤ 67 ∧
      (busCount l = 1 → idleCycles (s.run inp t).arch w (s.events inp t m) ≤ 8) := by
  by_cases hi : s.IrqTaken inp t
  · obtain ⟨-, w', hl, -⟩ := ho.irq hi
    have hb : ((inp t).irq && (s.run inp t).arch.intEnabled) = true := by
      simp [Arch.intEnabled, hi.1, hi.2.1, hi.2.2]
    refine ⟨_, _, _, hl.trans rfl, ?_⟩
    rw [hl]
    simp only [List.append_nil, List.cons_append, List.nil_append, idleCycles, hb, busCount, if_true]
    omega
  · have hb : ((inp t).irq && (s.run inp t).arch.intEnabled) = false := by
      simpa [State.IrqTaken, Arch.intEnabled] using hi
    cases hw : decode w with
    | none =>
      obtain ⟨-, w', hl, -⟩ := ho.ofNone hi hw
      refine ⟨_, _, _, hl.trans rfl, ?_⟩
      rw [hl]
      simp only [List.append_nil, List.cons_append, List.nil_append, idleCycles, hb, busCount, hw,
        Bool.false_eq_true, if_false]
      omega
    | some ins =>
      obtain ⟨l, hp, -, w', hl, -⟩ := ho.ofSome hi hw
      have hbc := (busCount_instr hw hp).1
      refine ⟨_, _, _, hl.trans rfl, ?_⟩
      have hc : idleCycles (s.run inp t).arch w (s.events inp t m) =
          1 + instrCycles (s.run inp t).arch (l ++ [.bus (fetchReq (s.run inp (t + m)).arch) w']) ins := by
        rw [hl]
        simp only [List.cons_append, List.nil_append, idleCycles, hb, hw, Bool.false_eq_true, if_false]
        cases ins <;> rfl
      rw [hc]
      clear hc hl
      simp only [List.cons_append, List.nil_append, busCount]
      generalize (s.run inp t).arch = a at *
      cases ins <;> simp only [dataAccesses] at hbc <;> simp only [instrCycles]
      case lui | auipc | fence | wfi | ecall | ebreak | mret => omega
      case jal | jalr | load | store => split <;> omega
      case branch => split <;> (try split) <;> omega
      case opImm op _ _ imm =>
        have : imm.toNat % 32 < 32 := Nat.mod_lt _ (by decide)
        generalize imm.toNat % 32 = q at *
        cases op <;> simp only [shiftCycles] <;> (try split) <;> omega
      case op op _ _ rs2 =>
        have : (a.reg rs2).toNat % 32 < 32 := Nat.mod_lt _ (by decide)
        generalize (a.reg rs2).toNat % 32 = q at *
        cases op <;> simp only [shiftCycles] <;> (try split) <;> omega
      case csr op rd src adr =>
        have hcc : 2 ≤ csrCycles op rd src ∧ csrCycles op rd src ≤ 6 := by
          cases op <;> simp only [csrCycles] <;> split <;> omega
        simp only [execInstr] at hp
        cases hp with
        | poll hp =>
          simp only [List.cons_append]
          simp only [busCount] at hbc ⊢
          split
          · omega
          · generalize csrKind adr = kk
            cases kk with
            | absent => simp only; omega
            | zero => simp only; split <;> omega
            | impl c => simp only; omega

namespace AttoCsr
variable {k D : Nat} {s : AttoCsr k} {p : Nat → AttoIn}

/-- The course of an access to the peripherals from its first cycle `t` on. -/
theorem forward (h : AfterReset s) {t : Nat} (h1 : (s.run D p t).devCyc .periph = true) (h2 : (s.run D p t).bridge.cycle = 0)
    (j : Nat) (hj : j ≤ 5) : (s.run D p (t + j)).cpu.cyc = true ∧ (s.run D p (t + j)).cpu.req = (s.run D p t).cpu.req ∧
      (s.run D p (t + j)).cpu.adr = (s.run D p t).cpu.adr ∧ (s.run D p (t + j)).cpu.we = (s.run D p t).cpu.we ∧
      (s.run D p (t + j)).cpu.sel = (s.run D p t).cpu.sel ∧ (s.run D p (t + j)).cpu.datW = (s.run D p t).cpu.datW ∧
      (s.run D p (t + j)).devCyc .periph = true ∧ (s.run D p (t + j)).bridge.cycle = min j 4 ∧
      (s.run D p (t + j)).bridge.ack = decide (j = 5) ∧ (2 ≤ j → (s.run D p (t + j)).bridge.b0 = (s.run D p (t + 1)).bus.rData) := by
  induction j with
  | zero =>
    refine ⟨(ack_periph h1).1, rfl, rfl, rfl, rfl, rfl, h1, h2, ?_, by omega⟩
    cases ha : (s.run D p t).bridge.ack with
    | false => rfl
    | true => have := (busInv (D := D) (p := p) h t).ack ha; omega
  | succ j ih =>
    obtain ⟨i1, i2, i3, i4, i5, i6, i7, i8, i9, i10⟩ := ih (by omega)
    have ha : (s.run D p (t + j)).ack = false := by rw [(ack_periph i7).2.2, i9]; simp; omega
    have S := stable (D := D) (p := p) h i1 ha
    have hd := S.devCyc .periph
    have hb : (s.run D p (t + j + 1)).bridge = _ := step_bridge D (s.run D p (t + j)) (p (t + j))
    have i9' : (s.run D p (t + j)).bridge.ack = false := by rw [i9]; simp; omega
    rw [i7] at hb hd
    rw [← Nat.add_assoc]
    refine ⟨S.cyc.trans i1, S.req.trans i2, S.adr.trans i3, S.we.trans i4, S.sel.trans i5, S.datW.trans i6, hd, ?_, ?_, ?_⟩
    · rw [hb]; simp only [WbCsr.step, i9', i8]
      rcases (by omega : j = 0 ∨ j = 1 ∨ j = 2 ∨ j = 3 ∨ j = 4) with rfl | rfl | rfl | rfl | rfl <;> rfl
    · rw [hb]; simp only [WbCsr.step, i9', i8]
      rcases (by omega : j = 0 ∨ j = 1 ∨ j = 2 ∨ j = 3 ∨ j = 4) with rfl | rfl | rfl | rfl | rfl <;> rfl
    · intro h3
      rw [hb]
      simp only [WbCsr.step, i8]
      by_cases hj1 : j = 1
      · subst hj1; simp
      · rw [if_neg (by simp; omega)]; exact i10 (by omega)

/-- An access to the peripherals that has got to byte `c` began `c` cycles before. -/
theorem back (h : AfterReset s) {n c : Nat} (hc : (s.run D p n).bridge.cycle = c) (h0 : 0 < c) (ha : (s.run D p n).bridge.ack = false) :
    ∃ t, n = t + c ∧ (s.run D p t).devCyc .periph = true ∧ (s.run D p t).bridge.cycle = 0 := by
  induction c generalizing n with
  | zero => omega
  | succ c ih =>
    cases n with
    | zero => rw [show s.run D p 0 = s from rfl, h.bridge] at hc; simp at hc
    | succ n =>
      have hI := busInv (D := D) (p := p) h n
      have hb : (s.run D p (n + 1)).bridge = _ := step_bridge D (s.run D p n) (p n)
      have hcy : (s.run D p (n + 1)).bridge.cycle = _ := step_cycle D (s.run D p n) (p n)
      have hle := hI.le
      cases hp : (s.run D p n).devCyc .periph with
      | false =>
        have := hI.cycle_zero hp
        rw [hp, this] at hcy
        rw [hc] at hcy
        simp only [Bool.false_and, Bool.false_eq_true, if_false, ite_self] at hcy
        omega
      | true =>
        cases ha' : (s.run D p n).bridge.ack with
        | true => rw [ha', if_pos rfl, hc] at hcy; omega
        | false =>
          rw [hp, ha', hc] at hcy
          by_cases h4 : (s.run D p n).bridge.cycle < 4
          · simp only [h4, decide_true, Bool.and_self, if_true, Bool.false_eq_true, if_false] at hcy
            by_cases hc0 : c = 0
            · subst hc0; exact ⟨n, by omega, hp, by omega⟩
            · obtain ⟨t, e, g⟩ := ih (n := n) (by omega) (by omega) ha'
              exact ⟨t, by omega, g⟩
          · exfalso
            rw [hb] at ha
            simp only [WbCsr.step, ha', hp, h4] at ha
            simp at ha

/-- An acknowledgement of the peripherals ends an access of 6 cycles. -/
theorem back_ack (h : AfterReset s) {n : Nat} (ha : (s.run D p n).bridge.ack = true) :
    ∃ t, n = t + 5 ∧ (s.run D p t).devCyc .periph = true ∧ (s.run D p t).bridge.cycle = 0 := by
  cases n with
  | zero => rw [show s.run D p 0 = s from rfl, h.bridge] at ha; simp at ha
  | succ n =>
    have hI := busInv (D := D) (p := p) h n
    have hb : (s.run D p (n + 1)).bridge = _ := step_bridge D (s.run D p n) (p n)
    rw [hb] at ha
    simp only [WbCsr.step, Bool.and_eq_true, Bool.not_eq_true', decide_eq_false_iff_not] at ha
    obtain ⟨⟨a1, a2⟩, a3⟩ := ha
    have hle := hI.le
    obtain ⟨t, e, g⟩ := back h (n := n) (c := 4) (by omega) (by omega) a1
    exact ⟨t, by omega, g⟩

theorem ack_zero (h : AfterReset s) : s.ack = false := by
  unfold ack
  cases s.dev with
  | none => rfl
  | some d =>
    cases d
    · exact h.ram
    · simp only; rw [h.bridge]

/-- An acknowledgement answers a request that is on the bus, and was in the cycle before. -/
theorem ack_cyc (h : AfterReset s) {t : Nat} (ha : (s.run D p t).ack = true) : (s.run D p t).cpu.cyc = true ∧
    ∃ u, t = u + 1 ∧ (s.run D p u).cpu.cyc = true ∧ (s.run D p u).ack = false := by
  have hI := busInv (D := D) (p := p) h t
  cases t with
  | zero => rw [show s.run D p 0 = s from rfl, ack_zero h] at ha; cases ha
  | succ u =>
    cases hd : (s.run D p (u + 1)).dev with
    | none => simp [ack, hd] at ha
    | some d =>
      cases d with
      | ram =>
        simp only [ack, hd] at ha
        have h1 := (ack_ram (hI.ramAck ha)).1
        have hra : (s.run D p (u + 1)).ram.ack = _ := step_ramAck D (s.run D p u) (p u)
        rw [ha] at hra
        simp only [Bool.true_eq, Bool.and_eq_true, Bool.not_eq_true'] at hra
        obtain ⟨a1, -, a3⟩ := ack_ram hra.1
        exact ⟨h1, u, rfl, a1, by rw [a3, hra.2]⟩
      | periph =>
        simp only [ack, hd] at ha
        have h1 := (ack_periph (hI.cycle (by have := hI.ack ha; omega))).1
        obtain ⟨t, e, g1, g2⟩ := back_ack h ha
        obtain ⟨f1, -, -, -, -, -, f7, -, f9, -⟩ := forward (D := D) (p := p) h g1 g2 4 (by omega)
        obtain rfl : u = t + 4 := by omega
        exact ⟨h1, t + 4, rfl, f1, by rw [(ack_periph f7).2.2, f9]; rfl⟩

theorem registered (h : AfterReset s) : s.cpu.RegisteredAck (s.inputs D p) := by
  intro t ht
  cases ha : (s.inputs D p t).ack
  · rfl
  · obtain ⟨-, u, rfl, hc, -⟩ := ack_cyc (D := D) (p := p) h (t := t) ha
    rw [run_cpu, ht.2 u rfl] at hc; cases hc

/-- Every request is to an address where something is. -/
theorem fair (h : AfterReset s) (hm : ∀ t, (s.run D p t).cpu.cyc = true → (s.run D p t).dev.isSome) :
    s.cpu.FairAck (s.inputs D p) := by
  intro t hc
  rw [← run_cpu] at hc
  have hI := busInv (D := D) (p := p) h t
  have hs := hm t hc
  cases ha : (s.run D p t).ack
  · have S := stable (D := D) (p := p) h hc ha
    cases hd : (s.run D p t).dev with
    | none => rw [hd] at hs; cases hs
    | some d =>
      have hdc : (s.run D p t).devCyc d = true := by simp [devCyc, hc, hd]
      cases d with
      | ram =>
        refine ⟨t + 1, by omega, .inr ?_⟩
        show (s.run D p (t + 1)).ack = true
        have hra : (s.run D p (t + 1)).ram.ack = _ := step_ramAck D (s.run D p t) (p t)
        simp only [ack, hd] at ha
        have e : (s.run D p (t + 1)).dev = some .ram := by rw [S.dev, hd]
        simp only [ack, e]
        rw [hra, hdc, ha]; rfl
      | periph =>
        simp only [ack, hd] at ha
        have : ∃ u, u ≤ t ∧ t ≤ u + 4 ∧ (s.run D p u).devCyc .periph = true ∧ (s.run D p u).bridge.cycle = 0 := by
          by_cases h0 : (s.run D p t).bridge.cycle = 0
          · exact ⟨t, by omega, by omega, hdc, h0⟩
          · obtain ⟨u, e, g⟩ := back h rfl (by omega) ha
            have := hI.le
            exact ⟨u, by omega, by omega, g⟩
        obtain ⟨u, e1, e2, g1, g2⟩ := this
        obtain ⟨-, -, -, -, -, -, f7, -, f9, -⟩ := forward (D := D) (p := p) h g1 g2 5 (by omega)
        refine ⟨u + 5, by omega, .inr ?_⟩
        show (s.run D p (u + 5)).ack = true
        rw [(ack_periph f7).2.2, f9]; rfl
  · exact ⟨t, by omega, .inr ha⟩

/-- A request to an address where nothing is stays on the bus for ever. -/
theorem hang (h : AfterReset s) {t : Nat} (hc : (s.run D p t).cpu.cyc = true) (hd : (s.run D p t).dev = none)
    (n : Nat) : (s.run D p (t + n)).cpu.cyc = true ∧ (s.run D p (t + n)).cpu.req = (s.run D p t).cpu.req ∧
      (s.run D p (t + n)).dev = none := by
  induction n with
  | zero => exact ⟨hc, rfl, hd⟩
  | succ n ih =>
    obtain ⟨i1, i2, i3⟩ := ih
    have ha : (s.run D p (t + n)).ack = false := by simp [ack, i3]
    have S := stable (D := D) (p := p) h i1 ha
    exact ⟨S.cyc.trans i1, S.req.trans i2, S.dev.trans i3⟩

/-- Cycles for which the request on the bus has been there. -/
def elapsed (σ : AttoCsr k) : Nat := (if σ.ram.ack then 1 else 0) + σ.bridge.cycle + (if σ.bridge.ack then 1 else 0)

/-- Cycles an access takes. -/
def busTime : List Event → Nat
  | [] => 0
  | .bus r _ :: l => (if r.csrTarget = some .periph then 6 else 2) + busTime l
  | .poll _ :: l => busTime l

theorem busTime_append (l l' : List Event) : busTime (l ++ l') = busTime l + busTime l' := by
  induction l with
  | nil => simp [busTime]
  | cons e l ih => cases e <;> simp [busTime, ih] <;> omega

theorem busTime_obs (σ : State) (i : Input) :
    busTime (σ.obs i) = if σ.cyc && i.ack then (if σ.req.csrTarget = some .periph then 6 else 2) else 0 := by
  unfold State.obs
  cases σ.cyc && i.ack <;> cases σ.polls <;> simp [busTime]

theorem busTime_le (l : List Event) : 2 * busCount l ≤ busTime l ∧ busTime l ≤ 6 * busCount l := by
  induction l with
  | nil => simp [busTime, busCount]
  | cons e l ih => cases e <;> simp only [busTime, busCount] <;> (try split) <;> omega

theorem elapsed_step (σ : AttoCsr k) (q : AttoIn) (hb : BusInv σ) (hd : σ.cpu.cyc = true → σ.dev.isSome = true) :
    (if σ.cpu.cyc then 1 else 0) + elapsed σ =
      (if σ.cpu.cyc && σ.ack then (if σ.cpu.req.csrTarget = some .periph then 6 else 2) else 0) + elapsed (σ.step D q) := by
  have hra := step_ramAck D σ q
  have hbr := step_bridge D σ q
  unfold elapsed
  rw [hra, hbr]
  have ht := req_target σ
  cases h1 : σ.devCyc .ram with
  | true =>
    obtain ⟨hc, hd, ha⟩ := ack_ram h1
    have h2 : σ.devCyc .periph = false := by
      cases h2 : σ.devCyc .periph with
      | false => rfl
      | true => rw [not_both σ h2] at h1; cases h1
    have h3 := hb.cycle_zero h2
    have h5 : σ.bridge.ack = false := by
      cases h5 : σ.bridge.ack with
      | false => rfl
      | true => have := hb.ack h5; omega
    rw [ht, hd, hc, ha, h2, h3, h5]
    simp only [WbCsr.step, h5, h3, CsrDev.target]
    cases σ.ram.ack <;> simp [CsrDev.target]
  | false =>
    have h6 := hb.ack_none h1
    cases h2 : σ.devCyc .periph with
    | false =>
      have h3 := hb.cycle_zero h2
      have h5 : σ.bridge.ack = false := by
        cases h5 : σ.bridge.ack with
        | false => rfl
        | true => have := hb.ack h5; omega
      have hc : σ.cpu.cyc = false := by
        cases hc : σ.cpu.cyc with
        | false => rfl
        | true =>
          have := hd hc
          cases hd : σ.dev with
          | none => rw [hd] at this; cases this
          | some d => cases d <;> simp [devCyc, hc, hd] at h1 h2
      rw [hc, h6, h5, h3]
      simp [WbCsr.step, h5, h3]
    | true =>
      obtain ⟨hc, hd, ha⟩ := ack_periph h2
      have hle := hb.le
      rw [ht, hd, hc, ha, h6]
      simp only [WbCsr.step]
      by_cases h5 : σ.bridge.ack = true
      · have h3 := hb.ack h5; simp [h3, h5, CsrDev.target]
      · by_cases h4 : σ.bridge.cycle < 4
        · simp [h4, h5]; omega
        · simp [h4, h5]; omega

theorem busy_elapsed (h : AfterReset s) (t m : Nat)
    (hd : ∀ j < m, (s.run D p (t + j)).cpu.cyc = true → (s.run D p (t + j)).dev.isSome = true) :
    s.cpu.busy (s.inputs D p) t m + elapsed (s.run D p t) =
      busTime (s.cpu.events (s.inputs D p) t m) + elapsed (s.run D p (t + m)) := by
  induction m with
  | zero => simp [State.busy, State.events, busTime]
  | succ m ih =>
    have i := ih fun j hj => hd j (by omega)
    rw [State.busy_add, State.events_snoc, busTime_append, busTime_obs, ← run_cpu]
    have := elapsed_step (D := D) (s.run D p (t + m)) (p (t + m)) (busInv h _) (hd m (by omega))
    have e : (s.run D p (t + m)).step D (p (t + m)) = s.run D p (t + (m + 1)) := rfl
    rw [e] at this
    simp only [State.busy, ← run_cpu]
    have e' : (s.inputs D p (t + m)).ack = (s.run D p (t + m)).ack := rfl
    rw [e']
    omega

theorem elapsed_dispatch (h : AfterReset s) {t : Nat} (hd : s.cpu.Dispatching (s.inputs D p) t) : elapsed (s.run D p t) = 0 := by
  have hb := busInv (D := D) (p := p) h t
  have hc : (s.run D p t).cpu.cyc = false := by
    rw [run_cpu]
    have hu := hd.2
    rw [rom_01] at hu
    simp [State.cyc, hu, u_01]
  have hdc : ∀ d, (s.run D p t).devCyc d = false := fun d => by simp [devCyc, hc]
  have h3 := hb.cycle_zero (hdc _)
  have h5 : (s.run D p t).bridge.ack = false := by
    cases h5 : (s.run D p t).bridge.ack with
    | false => rfl
    | true => have := hb.ack h5; omega
  unfold elapsed
  rw [hb.ack_none (hdc _), h3, h5]; rfl

theorem hang_dispatch (h : AfterReset s) {t n : Nat} (hc : (s.run D p t).cpu.cyc = true) (hd : (s.run D p t).dev = none) (hn : t ≤ n) :
    ¬ s.cpu.Dispatching (s.inputs D p) n := by
  intro hx
  obtain ⟨j, rfl⟩ := Nat.exists_eq_add_of_le hn
  have h1 := (hang h hc hd j).1
  rw [run_cpu] at h1
  have hu := hx.2
  rw [rom_01] at hu
  simp [State.cyc, hu, u_01] at h1

end AttoCsr

end Sentinel
