import Verif.Proof.BootRun
/-!
# C21–C26, C30, C45: reset, the bus protocol, and the microprogram, for all executions

None of these theorems assumes anything about the bus, except C24.
-/

set_option linter.unusedSimpArgs false

namespace Sentinel
open Ucode Spec

variable {s : State} {inp : Nat → Input} {t : Nat}

/-! ## C26 -/

/-- The labels of the microprogram at which it stops for good. -/
def deadLabels : List Label := [.panic, .halt]

/-- Microinstructions that jump to a dead label: `NOT_IMPLEMENTED` of `microcode.asm`. -/
def notImplemented : List Nat := [11, 72, 138, 139, 201, 202, 203, 204]

/-- **C26.** In every execution after reset, with any inputs, from the cycle after reset is released
on, the microinstruction executed is the word at an address that the source fills, that is not the
address of `panic` or `halt`, and that is not a `NOT_IMPLEMENTED` slot. -/
theorem C26_no_panic (h : AfterReset s) (inp : Nat → Input) (ht : 1 ≤ t) :
    ∃ k, (s.run inp t).uop = rom k ∧ (s.run inp t).nextAdr = k + 1#8 ∧ k.toNat ∈ used ∧
      (∀ l ∈ deadLabels, (labels source 0).lookup l ≠ some k.toNat) ∧ k.toNat ∉ notImplemented := by
  obtain ⟨t, rfl⟩ : ∃ t', t = t' + 1 := ⟨t - 1, by omega⟩
  obtain ⟨k, hk⟩ := live_run h inp t
  have hl : ∀ k ∈ live, (∀ l ∈ deadLabels, (labels source 0).lookup l ≠ some k) ∧
      k ∉ notImplemented := by decide +kernel
  exact ⟨k, hk.uop, hk.next, hk.node.used, (hl _ hk.live).1, (hl _ hk.live).2⟩

/-- `panic` and `halt` exist, and the slots of `notImplemented` jump to `panic`. -/
example : (labels source 0).lookup .panic = some 255 ∧ (labels source 0).lookup .halt = some 254 ∧
    ∀ k ∈ notImplemented, (romT k).jmpType = .direct ∧ (romT k).condTest = .true_ ∧
      (romT k).target = 255#8 := by decide +kernel
/-- Executions exist. -/
example : AfterReset powerOn := .inl rfl

/-! ## C21 -/

theorem late_k (h : AfterReset s) (inp : Nat → Input) (t : Nat) :
    ∃ k, LiveAt k (s.run inp (t + 4)) ∧ k ≠ 2#8 ∧ k ≠ 3#8 ∧ k ≠ 4#8 := by
  have hne2 : ∀ t k, LiveAt k (s.run inp (t + 2)) →
      ∃ k', LiveAt k' (s.run inp (t + 2)) ∧ k' ≠ 2#8 := by
    intro t k _
    obtain ⟨k', hk'⟩ := live_run h inp t
    exact ⟨_, hk'.step _, (hk'.romAdr_live _).2.1⟩
  obtain ⟨k1, h1⟩ := live_run h inp (t + 1)
  obtain ⟨k2, h2, n2⟩ := hne2 t k1 h1
  have h3 := h2.step (inp (t + 2))
  have l2 := h2.romAdr_live (inp (t + 2))
  have h4 := h3.step (inp (t + 3))
  have l3 := h3.romAdr_live (inp (t + 3))
  refine ⟨_, h4, l3.2.1, ?_, ?_⟩
  · intro e; exact l2.2.1 (l3.2.2.1.1 e)
  · intro e; exact n2 (l2.2.2.1.1 (l3.2.2.2.1.1 e))

/-- **C21.** From the fourth cycle after reset on, whatever the inputs, the storage of register x0
holds 0. -/
theorem C21_x0_zero (h : AfterReset s) (inp : Nat → Input) (ht : 4 ≤ t) :
    (s.run inp t).arch.x 0 = 0 := by
  obtain ⟨t, rfl⟩ : ∃ t', t = t' + 4 := ⟨t - 4, by omega⟩
  obtain ⟨k, hk, n2, n3, n4⟩ := late_k h inp t
  exact hk.x0 n2 n3 n4

/-- The storage is not zero to begin with. -/
example : powerOn.arch.x 0 = 0xdeadbeef := by decide

/-! ## C23 -/

/-- **C23.** A request that is not acknowledged is on the bus unchanged in the next cycle. -/
theorem C23_stable (h : AfterReset s) (inp : Nat → Input)
    (hc : (s.run inp t).cyc = true) (ha : (inp t).ack = false) :
    (s.run inp (t + 1)).cyc = true ∧ (s.run inp (t + 1)).stb = true ∧
      (s.run inp (t + 1)).adr = (s.run inp t).adr ∧ (s.run inp (t + 1)).sel = (s.run inp t).sel ∧
      (s.run inp (t + 1)).we = (s.run inp t).we ∧ (s.run inp (t + 1)).datW = (s.run inp t).datW := by
  have ht : t ≠ 0 := by
    rintro rfl
    have : ∃ u mem rd, s = State.resetRegs u mem rd := by
      rcases h with rfl | ⟨σ, en, i, -, rfl⟩ <;> exact ⟨_, _, _, rfl⟩
    rw [(boot_run this inp).1 0 (by omega)] at hc
    cases hc
  obtain ⟨t, rfl⟩ : ∃ t', t = t' + 1 := ⟨t - 1, by omega⟩
  obtain ⟨k, hk⟩ := live_run h inp t
  have e : s.run inp (t + 1 + 1) = (s.run inp (t + 1)).step (inp (t + 1)) := rfl
  rw [e]
  generalize s.run inp (t + 1) = σ at *
  generalize inp (t + 1) = i at *
  have hm : σ.uop.memReq = true := by
    simp only [State.cyc, Bool.and_eq_true] at hc; exact hc.1
  have hj : σ.uop.jmpType ≠ .map := by
    intro hj
    have := (hk.node.map hj).2.2.1
    rw [hm] at this; cases this
  obtain ⟨-, g1, g2, g3, g4⟩ := (hk.romAdr hj i).hold hm ha
  obtain ⟨k1, k2, k3⟩ := hk.node.keep hm
  have hu : (σ.step i).uop = rom (σ.romAdr i) := rfl
  have hpc : (σ.step i).pc = σ.pc := by simp [State.step, k1, pcNext]
  have hda : (σ.step i).dataAdr = σ.dataAdr := by simp [State.step, k2]
  have hwd : (σ.step i).writeData = σ.writeData := by simp [State.step, k3]
  have hg : (σ.step i).memGuard = false := rfl
  refine ⟨by simp [State.cyc, hu, g1, hg], by simp [State.stb, hu, g1, hg], ?_, ?_, ?_, ?_⟩
  · simp [State.adr, hu, g1, g2, hm, hpc, hda]
  · simp only [State.sel, hu, g1, g2, hm, hda]
    rcases g3 with g3 | g3
    · simp [g3, wbSel]
    · rw [g3]
  · simp [State.we, hu, g4]
  · simp [State.datW, hwd]

/-- A request can stay unanswered. -/
example : (powerOn.run (fun _ => {}) 5).cyc = true ∧ (powerOn.run (fun _ => {}) 5).req =
    ⟨0, 0xF, false, 0⟩ := by decide +kernel

/-! ## C24 -/

/-- CYC and STB are the same signal. -/
theorem C24_cyc_stb (s : State) : s.cyc = s.stb := rfl

theorem ack_waits (h : AfterReset s) (hr : s.RegisteredAck inp) (t : Nat) :
    (s.run inp t).cyc = true → (inp t).ack = true →
      ∃ k, LiveAt k (s.run inp t) ∧ k.toNat ∈ waits := by
  have hs : ∃ u mem rd, s = State.resetRegs u mem rd := by
    rcases h with rfl | ⟨σ, en, i, -, rfl⟩ <;> exact ⟨_, _, _, rfl⟩
  have h01 := (boot_run hs inp).1
  induction t with
  | zero => intro hc; rw [h01 0 (by omega)] at hc; cases hc
  | succ t ih =>
    intro hc ha
    have hp : (s.run inp t).cyc = true := by
      cases hp : (s.run inp t).cyc
      · have := hr (t + 1) ⟨hc, fun t' e => by cases e; exact hp⟩
        rw [this] at ha; cases ha
      · rfl
    have ht : t ≠ 0 := by
      rintro rfl
      rw [h01 0 (by omega)] at hp; cases hp
    obtain ⟨t, rfl⟩ : ∃ t', t = t' + 1 := ⟨t - 1, by omega⟩
    obtain ⟨k, hk⟩ := live_run h inp t
    have hm : (s.run inp (t + 1)).uop.memReq = true := by
      simp only [State.cyc, Bool.and_eq_true] at hp; exact hp.1
    have hj : (s.run inp (t + 1)).uop.jmpType ≠ .map := by
      intro hj
      have := (hk.node.map hj).2.2.1
      rw [hm] at this; cases this
    cases ha' : (inp (t + 1)).ack
    · exact ⟨_, hk.step _, ((hk.romAdr hj (inp (t + 1))).hold hm ha').1⟩
    · obtain ⟨k', hk', hw⟩ := ih hp ha'
      exfalso
      have := (hk'.romAdr hj (inp (t + 1))).drop hw ha'
      have e : (s.run inp (t + 1 + 1)).uop = rom ((s.run inp (t + 1)).romAdr (inp (t + 1))) := rfl
      rw [← e] at this
      simp [State.cyc, this] at hc

/-- **C24.** With a bus that does not acknowledge in the first cycle of a request, the request is
withdrawn in the cycle after the acknowledgement. -/
theorem C24_drop (h : AfterReset s) (hr : s.RegisteredAck inp)
    (hc : (s.run inp t).cyc = true) (ha : (inp t).ack = true) : (s.run inp (t + 1)).cyc = false := by
  obtain ⟨k, hk, hw⟩ := ack_waits h hr t hc ha
  have hm := hk.node.waits hw
  have hj : (s.run inp t).uop.jmpType ≠ .map := by
    intro hj
    have := (hk.node.map hj).2.2.1
    rw [hm] at this; cases this
  have := (hk.romAdr hj (inp t)).drop hw ha
  have e : (s.run inp (t + 1)).uop = rom ((s.run inp t).romAdr (inp t)) := rfl
  rw [← e] at this
  simp [State.cyc, this]

/-! ## C25 -/

/-- **C25.** Every request selects a byte, an aligned half word or the word; an instruction fetch is
a read of the whole word; WE is only asserted together with CYC. -/
theorem C25_shape (h : AfterReset s) (inp : Nat → Input) (ht : 1 ≤ t) :
    ((s.run inp t).cyc = true →
      (s.run inp t).sel ∈ [1#4, 2#4, 4#4, 8#4, 3#4, 12#4, 15#4]) ∧
    ((s.run inp t).uop.insnFetch = true →
      (s.run inp t).cyc = true ∧ (s.run inp t).sel = 15#4 ∧ (s.run inp t).we = false ∧
        (s.run inp t).adr = (s.run inp t).pc) ∧
    ((s.run inp t).we = true → (s.run inp t).cyc = true) := by
  obtain ⟨t, rfl⟩ : ∃ t', t = t' + 1 := ⟨t - 1, by omega⟩
  obtain ⟨k, hk⟩ := live_run h inp t
  generalize s.run inp (t + 1) = σ at *
  have hn := hk.node
  have hg := hk.memGuard
  refine ⟨?_, ?_, ?_⟩
  · intro hc
    have hm : σ.uop.memReq = true := by
      simp only [State.cyc, Bool.and_eq_true] at hc; exact hc.1
    simp only [State.sel, wbSel, hm, if_true]
    rcases hn.shape hm with ⟨hf, -⟩ | ⟨hf, h1 | h1 | h1⟩
    · simp [hf]
    · simp only [hf, h1]
      repeat' split
      all_goals simp
    · simp only [hf, h1]
      repeat' split
      all_goals simp
    · simp [hf, h1]
  · intro hf
    have hm := hn.fetch hf
    rcases hn.shape hm with ⟨-, hw⟩ | ⟨hf', -⟩
    · simp [State.cyc, State.sel, State.we, State.adr, wbSel, wbAdr, hm, hg, hf, hw]
    · rw [hf] at hf'; cases hf'
  · intro hw
    simp [State.cyc, hn.we hw, hg]

/-! ## C22 -/

/-- Any number of clock edges with reset asserted, with any enable and inputs. -/
def State.hold (s : State) : List (Bool × Input) → State
  | [] => s
  | (en, i) :: l => (s.tick true en i).hold l

theorem hold_reset (s : State) (l : List (Bool × Input)) (hl : l ≠ []) (hs : Reach s) :
    AfterReset (s.hold l) := by
  induction l generalizing s with
  | nil => exact absurd rfl hl
  | cons p l ih =>
    cases l with
    | nil => exact .inr ⟨s, p.1, p.2, hs, rfl⟩
    | cons q l => exact ih _ (by simp) (.tick _ _ _ hs)

/-- **C22.** From any reachable state, any number (at least one) of clock edges with reset asserted,
and then any inputs: no request is made while reset is asserted or in the first five cycles (0-4)
after; in cycle 5 the core fetches the word at address 0; interrupts are disabled, mcause and x0 are
0, and x1-x31, mtvec and mscratch hold what they held at the end of reset. -/
theorem C22_reset {σ : State} (hσ : Reach σ) (l : List (Bool × Input)) (hl : l ≠ [])
    (inp : Nat → Input) :
    (σ.hold l).cyc = false ∧
    (∀ t, t ≤ 4 → ((σ.hold l).run inp t).cyc = false) ∧
    ((σ.hold l).run inp 5).cyc = true ∧ ((σ.hold l).run inp 5).req = ⟨0, 0xF, false, 0⟩ ∧
    ∀ a, ((σ.hold l).run inp 5).arch = a →
      a.pc = 0 ∧ a.mie = false ∧ a.meie = false ∧ a.mcause = 0 ∧ a.x 0 = 0 ∧
      (∀ r, r ≠ 0 → a.x r = (σ.hold l).arch.x r) ∧ a.mtvec = (σ.hold l).arch.mtvec ∧
      a.mscratch = (σ.hold l).arch.mscratch := by
  have h := hold_reset σ l hl hσ
  have hs : ∃ u mem rd, σ.hold l = State.resetRegs u mem rd := by
    rcases h with h | ⟨σ, en, i, -, h⟩ <;> exact ⟨_, _, _, h⟩
  obtain ⟨b1, b2, b3, b4, b5, b6⟩ := boot_run hs inp
  generalize σ.hold l = s at *
  refine ⟨b1 0 (by omega), b1, ?_, ?_, ?_⟩
  · simp [State.cyc, b2, b3, u_00]
  · simp [State.req, State.adr, State.sel, State.we, b2, b4, u_00, wbAdr, wbSel]
  · rintro a rfl
    rw [b5]
    refine ⟨rfl, rfl, rfl, rfl, rfl, ?_, ?_, ?_⟩
    · intro r hr
      have e : (s.boot (inp 0)).x r = if r = 0 then 0 else (s.step (inp 0)).mem (gpRamAdr r) := rfl
      rw [e, if_neg hr]; exact b6 r hr
    · exact stale_csr h (inp 0) (.inl rfl)
    · exact stale_csr h (inp 0) (.inr rfl)

/-- **C22** (any state): from any state whatsoever, reachable or not, any number (at least one) of clock edges with reset asserted, and then any
inputs: the core fetches the word at 0 in cycle 5 and makes no request before; interrupts are disabled, mcause and x0 are 0. -/
theorem C22_any (σ : State) (l : List (Bool × Input)) (hl : l ≠ []) (inp : Nat → Input) :
    (σ.hold l).cyc = false ∧
    (∀ t, t ≤ 4 → ((σ.hold l).run inp t).cyc = false) ∧
    ((σ.hold l).run inp 5).cyc = true ∧ ((σ.hold l).run inp 5).req = ⟨0, 0xF, false, 0⟩ ∧
    ∀ a, ((σ.hold l).run inp 5).arch = a →
      a.pc = 0 ∧ a.mie = false ∧ a.meie = false ∧ a.mcause = 0 ∧ a.x 0 = 0 ∧
      ∀ r, r ≠ 0 → a.x r = (σ.hold l).arch.x r := by
  have hs : ∃ u mem rd, σ.hold l = State.resetRegs u mem rd := by
    clear inp
    induction l generalizing σ with
    | nil => exact absurd rfl hl
    | cons p l ih =>
      cases l with
      | nil => exact ⟨_, _, _, rfl⟩
      | cons q l => exact ih _ (by simp)
  obtain ⟨b1, b2, b3, b4, b5, b6⟩ := boot_run hs inp
  generalize σ.hold l = s at *
  refine ⟨b1 0 (by omega), b1, ?_, ?_, ?_⟩
  · simp [State.cyc, b2, b3, u_00]
  · simp [State.req, State.adr, State.sel, State.we, b2, b4, u_00, wbAdr, wbSel]
  · rintro a rfl
    rw [b5]
    refine ⟨rfl, rfl, rfl, rfl, rfl, ?_⟩
    intro r hr
    have e : (s.boot (inp 0)).x r = if r = 0 then 0 else (s.step (inp 0)).mem (gpRamAdr r) := rfl
    rw [e, if_neg hr]; exact b6 r hr

/-- Reset in the middle of an instruction. -/
example : Reach (powerOn.run (fun _ => {}) 3) :=
  .tick false true {} (.tick false true {} (.tick false true {} .powerOn))

/-! ## C30 -/

/-- Inputs for C30: the first word fetched is `addi x1, x0, 5`, every later one `addi x2, x0, 7`; the
bus acknowledges each request at once. -/
def fastBus : Nat → Input := fun t => ⟨if t ≤ 5 then 0x00500093#32 else 0x00700113#32, true, false⟩

/-- **C30.** With a bus that acknowledges in the first cycle of a request, the result of
`addi x1, x0, 5` ends up in x2, not in x1: when the second instruction is dispatched, x1 is still 0
and x2 is 5.  So the assumption of a registered ACK cannot be dropped from C29. -/
theorem C30_same_cycle_ack :
    AfterReset powerOn ∧ powerOn.Dispatches fastBus 6 0x00500093#32 ∧
    powerOn.Dispatches fastBus 10 0x00700113#32 ∧
    decode 0x00500093#32 = some (.opImm .add 1 0 5) ∧
    decode 0x00700113#32 = some (.opImm .add 2 0 7) ∧
    (∀ k, 6 < k → k < 10 → ¬ powerOn.Dispatching fastBus k) ∧
    (powerOn.run fastBus 10).arch.x 1 = 0 ∧ (powerOn.run fastBus 10).arch.x 2 = 5 ∧
    (fastBus 5).ack = true ∧ powerOn.FirstCycle fastBus 5 := by
  refine ⟨.inl rfl, ⟨⟨by omega, by decide +kernel⟩, [], ⟨0, 15, false, 0⟩, by decide +kernel⟩,
    ⟨⟨by omega, by decide +kernel⟩, [.bus ⟨0, 15, false, 0⟩ 0x00500093#32, .poll false,
      .bus ⟨1, 15, false, 0⟩ 0x00700113#32], ⟨1, 15, false, 0⟩, by decide +kernel⟩,
    by decide, by decide, ?_, by decide +kernel, by decide +kernel, rfl, ?_⟩
  · intro k h1 h2
    obtain rfl | rfl | rfl : k = 7 ∨ k = 8 ∨ k = 9 := by omega
    all_goals exact fun h => absurd h.2 (by decide +kernel)
  · refine ⟨by decide +kernel, ?_⟩
    intro t' h
    obtain rfl : t' = 4 := by omega
    decide +kernel

/-! ## C45 -/

/-- An execution with a clock enable: `(en, i)` per clock edge. -/
def State.runEn (s : State) : List (Bool × Input) → State
  | [] => s
  | (en, i) :: l => (s.tick false en i).runEn l

/-- An execution without a clock enable. -/
def State.runAll (s : State) : List Input → State
  | [] => s
  | i :: l => (s.step i).runAll l

/-- **C45.** Clock edges with the enable low leave no trace: the state, and with it every output, is
the one reached by the enabled edges alone. -/
theorem C45_enable (s : State) (l : List (Bool × Input)) :
    s.runEn l = s.runAll ((l.filter (·.1)).map (·.2)) := by
  induction l generalizing s with
  | nil => rfl
  | cons p l ih =>
    obtain ⟨en, i⟩ := p
    cases en
    · simpa [State.runEn, State.tick] using ih s
    · simpa [State.runEn, State.tick, State.runAll] using ih (s.step i)

/-- In particular outputs hold while the enable is low. -/
theorem C45_outputs (s : State) (l l' : List (Bool × Input)) (h : ∀ p ∈ l', p.1 = false) :
    (s.runEn (l ++ l')).req = (s.runEn l).req ∧ (s.runEn (l ++ l')).cyc = (s.runEn l).cyc := by
  have e : s.runEn (l ++ l') = s.runEn l := by
    have hn : l'.filter (·.1) = [] := List.filter_eq_nil_iff.2 fun p hp => by simp [h p hp]
    rw [C45_enable, C45_enable, List.filter_append, hn, List.append_nil]
  rw [e]; exact ⟨rfl, rfl⟩

example : (powerOn.runEn (List.replicate 5 (true, (⟨0, false, false⟩ : Input)) ++ List.replicate 7 (false, ⟨1, true, true⟩))).cyc =
    true := by decide +kernel

end Sentinel
