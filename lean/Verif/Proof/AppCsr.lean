import Verif.Proof.FirmwareCsr
import Verif.Proof.AppRun
/-!
# The application of the firmware on the CSR bus
-/

set_option linter.unusedSimpArgs false

namespace Sentinel.FwCsr

open Fw (Access Op Main Isr Soft Env App Pins)

variable {D : Nat} {p : Nat → Pins}

/-- The pins of the Wishbone machine. -/
def pins (D : Nat) (p : Nat → Pins) (n : Nat) : Pins :=
  { p n with go := (p n).go && (Machine.at_ D p n).sys.soft.access.isNone, csr := true }

theorem at_sys (n : Nat) : (Machine.at_ D p n).sys = Sys.at_ D (Machine.envs D p) n := by
  induction n with
  | zero => rfl
  | succ n ih =>
    show (Machine.at_ D p n).sys.step D _ = Sys.step D (Sys.at_ D (Machine.envs D p) n) _
    rw [← ih]; rfl

/-- `main` is reading the input port. -/
def gpioNow (f : Soft) : Bool :=
  match f.isr, f.main with
  | none, .gpio _ => true
  | _, _ => false

/-- What `read_inp_port` has returned in the Wishbone machine. -/
def pending (c : Machine) : BitVec 8 :=
  if decide (2 ≤ c.sys.bridge.cycle) && gpioNow c.sys.soft then c.sys.bridge.b0 else c.app.inp

theorem input_eq (c : Machine) : c.input = if gpioNow c.sys.soft && c.sys.bridge.ack then c.sys.bridge.b0 else c.app.inp := by
  unfold Machine.input gpioNow
  split <;> simp_all

theorem fw_input_eq (w : Fw.Machine) : w.input = if gpioNow w.sys.soft && w.sys.leds.ack then w.sys.leds.datR else w.app.inp := by
  unfold Fw.Machine.input gpioNow
  split <;> simp_all

theorem gpio_access {f : Soft} (h : gpioNow f = true) : f.access = some .gpio := by
  unfold gpioNow at h
  split at h
  · next h1 h2 => simp [Soft.access, h1, h2, Main.access]
  · cases h

theorem gpio_iff {f : Soft} {a : Access} (h : f.access = some a) : gpioNow f = true ↔ a = .gpio := by
  constructor
  · intro h1; rw [gpio_access h1] at h; cases h; rfl
  · rintro rfl
    obtain ⟨q, busy, box, cnt, main, isr⟩ := f
    rcases isr with _ | i
    · cases main <;> simp [Soft.access, Main.access] at h <;> rfl
    · cases i <;> simp [Soft.access, Isr.access] at h

structure MSim (c : Machine) (w : Fw.Machine) : Prop where
  sys : Sim c.sys w.sys
  app : w.app = { c.app with inp := pending c }

theorem env_eq {c : Machine} {w : Fw.Machine} (h : MSim c w) (q : Pins) :
    w.env { q with go := q.go && c.sys.soft.access.isNone, csr := true } = shadow c.sys (c.env q) := by
  have : w.app.op = c.app.op := by rw [h.app]; rfl
  unfold Fw.Machine.env shadow Machine.env
  rw [this]
  cases c.sys.soft.access <;> simp

theorem msim_step {c : Machine} {w : Fw.Machine} (h : MSim c w) (hi : Fw.RxInv w.sys) (q : Pins) :
    MSim (c.step D q) (w.step D { q with go := q.go && c.sys.soft.access.isNone, csr := true }) := by
  have hsys : Sim (c.step D q).sys (w.step D { q with go := q.go && c.sys.soft.access.isNone, csr := true }).sys := by
    show Sim (c.sys.step D (c.env q)) (w.sys.step D (w.env _))
    rw [env_eq h]
    exact sim_step h.sys hi _
  refine ⟨hsys, ?_⟩
  have happ := h.app
  cases hac : c.sys.soft.access with
  | none =>
    have hid : c.sys.bridge.cycle = 0 ∧ w.sys.soft = c.sys.soft := by
      cases h.sys.at_ with
      | idle h1 h2 h3 h4 h5 => exact ⟨h1, h4⟩
      | first a h0 => rw [hac] at h0; cases h0
      | later a h0 => rw [hac] at h0; cases h0
    have hg : gpioNow c.sys.soft = false := by
      cases hg : gpioNow c.sys.soft with
      | false => rfl
      | true => rw [gpio_access hg] at hac; cases hac
    have hp : pending c = c.app.inp := by unfold pending; rw [hg]; simp
    have ha : w.app = c.app := by rw [happ, hp]
    have hc' : (c.step D q).sys.bridge.cycle = 0 := by
      show (WbCsr.step c.sys.bridge c.sys.soft.access.isSome c.sys.bus.rData).cycle = 0
      rw [hac]
      simp [WbCsr.step, hid.1]
    have hp' : pending (c.step D q) = (c.step D q).app.inp := by unfold pending; rw [hc']; simp
    rw [hp']
    show (if w.asks _ then _ else _) = (c.step D q).app
    show _ = if c.asks q then _ else _
    have has : w.asks { q with go := q.go && (none : Option Access).isNone, csr := true } = c.asks q := by
      unfold Fw.Machine.asks Machine.asks
      rw [hid.2, irq_same h.sys.same]
      simp only [Option.isNone_none, Bool.and_true]
      rfl
    rw [has, fw_input_eq, input_eq, hid.2, hg, ha]
    simp
  | some a =>
    have hasw : w.asks { q with go := q.go && (some a).isNone, csr := true } = false := by
      unfold Fw.Machine.asks; simp
    have hasc : c.asks q = false := by
      unfold Machine.asks; rw [hac]; simp
    have hca : (c.step D q).app = { c.app with inp := c.input } := by
      show (if c.asks q then _ else _) = _
      rw [hasc]; rfl
    show (if w.asks _ then _ else _) = _
    rw [hasw, hca]
    simp only [Bool.false_eq_true, if_false]
    rw [happ]
    show App.mk _ _ _ = App.mk _ _ _
    congr 1
    -- what is pending afterwards
    rw [fw_input_eq, happ]
    have hb : (c.step D q).sys.bridge = c.sys.bridge.step true c.sys.bus.rData := by
      show WbCsr.step _ c.sys.soft.access.isSome _ = _
      rw [hac]; rfl
    have hs : (c.step D q).sys.soft = if c.sys.bridge.ack then c.sys.soft.done c.sys.bridge.b0 else c.sys.soft := by
      show c.sys.softNext _ = _
      unfold Sys.softNext
      rw [hac]
    have hi' : (c.step D q).app.inp = c.input := by rw [hca]
    unfold pending
    rw [hb, hi', input_eq]
    cases h.sys.at_ with
    | idle h1 h2 h3 h4 h5 =>
      rw [h5.2.2, h1, h2]
      simp [WbCsr.step, h1, h2]
    | first a' h0 h1 h2 h3 h4 h5 h6 h7 h8 h9 =>
      rw [hs, h4, h1, h2]
      simp only [WbCsr.step, h1, h2]
      cases hg : gpioNow c.sys.soft with
      | false => simp [hg]
      | true =>
        have hx := gpio_access hg
        rw [hx] at h0
        cases h0
        simp [hg]
        have h5' : w.sys.leds.ack = true := h5
        rw [h5']
        simp only [if_true]
        exact h9 rfl
    | later a' h0 h1 h2 h3 h4 h5 =>
      rw [h5.2.2]
      have hd : 2 ≤ c.sys.bridge.cycle := h1.1
      rw [hs]
      cases hk : c.sys.bridge.ack with
      | true => simp [WbCsr.step, hk, hd]
      | false =>
        have h1' : ¬ c.sys.bridge.cycle = 1 := by omega
        by_cases h4' : c.sys.bridge.cycle < 4
        · have : 2 ≤ c.sys.bridge.cycle + 1 := by omega
          simp [WbCsr.step, hk, hd, h4', h1', this]
        · simp [WbCsr.step, hk, hd, h4', h1']

theorem msim_at (n : Nat) : MSim (Machine.at_ D p n) (Fw.Machine.at_ D (pins D p) n) := by
  induction n with
  | zero => exact ⟨sim_init, rfl⟩
  | succ n ih =>
    refine msim_step ih ?_ (p n)
    rw [Fw.at_sys]
    exact Fw.rxInv_at _ n

/-- The run of the Wishbone machine is the one that goes with that of the CSR machine. -/
theorem envs_eq : Fw.Machine.envs D (pins D p) = shadows D (Machine.envs D p) := by
  funext n
  show (Fw.Machine.at_ D (pins D p) n).env (pins D p n) = shadow (Sys.at_ D (Machine.envs D p) n) ((Machine.at_ D p n).env (p n))
  rw [← at_sys]
  exact env_eq (msim_at n) (p n)

/-! ## The input port -/

variable {e : Nat → Env}

/-- How far an access is. -/
def pos (s : Sys) : Nat := if s.bridge.ack then 5 else s.bridge.cycle

theorem reading_access {c : Sys} {w : Fw.Sys} (h : Sim c w) (hi : Fw.Inv w) : c.soft.main.reading = true ↔ c.soft.access = some .gpio := by
  have h1 := soft_same h
  have hx : c.soft.isr ≠ none → c.soft.main.access = none := by
    intro hc
    have hw : w.soft.isr ≠ none := fun g => hc (h1.2.2.2.2.2.2.1 g)
    have h2 := (hi.isr hw).2
    cases h.at_ with
    | idle _ _ _ g _ => rw [← g]; exact h2
    | first _ _ _ _ _ g => rw [← g]; exact h2
    | later a _ _ _ _ g =>
      rw [g] at h2
      unfold Soft.done at h2
      split at h2
      · exact h2
      · exact absurd ‹_› hc
  clear h1 h hi
  generalize c.soft = f at *
  obtain ⟨q, busy, box, cnt, main, isr⟩ := f
  simp only at hx
  rcases isr with _ | i
  · cases main <;> simp [Main.reading, Soft.access, Main.access]
  · have := hx (by simp)
    constructor
    · intro h; cases main <;> simp [Main.reading] at h; simp [Main.access] at this
    · intro h; cases i <;> simp [Soft.access, Isr.access] at h

/-- Where the reads of the input port are, in the two runs. -/
theorem reading_at (n : Nat) :
    ((Sys.at_ D e n).soft.main.reading = true ↔ (Sys.at_ D e n).soft.access = some .gpio) ∧
    ((Fw.Sys.at_ D (shadows D e) n).soft.main.reading = true ↔ (Sys.at_ D e n).soft.access = some .gpio ∧ pos (Sys.at_ D e n) ≤ 1) := by
  have hs := sim_at (D := D) e n
  have hi := Fw.inv_at (D := D) (shadows D e) n
  have h1 := reading_access hs hi
  refine ⟨h1, ?_⟩
  unfold pos
  cases hs.at_ with
  | idle g1 g2 _ g _ => rw [g, h1, g1, g2]; simp
  | first _ _ g1 g2 _ g => rw [g, h1, g1, g2]; simp
  | later a g0 g1 g2 _ g =>
    have : ¬ (if (Sys.at_ D e n).bridge.ack = true then 5 else (Sys.at_ D e n).bridge.cycle) ≤ 1 := by split <;> omega
    simp only [this, and_false, iff_false]
    rw [g]
    intro hr
    have hg : (Sys.at_ D e n).soft.main.reading = true := by
      revert hr
      generalize (Sys.at_ D e n).soft = f
      obtain ⟨q, busy, box, cnt, main, isr⟩ := f
      rcases isr with _ | i
      · have hb : ∀ n, (Main.back n).reading = false := by intro n; cases n <;> rfl
        cases main <;> simp only [Soft.done, Main.done, hb] <;> simp [Main.reading]
      · simp [Soft.done]
    rw [h1, g0] at hg
    cases hg
    have h0 : (Sys.at_ D e n).soft.isr = none ∧ ∃ x, (Sys.at_ D e n).soft.main = .gpio x := by
      revert g0
      generalize (Sys.at_ D e n).soft = f
      obtain ⟨q, busy, box, cnt, main, isr⟩ := f
      intro g0
      rcases isr with _ | i
      · cases main <;> simp [Soft.access, Main.access] at g0
        simp
      · cases i <;> simp [Soft.access, Isr.access] at g0
    obtain ⟨h2, x, h3⟩ := h0
    unfold Soft.done at hr
    rw [h2, h3] at hr
    cases x <;> cases hr

open Classical in
theorem samples_eq (n : Nat) :
    if (Sys.at_ D e n).soft.access = some .gpio ∧ 2 ≤ pos (Sys.at_ D e n) then
      pos (Sys.at_ D e n) ≤ n ∧ Fw.samples D (shadows D e) n = samples D e n ++ [(e (n - pos (Sys.at_ D e n))).gpioI.getLsbD 0]
    else (pos (Sys.at_ D e n) ≤ n) ∧ Fw.samples D (shadows D e) n = samples D e n := by
  induction n with
  | zero => rw [if_neg (by rintro ⟨h, -⟩; cases h)]; exact ⟨Nat.le_refl _, rfl⟩
  | succ n ih =>
    obtain ⟨r1, r2⟩ := reading_at (D := D) (e := e) n
    obtain ⟨r3, r4⟩ := reading_at (D := D) (e := e) (n + 1)
    -- the next position
    have hp : pos (Sys.at_ D e (n + 1)) = if (Sys.at_ D e n).soft.access.isSome then (if pos (Sys.at_ D e n) = 5 then 0 else pos (Sys.at_ D e n) + 1) else 0 := by
      cases ha : (Sys.at_ D e n).soft.access with
      | none =>
        obtain ⟨i1, i2, -, -⟩ := idle_at ha
        show (if (WbCsr.step _ (Sys.at_ D e n).soft.access.isSome _).ack then 5 else (WbCsr.step _ (Sys.at_ D e n).soft.access.isSome _).cycle) = 0
        rw [ha]
        simp [WbCsr.step, i1, i2]
      | some a =>
        obtain ⟨b1, b2⟩ := bridge_next ha
        have hc : (Sys.at_ D e n).bridge.cycle ≤ 4 := by
          cases (sim_at (D := D) e n).at_ with
          | idle g => omega
          | first a _ g => omega
          | later a _ g => omega
        unfold pos
        rw [b1, b2]
        cases hb : (Sys.at_ D e n).bridge.ack with
        | true => simp
        | false =>
          by_cases h4 : (Sys.at_ D e n).bridge.cycle < 4
          · have : ¬ (Sys.at_ D e n).bridge.cycle = 5 := by omega
            simp [h4, this]
          · have : (Sys.at_ D e n).bridge.cycle = 4 := by omega
            simp [this]
    have hacc : ∀ a, (Sys.at_ D e n).soft.access = some a →
        (Sys.at_ D e (n + 1)).soft.access = if pos (Sys.at_ D e n) = 5 then none else some a := by
      intro a ha
      rw [busy_next ha]
      unfold pos
      cases hb : (Sys.at_ D e n).bridge.ack with
      | true => simp [done_access ha]
      | false =>
        have : ¬ (Sys.at_ D e n).bridge.cycle = 5 := by
          cases (sim_at (D := D) e n).at_ with
          | idle g => omega
          | first a _ g => omega
          | later a _ g => omega
        simp [this, ha]
    have hw := writing_eq (D := D) (e := e) (n + 1)
    have hnr : (writing D e (n + 1)).isSome = true → (Sys.at_ D e (n + 1)).soft.access ≠ some .gpio := by
      intro h1 h2
      rw [← r3] at h2
      unfold writing at h1
      cases hm : (Sys.at_ D e (n + 1)).soft.main <;> rw [hm] at h1 h2 <;> simp [Main.writing, Main.reading] at h1 h2
    rw [samples, Fw.samples, ← hw]
    have hpn : pos (Sys.at_ D e (n + 1)) ≤ n + 1 := by
      have : pos (Sys.at_ D e n) ≤ n := by split at ih <;> exact ih.1
      rw [hp]
      split
      · split <;> omega
      · omega
    cases hwr : (writing D e (n + 1)).isSome with
    | true =>
      rw [if_neg (fun h => hnr hwr h.1)]
      exact ⟨hpn, by simp⟩
    | false =>
      simp only [Bool.false_eq_true, if_false]
      have b1 : ∀ b : Bool, ∀ P : Prop, (b = true ↔ P) → ¬ P → b = false := fun b P h1 h2 => by
        cases b
        · rfl
        · exact absurd (h1.1 rfl) h2
      by_cases hg : (Sys.at_ D e n).soft.access = some .gpio
      · have hn := hacc _ hg
        rw [hg] at hp
        simp only [Option.isSome_some, if_true] at hp
        rw [r1.2 hg]
        by_cases h5 : pos (Sys.at_ D e n) = 5
        · -- it ends
          rw [if_pos h5] at hp hn
          rw [if_pos ⟨hg, by omega⟩] at ih
          rw [if_neg (by rw [hn]; rintro ⟨h, -⟩; cases h), b1 _ _ r2 (by omega), b1 _ _ r3 (by rw [hn]; nofun)]
          refine ⟨hpn, ?_⟩
          rw [ih.2, h5]
          simp
        · rw [if_neg h5] at hp hn
          rw [r3.2 hn]
          by_cases h2 : 2 ≤ pos (Sys.at_ D e n)
          · rw [if_pos ⟨hg, h2⟩] at ih
            rw [if_pos ⟨hn, by omega⟩, b1 _ _ r2 (by omega)]
            refine ⟨hpn, ?_⟩
            rw [ih.2, hp]
            simp
          · rw [if_neg (fun h => h2 h.2)] at ih
            rw [r2.2 ⟨hg, by omega⟩]
            by_cases h1 : pos (Sys.at_ D e n) = 1
            · rw [if_pos ⟨hn, by omega⟩, b1 _ _ r4 (by omega)]
              refine ⟨hpn, ?_⟩
              rw [ih.2, hp, h1]
              simp
              rfl
            · rw [if_neg (by omega), r4.2 ⟨hn, by omega⟩]
              refine ⟨hpn, ?_⟩
              rw [ih.2]
              simp
      · rw [if_neg (fun h => hg h.1)] at ih
        rw [b1 _ _ r1 hg, b1 _ _ r2 (fun h => hg h.1)]
        have hlt : ¬ ((Sys.at_ D e (n + 1)).soft.access = some .gpio ∧ 2 ≤ pos (Sys.at_ D e (n + 1))) := by
          rintro ⟨h1, h2⟩
          cases ha : (Sys.at_ D e n).soft.access with
          | none => rw [hp, ha] at h2; simp at h2
          | some a =>
            rw [hacc a ha] at h1
            split at h1
            · cases h1
            · cases h1; exact hg ha
        rw [if_neg hlt]
        refine ⟨hpn, ?_⟩
        rw [ih.2]
        simp

end Sentinel.FwCsr
