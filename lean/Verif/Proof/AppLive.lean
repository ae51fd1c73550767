import Verif.Proof.AppWait
import Verif.Props.FirmwareTime
/-!
# The critical sections of the application end
-/

set_option linter.unusedSimpArgs false

namespace Sentinel.Fw

variable {D : Nat}

theorem calls_const {e : Nat → Env} (m k : Nat) (hw : ∀ i, i ≤ k → writing D e (m + i) = none) : calls D e (m + k) = calls D e m := by
  induction k with
  | zero => rfl
  | succ k ih =>
    rw [← Nat.add_assoc, calls, ih (fun i hi => hw i (by omega)), hw k (by omega)]
    rw [show m + k + 1 = m + (k + 1) from rfl, hw (k + 1) (by omega)]
    simp

/-- How much may be waiting to be sent while the rule is asked for. -/
def Pc.budget : Pc → Option Nat
  | .clear _ c => if c = 3 then some 0 else none
  | .unlock _ true | .setRule => some 0
  | .read buf | .readLook buf | .readClear buf | .readUnlock buf => some (31 + 2 * buf.length)
  | _ => none

def EchoInv (D : Nat) (p : Nat → Pins) (n : Nat) : Prop :=
  ∀ B, (Machine.at_ D p n).app.pc.budget = some B →
    (calls D (Machine.envs D p) n).length + (Machine.at_ D p n).app.out.length ≤ (frames D (Machine.envs D p) n).length + B

theorem prompt_length : prompt.length = 31 := by decide +kernel

theorem encode_length (b : BitVec 8) : (encodeUtf8 b.toNat).length ≤ 2 := by
  revert b; decide +kernel

theorem calls_quiet {p : Nat → Pins} {n : Nat} (ha : (Machine.at_ D p n).asks (p n) = false) :
    calls D (Machine.envs D p) (n + 1) = calls D (Machine.envs D p) n := by
  have hi := main_isr_none (D := D) (e := Machine.envs D p) n
  rw [← at_sys] at hi
  have q := quiesce (D := D) hi ha
  rw [calls]
  unfold writing
  rw [← at_sys, ← at_sys]
  cases hw : (Machine.at_ D p n).sys.soft.main.writing with
  | some b => simp
  | none =>
    have := q.writing hw
    rw [show (Machine.at_ D p (n + 1)).sys = ((Machine.at_ D p n).step D (p n)).sys from rfl, this]
    simp

theorem calls_asked {p : Nat → Pins} {n : Nat} (ha : (Machine.at_ D p n).asks (p n) = true) :
    calls D (Machine.envs D p) (n + 1) = calls D (Machine.envs D p) n ++
      match (Machine.at_ D p n).app.out with | b :: _ => [b] | [] => [] := by
  obtain ⟨a1, a2, a3, a4⟩ := asked (D := D) ha
  have := op_main (Machine.at_ D p n).sys.soft (Machine.at_ D p n).sys.soft.main.lk (Machine.at_ D p n).app.op a3
  rw [← a1] at this
  have h1 : calls D (Machine.envs D p) (n + 1) = calls D (Machine.envs D p) n ++
      newCall (Machine.at_ D p n).sys.soft.main ((Machine.at_ D p n).step D (p n)).sys.soft.main := by
    have : ((Machine.at_ D p n).step D (p n)).sys = (Machine.at_ D p (n + 1)).sys := rfl
    rw [this, at_sys, at_sys]
    rfl
  rw [h1, this]
  congr 1
  unfold App.op
  cases (Machine.at_ D p n).app.out with
  | cons b bs => rfl
  | nil => cases (Machine.at_ D p n).app.pc <;> rfl

theorem app_quiet_same {p : Nat → Pins} {n : Nat} (ha : (Machine.at_ D p n).asks (p n) = false) :
    (Machine.at_ D p (n + 1)).app.pc = (Machine.at_ D p n).app.pc ∧ (Machine.at_ D p (n + 1)).app.out = (Machine.at_ D p n).app.out := by
  show ((Machine.at_ D p n).step D (p n)).app.pc = _ ∧ ((Machine.at_ D p n).step D (p n)).app.out = _
  simp [Machine.step, ha]

theorem app_asked {p : Nat → Pins} {n : Nat} (ha : (Machine.at_ D p n).asks (p n) = true) :
    (Machine.at_ D p (n + 1)).app = (Machine.at_ D p n).app.next (Machine.at_ D p n).sys.soft.rxBox (Machine.at_ D p n).sys.soft.count := by
  show ((Machine.at_ D p n).step D (p n)).app = _
  simp [Machine.step, ha]

/-- At the end of the wait everything is on the line. -/
theorem look_drained (hD : 0 < D) {K : Nat} {p : Nat → Pins} (hK : ∀ n, ∃ m ≥ n, m < n + K ∧ (p m).go = true)
    (hfast : 63 * (10 * D + 15 * K + 19) ≤ 142 * 2 ^ 14) {n : Nat} {d : Demo} (h : (Machine.at_ D p n).app.pc = .look d) :
    (calls D (Machine.envs D p) n).length ≤ (frames D (Machine.envs D p) n).length := by
  have hK' : ∀ n, ∃ m ≥ n, m < n + K ∧ (Machine.envs D p m).act.isSome = true := by
    intro n
    obtain ⟨m, h1, h2, h3⟩ := hK n
    exact ⟨m, h1, h2, by simp [Machine.envs, Machine.env, h3]⟩
  have ht := (wait_at D p n).time
  rw [h] at ht
  obtain ⟨m, m1, m2, m3, m4, -, m6⟩ := ht rfl
  obtain ⟨k, k1, k2, k3, k4⟩ := m6 rfl
  obtain ⟨x, rfl⟩ := Nat.exists_eq_add_of_le k2
  obtain ⟨y, rfl⟩ := Nat.exists_eq_add_of_le k1
  have h1 := C65_wait (D := D) (Machine.envs D p) m3 m2 (by decide : 2 ≤ 144) k3
  have h2 := C65_drain hD hK' (m := m) (k := x) (by omega) (fun i hi => k4 _ (by omega) (by omega)) (fun i hi => m4 _ (by omega) (by omega))
  have h3 := calls_const (D := D) (e := Machine.envs D p) (m + x) y (fun i hi => m4 _ (by omega) (by omega))
  have h4 := (frames_mono (D := D) (e := Machine.envs D p) (m + x) y).length_le
  rw [h3, ← h2]
  exact h4

theorem echo_at (hD : 0 < D) {K : Nat} {p : Nat → Pins} (hK : ∀ n, ∃ m ≥ n, m < n + K ∧ (p m).go = true)
    (hfast : 63 * (10 * D + 15 * K + 19) ≤ 142 * 2 ^ 14) (n : Nat) : EchoInv D p n := by
  induction n with
  | zero => exact nofun
  | succ n ih =>
    have hf := (frames_mono (D := D) (e := Machine.envs D p) n 1).length_le
    intro B hB
    cases ha : (Machine.at_ D p n).asks (p n) with
    | false =>
      obtain ⟨g1, g2⟩ := app_quiet_same ha
      rw [g1] at hB
      rw [calls_quiet ha, g2]
      have := ih B hB
      omega
    | true =>
      rw [calls_asked ha]
      have happ := app_asked ha
      have hok := (appInv_at D p n).ok
      rw [happ] at hB ⊢
      cases ho : (Machine.at_ D p n).app.out with
      | cons b bs =>
        rw [show (Machine.at_ D p n).app.next (Machine.at_ D p n).sys.soft.rxBox (Machine.at_ D p n).sys.soft.count = { (Machine.at_ D p n).app with out := bs } by
          simp [App.next, ho]] at hB ⊢
        have := ih B hB
        rw [ho] at this
        simp at this ⊢
        omega
      | nil =>
        have ih' := fun B hB => ih B hB
        rw [ho] at ih'
        simp only [List.length_nil, Nat.add_zero] at ih'
        simp only [List.append_nil]
        cases hpc : (Machine.at_ D p n).app.pc with
        | look d =>
          have hl := look_drained hD hK hfast hpc
          cases hr : (Machine.at_ D p n).sys.soft.rxBox with
          | none => rw [hr] at hB; simp [App.next, ho, hpc, Pc.budget] at hB
          | some c =>
            rw [hr] at hB
            simp [App.next, ho, hpc] at hB ⊢
            omega
        | clear d c =>
          simp only [App.next, ho, hpc] at hB ⊢
          by_cases hc : c = 3
          · have := ih' 0 (by rw [hpc]; simp [Pc.budget, hc])
            simp only [List.length_nil]
            omega
          · rw [show (c == 3) = false by simpa using hc] at hB
            cases hB
        | unlock d c =>
          simp only [App.next, ho, hpc] at hB ⊢
          cases c with
          | false => cases hB
          | true =>
            have := ih' 0 (by rw [hpc]; rfl)
            simp only [List.length_nil]
            omega
        | setRule =>
          simp only [App.next, ho, hpc] at hB ⊢
          have := ih' 0 (by rw [hpc]; rfl)
          simp only [Pc.budget, List.length_nil, Option.some.injEq] at hB
          rw [prompt_length]
          omega
        | read buf =>
          simp only [App.next, ho, hpc] at hB ⊢
          have := ih' B (by rw [hpc]; exact hB)
          simp only [List.length_nil]
          omega
        | readLook buf =>
          have := ih' _ (by rw [hpc]; rfl)
          cases hr : (Machine.at_ D p n).sys.soft.rxBox with
          | none =>
            rw [hr] at hB
            simp [App.next, ho, hpc, Pc.budget] at hB ⊢
            omega
          | some b =>
            rw [hr] at hB
            simp only [App.next, ho, hpc, Pc.budget, List.length_append, List.length_singleton, Option.some.injEq] at hB ⊢
            have := encode_length b
            omega
        | readClear buf =>
          simp only [App.next, ho, hpc] at hB ⊢
          have := ih' B (by rw [hpc]; exact hB)
          simp only [List.length_nil]
          omega
        | readUnlock buf =>
          simp only [App.next, ho, hpc] at hB ⊢
          by_cases hb : buf.length < 3
          · rw [if_pos hb] at hB
            have := ih' B (by rw [hpc]; exact hB)
            simp only [List.length_nil]
            omega
          · rw [if_neg hb] at hB; cases hB
        | wait d c => simp only [App.next, ho, hpc] at hB; (repeat' split at hB) <;> simp [Pc.budget] at hB
        | _ => simp [App.next, ho, hpc, Pc.budget] at hB

/-- Places in critical sections where nothing is about to be written. -/
def Pc.silent : Pc → Bool
  | .look _ | .clear _ _ | .unlock _ _ | .readLook _ | .readUnlock _ => true
  | _ => false

theorem silent_at (p : Nat → Pins) (n : Nat) : (Machine.at_ D p n).app.pc.silent = true → (Machine.at_ D p n).app.out = [] := by
  induction n with
  | zero => nofun
  | succ n ih =>
    cases ha : (Machine.at_ D p n).asks (p n) with
    | false =>
      obtain ⟨g1, g2⟩ := app_quiet_same ha
      rw [g1, g2]; exact ih
    | true =>
      rw [app_asked ha]
      cases ho : (Machine.at_ D p n).app.out with
      | cons b bs =>
        rw [show (Machine.at_ D p n).app.next (Machine.at_ D p n).sys.soft.rxBox (Machine.at_ D p n).sys.soft.count = { (Machine.at_ D p n).app with out := bs } by
          simp [App.next, ho]]
        intro h
        rw [ih h] at ho
        cases ho
      | nil =>
        unfold App.next
        rw [ho]
        cases (Machine.at_ D p n).app.pc with
        | readLook buf => cases (Machine.at_ D p n).sys.soft.rxBox <;> simp [Pc.silent, ho]
        | wait d c => simp only; (repeat' split) <;> simp [Pc.silent, ho]
        | readUnlock buf => simp only; (repeat' split) <;> simp [Pc.silent, ho]
        | unlock d c => simp only; (repeat' split) <;> simp [Pc.silent, ho]
        | _ => simp [Pc.silent, ho]

/-- Nothing happens to the application while the processor does no action. -/
theorem idle_stays {p : Nat → Pins} (n k : Nat) (hm : (Machine.at_ D p n).sys.soft.main = .locked ∨ (Machine.at_ D p n).sys.soft.main = .app)
    (hi : (Machine.at_ D p n).sys.soft.isr = none)
    (hg : ∀ i, i < k → (p (n + i)).go = false) :
    (Machine.at_ D p (n + k)).sys.soft = (Machine.at_ D p n).sys.soft ∧ (Machine.at_ D p (n + k)).app.pc = (Machine.at_ D p n).app.pc ∧
      (Machine.at_ D p (n + k)).app.out = (Machine.at_ D p n).app.out := by
  induction k with
  | zero => exact ⟨rfl, rfl, rfl⟩
  | succ k ih =>
    obtain ⟨h1, h2, h3⟩ := ih (fun i hi => hg i (by omega))
    have hgo := hg k (by omega)
    have ha : (Machine.at_ D p (n + k)).asks (p (n + k)) = false := by simp [Machine.asks, hgo]
    obtain ⟨g1, g2⟩ := app_quiet_same ha
    refine ⟨?_, by rw [← Nat.add_assoc, g1, h2], by rw [← Nat.add_assoc, g2, h3]⟩
    rw [← h1, ← Nat.add_assoc]
    show (Machine.at_ D p (n + k)).sys.softNext ((Machine.at_ D p (n + k)).env (p (n + k))).act = _
    have hac : (Machine.at_ D p (n + k)).sys.soft.access = none := by
      rw [h1]
      rcases hm with hm | hm <;> simp [Soft.access, hi, hm, Main.access]
    unfold Sys.softNext
    rw [hac]
    simp [Machine.env, hgo]

theorem first_go {p : Nat → Pins} {K : Nat} (hgo : ∀ n, ∃ m ≥ n, m < n + K ∧ (p m).go = true) (n : Nat) :
    ∃ k, k < K ∧ (p (n + k)).go = true ∧ ∀ i, i < k → (p (n + i)).go = false := by
  obtain ⟨m, h1, h1', h2⟩ := hgo n
  have hm : (p (n + (m - n))).go = true := by rw [show n + (m - n) = m by omega]; exact h2
  have hex : ∃ k, (p (n + k)).go = true := ⟨m - n, hm⟩
  classical
  refine ⟨Nat.find hex, Nat.lt_of_le_of_lt (Nat.find_min' hex hm) (by omega), Nat.find_spec hex, fun i hi => ?_⟩
  have := Nat.find_min hex hi
  simpa using this

/-- In a critical section the application does its next operation. -/
theorem locked_asks {p : Nat → Pins} {K : Nat} (hgo : ∀ n, ∃ m ≥ n, m < n + K ∧ (p m).go = true) {n : Nat} (hm : (Machine.at_ D p n).sys.soft.main = .locked) :
    ∃ m ≥ n, m < n + K ∧ (Machine.at_ D p m).asks (p m) = true ∧ (Machine.at_ D p m).sys.soft = (Machine.at_ D p n).sys.soft ∧
      (Machine.at_ D p m).app.pc = (Machine.at_ D p n).app.pc ∧ (Machine.at_ D p m).app.out = (Machine.at_ D p n).app.out := by
  have hi : (Machine.at_ D p n).sys.soft.isr = none := by
    rw [at_sys] at hm ⊢
    exact main_isr_none n (by rw [hm]; rfl)
  obtain ⟨k, k0, k1, k2⟩ := first_go hgo n
  obtain ⟨g1, g2, g3⟩ := idle_stays n k (.inl hm) hi k2
  refine ⟨n + k, by omega, by omega, ?_, g1, g2, g3⟩
  simp [Machine.asks, k1, g1, hi, hm, Soft.access, Main.access, Main.enabled]

/-- A byte of the echo is written. -/
theorem nested_written (hD : 0 < D) {K : Nat} {p : Nat → Pins} (hK : ∀ n, ∃ m ≥ n, m < n + K ∧ (p m).go = true)
    (hfast : 63 * (10 * D + 15 * K + 19) ≤ 142 * 2 ^ 14) {n : Nat} (hm : (Machine.at_ D p n).sys.soft.main = .locked)
    {b : BitVec 8} {bs : List (BitVec 8)} (ho : (Machine.at_ D p n).app.out = b :: bs) (ha : (Machine.at_ D p n).asks (p n) = true) :
    ∃ m > n, m ≤ n + (3 * K + 3) ∧ (Machine.at_ D p m).sys.soft.main = .locked ∧ (Machine.at_ D p m).app.pc = (Machine.at_ D p n).app.pc ∧
      (Machine.at_ D p m).app.out = bs ∧ ∀ k, n < k → k ≤ m → (Machine.at_ D p k).sys.soft.main.lk = true := by
  obtain ⟨a1, a2, a3, a4⟩ := asked (D := D) ha
  have hact : ∀ n, ∃ m ≥ n, m < n + K ∧ (Machine.envs D p m).act.isSome = true := by
    intro n
    obtain ⟨m, h1, h2, h3⟩ := hK n
    exact ⟨m, h1, h2, by simp [Machine.envs, Machine.env, h3]⟩
  have hop : (Machine.at_ D p n).app.op = .write b := by simp [App.op, ho]
  have h1 : (Machine.at_ D p (n + 1)).sys.soft.main = .retry true b := by
    show ((Machine.at_ D p n).step D (p n)).sys.soft.main = _
    rw [a1, hop, hm]; rfl
  have happ := app_asked ha
  rw [show (Machine.at_ D p n).app.next (Machine.at_ D p n).sys.soft.rxBox (Machine.at_ D p n).sys.soft.count = { (Machine.at_ D p n).app with out := bs } by
    simp [App.next, ho]] at happ
  -- the place is `readClear`
  have hlk : (Machine.at_ D p n).app.pc.lk = true := by rw [← (appInv_at D p n).lk, hm]; rfl
  have hsil : (Machine.at_ D p n).app.pc.silent = false := by
    by_contra hh
    have := silent_at (D := D) p n (by simpa using hh)
    rw [this] at ho; cases ho
  have hroom : (calls D (Machine.envs D p) (n + 1)).length ≤ (frames D (Machine.envs D p) (n + 1)).length + 63 := by
    have hok := (appInv_at D p n).ok
    cases hpc : (Machine.at_ D p n).app.pc with
    | readClear buf =>
      have := echo_at hD hK hfast (n + 1) (31 + 2 * buf.length) (by rw [happ]; show (Machine.at_ D p n).app.pc.budget = _; rw [hpc]; rfl)
      rw [hpc] at hok
      have := hok.2.1
      omega
    | look _ => rw [hpc] at hsil; cases hsil
    | clear _ _ => rw [hpc] at hsil; cases hsil
    | unlock _ _ => rw [hpc] at hsil; cases hsil
    | readLook _ => rw [hpc] at hsil; cases hsil
    | readUnlock _ => rw [hpc] at hsil; cases hsil
    | _ => rw [hpc] at hlk; cases hlk
  have hn := C65_nested_time hD hact (n := n) (b := b) (by rw [← at_sys]; exact hm) (by unfold writing; rw [← at_sys, h1]; rfl) hroom
  obtain ⟨mm, mm1, mmle, _, mm2⟩ := hn
  have hex : ∃ m, n < m ∧ (Machine.at_ D p m).sys.soft.main = .locked := ⟨mm, mm1, by rw [at_sys]; exact mm2⟩
  classical
  have hfle := Nat.find_min' hex ⟨mm1, by rw [at_sys]; exact mm2⟩
  obtain ⟨f1, f2⟩ := Nat.find_spec hex
  have hmin := fun k (hk : k < Nat.find hex) => Nat.find_min hex hk
  generalize Nat.find hex = m at *
  have key : ∀ k, n + 1 + k ≤ m → (Machine.at_ D p (n + 1 + k)).sys.soft.main.lk = true ∧
      (Machine.at_ D p (n + 1 + k)).app.pc = (Machine.at_ D p n).app.pc ∧ (Machine.at_ D p (n + 1 + k)).app.out = bs := by
    intro k
    induction k with
    | zero => exact fun _ => ⟨by rw [Nat.add_zero, h1]; rfl, by rw [Nat.add_zero, happ], by rw [Nat.add_zero, happ]⟩
    | succ k ih =>
      intro hk
      obtain ⟨i1, i2, i3⟩ := ih (by omega)
      have hne : (Machine.at_ D p (n + 1 + k)).sys.soft.main ≠ .locked := fun hh => hmin (n + 1 + k) (by omega) ⟨by omega, hh⟩
      have haq : (Machine.at_ D p (n + 1 + k)).asks (p (n + 1 + k)) = false := by
        cases hq : (Machine.at_ D p (n + 1 + k)).asks (p (n + 1 + k)) with
        | false => rfl
        | true =>
          obtain ⟨_, _, q3, _⟩ := asked (D := D) hq
          rcases q3 with q3 | q3
          · rw [q3] at i1; cases i1
          · exact absurd q3 hne
      obtain ⟨g1, g2⟩ := app_quiet_same haq
      have hi := main_isr_none (D := D) (e := Machine.envs D p) (n + 1 + k)
      rw [← at_sys] at hi
      have q := quiesce (D := D) hi haq
      rw [← Nat.add_assoc]
      exact ⟨by rw [← i1]; exact q.lk, by rw [g1, i2], by rw [g2, i3]⟩
  obtain ⟨d, rfl⟩ := Nat.exists_eq_add_of_le (show n + 1 ≤ m from f1)
  obtain ⟨k1, k2, k3⟩ := key d (by omega)
  refine ⟨n + 1 + d, by omega, by omega, f2, k2, k3, ?_⟩
  intro k hk hk'
  obtain ⟨x, rfl⟩ := Nat.exists_eq_add_of_le (show n + 1 ≤ k from hk)
  exact (key x hk').1

/-- How far it is to the end of the critical section. -/
def Pc.far : Pc → Nat
  | .look _ => 3
  | .clear _ _ => 2
  | .unlock _ _ => 1
  | .readLook _ => 5
  | .readClear _ => 2
  | .readUnlock _ => 1
  | _ => 0

/-- How long that may take. -/
def Pc.lim (K : Nat) : Pc → Nat
  | .look _ => 3 * K
  | .clear _ _ => 2 * K
  | .unlock _ _ => K
  | .readLook _ => 11 * K + 4
  | .readClear _ => 2 * K
  | .readUnlock _ => K
  | _ => 0

/-- A critical section ends. -/
theorem section_ends (hD : 0 < D) {K : Nat} {p : Nat → Pins} (hK : ∀ n, ∃ m ≥ n, m < n + K ∧ (p m).go = true)
    (hfast : 63 * (10 * D + 15 * K + 19) ≤ 142 * 2 ^ 14) (r : Nat) :
    ∀ n, (Machine.at_ D p n).sys.soft.main = .locked → (Machine.at_ D p n).app.pc.far + (Machine.at_ D p n).app.out.length = r →
      ∃ m > n, m ≤ n + ((Machine.at_ D p n).app.pc.lim K + (Machine.at_ D p n).app.out.length * (4 * K + 2)) ∧ (Machine.at_ D p m).sys.soft.main = .app := by
  induction r using Nat.strong_induction_on with
  | _ r ih =>
    intro n hm hr
    obtain ⟨m, m1, m1', m2, m3, m4, m5⟩ := locked_asks hK hm
    obtain ⟨a1, a2, a3, a4⟩ := asked (D := D) m2
    have hmm : (Machine.at_ D p m).sys.soft.main = .locked := by rw [m3]; exact hm
    have hlk : (Machine.at_ D p m).app.pc.lk = true := by rw [← (appInv_at D p m).lk, hmm]; rfl
    rw [← m4, ← m5] at hr ⊢
    have happ := app_asked m2
    have a1' : (Machine.at_ D p (m + 1)).sys.soft = (Machine.at_ D p m).sys.soft.opAct true (Machine.at_ D p m).app.op := by
      rw [hmm] at a1; exact a1
    cases ho : (Machine.at_ D p m).app.out with
    | cons b bs =>
      obtain ⟨x, x1, xle, x2, x3, x4, _⟩ := nested_written hD hK hfast hmm ho m2
      rw [ho] at hr
      obtain ⟨y, y1, yle, y2⟩ := ih _ (by rw [x3, x4]; simp at hr; omega) x x2 rfl
      refine ⟨y, by omega, ?_, y2⟩
      rw [x3, x4] at yle
      rw [List.length_cons, Nat.succ_mul]
      generalize bs.length * (4 * K + 2) = z at *
      omega
    | nil =>
      rw [ho] at hr
      simp only [List.length_nil, Nat.add_zero] at hr
      -- the operation, if it does not leave the critical section
      have stay : (Machine.at_ D p m).app.op = .other ∨ (Machine.at_ D p m).app.op = .clearRx →
          (Machine.at_ D p (m + 1)).app.pc.far + (Machine.at_ D p (m + 1)).app.out.length < (Machine.at_ D p m).app.pc.far →
          (Machine.at_ D p (m + 1)).app.pc.lim K + (Machine.at_ D p (m + 1)).app.out.length * (4 * K + 2) + K ≤ (Machine.at_ D p m).app.pc.lim K →
          ∃ x > n, x ≤ n + ((Machine.at_ D p m).app.pc.lim K + ([] : List (BitVec 8)).length * (4 * K + 2)) ∧ (Machine.at_ D p x).sys.soft.main = .app := by
        intro h1 h2 h3
        obtain ⟨y, y1, yle, y2⟩ := ih _ (by omega) (m + 1) (by rw [a1']; rcases h1 with h1 | h1 <;> rw [h1] <;> exact hmm) rfl
        exact ⟨y, by omega, by simp only [List.length_nil, Nat.zero_mul]; omega, y2⟩
      have leave : (Machine.at_ D p m).app.op = .unlock → K ≤ (Machine.at_ D p m).app.pc.lim K →
          ∃ x > n, x ≤ n + ((Machine.at_ D p m).app.pc.lim K + ([] : List (BitVec 8)).length * (4 * K + 2)) ∧ (Machine.at_ D p x).sys.soft.main = .app := by
        intro h1 h2
        exact ⟨m + 1, by omega, by simp only [List.length_nil, Nat.zero_mul]; omega, by rw [a1', h1]; rfl⟩
      cases hpc : (Machine.at_ D p m).app.pc with
      | look d =>
        rw [← hpc]
        refine stay (.inl (by simp [App.op, ho, hpc])) ?_ ?_ <;> rw [happ] <;>
          cases hx : (Machine.at_ D p m).sys.soft.rxBox <;> simp [App.next, ho, hpc, Pc.far, Pc.lim] <;> omega
      | clear d c =>
        rw [← hpc]
        refine stay (.inr (by simp [App.op, ho, hpc])) ?_ ?_ <;> rw [happ] <;> simp [App.next, ho, hpc, Pc.far, Pc.lim]
        omega
      | unlock d c => rw [← hpc]; exact leave (by simp [App.op, ho, hpc]) (by rw [hpc]; simp [Pc.lim])
      | readLook buf =>
        rw [← hpc]
        refine stay (.inl (by simp [App.op, ho, hpc])) ?_ ?_ <;> rw [happ]
        · cases hx : (Machine.at_ D p m).sys.soft.rxBox with
          | none => simp [App.next, ho, hpc, Pc.far]
          | some b =>
            have := encode_length b
            simp [App.next, ho, hpc, Pc.far]
            omega
        · cases hx : (Machine.at_ D p m).sys.soft.rxBox with
          | none => simp [App.next, ho, hpc, Pc.lim]; omega
          | some b =>
            have := Nat.mul_le_mul_right (4 * K + 2) (encode_length b)
            simp only [App.next, ho, hpc, Pc.lim]
            omega
      | readClear buf =>
        rw [← hpc]
        refine stay (.inr (by simp [App.op, ho, hpc])) ?_ ?_ <;> rw [happ] <;> simp [App.next, ho, hpc, Pc.far, Pc.lim]
        omega
      | readUnlock buf => rw [← hpc]; exact leave (by simp [App.op, ho, hpc]) (by rw [hpc]; simp [Pc.lim])
      | _ => rw [hpc] at hlk; cases hlk

/-- A critical section ends soon. -/
theorem unlocked_soon (hD : 0 < D) {K : Nat} {p : Nat → Pins} (hK : ∀ n, ∃ m ≥ n, m < n + K ∧ (p m).go = true)
    (hfast : 63 * (10 * D + 15 * K + 19) ≤ 142 * 2 ^ 14) {n : Nat} (hn : (Machine.at_ D p n).sys.soft.main.lk = true) :
    ∃ m ≥ n, m ≤ n + (11 * K + 4) ∧ (Machine.at_ D p m).sys.soft.main = .app := by
  -- the section begins
  obtain ⟨m, m1, m2, m3⟩ : ∃ m < n, (Machine.at_ D p m).sys.soft.main.lk = false ∧ ∀ k, m < k → k ≤ n → (Machine.at_ D p k).sys.soft.main.lk = true := by
    by_contra hno
    have all : ∀ d, d ≤ n → ∀ k, n - d ≤ k → k ≤ n → (Machine.at_ D p k).sys.soft.main.lk = true := by
      intro d
      induction d with
      | zero => intro _ k k1 k2; rw [show k = n by omega]; exact hn
      | succ d ihd =>
        intro hd k k1 k2
        have := ihd (by omega)
        by_cases hk : n - d ≤ k
        · exact this k hk k2
        · cases hx : (Machine.at_ D p k).sys.soft.main.lk with
          | true => rfl
          | false => exact absurd ⟨k, by omega, hx, fun j j1 j2 => this j (by omega) j2⟩ hno
    have := all n (Nat.le_refl _) 0 (by omega) (by omega)
    cases this
  have hl := m3 (m + 1) (by omega) (by omega)
  have ha : (Machine.at_ D p m).asks (p m) = true := by
    by_contra hh
    have hi := main_isr_none (D := D) (e := Machine.envs D p) m
    rw [← at_sys] at hi
    have q := quiesce (D := D) hi (by simpa using hh)
    have := q.lk
    rw [m2, show ((Machine.at_ D p m).step D (p m)) = Machine.at_ D p (m + 1) from rfl, hl] at this
    cases this
  obtain ⟨a1, a2, a3, a4⟩ := asked (D := D) ha
  have hmain : (Machine.at_ D p m).sys.soft.main = .app := by
    rcases a3 with a3 | a3
    · exact a3
    · rw [a3] at m2; cases m2
  have hop : (Machine.at_ D p m).app.op = .lock := by
    change (Machine.at_ D p (m + 1)).sys.soft = _ at a1
    rw [a1, hmain] at hl
    revert hl
    cases (Machine.at_ D p m).app.op <;> simp [Soft.opAct, Main.lk, hmain]
  have hlock : (Machine.at_ D p (m + 1)).sys.soft.main = .locked := by
    change (Machine.at_ D p (m + 1)).sys.soft = _ at a1
    rw [a1, hop]; rfl
  have happ := app_asked ha
  have hpc : (Machine.at_ D p (m + 1)).app.out = [] ∧ (Machine.at_ D p (m + 1)).app.pc.lim K ≤ 11 * K + 4 := by
    rw [happ]
    unfold App.op at hop
    cases ho : (Machine.at_ D p m).app.out with
    | cons b bs => rw [ho] at hop; cases hop
    | nil =>
      rw [ho] at hop
      cases hpc : (Machine.at_ D p m).app.pc <;> rw [hpc] at hop <;> first
        | (cases hop; done)
        | (simp [App.next, ho, hpc, Pc.lim]; try omega)
  obtain ⟨x, x1, xle, x2⟩ := section_ends hD hK hfast _ (m + 1) hlock rfl
  rw [hpc.1] at xle
  simp only [List.length_nil, Nat.zero_mul] at xle
  refine ⟨x, ?_, by omega, x2⟩
  by_contra hx
  have := m3 x (by omega) (by omega)
  rw [x2] at this
  cases this

/-- Every critical section ends. -/
theorem unlocked_again (hD : 0 < D) {K : Nat} {p : Nat → Pins} (hK : ∀ n, ∃ m ≥ n, m < n + K ∧ (p m).go = true)
    (hfast : 63 * (10 * D + 15 * K + 19) ≤ 142 * 2 ^ 14) (n : Nat) : ∃ m ≥ n, (Machine.at_ D p m).sys.soft.main.lk = false := by
  cases h : (Machine.at_ D p n).sys.soft.main.lk with
  | false => exact ⟨n, by omega, h⟩
  | true =>
    obtain ⟨m, m1, -, m2⟩ := unlocked_soon hD hK hfast h
    exact ⟨m, m1, by rw [m2]; rfl⟩

theorem enabled_soon {e : Nat → Env} {K : Nat} (hact : ∀ n, ∃ m ≥ n, m < n + K ∧ (e m).act.isSome = true) {n : Nat}
    (h : (Sys.at_ D e n).soft.main.lk = false) : ∃ m ≥ n, m ≤ n + (2 * K + 2) ∧ (Sys.at_ D e m).soft.main.enabled = true := by
  have hflag : ∀ n b, (Sys.at_ D e n).soft.main = .flag false b → ∃ m ≥ n, m ≤ n + K ∧ (Sys.at_ D e m).soft.main.enabled = true := by
    intro n b h
    have hi := main_isr_none n (by rw [h]; rfl)
    have ha : (Sys.at_ D e n).soft.access = none := by simp [Soft.access, hi, h, Main.access]
    obtain ⟨m, op, h1, l1, h2, h3⟩ := wait_act_le hact ha
    refine ⟨m + 1, by omega, by omega, ?_⟩
    rw [act_main (by rw [h3]; exact hi) (by rw [h3]; exact ha) h2 (.inl (by rw [h3, h]; rfl)), h3]
    simp only [Soft.mainAct, h]
    rfl
  have hsend : ∀ n b, (Sys.at_ D e n).soft.main = .send false b → ∃ m ≥ n, m ≤ n + (K + 2) ∧ (Sys.at_ D e m).soft.main.enabled = true := by
    intro n b h
    have hi := main_isr_none n (by rw [h]; rfl)
    have ha : (Sys.at_ D e n).soft.access = some (.serTx b) := by simp [Soft.access, hi, h, Main.access]
    obtain ⟨m, d, h1, l1, h2⟩ := access_done_le ha
    have h3 : (Sys.at_ D e m).soft.main = .flag false b := by rw [h2]; simp [Soft.done, hi, h, Main.done]
    obtain ⟨k, hk, hl, hw⟩ := hflag m b h3
    exact ⟨k, by omega, by omega, hw⟩
  cases hm : (Sys.at_ D e n).soft.main with
  | start =>
    have hi := main_isr_none n (by rw [hm]; rfl)
    have ha : (Sys.at_ D e n).soft.access = none := by simp [Soft.access, hi, hm, Main.access]
    obtain ⟨m, op, h1, l1, h2, h3⟩ := wait_act_le hact ha
    refine ⟨m + 1, by omega, by omega, ?_⟩
    rw [act_main (by rw [h3]; exact hi) (by rw [h3]; exact ha) h2 (.inl (by rw [h3, hm]; rfl)), h3]
    simp only [Soft.mainAct, hm]
    rfl
  | app => exact ⟨n, by omega, by omega, by rw [hm]; rfl⟩
  | locked => rw [hm] at h; cases h
  | retry x b => rw [hm] at h; cases h; exact ⟨n, by omega, by omega, by rw [hm]; rfl⟩
  | gpio x => rw [hm] at h; cases h; exact ⟨n, by omega, by omega, by rw [hm]; rfl⟩
  | leds x b => rw [hm] at h; cases h; exact ⟨n, by omega, by omega, by rw [hm]; rfl⟩
  | flag x b => rw [hm] at h; cases h; obtain ⟨k, hk, hl, hw⟩ := hflag n b hm; exact ⟨k, hk, by omega, hw⟩
  | send x b => rw [hm] at h; cases h; obtain ⟨k, hk, hl, hw⟩ := hsend n b hm; exact ⟨k, hk, by omega, hw⟩
  | crit x b =>
    rw [hm] at h; cases h
    have hi := main_isr_none n (by rw [hm]; rfl)
    have ha : (Sys.at_ D e n).soft.access = none := by simp [Soft.access, hi, hm, Main.access]
    obtain ⟨m, op, h1, l1, h2, h3⟩ := wait_act_le hact ha
    have h4 := act_main (by rw [h3]; exact hi) (by rw [h3]; exact ha) h2 (.inl (by rw [h3, hm]; rfl))
    rw [h3, Soft.mainAct, hm] at h4
    simp only at h4
    split at h4
    · split at h4
      · exact ⟨m + 1, by omega, by omega, by rw [h4]; rfl⟩
      · exact ⟨m + 1, by omega, by omega, by rw [h4]; rfl⟩
    · obtain ⟨k, hk, hl, hw⟩ := hsend (m + 1) b (by rw [h4])
      exact ⟨k, by omega, by omega, hw⟩

/-- Interrupts are enabled again and again. -/
theorem enabled_again (hD : 0 < D) {K : Nat} {p : Nat → Pins} (hK : ∀ n, ∃ m ≥ n, m < n + K ∧ (p m).go = true)
    (hfast : 63 * (10 * D + 15 * K + 19) ≤ 142 * 2 ^ 14) (n : Nat) :
    ∃ m ≥ n, m ≤ n + (11 * K + 4) ∧ (Sys.at_ D (Machine.envs D p) m).soft.main.enabled = true := by
  cases h : (Machine.at_ D p n).sys.soft.main.lk with
  | true =>
    obtain ⟨m, m1, mle, m2⟩ := unlocked_soon hD hK hfast h
    exact ⟨m, m1, mle, by rw [← at_sys, m2]; rfl⟩
  | false =>
    rw [at_sys] at h
    obtain ⟨m, m1, mle, m2⟩ := enabled_soon (K := K) (fun n => by
      obtain ⟨m, h1, h2, h3⟩ := hK n
      exact ⟨m, h1, h2, by simp [Machine.envs, Machine.env, h3]⟩) h
    exact ⟨m, m1, by omega, m2⟩

end Sentinel.Fw
