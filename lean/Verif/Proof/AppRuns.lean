import Verif.Proof.AppLive
import Verif.Proof.FirmwareCount
import Verif.Props.FirmwareFair
import Verif.Props.FirmwareRx
/-!
# The application goes on
-/

set_option linter.unusedSimpArgs false

namespace Sentinel.Fw

/-- The processor is fast enough: it does an action at least every `K` cycles. -/
structure Fast (D K : Nat) (p : Nat → Pins) : Prop where
  pos : 0 < D
  act : ∀ n, ∃ m ≥ n, m < n + K ∧ (p m).go = true
  drain : 63 * (10 * D + 15 * K + 19) ≤ 142 * 2 ^ 14
  frame : 32 * K + 36 ≤ 9 * D
  tick : 40 * K + 45 ≤ 2 ^ 14

variable {D K : Nat} {p : Nat → Pins}

theorem Fast.acts (F : Fast D K p) (n : Nat) : ∃ m ≥ n, m < n + K ∧ (Machine.envs D p m).act.isSome = true := by
  obtain ⟨m, h1, h2, h3⟩ := F.act n
  exact ⟨m, h1, h2, by simp [Machine.envs, Machine.env, h3]⟩

theorem Fast.main (F : Fast D K p) (n : Nat) : ∃ m ≥ n, m < n + (40 * K + 44) ∧ MainActs D (Machine.envs D p) m :=
  main_acts F.pos F.acts F.frame (by have := F.tick; omega) n

theorem act_go {n : Nat} (h : (Machine.envs D p n).act.isSome = true) : (p n).go = true := by
  cases hg : (p n).go
  · simp [Machine.envs, Machine.env, hg] at h
  · rfl

theorem main_asks {n : Nat} (h : MainActs D (Machine.envs D p) n)
    (hm : (Machine.at_ D p n).sys.soft.main = .app ∨ (Machine.at_ D p n).sys.soft.main = .locked) : (Machine.at_ D p n).asks (p n) = true := by
  obtain ⟨h1, h2, h3, h4⟩ := h
  rw [← at_sys] at h2 h3 h4
  unfold Machine.asks
  rw [act_go h1, h2, h3]
  generalize (Machine.at_ D p n).sys.soft.main = x at *
  rcases hm with rfl | rfl <;> rcases h4 with h4 | h4 <;> simp [h4]

/-- The application does operations again and again. -/
theorem asks_again (F : Fast D K p) (n : Nat) : ∃ m ≥ n, (Machine.at_ D p m).asks (p m) = true := by
  by_contra hno
  have hq : ∀ m ≥ n, (Machine.at_ D p m).asks (p m) = false := fun m hm => by
    by_contra h; exact hno ⟨m, hm, by simpa using h⟩
  have Q : ∀ m ≥ n, Quiesce (Machine.at_ D p m).sys (Machine.at_ D p (m + 1)).sys := by
    intro m hm
    have hi := main_isr_none (D := D) (e := Machine.envs D p) m
    rw [← at_sys] at hi
    exact quiesce (D := D) hi (hq m hm)
  obtain ⟨m0, m1, m2⟩ := unlocked_again F.pos F.act F.drain n
  have lk : ∀ d, (Machine.at_ D p (m0 + d)).sys.soft.main.lk = false := by
    intro d
    induction d with
    | zero => exact m2
    | succ d ih => rw [← ih]; exact (Q (m0 + d) (by omega)).lk
  -- no call of `write_char` is going on
  obtain ⟨k, k1, k2⟩ : ∃ k ≥ m0, writing D (Machine.envs D p) k = none := by
    cases hw : writing D (Machine.envs D p) (m0 + 1) with
    | none => exact ⟨m0 + 1, by omega, hw⟩
    | some b =>
      have hl := lk 1
      rw [at_sys] at hl
      have hp : (Sys.at_ D (Machine.envs D p) (m0 + 1)).soft.main.Plain b := by
        unfold writing at hw
        generalize (Sys.at_ D (Machine.envs D p) (m0 + 1)).soft.main = m at hw hl
        cases m <;> simp [Main.writing, Main.lk, Main.Plain] at hw hl ⊢ <;> exact ⟨hl, hw⟩
      obtain ⟨m, g1, g2⟩ := plain_returns F.pos (fun n => by
        obtain ⟨m, x1, x2, x3, x4, x5, x6⟩ := F.main n
        exact ⟨m, x1, x3, x5, x6⟩) hp
      exact ⟨m, by omega, g2⟩
  have wr : ∀ d, (Machine.at_ D p (k + d)).sys.soft.main.writing = none := by
    intro d
    induction d with
    | zero => rw [at_sys]; exact k2
    | succ d ih => exact (Q (k + d) (by omega)).writing ih
  -- so its next action is an operation
  have key : ∀ m ≥ k, MainActs D (Machine.envs D p) m → (Machine.at_ D p m).sys.soft.main = .start := by
    intro m hm h
    obtain ⟨d, rfl⟩ := Nat.exists_eq_add_of_le hm
    obtain ⟨d', hd'⟩ := Nat.exists_eq_add_of_le (show m0 ≤ k + d by omega)
    have hw := wr d
    have hl := lk d'
    rw [← hd'] at hl
    have hx := hq (k + d) (by omega)
    have ha := main_asks h
    obtain ⟨h1, h2, h3, h4⟩ := h
    rw [← at_sys] at h2 h3
    simp only [Soft.access, h3] at h2
    cases hm' : (Machine.at_ D p (k + d)).sys.soft.main with
    | start => rfl
    | app => rw [ha (.inl hm')] at hx; cases hx
    | locked => rw [ha (.inr hm')] at hx; cases hx
    | retry _ _ => rw [hm'] at hw; cases hw
    | crit _ _ => rw [hm'] at hw; cases hw
    | send _ _ => rw [hm'] at hw; cases hw
    | flag _ _ => rw [hm'] at hw; cases hw
    | gpio _ => rw [hm'] at h2; cases h2
    | leds _ _ => rw [hm'] at h2; cases h2
  obtain ⟨a, a1, a2, a3⟩ := F.main k
  have s1 := key a a1 a3
  have s2 : (Machine.at_ D p (a + 1)).sys.soft.main = .app := by
    obtain ⟨h1, h2, h3, h4⟩ := a3
    obtain ⟨op, hop⟩ := Option.isSome_iff_exists.1 h1
    have := act_main h3 h2 hop h4
    rw [at_sys] at s1 ⊢
    rw [this]
    simp [Soft.mainAct, s1]
  have ns : ∀ d, (Machine.at_ D p (a + 1 + d)).sys.soft.main ≠ .start := by
    intro d
    induction d with
    | zero => rw [Nat.add_zero, s2]; nofun
    | succ d ih => exact fun h => ih ((Q (a + 1 + d) (by omega)).start h)
  obtain ⟨c, c1, c2, c3⟩ := F.main (a + 1)
  obtain ⟨d, rfl⟩ := Nat.exists_eq_add_of_le c1
  exact ns d (key _ (by omega) c3)

theorem app_same {n d : Nat} (h : ∀ i, i < d → (Machine.at_ D p (n + i)).asks (p (n + i)) = false) :
    (Machine.at_ D p (n + d)).app.pc = (Machine.at_ D p n).app.pc ∧ (Machine.at_ D p (n + d)).app.out = (Machine.at_ D p n).app.out := by
  induction d with
  | zero => exact ⟨rfl, rfl⟩
  | succ d ih =>
    obtain ⟨h1, h2⟩ := ih (fun i hi => h i (by omega))
    obtain ⟨g1, g2⟩ := app_quiet_same (h d (by omega))
    exact ⟨by rw [← Nat.add_assoc, g1, h1], by rw [← Nat.add_assoc, g2, h2]⟩

/-- The next operation. -/
theorem next_ask {n m : Nat} (hm : n ≤ m) (ha : (Machine.at_ D p m).asks (p m) = true) :
    ∃ k ≥ n, k ≤ m ∧ (Machine.at_ D p k).asks (p k) = true ∧ (Machine.at_ D p k).app.pc = (Machine.at_ D p n).app.pc ∧
      (Machine.at_ D p k).app.out = (Machine.at_ D p n).app.out := by
  have hex : ∃ d, (Machine.at_ D p (n + d)).asks (p (n + d)) = true := ⟨m - n, by rw [show n + (m - n) = m by omega]; exact ha⟩
  classical
  have h1 := Nat.find_spec hex
  have h2 := fun i (hi : i < Nat.find hex) => Nat.find_min hex hi
  have h3 : Nat.find hex ≤ m - n := Nat.find_min' hex (by rw [show n + (m - n) = m by omega]; exact ha)
  generalize Nat.find hex = d at *
  obtain ⟨g1, g2⟩ := app_same (D := D) (p := p) (n := n) (d := d) (fun i hi => by simpa using h2 i hi)
  exact ⟨n + d, by omega, by omega, h1, g1, g2⟩

/-! ## The wait -/

/-- The loop of the wait. -/
def Pc.loop : Pc → Bool
  | .wait _ _ | .poll _ | .poll2 _ | .polled _ _ => true
  | _ => false

theorem loop_out {n : Nat} (h : (Machine.at_ D p n).app.pc.loop = true) : (Machine.at_ D p n).app.out = [] := by
  have := (wait_at D p n).sam
  cases hpc : (Machine.at_ D p n).app.pc <;> rw [hpc] at h this <;> first | exact this.1 | (exact absurd h (by decide)) | cases h

theorem loop_quiet {n : Nat} (h : (Machine.at_ D p n).app.pc.loop = true) : writing D (Machine.envs D p) n = none ∧
    (Sys.at_ D (Machine.envs D p) n).soft.main.enabled = true := by
  have := (wait_at D p n).time
  have hw : (Machine.at_ D p n).app.pc.waiting = true ∧ (Machine.at_ D p n).app.pc.waited = false := by
    cases hpc : (Machine.at_ D p n).app.pc <;> rw [hpc] at h <;> first | exact ⟨rfl, rfl⟩ | cases h
  obtain ⟨m, m1, -, -, m2, m3, -⟩ := this hw.1
  exact ⟨m2 n m1 (by omega), m3 hw.2 n m1 (by omega)⟩

theorem loop_asks (F : Fast D K p) {n : Nat} (h : ∀ m ≥ n, (Machine.at_ D p m).app.pc.loop = true) {k : Nat} (hk : n ≤ k) :
    ∃ m ≥ k, m < k + (40 * K + 44) ∧ (Machine.at_ D p m).asks (p m) = true := by
  obtain ⟨m, m1, m2, m3⟩ := F.main k
  refine ⟨m, m1, m2, main_asks m3 (.inl ?_)⟩
  obtain ⟨l1, l2⟩ := loop_quiet (h m (by omega))
  obtain ⟨h1, h2, h3, h4⟩ := m3
  simp only [Soft.access, h3] at h2
  unfold writing at l1
  rw [at_sys]
  generalize (Sys.at_ D (Machine.envs D p) m).soft.main = x at *
  cases x <;> simp [Main.writing, Main.enabled, Main.access] at l1 l2 h2 ⊢

/-- How far it is to the test of the loop. -/
def Pc.toTest : Pc → Nat
  | .poll _ => 3
  | .poll2 _ => 2
  | .polled _ _ => 1
  | _ => 0

theorem loop_tests (F : Fast D K p) {n : Nat} (h : ∀ m ≥ n, (Machine.at_ D p m).app.pc.loop = true) (t : Nat) :
    ∀ k ≥ n, (Machine.at_ D p k).app.pc.toTest = t →
      ∃ m ≥ k, m < k + (t + 1) * (40 * K + 44) ∧ (Machine.at_ D p m).sys.soft.count.toNat < 144 := by
  induction t with
  | zero =>
    intro k hk ht
    obtain ⟨m, m1, m2, m3⟩ := loop_asks F h hk
    obtain ⟨j, j1, j2, j3, j4, j5⟩ := next_ask m1 m3
    refine ⟨j, j1, by omega, ?_⟩
    have happ := app_asked (D := D) j3
    have hl := h (j + 1) (by omega)
    have hlk := h k hk
    have ho := loop_out (h j (by omega))
    rw [happ] at hl
    rw [← j4] at ht hlk
    cases hpc : (Machine.at_ D p j).app.pc with
    | wait d c =>
      by_contra hc
      simp [App.next, ho, hpc, hc, Pc.loop] at hl
    | poll d => rw [hpc] at ht; cases ht
    | poll2 d => rw [hpc] at ht; cases ht
    | polled d c => rw [hpc] at ht; cases ht
    | _ => rw [hpc] at hlk; cases hlk
  | succ t ih =>
    intro k hk ht
    obtain ⟨m, m1, m2, m3⟩ := loop_asks F h hk
    obtain ⟨j, j1, j2, j3, j4, j5⟩ := next_ask m1 m3
    have happ := app_asked (D := D) j3
    have hlk := h k hk
    have ho := loop_out (h j (by omega))
    rw [← j4] at ht hlk
    have hn : (Machine.at_ D p (j + 1)).app.pc.toTest = t := by
      rw [happ]
      cases hpc : (Machine.at_ D p j).app.pc with
      | wait d c => rw [hpc] at ht; cases ht
      | poll d => rw [hpc] at ht; cases ht; simp [App.next, ho, hpc, Pc.toTest]
      | poll2 d => rw [hpc] at ht; cases ht; simp [App.next, ho, hpc, Pc.toTest]
      | polled d c => rw [hpc] at ht; cases ht; simp [App.next, ho, hpc, Pc.toTest]
      | _ => rw [hpc] at hlk; cases hlk
    obtain ⟨x, x1, x2, x3⟩ := ih (j + 1) (by omega) hn
    refine ⟨x, by omega, ?_, x3⟩
    have e1 := Nat.succ_mul (t + 1) (40 * K + 44)
    simp only [Nat.succ_eq_add_one] at e1
    omega

theorem toTest_le (pc : Pc) : pc.toTest ≤ 3 := by cases pc <;> simp [Pc.toTest]

theorem loop_test (F : Fast D K p) {n : Nat} (h : ∀ m ≥ n, (Machine.at_ D p m).app.pc.loop = true) (k : Nat) (hk : k ≥ n) :
    ∃ m ≥ k, m < k + 4 * (40 * K + 44) ∧ (Machine.at_ D p m).sys.soft.count.toNat < 144 := by
  have aux : ∀ x, x ≤ 3 → ∀ m, m < k + (x + 1) * (40 * K + 44) → m < k + 4 * (40 * K + 44) := by
    intro x hx m hm
    exact Nat.lt_of_lt_of_le hm (Nat.add_le_add_left (Nat.mul_le_mul_right _ (by omega)) k)
  obtain ⟨m, m1, m2, m3⟩ := loop_tests F h _ k hk rfl
  exact ⟨m, m1, aux _ (toTest_le _) m m2, m3⟩

theorem count_cases {e : Nat → Env} {n : Nat} (h : (e n).act ≠ some .zeroCount) :
    (Sys.at_ D e (n + 1)).soft.count = (Sys.at_ D e n).soft.count ∨ (Sys.at_ D e (n + 1)).soft.count = (Sys.at_ D e n).soft.count + 1 := by
  rw [soft_succ]
  generalize Sys.at_ D e n = s
  unfold Sys.softNext
  split
  · split
    · unfold Soft.done
      split <;> simp
    · simp
  · split
    · simp
    · rename_i op hop
      split
      · rename_i i _
        cases i <;> simp [Soft.isrAct] <;> (try split) <;> (try split) <;> simp
      · split
        · simp
        · left
          have : op ≠ .zeroCount := by rintro rfl; exact h hop
          unfold Soft.mainAct
          split <;> (try (simp only [Soft.opAct]; cases op)) <;> (try split) <;> (try split) <;> first | rfl | (simp at this; done) | (rename_i heq; cases heq; done) | (rename_i heq; exact absurd heq this)

theorem loop_count {n : Nat} (h : (Machine.at_ D p n).app.pc.loop = true) :
    (Machine.at_ D p (n + 1)).sys.soft.count = (Machine.at_ D p n).sys.soft.count ∨
      (Machine.at_ D p (n + 1)).sys.soft.count = (Machine.at_ D p n).sys.soft.count + 1 := by
  rw [at_sys, at_sys]
  refine count_cases ?_
  have ho := loop_out h
  unfold Machine.envs Machine.env
  cases (p n).go
  · simp
  · simp only [if_true]
    unfold App.op
    rw [ho]
    cases hpc : (Machine.at_ D p n).app.pc <;> rw [hpc] at h <;> first | (cases h; done) | simp

theorem eventually_const {f : Nat → Nat} {B n : Nat} (hm : ∀ i, n ≤ i → f i ≤ f (i + 1)) (hb : ∀ i, n ≤ i → f i ≤ B) :
    ∃ k ≥ n, ∀ i ≥ k, f i = f k := by
  by_contra hno
  have grow : ∀ x, ∃ k ≥ n, x ≤ f k := by
    intro x
    induction x with
    | zero => exact ⟨n, by omega, by omega⟩
    | succ x ih =>
      obtain ⟨k, k1, k2⟩ := ih
      by_contra h
      refine hno ⟨k, k1, fun i hi => ?_⟩
      have mono : ∀ d, f k ≤ f (k + d) := by
        intro d
        induction d with
        | zero => exact Nat.le_refl _
        | succ d ih => exact Nat.le_trans ih (hm (k + d) (by omega))
      obtain ⟨d, rfl⟩ := Nat.exists_eq_add_of_le hi
      have h1 := mono d
      by_contra hne
      exact h ⟨k + d, by omega, by omega⟩
  obtain ⟨k, k1, k2⟩ := grow (B + 1)
  have := hb k k1
  omega

/-- With the receive line idle the wait ends. -/
theorem loop_ends (F : Fast D K p) {n : Nat} (hr : ∀ m ≥ n, (p m).rx = true) (h : ∀ m ≥ n, (Machine.at_ D p m).app.pc.loop = true) : False := by
  -- everything gets onto the line
  have hcalls : ∀ m ≥ n, calls D (Machine.envs D p) m = calls D (Machine.envs D p) n := by
    intro m hm
    obtain ⟨d, rfl⟩ := Nat.exists_eq_add_of_le hm
    exact calls_const n d (fun i _ => (loop_quiet (h (n + i) (by omega))).1)
  obtain ⟨a, a1, a2⟩ := eventually_const (f := fun m => (frames D (Machine.envs D p) m).length) (B := (calls D (Machine.envs D p) n).length) (n := n)
    (fun i _ => (frames_mono i 1).length_le) (fun i hi => by rw [← hcalls i hi]; exact (C62_order F.pos _ i).length_le)
  have hst : ∀ m ≥ a, (Sys.at_ D (Machine.envs D p) m).started = [] := by
    intro m hm
    have h1 := a2 m hm
    have h2 := a2 (m + 1) (by omega)
    simp only [frames_succ F.pos, List.length_append] at h1 h2
    exact List.eq_nil_of_length_eq_zero (by omega)
  obtain ⟨b, b1, b2⟩ := ser_rest F.pos F.acts F.frame (by have := F.tick; omega) (n := a) (fun m hm => hr m (by omega)) hst
    (fun m hm => (loop_quiet (h m (by omega))).2)
  -- the counter does not wrap
  obtain ⟨c, c1, c2, c3⟩ := loop_test F h b (by omega)
  have last : ∀ d, ∃ m ≤ c + d, c + d < m + (4 * (40 * K + 44) + 1) ∧ c ≤ m ∧ (Machine.at_ D p m).sys.soft.count.toNat < 144 := by
    intro d
    induction d with
    | zero => exact ⟨c, by omega, by omega, by omega, c3⟩
    | succ d ih =>
      obtain ⟨m, m1, m2, m3, m4⟩ := ih
      by_cases hd : c + (d + 1) < m + (4 * (40 * K + 44) + 1)
      · exact ⟨m, by omega, hd, m3, m4⟩
      · obtain ⟨x, x1, x2, x3⟩ := loop_test F h (m + 1) (by omega)
        exact ⟨x, by omega, by omega, by omega, x3⟩
  have bound : ∀ d, (Machine.at_ D p (c + d)).sys.soft.count.toNat ≤ 200 := by
    intro d
    obtain ⟨m, m1, m2, m3, m4⟩ := last d
    obtain ⟨x, hx⟩ := Nat.exists_eq_add_of_le m1
    have h1 := count_at (D := D) (e := Machine.envs D p) m x
    rw [← at_sys, ← at_sys, ← hx] at h1
    have h2 : tickTok (Machine.at_ D p m).sys ≤ 2 := by
      unfold tickTok
      cases (Machine.at_ D p m).sys.timer.irq <;> cases isrTick (Machine.at_ D p m).sys <;> decide
    have := F.tick
    omega
  have mono : ∀ d, (Machine.at_ D p (c + d)).sys.soft.count.toNat ≤ (Machine.at_ D p (c + d + 1)).sys.soft.count.toNat := by
    intro d
    have hb := bound d
    rcases loop_count (D := D) (p := p) (h (c + d) (by omega)) with g | g
    · rw [g]
    · rw [g, BitVec.toNat_add]
      simp
      omega
  -- but it goes up again and again
  have grow : ∀ x, ∃ d, x ≤ (Machine.at_ D p (c + d)).sys.soft.count.toNat := by
    intro x
    induction x with
    | zero => exact ⟨0, by omega⟩
    | succ x ih =>
      obtain ⟨d, hd⟩ := ih
      obtain ⟨m, m1, m2⟩ := tick_counted F.pos F.acts F.frame F.tick (n := c + d) (fun m hm => b2 m (by omega))
        (fun m hm => (loop_quiet (h m (by omega))).2)
      obtain ⟨y, rfl⟩ := Nat.exists_eq_add_of_le m1
      have up : ∀ y, (Machine.at_ D p (c + d)).sys.soft.count.toNat ≤ (Machine.at_ D p (c + d + y)).sys.soft.count.toNat := by
        intro y
        induction y with
        | zero => exact Nat.le_refl _
        | succ y ih =>
          refine Nat.le_trans ih ?_
          have := mono (d + y)
          rw [← Nat.add_assoc] at this
          exact this
      refine ⟨d + y + 1, ?_⟩
      rw [← at_sys, ← at_sys] at m2
      have h1 := up y
      have h2 := bound (d + y)
      rw [← Nat.add_assoc] at h2
      rw [show c + (d + y + 1) = c + d + y + 1 by omega, m2, BitVec.toNat_add]
      simp
      omega
  obtain ⟨d, hd⟩ := grow 201
  have := bound d
  omega

theorem loop_exits (F : Fast D K p) {n : Nat} (hr : ∀ m ≥ n, (p m).rx = true) (h : (Machine.at_ D p n).app.pc.loop = true) :
    ∃ m ≥ n, ∃ d c, (Machine.at_ D p m).app.pc = .decide d c := by
  by_contra hno
  refine loop_ends F hr (fun m hm => ?_)
  obtain ⟨d, rfl⟩ := Nat.exists_eq_add_of_le hm
  clear hm
  induction d with
  | zero => exact h
  | succ d ih =>
    cases ha : (Machine.at_ D p (n + d)).asks (p (n + d)) with
    | false =>
      rw [← Nat.add_assoc, (app_quiet_same ha).1]
      exact ih
    | true =>
      have happ := app_asked ha
      have ho := loop_out ih
      have hno' : ∀ x c, (Machine.at_ D p (n + d + 1)).app.pc ≠ .decide x c := fun x c hx => hno ⟨n + d + 1, by omega, x, c, hx⟩
      rw [← Nat.add_assoc]
      rw [happ] at hno' ⊢
      cases hpc : (Machine.at_ D p (n + d)).app.pc with
      | wait x c =>
        simp only [App.next, ho, hpc] at hno' ⊢
        revert hno'
        split
        · intro _; cases c <;> rfl
        · intro hno'; exact absurd rfl (hno' x c)
      | poll _ => simp [App.next, ho, hpc, Pc.loop]
      | poll2 _ => simp [App.next, ho, hpc, Pc.loop]
      | polled _ _ => simp [App.next, ho, hpc, Pc.loop]
      | _ => rw [hpc] at ih; cases ih

/-! ## Inputs -/

/-- How far it is to the next look into `RX`, in a demonstration. -/
def Pc.toLook : Pc → Nat
  | .look _ => 0 | .ctrl _ => 1 | .decide _ _ => 2 | .wait _ _ | .poll _ | .poll2 _ | .polled _ _ => 3 | .sampled _ => 4 | .sample _ => 5
  | .zero _ => 6 | .row _ => 7 | .init _ | .unlock _ _ => 8 | .newline _ | .clear _ _ => 9 | .leds _ => 10 | .readUnlock _ => 11 | .readClear _ => 12
  | .setRule | .read _ | .readLook _ => 0

theorem hist_asked {n : Nat} (ha : (Machine.at_ D p n).asks (p n) = true) (ho : (Machine.at_ D p n).app.out = []) {d : Demo}
    (hpc : (Machine.at_ D p n).app.pc = .look d) : (ghost D p (n + 1)).hist ≠ (ghost D p n).hist := by
  have : (ghost D p (n + 1)) = (ghost D p n).step (Machine.at_ D p n) (p n) := rfl
  rw [this]
  simp [Ghost.step, ha, ho, hpc]

/-- In a demonstration, with the receive line idle, there is another input. -/
theorem demo_goes_on (F : Fast D K p) {n : Nat} (hr : ∀ m ≥ n, (p m).rx = true) {rule : BitVec 8} {style gen : Nat}
    (hp : (session (ghost D p n).hist).phase = .demo rule style gen) : ∃ m ≥ n, (ghost D p m).hist = (ghost D p n).hist ∧ (ghost D p (m + 1)).hist ≠ (ghost D p m).hist := by
  by_contra hno
  have hc : ∀ d, (ghost D p (n + d)).hist = (ghost D p n).hist := by
    intro d
    induction d with
    | zero => rfl
    | succ d ih =>
      by_contra h
      exact hno ⟨n + d, by omega, ih, by rw [ih]; exact h⟩
  have key : ∀ r, ∀ l, ∀ m ≥ n, (Machine.at_ D p m).app.pc.toLook = r → (Machine.at_ D p m).app.out.length = l → False := by
    intro r
    induction r using Nat.strong_induction_on with
    | _ r ihr =>
      intro l
      induction l using Nat.strong_induction_on with
      | _ l ihl =>
        intro m hm h1 h2
        obtain ⟨x, x1, x2⟩ := asks_again F m
        obtain ⟨k, k1, k2, k3, k4, k5⟩ := next_ask x1 x2
        have happ := app_asked k3
        rw [← k4] at h1
        rw [← k5] at h2
        have hok := (appInv_at D p k).ok
        have hok' := (appInv_at D p (k + 1)).ok
        obtain ⟨y, rfl⟩ := Nat.exists_eq_add_of_le (show n ≤ k by omega)
        rw [hc, hp] at hok
        have hc1 := hc (y + 1)
        rw [← Nat.add_assoc] at hc1
        rw [hc1, hp] at hok'
        cases ho : (Machine.at_ D p (n + y)).app.out with
        | cons b bs =>
          rw [ho] at h2
          rw [show (Machine.at_ D p (n + y)).app.next (Machine.at_ D p (n + y)).sys.soft.rxBox (Machine.at_ D p (n + y)).sys.soft.count = { (Machine.at_ D p (n + y)).app with out := bs } by
            simp [App.next, ho]] at happ
          exact ihl bs.length (by simp at h2; omega) (n + y + 1) (by omega) (by rw [happ]; exact h1) (by rw [happ])
        | nil =>
          have go : ∀ q, (Machine.at_ D p (n + y + 1)).app.pc.toLook = q → q < r → False :=
            fun q hq hlt => ihr q hlt _ (n + y + 1) (by omega) hq rfl
          have loop : (Machine.at_ D p (n + y)).app.pc.loop = true → r = 3 → False := by
            intro hl hr3
            obtain ⟨z, z1, d, c, z2⟩ := loop_exits F (n := n + y) (fun m hm => hr m (by omega)) hl
            exact ihr 2 (by omega) _ z (by omega) (by rw [z2]; rfl) rfl
          cases hpc : (Machine.at_ D p (n + y)).app.pc with
          | look d => exact hno ⟨n + y, by omega, hc y, hist_asked k3 ho hpc⟩
          | wait d c => exact loop (by rw [hpc]; rfl) (by rw [← h1, hpc]; rfl)
          | poll d => exact loop (by rw [hpc]; rfl) (by rw [← h1, hpc]; rfl)
          | poll2 d => exact loop (by rw [hpc]; rfl) (by rw [← h1, hpc]; rfl)
          | polled d c => exact loop (by rw [hpc]; rfl) (by rw [← h1, hpc]; rfl)
          | unlock d c =>
            rw [hpc] at h1
            cases c with
            | true => rw [hpc] at hok; cases hok
            | false => exact go 7 (by rw [happ]; simp [App.next, ho, hpc, Pc.toLook]) (by rw [← h1]; simp [Pc.toLook])
          | setRule => rw [hpc] at hok; cases hok
          | read buf => rw [hpc] at hok; cases hok.1
          | readLook buf => rw [hpc] at hok; cases hok.1
          | readUnlock buf =>
            rw [hpc] at hok h1
            by_cases hb : buf.length < 3
            · have := hok.2
              rw [if_pos hb] at this
              cases this
            · exact go 10 (by rw [happ]; simp [App.next, ho, hpc, Pc.toLook, hb]) (by rw [← h1]; simp [Pc.toLook])
          | _ => rw [hpc] at h1; exact go _ rfl (by rw [happ, ← h1]; simp [App.next, ho, hpc, Pc.toLook])
  exact key _ _ n (by omega) rfl rfl

/-! ## What is due is said -/

theorem hist_quiet {n d : Nat} (h : ∀ i, i < d → (Machine.at_ D p (n + i)).asks (p (n + i)) = false) :
    (ghost D p (n + d)).hist = (ghost D p n).hist := by
  induction d with
  | zero => rfl
  | succ d ih =>
    have : (ghost D p (n + d + 1)) = (ghost D p (n + d)).step (Machine.at_ D p (n + d)) (p (n + d)) := rfl
    rw [← Nat.add_assoc, this, ← ih (fun i hi => h i (by omega))]
    simp [Ghost.step, h d (by omega)]

/-- The next operation, and nothing happens before. -/
theorem next_ask' (F : Fast D K p) (n : Nat) :
    ∃ k ≥ n, (Machine.at_ D p k).asks (p k) = true ∧ (Machine.at_ D p k).app.pc = (Machine.at_ D p n).app.pc ∧
      (Machine.at_ D p k).app.out = (Machine.at_ D p n).app.out ∧ (ghost D p k).hist = (ghost D p n).hist := by
  obtain ⟨m, m1, m2⟩ := asks_again F n
  have hex : ∃ d, (Machine.at_ D p (n + d)).asks (p (n + d)) = true := ⟨m - n, by rw [show n + (m - n) = m by omega]; exact m2⟩
  classical
  have h1 := Nat.find_spec hex
  have h2 := fun i (hi : i < Nat.find hex) => Nat.find_min hex hi
  generalize Nat.find hex = d at *
  have h3 : ∀ i, i < d → (Machine.at_ D p (n + i)).asks (p (n + i)) = false := fun i hi => by simpa using h2 i hi
  obtain ⟨g1, g2⟩ := app_same (D := D) (p := p) (n := n) (d := d) h3
  exact ⟨n + d, by omega, h1, g1, g2, hist_quiet h3⟩

/-- How far it is until nothing is due. -/
def Pc.toSay : Pc → Nat
  | .row _ | .setRule => 1
  | .init _ | .unlock _ _ => 2
  | .newline _ | .clear _ _ => 3
  | .leds _ => 4
  | .readUnlock _ => 5
  | .readClear _ => 6
  | _ => 0

/-- What is due is said and the character is removed, before the next input. -/
theorem all_said (F : Fast D K p) (n : Nat) : ∃ m ≥ n, (ghost D p m).hist = (ghost D p n).hist ∧
    calls D (Machine.envs D p) m = utf8 (session (ghost D p n).hist).said ∧ taken D (Machine.envs D p) m = keysOf (ghost D p n).hist := by
  have fin : ∀ m ≥ n, (ghost D p m).hist = (ghost D p n).hist → (Machine.at_ D p m).app.out = [] → (Machine.at_ D p m).app.pc.toSay = 0 →
      ∃ m ≥ n, (ghost D p m).hist = (ghost D p n).hist ∧
        calls D (Machine.envs D p) m = utf8 (session (ghost D p n).hist).said ∧ taken D (Machine.envs D p) m = keysOf (ghost D p n).hist := by
    intro m hm hh ho hs
    have h := appInv_at D p m
    have h1 := h.text
    have h2 := h.keys
    rw [hh, ho] at h1
    rw [hh] at h2
    have hd : (Machine.at_ D p m).app.pc.due (session (ghost D p n).hist).phase = [] ∧ (Machine.at_ D p m).app.pc.pend = [] := by
      cases hpc : (Machine.at_ D p m).app.pc <;> rw [hpc] at hs <;> first | exact ⟨rfl, rfl⟩ | (cases hs; done)
    rw [hd.1] at h1
    rw [hd.2] at h2
    exact ⟨m, hm, hh, by rw [← h1]; simp [utf8], by rw [← h2]; simp⟩
  have key : ∀ r, ∀ l, ∀ m ≥ n, (ghost D p m).hist = (ghost D p n).hist → (Machine.at_ D p m).app.pc.toSay = r → (Machine.at_ D p m).app.out.length = l →
      ∃ m ≥ n, (ghost D p m).hist = (ghost D p n).hist ∧
        calls D (Machine.envs D p) m = utf8 (session (ghost D p n).hist).said ∧ taken D (Machine.envs D p) m = keysOf (ghost D p n).hist := by
    intro r
    induction r using Nat.strong_induction_on with
    | _ r ihr =>
      intro l
      induction l using Nat.strong_induction_on with
      | _ l ihl =>
        intro m hm hh h1 h2
        obtain ⟨k, k1, k3, k4, k5, k6⟩ := next_ask' F m
        have happ := app_asked (D := D) k3
        have hg : (ghost D p (k + 1)) = (ghost D p k).step (Machine.at_ D p k) (p k) := rfl
        rw [← k4] at h1
        rw [← k5] at h2
        rw [← k6] at hh
        cases ho : (Machine.at_ D p k).app.out with
        | cons b bs =>
          rw [ho] at h2
          rw [show (Machine.at_ D p k).app.next (Machine.at_ D p k).sys.soft.rxBox (Machine.at_ D p k).sys.soft.count = { (Machine.at_ D p k).app with out := bs } by
            simp [App.next, ho]] at happ
          exact ihl bs.length (by simp at h2; omega) (k + 1) (by omega) (by rw [hg, ← hh]; simp [Ghost.step, ho]) (by rw [happ]; exact h1) (by rw [happ])
        | nil =>
          have go : (ghost D p (k + 1)).hist = (ghost D p k).hist → (Machine.at_ D p (k + 1)).app.pc.toSay < r → _ :=
            fun hh' hlt => ihr _ hlt _ (k + 1) (by omega) (by rw [hh', hh]) rfl rfl
          cases hpc : (Machine.at_ D p k).app.pc with
          | unlock d c =>
            rw [hpc] at h1
            exact go (by rw [hg]; simp [Ghost.step, hpc]) (by rw [happ, ← h1]; cases c <;> simp [App.next, ho, hpc, Pc.toSay])
          | readUnlock buf =>
            rw [hpc] at h1
            exact go (by rw [hg]; simp [Ghost.step, hpc]) (by
              rw [happ, ← h1]
              by_cases hb : buf.length < 3 <;> simp [App.next, ho, hpc, Pc.toSay, hb])
          | init _ => rw [hpc] at h1; exact go (by rw [hg]; simp [Ghost.step, hpc]) (by rw [happ, ← h1]; simp [App.next, ho, hpc, Pc.toSay])
          | row _ => rw [hpc] at h1; exact go (by rw [hg]; simp [Ghost.step, hpc]) (by rw [happ, ← h1]; simp [App.next, ho, hpc, Pc.toSay])
          | clear _ _ => rw [hpc] at h1; exact go (by rw [hg]; simp [Ghost.step, hpc]) (by rw [happ, ← h1]; simp [App.next, ho, hpc, Pc.toSay])
          | setRule => rw [hpc] at h1; exact go (by rw [hg]; simp [Ghost.step, hpc]) (by rw [happ, ← h1]; simp [App.next, ho, hpc, Pc.toSay])
          | readClear _ => rw [hpc] at h1; exact go (by rw [hg]; simp [Ghost.step, hpc]) (by rw [happ, ← h1]; simp [App.next, ho, hpc, Pc.toSay])
          | leds _ => rw [hpc] at h1; exact go (by rw [hg]; simp [Ghost.step, hpc]) (by rw [happ, ← h1]; simp [App.next, ho, hpc, Pc.toSay])
          | newline _ => rw [hpc] at h1; exact go (by rw [hg]; simp [Ghost.step, hpc]) (by rw [happ, ← h1]; simp [App.next, ho, hpc, Pc.toSay])
          | _ => exact fin k (by omega) hh ho (by rw [hpc]; rfl)
  exact key _ _ n (by omega) rfl rfl rfl

/-! ## The prompt -/

/-- How far it is to the next look into `RX`, at the prompt. -/
def Pc.toRead : Pc → Nat
  | .readLook _ => 0
  | .read _ => 1
  | .readUnlock _ | .setRule => 2
  | .readClear _ | .unlock _ _ => 3
  | .clear _ _ => 4
  | _ => 0

/-- At the prompt a character in `RX` is read. -/
theorem ask_goes_on (F : Fast D K p) {n : Nat} {ks : List (BitVec 8)} (hp : (session (ghost D p n).hist).phase = .ask ks)
    (ht : taken D (Machine.envs D p) n = keysOf (ghost D p n).hist) (hb : mailbox D (Machine.envs D p) n ≠ none) :
    ∃ m ≥ n, (ghost D p m).hist = (ghost D p n).hist ∧ (ghost D p (m + 1)).hist ≠ (ghost D p m).hist := by
  by_contra hno
  have hc : ∀ d, (ghost D p (n + d)).hist = (ghost D p n).hist := by
    intro d
    induction d with
    | zero => rfl
    | succ d ih =>
      by_contra h
      exact hno ⟨n + d, by omega, ih, by rw [ih]; exact h⟩
  have box : ∀ d, taken D (Machine.envs D p) (n + d) = keysOf (ghost D p n).hist ∧ mailbox D (Machine.envs D p) (n + d) ≠ none := by
    intro d
    induction d with
    | zero => exact ⟨ht, hb⟩
    | succ d ih =>
      obtain ⟨i1, i2⟩ := ih
      have hk := (appInv_at D p (n + d + 1)).keys
      have hc1 := hc (d + 1)
      rw [← Nat.add_assoc] at hc1
      rw [hc1] at hk
      have hl := congrArg List.length hk
      rw [List.length_append] at hl
      have hcl : ¬ Clearing D (Machine.envs D p) (n + d) := by
        rintro ⟨x1, x2⟩
        obtain ⟨b, hbx⟩ := Option.ne_none_iff_exists'.1 i2
        rw [taken, x1, x2, i1, hbx] at hl
        simp at hl
        omega
      obtain ⟨b1, b2⟩ := box_step (D := D) (e := Machine.envs D p) (n + d)
      have ht' : taken D (Machine.envs D p) (n + d + 1) = taken D (Machine.envs D p) (n + d) := by
        rw [taken]
        split
        · rename_i x1 x2; exact absurd ⟨x1, x2⟩ hcl
        · simp
      refine ⟨by rw [← Nat.add_assoc, ht', i1], ?_⟩
      rw [← Nat.add_assoc]
      cases hs : storing D (Machine.envs D p) (n + d) with
      | some c => rw [(b1 c hs).1]; nofun
      | none => rw [(b2 hs).2 hcl]; exact i2
  have key : ∀ r, ∀ l, ∀ m ≥ n, (Machine.at_ D p m).app.pc.toRead = r → (Machine.at_ D p m).app.out.length = l → False := by
    intro r
    induction r using Nat.strong_induction_on with
    | _ r ihr =>
      intro l
      induction l using Nat.strong_induction_on with
      | _ l ihl =>
        intro m hm h1 h2
        obtain ⟨k, k1, k3, k4, k5, k6⟩ := next_ask' F m
        have happ := app_asked (D := D) k3
        rw [← k4] at h1
        rw [← k5] at h2
        have hok := (appInv_at D p k).ok
        obtain ⟨y, rfl⟩ := Nat.exists_eq_add_of_le (show n ≤ k by omega)
        rw [hc, hp] at hok
        cases ho : (Machine.at_ D p (n + y)).app.out with
        | cons b bs =>
          rw [ho] at h2
          rw [show (Machine.at_ D p (n + y)).app.next (Machine.at_ D p (n + y)).sys.soft.rxBox (Machine.at_ D p (n + y)).sys.soft.count = { (Machine.at_ D p (n + y)).app with out := bs } by
            simp [App.next, ho]] at happ
          exact ihl bs.length (by simp at h2; omega) (n + y + 1) (by omega) (by rw [happ]; exact h1) (by rw [happ])
        | nil =>
          have go : (Machine.at_ D p (n + y + 1)).app.pc.toRead < r → False :=
            fun hlt => ihr _ hlt _ (n + y + 1) (by omega) rfl rfl
          cases hpc : (Machine.at_ D p (n + y)).app.pc with
          | readLook buf =>
            have hbx := (box y).2
            have e1 : mailbox D (Machine.envs D p) (n + y) = (Machine.at_ D p (n + y)).sys.soft.rxBox := by rw [at_sys]; rfl
            rw [e1] at hbx
            obtain ⟨b, hbb⟩ := Option.ne_none_iff_exists'.1 hbx
            refine hno ⟨n + y, by omega, hc y, ?_⟩
            have : (ghost D p (n + y + 1)) = (ghost D p (n + y)).step (Machine.at_ D p (n + y)) (p (n + y)) := rfl
            rw [this]
            simp [Ghost.step, k3, ho, hpc, hbb]
          | read buf => rw [hpc] at h1; exact go (by rw [happ, ← h1]; simp [App.next, ho, hpc, Pc.toRead])
          | setRule => rw [hpc] at h1; exact go (by rw [happ, ← h1]; simp [App.next, ho, hpc, Pc.toRead])
          | readClear buf => rw [hpc] at h1; exact go (by rw [happ, ← h1]; simp [App.next, ho, hpc, Pc.toRead])
          | readUnlock buf =>
            rw [hpc] at h1 hok
            by_cases hb3 : buf.length < 3
            · exact go (by rw [happ, ← h1]; simp [App.next, ho, hpc, Pc.toRead, hb3])
            · have := hok.2
              rw [if_neg hb3] at this
              cases this.1
          | unlock d c =>
            rw [hpc] at h1 hok
            cases c with
            | true => exact go (by rw [happ, ← h1]; simp [App.next, ho, hpc, Pc.toRead])
            | false => obtain ⟨j, hj, -⟩ := hok; cases hj
          | clear d c => rw [hpc] at h1; exact go (by rw [happ, ← h1]; simp [App.next, ho, hpc, Pc.toRead])
          | init _ => rw [hpc] at hok; cases hok
          | leds _ => rw [hpc] at hok; cases hok.1
          | newline _ => rw [hpc] at hok; cases hok.1
          | ctrl _ => rw [hpc] at hok; obtain ⟨j, st, hj, -⟩ := hok; cases hj
          | look _ => rw [hpc] at hok; obtain ⟨j, st, hj, -⟩ := hok; cases hj
          | _ => rw [hpc] at hok; obtain ⟨j, hj, -⟩ := hok; cases hj
  exact key _ _ n (by omega) rfl rfl

/-! ## Nobody types -/

/-- With the receive line idle from the beginning, nothing is in `RX`. -/
theorem idle_box {e : Nat → Env} (hr : ∀ m, (e m).rx = true) (n : Nat) : mailbox D e n = none := by
  have h1 : ∀ n, (Sys.at_ D e n).ser.rx.count = 0 ∧ (Sys.at_ D e n).ser.rx.rdy = false := by
    intro n
    induction n with
    | zero => exact ⟨rfl, rfl⟩
    | succ n ih =>
      have : (Sys.at_ D e (n + 1)).ser.rx = UartRx.step D (Sys.at_ D e n).ser.rx (e n).rx (WbSerial.rxAck (serReq (Sys.at_ D e n).soft.access)) := rfl
      rw [this, hr]
      simp only [UartRx.step, ih.1]
      cases WbSerial.rxAck (serReq (Sys.at_ D e n).soft.access) <;> simp [ih.1, ih.2]
  have h2 : ∀ n, received D e n = [] := by
    intro n
    induction n with
    | zero => rfl
    | succ n ih => rw [received, ih]; simp [(h1 (n + 1)).2]
  have h3 := (C64_order (D := D) e n).1
  rw [h2, List.prefix_nil] at h3
  have h4 := (C64_mailbox (D := D) e n).1
  rw [h3] at h4
  cases hm : mailbox D e n with
  | none => rfl
  | some d => cases h4 d hm

end Sentinel.Fw
