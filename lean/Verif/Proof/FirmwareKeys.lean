import Verif.Proof.FirmwareTime
import Verif.Props.FirmwareRx
/-!
# The driver reads each character before the next one
-/

set_option linter.unusedSimpArgs false

namespace Sentinel.Fw

variable {D K : Nat} {e : Nat → Env}

/-- The handler is on its way to read a character. -/
def Reading (s : Sys) : Prop := Storing s ∧ ∀ v d, s.soft.isr ≠ some (.gotRx v d)

theorem reading_step {n : Nat} (h : Reading (Sys.at_ D e n)) (h1 : (Sys.at_ D e n).ser.rx.rdy = true) (h2 : (Sys.at_ D e (n + 1)).ser.rx.rdy = true) :
    Reading (Sys.at_ D e (n + 1)) := by
  obtain ⟨hs, hg⟩ := h
  have w := ser_step (D := D) (s := (Sys.at_ D e n).ser) (rxInv_at (D := D) e n).idle (Sys.at_ D e n).soft.access (e n).rx
  have ht : isDataRead (Sys.at_ D e n).soft.access = true → False := by
    intro hd
    have := w.take h1 hd
    change (Sys.at_ D e (n + 1)).ser.rx.rdy = false at this
    rw [h2] at this
    cases this
  have hst : stored (Sys.at_ D e n).soft.isr (Sys.at_ D e (n + 1)).soft.isr = [] := by
    unfold stored
    split
    · rename_i x1 x2; exact absurd x1 (hg _ _)
    · rfl
  refine ⟨storing_step hs (e n) hst, ?_⟩
  intro v d hx
  rw [soft_succ] at hx
  unfold Storing at hs
  generalize Sys.at_ D e n = s at *
  cases hi : s.soft.isr with
  | none => rw [hi] at hs; exact hs
  | some i =>
    rw [hi] at hs hg
    unfold Sys.softNext at hx
    cases i <;> simp only [Soft.access, hi, Isr.access] at hx ht hs
    case rdRx v => exact ht rfl
    case gotRx v d => exact hg v d rfl
    all_goals first
      | (revert hx; split <;> simp [Soft.done, Isr.done, hi, Soft.isrAct]; done)
      | (revert hx; split <;> simp [Soft.done, Isr.done, hi, Soft.isrAct] <;> split <;> simp)

/-- A character that has been received is read soon. -/
theorem held_read (hK : ∀ n, ∃ m ≥ n, m < n + K ∧ (e m).act.isSome = true) {S : Nat}
    (hen : ∀ n, ∃ m ≥ n, m ≤ n + S ∧ (Sys.at_ D e m).soft.main.enabled = true) {n : Nat} (h : (Sys.at_ D e n).ser.rx.rdy = true) :
    ∃ m ≥ n, m ≤ n + (22 * K + S + 27) ∧ (Sys.at_ D e m).ser.rx.rdy = false := by
  by_contra hno
  have h0 : ∀ m, n ≤ m → m ≤ n + (22 * K + S + 27) → (Sys.at_ D e m).ser.rx.rdy = true := fun m hm hm' => by
    by_contra hx; exact hno ⟨m, hm, hm', by simpa using hx⟩
  clear hno
  have tok : ∀ m, n ≤ m → m ≤ n + (22 * K + S + 27) → (Sys.at_ D e m).soft.isr = none → serTok (Sys.at_ D e m).ser = 1 := by
    intro m hm hm' hi
    have h3 : isrRx (Sys.at_ D e m) = false := by unfold isrRx; rw [hi]
    have h5 : serTok (Sys.at_ D e m).ser + (isrRx (Sys.at_ D e m)).toNat = _ := (rxInv_at (D := D) e m).tok
    rw [h3, h0 m hm hm'] at h5
    simpa using h5
  have nir : ∀ m, (Sys.at_ D e m).soft.isr = none → (Sys.at_ D e m).ser.irqRead (serReq (Sys.at_ D e m).soft.access) = false := by
    intro m hi
    rw [irqRead_eq]
    simp only [Soft.access, hi]
    cases (Sys.at_ D e m).soft.main <;> simp [Main.access]
  -- in the next cycle the interrupt is pending
  have pend : ∀ m, n ≤ m → m ≤ n + (22 * K + S + 27) → (Sys.at_ D e m).soft.isr = none → (Sys.at_ D e (m + 1)).ser.rxIrq = true := by
    intro m hm hm' hi
    have h1 := tok m hm hm' hi
    have h2 := h0 m hm hm'
    have hx : (Sys.at_ D e (m + 1)).ser = (Sys.at_ D e m).ser.step D (serReq (Sys.at_ D e m).soft.access) (e m).rx := rfl
    rw [hx]
    simp only [WbSerial.step, nir m hi]
    simp only [serTok, h2] at h1 ⊢
    cases hp : (Sys.at_ D e m).ser.rxPrev <;> simp [hp] at h1 ⊢
    exact h1
  obtain ⟨m1, hm1, le1, no1, -⟩ := isr_leaves_le (D := D) hK n
  have one : ∀ m, (Sys.at_ D e m).soft.isr = none → (Sys.at_ D e (m + 1)).ser.rxIrq = true →
      Reading (Sys.at_ D e (m + 1)) ∨ ((Sys.at_ D e (m + 1)).soft.isr = none ∧ (Sys.at_ D e (m + 1)).ser.rxIrq = true) := by
    intro m hi hr
    rcases isr_none_step (D := D) (e := e) hi with h | h
    · exact .inr ⟨h, hr⟩
    · left
      refine ⟨by unfold Storing; rw [h]; exact hr, fun v d => by rw [h]; nofun⟩
  have way : ∀ m, m1 + 1 ≤ m → m ≤ n + (22 * K + S + 27) → Reading (Sys.at_ D e m) ∨
      ((Sys.at_ D e m).soft.isr = none ∧ (Sys.at_ D e m).ser.rxIrq = true) := by
    intro m hm hm'
    obtain ⟨d, rfl⟩ := Nat.exists_eq_add_of_le hm
    clear hm
    induction d with
    | zero => exact one m1 no1 (pend m1 hm1 (by omega) no1)
    | succ d ih =>
      rcases ih (by omega) with ih | ⟨h1, h2⟩
      · exact .inl (reading_step (n := m1 + 1 + d) ih (h0 _ (by omega) (by omega)) (h0 _ (by omega) (by omega)))
      · exact one _ h1 (rxIrq_keep h2 (nir _ h1))
  obtain ⟨m2, hm2, le2, en2⟩ := hen (m1 + 1)
  obtain ⟨m3, hm3, le3, no3, eq3⟩ := isr_leaves_le (D := D) hK m2
  have en3 : (Sys.at_ D e m3).soft.main.enabled = true := by rw [eq3]; exact en2
  obtain ⟨m4, hm4, le4, no4, en4, ac4⟩ : ∃ m ≥ m3, m ≤ m3 + 2 ∧ (Sys.at_ D e m).soft.isr = none ∧
      (Sys.at_ D e m).soft.main.enabled = true ∧ (Sys.at_ D e m).soft.access = none := by
    cases hac : (Sys.at_ D e m3).soft.access with
    | none => exact ⟨m3, by omega, by omega, no3, en3, hac⟩
    | some a =>
      obtain ⟨m, d, h1, h1', h2⟩ := access_done_le hac
      refine ⟨m, by omega, h1', ?_⟩
      rw [h2]
      exact done_enabled no3 en3 hac d
  obtain ⟨m5, op, hm5, le5, ac5, eq5⟩ := wait_act_le hK ac4
  have no5 : (Sys.at_ D e m5).soft.isr = none := by rw [eq5]; exact no4
  have q5 : (Sys.at_ D e m5).ser.rxIrq = true := by
    rcases way m5 (by omega) (by omega) with h | h
    · have := h.1
      unfold Storing at this; rw [no5] at this; exact absurd this id
    · exact h.2
  have i6 : (Sys.at_ D e (m5 + 1)).soft.isr = some .enter := by
    rw [soft_succ]
    unfold Sys.softNext
    rw [eq5, ac4, ac5, no4]
    simp only [en4, Sys.irq, WbSerial.irq]
    rw [q5]
    simp
  have s6 : Reading (Sys.at_ D e (m5 + 1)) := by
    rcases way (m5 + 1) (by omega) (by omega) with h | h
    · exact h
    · rw [i6] at h; cases h.1
  obtain ⟨m8, hm8, le8, no8, -⟩ := isr_leaves_le (D := D) hK (m5 + 1)
  have s7 : ∀ m, m5 + 1 ≤ m → m ≤ m8 → Reading (Sys.at_ D e m) := by
    intro m hm hm'
    obtain ⟨d, rfl⟩ := Nat.exists_eq_add_of_le hm
    clear hm
    induction d with
    | zero => exact s6
    | succ d ih => exact reading_step (n := m5 + 1 + d) (ih (by omega)) (h0 _ (by omega) (by omega)) (h0 _ (by omega) (by omega))
  have := (s7 m8 hm8 (by omega)).1
  unfold Storing at this
  rw [no8] at this
  exact this

/-- The keyboard takes a character in cycle `n`. -/
def Types (D : Nat) (keys : Nat → Option (BitVec 8)) (n : Nat) : Prop := (keyboard D keys n).ack = true ∧ (keys n).isSome = true

/-- The link to a keyboard with which nothing is typed from cycle `n` on. -/
def cutLink (D : Nat) (e : Nat → Env) (keys : Nat → Option (BitVec 8)) (n : Nat) : UartLink :=
  kbLink D e (fun k => if k < n then keys k else none)

theorem keyboard_cut {keys : Nat → Option (BitVec 8)} {n k : Nat} (hk : k ≤ n) :
    keyboard D (fun k => if k < n then keys k else none) k = keyboard D keys k := by
  induction k with
  | zero => rfl
  | succ k ih =>
    show UartTx.step D (keyboard D (fun k => if k < n then keys k else none) k) _ _ = UartTx.step D (keyboard D keys k) _ _
    rw [ih (by omega)]
    simp only [if_pos (show k < n by omega)]

theorem cutLink_rx {keys : Nat → Option (BitVec 8)} (hw : Wired D e keys) {n k : Nat} (hk : k ≤ n + 1) :
    (cutLink D e keys n).rx k = (Sys.at_ D e k).ser.rx := by
  induction k with
  | zero => rfl
  | succ k ih =>
    rw [UartLink.rx_succ, ih (by omega)]
    show UartRx.step D _ (keyboard D (fun k => if k < n then keys k else none) k).out _ = UartRx.step D _ (e k).rx _
    rw [hw k, keyboard_cut (by omega)]; rfl

/-- The firmware keeps up with a keyboard that types a character at most every `P` cycles. -/
theorem keeps_up (hD : 4 ≤ D) (hK : ∀ n, ∃ m ≥ n, m < n + K ∧ (e m).act.isSome = true) {S : Nat}
    (hen : ∀ n, ∃ m ≥ n, m ≤ n + S ∧ (Sys.at_ D e m).soft.main.enabled = true) {keys : Nat → Option (BitVec 8)} (hw : Wired D e keys)
    {P : Nat} (hP : ∀ m n, m < n → Types D keys m → Types D keys n → m + P ≤ n) (hfast : 22 * K + S + 27 + rxLatency D 8 ≤ P) :
    DriverKeepsUp D e keys := by
  suffices key : ∀ n, Types D keys n → (Sys.at_ D e (n + 1)).ser.rx.rdy = false from fun n h1 h2 => key n ⟨h1, h2⟩
  intro n
  induction n using Nat.strong_induction_on with
  | _ n ih =>
    intro hn
    have cutTypes : ∀ t, (cutLink D e keys n).Accepts t → t < n ∧ Types D keys t := by
      rintro t ⟨h1, h2⟩
      change (if t < n then keys t else none).isSome = true at h2
      change (keyboard D (fun k => if k < n then keys k else none) t).ack = true at h1
      by_cases ht : t < n
      · rw [if_pos ht] at h2
        rw [keyboard_cut (by omega)] at h1
        exact ⟨ht, h1, h2⟩
      · rw [if_neg ht] at h2; cases h2
    obtain ⟨-, h2⟩ := C40_stream (cutLink D e keys n) hD (fun t => byteBits_length _) (fun t ht => by
      obtain ⟨t1, t2⟩ := cutTypes t ht
      rw [cutLink_rx hw (by omega)]
      exact .inl (ih t t1 t2))
    cases hr : (Sys.at_ D e (n + 1)).ser.rx.rdy with
    | false => rfl
    | true =>
      -- when did it become ready?
      obtain ⟨u, u1, u2, u3⟩ : ∃ u ≤ n, (Sys.at_ D e u).ser.rx.rdy = false ∧ ∀ k, u < k → k ≤ n + 1 → (Sys.at_ D e k).ser.rx.rdy = true := by
        by_contra hno
        have all : ∀ d, d ≤ n + 1 → ∀ k, n + 1 - d ≤ k → k ≤ n + 1 → (Sys.at_ D e k).ser.rx.rdy = true := by
          intro d
          induction d with
          | zero => intro _ k k1 k2; rw [show k = n + 1 by omega]; exact hr
          | succ d ihd =>
            intro hd k k1 k2
            have := ihd (by omega)
            by_cases hk : n + 1 - d ≤ k
            · exact this k hk k2
            · cases hx : (Sys.at_ D e k).ser.rx.rdy with
              | true => rfl
              | false => exact absurd ⟨k, by omega, hx, fun j j1 j2 => this j (by omega) j2⟩ hno
        have := all (n + 1) (Nat.le_refl _) 0 (by omega) (by omega)
        cases this
      obtain ⟨t, ht, htu⟩ := h2 (u + 1) ⟨u, rfl, by rw [cutLink_rx hw (by omega)]; exact u2, by
        rw [cutLink_rx hw (by omega)]; exact u3 _ (by omega) (by omega)⟩
      change u + 1 = t + 1 + rxLatency D 8 at htu
      obtain ⟨t1, t2⟩ := cutTypes t ht
      have hgap := hP t n t1 t2 hn
      obtain ⟨m, m1, m2, m3⟩ := held_read hK hen (u3 (u + 1) (by omega) (by omega))
      have := u3 m (by omega) (by omega)
      rw [m3] at this
      cases this

/-- The keyboard itself takes a character at most every `10 * D + 1` cycles. -/
theorem types_apart (hD : 0 < D) {keys : Nat → Option (BitVec 8)} {m n : Nat} (hmn : m < n) (hm : Types D keys m) (hn : Types D keys n) :
    m + (10 * D + 1) ≤ n := by
  have len : ∀ k, (keyboard D keys k).shreg.length = 10 := by
    intro k
    induction k with
    | zero => rfl
    | succ k ih =>
      show (UartTx.step D (keyboard D keys k) _ _).shreg.length = 10
      unfold UartTx.step
      split
      · split
        · simp [byteBits_length]
        · exact ih
      · split
        · exact ih
        · simp [ih]
  have h1 : (keyboard D keys (m + 1)).count = 10 ∧ (keyboard D keys (m + 1)).phase = D - 1 := by
    have hc : (keyboard D keys m).count = 0 := by simpa [UartTx.ack] using hm.1
    show (UartTx.step D (keyboard D keys m) _ _).count = 10 ∧ (UartTx.step D (keyboard D keys m) _ _).phase = D - 1
    unfold UartTx.step
    rw [if_pos hc, if_pos hm.2]
    exact ⟨len m, rfl⟩
  have h2 : ∀ d, d < 10 * D → (keyboard D keys (m + 1 + d)).count ≠ 0 ∧
      ((keyboard D keys (m + 1 + d)).count - 1) * D + (keyboard D keys (m + 1 + d)).phase + d + 1 = 10 * D ∧ (keyboard D keys (m + 1 + d)).phase < D := by
    intro d
    induction d with
    | zero => intro _; rw [Nat.add_zero, h1.1, h1.2]; exact ⟨by decide, by omega, by omega⟩
    | succ d ih =>
      intro hd
      obtain ⟨i1, i2, i3⟩ := ih (by omega)
      have es : keyboard D keys (m + 1 + (d + 1)) = UartTx.step D (keyboard D keys (m + 1 + d)) (keys (m + 1 + d)).isSome (byteBits ((keys (m + 1 + d)).getD 0)) := rfl
      rw [es, UartTx.step, if_neg i1]
      generalize keyboard D keys (m + 1 + d) = s at *
      by_cases hp : s.phase = 0
      · rw [if_neg (by simpa using hp)]
        simp only
        obtain ⟨c, hc⟩ : ∃ c, s.count = c + 1 := ⟨s.count - 1, by omega⟩
        rw [hc, hp] at i2
        rw [hc]
        simp only [Nat.add_sub_cancel] at i2 ⊢
        cases c with
        | zero => omega
        | succ c =>
          simp only [Nat.add_sub_cancel]
          rw [Nat.succ_mul] at i2
          exact ⟨by omega, by omega, by omega⟩
      · rw [if_pos hp]
        simp only
        exact ⟨i1, by omega, by omega⟩
  by_contra hlt
  obtain ⟨d, rfl⟩ := Nat.exists_eq_add_of_le (show m + 1 ≤ n from hmn)
  have := (h2 d (by omega)).1
  have hc : (keyboard D keys (m + 1 + d)).count = 0 := by simpa [UartTx.ack] using hn.1
  exact this hc

end Sentinel.Fw
