import Mathlib.Data.Nat.Count
import Verif.Proof.AttoCsrProg
/-!
# Counting the timer's interrupts (C95)

If every interrupt of the timer is read before the next one is due, the number of reads that returned 1 is the number of periods that
have passed, less the one interrupt that may be pending.
-/

set_option linter.unusedSimpArgs false

namespace Sentinel
open Spec

/-- The number of read strobes in the first `n` cycles that find the interrupt pending. -/
def CsrTimer.hits (s : CsrTimer) (r : Nat → Bool) (n : Nat) : Nat := Nat.count (fun i => r i = true ∧ (s.run r i).irq = true) n

/-- Nothing is lost as long as every interrupt is read before the next is due. -/
theorem CsrTimer.hits_exact {r : Nat → Bool}
    (hr : ∀ q, 1 ≤ q → (({} : CsrTimer).run r (timerPeriod * q)).irq = true → ∃ j, j + 1 < timerPeriod ∧ r (timerPeriod * q + j) = true) (n : Nat) :
    timerPeriod * ({} : CsrTimer).hits r n + (({} : CsrTimer).run r n).prescaler.toNat = n := by
  induction n using Nat.strong_induction_on with
  | _ n ih =>
    cases n with
    | zero => simp [CsrTimer.hits, CsrTimer.run]
    | succ n =>
      have i0 := ih n (by omega)
      have hs := CsrTimer.step_toNat (({} : CsrTimer).run r n) (r n)
      have hlt := (({} : CsrTimer).run r n).prescaler.isLt
      have hq := CsrTimer.irq_iff (({} : CsrTimer).run r n)
      rw [show ({} : CsrTimer).run r (n + 1) = (({} : CsrTimer).run r n).step (r n) from rfl, hs]
      have hc : ({} : CsrTimer).hits r (n + 1) = ({} : CsrTimer).hits r n +
          if r n = true ∧ 2 ^ 14 ≤ (({} : CsrTimer).run r n).prescaler.toNat then 1 else 0 := by
        unfold CsrTimer.hits
        rw [Nat.count_succ]
        congr 1
        by_cases hx : r n = true ∧ (({} : CsrTimer).run r n).irq = true
        · rw [if_pos hx, if_pos ⟨hx.1, hq.1 hx.2⟩]
        · rw [if_neg hx, if_neg fun g => hx ⟨g.1, hq.2 g.2⟩]
      rw [hc]
      -- the counter does not overflow
      have hno : (({} : CsrTimer).run r n).prescaler.toNat + 1 < 2 ^ 15 := by
        by_contra hx
        have hp : (({} : CsrTimer).run r n).prescaler.toNat = 2 ^ 15 - 1 := by omega
        rw [hp] at i0
        generalize hT : ({} : CsrTimer).hits r n = T at i0
        unfold timerPeriod at i0
        -- the interrupt was raised 2^14 - 1 cycles ago, and not read since
        obtain ⟨N, hN⟩ : ∃ N, N = timerPeriod * (T + 1) := ⟨_, rfl⟩
        have hN' : N = 2 ^ 14 * T + 2 ^ 14 := by rw [hN, Nat.mul_add]; rfl
        have hmono : ∀ m, m ≤ n → ({} : CsrTimer).hits r m ≤ T := fun m hm => by
          rw [← hT]; exact Nat.count_monotone _ hm
        have pend : ∀ m, N ≤ m → m ≤ n → m < N + 2 ^ 14 → (({} : CsrTimer).run r m).irq = true ∧ ({} : CsrTimer).hits r m = T := by
          intro m h1 h2 h3
          have e : timerPeriod * ({} : CsrTimer).hits r m + (({} : CsrTimer).run r m).prescaler.toNat = m := ih m (by omega)
          have hl := (({} : CsrTimer).run r m).prescaler.isLt
          have hm := hmono m h2
          rw [CsrTimer.irq_iff]
          generalize ({} : CsrTimer).hits r m = H at e hm
          generalize (({} : CsrTimer).run r m).prescaler.toNat = P at e hl
          unfold timerPeriod at e
          constructor <;> omega
        have hirq := (pend N (by omega) (by omega) (by omega)).1
        rw [hN] at hirq
        obtain ⟨j, hj, hrj⟩ := hr (T + 1) (by omega) hirq
        rw [← hN] at hrj
        unfold timerPeriod at hj
        obtain ⟨p1, p2⟩ := pend (N + j) (by omega) (by omega) (by omega)
        have hsucc : ({} : CsrTimer).hits r (N + j + 1) = ({} : CsrTimer).hits r (N + j) + 1 := by
          unfold CsrTimer.hits
          rw [Nat.count_succ, if_pos ⟨hrj, p1⟩]
        have := hmono (N + j + 1) (by omega)
        omega
      unfold timerPeriod at *
      split <;> omega

/-- The interrupts read so far, and the one that is pending, are the periods that have passed. -/
theorem CsrTimer.hits_periods {r : Nat → Bool}
    (hr : ∀ q, 1 ≤ q → (({} : CsrTimer).run r (timerPeriod * q)).irq = true → ∃ j, j + 1 < timerPeriod ∧ r (timerPeriod * q + j) = true) (n : Nat) :
    ({} : CsrTimer).hits r n + (if (({} : CsrTimer).run r n).irq then 1 else 0) = n / timerPeriod := by
  have h := CsrTimer.hits_exact hr n
  have hl := (({} : CsrTimer).run r n).prescaler.isLt
  have hq := CsrTimer.irq_iff (({} : CsrTimer).run r n)
  unfold timerPeriod at *
  split <;> rename_i hx <;> rw [hq] at hx <;> omega

namespace AttoCsr
variable {k D : Nat} {s : AttoCsr k} {p : Nat → AttoIn} {n : Nat}

/-- In cycle `n` a read of the timer's register that returns 1 is completed. -/
def TickRead (s : AttoCsr k) (D : Nat) (p : Nat → AttoIn) (n : Nat) : Prop :=
  (s.run D p n).cpu.cyc = true ∧ (s.run D p n).ack = true ∧ (s.run D p n).cpu.req.byteAdr = 0x02800000 ∧
    (s.run D p n).cpu.req.we = false ∧ (s.run D p n).datR = 1

open Classical in
/-- The number of reads of the timer's register completed in the first `n` cycles that returned 1. -/
noncomputable def ticks (s : AttoCsr k) (D : Nat) (p : Nat → AttoIn) (n : Nat) : Nat := Nat.count (TickRead s D p) n

theorem tickRead_iff (h : s.AfterReset) (i : Nat) :
    TickRead s D p (i + 5) ↔ (s.timerStbs D p i = true ∧ (s.run D p i).timer.irq = true) := by
  constructor
  · rintro ⟨h1, h2, h3, h4, h5⟩
    have hc : Completes s D p (i + 5) := ⟨h1, h2, by rw [Req.csrTarget, h3]; rfl⟩
    have hsel : (s.run D p (i + 5)).cpu.req.sel.getLsbD 0 = true := by
      by_contra hx
      have := (C73_read h hc h4).2 fun g => hx g.1
      rw [h5] at this
      exact absurd this (by decide)
    obtain ⟨-, hrd⟩ := read_strobe h hc h4 hsel
    have ht := ((C73_timer h).2.2 (i + 5) hc h3 h4 hsel).1.1 h5
    rw [Nat.add_sub_cancel] at ht hrd
    refine ⟨?_, ht⟩
    simp only [timerStbs, timerStb, decide_eq_true_eq]
    rw [hrd, h3]; rfl
  · rintro ⟨h1, h2⟩
    simp only [timerStbs, timerStb, decide_eq_true_eq] at h1
    have hc := (C73_strobes (D := D) (p := p) (t := i) h).1 (by rw [h1]; simp)
    obtain ⟨b1, b2, b3, b4⟩ := reads_reg h h1
    have hq := ((C73_access h hc).2 0 (by omega)).2.1
    rw [show i + 5 - 5 + 0 = i by omega] at hq
    rw [hq] at b2 b3 b4
    have ht := (C73_timer h).2.2 (i + 5) hc b2 b3 b4
    rw [Nat.add_sub_cancel] at ht
    exact ⟨hc.cyc, hc.ack, b2, b3, ht.1.2 h2⟩

theorem tickRead_late (h : s.AfterReset) {i : Nat} (hi : TickRead s D p i) : 5 ≤ i := by
  obtain ⟨h1, h2, h3, h4, h5⟩ := hi
  exact (C73_access h ⟨h1, h2, by rw [Req.csrTarget, h3]; rfl⟩).1

theorem ticks_hits (h : s.AfterReset) (n : Nat) : ticks s D p (n + 5) = ({} : CsrTimer).hits (s.timerStbs D p) n := by
  classical
  induction n with
  | zero =>
    have : ∀ m ≤ 5, ticks s D p m = 0 := by
      intro m
      induction m with
      | zero => intro _; simp [ticks]
      | succ m ih =>
        intro hm
        have := ih (by omega)
        unfold ticks at this ⊢
        rw [Nat.count_succ, this, if_neg fun hx => by have := tickRead_late h hx; omega]
    rw [this 5 (by omega)]; simp [CsrTimer.hits]
  | succ n ih =>
    rw [show n + 1 + 5 = (n + 5) + 1 by omega]
    unfold ticks CsrTimer.hits at ih ⊢
    rw [Nat.count_succ _ (n + 5), Nat.count_succ _ n, ih]
    congr 1
    have e := tickRead_iff (D := D) (p := p) h n
    rw [(C73_devices h D p n).2.1] at e
    by_cases hx : TickRead s D p (n + 5)
    · rw [if_pos hx, if_pos (e.1 hx)]
    · rw [if_neg hx, if_neg fun g => hx (e.2 g)]

end AttoCsr
end Sentinel
