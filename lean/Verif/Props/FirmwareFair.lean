import Verif.Proof.FirmwareFair
import Verif.Props.FirmwareLive
/-!
# C68: interrupts leave time for `main`
-/

namespace Sentinel

open Fw

/-- **C68** (no starvation): if the processor does an action at least every `K` cycles, and is fast enough for the divisor (`K` up to 350
cycles for 9600 baud at 12 MHz, a divisor of 1250), then whatever arrives on the receive line, `main` does an action in each period
of `40 * K + 44` cycles: one in which the handler is not running, and no interrupt is pending or interrupts are disabled. -/
theorem C68_main {D : Nat} (hD : 0 < D) {K : Nat} {e : Nat → Env} (hK : ∀ n, ∃ m ≥ n, m < n + K ∧ (e m).act.isSome = true)
    (h1 : 32 * K + 36 ≤ 9 * D) (h2 : 32 * K + 36 ≤ 2 ^ 14) (n : Nat) :
    ∃ m ≥ n, m < n + (40 * K + 44) ∧ (∃ op, (e m).act = some op ∧ (Sys.at_ D e (m + 1)).soft = (Sys.at_ D e m).soft.mainAct op) ∧
      (Sys.at_ D e m).soft.isr = none ∧ ((Sys.at_ D e m).soft.main.enabled = false ∨ (Sys.at_ D e m).irq = false) := by
  obtain ⟨m, m1, m2, m3, m4, m5, m6⟩ := main_acts hD hK h1 h2 n
  obtain ⟨op, hop⟩ := Option.isSome_iff_exists.1 m3
  exact ⟨m, m1, m2, ⟨op, hop, act_main m5 m4 hop m6⟩, m5, m6⟩

/-- **C68** (`write_char`): under the same conditions every call of `write_char` from outside critical sections returns. -/
theorem C68_write {D : Nat} (hD : 0 < D) {K : Nat} {e : Nat → Env} (hK : ∀ n, ∃ m ≥ n, m < n + K ∧ (e m).act.isSome = true)
    (h1 : 32 * K + 36 ≤ 9 * D) (h2 : 32 * K + 36 ≤ 2 ^ 14) {n : Nat} {b : BitVec 8} (h0 : (Sys.at_ D e n).soft.main = .app)
    (h : writing D e (n + 1) = some b) : ∃ m > n, writing D e m = none := by
  refine C63_return hD (fun n => ?_) h0 h
  obtain ⟨m, m1, m2, ⟨op, m3, m4⟩, m5, m6⟩ := C68_main hD hK h1 h2 n
  exact ⟨m, m1, by rw [m3]; rfl, m5, m6⟩

/-- The conditions can be met: the run of `fwQuiet`, with an action in each cycle, at 9600 baud and 12 MHz; and the numbers for the `K` of the text. -/
example (n : Nat) : ∃ m ≥ n, m < n + 84 ∧ (∃ op, (fwQuiet m).act = some op ∧ (Sys.at_ 1250 fwQuiet (m + 1)).soft = (Sys.at_ 1250 fwQuiet m).soft.mainAct op) ∧
    (Sys.at_ 1250 fwQuiet m).soft.isr = none ∧ ((Sys.at_ 1250 fwQuiet m).soft.main.enabled = false ∨ (Sys.at_ 1250 fwQuiet m).irq = false) :=
  C68_main (K := 1) (by decide) (fun n => ⟨n, by omega, by omega, by unfold fwQuiet; split <;> rfl⟩) (by decide) (by decide) n

example : 32 * 350 + 36 ≤ 9 * 1250 ∧ 32 * 350 + 36 ≤ 2 ^ 14 := by decide

end Sentinel
