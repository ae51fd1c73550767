import Verif.Proof.AppLive
import Verif.Props.FirmwareRx
/-!
# C67: the Rust firmware does not get stuck
-/

namespace Sentinel

open Fw

/-- **C67** (critical sections): if the processor does an action at least every `K` cycles, and is fast enough for the
divisor (`K` up to 1627 cycles for 9600 baud at 12 MHz, a divisor of 1250), then interrupts are enabled again within `11 * K + 4` cycles: each critical
section ends, and no `write_char` in one (the echo of `read_num`, which would not return if the queue was full) hangs. -/
theorem C67_enabled {D : Nat} (hD : 0 < D) {K : Nat} {p : Nat → Pins} (hK : ∀ n, ∃ m ≥ n, m < n + K ∧ (p m).go = true)
    (hfast : 63 * (10 * D + 15 * K + 19) ≤ 142 * 2 ^ 14) (n : Nat) :
    ∃ m ≥ n, m ≤ n + (11 * K + 4) ∧ (Sys.at_ D (Machine.envs D p) m).soft.main.enabled = true :=
  enabled_again hD hK hfast n

/-- **C67** (flow): under the same conditions everything written gets onto the line, and everything received gets stored. -/
theorem C67_flow {D : Nat} (hD : 0 < D) {K : Nat} {p : Nat → Pins} (hK : ∀ n, ∃ m ≥ n, m < n + K ∧ (p m).go = true)
    (hfast : 63 * (10 * D + 15 * K + 19) ≤ 142 * 2 ^ 14) (n : Nat) :
    (∃ m ≥ n, returned D (Machine.envs D p) n <+: frames D (Machine.envs D p) m) ∧
    (∃ m ≥ n, received D (Machine.envs D p) n <+: stores D (Machine.envs D p) m) := by
  have hact : ∀ n, ∃ m ≥ n, (Machine.envs D p m).act.isSome = true := by
    intro n
    obtain ⟨m, h1, h2, h3⟩ := hK n
    exact ⟨m, h1, by simp [Machine.envs, Machine.env, h3]⟩
  have hen : ∀ n, ∃ m ≥ n, (Sys.at_ D (Machine.envs D p) m).soft.main.enabled = true := by
    intro n
    obtain ⟨m, h1, -, h2⟩ := C67_enabled hD hK hfast n
    exact ⟨m, h1, h2⟩
  exact ⟨C63_drain hD hact hen n, C64_progress hact hen n⟩

/-- 9600 baud at 12 MHz. -/
example : 63 * (10 * 1250 + 15 * 1627 + 19) ≤ 142 * 2 ^ 14 := by decide

/-- The conditions can be met: an action in each cycle; nothing is assumed about the other pins. -/
example (rx : Nat → Bool) (button : Nat → BitVec 8) (n : Nat) :
    ∃ m ≥ n, m ≤ n + 15 ∧ (Sys.at_ 1250 (Machine.envs 1250 fun n => { rx := rx n, gpioI := button n }) m).soft.main.enabled = true :=
  C67_enabled (K := 1) (by decide) (fun n => ⟨n, by omega, by omega, rfl⟩) (by decide) n

end Sentinel
