import Verif.Proof.FirmwareKeys
import Verif.Props.AppLive
/-!
# C70: no character typed at the Rust firmware is lost on its way to `RX`
-/

namespace Sentinel

open Fw

/-- **C70** (keeping up): let a keyboard with the same divisor be connected, which begins to send characters at least `P` cycles apart,
and let the processor do an action at least every `K` cycles.  If it is fast enough for `P`, then it has read each character
before the next one begins (the condition `DriverKeepsUp` of C64 and C66), whatever else is going on: the output, the timer, the critical sections of the application. -/
theorem C70_keeps_up {D : Nat} (hD : 4 ≤ D) {K : Nat} {p : Nat → Pins} (hK : ∀ n, ∃ m ≥ n, m < n + K ∧ (p m).go = true)
    (h1 : 63 * (10 * D + 15 * K + 19) ≤ 142 * 2 ^ 14) {keys : Nat → Option (BitVec 8)} (hw : Wired D (Machine.envs D p) keys) {P : Nat}
    (hP : ∀ m n, m < n → (keyboard D keys m).ack = true → (keys m).isSome = true → (keyboard D keys n).ack = true → (keys n).isSome = true → m + P ≤ n)
    (h2 : 33 * K + 33 + D / 2 + 9 * D ≤ P) : DriverKeepsUp D (Machine.envs D p) keys := by
  refine keeps_up (K := K) (S := 11 * K + 4) (P := P) hD (fun n => ?_) (C67_enabled (by omega) hK h1) hw
    (fun m n hmn hm hn => hP m n hmn hm.1 hm.2 hn.1 hn.2) (by rw [rxLatency]; omega)
  obtain ⟨m, h1, h2, h3⟩ := hK n
  exact ⟨m, h1, h2, by simp [Machine.envs, Machine.env, h3]⟩

/-- **C70** (nothing is lost): under the same conditions the handler stores in `RX` exactly the characters typed, in that order, each of them sooner or
later.  (Whether the application looks at each of them is another matter: `RX` holds one character, C64.) -/
theorem C70_typed {D : Nat} (hD : 4 ≤ D) {K : Nat} {p : Nat → Pins} (hK : ∀ n, ∃ m ≥ n, m < n + K ∧ (p m).go = true)
    (h1 : 63 * (10 * D + 15 * K + 19) ≤ 142 * 2 ^ 14) {keys : Nat → Option (BitVec 8)} (hw : Wired D (Machine.envs D p) keys) {P : Nat}
    (hP : ∀ m n, m < n → (keyboard D keys m).ack = true → (keys m).isSome = true → (keyboard D keys n).ack = true → (keys n).isSome = true → m + P ≤ n)
    (h2 : 33 * K + 33 + D / 2 + 9 * D ≤ P) (n : Nat) :
    stores D (Machine.envs D p) n <+: typed D keys n ∧ ∃ m ≥ n, typed D keys n <+: stores D (Machine.envs D p) m := by
  have hk := C70_keeps_up hD hK h1 hw hP h2
  obtain ⟨g1, g2⟩ := C64_keyboard hD _ hw hk n
  refine ⟨g2, ?_⟩
  obtain ⟨-, m, m1, m2⟩ := C67_flow (by omega) hK h1 (n + rxLatency D 8)
  rw [g1] at m2
  exact ⟨m, by omega, m2⟩

/-- **C70** (as fast as the line): a processor with `33 * K + 32 + D / 2 ≤ D` (`K` up to 17 for 9600 baud at 12 MHz) loses nothing even if the characters are sent
without a pause. -/
theorem C70_full_speed {D : Nat} (hD : 4 ≤ D) {K : Nat} {p : Nat → Pins} (hK : ∀ n, ∃ m ≥ n, m < n + K ∧ (p m).go = true)
    (h1 : 63 * (10 * D + 15 * K + 19) ≤ 142 * 2 ^ 14) {keys : Nat → Option (BitVec 8)} (hw : Wired D (Machine.envs D p) keys)
    (h2 : 33 * K + 32 + D / 2 ≤ D) (n : Nat) :
    stores D (Machine.envs D p) n <+: typed D keys n ∧ ∃ m ≥ n, typed D keys n <+: stores D (Machine.envs D p) m :=
  C70_typed (P := 10 * D + 1) hD hK h1 hw (fun _ _ hmn a b c d => types_apart (by omega) hmn ⟨a, b⟩ ⟨c, d⟩) (by omega) n

/-- The conditions can be met: 9600 baud at 12 MHz and an action in each cycle, with whatever is typed. -/
example (keys : Nat → Option (BitVec 8)) (n : Nat) :
    ∃ m ≥ n, typed 1250 keys n <+: stores 1250 (Machine.envs 1250 fun k => { rx := (keyboard 1250 keys k).out }) m :=
  (C70_full_speed (K := 1) (by decide) (fun n => ⟨n, by omega, by omega, rfl⟩) (by decide) (fun _ => rfl) (by decide) n).2

/-- The numbers of the text; and a typist who makes 30 characters a second, with the `K` of C69. -/
example : 33 * 17 + 32 + 1250 / 2 ≤ 1250 ∧ 33 * 350 + 33 + 1250 / 2 + 9 * 1250 ≤ 400000 := by decide

end Sentinel
