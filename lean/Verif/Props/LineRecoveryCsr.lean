import Verif.Props.LineRecovery
import Verif.Props.FirmwareLineCsr
/-!
# C104, on the CSR bus: the serial receiver after noise
-/

namespace Sentinel

open Fw (Pins OnLine withRx moreRx more_line)
open FwCsr

/-- **C104** (firmware, CSR bus): `C104_firmware` with the peripherals on the CSR bus. -/
theorem C104_firmware_csr {D : Nat} (hD : 2 ≤ D) {K : Nat} {p : Nat → Pins} (hK : ∀ n, ∃ m ≥ n, m < n + K ∧ (p m).go = true)
    (h1 : 63 * (10 * D + 15 * (K + 6) + 19) ≤ 142 * 2 ^ 14) {T m : Nat} (hm : 10 * D + (33 * (K + 6) + 31) ≤ m) (hx : ∀ k < m, (p (T + k)).rx = true)
    {l : Line} {b : Nat → BitVec 8} (h : OnLine D (fun k => Machine.envs D p (T + m + k)) l b)
    {W : Nat} (hW : ∀ k, l.sent (k + 1) → l.done 8 D k + W ≤ l.edge (k + 1) 0) (h2 : 33 * (K + 6) + 31 ≤ W) :
    (∀ k, ∃ j, (∀ i, i < j ↔ l.sent i ∧ l.done 8 D i ≤ k) ∧
      received D (Machine.envs D p) (T + m + k) = received D (Machine.envs D p) (T + m) ++ (List.range j).map b) ∧
    (∀ n, stores D (Machine.envs D p) n <+: received D (Machine.envs D p) n) ∧
    ∀ i, l.sent i → ∃ t ≥ T + m + l.done 8 D i,
      received D (Machine.envs D p) (T + m) ++ (List.range (i + 1)).map b <+: stores D (Machine.envs D p) t := by
  have h' : OnLine D (fun k => Fw.Machine.envs D (pins D p) (T + m + k)) l b := by
    rw [envs_eq]
    exact ⟨h.char, h.levels, h.fits⟩
  simp only [received_eq, stores_eq, ← envs_eq]
  exact C104_firmware hD (go_soon (D := D) hK) h1 hm (fun k hk => hx k hk) h' hW h2

/-- The conditions can be met, as those of `C104_firmware`: after noise for 1000 cycles, and a rest, somebody types ctrl-c, with bits 4 % too long. -/
example : ∃ p : Nat → Pins, (∀ n < 1000, (p n).rx = decide (n % 7 = 0)) ∧
    ∃ t, received 1250 (Machine.envs 1250 p) (1000 + 12762) ++ [3] <+: stores 1250 (Machine.envs 1250 p) t := by
  let q : Nat → Bool := fun n => if n < 1000 then decide (n % 7 = 0) else if n < 1000 + 12762 then true else
    moreRx 1300 (fun _ => true) 50 3 (n - (1000 + 12762))
  let p : Nat → Pins := withRx (fun _ => {}) q
  have hp : ∀ n, (p n).rx = q n := fun _ => rfl
  obtain ⟨h, hW, -⟩ := more_line (D := 1250) (e := fun _ => { rx := true }) (e' := fun k => Machine.envs 1250 p (1000 + 12762 + k))
    (l := ⟨fun _ => False, fun _ => [], fun _ _ => 0⟩) (b := fun _ => 0) (x := fun _ => true) (P := 1300) (N := 0) (t := 50) (W := 262) (c := 3)
    (by decide) (by decide) (by decide) (fun _ => rfl) (fun n => by
      show q (1000 + 12762 + n) = _
      simp only [q]
      rw [if_neg (by omega), if_neg (by omega), Nat.add_sub_cancel_left])
    ⟨nofun, ⟨nofun, nofun, nofun, fun _ _ => rfl⟩, nofun⟩ (fun k => by simp) nofun nofun nofun
  refine ⟨p, fun n hn => by rw [hp]; simp only [q]; rw [if_pos hn], ?_⟩
  obtain ⟨-, -, g⟩ := C104_firmware_csr (D := 1250) (K := 1) (p := p) (by decide) (fun n => ⟨n, by omega, by omega, rfl⟩) (by decide) (T := 1000) (m := 12762)
    (by decide) (fun k hk => by rw [hp]; simp only [q]; rw [if_neg (by omega), if_pos (by omega)]) h hW (by decide)
  obtain ⟨t, -, ht⟩ := g 0 (show 0 < 0 + 1 by decide)
  exact ⟨t, ht⟩

end Sentinel
