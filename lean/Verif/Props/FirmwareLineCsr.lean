import Verif.Props.FirmwareLine
import Verif.Props.AppCsr
/-!
# C103: the Rust firmware on the CSR bus, with a keyboard that has its own clock
-/

set_option linter.unusedSimpArgs false

namespace Sentinel

open Fw (Pins OnLine utf8 session keysOf demoText ruleOf Styles withRx moreRx moreLine moreChar)
open FwCsr

namespace FwCsr

theorem onLine {D : Nat} {p : Nat → Pins} {l : Line} {b : Nat → BitVec 8} (h : OnLine D (Machine.envs D p) l b) :
    OnLine D (Fw.Machine.envs D (pins D p)) l b := by
  rw [envs_eq]
  exact ⟨h.char, h.levels, h.fits⟩

end FwCsr

/-- **C103** (nothing is lost): if the processor does an action at least every `K` cycles, and each frame begins long enough
after the one before has been received, then the serial port receives each character by the cycle `done`, and the handler stores in `RX`
exactly the characters sent, in that order, each of them sooner or later. -/
theorem C103_stored {D : Nat} (hD : 2 ≤ D) {K : Nat} {p : Nat → Pins} (hK : ∀ n, ∃ m ≥ n, m < n + K ∧ (p m).go = true)
    (h1 : 63 * (10 * D + 15 * (K + 6) + 19) ≤ 142 * 2 ^ 14) {l : Line} {b : Nat → BitVec 8} (h : OnLine D (Machine.envs D p) l b)
    {W : Nat} (hW : ∀ k, l.sent (k + 1) → l.done 8 D k + W ≤ l.edge (k + 1) 0) (h2 : 33 * (K + 6) + 31 ≤ W) :
    (∀ n, ∃ j, (∀ k, k < j ↔ l.sent k ∧ l.done 8 D k ≤ n) ∧ received D (Machine.envs D p) n = (List.range j).map b ∧
      stores D (Machine.envs D p) n <+: (List.range j).map b) ∧
    (∀ k, l.sent k → ∃ m ≥ l.done 8 D k, (List.range (k + 1)).map b <+: stores D (Machine.envs D p) m) ∧
    ∀ n d, storing D (Machine.envs D p) n = some d → mailbox D (Machine.envs D p) (n + 1) = some d := by
  refine (and_assoc).1 ⟨?_, fun n d => (C81_mailbox _ n).2.1 d⟩
  simp only [received_eq, stores_eq, ← envs_eq]
  have ht := C101_keeps_up hD (go_soon (D := D) hK) h1 (onLine h) hW h2
  exact ⟨fun n => C101_order hD _ (onLine h) ht n, (C101_stored hD (go_soon (D := D) hK) h1 (onLine h) hW h2).2.1⟩

/-- **C103** (a typist who waits): let the processor be fast enough. If the line carries `N` characters, none of which begins
before the application has taken the one before it, then the application takes all of them, in that order, and everything that
the session specified has to answer to them gets onto the line, sooner or later, for ever. -/
theorem C103_waits {D : Nat} (hD : 2 ≤ D) {K : Nat} {p : Nat → Pins} (hK : ∀ n, ∃ m ≥ n, m < n + K ∧ (p m).go = true)
    (h1 : 63 * (10 * D + 15 * (K + 6) + 19) ≤ 142 * 2 ^ 14) (h2 : 32 * (K + 6) + 36 ≤ 9 * D) (h3 : 40 * (K + 6) + 45 ≤ 2 ^ 14)
    {l : Line} {b : Nat → BitVec 8} (h : OnLine D (Machine.envs D p) l b)
    {W : Nat} (hW : ∀ k, l.sent (k + 1) → l.done 8 D k + W ≤ l.edge (k + 1) 0) (h4 : 33 * (K + 6) + 31 ≤ W)
    (hslow : ∀ k, l.sent k → taken D (Machine.envs D p) (l.edge k 0) = (List.range k).map b) {N : Nat} (hN : ∀ k, l.sent k ↔ k < N) :
    ∃ h : Nat → List Fw.Input, Explains D p h ∧ (∀ n, keysOf (h n) <+: (List.range N).map b) ∧
    ∀ n, ∃ m ≥ n, taken D (Machine.envs D p) m = (List.range N).map b ∧ keysOf (h m) = (List.range N).map b ∧
      calls D (Machine.envs D p) m = utf8 (session (h m)).said ∧ ∃ q ≥ m, utf8 (session (h m)).said <+: frames D (Machine.envs D p) q := by
  simp only [taken_eq, calls_eq, frames_eq, ← envs_eq] at hslow ⊢
  obtain ⟨h, E, g⟩ := C102_waits hD (go_soon (D := D) hK) h1 h2 h3 (onLine h) hW h4 hslow hN
  exact ⟨h, explains_csr E, g⟩

/-- **C103** (the dialogue): under the same conditions, ctrl-c and three more characters are answered by the prompt, their
echo and the demonstration of the rule that they make, for as many lines as one likes, and the rule is on the LEDs. -/
theorem C103_dialogue {D : Nat} (hD : 2 ≤ D) {K : Nat} {p : Nat → Pins} (hK : ∀ n, ∃ m ≥ n, m < n + K ∧ (p m).go = true)
    (h1 : 63 * (10 * D + 15 * (K + 6) + 19) ≤ 142 * 2 ^ 14) (h2 : 32 * (K + 6) + 36 ≤ 9 * D) (h3 : 40 * (K + 6) + 45 ≤ 2 ^ 14)
    {l : Line} {b : Nat → BitVec 8} (h : OnLine D (Machine.envs D p) l b)
    {W : Nat} (hW : ∀ k, l.sent (k + 1) → l.done 8 D k + W ≤ l.edge (k + 1) 0) (h4 : 33 * (K + 6) + 31 ≤ W)
    (hslow : ∀ k, l.sent k → taken D (Machine.envs D p) (l.edge k 0) = (List.range k).map b) (hN : ∀ k, l.sent k ↔ k < 4)
    (hb : b 0 = 3) (L : Nat) :
    ∃ st N st' M m q, L ≤ M ∧ Styles st ∧ Styles st' ∧
      utf8 (demoText 110 st N ++ "ctrl-c hit\nrule (default 110)? ".toList ++ [Char.ofNat (b 1).toNat, Char.ofNat (b 2).toNat, Char.ofNat (b 3).toNat, '\n'] ++
        demoText (ruleOf [b 1, b 2, b 3]) st' M) <+: frames D (Machine.envs D p) q ∧
      (Machine.at_ D p m).sys.leds.leds = ruleOf [b 1, b 2, b 3] := by
  simp only [taken_eq, ← envs_eq] at hslow
  obtain ⟨st, N, st', M, m, q, g1, g2, g3, g4, g5⟩ := C102_dialogue hD (go_soon (D := D) hK) h1 h2 h3 (onLine h) hW h4 hslow hN hb L
  refine ⟨st, N, st', M, m, q, g1, g2, g3, ?_, ?_⟩
  · rw [frames_eq, ← envs_eq]; exact g4
  · rw [← (msim_at m).sys.same.leds]; exact g5

/-- **C103** (it is possible): whatever the characters are, they can be typed in that way, with bits of any length `P` that
is near enough to `D`. -/
theorem C103_possible {D : Nat} (hD : 2 ≤ D) {K : Nat} {p0 : Nat → Pins} (hK : ∀ n, ∃ m ≥ n, m < n + K ∧ (p0 m).go = true)
    (h1 : 63 * (10 * D + 15 * (K + 6) + 19) ≤ 142 * 2 ^ 14) (h2 : 32 * (K + 6) + 36 ≤ 9 * D) (h3 : 40 * (K + 6) + 45 ≤ 2 ^ 14)
    {P : Nat} (hP1 : 10 * D + 2 + D / 2 ≤ 10 * P + D) (hP2 : 10 * P ≤ 10 * D + D / 2 + 1) (bs : List (BitVec 8)) :
    ∃ x l b, OnLine D (Machine.envs D (withRx p0 x)) l b ∧
      (∀ k, l.sent (k + 1) → l.done 8 D k + (33 * (K + 6) + 31) ≤ l.edge (k + 1) 0) ∧
      (∀ k, l.sent k → taken D (Machine.envs D (withRx p0 x)) (l.edge k 0) = (List.range k).map b) ∧
      (∀ k, l.sent k ↔ k < bs.length) ∧ (List.range bs.length).map b = bs ∧ ∀ k i, l.sent k → l.edge k i = l.edge k 0 + i * P := by
  induction bs using List.reverseRecOn with
  | nil =>
    refine ⟨fun _ => true, ⟨fun _ => False, fun _ => [], fun _ _ => 0⟩, fun _ => 0, ⟨nofun, ⟨nofun, nofun, nofun, fun _ _ => rfl⟩, nofun⟩,
      nofun, nofun, fun k => by simp, rfl, nofun⟩
  | append_singleton bs c ih =>
    obtain ⟨x, l, b, h, hW, hslow, hN, hb, he⟩ := ih
    have hK' : ∀ n, ∃ m ≥ n, m < n + K ∧ (withRx p0 x m).go = true := hK
    obtain ⟨m, m2⟩ : ∃ m, taken D (Machine.envs D (withRx p0 x)) m = bs := by
      obtain ⟨_, -, -, hh⟩ := C103_waits hD hK' h1 h2 h3 h hW (Nat.le_refl _) hslow hN
      obtain ⟨m, -, a, -⟩ := hh 0
      exact ⟨m, a.trans hb⟩
    generalize hNN : bs.length = N at *
    have ht := C101_keeps_up hD (go_soon (D := D) hK') h1 (onLine h) hW (Nat.le_refl _)
    obtain ⟨n0, e1, -⟩ := Fw.line_end hD (onLine h) ht hN
    -- the next one is typed when the line has been idle for long enough
    obtain ⟨t, t1, t3⟩ := Fw.late hD h hN (m + n0) (33 * (K + 6) + 31)
    have samep : ∀ k < t, withRx p0 (moreRx P x t c) k = withRx p0 x k := fun k hk => by
      unfold withRx moreRx; rw [if_pos hk]
    have htt : taken D (Machine.envs D (withRx p0 x)) t = bs := by
      simp only [taken_eq, ← envs_eq] at hslow m2 ⊢
      exact Fw.taken_rest hD (onLine h) ht hslow (bs := bs) (t := t) (fun d => (e1 d).trans hb) m2 (by omega) (by omega)
    obtain ⟨h', hW', he'⟩ := Fw.more_line (e' := Machine.envs D (withRx p0 (moreRx P x t c))) (c := c) (x := x) hD hP1 hP2 (fun _ => rfl)
      (fun _ => rfl) h hN he hW t3
    refine ⟨moreRx P x t c, _, _, h', hW', fun k hk => ?_, fun k => ?_, ?_, he'⟩
    · by_cases hkN : k = N
      · subst hkN
        have c1 : (moreLine P l k t c).edge k 0 = t := by simp [moreLine]
        rw [c1, taken_same (p := withRx p0 x) (p' := withRx p0 (moreRx P x t c)) samep, htt, Fw.moreChar_old (Nat.le_refl _), hb]
      · have hk' : k < N := by have : k < N + 1 := hk; omega
        rw [(Fw.moreLine_old hk').2, taken_same (p := withRx p0 x) (p' := withRx p0 (moreRx P x t c)) (fun j hj => samep j ?_),
          hslow k ((hN k).2 hk'), Fw.moreChar_old hk'.le]
        have a1 := t3 k hk'
        have a2 := Line.done_le h.fits ((hN k).2 hk')
        unfold Line.done at a2
        have a2' : l.edge k 0 + (2 + D / 2 + (8 + 1) * D) ≤ l.edge k 10 := a2
        omega
    · show k < N + 1 ↔ _
      rw [List.length_append, hNN]; rfl
    · rw [List.length_append, hNN, List.length_singleton, List.range_succ, List.map_append, Fw.moreChar_old (Nat.le_refl _), hb]
      simp [moreChar]

/-- So the conditions of `C103_dialogue` can be met: somebody with a keyboard 4 % too slow types ctrl-c, `9`, `0` and return
at the board with 9600 baud and 12 MHz, and gets rule 90. -/
example (L : Nat) : ∃ p st N st' M m q, L ≤ M ∧ Styles st ∧ Styles st' ∧
    utf8 (demoText 110 st N ++ "ctrl-c hit\nrule (default 110)? 90\r\n".toList ++ demoText 90 st' M) <+: frames 1250 (Machine.envs 1250 p) q ∧
    (Machine.at_ 1250 p m).sys.leds.leds = 90 := by
  obtain ⟨x, l, b, h, hW, hslow, hN, hb, -⟩ := C103_possible (D := 1250) (K := 1) (p0 := fun _ => {}) (P := 1300) (by decide)
    (fun n => ⟨n, by omega, by omega, rfl⟩) (by decide) (by decide) (by decide) (by decide) (by decide) [3, 57, 48, 13]
  have hb' : [b 0, b 1, b 2, b 3] = [3, 57, 48, 13] := hb
  obtain ⟨e0, e1, e2, e3⟩ : b 0 = 3 ∧ b 1 = 57 ∧ b 2 = 48 ∧ b 3 = 13 := by simpa using hb'
  obtain ⟨st, N, st', M, m, q, g0, g1, g2, g3, g4⟩ := C103_dialogue (D := 1250) (K := 1) (p := withRx (fun _ => {}) x) (by decide)
    (fun n => ⟨n, by omega, by omega, rfl⟩) (by decide) (by decide) (by decide) h hW (by decide) hslow hN e0 L
  rw [e1, e2, e3] at g3 g4
  have hr : ruleOf [57, 48, 13] = 90 := by decide
  rw [hr] at g3 g4
  refine ⟨_, st, N, st', M, m, q, g0, g1, g2, ?_, g4⟩
  have e : "ctrl-c hit\nrule (default 110)? 90\r\n".toList = "ctrl-c hit\nrule (default 110)? ".toList ++ [Char.ofNat (57 : BitVec 8).toNat,
      Char.ofNat (48 : BitVec 8).toNat, Char.ofNat (13 : BitVec 8).toNat, '\n'] := by decide
  rw [e, ← List.append_assoc]
  exact g3

end Sentinel
