import Verif.Props.Screen
/-!
# C106 on the CSR bus: the conditions can be met
-/

set_option linter.unusedSimpArgs false

namespace Sentinel

open Fw

namespace FwCsr

theorem line_same {D : Nat} {p p' : Nat → Pins} {T : Nat} (h : ∀ k < T, p' k = p k) :
    ∀ j ≤ T, line D (Machine.envs D p') j = line D (Machine.envs D p) j := fun j hj => by
  rw [line, line, ← at_sys, ← at_sys, at_same fun k hk => h k (by omega)]

end FwCsr

/-- **C106** (it is possible, CSR bus): whatever the characters are, and whatever the terminal, they can be typed in that way. -/
theorem C106_possible_csr {D : Nat} (hD : 2 ≤ D) {K : Nat} {p0 : Nat → Pins} (hK : ∀ n, ∃ m ≥ n, m < n + K ∧ (p0 m).go = true)
    (h1 : 63 * (10 * D + 15 * (K + 6) + 19) ≤ 142 * 2 ^ 14) (h2 : 33 * (K + 6) + 36 ≤ 9 * D) (h3 : 40 * (K + 6) + 45 ≤ 2 ^ 14)
    {P : Nat} (hP1 : 10 * D + 2 + D / 2 ≤ 10 * P + D) (hP2 : 10 * P ≤ 10 * D + D / 2 + 1)
    {D' : Nat} {a c : ℝ} (ha : 0 ≤ a) (hc : 0 < c) (hn : 10 * |c * D - D'| + 4 ≤ (D' : ℝ) / 2) (b : Nat → BitVec 8) (hb : b 0 = 3) (N : Nat) (hN4 : N ≤ 4) :
    ∃ x l, OnLine D (FwCsr.Machine.envs D (withRx p0 x)) l b ∧ (∀ k, l.sent k ↔ k < N) ∧
      (looking D' a c (FwCsr.line D (FwCsr.Machine.envs D (withRx p0 x)))).Watched l b ∧ ∀ k i, l.sent k → l.edge k i = l.edge k 0 + i * P := by
  induction N with
  | zero =>
    refine ⟨fun _ => true, ⟨fun _ => False, fun _ => [], fun _ _ => 0⟩, ⟨nofun, ⟨nofun, nofun, nofun, fun _ _ => rfl⟩, nofun⟩,
      fun k => by simp, nofun, nofun⟩
  | succ N ih =>
    obtain ⟨x, l, h, hN, hw, he⟩ := ih (by omega)
    have hK' : ∀ n, ∃ m ≥ n, m < n + K ∧ (withRx p0 x m).go = true := hK
    have hcon := looking_connected (D := D) (D' := D') ha hc hn (FwCsr.line D (FwCsr.Machine.envs D (withRx p0 x)))
    have hcon' := hcon
    have hw' := hw
    rw [FwCsr.line_eq, ← FwCsr.envs_eq] at hcon' hw'
    have hall := watched_waits hD ⟨by omega, FwCsr.go_soon (D := D) hK', h1, by omega, h3⟩ (by omega) (FwCsr.onLine h) (fun k hk => by have := (hN k).1 hk; omega) hb
      hcon' hw' 
    have hW : ∀ k, l.sent (k + 1) → l.done 8 D k + 9 * D ≤ l.edge (k + 1) 0 := fun k hk => (hall _ hk).2 k rfl
    -- sooner or later the prompt and the echoes are shown
    obtain ⟨n1, hn1⟩ : ∃ n1, ∀ k, k + 1 = N →
        utf8 ("ctrl-c hit\nrule (default 110)? ".toList ++ (List.range k).map fun i => Char.ofNat (b (i + 1)).toNat) <:+:
          (looking D' a c (FwCsr.line D (FwCsr.Machine.envs D (withRx p0 x)))).shown n1 := by
      cases N with
      | zero => exact ⟨0, fun k hk => absurd hk (by omega)⟩
      | succ M =>
        obtain ⟨hist, -, -, hh⟩ := C103_waits hD hK' h1 (by omega) h3 h hW (by omega) (fun k hk => by
          rw [FwCsr.taken_eq, ← FwCsr.envs_eq]; exact (hall k hk).1) hN
        obtain ⟨m, -, -, m1, -, q, -, m2⟩ := hh 0
        obtain ⟨n1, hn1⟩ := Fw.shown_of_frames (fun q n hq => (C105_csr (by omega) _ hcon).2 q n hq) m2
        refine ⟨n1, fun k hk => ?_⟩
        obtain rfl : k = M := by omega
        exact (said_prompt hb m1 (by omega)).trans hn1.isInfix
    -- the next one is typed then
    obtain ⟨t, t1, t3⟩ := late hD h hN ⌈(n1 : ℝ) / c⌉₊ (9 * D)
    have ht1 : (n1 : ℝ) ≤ a + c * t := by
      have s1 := Nat.le_ceil ((n1 : ℝ) / c)
      have s2 : ((⌈(n1 : ℝ) / c⌉₊ : Nat) : ℝ) ≤ t := by exact_mod_cast t1
      have s3 := s1.trans s2
      rw [div_le_iff₀ hc] at s3
      linarith
    have samep : ∀ k < t, withRx p0 (moreRx P x t (b N)) k = withRx p0 x k := fun k hk => by
      unfold withRx moreRx; rw [if_pos hk]
    obtain ⟨h', -, he'⟩ := more_line (e' := FwCsr.Machine.envs D (withRx p0 (moreRx P x t (b N)))) (c := b N) (x := x) hD hP1 hP2 (fun _ => rfl)
      (fun _ => rfl) h hN he hW t3
    have hmore : moreChar b N (b N) = b := by
      funext i
      unfold moreChar
      split
      · rename_i e; rw [e]
      · rfl
    rw [hmore] at h'
    have hshow : ∀ n : Nat, n ≤ a + c * t → (looking D' a c (FwCsr.line D (FwCsr.Machine.envs D (withRx p0 (moreRx P x t (b N)))))).shown n =
        (looking D' a c (FwCsr.line D (FwCsr.Machine.envs D (withRx p0 x)))).shown n := fun n hn =>
      looking_same hc (FwCsr.line_same (p := withRx p0 x) (p' := withRx p0 (moreRx P x t (b N))) samep) hn
    refine ⟨moreRx P x t (b N), _, h', fun k => Iff.rfl, fun k hk => ?_, he'⟩
    by_cases hkN : k + 1 = N
    · have c1 : (moreLine P l N t (b N)).edge (k + 1) 0 = t := by simp [moreLine, hkN]
      rw [c1]
      exact ⟨n1, ht1, by rw [hshow n1 ht1]; exact hn1 k hkN⟩
    · have hk' : k + 1 < N := by have : k + 1 < N + 1 := hk; omega
      rw [(moreLine_old hk').2]
      obtain ⟨n, s1, s2⟩ := hw k ((hN _).2 hk')
      have s1' : (n : ℝ) ≤ a + c * l.edge (k + 1) 0 := s1
      refine ⟨n, s1, ?_⟩
      rw [hshow n]
      · exact s2
      · have a1 := t3 _ hk'
        have a2 := Line.done_le h.fits ((hN _).2 hk')
        unfold Line.done at a2
        have a2' : l.edge (k + 1) 0 + (2 + D / 2 + (8 + 1) * D) ≤ l.edge (k + 1) 10 := a2
        have a3 : (l.edge (k + 1) 0 : ℝ) ≤ t := by exact_mod_cast (show l.edge (k + 1) 0 ≤ t by omega)
        have := mul_le_mul_of_nonneg_left a3 hc.le
        linarith

/-- As above, with the CSR bus: somebody with a keyboard 4 % too slow, who looks at a terminal with a clock of 48 MHz and 5000 cycles per bit, types ctrl-c, `9`, `0` and return, and gets
rule 90. -/
example (L : Nat) : ∃ x st N st' M n, L ≤ M ∧ Styles st ∧ Styles st' ∧
    utf8 (demoText 110 st N ++ "ctrl-c hit\nrule (default 110)? 90\r\n".toList ++ demoText 90 st' M) <+:
      (looking 5000 0 4.01 (FwCsr.line 1250 (FwCsr.Machine.envs 1250 (withRx (fun _ => {}) x)))).shown n := by
  obtain ⟨x, l, h, hN, hw, -⟩ := C106_possible_csr (D := 1250) (K := 1) (p0 := fun _ => {}) (P := 1300) (D' := 5000) (a := 0) (c := 4.01) (by decide)
    (fun n => ⟨n, by omega, by omega, rfl⟩) (by decide) (by decide) (by decide) (by decide) (by decide) (by norm_num) (by norm_num)
    (by rw [abs_of_nonneg (by norm_num)]; norm_num) (fun k => [3, 57, 48, 13].getD k 0) rfl 4 (Nat.le_refl _)
  obtain ⟨st, N, st', M, n, m, g0, g1, g2, g3, -⟩ := C106_dialogue_csr (D := 1250) (K := 1) (p := withRx (fun _ => {}) x) (by decide)
    (fun n => ⟨n, by omega, by omega, rfl⟩) (by decide) (by decide) (by decide) h hN rfl
    (looking_connected (D' := 5000) (a := 0) (c := 4.01) (by norm_num) (by norm_num)
      (by rw [abs_of_nonneg (by norm_num)]; norm_num) _) hw L
  have hr : ruleOf [57, 48, 13] = 90 := by decide
  change utf8 (_ ++ _ ++ [Char.ofNat (57 : BitVec 8).toNat, Char.ofNat (48 : BitVec 8).toNat, Char.ofNat (13 : BitVec 8).toNat, '\n'] ++
    demoText (ruleOf [57, 48, 13]) st' M) <+: _ at g3
  rw [hr] at g3
  refine ⟨x, st, N, st', M, n, g0, g1, g2, ?_⟩
  have e : "ctrl-c hit\nrule (default 110)? 90\r\n".toList = "ctrl-c hit\nrule (default 110)? ".toList ++ [Char.ofNat (57 : BitVec 8).toNat,
      Char.ofNat (48 : BitVec 8).toNat, Char.ofNat (13 : BitVec 8).toNat, '\n'] := by decide
  rw [e, ← List.append_assoc]
  exact g3

end Sentinel
