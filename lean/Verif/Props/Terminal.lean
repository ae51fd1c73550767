import Verif.Props.FirmwareLine
import Verif.Props.FirmwareLineCsr
import Verif.Spec.Terminal
/-!
# C105: a terminal with its own clock shows what the firmware says
-/

set_option linter.unusedSimpArgs false

namespace Sentinel

open Fw

namespace Fw
variable {D : Nat} {e : Nat → Env}

/-- The transmitter of the board. -/
def board (D : Nat) (e : Nat → Env) : Sender :=
  { n := 8, D := D, rdy := fun k => (Sys.at_ D e k).ser.txRdy (reqs D e k), data := fun k => byteBits (reqs D e k).datW }

theorem board_tx (n : Nat) : (board D e).tx n = (Sys.at_ D e n).ser.tx := link_tx (fun _ => true) n

theorem board_takes (n : Nat) : (board D e).Takes n ↔ frameStarts D e n = true := by
  rw [← link_accepts (fun _ => true)]
  rfl

/-- The `k`-th byte on the line. -/
noncomputable def sentByte (D : Nat) (e : Nat → Env) (k : Nat) : BitVec 8 := bitsByte ((board D e).data ((board D e).takes k))

theorem frames_board (hD : 0 < D) (n : Nat) : frames D e n = (List.range (Nat.count (board D e).Takes n)).map (sentByte D e) := by
  induction n with
  | zero => rfl
  | succ n ih =>
    rw [frames, ih, Nat.count_succ]
    by_cases h : frameStarts D e n = true
    · rw [if_pos h, if_pos ((board_takes n).2 h), List.range_succ, List.map_append, List.map_singleton, sentByte,
        Sender.takes_eq ((board_takes n).2 h)]
      have := lineByte_eq hD (fun _ => true) h
      rw [show (board D e).data n = (link D e fun _ => true).txData n from rfl, ← this, bitsByte_byteBits]
    · rw [if_neg h, if_neg (fun h' => h ((board_takes n).1 h')), List.append_nil, Nat.add_zero]

theorem taken_before {s : Sender} {k n : Nat} (h : k < Nat.count s.Takes n) : ∃ t < n, s.Takes t ∧ Nat.count s.Takes t = k := by
  induction n with
  | zero => simp at h
  | succ n ih =>
    rw [Nat.count_succ] at h
    by_cases hn : s.Takes n
    · rw [if_pos hn] at h
      by_cases hk : k = Nat.count s.Takes n
      · exact ⟨n, by omega, hn, hk.symm⟩
      · obtain ⟨t, h1, h2⟩ := ih (by omega)
        exact ⟨t, by omega, h2⟩
    · rw [if_neg hn] at h
      obtain ⟨t, h1, h2⟩ := ih h
      exact ⟨t, by omega, h2⟩

theorem sent_iff (k : Nat) {a c : ℝ} (n : Nat) : ((board D e).wave a c).sent k ∧ (board D e).takes k < n ↔ k < Nat.count (board D e).Takes n := by
  constructor
  · rintro ⟨⟨t, h1, rfl⟩, h2⟩
    rw [Sender.takes_eq h1] at h2
    have := Nat.count_strict_mono h1 h2
    exact this
  · intro h
    obtain ⟨t, h1, h2, h3⟩ := taken_before h
    exact ⟨⟨t, h2, h3⟩, by rw [← h3, Sender.takes_eq h2]; exact h1⟩

end Fw

/-- **C105** (the line is shown): a terminal that is connected to the board, with its own clock, shows the bytes of the frames on the line,
in that order, and nothing else: never one whose frame has not begun nine and a half bits before, and each one cycle later, the
time the signal takes to be sampled not included. -/
theorem C105_shows {D : Nat} (hD : 0 < D) (e : Nat → Env) {t : Terminal} {W : Nat} (h : t.Connected D (line D e) W) :
    (∀ n q : Nat, n ≤ t.a + t.c * q + (2 + t.D / 2 + 9 * t.D : Nat) → t.shown n <+: frames D e q) ∧
    ∀ q n : Nat, t.a + t.c * q + (3 + t.D / 2 + 9 * t.D : Nat) ≤ n → frames D e q <+: t.shown n := by
  have hnear := h.near
  have hhalf1 : (2 : ℝ) * (t.D / 2 : Nat) ≤ t.D := by exact_mod_cast Nat.mul_div_le t.D 2
  have hhalf2 : (t.D : ℝ) ≤ 2 * (t.D / 2 : Nat) + 1 := by
    have : t.D ≤ 2 * (t.D / 2) + 1 := by omega
    exact_mod_cast this
  push_cast at hnear
  have hW0 : (0 : ℝ) ≤ W := by positivity
  have hD2 : 2 ≤ t.D := by
    by_contra hcon
    have h1 : (t.D : ℝ) ≤ 1 := by exact_mod_cast (show t.D ≤ 1 by omega)
    have : 0 ≤ 10 * |t.c * D - t.D| := by positivity
    linarith
  set s := board D e with hs
  have hd : s.Drives t.a t.c t.x := ⟨h.rest, fun n j h1 h2 => by rw [h.sees n j h1 h2, board_tx]; rfl⟩
  have hdata : ∀ k, (s.data k).length = s.n := fun k => byteBits_length _
  have hl := s.levels hD hdata h.clock hd
  have hP : ((s.n : ℝ) + 2) * |t.c * s.D - t.D| ≤ (t.D : ℝ) / 2 - 3 := by
    show (((8 : Nat) : ℝ) + 2) * |t.c * (D : ℝ) - t.D| ≤ _
    push_cast
    linarith
  have hf : (s.wave t.a t.c).Fits s.n t.D := Wave.fits_period (P := t.c * s.D) (fun k i _ => by
    show t.a + t.c * ((s.takes k + 1 + i * s.D : Nat) : ℝ) = t.a + t.c * ((s.takes k + 1 + 0 * s.D : Nat) : ℝ) + _
    push_cast; ring) hP
  have hpos : ∀ k i, 0 ≤ (s.wave t.a t.c).edge k i := fun k i => by
    show 0 ≤ t.a + t.c * ((s.takes k + 1 + i * s.D : Nat) : ℝ)
    have := h.start
    have := h.clock
    positivity
  have hf' := Wave.line_fits (fun k _ => hpos k 0) hf
  have hl' := Wave.line_levels hl
  -- each frame is over, and taken, when the next begins
  have hgap : ∀ k, (s.wave t.a t.c).line.sent (k + 1) → (s.wave t.a t.c).line.done 8 t.D k + W ≤ (s.wave t.a t.c).line.edge (k + 1) 0 := by
    intro k hk
    have h2 := (hl'.order k hk).2
    refine le_trans ?_ h2
    have e0 : (s.wave t.a t.c).edge k (8 + 2) = (s.wave t.a t.c).edge k 0 + 10 * (t.c * D) := by
      show t.a + t.c * ((s.takes k + 1 + (8 + 2) * D : Nat) : ℝ) = t.a + t.c * ((s.takes k + 1 + 0 * D : Nat) : ℝ) + _
      push_cast; ring
    have c0 := Nat.ceil_lt_add_one (hpos k 0)
    have c1 := Nat.le_ceil ((s.wave t.a t.c).edge k (8 + 2))
    have ab := (abs_le.1 (show |t.c * (D : ℝ) - t.D| ≤ |t.c * (D : ℝ) - t.D| from le_rfl)).1
    have : ((⌈(s.wave t.a t.c).edge k 0⌉₊ + (2 + t.D / 2 + (8 + 1) * t.D) + W : Nat) : ℝ) ≤ (⌈(s.wave t.a t.c).edge k (8 + 2)⌉₊ : Nat) := by
      push_cast
      linarith
    exact_mod_cast this
  have ht := C100_quick (n := 8) hD2 hl' hf' h.takes hgap
  obtain ⟨h1, -, h3, -⟩ := C100_receive (n := 8) hD2 hl' hf' ht
  have hsh := fun n => line_list (D := t.D) (l := (s.wave t.a t.c).line) (b := sentByte D e) (x := t.x)
    (fun k _ => (show s.data (s.takes k) = byteBits (bitsByte (s.data (s.takes k))) by
      rw [show s.data (s.takes k) = byteBits (reqs D e (s.takes k)).datW from rfl, bitsByte_byteBits])) hl' hf'
    (rdy := fun n => (t.rx n).rdy) (data := fun n => (t.rx n).data) h1 (fun k hk => (h3 k _ hk (Nat.le_refl _) (fun j a b => by omega)).1)
    (R := t.shown) (r0 := []) rfl (fun _ => rfl) n
  simp only [List.nil_append] at hsh
  have hle : ∀ j k : Nat, j ≤ k → (List.range j).map (sentByte D e) <+: (List.range k).map (sentByte D e) := fun j k hjk => by
    obtain ⟨d, rfl⟩ := Nat.exists_eq_add_of_le hjk
    have e : List.range (j + d) = List.range j ++ (List.range d).map (j + ·) := List.range_add
    rw [e, List.map_append]
    exact List.prefix_append _ _
  have ecyc : ∀ k, (s.wave t.a t.c).edge k 0 = t.a + t.c * ((s.takes k + 1 : Nat) : ℝ) := fun k => by
    show t.a + t.c * ((s.takes k + 1 + 0 * s.D : Nat) : ℝ) = _
    rw [Nat.zero_mul, Nat.add_zero]
  constructor
  · intro n q hnq
    obtain ⟨j, j1, j2⟩ := hsh n
    rw [j1, frames_board hD, ← hs]
    refine hle _ _ ?_
    by_contra hc
    obtain ⟨g1, g2⟩ := (j2 _).1 (Nat.lt_of_not_le hc)
    have g3 := Nat.le_ceil ((s.wave t.a t.c).edge (Nat.count s.Takes q) 0)
    rw [ecyc] at g3
    have g5 : ((s.wave t.a t.c).line.edge (Nat.count s.Takes q) 0 : ℝ) + (2 + t.D / 2 + 9 * t.D : Nat) ≤ n := by exact_mod_cast g2
    have g6 : (s.wave t.a t.c).line.edge (Nat.count s.Takes q) 0 = ⌈t.a + t.c * ((s.takes (Nat.count s.Takes q) + 1 : Nat) : ℝ)⌉₊ := by
      show ⌈(s.wave t.a t.c).edge _ 0⌉₊ = _
      rw [ecyc]
    have g7 : t.c * ((s.takes (Nat.count s.Takes q) + 1 : Nat) : ℝ) ≤ t.c * q := by
      rw [g6] at g5
      have := Nat.le_ceil (t.a + t.c * ((s.takes (Nat.count s.Takes q) + 1 : Nat) : ℝ))
      linarith
    have g8 := le_of_mul_le_mul_left g7 h.clock
    have g9 : s.takes (Nat.count s.Takes q) + 1 ≤ q := by exact_mod_cast g8
    have := (sent_iff (a := t.a) (c := t.c) (Nat.count s.Takes q) q).1 ⟨g1, show s.takes _ < q by omega⟩
    rw [← hs] at this
    omega
  · intro q n hqn
    obtain ⟨j, j1, j2⟩ := hsh n
    rw [j1, frames_board hD, ← hs]
    refine hle _ _ ?_
    by_contra hc
    obtain ⟨g1, g2⟩ := (sent_iff (a := t.a) (c := t.c) j q).2 (Nat.lt_of_not_le hc)
    rw [← hs] at g1 g2
    refine absurd ((j2 j).2 ⟨g1, ?_⟩) (Nat.lt_irrefl _)
    have c0 := Nat.ceil_lt_add_one (hpos j 0)
    rw [ecyc] at c0
    have g3 : ((s.takes j + 1 : Nat) : ℝ) ≤ q := by exact_mod_cast (show s.takes j + 1 ≤ q by omega)
    have g4 : t.c * ((s.takes j + 1 : Nat) : ℝ) ≤ t.c * q := mul_le_mul_of_nonneg_left g3 h.clock.le
    have g5 : ((s.wave t.a t.c).line.edge j 0 : ℝ) < t.a + t.c * ((s.takes j + 1 : Nat) : ℝ) + 1 := by
      show ((⌈(s.wave t.a t.c).edge j 0⌉₊ : Nat) : ℝ) < _
      rw [ecyc]; exact c0
    have : (((s.wave t.a t.c).line.edge j 0 + (2 + t.D / 2 + (8 + 1) * t.D) : Nat) : ℝ) ≤ n := by
      push_cast at hqn g4 g5 ⊢
      linarith
    exact_mod_cast this

/-- **C105** (it says what it is told): what the terminal shows nine and a half bits after the beginning of the cycle `q` of the board, is the beginning of what
`main` has written by then. -/
theorem C105_says {D : Nat} (hD : 0 < D) (e : Nat → Env) {t : Terminal} {W : Nat} (h : t.Connected D (line D e) W) {n q : Nat}
    (hn : n ≤ t.a + t.c * q + (2 + t.D / 2 + 9 * t.D : Nat)) : t.shown n <+: calls D e q :=
  ((C105_shows hD e h).1 n q hn).trans (C62_order hD e q)

/-- **C105** (CSR bus): the same is true of the board with the CSR bus. -/
theorem C105_csr {D : Nat} (hD : 0 < D) (e : Nat → Env) {t : Terminal} {W : Nat} (h : t.Connected D (FwCsr.line D e) W) :
    (∀ n q : Nat, n ≤ t.a + t.c * q + (2 + t.D / 2 + 9 * t.D : Nat) → t.shown n <+: FwCsr.frames D e q ∧ t.shown n <+: FwCsr.calls D e q) ∧
    ∀ q n : Nat, t.a + t.c * q + (3 + t.D / 2 + 9 * t.D : Nat) ≤ n → FwCsr.frames D e q <+: t.shown n := by
  rw [FwCsr.line_eq] at h
  obtain ⟨h1, h2⟩ := C105_shows hD _ h
  simp only [FwCsr.frames_eq, FwCsr.calls_eq]
  exact ⟨fun n q hn => ⟨h1 n q hn, (h1 n q hn).trans (C62_order hD _ q)⟩, h2⟩

/-- What is on the line sooner or later is shown sooner or later. -/
theorem Fw.shown_of_frames {fr : Nat → List (BitVec 8)} {t : Terminal}
    (h : ∀ q n : Nat, t.a + t.c * q + (3 + t.D / 2 + 9 * t.D : Nat) ≤ n → fr q <+: t.shown n) {T : List (BitVec 8)} {q : Nat}
    (hq : T <+: fr q) : ∃ n, T <+: t.shown n :=
  ⟨_, hq.trans (h q _ (Nat.le_ceil _))⟩

theorem Fw.demo_long (r : BitVec 8) (st : Nat → Nat) (N : Nat) : N ≤ (utf8 (demoText r st N)).length := by
  have hcut : ∀ N, utf8 (demoText r st (N + 1)) = utf8 (demoText r st N) ++ utf8 (rowText r (st (N + 1)) (N + 1)) := fun N => by
    rw [demoText, demoText, List.range_succ (n := N + 1)]
    simp [utf8]
  have hpos : ∀ s j, 0 < (utf8 (rowText r s j)).length := fun s j => by
    rw [rowText, utf8, List.flatMap_append, List.length_append]
    exact Nat.lt_of_lt_of_le (by decide) (Nat.le_add_left _ _)
  induction N with
  | zero => exact Nat.zero_le _
  | succ N ih =>
    rw [hcut, List.length_append]
    have := hpos (st (N + 1)) (N + 1)
    omega

/-- What is shown is the beginning of a text that gets on the line for ever. -/
theorem Fw.shown_demo {D : Nat} {e : Nat → Env} {t : Terminal} {W : Nat} (h : t.Connected D (line D e) W)
    (g1 : ∀ n q : Nat, n ≤ t.a + t.c * q + (2 + t.D / 2 + 9 * t.D : Nat) → t.shown n <+: frames D e q) (hm : ∀ N, ∃ m, utf8 (demoText 110 (fun _ => 0) N) <+: frames D e m) (n : Nat) :
    ∃ N, t.shown n <+: utf8 (demoText 110 (fun _ => 0) N) := by
  obtain ⟨q, hq⟩ : ∃ q : Nat, (n : ℝ) ≤ t.a + t.c * q + (2 + t.D / 2 + 9 * t.D : Nat) := by
    obtain ⟨q, hq⟩ := exists_nat_gt ((n : ℝ) / t.c)
    refine ⟨q, ?_⟩
    rw [div_lt_iff₀ h.clock] at hq
    have := h.start
    have h0 : (0 : ℝ) ≤ (2 + t.D / 2 + 9 * t.D : Nat) := Nat.cast_nonneg _
    linarith
  have hs := g1 n q hq
  obtain ⟨m, hm⟩ := hm (frames D e q).length
  refine ⟨(frames D e q).length, hs.trans ?_⟩
  have hmono : ∀ i d, frames D e i <+: frames D e (i + d) := fun i d => by
    induction d with
    | zero => exact List.prefix_rfl
    | succ d ih => exact ih.trans (by rw [← Nat.add_assoc, frames]; exact List.prefix_append _ _)
  have a1 := hmono q (max q m - q)
  have a2 := hm.trans (hmono m (max q m - m))
  rw [show q + (max q m - q) = max q m by omega] at a1
  rw [show m + (max q m - m) = max q m by omega] at a2
  exact List.prefix_of_prefix_length_le a1 a2 (Fw.demo_long _ _ _)

/-- **C105** (nobody at the board): let the processor be fast enough, and nobody use the keyboard or the button. The terminal shows the
demonstration of rule 110, one line after the other, for ever, and nothing else. -/
theorem C105_unattended {D : Nat} (hD : 0 < D) {K : Nat} {p : Nat → Pins} (hK : ∀ n, ∃ m ≥ n, m < n + K ∧ (p m).go = true)
    (h1 : 63 * (10 * D + 15 * K + 19) ≤ 142 * 2 ^ 14) (h2 : 32 * K + 36 ≤ 9 * D) (h3 : 40 * K + 45 ≤ 2 ^ 14)
    (hr : ∀ n, (p n).rx = true) (hb : ∀ n, (p n).gpioI.getLsbD 0 = false)
    {t : Terminal} {W : Nat} (h : t.Connected D (line D (Machine.envs D p)) W) :
    (∀ N, ∃ n, utf8 (demoText 110 (fun _ => 0) N) <+: t.shown n) ∧ ∀ n, ∃ N, t.shown n <+: utf8 (demoText 110 (fun _ => 0) N) := by
  obtain ⟨g1, g2⟩ := C105_shows hD _ h
  have hm := C69_unattended hD hK h1 h2 h3 hr hb
  exact ⟨fun N => (hm N).elim fun m hm => Fw.shown_of_frames g2 hm, Fw.shown_demo h g1 hm⟩

/-- **C105** (nobody at the board, CSR bus): the same with the CSR bus. -/
theorem C105_unattended_csr {D : Nat} (hD : 0 < D) {K : Nat} {p : Nat → Pins} (hK : ∀ n, ∃ m ≥ n, m < n + K ∧ (p m).go = true)
    (h1 : 63 * (10 * D + 15 * (K + 6) + 19) ≤ 142 * 2 ^ 14) (h2 : 32 * (K + 6) + 36 ≤ 9 * D) (h3 : 40 * (K + 6) + 45 ≤ 2 ^ 14)
    (hr : ∀ n, (p n).rx = true) (hb : ∀ n, (p n).gpioI.getLsbD 0 = false)
    {t : Terminal} {W : Nat} (h : t.Connected D (FwCsr.line D (FwCsr.Machine.envs D p)) W) :
    (∀ N, ∃ n, utf8 (demoText 110 (fun _ => 0) N) <+: t.shown n) ∧ ∀ n, ∃ N, t.shown n <+: utf8 (demoText 110 (fun _ => 0) N) := by
  have hm := C82_unattended hD hK h1 h2 h3 hr hb
  simp only [FwCsr.frames_eq] at hm
  rw [FwCsr.line_eq] at h
  obtain ⟨g1, g2⟩ := C105_shows hD _ h
  exact ⟨fun N => (hm N).elim fun m hm => Fw.shown_of_frames g2 hm, Fw.shown_demo h g1 hm⟩

/-- **C105** (the dialogue): the board, the keyboard and the terminal have three different clocks. Somebody types, as in
`C102_dialogue`, ctrl-c and three more characters; the terminal shows the prompt, their echo, and the demonstration of the rule
that they make, for as many lines as one likes. -/
theorem C105_dialogue {D : Nat} (hD : 2 ≤ D) {K : Nat} {p : Nat → Pins} (hK : ∀ n, ∃ m ≥ n, m < n + K ∧ (p m).go = true)
    (h1 : 63 * (10 * D + 15 * K + 19) ≤ 142 * 2 ^ 14) (h2 : 32 * K + 36 ≤ 9 * D) (h3 : 40 * K + 45 ≤ 2 ^ 14)
    {l : Line} {b : Nat → BitVec 8} (h : OnLine D (Machine.envs D p) l b)
    {W : Nat} (hW : ∀ k, l.sent (k + 1) → l.done 8 D k + W ≤ l.edge (k + 1) 0) (h4 : 33 * K + 31 ≤ W)
    (hslow : ∀ k, l.sent k → taken D (Machine.envs D p) (l.edge k 0) = (List.range k).map b) (hN : ∀ k, l.sent k ↔ k < 4)
    (hb : b 0 = 3) {t : Terminal} {W' : Nat} (ht : t.Connected D (line D (Machine.envs D p)) W') (L : Nat) :
    ∃ st N st' M n, L ≤ M ∧ Styles st ∧ Styles st' ∧
      utf8 (demoText 110 st N ++ "ctrl-c hit\nrule (default 110)? ".toList ++ [Char.ofNat (b 1).toNat, Char.ofNat (b 2).toNat, Char.ofNat (b 3).toNat, '\n'] ++
        demoText (ruleOf [b 1, b 2, b 3]) st' M) <+: t.shown n := by
  obtain ⟨st, N, st', M, m, q, g1, g2, g3, g4, -⟩ := C102_dialogue hD hK h1 h2 h3 h hW h4 hslow hN hb L
  obtain ⟨n, hn⟩ := Fw.shown_of_frames (C105_shows (by omega) _ ht).2 g4
  exact ⟨st, N, st', M, n, g1, g2, g3, hn⟩

/-- **C105** (the dialogue, CSR bus): the same with the CSR bus. -/
theorem C105_dialogue_csr {D : Nat} (hD : 2 ≤ D) {K : Nat} {p : Nat → Pins} (hK : ∀ n, ∃ m ≥ n, m < n + K ∧ (p m).go = true)
    (h1 : 63 * (10 * D + 15 * (K + 6) + 19) ≤ 142 * 2 ^ 14) (h2 : 32 * (K + 6) + 36 ≤ 9 * D) (h3 : 40 * (K + 6) + 45 ≤ 2 ^ 14)
    {l : Line} {b : Nat → BitVec 8} (h : OnLine D (FwCsr.Machine.envs D p) l b)
    {W : Nat} (hW : ∀ k, l.sent (k + 1) → l.done 8 D k + W ≤ l.edge (k + 1) 0) (h4 : 33 * (K + 6) + 31 ≤ W)
    (hslow : ∀ k, l.sent k → FwCsr.taken D (FwCsr.Machine.envs D p) (l.edge k 0) = (List.range k).map b) (hN : ∀ k, l.sent k ↔ k < 4)
    (hb : b 0 = 3) {t : Terminal} {W' : Nat} (ht : t.Connected D (FwCsr.line D (FwCsr.Machine.envs D p)) W') (L : Nat) :
    ∃ st N st' M n, L ≤ M ∧ Styles st ∧ Styles st' ∧
      utf8 (demoText 110 st N ++ "ctrl-c hit\nrule (default 110)? ".toList ++ [Char.ofNat (b 1).toNat, Char.ofNat (b 2).toNat, Char.ofNat (b 3).toNat, '\n'] ++
        demoText (ruleOf [b 1, b 2, b 3]) st' M) <+: t.shown n := by
  obtain ⟨st, N, st', M, m, q, g1, g2, g3, g4, -⟩ := C103_dialogue hD hK h1 h2 h3 h hW h4 hslow hN hb L
  obtain ⟨n, hn⟩ := Fw.shown_of_frames (fun q n hq => (C105_csr (by omega) _ ht).2 q n hq) g4
  exact ⟨st, N, st', M, n, g1, g2, g3, hn⟩

/-! ## The conditions can be met -/

namespace Fw

/-- A terminal connected to a board, its clock being `c` times as fast and `a` cycles ahead, behind which every character is taken at once. -/
noncomputable def looking (D' : Nat) (a c : ℝ) (line : Nat → Bool) : Terminal :=
  { D := D', x := fun n => open Classical in if (n : ℝ) < a then true else line ⌊(n - a) / c⌋₊, take := fun _ => true, a := a, c := c }

theorem looking_connected {D D' : Nat} {a c : ℝ} (ha : 0 ≤ a) (hc : 0 < c) (hn : 10 * |c * D - D'| + 4 ≤ (D' : ℝ) / 2) (line : Nat → Bool) :
    (looking D' a c line).Connected D line 1 where
  start := ha
  clock := hc
  rest n h := by
    show (if (n : ℝ) < a then true else _) = true
    exact if_pos h
  sees n j h1 h2 := by
    change a + c * j ≤ n at h1
    change n < a + c * (j + 1 : Nat) at h2
    show (if (n : ℝ) < a then true else line ⌊(n - a) / c⌋₊) = line j
    have : 0 ≤ c * (j : ℝ) := by positivity
    rw [if_neg (by linarith), (Nat.floor_eq_iff (div_nonneg (by linarith) hc.le)).2]
    constructor
    · rw [le_div_iff₀ hc]; linarith
    · rw [div_lt_iff₀ hc]; push_cast at h2; linarith
  near := by
    show 10 * |c * D - D'| + ((1 + 3 : Nat) : ℝ) ≤ (D' : ℝ) / 2
    push_cast
    linarith
  takes n hr := by
    -- a character is presented in between frames only
    have inv : ∀ m, ((looking D' a c line).rx m).rdy = true → ((looking D' a c line).rx m).count = 0 := fun m => by
      induction m with
      | zero => exact fun h => absurd (show false = true from h) (by decide)
      | succ m ih =>
        show (UartRx.step D' ((looking D' a c line).rx m) ((looking D' a c line).x m) true).rdy = true →
          (UartRx.step D' ((looking D' a c line).rx m) ((looking D' a c line).x m) true).count = 0
        generalize (looking D' a c line).rx m = s at ih
        generalize (looking D' a c line).x m = y
        unfold UartRx.step
        split
        · cases y <;> simp
        · rename_i h0
          split
          · intro h; exact absurd (ih h) h0
          · intro h
            by_cases h1 : s.count = 1
            · simp [h1]
            · simp only [if_neg h1] at h
              exact absurd (ih h) h0
    refine ⟨n + 1, by omega, by omega, ?_⟩
    show (UartRx.step D' ((looking D' a c line).rx n) ((looking D' a c line).x n) true).rdy = false
    unfold UartRx.step
    rw [if_pos (inv n hr)]
    cases (looking D' a c line).x n <;> simp

end Fw

/-- A terminal whose clock has 1250 cycles per bit too, but is 3 % faster than that of the board, and the board alone. -/
example (N : Nat) : ∃ n, utf8 (demoText 110 (fun _ => 0) N) <+: (looking 1250 (1 / 3) 1.03 (line 1250 (Machine.envs 1250 fun _ => {}))).shown n :=
  (C105_unattended (D := 1250) (K := 1) (p := fun _ => {}) (by decide) (fun n => ⟨n, by omega, by omega, rfl⟩) (by decide) (by decide) (by decide)
    (fun _ => rfl) (fun _ => rfl) (looking_connected (D' := 1250) (a := 1 / 3) (c := 1.03) (by norm_num) (by norm_num)
      (by rw [abs_of_nonneg (by norm_num)]; norm_num) _)).1 N

/-- A terminal with a clock of 48 MHz and 5000 cycles per bit, which sees that somebody with a keyboard 4 % too slow types ctrl-c, `9`, `0` and return at the board, and gets
rule 90. -/
example (L : Nat) : ∃ x st N st' M n, L ≤ M ∧ Styles st ∧ Styles st' ∧
    utf8 (demoText 110 st N ++ "ctrl-c hit\nrule (default 110)? 90\r\n".toList ++ demoText 90 st' M) <+:
      (looking 5000 0 4.01 (line 1250 (Machine.envs 1250 (withRx (fun _ => {}) x)))).shown n := by
  obtain ⟨x, l, b, h, hW, hslow, hN, hb, -⟩ := C102_possible (D := 1250) (K := 1) (p0 := fun _ => {}) (P := 1300) (by decide)
    (fun n => ⟨n, by omega, by omega, rfl⟩) (by decide) (by decide) (by decide) (by decide) (by decide) [3, 57, 48, 13]
  have hb' : [b 0, b 1, b 2, b 3] = [3, 57, 48, 13] := hb
  obtain ⟨e0, e1, e2, e3⟩ : b 0 = 3 ∧ b 1 = 57 ∧ b 2 = 48 ∧ b 3 = 13 := by simpa using hb'
  obtain ⟨st, N, st', M, n, g0, g1, g2, g3⟩ := C105_dialogue (D := 1250) (K := 1) (p := withRx (fun _ => {}) x) (by decide)
    (fun n => ⟨n, by omega, by omega, rfl⟩) (by decide) (by decide) (by decide) h hW (by decide) hslow hN e0
    (looking_connected (D' := 5000) (a := 0) (c := 4.01) (by norm_num) (by norm_num)
      (by rw [abs_of_nonneg (by norm_num)]; norm_num) _) L
  rw [e1, e2, e3] at g3
  have hr : ruleOf [57, 48, 13] = 90 := by decide
  rw [hr] at g3
  refine ⟨x, st, N, st', M, n, g0, g1, g2, ?_⟩
  have e : "ctrl-c hit\nrule (default 110)? 90\r\n".toList = "ctrl-c hit\nrule (default 110)? ".toList ++ [Char.ofNat (57 : BitVec 8).toNat,
      Char.ofNat (48 : BitVec 8).toNat, Char.ofNat (13 : BitVec 8).toNat, '\n'] := by decide
  rw [e, ← List.append_assoc]
  exact g3

end Sentinel
