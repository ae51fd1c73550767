import Verif.Props.Line
import Verif.Props.AppTypist
/-!
# C101: the Rust firmware with a keyboard that has its own clock
-/

set_option linter.unusedSimpArgs false

namespace Sentinel

open Fw

namespace Fw
variable {D : Nat} {e : Nat → Env}

/-- The characters `b` come to the serial input over the line `l`. -/
structure OnLine (D : Nat) (e : Nat → Env) (l : Line) (b : Nat → BitVec 8) : Prop where
  char : ∀ k, l.sent k → l.char k = byteBits (b k)
  levels : l.Levels 8 fun n => (e n).rx
  fits : l.Fits 8 D

theorem rx_run (n : Nat) : (Sys.at_ D e n).ser.rx =
    (UartRx.reset 8).run D (fun n => (e n).rx) (fun k => WbSerial.rxAck (reqs D e k)) n := by
  induction n with
  | zero => rfl
  | succ n ih =>
    rw [UartRx.run, ← ih]; rfl

/-- The list of what has been received, from what the receiver does. -/
theorem line_list {l : Line} {b : Nat → BitVec 8} (hc : ∀ k, l.sent k → l.char k = byteBits (b k)) {x : Nat → Bool} (hl : l.Levels 8 x)
    (hf : l.Fits 8 D) {rdy : Nat → Bool} {data : Nat → List Bool}
    (h1 : ∀ m, rdy m = false ∧ rdy (m + 1) = true ↔ ∃ k, l.sent k ∧ m + 1 = l.done 8 D k)
    (h3 : ∀ k, l.sent k → data (l.done 8 D k) = l.char k) {R : Nat → List (BitVec 8)} {r0 : List (BitVec 8)} (hR0 : R 0 = r0)
    (hR : ∀ n, R (n + 1) = R n ++ if !rdy n && rdy (n + 1) then [bitsByte (data (n + 1))] else []) (n : Nat) :
    ∃ j, R n = r0 ++ (List.range j).map b ∧ ∀ k, k < j ↔ l.sent k ∧ l.done 8 D k ≤ n := by
  have mono : ∀ {j k}, j < k → l.sent k → l.done 8 D j < l.done 8 D k := fun {j k} hjk hk => by
    have := Line.edge_lt hf hl hjk hk
    unfold Line.done at *
    omega
  induction n with
  | zero =>
    refine ⟨0, by simpa using hR0, fun k => ⟨fun h => by omega, fun ⟨_, h⟩ => ?_⟩⟩
    unfold Line.done at h
    omega
  | succ n ih =>
    obtain ⟨j, i1, i2⟩ := ih
    rw [hR, i1]
    by_cases hd : rdy n = false ∧ rdy (n + 1) = true
    · rw [if_pos (by simp [hd])]
      obtain ⟨k, hk, hkn⟩ := (h1 n).1 hd
      have hkj : k = j := by
        rcases Nat.lt_trichotomy k j with h' | h' | h'
        · have := ((i2 k).1 h').2; omega
        · exact h'
        · have hj := Line.sent_mono hl h'.le hk
          have := mono h' hk
          have := (i2 j).2 ⟨hj, by omega⟩
          omega
      subst hkj
      refine ⟨k + 1, ?_, fun i => ?_⟩
      · rw [List.range_succ, List.map_append, ← List.append_assoc, hkn, h3 k hk, hc k hk, bitsByte_byteBits]
        rfl
      · rw [Nat.lt_succ_iff_lt_or_eq, i2 i]
        constructor
        · rintro (⟨a, b⟩ | rfl)
          · exact ⟨a, by omega⟩
          · exact ⟨hk, by omega⟩
        · rintro ⟨a, c⟩
          rcases Nat.lt_trichotomy i k with h' | h' | h'
          · exact .inl ((i2 i).1 h')
          · exact .inr h'
          · have := mono h' a; omega
    · rw [if_neg (by simpa using hd), List.append_nil]
      refine ⟨j, rfl, fun k => (i2 k).trans (and_congr_right fun hk => ⟨fun h => by omega, fun h' => ?_⟩)⟩
      by_contra hc
      exact hd ((h1 n).2 ⟨k, hk, by omega⟩)

/-- What has been received, if each character is read in time. -/
theorem received_line (hD : 2 ≤ D) {l : Line} {b : Nat → BitVec 8} (h : OnLine D e l b)
    (ht : l.Taken 8 D fun k => WbSerial.rxAck (reqs D e k)) (n : Nat) :
    ∃ j, received D e n = (List.range j).map b ∧ ∀ k, k < j ↔ l.sent k ∧ l.done 8 D k ≤ n := by
  obtain ⟨h1, -, h3, -⟩ := C100_receive hD h.levels h.fits ht
  simp only [← rx_run] at h1 h3
  exact line_list h.char h.levels h.fits (rdy := fun n => (Sys.at_ D e n).ser.rx.rdy) (data := fun n => (Sys.at_ D e n).ser.rx.data) h1
    (fun k hk => (h3 k _ hk (Nat.le_refl _) (fun j a b => by omega)).1) (R := received D e) (r0 := []) rfl (fun _ => rfl) n

end Fw

/-- **C101** (in order): characters that come over a line whose edges are less than half a bit off, to a firmware that
reads each before the next begins, are what the serial port receives and the handler stores, in that order, from the
first on. -/
theorem C101_order {D : Nat} (hD : 2 ≤ D) (e : Nat → Env) {l : Line} {b : Nat → BitVec 8} (h : OnLine D e l b)
    (ht : l.Taken 8 D fun k => WbSerial.rxAck (reqs D e k)) (n : Nat) :
    ∃ j, (∀ k, k < j ↔ l.sent k ∧ l.done 8 D k ≤ n) ∧ received D e n = (List.range j).map b ∧
      stores D e n <+: (List.range j).map b := by
  obtain ⟨j, h1, h2⟩ := received_line hD h ht n
  exact ⟨j, h2, h1, h1 ▸ (C64_order e n).1⟩

/-- **C101** (keeping up): if the processor does an action at least every `K` cycles, and each frame begins `W` cycles or
more after the one before has been received, with `33 * K + 31 ≤ W`, then the firmware reads each character before the
next one begins, whatever else is going on. -/
theorem C101_keeps_up {D : Nat} (hD : 2 ≤ D) {K : Nat} {p : Nat → Pins} (hK : ∀ n, ∃ m ≥ n, m < n + K ∧ (p m).go = true)
    (h1 : 63 * (10 * D + 15 * K + 19) ≤ 142 * 2 ^ 14) {l : Line} {b : Nat → BitVec 8} (h : OnLine D (Machine.envs D p) l b)
    {W : Nat} (hW : ∀ k, l.sent (k + 1) → l.done 8 D k + W ≤ l.edge (k + 1) 0) (h2 : 33 * K + 31 ≤ W) :
    l.Taken 8 D fun k => WbSerial.rxAck (reqs D (Machine.envs D p) k) := by
  refine C100_quick hD (W := 33 * K + 31) h.levels h.fits (fun m hm => ?_) (fun k hk => by have := hW k hk; omega)
  have hr := held_read (D := D) (K := K) (S := 11 * K + 4) (e := Machine.envs D p) (fun n => by
    obtain ⟨m, h1, h2, h3⟩ := hK n
    exact ⟨m, h1, h2, by simp [Machine.envs, Machine.env, h3]⟩) (C67_enabled (by omega) hK h1) (n := m) (by rw [rx_run]; exact hm)
  obtain ⟨m', a1, a2, a3⟩ := hr
  exact ⟨m', a1, by omega, by rw [← rx_run]; exact a3⟩

/-- **C101** (nothing is lost): under the same conditions the handler stores in `RX` exactly the characters sent, in that
order, each of them sooner or later; when it stores one, that is what `RX` holds. -/
theorem C101_stored {D : Nat} (hD : 2 ≤ D) {K : Nat} {p : Nat → Pins} (hK : ∀ n, ∃ m ≥ n, m < n + K ∧ (p m).go = true)
    (h1 : 63 * (10 * D + 15 * K + 19) ≤ 142 * 2 ^ 14) {l : Line} {b : Nat → BitVec 8} (h : OnLine D (Machine.envs D p) l b)
    {W : Nat} (hW : ∀ k, l.sent (k + 1) → l.done 8 D k + W ≤ l.edge (k + 1) 0) (h2 : 33 * K + 31 ≤ W) :
    (∀ n, ∃ j, (∀ k, k < j ↔ l.sent k ∧ l.done 8 D k ≤ n) ∧ stores D (Machine.envs D p) n <+: (List.range j).map b) ∧
    (∀ k, l.sent k → ∃ m ≥ l.done 8 D k, (List.range (k + 1)).map b <+: stores D (Machine.envs D p) m) ∧
    ∀ n d, storing D (Machine.envs D p) n = some d → mailbox D (Machine.envs D p) (n + 1) = some d := by
  have ht := C101_keeps_up hD hK h1 h hW h2
  refine ⟨fun n => ?_, fun k hk => ?_, fun n d => (C64_mailbox _ n).2.1 d⟩
  · obtain ⟨j, a, -, c⟩ := C101_order hD _ h ht n
    exact ⟨j, a, c⟩
  · obtain ⟨j, a, c, -⟩ := C101_order hD _ h ht (l.done 8 D k)
    obtain ⟨-, m, m1, m2⟩ := C67_flow (by omega) hK h1 (l.done 8 D k)
    refine ⟨m, m1, List.IsPrefix.trans ?_ m2⟩
    rw [c]
    have hj := (a k).2 ⟨hk, Nat.le_refl _⟩
    obtain ⟨d, rfl⟩ := Nat.exists_eq_add_of_le (show k + 1 ≤ j by omega)
    have e : List.range (k + 1 + d) = List.range (k + 1) ++ (List.range d).map (k + 1 + ·) := List.range_add
    rw [e, List.map_append]
    exact List.prefix_append _ _

namespace Fw
variable {D K : Nat} {p : Nat → Pins} {l : Line} {b : Nat → BitVec 8}

/-- If the typist waits for each character to be taken, nothing is overwritten in `RX`. -/
theorem waited_upto (hD : 2 ≤ D) {e : Nat → Env} (h : OnLine D e l b) (ht : l.Taken 8 D fun k => WbSerial.rxAck (reqs D e k))
    (n : Nat) (hslow : ∀ k, l.sent k → l.edge k 0 < n → taken D e (l.edge k 0) = (List.range k).map b) :
    stores D e n = taken D e n ++ (mailbox D e n).toList := by
  refine (C64_take e n).2 ?_
  intro k hk
  induction k using Nat.strong_induction_on with
  | _ k ih =>
    intro hst
    obtain ⟨c, hc⟩ := Option.ne_none_iff_exists'.1 hst
    have hprev := (C64_take e k).2 (fun j hj => ih j hj (by omega))
    cases hm : mailbox D e k with
    | none => rfl
    | some x =>
      obtain ⟨j, i1, i2⟩ := received_line hD h ht (k + 1)
      have hlen : (taken D e k).length + 1 < j := by
        have h1 := (C64_order (D := D) e (k + 1)).1.length_le
        rw [stores, hprev, hm, hc, i1] at h1
        simp at h1
        omega
      obtain ⟨g1, g2⟩ := (i2 _).1 hlen
      unfold Line.done at g2
      have h2 := congrArg List.length (hslow _ g1 (by omega))
      rw [List.length_map, List.length_range] at h2
      obtain ⟨d, hd⟩ := Nat.exists_eq_add_of_le (show l.edge ((taken D e k).length + 1) 0 ≤ k by omega)
      have h3 := (taken_mono (D := D) (e := e) (l.edge ((taken D e k).length + 1) 0) d).length_le
      rw [← hd] at h3
      omega

theorem waited_line (hD : 2 ≤ D) {e : Nat → Env} (h : OnLine D e l b) (ht : l.Taken 8 D fun k => WbSerial.rxAck (reqs D e k))
    (hslow : ∀ k, l.sent k → taken D e (l.edge k 0) = (List.range k).map b) (n : Nat) :
    stores D e n = taken D e n ++ (mailbox D e n).toList := waited_upto hD h ht n fun k hk _ => hslow k hk

theorem received_mono1 (e : Nat → Env) (n : Nat) : received D e n <+: received D e (n + 1) := ⟨_, rfl⟩

/-- Where the line ends. -/
theorem line_end (hD : 2 ≤ D) {e : Nat → Env} (h : OnLine D e l b) (ht : l.Taken 8 D fun k => WbSerial.rxAck (reqs D e k)) {N : Nat}
    (hN : ∀ k, l.sent k ↔ k < N) : ∃ n, (∀ d, received D e (n + d) = (List.range N).map b) ∧ ∀ m ≥ n, (e m).rx = true := by
  rcases Nat.eq_zero_or_pos N with rfl | hpos
  · refine ⟨0, fun d => ?_, fun m _ => ?_⟩
    · obtain ⟨j, i1, i2⟩ := received_line hD h ht (0 + d)
      cases j with
      | zero => exact i1
      | succ j => exact absurd ((hN 0).1 ((i2 0).1 (by omega)).1) (by omega)
    · exact h.levels.high m fun k hk => absurd ((hN k).1 hk) (by omega)
  · have hl : l.sent (N - 1) := (hN _).2 (by omega)
    refine ⟨l.done 8 D (N - 1), fun d => ?_, fun m hm => ?_⟩
    · obtain ⟨j, i1, i2⟩ := received_line hD h ht (l.done 8 D (N - 1) + d)
      have h1 := (i2 (N - 1)).2 ⟨hl, by omega⟩
      have h2 : j ≤ N := by
        by_contra hc
        exact absurd ((hN N).1 ((i2 N).1 (by omega)).1) (by omega)
      rw [i1, show j = N by omega]
    · refine Line.high_after h.fits h.levels hl hm fun hs => ?_
      have := (hN _).1 hs
      omega

end Fw

/-- **C102** (a typist who waits, at a keyboard with its own clock): let the processor be fast enough, as in C69 and C101.
If the line carries `N` characters, none of which begins before the application has taken the one before it, then the
application takes all of them, in that order, and everything that the session specified has to answer to them gets onto
the line, sooner or later, for ever. -/
theorem C102_waits {D : Nat} (hD : 2 ≤ D) {K : Nat} {p : Nat → Pins} (hK : ∀ n, ∃ m ≥ n, m < n + K ∧ (p m).go = true)
    (h1 : 63 * (10 * D + 15 * K + 19) ≤ 142 * 2 ^ 14) (h2 : 32 * K + 36 ≤ 9 * D) (h3 : 40 * K + 45 ≤ 2 ^ 14)
    {l : Line} {b : Nat → BitVec 8} (h : OnLine D (Machine.envs D p) l b)
    {W : Nat} (hW : ∀ k, l.sent (k + 1) → l.done 8 D k + W ≤ l.edge (k + 1) 0) (h4 : 33 * K + 31 ≤ W)
    (hslow : ∀ k, l.sent k → taken D (Machine.envs D p) (l.edge k 0) = (List.range k).map b) {N : Nat} (hN : ∀ k, l.sent k ↔ k < N) :
    ∃ h : Nat → List Input, Explains D p h ∧ (∀ n, keysOf (h n) <+: (List.range N).map b) ∧
    ∀ n, ∃ m ≥ n, taken D (Machine.envs D p) m = (List.range N).map b ∧ keysOf (h m) = (List.range N).map b ∧
      calls D (Machine.envs D p) m = utf8 (session (h m)).said ∧ ∃ q ≥ m, utf8 (session (h m)).said <+: frames D (Machine.envs D p) q := by
  have F : Fast D K p := ⟨by omega, hK, h1, h2, h3⟩
  have ht := C101_keeps_up hD hK h1 h hW h4
  obtain ⟨g1, g2⟩ := waits_abs F (T := received D (Machine.envs D p)) (received_mono1 _) (fun n => (C64_order _ n).1) (waited_line hD h ht hslow)
  obtain ⟨n0, e1, e2⟩ := line_end hD h ht hN
  have em : ∀ m ≥ n0, received D (Machine.envs D p) m = (List.range N).map b := fun m hm => by
    obtain ⟨d, rfl⟩ := Nat.exists_eq_add_of_le hm
    exact e1 d
  refine ⟨_, explains_ghost D p, fun n => ?_, fun n => ?_⟩
  · have := received_mono (D := D) (e := Machine.envs D p) n n0
    rw [em (n + n0) (by omega)] at this
    exact (g1 n).trans this
  · obtain ⟨m, m1, a1, a2, a3, a4⟩ := g2 (max n n0) n0 (fun d => by rw [em _ (by omega), em _ (by omega)])
      (C67_flow (by omega) hK h1 _).2 (fun m hm => by simpa [Machine.envs, Machine.env] using e2 m hm)
    rw [em _ (by omega)] at a1 a2
    exact ⟨m, by omega, a1, a2, a3, a4⟩

/-- **C102** (the dialogue): under the same conditions, ctrl-c and three more characters are answered by the prompt, their
echo and the demonstration of the rule that they make, for as many lines as one likes, and the rule is on the LEDs. -/
theorem C102_dialogue {D : Nat} (hD : 2 ≤ D) {K : Nat} {p : Nat → Pins} (hK : ∀ n, ∃ m ≥ n, m < n + K ∧ (p m).go = true)
    (h1 : 63 * (10 * D + 15 * K + 19) ≤ 142 * 2 ^ 14) (h2 : 32 * K + 36 ≤ 9 * D) (h3 : 40 * K + 45 ≤ 2 ^ 14)
    {l : Line} {b : Nat → BitVec 8} (h : OnLine D (Machine.envs D p) l b)
    {W : Nat} (hW : ∀ k, l.sent (k + 1) → l.done 8 D k + W ≤ l.edge (k + 1) 0) (h4 : 33 * K + 31 ≤ W)
    (hslow : ∀ k, l.sent k → taken D (Machine.envs D p) (l.edge k 0) = (List.range k).map b) (hN : ∀ k, l.sent k ↔ k < 4)
    (hb : b 0 = 3) (L : Nat) :
    ∃ st N st' M m q, L ≤ M ∧ Styles st ∧ Styles st' ∧
      utf8 (demoText 110 st N ++ "ctrl-c hit\nrule (default 110)? ".toList ++ [Char.ofNat (b 1).toNat, Char.ofNat (b 2).toNat, Char.ofNat (b 3).toNat, '\n'] ++
        demoText (ruleOf [b 1, b 2, b 3]) st' M) <+: frames D (Machine.envs D p) q ∧
      (Machine.at_ D p m).sys.leds.leds = ruleOf [b 1, b 2, b 3] := by
  have F : Fast D K p := ⟨by omega, hK, h1, h2, h3⟩
  have ht := C101_keeps_up hD hK h1 h hW h4
  obtain ⟨n0, e1, e2⟩ := line_end hD h ht hN
  have e0 : received D (Machine.envs D p) n0 = [3, b 1, b 2, b 3] := by
    have := e1 0
    rw [Nat.add_zero] at this
    rw [this, show List.range 4 = [0, 1, 2, 3] from rfl, List.map_cons, hb]; rfl
  exact dialogue_abs F (received_mono1 _) (fun n => (C64_order _ n).1) (waited_line hD h ht hslow) (r := n0) (n := n0)
    (fun d => by rw [e1, ← e1 0, Nat.add_zero]) (C67_flow (by omega) hK h1 _).2
    (fun m hm => by simpa [Machine.envs, Machine.env] using e2 m hm) e0 L

namespace Fw

/-- The pins `p0`, with the levels `x` at the serial input. -/
def withRx (p0 : Nat → Pins) (x : Nat → Bool) (n : Nat) : Pins := { p0 n with rx := x n }

/-- The levels `x`, and from cycle `t` on a frame of `c`, with bits of `P` cycles. -/
def moreRx (P : Nat) (x : Nat → Bool) (t : Nat) (c : BitVec 8) (s : Nat) : Bool :=
  if s < t then x s else if s < t + 10 * P then Line.bit (byteBits c) ((s - t) / P) else true

/-- The line `l`, which has `N` characters, with another one. -/
def moreLine (P : Nat) (l : Line) (N t : Nat) (c : BitVec 8) : Line where
  sent k := k < N + 1
  char k := if k = N then byteBits c else l.char k
  edge k i := if k = N then t + i * P else l.edge k i

theorem moreLine_old {P : Nat} {l : Line} {N t : Nat} {c : BitVec 8} {k : Nat} (hk : k < N) :
    (moreLine P l N t c).char k = l.char k ∧ (∀ i, (moreLine P l N t c).edge k i = l.edge k i) := by
  simp [moreLine, Nat.ne_of_lt hk]

/-- A time when everything on the line is over, for a while. -/
theorem late (hD : 2 ≤ D) {l : Line} {b : Nat → BitVec 8} (h : OnLine D e l b) {N : Nat} (hN : ∀ k, l.sent k ↔ k < N) (a W : Nat) :
    ∃ t, a ≤ t ∧ ∀ k < N, l.edge k 10 + W ≤ t := by
  cases hc : N with
  | zero => exact ⟨a, by omega, nofun⟩
  | succ M =>
    refine ⟨a + l.edge M 10 + W, by omega, fun k hk => ?_⟩
    by_cases e : k = M
    · rw [e]; omega
    · have hM : l.sent M := (hN M).2 (by omega)
      have a := Line.edge_lt h.fits h.levels (show k < M by omega) hM
      have c := Line.done_le h.fits hM
      unfold Line.done at c
      have a2 := a.2
      have a2' : l.edge k 10 ≤ l.edge M 0 := a2
      have c' : l.edge M 0 + (2 + D / 2 + (8 + 1) * D) ≤ l.edge M 10 := c
      omega

/-- What has been taken remains so. -/
theorem taken_rest (hD : 2 ≤ D) {l : Line} {b : Nat → BitVec 8} (h : OnLine D e l b) (ht : l.Taken 8 D fun k => WbSerial.rxAck (reqs D e k))
    (hslow : ∀ k, l.sent k → taken D e (l.edge k 0) = (List.range k).map b) {bs : List (BitVec 8)} {m n0 t : Nat}
    (e1 : ∀ d, received D e (n0 + d) = bs) (m2 : taken D e m = bs) (t1 : m ≤ t) (t2 : n0 ≤ t) : taken D e t = bs := by
  have W := waited_line hD h ht hslow t
  have g1 := (C64_order (D := D) e t).1
  obtain ⟨d, rfl⟩ := Nat.exists_eq_add_of_le t2
  rw [e1, W] at g1
  refine ((List.prefix_append _ _).trans g1).eq_of_length_le ?_
  obtain ⟨d', hd'⟩ := Nat.exists_eq_add_of_le t1
  have b2 := (taken_mono (D := D) (e := e) m d').length_le
  rw [← hd', m2] at b2
  exact b2

/-- The characters `b` up to the `N`-th, which is `c`. -/
def moreChar (b : Nat → BitVec 8) (N : Nat) (c : BitVec 8) (i : Nat) : BitVec 8 := if i = N then c else b i

theorem moreChar_old {b : Nat → BitVec 8} {N : Nat} {c : BitVec 8} {k : Nat} (hk : k ≤ N) :
    (List.range k).map (moreChar b N c) = (List.range k).map b :=
  List.map_congr_left fun i hi => by
    have := List.mem_range.1 hi
    rw [moreChar, if_neg (by omega)]

/-- One more character on the line. -/
theorem more_line (hD : 2 ≤ D) {e' : Nat → Env} {l : Line} {b : Nat → BitVec 8} {x : Nat → Bool} {P N t W : Nat} {c : BitVec 8}
    (hP1 : 10 * D + 2 + D / 2 ≤ 10 * P + D) (hP2 : 10 * P ≤ 10 * D + D / 2 + 1)
    (hx : ∀ n, (e n).rx = x n) (hx' : ∀ n, (e' n).rx = moreRx P x t c n) (h : OnLine D e l b) (hN : ∀ k, l.sent k ↔ k < N)
    (he : ∀ k i, l.sent k → l.edge k i = l.edge k 0 + i * P) (hW : ∀ k, l.sent (k + 1) → l.done 8 D k + W ≤ l.edge (k + 1) 0)
    (t3 : ∀ k < N, l.edge k 10 + W ≤ t) :
    OnLine D e' (moreLine P l N t c) (moreChar b N c) ∧
    (∀ k, (moreLine P l N t c).sent (k + 1) → (moreLine P l N t c).done 8 D k + W ≤ (moreLine P l N t c).edge (k + 1) 0) ∧
    ∀ k i, (moreLine P l N t c).sent k → (moreLine P l N t c).edge k i = (moreLine P l N t c).edge k 0 + i * P := by
  have hP0 : 0 < P := by omega
  have old : ∀ {k}, k < N → l.sent k := fun hk => (hN _).2 hk
  refine ⟨⟨fun k hk => ?_, ⟨fun k hk => ?_, fun k hk => ?_, fun k i s hk hi s1 s2 => ?_, fun s hs => ?_⟩,
      fun k i hk hi0 hi => ?_⟩, fun k hk => ?_, fun k i hk => ?_⟩
  · by_cases hkN : k = N
    · simp [moreLine, moreChar, hkN]
    · have hk' : k < N := by have : k < N + 1 := hk; omega
      rw [(moreLine_old hk').1]
      rw [moreChar, if_neg hkN]
      exact h.char k (old hk')
  · by_cases hkN : k = N
    · simp [moreLine, hkN, byteBits_length]
    · have hk' : k < N := by have : k < N + 1 := hk; omega
      rw [(moreLine_old hk').1]
      exact h.levels.len k (old hk')
  · have hk1 : k < N := by have : k + 1 < N + 1 := hk; omega
    refine ⟨show k < N + 1 by omega, ?_⟩
    rw [(moreLine_old hk1).2]
    by_cases hkN : k + 1 = N
    · have : (moreLine P l N t c).edge (k + 1) 0 = t := by simp [moreLine, hkN]
      rw [this]
      have := t3 k hk1
      show l.edge k 10 ≤ t
      omega
    · have hk' : k + 1 < N := by omega
      rw [(moreLine_old hk').2]
      exact (h.levels.order k (old hk')).2
  · by_cases hkN : k = N
    · subst hkN
      have c1 : (moreLine P l k t c).edge k i = t + i * P := by simp [moreLine]
      have c2 : (moreLine P l k t c).edge k (i + 1) = t + (i + 1) * P := by simp [moreLine]
      have c3 : (moreLine P l k t c).char k = byteBits c := by simp [moreLine]
      rw [c1] at s1
      rw [c2] at s2
      rw [c3]
      have hle := Nat.mul_le_mul_right P (show i + 1 ≤ 10 by omega)
      show (e' s).rx = _
      rw [hx']
      unfold moreRx
      rw [if_neg (by omega), if_pos (by omega)]
      congr 1
      apply Nat.div_eq_of_lt_le
      · omega
      · omega
    · have hk' : k < N := by have : k < N + 1 := hk; omega
      rw [(moreLine_old hk').2] at s1 s2
      rw [(moreLine_old hk').1, ← h.levels.bits k i s (old hk') hi s1 s2]
      have := t3 k hk'
      rw [he k _ (old hk')] at s2 this
      have hle := Nat.mul_le_mul_right P (show i + 1 ≤ 10 by omega)
      show (e' s).rx = (e s).rx
      rw [hx', hx]
      unfold moreRx
      rw [if_pos (by omega)]
  · show (e' s).rx = true
    rw [hx']
    unfold moreRx
    by_cases h0 : s < t
    · rw [if_pos h0]
      rw [← hx]
      exact h.levels.high s fun k hk => by
        have hk' := (hN k).1 hk
        have := hs k (show k < N + 1 by omega)
        rwa [(moreLine_old hk').2, (moreLine_old hk').2] at this
    · rw [if_neg h0]
      have := hs N (show N < N + 1 by omega)
      have c1 : (moreLine P l N t c).edge N 0 = t := by simp [moreLine]
      have c2 : (moreLine P l N t c).edge N (8 + 2) = t + 10 * P := by simp [moreLine]
      rw [c1, c2] at this
      rw [if_neg (by omega)]
  · by_cases hkN : k = N
    · subst hkN
      have c1 : (moreLine P l k t c).edge k 0 = t := by simp [moreLine]
      have c2 : (moreLine P l k t c).edge k i = t + i * P := by simp [moreLine]
      rw [c1, c2]
      have : i = 1 ∨ i = 2 ∨ i = 3 ∨ i = 4 ∨ i = 5 ∨ i = 6 ∨ i = 7 ∨ i = 8 ∨ i = 9 ∨ i = 10 := by omega
      rcases this with rfl | rfl | rfl | rfl | rfl | rfl | rfl | rfl | rfl | rfl <;> exact ⟨by omega, fun _ => by omega⟩
    · have hk' : k < N := by have : k < N + 1 := hk; omega
      rw [(moreLine_old hk').2, (moreLine_old hk').2]
      exact h.fits k i (old hk') hi0 hi
  · have hk1 : k < N := by have : k + 1 < N + 1 := hk; omega
    unfold Line.done
    rw [(moreLine_old hk1).2]
    by_cases hkN : k + 1 = N
    · have : (moreLine P l N t c).edge (k + 1) 0 = t := by simp [moreLine, hkN]
      rw [this]
      have a1 := t3 k hk1
      have a2 := Line.done_le h.fits (old hk1)
      unfold Line.done at a2
      have a2' : l.edge k 0 + (2 + D / 2 + (8 + 1) * D) ≤ l.edge k 10 := a2
      omega
    · have hk' : k + 1 < N := by omega
      rw [(moreLine_old hk').2]
      exact hW k (old hk')
  · by_cases hkN : k = N
    · subst hkN; simp [moreLine]
    · have hk' : k < N := by have : k < N + 1 := hk; omega
      rw [(moreLine_old hk').2, (moreLine_old hk').2]
      exact he k i (old hk')

end Fw

/-- **C102** (it is possible): whatever the characters are, they can be typed in that way, with bits of any length `P` that
is near enough to `D`. -/
theorem C102_possible {D : Nat} (hD : 2 ≤ D) {K : Nat} {p0 : Nat → Pins} (hK : ∀ n, ∃ m ≥ n, m < n + K ∧ (p0 m).go = true)
    (h1 : 63 * (10 * D + 15 * K + 19) ≤ 142 * 2 ^ 14) (h2 : 32 * K + 36 ≤ 9 * D) (h3 : 40 * K + 45 ≤ 2 ^ 14)
    {P : Nat} (hP1 : 10 * D + 2 + D / 2 ≤ 10 * P + D) (hP2 : 10 * P ≤ 10 * D + D / 2 + 1) (bs : List (BitVec 8)) :
    ∃ x l b, OnLine D (Machine.envs D (withRx p0 x)) l b ∧
      (∀ k, l.sent (k + 1) → l.done 8 D k + (33 * K + 31) ≤ l.edge (k + 1) 0) ∧
      (∀ k, l.sent k → taken D (Machine.envs D (withRx p0 x)) (l.edge k 0) = (List.range k).map b) ∧
      (∀ k, l.sent k ↔ k < bs.length) ∧ (List.range bs.length).map b = bs ∧ ∀ k i, l.sent k → l.edge k i = l.edge k 0 + i * P := by
  induction bs using List.reverseRecOn with
  | nil =>
    refine ⟨fun _ => true, ⟨fun _ => False, fun _ => [], fun _ _ => 0⟩, fun _ => 0, ⟨nofun, ⟨nofun, nofun, nofun, fun _ _ => rfl⟩, nofun⟩,
      nofun, nofun, fun k => by simp, rfl, nofun⟩
  | append_singleton bs c ih =>
    obtain ⟨x, l, b, h, hW, hslow, hN, hb, he⟩ := ih
    have hK' : ∀ n, ∃ m ≥ n, m < n + K ∧ (withRx p0 x m).go = true := hK
    obtain ⟨m, m2⟩ : ∃ m, taken D (Machine.envs D (withRx p0 x)) m = bs := by
      obtain ⟨_, -, -, hh⟩ := C102_waits hD hK' h1 h2 h3 h hW (Nat.le_refl _) hslow hN
      obtain ⟨m, -, a, -⟩ := hh 0
      exact ⟨m, a.trans hb⟩
    generalize hNN : bs.length = N at *
    have ht := C101_keeps_up hD hK' h1 h hW (Nat.le_refl _)
    obtain ⟨n0, e1, -⟩ := line_end hD h ht hN
    -- the next one is typed when the line has been idle for long enough
    obtain ⟨t, t1, t3⟩ := late hD h hN (m + n0) (33 * K + 31)
    have samep : ∀ k < t, withRx p0 (moreRx P x t c) k = withRx p0 x k := fun k hk => by
      unfold withRx moreRx; rw [if_pos hk]
    have htt := taken_rest hD h ht hslow (bs := bs) (t := t) (fun d => (e1 d).trans hb) m2 (by omega) (by omega)
    obtain ⟨h', hW', he'⟩ := more_line (e' := Machine.envs D (withRx p0 (moreRx P x t c))) (c := c) (x := x) hD hP1 hP2 (fun _ => rfl)
      (fun _ => rfl) h hN he hW t3
    refine ⟨moreRx P x t c, _, _, h', hW', fun k hk => ?_, fun k => ?_, ?_, he'⟩
    · by_cases hkN : k = N
      · subst hkN
        have c1 : (moreLine P l k t c).edge k 0 = t := by simp [moreLine]
        rw [c1, taken_same (p := withRx p0 x) (p' := withRx p0 (moreRx P x t c)) rfl samep, htt, moreChar_old (Nat.le_refl _), hb]
      · have hk' : k < N := by have : k < N + 1 := hk; omega
        rw [(moreLine_old hk').2, taken_same (p := withRx p0 x) (p' := withRx p0 (moreRx P x t c)) rfl (fun j hj => samep j ?_),
          hslow k ((hN k).2 hk'), moreChar_old hk'.le]
        have a1 := t3 k hk'
        have a2 := Line.done_le h.fits ((hN k).2 hk')
        unfold Line.done at a2
        have a2' : l.edge k 0 + (2 + D / 2 + (8 + 1) * D) ≤ l.edge k 10 := a2
        omega
    · show k < N + 1 ↔ _
      rw [List.length_append, hNN]; rfl
    · rw [List.length_append, hNN, List.length_singleton, List.range_succ, List.map_append, moreChar_old (Nat.le_refl _), hb]
      simp [moreChar]

/-- So the conditions of `C102_dialogue` can be met: somebody with a keyboard 4 % too slow types ctrl-c, `9`, `0` and return
at the board with 9600 baud and 12 MHz, and gets rule 90. -/
example (L : Nat) : ∃ p st N st' M m q, L ≤ M ∧ Styles st ∧ Styles st' ∧
    utf8 (demoText 110 st N ++ "ctrl-c hit\nrule (default 110)? 90\r\n".toList ++ demoText 90 st' M) <+: frames 1250 (Machine.envs 1250 p) q ∧
    (Machine.at_ 1250 p m).sys.leds.leds = 90 := by
  obtain ⟨x, l, b, h, hW, hslow, hN, hb, -⟩ := C102_possible (D := 1250) (K := 1) (p0 := fun _ => {}) (P := 1300) (by decide)
    (fun n => ⟨n, by omega, by omega, rfl⟩) (by decide) (by decide) (by decide) (by decide) (by decide) [3, 57, 48, 13]
  have hb' : [b 0, b 1, b 2, b 3] = [3, 57, 48, 13] := hb
  obtain ⟨e0, e1, e2, e3⟩ : b 0 = 3 ∧ b 1 = 57 ∧ b 2 = 48 ∧ b 3 = 13 := by simpa using hb'
  obtain ⟨st, N, st', M, m, q, g0, g1, g2, g3, g4⟩ := C102_dialogue (D := 1250) (K := 1) (p := withRx (fun _ => {}) x) (by decide)
    (fun n => ⟨n, by omega, by omega, rfl⟩) (by decide) (by decide) (by decide) h hW (by decide) hslow hN e0 L
  rw [e1, e2, e3] at g3 g4
  have hr : ruleOf [57, 48, 13] = 90 := by decide
  rw [hr] at g3 g4
  refine ⟨_, st, N, st', M, m, q, g0, g1, g2, ?_, g4⟩
  have e : "ctrl-c hit\nrule (default 110)? 90\r\n".toList = "ctrl-c hit\nrule (default 110)? ".toList ++ [Char.ofNat (57 : BitVec 8).toNat,
      Char.ofNat (48 : BitVec 8).toNat, Char.ofNat (13 : BitVec 8).toNat, '\n'] := by decide
  rw [e, ← List.append_assoc]
  exact g3

end Sentinel
