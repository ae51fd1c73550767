import Verif.Props.FirmwareLine
/-!
# C104: the serial receiver after noise

`C100_receive` begins at reset, with the line at rest.  Here anything may have happened before: noise, a break, characters
of another speed, characters that found no room.
-/

set_option linter.unusedSimpArgs false

namespace Sentinel

namespace UartRx

/-- Two receivers which cannot be told apart any more, or will not be when the next frame begins. -/
def Sync (u s : UartRx) : Prop :=
  u.shreg.length = s.shreg.length ∧
  ((u.count = 0 ∧ s.count = 0 ∧ u.rdy = false ∧ s.rdy = false) ∨
    (u.count = s.count ∧ u.phase = s.phase ∧ u.rdy = s.rdy ∧ u.ovf = s.ovf ∧ u.shreg.drop u.count = s.shreg.drop s.count ∧
      (u.rdy = true → u.count = 0)))

theorem sync_step {D : Nat} {u s : UartRx} (h : Sync u s) (x a : Bool) : Sync (u.step D x a) (s.step D x a) := by
  obtain ⟨up, ug, uc, ur, uo⟩ := u
  obtain ⟨sp, sg, sc, sr, so⟩ := s
  obtain ⟨hl, ⟨h1, h2, h3, h4⟩ | ⟨h1, h2, h3, h4, h5, h6⟩⟩ := h
  · simp only at hl h1 h2 h3 h4
    subst h1 h2 h3 h4
    cases x <;> cases a <;> simp [step, Sync, hl]
  · simp only at hl h1 h2 h3 h4 h5 h6
    subst h1 h2 h3 h4
    cases uc with
    | zero =>
      simp only [List.drop_zero] at h5
      subst h5
      cases x <;> cases a <;> cases ur <;> simp [step, Sync]
    | succ c =>
      have hr : ur = false := by
        rw [Bool.eq_false_iff]
        exact fun h => by have := h6 h; omega
      subst hr
      unfold step Sync
      simp only [Nat.add_one_ne_zero, if_false]
      by_cases hp : up = 0
      · subst hp
        simp only [ne_eq, not_true_eq_false, if_false, Nat.add_sub_cancel]
        refine ⟨by simp [hl], .inr ⟨trivial, trivial, trivial, trivial, ?_, ?_⟩⟩
        · have e : ∀ g : List Bool, (g.tail ++ [x]).drop c = if c ≤ g.length - 1 then g.drop (c + 1) ++ [x] else (g.tail ++ [x]).drop c := by
            intro g
            split
            · rename_i hc
              rw [List.drop_append_of_le_length (by simpa using hc), List.drop_tail]
            · rfl
          rw [e ug, e sg, hl, h5]
          split
          · rfl
          · rename_i hc
            rw [List.drop_of_length_le, List.drop_of_length_le]
            · simp; omega
            · simp; omega
        · split
          · rename_i h; intro _; omega
          · exact nofun
      · simp only [ne_eq, hp, not_false_eq_true, if_true]
        exact ⟨hl, .inr ⟨trivial, trivial, trivial, trivial, h5, nofun⟩⟩

theorem sync_run {D : Nat} {u s : UartRx} (h : Sync u s) (x a : Nat → Bool) (n : Nat) : Sync (u.run D x a n) (s.run D x a n) := by
  induction n with
  | zero => exact h
  | succ n ih => exact sync_step ih _ _

theorem Sync.rdy {u s : UartRx} (h : Sync u s) : u.rdy = s.rdy := by
  obtain ⟨-, ⟨-, -, h3, h4⟩ | ⟨-, -, h, -⟩⟩ := h
  · rw [h3, h4]
  · exact h

theorem Sync.data {u s : UartRx} (h : Sync u s) (hr : u.rdy = true) : u.data = s.data ∧ u.err = s.err := by
  obtain ⟨-, ⟨-, -, h3, -⟩ | ⟨h1, -, -, -, h5, h6⟩⟩ := h
  · rw [h3] at hr; exact absurd hr (by decide)
  · have hc := h6 hr
    rw [← h1, hc, List.drop_zero, List.drop_zero] at h5
    unfold UartRx.data err
    rw [h5, ← h1]
    exact ⟨rfl, rfl⟩

/-- On a line that is high, every frame ends. -/
theorem settles {D : Nat} (hD : 0 < D) {x a : Nat → Bool} {s : UartRx} (hp : s.phase < D) {n : Nat} (hx : ∀ k < n, x k = true)
    (hn : s.count * D ≤ n) : (s.run D x a n).count = 0 := by
  suffices H : ∀ m ≤ n, (s.run D x a m).phase < D ∧
      ((s.run D x a m).count = 0 ∨ ((s.run D x a m).count - 1) * D + (s.run D x a m).phase + 1 + m ≤ s.count * D) by
    obtain ⟨-, h | h⟩ := H n (Nat.le_refl _)
    · exact h
    · omega
  intro m
  induction m with
  | zero =>
    intro _
    refine ⟨hp, ?_⟩
    show s.count = 0 ∨ (s.count - 1) * D + s.phase + 1 + 0 ≤ s.count * D
    cases s.count with
    | zero => exact .inl rfl
    | succ c => right; rw [Nat.add_sub_cancel, Nat.succ_mul]; omega
  | succ m ih =>
    intro hm
    obtain ⟨i1, i2⟩ := ih (by omega)
    have hxm := hx m (by omega)
    simp only [run]
    generalize s.run D x a m = u at *
    unfold step
    by_cases hc : u.count = 0
    · rw [if_pos hc, hxm, if_neg (by decide)]
      split
      · exact ⟨i1, .inl hc⟩
      · exact ⟨i1, .inl hc⟩
    · rw [if_neg hc]
      have i2 := i2.resolve_left hc
      by_cases hph : u.phase = 0
      · rw [if_neg (by simp [hph])]
        refine ⟨by simp only; omega, ?_⟩
        simp only
        by_cases hc1 : u.count - 1 = 0
        · exact .inl hc1
        · right
          have e : (u.count - 1) * D = (u.count - 1 - 1) * D + D := by
            obtain ⟨c, hc2⟩ := Nat.exists_eq_add_of_lt (show 0 < u.count - 1 by omega)
            rw [hc2, show 0 + c + 1 - 1 = c by omega, show 0 + c + 1 = c + 1 by omega, Nat.succ_mul]
          omega
      · rw [if_pos hph]
        exact ⟨by simp only; omega, .inr (by simp only; omega)⟩

theorem reach_bounds {n D : Nat} (hD : 2 ≤ D) (x a : Nat → Bool) (t : Nat) :
    ((UartRx.reset n).run D x a t).phase < D ∧ ((UartRx.reset n).run D x a t).count ≤ n + 2 := by
  have hl : ∀ t, ((UartRx.reset n).run D x a t).shreg.length = n + 2 := Line.shreg_len (by simp [UartRx.reset]; omega)
  induction t with
  | zero => exact ⟨show 0 < D by omega, Nat.zero_le _⟩
  | succ t ih =>
    have hl := hl t
    simp only [run]
    generalize (UartRx.reset n).run D x a t = u at *
    unfold step
    split
    · split
      · split
        · exact ⟨by simp only; omega, by simp only; omega⟩
        · exact ih
      · split <;> exact ih
    · split
      · exact ⟨by simp only; omega, by simp only; omega⟩
      · exact ⟨by simp only; omega, by simp only; omega⟩

end UartRx

/-- **C104** (from rest): what `C100_receive` says of a receiver that has been reset holds of any receiver that is between two frames
and has no character to present, whatever it received before; but its overflow flag may be up until the first frame begins. -/
theorem C104_rest {n D : Nat} (hD : 2 ≤ D) {s : UartRx} (hs : s.shreg.length = n + 2) (hidle : s.count = 0) (hrdy : s.rdy = false)
    {l : Line} {x take : Nat → Bool} (hl : l.Levels n x) (hf : l.Fits n D) (ht : l.Taken n D take) :
    let rx := fun m => s.run D x take m
    (∀ m, (rx m).rdy = false ∧ (rx (m + 1)).rdy = true ↔ ∃ k, l.sent k ∧ m + 1 = l.done n D k) ∧
    (∀ m, (rx m).rdy = true ↔ ∃ k, l.sent k ∧ l.done n D k ≤ m ∧ (∀ j, l.done n D k ≤ j → j < m → take j = false)) ∧
    (∀ k m, l.sent k → l.done n D k ≤ m → (∀ j, l.done n D k ≤ j → j < m → take j = false) →
      (rx m).data = l.char k ∧ (rx m).err = false) ∧
    ∀ m, l.sent 0 → l.edge 0 0 < m → (rx m).ovf = false := by
  intro rx
  have S : ∀ m, UartRx.Sync ((UartRx.reset n).run D x take m) (s.run D x take m) :=
    UartRx.sync_run ⟨by simp [UartRx.reset, hs]; omega, .inl ⟨rfl, hidle, rfl, hrdy⟩⟩ x take
  obtain ⟨c1, c2, c3, c4⟩ := C100_receive hD hl hf ht
  have e : ∀ m, (rx m).rdy = ((UartRx.reset n).run D x take m).rdy := fun m => (S m).rdy.symm
  simp only [e]
  refine ⟨c1, c2, fun k m h1 h2 h3 => ?_, fun m h0 hm => ?_⟩
  · have hr := (c2 m).2 ⟨k, h1, h2, h3⟩
    obtain ⟨d1, d2⟩ := (S m).data hr
    obtain ⟨g1, g2⟩ := c3 k m h1 h2 h3
    exact ⟨d1 ▸ g1, d2 ▸ g2⟩
  · -- the frame has begun
    obtain ⟨j, rfl⟩ := Nat.exists_eq_add_of_lt hm
    have hx : x (l.edge 0 0) = false := by
      have := (hf 0 1 h0 (by omega) (by omega)).1
      exact hl.bits 0 0 _ h0 (by omega) (by omega) (by rw [Nat.zero_add]; omega)
    have hh := UartRx.run_high (D := D) (s := s) (rxI := x) (ack := take) (n := l.edge 0 0) hidle
      (fun t h' => Line.high_before hf hl fun _ => h')
    have hh0 := UartRx.run_high (D := D) (s := UartRx.reset n) (rxI := x) (ack := take) (n := l.edge 0 0) rfl
      (fun t h' => Line.high_before hf hl fun _ => h')
    have hstart : (s.run D x take (l.edge 0 0)).rdy = false := by
      rw [Bool.eq_false_iff]
      intro h
      rw [(hh.2.2.2.1 h).1] at hrdy
      exact absurd hrdy (by decide)
    have hstart0 : ((UartRx.reset n).run D x take (l.edge 0 0)).rdy = false := (S _).rdy.trans hstart
    -- from then on the two are the same
    have same : ∀ j, ((UartRx.reset n).run D x take (l.edge 0 0 + j + 1)).ovf = (s.run D x take (l.edge 0 0 + j + 1)).ovf ∧
        ((UartRx.reset n).run D x take (l.edge 0 0 + j + 1)).count = (s.run D x take (l.edge 0 0 + j + 1)).count ∧
        ((UartRx.reset n).run D x take (l.edge 0 0 + j + 1)).phase = (s.run D x take (l.edge 0 0 + j + 1)).phase := by
      intro j
      induction j with
      | zero =>
        rw [Nat.add_zero, UartRx.run, UartRx.run, hx]
        unfold UartRx.step
        rw [if_pos hh.1, if_pos hh0.1, hstart, hstart0, hh.2.1, hh0.2.1, hs]
        simp [UartRx.reset]
        omega
      | succ j ih =>
        obtain ⟨i1, i2, i3⟩ := ih
        have hr := (S (l.edge 0 0 + j + 1)).rdy
        have hlen := (S (l.edge 0 0 + j + 1)).1
        show (((UartRx.reset n).run D x take (l.edge 0 0 + j + 1)).step D _ _).ovf = ((s.run D x take (l.edge 0 0 + j + 1)).step D _ _).ovf ∧ 
          (((UartRx.reset n).run D x take (l.edge 0 0 + j + 1)).step D _ _).count = ((s.run D x take (l.edge 0 0 + j + 1)).step D _ _).count ∧ 
          (((UartRx.reset n).run D x take (l.edge 0 0 + j + 1)).step D _ _).phase = ((s.run D x take (l.edge 0 0 + j + 1)).step D _ _).phase
        generalize (UartRx.reset n).run D x take (l.edge 0 0 + j + 1) = u at *
        generalize s.run D x take (l.edge 0 0 + j + 1) = v at *
        unfold UartRx.step
        rw [i2, i3, hr, hlen]
        split
        · split
          · split <;> simp [i1, i2, i3]
          · split <;> simp [i1, i2, i3]
        · split <;> simp [i1, i2, i3]
    rw [show rx (l.edge 0 0 + j + 1) = s.run D x take (l.edge 0 0 + j + 1) from rfl, ← (same j).1]
    exact c4 _

/-- **C104** (coming to rest): whatever the line and the reader have done up to the cycle `T`, once the line has been high for as long as
a frame takes (`n + 2` bits), the receiver is between two frames; and when the reader has then read once, the receiver has no character
to present, as long as the line remains high. -/
theorem C104_settles {n D : Nat} (hD : 2 ≤ D) (x take : Nat → Bool) (T : Nat) {m : Nat} (hm : (n + 2) * D ≤ m)
    (hx : ∀ k < m, x (T + k) = true) :
    ((UartRx.reset n).run D x take (T + m)).count = 0 ∧ ((UartRx.reset n).run D x take (T + m)).shreg.length = n + 2 ∧
    ((∃ a, (n + 2) * D ≤ a ∧ a < m ∧ take (T + a) = true) → ((UartRx.reset n).run D x take (T + m)).rdy = false) := by
  have key : ∀ j, (n + 2) * D ≤ j → j ≤ m → ((UartRx.reset n).run D x take (T + j)).count = 0 := by
    intro j h1 h2
    rw [UartRx.run_shift]
    obtain ⟨b1, b2⟩ := UartRx.reach_bounds (n := n) hD x take T
    exact UartRx.settles (by omega) b1 (fun k hk => hx k (by omega)) ((Nat.mul_le_mul_right D b2).trans h1)
  refine ⟨key m hm (Nat.le_refl _), Line.shreg_len (by simp [UartRx.reset]; omega) _, ?_⟩
  rintro ⟨a, a1, a2, a3⟩
  obtain ⟨d, rfl⟩ := Nat.exists_eq_add_of_lt a2
  have hh := UartRx.run_high (D := D) (s := (UartRx.reset n).run D x take (T + a)) (rxI := fun k => x (T + a + k))
    (ack := fun k => take (T + a + k)) (n := d + 1) (key a a1 (by omega)) (fun k hk => by rw [Nat.add_assoc]; exact hx _ (by omega))
  rw [← UartRx.run_shift, show T + a + (d + 1) = T + (a + d + 1) by omega] at hh
  rw [Bool.eq_false_iff]
  intro h
  have := (hh.2.2.2.1 h).2 0 (by omega)
  rw [Nat.add_zero, a3] at this
  exact absurd this (by decide)

/-- **C104** (resynchronised): so, whatever happened up to the cycle `T`, if the line is then high for `m` cycles, at least `n + 2` bits, at the end of
which the reader reads, then from the cycle `T + m` on exactly the characters sent are presented, in order, without error. -/
theorem C104_resync {n D : Nat} (hD : 2 ≤ D) {x take : Nat → Bool} {T m : Nat} (hx : ∀ k < m, x (T + k) = true)
    (hread : ∃ a, (n + 2) * D ≤ a ∧ a < m ∧ take (T + a) = true) {l : Line}
    (hl : l.Levels n fun k => x (T + m + k)) (hf : l.Fits n D) (ht : l.Taken n D fun k => take (T + m + k)) :
    let rx := fun k => (UartRx.reset n).run D x take (T + m + k)
    (∀ k, (rx k).rdy = false ∧ (rx (k + 1)).rdy = true ↔ ∃ i, l.sent i ∧ k + 1 = l.done n D i) ∧
    (∀ k, (rx k).rdy = true ↔
      ∃ i, l.sent i ∧ l.done n D i ≤ k ∧ (∀ j, l.done n D i ≤ j → j < k → take (T + m + j) = false)) ∧
    (∀ i k, l.sent i → l.done n D i ≤ k → (∀ j, l.done n D i ≤ j → j < k → take (T + m + j) = false) →
      (rx k).data = l.char i ∧ (rx k).err = false) ∧
    ∀ k, l.sent 0 → l.edge 0 0 < k → (rx k).ovf = false := by
  obtain ⟨a, a1, a2, a3⟩ := hread
  obtain ⟨h1, h2, h3⟩ := C104_settles (n := n) hD x take T (m := m) (by omega) hx
  intro rx
  have e : rx = fun k => ((UartRx.reset n).run D x take (T + m)).run D (fun k => x (T + m + k)) (fun k => take (T + m + k)) k :=
    funext fun k => UartRx.run_shift _ _
  rw [e]
  exact C104_rest hD h2 h1 (h3 ⟨a, a1, a2, a3⟩) hl hf ht

open Fw

/-- **C104** (firmware): let the processor do an action at least every `K` cycles. Whatever came over the line up to the cycle `T`, if
the line is then high for `m` cycles, at least ten bits and `33 * K + 31` cycles, then every character that is sent from then on, as in C101,
is received, and stored by the handler, in order, after what was received by then. -/
theorem C104_firmware {D : Nat} (hD : 2 ≤ D) {K : Nat} {p : Nat → Pins} (hK : ∀ n, ∃ m ≥ n, m < n + K ∧ (p m).go = true)
    (h1 : 63 * (10 * D + 15 * K + 19) ≤ 142 * 2 ^ 14) {T m : Nat} (hm : 10 * D + (33 * K + 31) ≤ m) (hx : ∀ k < m, (p (T + k)).rx = true)
    {l : Line} {b : Nat → BitVec 8} (h : OnLine D (fun k => Machine.envs D p (T + m + k)) l b)
    {W : Nat} (hW : ∀ k, l.sent (k + 1) → l.done 8 D k + W ≤ l.edge (k + 1) 0) (h2 : 33 * K + 31 ≤ W) :
    (∀ k, ∃ j, (∀ i, i < j ↔ l.sent i ∧ l.done 8 D i ≤ k) ∧
      received D (Machine.envs D p) (T + m + k) = received D (Machine.envs D p) (T + m) ++ (List.range j).map b) ∧
    (∀ n, stores D (Machine.envs D p) n <+: received D (Machine.envs D p) n) ∧
    ∀ i, l.sent i → ∃ t ≥ T + m + l.done 8 D i,
      received D (Machine.envs D p) (T + m) ++ (List.range (i + 1)).map b <+: stores D (Machine.envs D p) t := by
  have held : ∀ n, (Sys.at_ D (Machine.envs D p) n).ser.rx.rdy = true →
      ∃ m ≥ n, m ≤ n + (33 * K + 31) ∧ (Sys.at_ D (Machine.envs D p) m).ser.rx.rdy = false := fun n hn => by
    obtain ⟨m', a1, a2, a3⟩ := held_read (D := D) (K := K) (S := 11 * K + 4) (e := Machine.envs D p) (fun n => by
      obtain ⟨m, h1, h2, h3⟩ := hK n
      exact ⟨m, h1, h2, by simp [Machine.envs, Machine.env, h3]⟩) (C67_enabled (by omega) hK h1) hn
    exact ⟨m', a1, by omega, a3⟩
  have erx : ∀ n, (Machine.envs D p n).rx = (p n).rx := fun _ => rfl
  -- at rest
  have hx' : ∀ k < m, (fun n => (Machine.envs D p n).rx) (T + k) = true := hx
  obtain ⟨s1, s2, -⟩ := C104_settles (n := 8) hD (fun n => (Machine.envs D p n).rx) (fun k => WbSerial.rxAck (reqs D (Machine.envs D p) k)) T
    (m := m) (by omega) hx'
  obtain ⟨t1, -, -⟩ := C104_settles (n := 8) hD (fun n => (Machine.envs D p n).rx) (fun k => WbSerial.rxAck (reqs D (Machine.envs D p) k)) T
    (m := 10 * D) (by omega) (fun k hk => hx' k (by omega))
  have s3 : (Sys.at_ D (Machine.envs D p) (T + m)).ser.rx.rdy = false := by
    obtain ⟨a, a1, a2, a3⟩ : ∃ a ≥ T + 10 * D, a ≤ T + 10 * D + (33 * K + 31) ∧ (Sys.at_ D (Machine.envs D p) a).ser.rx.rdy = false := by
      by_cases hr : (Sys.at_ D (Machine.envs D p) (T + 10 * D)).ser.rx.rdy = true
      · exact held _ hr
      · exact ⟨T + 10 * D, by omega, by omega, by simpa using hr⟩
    obtain ⟨d, rfl⟩ := Nat.exists_eq_add_of_le a1
    obtain ⟨d', hd'⟩ := Nat.exists_eq_add_of_le (show 10 * D + d ≤ m by omega)
    have c := (UartRx.run_high (D := D) (rxI := fun k => (fun n => (Machine.envs D p n).rx) (T + 10 * D + k))
      (ack := fun k => (fun k => WbSerial.rxAck (reqs D (Machine.envs D p) k)) (T + 10 * D + k)) (n := d) t1
      (fun k hk => by rw [Nat.add_assoc]; exact hx' _ (by omega))).1
    rw [← UartRx.run_shift] at c
    have hh := (UartRx.run_high (D := D) (rxI := fun k => (fun n => (Machine.envs D p n).rx) (T + 10 * D + d + k))
      (ack := fun k => (fun k => WbSerial.rxAck (reqs D (Machine.envs D p) k)) (T + 10 * D + d + k)) (n := d') c
      (fun k hk => by rw [Nat.add_assoc, Nat.add_assoc]; exact hx' _ (by omega))).2.2.2
    rw [← UartRx.run_shift, show T + 10 * D + d + d' = T + m by omega, ← rx_run, ← rx_run, a3] at hh
    rw [Bool.eq_false_iff]
    exact fun h => absurd (hh.1 h).1 (by decide)
  -- the receiver from then on, and one that has been reset
  have shift : ∀ k, (Sys.at_ D (Machine.envs D p) (T + m + k)).ser.rx = (Sys.at_ D (Machine.envs D p) (T + m)).ser.rx.run D
      (fun k => (Machine.envs D p (T + m + k)).rx) (fun k => WbSerial.rxAck (reqs D (Machine.envs D p) (T + m + k))) k := fun k => by
    rw [rx_run, rx_run, UartRx.run_shift]
  rw [← rx_run] at s1 s2
  have S : ∀ k, UartRx.Sync ((UartRx.reset 8).run D (fun k => (Machine.envs D p (T + m + k)).rx)
      (fun k => WbSerial.rxAck (reqs D (Machine.envs D p) (T + m + k))) k) (Sys.at_ D (Machine.envs D p) (T + m + k)).ser.rx := fun k => by
    rw [shift]
    exact UartRx.sync_run ⟨by rw [s2]; rfl, .inl ⟨rfl, s1, rfl, s3⟩⟩ _ _ k
  have ht : l.Taken 8 D fun k => WbSerial.rxAck (reqs D (Machine.envs D p) (T + m + k)) := by
    refine C100_quick hD (W := 33 * K + 31) h.levels h.fits (fun k hk => ?_) (fun k hk => by have := hW k hk; omega)
    rw [(S k).rdy] at hk
    obtain ⟨a, a1, a2, a3⟩ := held _ hk
    obtain ⟨d, rfl⟩ := Nat.exists_eq_add_of_le (show T + m ≤ a by omega)
    exact ⟨d, by omega, by omega, by rw [(S d).rdy]; exact a3⟩
  obtain ⟨g1, -, g3, -⟩ := C104_rest hD s2 s1 s3 h.levels h.fits ht
  simp only [← shift] at g1 g3
  have hrec := line_list h.char h.levels h.fits (rdy := fun k => (Sys.at_ D (Machine.envs D p) (T + m + k)).ser.rx.rdy)
    (data := fun k => (Sys.at_ D (Machine.envs D p) (T + m + k)).ser.rx.data) g1
    (fun k hk => (g3 k _ hk (Nat.le_refl _) (fun j a b => by omega)).1) (R := fun k => received D (Machine.envs D p) (T + m + k)) rfl (fun _ => rfl)
  refine ⟨fun k => ?_, fun n => (C64_order _ n).1, fun i hi => ?_⟩
  · obtain ⟨j, j1, j2⟩ := hrec k
    exact ⟨j, j2, j1⟩
  · obtain ⟨j, j1, j2⟩ := hrec (l.done 8 D i)
    obtain ⟨-, t, t1, t2⟩ := C67_flow (by omega) hK h1 (T + m + l.done 8 D i)
    refine ⟨t, t1, List.IsPrefix.trans ?_ t2⟩
    have j1' : received D (Machine.envs D p) (T + m + l.done 8 D i) = _ := j1
    rw [j1']
    have hj := (j2 i).2 ⟨hi, Nat.le_refl _⟩
    obtain ⟨d, rfl⟩ := Nat.exists_eq_add_of_le (show i + 1 ≤ j by omega)
    have e : List.range (i + 1 + d) = List.range (i + 1) ++ (List.range d).map (i + 1 + ·) := List.range_add
    rw [e, List.map_append, ← List.append_assoc]
    exact List.prefix_append _ _

/-- The conditions of `C104_resync` can be met: a receiver of two bits, with 4 cycles per bit, sees a burst of noise, in the middle of which it begins
to receive something; 16 cycles later somebody reads, and then `1, 0` comes. -/
def noisyLine (t : Nat) : Bool :=
  decide (t = 1) || decide (t = 4) || (decide (8 ≤ t) && (decide (t < 40) || (decide (44 ≤ t) && decide (t < 48)) || decide (52 ≤ t)))

/-- The line of the example: one frame, from cycle 12 after the rest. -/
def noisyFrame : Line := ⟨fun k => k = 0, fun _ => [true, false], fun _ i => 12 + 4 * i⟩

example : ((UartRx.reset 2).run 4 noisyLine (fun t => t == 26) 8).count ≠ 0 ∧
    ∃ k, ((UartRx.reset 2).run 4 noisyLine (fun t => t == 26) (8 + 20 + k)).rdy = true ∧
      ((UartRx.reset 2).run 4 noisyLine (fun t => t == 26) (8 + 20 + k)).data = [true, false] := by
  refine ⟨by decide, noisyFrame.done 2 4 0, ?_⟩
  have hl : noisyFrame.Levels 2 fun k => noisyLine (8 + 20 + k) := by
    refine ⟨fun _ _ => rfl, nofun, fun k i t hk hi h1 h2 => ?_, fun t ht => ?_⟩
    · have e1 : 12 + 4 * i ≤ t := h1
      have e2 : t < 12 + 4 * (i + 1) := h2
      have : i = 0 ∨ i = 1 ∨ i = 2 ∨ i = 3 := by omega
      rcases this with rfl | rfl | rfl | rfl
      · have : t = 12 ∨ t = 13 ∨ t = 14 ∨ t = 15 := by omega
        rcases this with rfl | rfl | rfl | rfl <;> rfl
      · have : t = 16 ∨ t = 17 ∨ t = 18 ∨ t = 19 := by omega
        rcases this with rfl | rfl | rfl | rfl <;> rfl
      · have : t = 20 ∨ t = 21 ∨ t = 22 ∨ t = 23 := by omega
        rcases this with rfl | rfl | rfl | rfl <;> rfl
      · have : t = 24 ∨ t = 25 ∨ t = 26 ∨ t = 27 := by omega
        rcases this with rfl | rfl | rfl | rfl <;> rfl
    · have := ht 0 rfl
      have h : t < 12 ∨ 28 ≤ t := this
      simp only [noisyLine, Bool.or_eq_true, decide_eq_true_eq, Bool.and_eq_true]
      omega
  have hf : noisyFrame.Fits 2 4 := by
    intro k i _ h0 hi
    have h1 : noisyFrame.edge k i = 12 + 4 * i := rfl
    have h2 : noisyFrame.edge k 0 = 12 := rfl
    omega
  obtain ⟨-, h2, h3, -⟩ := C104_resync (n := 2) (D := 4) (x := noisyLine) (take := fun t => t == 26) (T := 8) (m := 20) (by decide)
    (fun k hk => by
      simp only [noisyLine, Bool.or_eq_true, decide_eq_true_eq, Bool.and_eq_true]
      omega) ⟨18, by decide, by decide, by decide⟩ hl hf nofun
  exact ⟨(h2 _).2 ⟨0, rfl, Nat.le_refl _, fun j a b => by omega⟩, (h3 0 _ rfl (Nat.le_refl _) fun j a b => by omega).1⟩

/-- The conditions of `C104_firmware` can be met: after noise for 1000 cycles, and a rest, somebody types ctrl-c, with bits 4 % too long. -/
example : ∃ p : Nat → Pins, (∀ n < 1000, (p n).rx = decide (n % 7 = 0)) ∧
    ∃ t, received 1250 (Machine.envs 1250 p) (1000 + 12564) ++ [3] <+: stores 1250 (Machine.envs 1250 p) t := by
  let q : Nat → Bool := fun n => if n < 1000 then decide (n % 7 = 0) else if n < 1000 + 12564 then true else
    moreRx 1300 (fun _ => true) 50 3 (n - (1000 + 12564))
  let p : Nat → Pins := withRx (fun _ => {}) q
  have hp : ∀ n, (p n).rx = q n := fun _ => rfl
  obtain ⟨h, hW, -⟩ := more_line (D := 1250) (e := fun _ => { rx := true }) (e' := fun k => Machine.envs 1250 p (1000 + 12564 + k))
    (l := ⟨fun _ => False, fun _ => [], fun _ _ => 0⟩) (b := fun _ => 0) (x := fun _ => true) (P := 1300) (N := 0) (t := 50) (W := 64) (c := 3)
    (by decide) (by decide) (by decide) (fun _ => rfl) (fun n => by
      show q (1000 + 12564 + n) = _
      simp only [q]
      rw [if_neg (by omega), if_neg (by omega), Nat.add_sub_cancel_left])
    ⟨nofun, ⟨nofun, nofun, nofun, fun _ _ => rfl⟩, nofun⟩ (fun k => by simp) nofun nofun nofun
  refine ⟨p, fun n hn => by rw [hp]; simp only [q]; rw [if_pos hn], ?_⟩
  obtain ⟨-, -, g⟩ := C104_firmware (D := 1250) (K := 1) (p := p) (by decide) (fun n => ⟨n, by omega, by omega, rfl⟩) (by decide) (T := 1000) (m := 12564)
    (by decide) (fun k hk => by rw [hp]; simp only [q]; rw [if_neg (by omega), if_pos (by omega)]) h hW (by decide)
  obtain ⟨t, -, ht⟩ := g 0 (show 0 < 0 + 1 by decide)
  exact ⟨t, ht⟩

end Sentinel
