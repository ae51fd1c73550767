import Verif.Props.Serial
import Verif.Spec.Line
import Mathlib.Data.Nat.Nth
/-!
# C100: the receiver on a line with another clock

`C40_stream` is about a transmitter with the same clock and divisor.  Here the line is any line whose edges
are less than half a bit off.
-/

set_option linter.unusedSimpArgs false

namespace Sentinel

theorem uartFrame_bit {d : List Bool} {i : Nat} (h : i < (uartFrame d).length) : (uartFrame d)[i] = Line.bit d i := by
  have h2 := h
  rw [uartFrame_length] at h2
  unfold Line.bit
  cases i with
  | zero => rfl
  | succ i =>
    rw [if_neg (by omega), Nat.add_sub_cancel]
    have e : (uartFrame d)[i + 1] = (d ++ [true])[i]'(by rw [List.length_append, List.length_singleton]; omega) := rfl
    rw [e, List.getElem_append]
    split
    · rename_i h'
      rw [List.getD_eq_getElem?_getD, List.getElem?_eq_getElem h']; rfl
    · rename_i h'
      rw [List.getD_eq_getElem?_getD, List.getElem?_eq_none (by omega)]
      simp

namespace UartRx

theorem run_shift {D : Nat} {s : UartRx} {rxI ack : Nat → Bool} (m n : Nat) : s.run D rxI ack (m + n) =
    (s.run D rxI ack m).run D (fun k => rxI (m + k)) (fun k => ack (m + k)) n := by
  induction n with
  | zero => rfl
  | succ n ih => rw [← Nat.add_assoc, run, ih]; rfl

/-- On a line that is high, an idle receiver only loses its character to the reader. -/
theorem run_high {D : Nat} {s : UartRx} {rxI ack : Nat → Bool} {n : Nat} (hidle : s.count = 0)
    (hx : ∀ k < n, rxI k = true) :
    (s.run D rxI ack n).count = 0 ∧ (s.run D rxI ack n).shreg = s.shreg ∧ (s.run D rxI ack n).ovf = s.ovf ∧
      ((s.run D rxI ack n).rdy = true ↔ s.rdy = true ∧ ∀ k < n, ack k = false) := by
  induction n with
  | zero => exact ⟨hidle, rfl, rfl, by simp [run]⟩
  | succ n ih =>
    obtain ⟨i1, i2, i3, i4⟩ := ih fun k hk => hx k (by omega)
    have h := hx n (by omega)
    simp only [run, step, i1, if_true, h, Bool.not_true, Bool.false_eq_true, if_false]
    cases ha : ack n
    · simp only [Bool.false_eq_true, if_false]
      refine ⟨i1, i2, i3, i4.trans (and_congr Iff.rfl ⟨fun g k hk => ?_, fun g k hk => g k (by omega)⟩)⟩
      by_cases hkn : k = n
      · rw [hkn]; exact ha
      · exact g k (by omega)
    · simp only [if_true]
      refine ⟨trivial, i2, i3, ?_⟩
      simp only [Bool.false_eq_true, false_iff, not_and]
      intro _ g
      rw [g n (by omega)] at ha
      exact absurd ha (by decide)

end UartRx

namespace Line

variable {l : Line} {n D : Nat} {x ack : Nat → Bool}

theorem sent_mono (h : l.Levels n x) {j k : Nat} (hjk : j ≤ k) (hk : l.sent k) : l.sent j := by
  induction k with
  | zero => rwa [Nat.le_zero.1 hjk]
  | succ k ih =>
    by_cases e : j = k + 1
    · rwa [e]
    · exact ih (by omega) (h.order k hk).1

theorem done_le (hf : l.Fits n D) {k : Nat} (hk : l.sent k) : l.done n D k ≤ l.edge k (n + 2) := by
  have := (hf k (n + 2) hk (by omega) (Nat.le_refl _)).1
  rw [show (n + 2) * D = (n + 1) * D + D by ring] at this
  unfold done
  omega

theorem edge_lt (hf : l.Fits n D) (h : l.Levels n x) {j k : Nat} (hjk : j < k) (hk : l.sent k) :
    l.done n D j ≤ l.edge j (n + 2) ∧ l.edge j (n + 2) ≤ l.edge k 0 := by
  induction k with
  | zero => omega
  | succ k ih =>
    obtain ⟨h1, h2⟩ := h.order k hk
    by_cases e : j = k
    · rw [e]; exact ⟨done_le hf h1, h2⟩
    · obtain ⟨i1, i2⟩ := ih (by omega) h1
      have := done_le hf h1
      unfold done at this
      exact ⟨i1, by omega⟩

/-- The line is high after a frame until the next. -/
theorem high_after (hf : l.Fits n D) (h : l.Levels n x) {k t : Nat} (hk : l.sent k) (h1 : l.done n D k ≤ t)
    (h2 : l.sent (k + 1) → t < l.edge (k + 1) 0) : x t = true := by
  by_cases he : t < l.edge k (n + 2)
  · have := (hf k (n + 1) hk (by omega) (by omega)).2 (by omega)
    rw [h.bits k (n + 1) t hk (by omega) (by unfold done at h1; omega) he]
    unfold bit
    rw [if_neg (by omega), List.getD_eq_getElem?_getD, List.getElem?_eq_none (by rw [h.len k hk]; omega)]; rfl
  · refine h.high t fun j hj => ?_
    rcases Nat.lt_trichotomy j k with hjk | rfl | hjk
    · have := edge_lt hf h hjk hk
      have := done_le hf hk
      unfold done at this
      exact .inr (by omega)
    · exact .inr (by omega)
    · left
      have hs := sent_mono h (show k + 1 ≤ j by omega) hj
      have := h2 hs
      by_cases e : j = k + 1
      · rwa [e]
      · have := edge_lt hf h (show k + 1 < j by omega) hj
        have := done_le hf hs
        unfold done at this
        omega

theorem high_before (hf : l.Fits n D) (h : l.Levels n x) {t : Nat} (h2 : l.sent 0 → t < l.edge 0 0) : x t = true := by
  refine h.high t fun j hj => ?_
  have hs := sent_mono h (Nat.zero_le j) hj
  have := h2 hs
  left
  by_cases e : j = 0
  · rwa [e]
  · have := edge_lt hf h (show 0 < j by omega) hj
    have := done_le hf hs
    unfold done at this
    omega

/-- What holds of the receiver in a cycle. -/
structure Ready (n D : Nat) (x ack : Nat → Bool) (t : Nat) : Prop where
  idle : ((UartRx.reset n).run D x ack t).count = 0
  len : ((UartRx.reset n).run D x ack t).shreg.length = n + 2
  room : ((UartRx.reset n).run D x ack t).rdy = false ∨ ack t = true
  ovf : ((UartRx.reset n).run D x ack t).ovf = false

/-- What holds of the receiver during and after a frame. -/
structure Got (l : Line) (n D : Nat) (x ack : Nat → Bool) (k : Nat) : Prop where
  quiet : ∀ m, l.edge k 0 < m → m < l.done n D k → ((UartRx.reset n).run D x ack m).rdy = false
  after : ∀ m, l.done n D k ≤ m → (l.sent (k + 1) → m ≤ l.edge (k + 1) 0) →
    ((UartRx.reset n).run D x ack m).count = 0 ∧ ((UartRx.reset n).run D x ack m).data = l.char k ∧
    ((UartRx.reset n).run D x ack m).err = false ∧ ((UartRx.reset n).run D x ack m).ovf = false ∧
    (((UartRx.reset n).run D x ack m).rdy = true ↔ ∀ j, l.done n D k ≤ j → j < m → ack j = false)

theorem shreg_len {D : Nat} {s : UartRx} {x ack : Nat → Bool} {n : Nat} (h0 : s.shreg.length = n + 2) (m : Nat) :
    (s.run D x ack m).shreg.length = n + 2 := by
  induction m with
  | zero => exact h0
  | succ m ih =>
    simp only [UartRx.run]
    generalize s.run D x ack m = u at *
    unfold UartRx.step
    split
    · split
      · split <;> exact ih
      · split <;> exact ih
    · split
      · exact ih
      · simp only [List.length_append, List.length_tail, List.length_singleton]
        omega

/-- The overflow flag is not raised while the receiver has room or the line is high. -/
theorem no_ovf {D : Nat} {s : UartRx} {x ack : Nat → Bool} {m : Nat} (h0 : s.ovf = false)
    (h : ∀ j < m, (s.run D x ack j).count = 0 → (s.run D x ack j).rdy = true → ack j = false → x j = true) :
    (s.run D x ack m).ovf = false := by
  induction m with
  | zero => exact h0
  | succ m ih =>
    have := h m (by omega)
    have ih := ih fun j hj => h j (by omega)
    simp only [UartRx.run]
    generalize s.run D x ack m = u at *
    unfold UartRx.step
    split
    · rename_i hc
      split
      · rename_i hx
        split
        · rfl
        · rename_i hr
          simp only [Bool.or_eq_true, Bool.not_eq_true', not_or, Bool.not_eq_true, Bool.not_eq_false] at hr
          have := this hc hr.2 hr.1
          rw [this] at hx
          exact absurd hx (by decide)
      · split <;> exact ih
    · split <;> exact ih

theorem got_of_ready (hD : 2 ≤ D) (hf : l.Fits n D) (h : l.Levels n x) {k : Nat} (hk : l.sent k)
    (r : Ready n D x ack (l.edge k 0)) : Got l n D x ack k := by
  have hlen := h.len k hk
  have e1 := (hf k 1 hk (by omega) (by omega)).1
  have hC := C40_receive hD (s := (UartRx.reset n).run D x ack (l.edge k 0)) (rxI := fun t => x (l.edge k 0 + t))
    (ack := fun t => ack (l.edge k 0 + t)) (d := l.char k) r.idle (by rw [r.len, hlen]) r.room
    (h.bits k 0 _ hk (by omega) (by omega) (by rw [Nat.zero_add]; omega)) (fun i hi => by
      rw [uartFrame_bit]
      rw [uartFrame_length, hlen] at hi
      have e2 := (hf k (i + 1) hk (by omega) (by omega)).1
      rw [Nat.succ_mul] at e2
      refine h.bits k i _ hk hi ?_ (by omega)
      by_cases hi0 : i = 0
      · subst hi0; omega
      · have := (hf k i hk (by omega) (by omega)).2 hi
        omega)
  simp only [← UartRx.run_shift, hlen] at hC
  obtain ⟨c1, c2, c3, c4, c5, c6⟩ := hC
  have hd : l.done n D k = l.edge k 0 + rxLatency D n := rfl
  rw [← hd] at c1 c2 c3 c4 c5
  refine ⟨fun m h1 h2 => ?_, fun m h1 h2 => ?_⟩
  · obtain ⟨j, rfl⟩ := Nat.exists_eq_add_of_lt h1
    exact c6 (j + 1) (by omega) (by omega)
  · obtain ⟨j, rfl⟩ := Nat.exists_eq_add_of_le h1
    have hh := UartRx.run_high (D := D) (rxI := fun t => x (l.done n D k + t)) (ack := fun t => ack (l.done n D k + t))
      (n := j) c5 (fun t ht => high_after hf h hk (by omega) fun hs => by have := h2 hs; omega)
    rw [← UartRx.run_shift] at hh
    obtain ⟨g1, g2, g3, g4⟩ := hh
    refine ⟨g1, by rw [UartRx.data, g2]; exact c2, ?_, by rw [g3, c4], g4.trans ⟨fun g i h3 h4 => ?_, fun g => ⟨c1, fun i hi => g _ (by omega) (by omega)⟩⟩⟩
    · rw [UartRx.err, c5] at c3
      rw [UartRx.err, g1, g2]
      exact c3
    obtain ⟨i, rfl⟩ := Nat.exists_eq_add_of_le h3
    exact g.2 i (by omega)

theorem ready_zero (hf : l.Fits n D) (h : l.Levels n x) : Ready n D x ack (l.edge 0 0) := by
  have hh := UartRx.run_high (D := D) (s := UartRx.reset n) (rxI := x) (ack := ack) (n := l.edge 0 0) rfl
    (fun t h' => high_before hf h fun _ => h')
  refine ⟨hh.1, shreg_len (by simp [UartRx.reset]; omega) _, .inl ?_, hh.2.2.1⟩
  have := hh.2.2.2
  simp only [UartRx.reset, Bool.false_eq_true, false_and, iff_false, Bool.not_eq_true] at this
  exact this

theorem ready_succ (hf : l.Fits n D) (h : l.Levels n x) {k : Nat} (hk : l.sent (k + 1)) (g : Got l n D x ack k)
    (ht : ∃ a, l.done n D k ≤ a ∧ a ≤ l.edge (k + 1) 0 ∧ ack a = true) : Ready n D x ack (l.edge (k + 1) 0) := by
  have hl := edge_lt hf h (Nat.lt_add_one k) hk
  obtain ⟨g1, -, -, g4, g5⟩ := g.after (l.edge (k + 1) 0) (by omega) (fun _ => Nat.le_refl _)
  refine ⟨g1, shreg_len (by simp [UartRx.reset]; omega) _, ?_, g4⟩
  obtain ⟨a, a1, a2, a3⟩ := ht
  by_cases e : a = l.edge (k + 1) 0
  · right; rw [← e]; exact a3
  · left
    rw [Bool.eq_false_iff]
    intro hr
    rw [g5.1 hr a a1 (by omega)] at a3
    exact absurd a3 (by decide)

theorem ready (hD : 2 ≤ D) (hf : l.Fits n D) (h : l.Levels n x) (ht : l.Taken n D ack) (k : Nat) (hk : l.sent k) :
    Ready n D x ack (l.edge k 0) := by
  induction k with
  | zero => exact ready_zero hf h
  | succ k ih =>
    have hk' := (h.order k hk).1
    exact ready_succ hf h hk (got_of_ready hD hf h hk' (ih hk')) (ht k hk)

theorem got (hD : 2 ≤ D) (hf : l.Fits n D) (h : l.Levels n x) (ht : l.Taken n D ack) {k : Nat} (hk : l.sent k) :
    Got l n D x ack k := got_of_ready hD hf h hk (ready hD hf h ht k hk)

/-- Every cycle is before the first frame, during one or after one. -/
theorem place (h : l.Levels n x) (hf : l.Fits n D) (m : Nat) : (l.sent 0 → m ≤ l.edge 0 0) ∨
    ∃ k, l.sent k ∧ l.edge k 0 < m ∧ (l.sent (k + 1) → m ≤ l.edge (k + 1) 0) := by
  classical
  by_cases h0 : l.sent 0 → m ≤ l.edge 0 0
  · exact .inl h0
  · push Not at h0
    right
    by_contra hc
    push Not at hc
    have : ∀ k, l.sent k ∧ l.edge k 0 < m ∧ k ≤ l.edge k 0 := by
      intro k
      induction k with
      | zero => exact ⟨h0.1, h0.2, Nat.zero_le _⟩
      | succ k ih =>
        obtain ⟨c1, c2⟩ := hc k ih.1 ih.2.1
        have := edge_lt hf h (Nat.lt_add_one k) c1
        unfold done at this
        exact ⟨c1, c2, by omega⟩
    have := this m
    omega

end Line

/-- **C100**: a receiver, reset with the line at rest, on a line whose edges are less than half a bit off,
whatever drives it, and whose characters are taken before the next one begins, gets exactly the characters
sent, in order: character `k` appears in cycle `done k`, nothing else appears, it is presented without
error until it is taken, and the overflow flag is never raised. -/
theorem C100_receive {n D : Nat} (hD : 2 ≤ D) {l : Line} {x take : Nat → Bool} (hl : l.Levels n x)
    (hf : l.Fits n D) (ht : l.Taken n D take) :
    let rx := fun m => (UartRx.reset n).run D x take m
    (∀ m, (rx m).rdy = false ∧ (rx (m + 1)).rdy = true ↔ ∃ k, l.sent k ∧ m + 1 = l.done n D k) ∧
    (∀ m, (rx m).rdy = true ↔ ∃ k, l.sent k ∧ l.done n D k ≤ m ∧ (∀ j, l.done n D k ≤ j → j < m → take j = false)) ∧
    (∀ k m, l.sent k → l.done n D k ≤ m → (∀ j, l.done n D k ≤ j → j < m → take j = false) →
      (rx m).data = l.char k ∧ (rx m).err = false) ∧
    ∀ m, (rx m).ovf = false := by
  intro rx
  have lt : ∀ {j k}, j < k → l.sent k → l.done n D j ≤ l.edge k 0 ∧ l.edge k 0 < l.done n D k := fun hjk hk => by
    have := Line.edge_lt hf hl hjk hk
    unfold Line.done at *
    exact ⟨by omega, by omega⟩
  have mono : ∀ {j k}, j ≤ k → l.sent k → l.done n D j ≤ l.done n D k := fun {j k} hjk hk => by
    by_cases e : j = k
    · rw [e]
    · have := lt (show j < k by omega) hk
      omega
  -- a character that has not been taken is before the next frame
  have notaken : ∀ {k m}, l.sent (k + 1) → (∀ j, l.done n D k ≤ j → j < m → take j = false) → m ≤ l.edge (k + 1) 0 := by
    intro k m hk h
    obtain ⟨a, a1, a2, a3⟩ := ht k hk
    by_contra hc
    rw [h a a1 (by omega)] at a3
    exact absurd a3 (by decide)
  have h2 : ∀ m, (rx m).rdy = true ↔ ∃ k, l.sent k ∧ l.done n D k ≤ m ∧ (∀ j, l.done n D k ≤ j → j < m → take j = false) := by
    intro m
    rcases Line.place hl hf m with h0 | ⟨k, hk, hkm, hnext⟩
    · have hh := (UartRx.run_high (D := D) (s := UartRx.reset n) (rxI := x) (ack := take) (n := m) rfl
        (fun t h' => Line.high_before hf hl fun hs => by have := h0 hs; omega)).2.2.2
      have hr : (rx m).rdy = false := by
        simp only [UartRx.reset, Bool.false_eq_true, false_and, iff_false, Bool.not_eq_true] at hh
        exact hh
      rw [hr]
      simp only [Bool.false_eq_true, false_iff]
      rintro ⟨k, hk, h1, -⟩
      have hs := Line.sent_mono hl (Nat.zero_le k) hk
      have := h0 hs
      have := mono (Nat.zero_le k) hk
      unfold Line.done at *
      omega
    · have g := Line.got hD hf hl ht hk
      have other : ∀ k', l.sent k' → l.done n D k' ≤ m → (∀ j, l.done n D k' ≤ j → j < m → take j = false) →
          k' = k ∧ l.done n D k ≤ m := by
        intro k' hk' h1 h2
        rcases Nat.lt_trichotomy k' k with h | rfl | h
        · have hs := Line.sent_mono hl (show k' + 1 ≤ k by omega) hk
          have := notaken hs h2
          by_cases e : k' + 1 = k
          · rw [e] at this; omega
          · have := lt (show k' + 1 < k by omega) hk
            have := lt (show k' < k' + 1 by omega) hs
            omega
        · exact ⟨rfl, h1⟩
        · have hs := Line.sent_mono hl (show k + 1 ≤ k' by omega) hk'
          have h3 := hnext hs
          have := mono (show k + 1 ≤ k' by omega) hk'
          have := lt (show k < k + 1 by omega) hs
          omega
      by_cases hm : l.done n D k ≤ m
      · rw [show (rx m).rdy = true ↔ _ from (g.after m hm hnext).2.2.2.2]
        refine ⟨fun h => ⟨k, hk, hm, h⟩, ?_⟩
        rintro ⟨k', hk', h1, h2⟩
        obtain ⟨rfl, -⟩ := other k' hk' h1 h2
        exact h2
      · rw [show (rx m).rdy = false from g.quiet m hkm (by omega)]
        simp only [Bool.false_eq_true, false_iff]
        rintro ⟨k', hk', h1, h2⟩
        exact hm (other k' hk' h1 h2).2
  refine ⟨fun m => ?_, h2, fun k m hk h1 h3 => ?_, fun m => ?_⟩
  · constructor
    · rintro ⟨r0, r1⟩
      obtain ⟨k, hk, h1, h3⟩ := (h2 (m + 1)).1 r1
      refine ⟨k, hk, ?_⟩
      by_contra hc
      have := (h2 m).2 ⟨k, hk, by omega, fun j a b => h3 j a (by omega)⟩
      rw [r0] at this
      exact absurd this (by decide)
    · rintro ⟨k, hk, he⟩
      refine ⟨?_, (h2 _).2 ⟨k, hk, by omega, fun j a b => by omega⟩⟩
      exact (Line.got hD hf hl ht hk).quiet m (by unfold Line.done at he; omega) (by omega)
  · have g := (Line.got hD hf hl ht hk).after m h1 fun hs => notaken hs h3
    exact ⟨g.2.1, g.2.2.1⟩
  · refine Line.no_ovf rfl fun j _ _ hr ha => ?_
    obtain ⟨k, hk, h1, h3⟩ := (h2 j).1 hr
    refine Line.high_after hf hl hk h1 fun hs => ?_
    obtain ⟨a, a1, a2, a3⟩ := ht k hs
    have := notaken hs h3
    by_contra hc
    have e : a = j ∨ a < j := by omega
    rcases e with rfl | e
    · rw [ha] at a3; exact absurd a3 (by decide)
    · rw [h3 a a1 e] at a3; exact absurd a3 (by decide)

/-- **C100** (a reader who is quick enough): if every character presented is taken within `W` cycles, and frames begin
no less than `W` cycles after the one before has been received, then each is taken before the next one begins. -/
theorem C100_quick {n D W : Nat} (hD : 2 ≤ D) {l : Line} {x take : Nat → Bool} (hl : l.Levels n x) (hf : l.Fits n D)
    (hW : ∀ m, ((UartRx.reset n).run D x take m).rdy = true →
      ∃ m' ≥ m, m' ≤ m + W ∧ ((UartRx.reset n).run D x take m').rdy = false)
    (hgap : ∀ k, l.sent (k + 1) → l.done n D k + W ≤ l.edge (k + 1) 0) : l.Taken n D take := by
  have step : ∀ k, l.sent (k + 1) → Line.Ready n D x take (l.edge k 0) →
      ∃ a, l.done n D k ≤ a ∧ a ≤ l.edge (k + 1) 0 ∧ take a = true := by
    intro k hk r
    have g := Line.got_of_ready hD hf hl (hl.order k hk).1 r
    have hd : l.done n D k ≤ l.edge (k + 1) 0 := by have := hgap k hk; omega
    obtain ⟨m, m1, m2, m3⟩ := hW _ ((g.after _ (Nat.le_refl _) fun _ => hd).2.2.2.2.2 fun j a b => by omega)
    have hm : m ≤ l.edge (k + 1) 0 := by have := hgap k hk; omega
    by_contra hno
    have := (g.after m m1 fun _ => hm).2.2.2.2.2 fun j a b => by
      rw [Bool.eq_false_iff]
      exact fun hj => hno ⟨j, a, by omega, hj⟩
    rw [m3] at this
    exact absurd this (by decide)
  have ready : ∀ k, l.sent k → Line.Ready n D x take (l.edge k 0) := by
    intro k
    induction k with
    | zero => exact fun _ => Line.ready_zero hf hl
    | succ k ih =>
      intro hk
      have hk' := (hl.order k hk).1
      exact Line.ready_succ hf hl hk (Line.got_of_ready hD hf hl hk' (ih hk')) (step k hk (ih hk'))
  exact fun k hk => step k hk (ready k (hl.order k hk).1)

theorem Wave.line_levels {n : Nat} {w : Wave} {x : Nat → Bool} (h : w.Levels n x) : w.line.Levels n x where
  len := h.len
  order k hk := ⟨(h.order k hk).1, Nat.ceil_mono (h.order k hk).2⟩
  bits k i t hk hi h1 h2 := h.bits k i t hk hi (Nat.ceil_le.1 h1) (Nat.lt_ceil.1 h2)
  high t ht := h.high t fun k hk => (ht k hk).imp Nat.lt_ceil.1 Nat.ceil_le.1

theorem Wave.line_fits {n D : Nat} {w : Wave} (hp : ∀ k, w.sent k → 0 ≤ w.edge k 0) (hf : w.Fits n D) :
    w.line.Fits n D := by
  intro k i hk h0 hi
  have h := abs_le.1 (hf k i hk h0 hi)
  have h1 : (2 : ℝ) * (D / 2 : Nat) ≤ D := by exact_mod_cast Nat.mul_div_le D 2
  have h2 : (D : ℝ) ≤ 2 * (D / 2 : Nat) + 1 := by
    have : D ≤ 2 * (D / 2) + 1 := by omega
    exact_mod_cast this
  have hD0 : (0 : ℝ) ≤ (i : ℝ) * D := by positivity
  have c0 := Nat.ceil_lt_add_one (hp k hk)
  have c1 := Nat.le_ceil (w.edge k i)
  have c2 := Nat.le_ceil (w.edge k 0)
  show ⌈w.edge k 0⌉₊ + i * D + 2 + D / 2 ≤ ⌈w.edge k i⌉₊ + D ∧ _
  constructor
  · have : ((⌈w.edge k 0⌉₊ + i * D + 2 + D / 2 : Nat) : ℝ) ≤ (⌈w.edge k i⌉₊ + D : Nat) := by
      push_cast
      linarith [h.1]
    exact_mod_cast this
  · intro _
    show ⌈w.edge k i⌉₊ ≤ ⌈w.edge k 0⌉₊ + i * D + D / 2 + 1
    apply Nat.ceil_le.2
    push_cast
    linarith [h.2]

/-- **C100** (clocks): what `C100_receive` says holds of any line, in real time, whose edges are within half a
bit, less three cycles, of where they should be: with 8 bits, of a sender whose clock is nearly 5 % off. -/
theorem C100_wave {n D : Nat} (hD : 2 ≤ D) {w : Wave} {x take : Nat → Bool} (hl : w.Levels n x)
    (hp : ∀ k, w.sent k → 0 ≤ w.edge k 0) (hf : w.Fits n D) (ht : w.line.Taken n D take) :
    let rx := fun m => (UartRx.reset n).run D x take m
    (∀ m, (rx m).rdy = false ∧ (rx (m + 1)).rdy = true ↔ ∃ k, w.sent k ∧ m + 1 = w.line.done n D k) ∧
    (∀ m, (rx m).rdy = true ↔
      ∃ k, w.sent k ∧ w.line.done n D k ≤ m ∧ (∀ j, w.line.done n D k ≤ j → j < m → take j = false)) ∧
    (∀ k m, w.sent k → w.line.done n D k ≤ m → (∀ j, w.line.done n D k ≤ j → j < m → take j = false) →
      (rx m).data = w.char k ∧ (rx m).err = false) ∧
    ∀ m, (rx m).ovf = false :=
  C100_receive hD (Wave.line_levels hl) (Wave.line_fits hp hf) ht

/-- A sender with bits of `P` cycles of the receiver. -/
theorem Wave.fits_period {n D : Nat} {w : Wave} {P : ℝ} (he : ∀ k i, w.sent k → w.edge k i = w.edge k 0 + i * P)
    (hP : (n + 2) * |P - D| ≤ D / 2 - 3) : w.Fits n D := by
  intro k i hk h0 hi
  rw [he k i hk, show w.edge k 0 + i * P - (w.edge k 0 + i * D) = i * (P - D) by ring, abs_mul, Nat.abs_cast]
  refine le_trans (mul_le_mul_of_nonneg_right ?_ (abs_nonneg _)) hP
  exact_mod_cast hi

/-! ## The serial ports -/

/-- **C100** (Wishbone serial port): on such a line, if each character is read before the next begins, the
`k`-th read gets the `k`-th character: the first read from `done k` on returns it, the interrupt is raised in
the cycle after `done k`, and the overflow flag never. -/
theorem C100_wb {D : Nat} (hD : 2 ≤ D) {l : Line} {b : Nat → BitVec 8} {r : Nat → WbReq} {x : Nat → Bool}
    (hb : ∀ k, l.sent k → l.char k = byteBits (b k)) (hl : l.Levels 8 x) (hf : l.Fits 8 D)
    (ht : ∀ k, l.sent (k + 1) → ∃ a, l.done 8 D k ≤ a ∧ a ≤ l.edge (k + 1) 0 ∧ DataRead (r a)) :
    let at' := fun n => WbSerial.reset.run D r x n
    (∀ n, WbSerial.RxEvent D r x n ↔ ∃ k, l.sent k ∧ n = l.done 8 D k) ∧
    (∀ k n, l.sent k → l.done 8 D k ≤ n → (∀ j, l.done 8 D k ≤ j → j < n → ¬ DataRead (r j)) →
      DataRead (r n) → (at' n).ack = false →
      (at' (n + 1)).ack = true ∧ (at' (n + 1)).datR = b k ∧ (at' (n + 1)).rx.rdy = false) ∧
    (∀ k, l.sent k → (at' (l.done 8 D k + 1)).irq = true) ∧
    ∀ n, (at' n).rx.ovf = false := by
  intro at'
  have ack_iff : ∀ q, WbSerial.rxAck q = true ↔ DataRead q := fun q => by
    simp only [WbSerial.rxAck, WbSerial.dataReq, DataRead, Bool.and_eq_true, Bool.not_eq_true']
    constructor
    · rintro ⟨⟨⟨⟨a, b⟩, c⟩, d⟩, e⟩; exact ⟨b, a, c, e, d⟩
    · rintro ⟨b, a, c, e, d⟩; exact ⟨⟨⟨⟨a, b⟩, c⟩, d⟩, e⟩
  have hrx : ∀ n, (at' n).rx = (UartRx.reset 8).run D x (fun m => WbSerial.rxAck (r m)) n := fun n => WbSerial.rx_run n
  obtain ⟨h1, h2, h3, h4⟩ := C100_receive hD (take := fun m => WbSerial.rxAck (r m)) hl hf fun k hk => by
    obtain ⟨a, a1, a2, a3⟩ := ht k hk
    exact ⟨a, a1, a2, (ack_iff _).2 a3⟩
  simp only [← hrx] at h1 h2 h3 h4
  have ev : ∀ n, WbSerial.RxEvent D r x n ↔ ∃ k, l.sent k ∧ n = l.done 8 D k := fun n => by
    cases n with
    | zero =>
      constructor
      · rintro ⟨h, -⟩
        exact absurd h Bool.false_ne_true
      · rintro ⟨k, -, h⟩
        unfold Line.done at h
        omega
    | succ n =>
      rw [← h1 n]
      unfold WbSerial.RxEvent
      rw [Nat.add_sub_cancel]
      exact ⟨fun ⟨a, b⟩ => ⟨b.resolve_left (by omega), a⟩, fun ⟨a, b⟩ => ⟨b, .inr a⟩⟩
  refine ⟨ev, fun k n hk hn hno hread hack => ?_, fun k hk => ?_, h4⟩
  · have hn' : ∀ j, l.done 8 D k ≤ j → j < n → WbSerial.rxAck (r j) = false := fun j a c => by
      rw [Bool.eq_false_iff]
      exact fun h => hno j a c ((ack_iff _).1 h)
    have hr := (h2 n).2 ⟨k, hk, hn, hn'⟩
    have hd := (h3 k n hk hn hn').1
    have he := (h3 k n hk hn hn').2
    obtain ⟨g1, g2, g3, g4, g5⟩ := hread
    refine ⟨?_, ?_, ?_⟩
    · show ((r n).stb && (r n).cyc && !_) = true
      rw [show (WbSerial.run D WbSerial.reset r x n).ack = false from hack]; simp [g1, g2]
    · show (if WbSerial.irqRead _ _ then _ else if WbSerial.dataReq _ then bitsByte (UartRx.data _) else _) = b k
      rw [if_neg (by simp [-BitVec.getLsbD_eq_getElem, WbSerial.irqRead, g5]),
        if_pos (by simp [-BitVec.getLsbD_eq_getElem, WbSerial.dataReq, *])]
      rw [show (WbSerial.run D WbSerial.reset r x n).rx.data = l.char k from hd, hb k hk, bitsByte_byteBits]
    · rw [Bool.eq_false_iff]
      intro hc
      obtain ⟨k', hk', c1, c2⟩ := (h2 (n + 1)).1 hc
      have hlast : WbSerial.rxAck (r n) = true := (ack_iff _).2 ⟨g1, g2, g3, g4, g5⟩
      by_cases e : l.done 8 D k' ≤ n
      · have := c2 n e (by omega)
        rw [hlast] at this
        exact absurd this (by decide)
      · have := (h1 n).2 ⟨k', hk', by omega⟩
        rw [hr] at this
        exact absurd this.1 (by decide)
  · have := (C46_irq D r x (l.done 8 D k + 1)).1.2 ⟨_, by omega, (ev _).2 ⟨k, hk, rfl⟩, fun j a c => by omega⟩
    exact (C46_irq D r x (l.done 8 D k + 1)).2.2.1.2 (.inl this)

/-- **C100** (CSR-bus serial port): the same; the character is in the data register from `done k` until it is
read. -/
theorem C100_csr {D : Nat} (hD : 2 ≤ D) {l : Line} {b : Nat → BitVec 8} {q : Nat → SerialStb} {x : Nat → Bool}
    (hb : ∀ k, l.sent k → l.char k = byteBits (b k)) (hl : l.Levels 8 x) (hf : l.Fits 8 D)
    (ht : l.Taken 8 D fun n => (q n).rStb) :
    let at' := fun n => CsrSerial.reset.run D q x n
    (∀ n, (at' n).rx.rdy = true ↔
      ∃ k, l.sent k ∧ l.done 8 D k ≤ n ∧ ∀ j, l.done 8 D k ≤ j → j < n → (q j).rStb = false) ∧
    (∀ k n, l.sent k → l.done 8 D k ≤ n → (∀ j, l.done 8 D k ≤ j → j < n → (q j).rStb = false) →
      (at' n).data = b k) ∧
    (∀ k, l.sent k → (at' (l.done 8 D k + 1)).irq = true) ∧
    ∀ n, (at' n).rx.ovf = false := by
  intro at'
  have hrx : ∀ n, (at' n).rx = (UartRx.reset 8).run D x (fun m => (q m).rStb) n := fun n => CsrSerial.rx_run n
  obtain ⟨h1, h2, h3, h4⟩ := C100_receive hD hl hf ht
  simp only [← hrx] at h1 h2 h3 h4
  refine ⟨h2, fun k n hk hn hno => ?_, fun k hk => ?_, h4⟩
  · show bitsByte (at' n).rx.data = b k
    rw [(h3 k n hk hn hno).1, hb k hk, bitsByte_byteBits]
  · obtain ⟨m, hm⟩ : ∃ m, l.done 8 D k = m + 1 := ⟨l.done 8 D k - 1, by unfold Line.done; omega⟩
    obtain ⟨g1, g2⟩ := (h1 m).2 ⟨k, hk, hm.symm⟩
    have e : (at' (m + 1)).rxPrev = false := g1
    show (CsrSerial.step D _ _ _).irq = true
    rw [hm]
    show ((if (at' (m + 1)).rx.rdy && !(at' (m + 1)).rxPrev then true else _) || _) = true
    rw [g2, e]
    rfl

/-! ## Two boards with different clocks -/

/-- A transmitter of `n`-bit characters, with `D` of its own clock cycles per bit, that is offered `data` when
`rdy`. -/
structure Sender where
  n : Nat
  D : Nat
  rdy : Nat → Bool
  data : Nat → List Bool

namespace Sender

/-- The transmitter in its cycle `t`. -/
def tx (s : Sender) (t : Nat) : UartTx := (UartTx.reset s.n).run s.D s.rdy s.data t

/-- It takes a character in its cycle `t`. -/
def Takes (s : Sender) (t : Nat) : Prop := (s.tx t).ack = true ∧ s.rdy t = true

instance (s : Sender) : DecidablePred s.Takes := fun _ => inferInstanceAs (Decidable (_ ∧ _))

/-- The cycle of the transmitter in which it takes its `k`-th character. -/
noncomputable def takes (s : Sender) (k : Nat) : Nat := Nat.nth s.Takes k

/-- What it sends: its cycle `j` begins at time `a + c * j`. -/
noncomputable def wave (s : Sender) (a c : ℝ) : Wave where
  sent k := ∃ t, s.Takes t ∧ Nat.count s.Takes t = k
  char k := s.data (s.takes k)
  edge k i := a + c * ((s.takes k + 1 + i * s.D : Nat) : ℝ)

/-- `x` are the levels of a line driven by it, as sampled by the receiver; before its first cycle the line is
high. -/
structure Drives (s : Sender) (a c : ℝ) (x : Nat → Bool) : Prop where
  high : ∀ t : Nat, t < a → x t = true
  level : ∀ t j : Nat, a + c * j ≤ t → t < a + c * (j + 1 : Nat) → x t = (s.tx j).out

theorem sent_takes {s : Sender} {a c : ℝ} {k : Nat} (h : (s.wave a c).sent k) : s.Takes (s.takes k) := by
  obtain ⟨t, h1, rfl⟩ := h
  unfold takes
  rw [Nat.nth_count h1]
  exact h1

theorem takes_eq {s : Sender} {t : Nat} (h : s.Takes t) : s.takes (Nat.count s.Takes t) = t := Nat.nth_count h

theorem count_back {s : Sender} {k t : Nat} (h : Nat.count s.Takes t = k + 1) :
    ∃ u < t, s.Takes u ∧ Nat.count s.Takes u = k := by
  induction t with
  | zero => simp at h
  | succ t ih =>
    rw [Nat.count_succ] at h
    by_cases ht : s.Takes t
    · rw [if_pos ht] at h
      exact ⟨t, by omega, ht, by omega⟩
    · rw [if_neg ht] at h
      obtain ⟨u, h1, h2⟩ := ih h
      exact ⟨u, by omega, h2⟩

variable {s : Sender}

/-- The transmitter is ready with the line high, or in a frame. -/
theorem idle_or_frame (hD : 0 < s.D) (hdata : ∀ t, (s.data t).length = s.n) (m : Nat) :
    ((s.tx m).ack = true ∧ (s.tx m).out = true ∧ (s.tx m).shreg.length = s.n + 2 ) ∨
    ∃ t i, s.Takes t ∧ i < (s.n + 2) * s.D ∧ m = t + 1 + i ∧ (s.tx t).shreg.length = s.n + 2 := by
  induction m with
  | zero =>
    left
    refine ⟨rfl, ?_, by simp [tx, UartTx.run, UartTx.reset]; omega⟩
    simp only [tx, UartTx.run, UartTx.reset, UartTx.out]
    rw [show 1 + s.n + 1 = (s.n + 1) + 1 by omega, List.replicate_succ]; rfl
  | succ m ih =>
    rcases ih with ⟨h1, h2, h3⟩ | ⟨t, i, h1, h2, rfl, h3⟩
    · by_cases hr : s.rdy m = true
      · exact .inr ⟨m, 0, ⟨h1, hr⟩, Nat.mul_pos (by omega) hD, rfl, h3⟩
      · left
        have : s.tx (m + 1) = s.tx m := by
          show (s.tx m).step _ _ _ = _
          rw [UartTx.step, if_pos (by simpa [UartTx.ack] using h1), if_neg hr]
        rw [this]
        exact ⟨h1, h2, h3⟩
    · by_cases he : i + 1 = (s.n + 2) * s.D
      · left
        have hc := C40_transmit hD (s := s.tx t) (rdy := fun k => s.rdy (t + k)) (data := fun k => s.data (t + k))
          h1.1 (by rw [h3, hdata]) h1.2
        simp only [← run_add, hdata] at hc
        have e : t + 1 + i + 1 = t + (1 + (s.n + 2) * s.D) := by omega
        rw [e]
        exact ⟨hc.2.1, hc.2.2.1, hc.2.2.2⟩
      · exact .inr ⟨t, i + 1, h1, by omega, by omega, h3⟩
where
  run_add (m k : Nat) : s.tx (m + k) = (s.tx m).run s.D (fun k => s.rdy (m + k)) (fun k => s.data (m + k)) k := by
    induction k with
    | zero => rfl
    | succ k ih => rw [← Nat.add_assoc, UartTx.run, ← ih]; rfl

/-- In a frame the transmitter drives the frame and takes nothing. -/
theorem frame (hD : 0 < s.D) (hdata : ∀ t, (s.data t).length = s.n) {t i : Nat} (h : s.Takes t)
    (hi : i < (s.n + 2) * s.D) : (s.tx (t + 1 + i)).out = Line.bit (s.data t) (i / s.D) ∧ ¬ s.Takes (t + 1 + i) := by
  have h3 : (s.tx t).shreg.length = s.n + 2 := by
    rcases idle_or_frame hD hdata t with h' | ⟨u, j, h1, h2, rfl, h3⟩
    · exact h'.2.2
    · exfalso
      have hc := C40_transmit hD (s := s.tx u) (rdy := fun k => s.rdy (u + k)) (data := fun k => s.data (u + k))
        h1.1 (by rw [h3, hdata]) h1.2
      simp only [← idle_or_frame.run_add, hdata] at hc
      have := (hc.1 j h2).2
      rw [← Nat.add_assoc] at this
      rw [h.1] at this
      exact absurd this (by decide)
  have hc := C40_transmit hD (s := s.tx t) (rdy := fun k => s.rdy (t + k)) (data := fun k => s.data (t + k))
    h.1 (by rw [h3, hdata]) h.2
  simp only [← idle_or_frame.run_add, hdata] at hc
  have := hc.1 i hi
  rw [uartFrame_bit, ← Nat.add_assoc] at this
  exact ⟨this.1, fun hh => by rw [hh.1] at this; exact absurd this.2 (by decide)⟩

theorem levels (hD : 0 < s.D) (hdata : ∀ t, (s.data t).length = s.n) {a c : ℝ} (hc : 0 < c) {x : Nat → Bool}
    (h : s.Drives a c x) : (s.wave a c).Levels s.n x := by
  have cyc : ∀ t : Nat, a ≤ t → ∃ j : Nat, a + c * j ≤ t ∧ t < a + c * (j + 1 : Nat) := fun t ht => by
    have h0 : 0 ≤ (t - a) / c := div_nonneg (by linarith) hc.le
    refine ⟨⌊(t - a) / c⌋₊, ?_, ?_⟩
    · have := (le_div_iff₀ hc).1 (Nat.floor_le h0)
      linarith
    · have := (div_lt_iff₀ hc).1 (Nat.lt_floor_add_one ((t - a) / c))
      push_cast
      linarith
  have le : ∀ {u v : Nat} {y : ℝ}, a + c * u ≤ y → y < a + c * (v + 1 : Nat) → u ≤ v := fun {u v y} h1 h2 => by
    have : c * u < c * (v + 1 : Nat) := by linarith
    have := lt_of_mul_lt_mul_left this hc.le
    have : u < v + 1 := by exact_mod_cast this
    omega
  have lt : ∀ {u v : Nat} {y : ℝ}, a + c * u ≤ y → y < a + c * (v : Nat) → u < v := fun {u v y} h1 h2 => by
    have : c * u < c * (v : Nat) := by linarith
    have := lt_of_mul_lt_mul_left this hc.le
    exact_mod_cast this
  refine ⟨fun k _ => hdata _, fun k hk => ?_, fun k i t hk hi h1 h2 => ?_, fun t ht => ?_⟩
  · obtain ⟨t, h1, h2⟩ := hk
    obtain ⟨u, hu, h3, h4⟩ := count_back h2
    refine ⟨⟨u, h3, h4⟩, ?_⟩
    show a + c * ((s.takes k + 1 + (s.n + 2) * s.D : Nat) : ℝ) ≤ a + c * ((s.takes (k + 1) + 1 + 0 * s.D : Nat) : ℝ)
    rw [← h2, takes_eq h1, ← h4, takes_eq h3, Nat.zero_mul]
    have : u + 1 + (s.n + 2) * s.D ≤ t + 1 := by
      by_contra hcon
      obtain ⟨i, rfl⟩ := Nat.exists_eq_add_of_lt hu
      exact (frame hD hdata h3 (show i < _ by omega)).2 (by rw [show u + 1 + i = u + i + 1 by omega]; exact h1)
    have : ((u + 1 + (s.n + 2) * s.D : Nat) : ℝ) ≤ ((t + 1 + 0 : Nat) : ℝ) := by exact_mod_cast this
    nlinarith
  · have ht := sent_takes hk
    have h1' : a + c * ((s.takes k + 1 + i * s.D : Nat) : ℝ) ≤ t := h1
    have h2' : (t : ℝ) < a + c * ((s.takes k + 1 + (i + 1) * s.D : Nat) : ℝ) := h2
    obtain ⟨j, j1, j2⟩ := cyc t (by have : 0 ≤ c * ((s.takes k + 1 + i * s.D : Nat) : ℝ) := by positivity
                                    linarith)
    have l1 := le h1' j2
    have l2 := lt j1 h2'
    obtain ⟨d, rfl⟩ := Nat.exists_eq_add_of_le (show s.takes k + 1 ≤ j by omega)
    rw [h.level t _ j1 j2, (frame hD hdata ht (show d < (s.n + 2) * s.D from ?_)).1]
    · show _ = Line.bit (s.data (s.takes k)) i
      congr 1
      apply Nat.div_eq_of_lt_le
      · omega
      · omega
    · have := Nat.mul_le_mul_right s.D (show i + 1 ≤ s.n + 2 by omega)
      omega
  · by_cases hta : (t : ℝ) < a
    · exact h.high t hta
    · obtain ⟨j, j1, j2⟩ := cyc t (not_lt.1 hta)
      rw [h.level t j j1 j2]
      rcases idle_or_frame hD hdata j with h' | ⟨u, i, u1, u2, rfl, -⟩
      · exact h'.2.1
      · exfalso
        rcases ht (Nat.count s.Takes u) ⟨u, u1, rfl⟩ with hh | hh
        · have hh' : (t : ℝ) < a + c * ((s.takes (Nat.count s.Takes u) + 1 + 0 * s.D : Nat) : ℝ) := hh
          rw [takes_eq u1, Nat.zero_mul] at hh'
          have := lt j1 hh'
          omega
        · have hh' : a + c * ((s.takes (Nat.count s.Takes u) + 1 + (s.n + 2) * s.D : Nat) : ℝ) ≤ t := hh
          rw [takes_eq u1] at hh'
          have := le hh' j2
          omega

end Sender

/-- **C100** (two boards): two UARTs, whose clocks have nothing to do with each other, `c` being the clock period
of the sender in periods of the receiver.  If their bits are nearly equally long, over a frame within half a bit
less three cycles of the receiver, and the reader keeps up, then the receiver gets exactly the characters that
the sender takes, in order, without error or overflow. -/
theorem C100_boards {s : Sender} (hD : 0 < s.D) (hdata : ∀ t, (s.data t).length = s.n) {a c : ℝ} (ha : 0 ≤ a)
    (hc : 0 < c) {D : Nat} {x take : Nat → Bool} (h : s.Drives a c x)
    (hP : (s.n + 2) * |c * s.D - D| ≤ D / 2 - 3) (ht : (s.wave a c).line.Taken s.n D take) :
    let rx := fun m => (UartRx.reset s.n).run D x take m
    (∀ m, (rx m).rdy = false ∧ (rx (m + 1)).rdy = true ↔
      ∃ k, (s.wave a c).sent k ∧ m + 1 = (s.wave a c).line.done s.n D k) ∧
    (∀ k m, (s.wave a c).sent k → (s.wave a c).line.done s.n D k ≤ m →
      (∀ j, (s.wave a c).line.done s.n D k ≤ j → j < m → take j = false) →
      (rx m).rdy = true ∧ (rx m).data = s.data (s.takes k) ∧ (rx m).err = false) ∧
    ∀ m, (rx m).ovf = false := by
  have hD2 : 2 ≤ D := by
    by_contra hcon
    have h1 : (D : ℝ) ≤ 1 := by exact_mod_cast (show D ≤ 1 by omega)
    have : 0 ≤ (s.n + 2) * |c * s.D - D| := by positivity
    linarith
  have hf : (s.wave a c).Fits s.n D := Wave.fits_period (P := c * s.D) (fun k i _ => by
    show a + c * ((s.takes k + 1 + i * s.D : Nat) : ℝ) = a + c * ((s.takes k + 1 + 0 * s.D : Nat) : ℝ) + _
    push_cast; ring) hP
  obtain ⟨h1, h2, h3, h4⟩ := C100_wave hD2 (s.levels hD hdata hc h) (fun k _ => by
    show 0 ≤ a + c * ((s.takes k + 1 + 0 * s.D : Nat) : ℝ)
    positivity) hf ht
  exact ⟨h1, fun k m hk hm hno => ⟨(h2 m).2 ⟨k, hk, hm, hno⟩, h3 k m hk hm hno⟩, h4⟩

/-! ## The theorems are not vacuous -/

/-- Levels sampled from a sender. -/
noncomputable def Sender.sampled (s : Sender) (a c : ℝ) (t : Nat) : Bool :=
  open Classical in if (t : ℝ) < a then true else (s.tx ⌊(t - a) / c⌋₊).out

theorem Sender.drives (s : Sender) {a c : ℝ} (hc : 0 < c) : s.Drives a c (s.sampled a c) where
  high t h := by unfold sampled; rw [if_pos h]
  level t j h1 h2 := by
    have : 0 ≤ c * (j : ℝ) := by positivity
    unfold sampled
    rw [if_neg (by linarith), (Nat.floor_eq_iff (div_nonneg (by linarith) hc.le)).2]
    constructor
    · rw [le_div_iff₀ hc]; linarith
    · rw [div_lt_iff₀ hc]; push_cast at h2; linarith

/-- A receiver with 100 cycles per bit, and a sender of 100 of its own whose clock is 3 % slower and a third of a
cycle late: every character the sender takes is received, whatever they are. -/
example (data : Nat → List Bool) (hdata : ∀ t, (data t).length = 8) :
    let s : Sender := ⟨8, 100, fun _ => true, data⟩
    let rx := fun m => (UartRx.reset 8).run 100 (s.sampled (1 / 3) 1.03) (fun _ => true) m
    (∀ m, (rx m).rdy = false ∧ (rx (m + 1)).rdy = true ↔
      ∃ k, (s.wave (1 / 3) 1.03).sent k ∧ m + 1 = (s.wave (1 / 3) 1.03).line.done 8 100 k) ∧
    (rx ((s.wave (1 / 3) 1.03).line.done 8 100 0)).data = data 0 ∧ s.Takes 0 := by
  intro s rx
  have hP : ((s.n : ℝ) + 2) * |(1.03 : ℝ) * s.D - (100 : Nat)| ≤ ((100 : Nat) : ℝ) / 2 - 3 := by
    show (((8 : Nat) : ℝ) + 2) * |1.03 * ((100 : Nat) : ℝ) - (100 : Nat)| ≤ _
    rw [abs_of_nonneg (by norm_num)]
    norm_num
  have hd := s.drives (a := 1 / 3) (c := 1.03) (by norm_num)
  have hl := s.levels (show 0 < 100 by decide) hdata (by norm_num) hd
  have hf : (s.wave (1 / 3) 1.03).Fits 8 100 := Wave.fits_period (P := 1.03 * s.D) (fun k i _ => by
    show (1 / 3 : ℝ) + 1.03 * ((s.takes k + 1 + i * s.D : Nat) : ℝ) = 1 / 3 + 1.03 * ((s.takes k + 1 + 0 * s.D : Nat) : ℝ) + _
    push_cast; ring) hP
  have hf' := Wave.line_fits (fun k _ => by
    show (0 : ℝ) ≤ 1 / 3 + 1.03 * ((s.takes k + 1 + 0 * s.D : Nat) : ℝ)
    positivity) hf
  have h := C100_boards (s := s) (a := 1 / 3) (c := 1.03) (show 0 < 100 by decide) hdata (by norm_num) (by norm_num) (D := 100)
    (take := fun _ => true) hd hP (fun k hk => by
      have := Line.edge_lt hf' (Wave.line_levels hl) (Nat.lt_add_one k) hk
      exact ⟨_, Nat.le_refl _, by
        have h1 := this.1
        have h2 := this.2
        exact Nat.le_trans h1 h2, rfl⟩)
  have t0 : s.Takes 0 := ⟨rfl, rfl⟩
  have e : s.takes 0 = 0 := s.takes_eq t0
  refine ⟨h.1, ?_, t0⟩
  have := (h.2.1 0 _ ⟨0, t0, rfl⟩ (Nat.le_refl _) (fun j h1 h2 => by omega)).2.1
  rw [e] at this
  exact this

/-- Two characters, the second longer and the first shorter than nominal, with uneven bits. -/
def demoEdges : Line where
  sent k := k < 2
  char k := if k = 0 then [true, false] else [false, true]
  edge k i := (if k = 0 then [3, 9, 18, 27, 33] else [40, 49, 58, 67, 80]).getD i 0

/-- Its levels. -/
def demoLevels (t : Nat) : Bool :=
  [(3, 9), (18, 27), (40, 58)].all fun p => !(p.1 ≤ t && t < p.2)

theorem demo_line : demoEdges.Levels 2 demoLevels ∧ demoEdges.Fits 2 8 ∧ demoEdges.Taken 2 8 (fun t => t == 40) := by
  refine ⟨⟨fun k hk => ?_, fun k hk => ?_, fun k i t hk hi h1 h2 => ?_, fun t h => ?_⟩, fun k i hk h0 hi => ?_, fun k hk => ?_⟩
  · rcases (show k = 0 ∨ k = 1 by unfold demoEdges at hk; simp at hk; omega) with rfl | rfl <;> rfl
  · have : k = 0 := by unfold demoEdges at hk; simp at hk; omega
    subst this; exact ⟨show 0 < 2 by decide, by decide⟩
  · have ht : t < 81 := by
      rcases (show k = 0 ∨ k = 1 by unfold demoEdges at hk; simp at hk; omega) with rfl | rfl <;>
        rcases (show i = 0 ∨ i = 1 ∨ i = 2 ∨ i = 3 by omega) with rfl | rfl | rfl | rfl <;>
        (simp [demoEdges] at h2; omega)
    revert hi h1 h2
    rcases (show k = 0 ∨ k = 1 by unfold demoEdges at hk; simp at hk; omega) with rfl | rfl
    · have : ∀ t < 81, ∀ i < 2 + 2, demoEdges.edge 0 i ≤ t → t < demoEdges.edge 0 (i + 1) →
        demoLevels t = Line.bit (demoEdges.char 0) i := by decide +kernel
      exact fun hi => this t ht i hi
    · have : ∀ t < 81, ∀ i < 2 + 2, demoEdges.edge 1 i ≤ t → t < demoEdges.edge 1 (i + 1) →
        demoLevels t = Line.bit (demoEdges.char 1) i := by decide +kernel
      exact fun hi => this t ht i hi
  · have h0 := h 0 (show 0 < 2 by decide)
    have h1 := h 1 (show 1 < 2 by decide)
    simp only [demoEdges, if_true, if_neg (show ¬ (1 : Nat) = 0 by decide), List.getD_cons_zero, List.getD_cons_succ] at h0 h1
    simp only [demoLevels, List.all_cons, List.all_nil, Bool.and_true, Bool.and_eq_true, Bool.not_eq_true',
      Bool.and_eq_false_iff, decide_eq_false_iff_not]
    omega
  · rcases (show k = 0 ∨ k = 1 by unfold demoEdges at hk; simp at hk; omega) with rfl | rfl <;>
      rcases (show i = 1 ∨ i = 2 ∨ i = 3 ∨ i = 4 by omega) with rfl | rfl | rfl | rfl <;> decide +kernel
  · have : k = 0 := by unfold demoEdges at hk; simp at hk; omega
    subst this
    exact ⟨40, by decide +kernel, by decide, rfl⟩

/-- Both are received; the first is taken in the very cycle in which the second begins. -/
example : let rx := fun m => (UartRx.reset 2).run 8 demoLevels (fun t => t == 40) m
    (rx 33).rdy = true ∧ (rx 33).data = [true, false] ∧ (rx 40).data = [true, false] ∧ (rx 41).rdy = false ∧
    (rx 70).rdy = true ∧ (rx 70).data = [false, true] ∧ ∀ m, (rx m).ovf = false := by
  intro rx
  obtain ⟨h1, h2, h3⟩ := demo_line
  obtain ⟨-, -, -, g⟩ := C100_receive (by decide) h1 h2 h3
  exact ⟨by decide +kernel, by decide +kernel, by decide +kernel, by decide +kernel, by decide +kernel, by decide +kernel, g⟩

/-- The tolerance is the receiver's: with the edge of the stop bit one cycle later than `Fits` allows
(`24 + 8 / 2 + 2`), the frame of a character that ends low is received with an error. -/
example : let rx := fun m => (UartRx.reset 2).run 8 (fun t => !(decide (t < 30))) (fun _ => false) m
    (rx (2 + 8 / 2 + 3 * 8)).rdy = true ∧ (rx (2 + 8 / 2 + 3 * 8)).err = true := by decide +kernel

/-- One cycle earlier it is received well. -/
example : let rx := fun m => (UartRx.reset 2).run 8 (fun t => !(decide (t < 29))) (fun _ => false) m
    (rx (2 + 8 / 2 + 3 * 8)).data = [false, false] ∧ (rx (2 + 8 / 2 + 3 * 8)).err = false := by decide +kernel

end Sentinel
