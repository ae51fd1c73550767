import Verif.Proof.EchoLine
import Verif.Props.PrimesCsr
/-!
# C108: the echo on the CSR-bus SoC, from pin to pin
-/

set_option linter.unusedSimpArgs false

namespace Sentinel.AttoCsr
open Spec Echo
open Clock (at_)

variable {k D : Nat} {s : AttoCsr k} {p : Nat → AttoIn} {l : Line} {b : Nat → BitVec 8}

section
variable (h : s.AfterReset) (hM : HoldsProgram s.ram.mem echoProgram) (hD : 2 ≤ D)
  (hl : l.Levels 8 fun j => (p j).rx) (hf : l.Fits 8 D)
  (hgap : ∀ j, l.sent (j + 1) → l.edge j 0 + 10 * D + 600 ≤ l.edge (j + 1) 0)
  (hb : ∀ j, l.sent j → l.char j = byteBits (b j))
include h hM hD hl hf hgap hb

/-- Every write to the transmitter is in the window of a character. -/
theorem echo_window {n : Nat} (hn : (s.serStbs D p n).wStb = true) :
    ∃ i, l.sent i ∧ l.done 8 D i < n ∧ n < l.done 8 D i + 584 ∧ (s.serStbs D p n).wData = b i := by
  obtain ⟨t, m, hs, ⟨c, ws, H, -⟩, g1, g2⟩ := good_all h hM hD hl hf hgap hb (n := n + 100) (by omega)
  have hle := hs.le
  obtain ⟨i, hi, rfl⟩ := (H.all n (by omega)).1 hn
  obtain ⟨a1, a2, a3, -, a5⟩ := H.each i hi
  exact ⟨i, a1, a2, a3, a5⟩

/-- There is only one in each window. -/
theorem echo_one {n n' i : Nat} (hn : (s.serStbs D p n).wStb = true) (hn' : (s.serStbs D p n').wStb = true) (hi : l.sent i)
    (h1 : l.done 8 D i < n) (h2 : n < l.done 8 D i + 584) (h1' : l.done 8 D i < n') (h2' : n' < l.done 8 D i + 584) : n = n' := by
  obtain ⟨t, m, hs, ⟨c, ws, H, -⟩, g1, g2⟩ := good_all h hM hD hl hf hgap hb (n := n + n' + 100) (by omega)
  have hle := hs.le
  have same : ∀ j < c, l.done 8 D i < ws j → ws j < l.done 8 D i + 584 → j = i := by
    intro j hj a1 a2
    obtain ⟨c1, c2, c3, -⟩ := H.each j hj
    rcases Nat.lt_trichotomy j i with e | e | e
    · have := done_gap (D := D) hl hgap e hi; omega
    · exact e
    · have := done_gap (D := D) hl hgap e c1; omega
  obtain ⟨j, hj, rfl⟩ := (H.all n (by omega)).1 hn
  obtain ⟨j', hj', rfl⟩ := (H.all n' (by omega)).1 hn'
  rw [same j hj h1 h2, same j' hj' h1' h2']

/-- There is one. -/
theorem echo_some {i : Nat} (hi : l.sent i) : ∃ n, l.done 8 D i < n ∧ n < l.done 8 D i + 584 ∧
    (s.serStbs D p n).wStb = true ∧ (s.serStbs D p n).wData = b i := by
  obtain ⟨t, m, hs, ⟨c, ws, H, hP⟩, g1, g2⟩ := good_all h hM hD hl hf hgap hb (n := l.done 8 D i + 600) (by omega)
  have hle := hs.le
  have key : i < c := by
    by_contra hc
    have hsc : l.sent c := Line.sent_mono hl (by omega) hi
    have hd : l.done 8 D c ≤ l.done 8 D i := by
      rcases Nat.lt_or_ge c i with e | e
      · have := done_gap (D := D) hl hgap e hi; omega
      · rw [show c = i by omega]
    cases hP with
    | wait _ _ h3 => have := h3 hsc; omega
    | pend _ _ _ _ _ h6 => omega
    | seen _ _ _ _ _ h6 => omega
    | have_ _ _ _ _ _ h6 => omega
  obtain ⟨-, a2, a3, a4, a5⟩ := H.each i key
  exact ⟨ws i, a2, a3, (H.all _ a4).2 ⟨i, key, rfl⟩, a5⟩

/-- The writes to the transmitter are those of the characters. -/
theorem echo_writes : ∃ w : Nat → Nat, (∀ i, l.sent i → l.done 8 D i < w i ∧ w i < l.done 8 D i + 584 ∧
    (s.serStbs D p (w i)).wStb = true ∧ (s.serStbs D p (w i)).wData = b i) ∧
    ∀ n, (s.serStbs D p n).wStb = true → ∃ i, l.sent i ∧ n = w i := by
  classical
  have hw : ∀ i, ∃ n, l.sent i → l.done 8 D i < n ∧ n < l.done 8 D i + 584 ∧
      (s.serStbs D p n).wStb = true ∧ (s.serStbs D p n).wData = b i := fun i => by
    by_cases hi : l.sent i
    · obtain ⟨n, hn⟩ := echo_some h hM hD hl hf hgap hb hi
      exact ⟨n, fun _ => hn⟩
    · exact ⟨0, fun g => absurd g hi⟩
  choose w hw using hw
  refine ⟨w, hw, fun n hn => ?_⟩
  obtain ⟨i, hi, a1, a2, -⟩ := echo_window h hM hD hl hf hgap hb hn
  obtain ⟨c1, c2, c3, -⟩ := hw i hi
  exact ⟨i, hi, echo_one h hM hD hl hf hgap hb hn c3 hi a1 a2 c1 c2⟩

end

/-- The transmitter is not disturbed when it is idle. -/
theorem tx_keep {n : Nat} (h1 : (s.run D p n).ser.tx.ack = true) (h2 : (s.serStbs D p n).wStb = false) :
    (s.run D p (n + 1)).ser.tx = (s.run D p n).ser.tx := by
  show (s.run D p n).ser.tx.step D (s.serStbs D p n).wStb (byteBits (s.serStbs D p n).wData) = _
  have hc : (s.run D p n).ser.tx.count = 0 := by simpa [UartTx.ack] using h1
  unfold UartTx.step
  rw [if_pos hc, h2, if_neg (by decide)]

theorem tx_keeps {n : Nat} (h1 : (s.run D p n).ser.tx.ack = true) (j : Nat) (h2 : ∀ i < j, (s.serStbs D p (n + i)).wStb = false) :
    (s.run D p (n + j)).ser.tx = (s.run D p n).ser.tx := by
  induction j with
  | zero => rfl
  | succ j ih =>
    have e := ih fun i hi => h2 i (by omega)
    rw [← Nat.add_assoc, tx_keep (by rw [e]; exact h1) (h2 j (by omega)), e]

/-- When the writes are a frame apart, the transmitter is idle and its line high but for the frames. -/
theorem tx_idle (h : s.AfterReset) (hD : 2 ≤ D) {S : Nat → Prop} {w : Nat → Nat} (hS : ∀ i, S (i + 1) → S i)
    (hw : ∀ i, S (i + 1) → w i + 1 + 10 * D ≤ w (i + 1)) (h1 : ∀ i, S i → (s.serStbs D p (w i)).wStb = true)
    (h2 : ∀ n, (s.serStbs D p n).wStb = true → ∃ i, S i ∧ n = w i) (t : Nat) :
    (∀ i, S i → t ≤ w i ∨ w i + 1 + 10 * D ≤ t) → (s.run D p t).ser.tx.ack = true ∧ (s.run D p t).ser.txO = true := by
  have hx := (C47_csr hD (s.serStbs D p) (fun j => (p j).rx)).1
  have e := fun n => ((C73_devices h D p n).2.2.1).symm
  simp only [e] at hx
  have mono : ∀ i j, i < j → S j → S i ∧ w i + 1 + 10 * D ≤ w j := by
    intro i j hij hj
    induction j with
    | zero => omega
    | succ j ih =>
      by_cases ej : i = j
      · subst ej; exact ⟨hS _ hj, hw _ hj⟩
      · obtain ⟨g1, g2⟩ := ih (by omega) (hS _ hj)
        have := hw _ hj
        exact ⟨g1, by omega⟩
  induction t using Nat.strong_induction_on with
  | _ t ih =>
    intro ht
    cases t with
    | zero =>
      rw [← e 0]
      exact ⟨rfl, rfl⟩
    | succ t =>
      by_cases hend : ∃ i, S i ∧ w i + 1 + 10 * D = t + 1
      · obtain ⟨i, hi, he⟩ := hend
        have hr := (ih (w i) (by omega) fun j hj => by
          rcases Nat.lt_trichotomy j i with g | g | g
          · exact .inr (mono j i g hi).2
          · exact .inl (by rw [g])
          · have := (mono i j g hj).2; exact .inl (by omega)).1
        have := (hx (w i) (h1 i hi) hr).2
        rwa [he] at this
      · have hq : (s.serStbs D p t).wStb = false := by
          rw [Bool.eq_false_iff]
          intro hx
          obtain ⟨i, hi, he⟩ := h2 t hx
          have := ht i hi
          omega
        have hr := ih t (by omega) fun j hj => by
          have := ht j hj
          have : ¬ w j + 1 + 10 * D = t + 1 := fun g => hend ⟨j, hj, g⟩
          omega
        have := tx_keep hr.1 hq
        exact ⟨by rw [this]; exact hr.1, by show (s.run D p (t + 1)).ser.tx.out = true; rw [this]; exact hr.2⟩

theorem byteBits_bitsByte {c : List Bool} (hc : c.length = 8) : byteBits (bitsByte c) = c := by
  have all : ∀ b0 b1 b2 b3 b4 b5 b6 b7 : Bool, byteBits (bitsByte [b0, b1, b2, b3, b4, b5, b6, b7]) = [b0, b1, b2, b3, b4, b5, b6, b7] := by
    decide +kernel
  match c, hc with
  | [b0, b1, b2, b3, b4, b5, b6, b7], _ => exact all b0 b1 b2 b3 b4 b5 b6 b7

/-- **C108**: on the example SoC with the CSR bus, from reset and with the echo in RAM, if the levels of the RX pin are those of a line `l` with
characters of 8 bits that the receiver can follow (C100), and a frame begins at least 600 cycles after the end of the frame before, then
the levels of the TX pin are those of a line with the same characters, in the same order and nothing else: bit `i` of a frame begins exactly
`i * D` cycles after its first, and a frame begins within 584 cycles of the moment the receiver has the character; and the receiver never
overflows.  There is no assumption about the program but that its words are in RAM: all that happens between the pins is what the core fetches and
executes, what its stores and loads do on the bus, and what the serial port does. -/
theorem C108_echo (h : s.AfterReset) (hM : HoldsProgram s.ram.mem echoProgram) (hD : 2 ≤ D)
    (hl : l.Levels 8 fun n => (p n).rx) (hf : l.Fits 8 D)
    (hgap : ∀ j, l.sent (j + 1) → l.edge j 0 + 10 * D + 600 ≤ l.edge (j + 1) 0) :
    (∃ o : Line, o.Levels 8 (fun n => (s.run D p n).ser.txO) ∧ (∀ j, o.sent j ↔ l.sent j) ∧ (∀ j, o.char j = l.char j) ∧
      (∀ j i, o.edge j i = o.edge j 0 + i * D) ∧
      ∀ j, l.sent j → l.done 8 D j + 1 < o.edge j 0 ∧ o.edge j 0 ≤ l.done 8 D j + 584) ∧
    ∀ n, (s.run D p n).ser.rx.ovf = false := by
  obtain ⟨b, hb⟩ : ∃ b : Nat → BitVec 8, ∀ j, l.sent j → l.char j = byteBits (b j) :=
    ⟨fun j => bitsByte (l.char j), fun j hj => (byteBits_bitsByte (hl.len j hj)).symm⟩
  obtain ⟨w, hw, hw'⟩ := echo_writes h hM hD hl hf hgap hb
  have apart : ∀ i, l.sent (i + 1) → w i + 1 + 10 * D ≤ w (i + 1) := fun i hi => by
    have := done_gap (D := D) hl hgap (show i < i + 1 by omega) hi
    have := hw i (hl.order i hi).1
    have := hw (i + 1) hi
    omega
  have mono : ∀ i j, i < j → l.sent j → w i + 1 + 10 * D ≤ w j := by
    intro i j hij hj
    induction j with
    | zero => omega
    | succ j ih =>
      by_cases ej : i = j
      · subst ej; exact apart _ hj
      · have := ih (by omega) (hl.order j hj).1
        have := apart _ hj
        omega
  have idle := tx_idle (s := s) (D := D) (p := p) h hD (S := l.sent) (w := w) (fun i hi => (hl.order i hi).1) apart
    (fun i hi => (hw i hi).2.2.1) hw'
  have e := fun n => ((C73_devices h D p n).2.2.1).symm
  constructor
  · have hx := (C47_csr hD (s.serStbs D p) (fun j => (p j).rx)).1
    simp only [e] at hx
    refine ⟨⟨l.sent, l.char, fun j i => w j + 1 + i * D⟩, ⟨hl.len, fun j hj => ⟨(hl.order j hj).1, ?_⟩, fun j i t hj hi h1 h2 => ?_, fun t ht => ?_⟩,
      fun _ => Iff.rfl, fun _ => rfl, fun j i => by simp, fun j hj => ?_⟩
    · have := apart j hj
      show w j + 1 + (8 + 2) * D ≤ w (j + 1) + 1 + 0 * D
      omega
    · simp only at h1 h2
      obtain ⟨-, -, g3, g4⟩ := hw j hj
      have hr := (idle (w j) fun i' hi' => by
        rcases Nat.lt_trichotomy i' j with g | g | g
        · exact .inr (mono i' j g hj)
        · exact .inl (by rw [g])
        · have := mono j i' g hi'; exact .inl (by omega)).1
      obtain ⟨q, rfl⟩ := Nat.exists_eq_add_of_le (show w j + 1 ≤ t by omega)
      have hm : (i + 1) * D ≤ 10 * D := Nat.mul_le_mul_right _ (by omega)
      have hq : q / D = i := by
        rw [Nat.div_eq_iff (by omega)]
        rw [Nat.succ_mul] at h2
        omega
      have := ((hx (w j) g3 hr).1 q (by omega)).1
      rw [this, uartFrame_bit, g4, ← hb j hj, hq]
    · refine (idle t fun i hi => ?_).2
      have := ht i hi
      simp only at this
      omega
    · have := hw j hj
      show l.done 8 D j + 1 < w j + 1 + 0 * D ∧ w j + 1 + 0 * D ≤ _
      omega
  · have := (C100_csr hD hb hl hf (echo_taken h hM hD hl hf hgap)).2.2.2
    simp only [e] at this
    exact this

/-! ### The hypotheses can be met -/

/-- A line on which a character comes every 25000 cycles, 1250 cycles per bit (an input; no code of /repo). -/
def echoLine (b : Nat → BitVec 8) : Line := ⟨fun _ => True, fun j => byteBits (b j), fun j i => j * 25000 + i * 1250⟩

/-- The pins with that line (an input; no code of /repo). -/
def echoPins (b : Nat → BitVec 8) (t : Nat) : AttoIn :=
  { rx := if t % 25000 < 12500 then Line.bit (byteBits (b (t / 25000))) (t % 25000 / 1250) else true }

theorem echoLine_ok (b : Nat → BitVec 8) : (echoLine b).Levels 8 (fun n => (echoPins b n).rx) ∧ (echoLine b).Fits 8 1250 ∧
    (∀ j, (echoLine b).sent (j + 1) → (echoLine b).edge j 0 + 10 * 1250 + 600 ≤ (echoLine b).edge (j + 1) 0) := by
  refine ⟨⟨fun j _ => byteBits_length _, fun j _ => ⟨trivial, ?_⟩, fun j i t _ hi h1 h2 => ?_, fun t ht => ?_⟩, fun j i _ h1 h2 => ?_, fun j _ => ?_⟩
  · simp only [echoLine]; omega
  · simp only [echoLine] at h1 h2
    show (if t % 25000 < 12500 then _ else true) = _
    rw [if_pos (by omega), show t / 25000 = j by omega, show t % 25000 / 1250 = i by omega]
    rfl
  · have := ht (t / 25000) trivial
    simp only [echoLine] at this
    show (if t % 25000 < 12500 then _ else true) = _
    rw [if_neg (by omega)]
  · simp only [echoLine]; omega
  · simp only [echoLine]; omega

theorem csrDemo_echo : (csrDemo echoProgram).AfterReset ∧ HoldsProgram (csrDemo echoProgram).ram.mem echoProgram := by
  refine ⟨csrDemo_reset _, fun i hi => ?_⟩
  have : ∀ i : _root_.Fin 7, (csrDemo echoProgram).ram.mem (BitVec.ofNat 5 i) = echoProgram[i.val]'i.isLt := by
    decide +kernel
  exact this ⟨i, hi⟩

/-- The hypotheses hold, for any sequence of characters, with 32 words of RAM and 1250 cycles per bit: they all come back. -/
theorem C108_demo (b : Nat → BitVec 8) : ∃ o : Line, o.Levels 8 (fun n => ((csrDemo echoProgram).run 1250 (echoPins b) n).ser.txO) ∧
    ∀ j, o.sent j ∧ o.char j = byteBits (b j) ∧ j * 25000 + 11877 + 1 < o.edge j 0 ∧ o.edge j 0 ≤ j * 25000 + 11877 + 584 := by
  obtain ⟨h1, h2, h3⟩ := echoLine_ok b
  obtain ⟨⟨o, g1, g2, g3, -, g5⟩, -⟩ := C108_echo csrDemo_echo.1 csrDemo_echo.2 (by decide) h1 h2 h3
  refine ⟨o, g1, fun j => ⟨(g2 j).2 trivial, (g3 j).trans rfl, ?_⟩⟩
  have := g5 j trivial
  rwa [show (echoLine b).done 8 1250 j = j * 25000 + 11877 by
    simp only [echoLine, Line.done]] at this

end Sentinel.AttoCsr
