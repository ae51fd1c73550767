import Verif.Props.Echo
import Verif.Props.Terminal
/-!
# C108: the echo on a terminal with its own clock
-/

set_option linter.unusedSimpArgs false

namespace Sentinel

/-- What a terminal shows that is connected to a line. -/
theorem Terminal.line_shown {D : Nat} {o : Line} {y : Nat → Bool} (ho : o.Levels 8 y) (hp : ∀ j i, o.edge j i = o.edge j 0 + i * D)
    {t : Terminal} {W : Nat} (h : t.Connected D y W) (n : Nat) :
    ∃ j, t.shown n = (List.range j).map (fun i => bitsByte (o.char i)) ∧
      ∀ k, k < j ↔ o.sent k ∧ ⌈t.a + t.c * (o.edge k 0 : ℝ)⌉₊ + (2 + t.D / 2 + (8 + 1) * t.D) ≤ n := by
  have hnear := h.near
  have hhalf1 : (2 : ℝ) * (t.D / 2 : Nat) ≤ t.D := by exact_mod_cast Nat.mul_div_le t.D 2
  push_cast at hnear
  have hc := h.clock
  have ha := h.start
  have hW0 : (0 : ℝ) ≤ W := by positivity
  have hD2 : 2 ≤ t.D := by
    by_contra hcon
    have h1 : (t.D : ℝ) ≤ 1 := by exact_mod_cast (show t.D ≤ 1 by omega)
    have : 0 ≤ 10 * |t.c * D - t.D| := by positivity
    linarith
  have cyc : ∀ m : Nat, t.a ≤ m → ∃ j : Nat, t.a + t.c * j ≤ m ∧ m < t.a + t.c * (j + 1 : Nat) := fun m hm => by
    have h0 : 0 ≤ (m - t.a) / t.c := div_nonneg (by linarith) hc.le
    refine ⟨⌊(m - t.a) / t.c⌋₊, ?_, ?_⟩
    · have := (le_div_iff₀ hc).1 (Nat.floor_le h0)
      linarith
    · have := (div_lt_iff₀ hc).1 (Nat.lt_floor_add_one ((m - t.a) / t.c))
      push_cast
      linarith
  have le : ∀ {u j m : Nat}, t.a + t.c * (u : ℝ) ≤ m → (m : ℝ) < t.a + t.c * (j + 1 : Nat) → u ≤ j := fun {u j m} h1 h2 => by
    have : t.c * (u : ℝ) < t.c * ((j + 1 : Nat) : ℝ) := by linarith
    have := lt_of_mul_lt_mul_left this hc.le
    have : u < j + 1 := by exact_mod_cast this
    omega
  have lt : ∀ {u j m : Nat}, t.a + t.c * (j : ℝ) ≤ m → (m : ℝ) < t.a + t.c * (u : ℝ) → j < u := fun {u j m} h1 h2 => by
    have : t.c * (j : ℝ) < t.c * (u : ℝ) := by linarith
    exact_mod_cast lt_of_mul_lt_mul_left this hc.le
  set w : Wave := ⟨o.sent, o.char, fun k i => t.a + t.c * (o.edge k i : ℝ)⟩ with hw
  have hl : w.Levels 8 t.x := by
    refine ⟨ho.len, fun k hk => ⟨(ho.order k hk).1, ?_⟩, fun k i m hk hi h1 h2 => ?_, fun m hm => ?_⟩
    · have : ((o.edge k (8 + 2) : Nat) : ℝ) ≤ (o.edge (k + 1) 0 : Nat) := by exact_mod_cast (ho.order k hk).2
      have := mul_le_mul_of_nonneg_left this hc.le
      show t.a + t.c * _ ≤ t.a + t.c * _
      linarith
    · change t.a + t.c * (o.edge k i : ℝ) ≤ m at h1
      change (m : ℝ) < t.a + t.c * (o.edge k (i + 1) : ℝ) at h2
      obtain ⟨j, j1, j2⟩ := cyc m (by have : 0 ≤ t.c * (o.edge k i : ℝ) := by positivity
                                      linarith)
      rw [h.sees m j j1 j2]
      exact ho.bits k i j hk hi (le h1 j2) (lt j1 h2)
    · by_cases hma : (m : ℝ) < t.a
      · exact h.rest m hma
      · obtain ⟨j, j1, j2⟩ := cyc m (not_lt.1 hma)
        rw [h.sees m j j1 j2]
        refine ho.high j fun k hk => ?_
        rcases hm k hk with g | g
        · exact .inl (lt j1 g)
        · exact .inr (le g j2)
  have hP : ((8 : ℝ) + 2) * |t.c * (D : ℝ) - t.D| ≤ (t.D : ℝ) / 2 - 3 := by linarith
  have hf : w.Fits 8 t.D := Wave.fits_period (P := t.c * D) (fun k i _ => by
    show t.a + t.c * (o.edge k i : ℝ) = t.a + t.c * (o.edge k 0 : ℝ) + _
    rw [hp k i]
    push_cast; ring) (by exact_mod_cast hP)
  have hpos : ∀ k i, 0 ≤ w.edge k i := fun k i => by
    show 0 ≤ t.a + t.c * (o.edge k i : ℝ)
    positivity
  have hf' := Wave.line_fits (fun k _ => hpos k 0) hf
  have hl' := Wave.line_levels hl
  have hgap : ∀ k, w.line.sent (k + 1) → w.line.done 8 t.D k + W ≤ w.line.edge (k + 1) 0 := by
    intro k hk
    refine le_trans ?_ (hl'.order k hk).2
    have e0 : w.edge k (8 + 2) = w.edge k 0 + 10 * (t.c * D) := by
      show t.a + t.c * (o.edge k (8 + 2) : ℝ) = t.a + t.c * (o.edge k 0 : ℝ) + _
      rw [hp k (8 + 2)]
      push_cast; ring
    have c0 := Nat.ceil_lt_add_one (hpos k 0)
    have c1 := Nat.le_ceil (w.edge k (8 + 2))
    have ab := (abs_le.1 (show |t.c * (D : ℝ) - t.D| ≤ |t.c * (D : ℝ) - t.D| from le_rfl)).1
    have : ((⌈w.edge k 0⌉₊ + (2 + t.D / 2 + (8 + 1) * t.D) + W : Nat) : ℝ) ≤ (⌈w.edge k (8 + 2)⌉₊ : Nat) := by
      push_cast
      linarith
    exact_mod_cast this
  have ht := C100_quick (n := 8) hD2 hl' hf' h.takes hgap
  obtain ⟨h1, -, h3, -⟩ := C100_receive (n := 8) hD2 hl' hf' ht
  obtain ⟨j, j1, j2⟩ := Fw.line_list (D := t.D) (l := w.line) (b := fun i => bitsByte (o.char i)) (x := t.x)
    (fun k hk => (AttoCsr.byteBits_bitsByte (ho.len k hk)).symm) hl' hf'
    (rdy := fun n => (t.rx n).rdy) (data := fun n => (t.rx n).data) h1 (fun k hk => (h3 k _ hk (Nat.le_refl _) (fun j a b => by omega)).1)
    (R := t.shown) (r0 := []) rfl (fun _ => rfl) n
  exact ⟨j, by simpa using j1, j2⟩

namespace AttoCsr

/-- **C108** (terminal): a terminal connected to the TX pin, with its own clock, shows exactly the characters that come on the RX pin, in order and
nothing else, and each not later than 584 cycles of the board after the receiver has it, and nine and a half bits and three cycles of the terminal. -/
theorem C108_terminal {k D : Nat} {s : AttoCsr k} {p : Nat → AttoIn} {l : Line} (h : s.AfterReset) (hM : HoldsProgram s.ram.mem echoProgram)
    (hD : 2 ≤ D) (hl : l.Levels 8 fun n => (p n).rx) (hf : l.Fits 8 D)
    (hgap : ∀ j, l.sent (j + 1) → l.edge j 0 + 10 * D + 600 ≤ l.edge (j + 1) 0)
    {t : Terminal} {W : Nat} (ht : t.Connected D (fun n => (s.run D p n).ser.txO) W) :
    (∀ n, ∃ j, t.shown n = (List.range j).map (fun i => bitsByte (l.char i)) ∧ ∀ i < j, l.sent i) ∧
    ∀ i n : Nat, l.sent i → t.a + t.c * (l.done 8 D i + 584 : Nat) + (3 + t.D / 2 + 9 * t.D : Nat) ≤ n →
      (List.range (i + 1)).map (fun i => bitsByte (l.char i)) <+: t.shown n := by
  obtain ⟨⟨o, o1, o2, o3, o4, o5⟩, -⟩ := C108_echo h hM hD hl hf hgap
  have hs := Terminal.line_shown o1 o4 ht
  have hc : (fun i => bitsByte (o.char i)) = fun i => bitsByte (l.char i) := funext fun i => by rw [o3]
  rw [hc] at hs
  refine ⟨fun n => ?_, fun i n hi hn => ?_⟩
  · obtain ⟨j, j1, j2⟩ := hs n
    exact ⟨j, j1, fun i hi => (o2 i).1 ((j2 i).1 hi).1⟩
  · obtain ⟨j, j1, j2⟩ := hs n
    have hij : i < j := by
      refine (j2 i).2 ⟨(o2 i).2 hi, ?_⟩
      have hpos : 0 ≤ t.a + t.c * (o.edge i 0 : ℝ) := by
        have := ht.start
        have := ht.clock
        positivity
      have c0 := Nat.ceil_lt_add_one hpos
      have c1 : ((o.edge i 0 : Nat) : ℝ) ≤ (l.done 8 D i + 584 : Nat) := by exact_mod_cast (o5 i hi).2
      have c2 := mul_le_mul_of_nonneg_left c1 ht.clock.le
      have : ((⌈t.a + t.c * (o.edge i 0 : ℝ)⌉₊ + (2 + t.D / 2 + (8 + 1) * t.D) : Nat) : ℝ) ≤ n := by
        push_cast at hn c2 ⊢
        linarith
      exact_mod_cast this
    obtain ⟨d, rfl⟩ := Nat.exists_eq_add_of_le (show i + 1 ≤ j by omega)
    have e : List.range (i + 1 + d) = List.range (i + 1) ++ (List.range d).map (i + 1 + ·) := List.range_add
    rw [j1, e, List.map_append]
    exact List.prefix_append _ _

/-- The hypotheses hold: for any characters, of a terminal whose clock is 2 % slower than the board's and a third of a cycle late. -/
example (b : Nat → BitVec 8) : ∃ t : Terminal, t.Connected 1250 (fun n => ((csrDemo echoProgram).run 1250 (echoPins b) n).ser.txO) 1 ∧
    ∀ i, ∃ n, (List.range (i + 1)).map b <+: t.shown n := by
  have ht := Fw.looking_connected (D := 1250) (D' := 1250) (a := 1 / 3) (c := 1.02) (by norm_num) (by norm_num)
    (by push_cast; rw [abs_of_nonneg (by norm_num)]; norm_num) (fun n => ((csrDemo echoProgram).run 1250 (echoPins b) n).ser.txO)
  obtain ⟨h1, h2, h3⟩ := echoLine_ok b
  refine ⟨_, ht, fun i => ?_⟩
  obtain ⟨n, hn⟩ := exists_nat_ge ((Fw.looking 1250 (1 / 3) 1.02 fun n => ((csrDemo echoProgram).run 1250 (echoPins b) n).ser.txO).a +
    (Fw.looking 1250 (1 / 3) 1.02 fun n => ((csrDemo echoProgram).run 1250 (echoPins b) n).ser.txO).c * ((echoLine b).done 8 1250 i + 584 : Nat) +
    (3 + 1250 / 2 + 9 * 1250 : Nat))
  have := (C108_terminal csrDemo_echo.1 csrDemo_echo.2 (by decide) h1 h2 h3 ht).2 i n trivial hn
  exact ⟨n, by simpa [echoLine, bitsByte_byteBits] using this⟩

end AttoCsr
end Sentinel
