import Verif.Props.Terminal
import Verif.Props.FirmwareLineCsr
/-!
# C106: somebody who looks at the screen is understood
-/

set_option linter.unusedSimpArgs false

namespace Sentinel

open Fw

namespace Fw
variable {D K : Nat} {p : Nat → Pins}

/-- The keys that the session has had are among those stored. -/
theorem keys_stored (n : Nat) (hW : ∀ m < n, stores D (Machine.envs D p) m = taken D (Machine.envs D p) m ++ (mailbox D (Machine.envs D p) m).toList) :
    keysOf (ghost D p n).hist <+: stores D (Machine.envs D p) n := by
  have E := explains_ghost D p
  induction n with
  | zero => rw [E.start]; exact List.nil_prefix
  | succ n ih =>
    have hty := stores_mono (D := D) (e := Machine.envs D p) n 1
    rcases E.grows n with g | ⟨i, g⟩
    · rw [g]; exact (ih fun m hm => hW m (by omega)).trans hty
    · have hb := E.box n i g
      have hpend : (Machine.at_ D p n).app.pc.pend = [] := by
        rcases (ghost_input g).2 with ⟨d, hd, -⟩ | ⟨buf, hd⟩ <;> rw [hd] <;> rfl
      have hkeys := (appInv_at D p n).keys
      rw [hpend, List.append_nil] at hkeys
      have : keysOf (ghost D p (n + 1)).hist = stores D (Machine.envs D p) n := by
        rw [hW n (by omega), g, hkeys, ← hb]
        simp only [keysOf, List.filterMap_append, List.filterMap_cons, List.filterMap_nil]
        cases i.key <;> rfl
      rw [this]
      exact hty

/-- Within `11 * K + 4` cycles, the keys that the session has had are taken. -/
theorem keys_taken (F : Fast D K p) (n : Nat) : ∃ m ≥ n, m ≤ n + (11 * K + 4) ∧ keysOf (ghost D p n).hist <+: taken D (Machine.envs D p) m := by
  obtain ⟨m, m1, m2, m3⟩ : ∃ m ≥ n, m ≤ n + (11 * K + 4) ∧ (Machine.at_ D p m).sys.soft.main.lk = false := by
    cases h : (Machine.at_ D p n).sys.soft.main.lk with
    | false => exact ⟨n, by omega, by omega, h⟩
    | true =>
      obtain ⟨m, m1, m2, m3⟩ := unlocked_soon F.pos F.act F.drain h
      exact ⟨m, m1, m2, by rw [m3]; rfl⟩
  refine ⟨m, m1, m2, ?_⟩
  have I := appInv_at D p m
  have hpend : (Machine.at_ D p m).app.pc.pend = [] := by
    have h := I.lk
    rw [m3] at h
    generalize (Machine.at_ D p m).app.pc = pc at h
    cases pc <;> first | rfl | cases h
  have hk := I.keys
  rw [hpend, List.append_nil] at hk
  rw [hk]
  obtain ⟨d, rfl⟩ := Nat.exists_eq_add_of_le m1
  exact keysOf_mono n d

theorem infix_length {α : Type} {x : α} {P A Y : List α} (hx : x ∉ A) (h : (x :: P) <:+: A ++ Y) : (x :: P).length ≤ Y.length := by
  obtain ⟨s, t, e⟩ := h
  by_cases hs : s.length < A.length
  · exfalso
    have h1 : (A ++ Y)[s.length]? = some x := by
      rw [← e, List.append_assoc, List.getElem?_append_right (Nat.le_refl _)]
      simp
    rw [List.getElem?_append_left hs] at h1
    exact hx (List.mem_of_getElem? h1)
  · have := congrArg List.length e
    simp only [List.length_append] at this ⊢
    omega

/-- The letter `c` is in no demonstration. -/
theorem demo_no_c (r : BitVec 8) (st : Nat → Nat) (N : Nat) : (99 : BitVec 8) ∉ utf8 (demoText r st N) := by
  have key : ∀ c ∈ [' ', '░', '▒', '▓', '█', '.', '-', ':', ';', '!', '#', '@', '\n'], (99 : BitVec 8) ∉ utf8 [c] := by decide +kernel
  intro h
  rw [utf8, List.mem_flatMap] at h
  obtain ⟨c, h1, h2⟩ := h
  refine key c ?_ (by rw [utf8]; simpa using h2)
  have hd : ∀ s j i, drawn r s j i ∈ [' ', '░', '▒', '▓', '█', '.', '-', ':', ';', '!', '#', '@', '\n'] := by
    intro s j i
    have ha : around (cell r j) i < 8 := by
      unfold around
      cases cell r j (i - 1) <;> cases cell r j i <;> cases cell r j (i + 1) <;> decide
    unfold drawn
    generalize around (cell r j) i = a at ha
    split
    · have : ∀ a < 8, [' ', '░', '░', '▒', '▒', '▓', '█', '█'].getD a ' ' ∈ [' ', '░', '▒', '▓', '█', '.', '-', ':', ';', '!', '#', '@', '\n'] := by decide
      exact this _ ha
    · have : ∀ a < 8, [' ', '.', '-', ':', ';', '!', '#', '@'].getD a ' ' ∈ [' ', '░', '▒', '▓', '█', '.', '-', ':', ';', '!', '#', '@', '\n'] := by decide
      exact this _ ha
    · split <;> decide
    · split <;> decide
  rw [demoText, List.mem_append] at h1
  rcases h1 with h1 | h1
  · rw [firstRow, List.mem_append] at h1
    rcases h1 with h1 | h1
    · rw [(List.mem_replicate.1 h1).2]; decide
    · rw [List.mem_cons, List.mem_singleton] at h1
      rcases h1 with rfl | rfl <;> decide
  · obtain ⟨j, -, h1⟩ := List.mem_flatMap.1 h1
    rw [rowText, List.mem_append] at h1
    rcases h1 with h1 | h1
    · obtain ⟨i, -, rfl⟩ := List.mem_map.1 h1
      exact hd _ _ _
    · rw [List.mem_singleton.1 h1]; decide

/-- What has been said after the keys `b 0`, ..., `b (k - 1)`, of which the first is ctrl-c and there are four at most: where the demonstration ends, and
how much comes after it. -/
theorem said_after {b : Nat → BitVec 8} (hb : b 0 = 3) {is : List Input} {k : Nat} (h : keysOf is <+: (List.range 4).map b)
    (hk : (keysOf is).length ≤ k) (hk3 : k ≤ 3) :
    ¬ utf8 ("ctrl-c hit\nrule (default 110)? ".toList ++ (List.range k).map fun i => Char.ofNat (b (i + 1)).toNat) <:+: utf8 (session is).said := by
  have e4 : (List.range 4).map b = [3, b 1, b 2, b 3] := by rw [← hb]; rfl
  rw [e4] at h
  have R := rule3_at is h
  generalize (keysOf is).length = j at hk R
  have hP : utf8 "ctrl-c hit\nrule (default 110)? ".toList = 99 :: (utf8 "ctrl-c hit\nrule (default 110)? ".toList).tail := by decide +kernel
  have app : ∀ x y : List Char, utf8 (x ++ y) = utf8 x ++ utf8 y := fun x y => by simp [utf8]
  have pos : ∀ c : Char, 0 < (utf8 [c]).length := fun c => by
    simp only [utf8, List.flatMap_cons, List.flatMap_nil, List.append_nil, List.length_map]
    rw [String.length_utf8EncodeChar]
    exact Char.utf8Size_pos c
  have key : ∀ st N (Y : List Char), (session is).said = demoText 110 st N ++ Y →
      (utf8 Y).length < (utf8 ("ctrl-c hit\nrule (default 110)? ".toList ++ (List.range k).map fun i => Char.ofNat (b (i + 1)).toNat)).length →
      ¬ utf8 ("ctrl-c hit\nrule (default 110)? ".toList ++ (List.range k).map fun i => Char.ofNat (b (i + 1)).toNat) <:+: utf8 (session is).said := by
    intro st N Y e hlt hin
    rw [e, app (demoText 110 st N)] at hin
    have hc : utf8 ("ctrl-c hit\nrule (default 110)? ".toList ++ (List.range k).map fun i => Char.ofNat (b (i + 1)).toNat) =
        99 :: ((utf8 "ctrl-c hit\nrule (default 110)? ".toList).tail ++ utf8 ((List.range k).map fun i => Char.ofNat (b (i + 1)).toNat)) := by
      rw [app, hP, List.cons_append, List.tail_cons]
    rw [hc] at hin hlt
    have := infix_length (demo_no_c _ _ _) hin
    omega
  have echo : ∀ j, j < k → (utf8 ((List.range j).map fun i => Char.ofNat (b (i + 1)).toNat)).length <
      (utf8 ((List.range k).map fun i => Char.ofNat (b (i + 1)).toNat)).length := fun j hj => by
    obtain ⟨d, rfl⟩ := Nat.exists_eq_add_of_le (show j + 1 ≤ k by omega)
    have e : List.range (j + 1 + d) = List.range (j + 1) ++ (List.range d).map (j + 1 + ·) := List.range_add
    rw [e, List.map_append, app, List.length_append, List.range_succ, List.map_append, List.map_singleton, app, List.length_append]
    have := pos (Char.ofNat (b (j + 1)).toNat)
    omega
  match j, hk, R with
  | 0, _, R =>
    obtain ⟨st, N, -, -, R, -⟩ := R
    refine key st N [] (by rw [R, List.append_nil]) ?_
    rw [app, hP]
    simp [utf8]
  | 1, hk, R =>
    obtain ⟨st, N, -, -, R⟩ := R
    refine key st N _ R ?_
    have := echo 0 (by omega)
    rw [app _ (List.map _ _), List.length_append]
    simp only [List.range_zero, List.map_nil] at this
    omega
  | 2, hk, R =>
    obtain ⟨st, N, -, -, R⟩ := R
    rw [List.append_assoc] at R
    refine key st N _ R ?_
    have := echo 1 (by omega)
    rw [app, app _ (List.map _ _), List.length_append, List.length_append]
    exact Nat.add_lt_add_left this _
  | 3, hk, R =>
    obtain ⟨st, N, -, -, R⟩ := R
    rw [List.append_assoc] at R
    refine key st N _ R ?_
    have := echo 2 (by omega)
    rw [app, app _ (List.map _ _), List.length_append, List.length_append]
    exact Nat.add_lt_add_left this _
  | j + 4, hk, _ => exact absurd hk (by omega)

theorem calls_same {D : Nat} {p p' : Nat → Pins} {n : Nat} (h0 : (p' 0).csr = (p 0).csr) (h : ∀ k < n, p' k = p k) :
    calls D (Machine.envs D p') n = calls D (Machine.envs D p) n := by
  induction n with
  | zero => rfl
  | succ n ih =>
    have a1 := at_same (D := D) (n := n) (p := p) (p' := p') h0 (fun k hk => h k (by omega))
    have a2 := at_same (D := D) (n := n + 1) (p := p) (p' := p') h0 h
    rw [calls_succ, calls_succ, ih (fun k hk => h k (by omega)), ← at_sys, ← at_sys, ← at_sys, ← at_sys, a1, a2]

/-- The line, and the pins, until the `k`-th character. -/
def lineUpto (l : Line) (k : Nat) : Line := { l with sent := fun i => l.sent i ∧ i < k }

def pinsUpto (p : Nat → Pins) (T n : Nat) : Pins := if n < T then p n else { p n with rx := true }

theorem edge_mono {D : Nat} {l : Line} (hf : l.Fits 8 D) {k j : Nat} (hk : l.sent k) (hj : j ≤ 10) : l.edge k j ≤ l.edge k 10 := by
  by_cases e : j = 10
  · rw [e]
  · have a1 := (hf k 10 hk (by omega) (by omega)).1
    by_cases e0 : j = 0
    · subst e0; omega
    · have a2 := (hf k j hk (by omega) (by omega)).2 (by omega)
      have hle := Nat.mul_le_mul_right D (show j ≤ 9 by omega)
      omega

theorem onLine_upto {D : Nat} {p : Nat → Pins} {l : Line} {b : Nat → BitVec 8} (h : OnLine D (Machine.envs D p) l b) {k : Nat} (hk : l.sent k) :
    OnLine D (Machine.envs D (pinsUpto p (l.edge k 0))) (lineUpto l k) b := by
  refine ⟨fun i hi => h.char i hi.1, ⟨fun i hi => h.levels.len i hi.1, fun i hi => ?_, fun i j s hi hj s1 s2 => ?_, fun s hs => ?_⟩,
    fun i j hi h0 hj => h.fits i j hi.1 h0 hj⟩
  · obtain ⟨h1, h2⟩ := h.levels.order i hi.1
    have : i + 1 < k := hi.2
    exact ⟨⟨h1, by omega⟩, h2⟩
  · have h1 := (Line.edge_lt h.fits h.levels hi.2 hk).2
    have h2 := edge_mono h.fits hi.1 (show j + 1 ≤ 10 by omega)
    have h1' : l.edge i 10 ≤ l.edge k 0 := h1
    have s2' : s < l.edge i (j + 1) := s2
    have e : (Machine.envs D (pinsUpto p (l.edge k 0)) s).rx = (Machine.envs D p s).rx := by
      show (pinsUpto p (l.edge k 0) s).rx = (p s).rx
      rw [pinsUpto, if_pos (by omega)]
    rw [e]
    exact h.levels.bits i j s hi.1 hj s1 s2
  · show (pinsUpto p (l.edge k 0) s).rx = true
    rw [pinsUpto]
    by_cases hT : s < l.edge k 0
    · rw [if_pos hT]
      refine h.levels.high s fun i hi => ?_
      rcases Nat.lt_trichotomy i k with c | c | c
      · exact hs i ⟨hi, c⟩
      · rw [c]; exact .inl hT
      · left
        obtain ⟨c1, c2⟩ := Line.edge_lt h.fits h.levels c hi
        unfold Line.done at c1
        omega
    · rw [if_neg hT]

/-- Somebody who looks at the screen waits: one key. -/
theorem watched_step {D : Nat} (hD : 2 ≤ D) {K : Nat} {p : Nat → Pins} (F : Fast D K p) (hg : 33 * K + 31 ≤ 9 * D)
    {l : Line} {b : Nat → BitVec 8} (h : OnLine D (Machine.envs D p) l b)
    (hN : ∀ k, l.sent k → k < 4) (hb : b 0 = 3) {t : Terminal} {W : Nat} (hc : t.Connected D (line D (Machine.envs D p)) W) (hw : t.Watched l b)
    {k : Nat} (hk : l.sent k) (hgap : ∀ i, i + 1 < k → l.done 8 D i + 9 * D ≤ l.edge (i + 1) 0)
    (htk : ∀ i < k, l.sent i → taken D (Machine.envs D p) (l.edge i 0) = (List.range i).map b) :
    taken D (Machine.envs D p) (l.edge k 0) = (List.range k).map b ∧ ∀ i, i + 1 = k → l.done 8 D i + 9 * D ≤ l.edge k 0 := by
  -- as if nothing had come after that
  have h' := onLine_upto h hk
  generalize hp' : pinsUpto p (l.edge k 0) = p' at h'
  have hbefore : ∀ n < l.edge k 0, p' n = p n := fun n hn => by rw [← hp', pinsUpto, if_pos hn]
  have hcsr : (p' 0).csr = (p 0).csr := by rw [← hp', pinsUpto]; split <;> rfl
  have hgo : ∀ n, (p' n).go = (p n).go := fun n => by rw [← hp', pinsUpto]; split <;> rfl
  have F' : Fast D K p' := ⟨F.pos, fun n => by
    obtain ⟨m, m1, m2, m3⟩ := F.act n
    exact ⟨m, m1, m2, by rw [hgo]; exact m3⟩, F.drain, F.frame, F.tick⟩
  have hT : ∀ n ≤ l.edge k 0, taken D (Machine.envs D p') n = taken D (Machine.envs D p) n := fun n hn =>
    taken_same hcsr fun j hj => hbefore j (by omega)
  have ht : (lineUpto l k).Taken 8 D fun k => WbSerial.rxAck (reqs D (Machine.envs D p') k) :=
    C101_keeps_up (W := 9 * D) hD F'.act F'.drain h' (fun i hi => hgap i hi.2) hg
  have W' : ∀ n, stores D (Machine.envs D p') n = taken D (Machine.envs D p') n ++ (mailbox D (Machine.envs D p') n).toList := fun n =>
    waited_line hD h' ht (fun i hi => by
      have h1 := Line.edge_lt h.fits h.levels hi.2 hk
      unfold Line.done at h1
      show taken D (Machine.envs D p') (l.edge i 0) = _
      rw [hT _ (by omega)]
      exact htk i hi.2 hi.1) n
  -- what has come by then
  have come : ∀ n, ∃ j ≤ k, (∀ i, i < j → l.done 8 D i ≤ n) ∧ stores D (Machine.envs D p') n <+: (List.range j).map b := fun n => by
    obtain ⟨j, j1, j2⟩ := received_line hD h' ht n
    refine ⟨j, ?_, fun i hi => ((j2 i).1 hi).2, ?_⟩
    · by_contra hcon
      exact absurd ((j2 k).1 (by omega)).1.2 (Nat.lt_irrefl _)
    · have := (C64_order (D := D) (Machine.envs D p') n).1
      rwa [j1] at this
  have upto : ∀ {i j : Nat}, i ≤ j → (List.range i).map b <+: (List.range j).map b := fun {i j} hij => by
    obtain ⟨d, rfl⟩ := Nat.exists_eq_add_of_le hij
    have e : List.range (i + d) = List.range i ++ (List.range d).map (i + ·) := List.range_add
    rw [e, List.map_append]
    exact List.prefix_append _ _
  have hle : taken D (Machine.envs D p') (l.edge k 0) <+: (List.range k).map b := by
    obtain ⟨j, j1, -, j3⟩ := come (l.edge k 0)
    refine List.IsPrefix.trans ?_ (j3.trans (upto j1))
    rw [W']
    exact List.prefix_append _ _
  rw [← hT _ (Nat.le_refl _)]
  cases k with
  | zero => exact ⟨hle.eq_of_length_le (Nat.zero_le _), fun i hi => absurd hi (by omega)⟩
  | succ k =>
    obtain ⟨n, n1, n2⟩ := hw k hk
    have hk4 := hN _ hk
    -- what is on the screen was written a while ago
    have s1 : t.shown n <+: calls D (Machine.envs D p) (l.edge (k + 1) 0 - 9 * D) := by
      refine C105_says (by omega) _ hc (n1.trans ?_)
      have hn := hc.near
      have ha := le_abs_self (t.c * (D : ℝ) - t.D)
      have ha0 := abs_nonneg (t.c * (D : ℝ) - t.D)
      have he : (l.edge (k + 1) 0 : ℝ) ≤ (l.edge (k + 1) 0 - 9 * D : Nat) + 9 * D := by
        exact_mod_cast (show l.edge (k + 1) 0 ≤ (l.edge (k + 1) 0 - 9 * D) + 9 * D by omega)
      have h1 := mul_le_mul_of_nonneg_left he hc.clock.le
      have h3 : (t.D : ℝ) / 2 ≤ (t.D / 2 : Nat) + 1 := by
        have : (t.D : ℝ) ≤ 2 * (t.D / 2 : Nat) + 1 := by exact_mod_cast (show t.D ≤ 2 * (t.D / 2) + 1 by omega)
        linarith
      have h4 : (0 : ℝ) ≤ W := Nat.cast_nonneg _
      push_cast at hn h3 ⊢
      rw [mul_add, show t.c * (9 * (D : ℝ)) = 9 * (t.c * D) by ring] at h1
      linarith
    rw [← calls_same hcsr fun j hj => hbefore j (by omega)] at s1
    generalize hq : l.edge (k + 1) 0 - 9 * D = q at s1
    have s2 := n2.trans (s1.isInfix.trans ((explains_ghost D p').said _).isInfix)
    obtain ⟨j, j1, j2, j3⟩ := come q
    have hst := (keys_stored q fun m _ => W' m).trans j3
    have s3 : k < (keysOf (ghost D p' q).hist).length := by
      by_contra hcon
      exact said_after hb (hst.trans (upto (by omega))) (Nat.le_of_not_lt hcon) (by omega) s2
    have s4 : 0 < q := by
      rcases Nat.eq_zero_or_pos q with e | e
      · rw [e] at s3
        exact absurd s3 (by simp [(explains_ghost D p').start, keysOf])
      · exact e
    refine ⟨hle.eq_of_length_le ?_, fun i hi => ?_⟩
    · rw [List.length_map, List.length_range]
      obtain ⟨m, m1, m2, m3⟩ := keys_taken F' q
      have hK9 := F.frame
      obtain ⟨d, hd⟩ := Nat.exists_eq_add_of_le (show m ≤ l.edge (k + 1) 0 by omega)
      have := (m3.trans (taken_mono (D := D) (e := Machine.envs D p') m d)).length_le
      rw [← hd] at this
      omega
    · have hl := hst.length_le
      rw [List.length_map, List.length_range] at hl
      have := j2 i (by omega)
      omega

/-- Somebody who looks at the screen waits. -/
theorem watched_waits {D : Nat} (hD : 2 ≤ D) {K : Nat} {p : Nat → Pins} (F : Fast D K p) (hg : 33 * K + 31 ≤ 9 * D)
    {l : Line} {b : Nat → BitVec 8} (h : OnLine D (Machine.envs D p) l b)
    (hN : ∀ k, l.sent k → k < 4) (hb : b 0 = 3) {t : Terminal} {W : Nat} (hc : t.Connected D (line D (Machine.envs D p)) W) (hw : t.Watched l b) :
    ∀ k, l.sent k → taken D (Machine.envs D p) (l.edge k 0) = (List.range k).map b ∧ ∀ i, i + 1 = k → l.done 8 D i + 9 * D ≤ l.edge k 0 := by
  intro k
  induction k using Nat.strong_induction_on with
  | _ k ih =>
    intro hk
    have hsent : ∀ i ≤ k, l.sent i := fun i hi => Line.sent_mono h.levels hi hk
    exact watched_step hD F hg h hN hb hc hw hk (fun i hi => (ih (i + 1) hi (hsent _ (by omega))).2 i rfl) fun i hi hs => (ih i hi hs).1

end Fw

/-- **C106** (somebody who looks at the screen): the board, the keyboard and the terminal, with three different clocks, and a processor that
is fast enough. Somebody types ctrl-c and three more characters, each of these only when the terminal shows the prompt and the echo of those
before; there are no other conditions on when the keys are pressed. Then the terminal shows the prompt, all the echoes and the
demonstration of the rule that they make, for as many lines as one likes, and the rule is on the LEDs. -/
theorem C106_dialogue {D : Nat} (hD : 2 ≤ D) {K : Nat} {p : Nat → Pins} (hK : ∀ n, ∃ m ≥ n, m < n + K ∧ (p m).go = true)
    (h1 : 63 * (10 * D + 15 * K + 19) ≤ 142 * 2 ^ 14) (h2 : 33 * K + 36 ≤ 9 * D) (h3 : 40 * K + 45 ≤ 2 ^ 14)
    {l : Line} {b : Nat → BitVec 8} (h : OnLine D (Machine.envs D p) l b) (hN : ∀ k, l.sent k ↔ k < 4) (hb : b 0 = 3)
    {t : Terminal} {W : Nat} (ht : t.Connected D (line D (Machine.envs D p)) W) (hw : t.Watched l b) (L : Nat) :
    ∃ st N st' M n m, L ≤ M ∧ Styles st ∧ Styles st' ∧
      utf8 (demoText 110 st N ++ "ctrl-c hit\nrule (default 110)? ".toList ++ [Char.ofNat (b 1).toNat, Char.ofNat (b 2).toNat, Char.ofNat (b 3).toNat, '\n'] ++
        demoText (ruleOf [b 1, b 2, b 3]) st' M) <+: t.shown n ∧
      (Machine.at_ D p m).sys.leds.leds = ruleOf [b 1, b 2, b 3] := by
  have hall := watched_waits hD ⟨by omega, hK, h1, by omega, h3⟩ (by omega) h (fun k hk => (hN k).1 hk) hb ht hw
  obtain ⟨st, N, st', M, m, q, g1, g2, g3, g4, g5⟩ := C102_dialogue (W := 9 * D) hD hK h1 (by omega) h3 h
    (fun k hk => (hall _ hk).2 k rfl) (by omega) (fun k hk => (hall k hk).1) hN hb L
  obtain ⟨n, hn⟩ := Fw.shown_of_frames (C105_shows (by omega) _ ht).2 g4
  exact ⟨st, N, st', M, n, m, g1, g2, g3, hn, g5⟩

/-- **C106** (somebody who looks at the screen, CSR bus): the same with the CSR bus. -/
theorem C106_dialogue_csr {D : Nat} (hD : 2 ≤ D) {K : Nat} {p : Nat → Pins} (hK : ∀ n, ∃ m ≥ n, m < n + K ∧ (p m).go = true)
    (h1 : 63 * (10 * D + 15 * (K + 6) + 19) ≤ 142 * 2 ^ 14) (h2 : 33 * (K + 6) + 36 ≤ 9 * D) (h3 : 40 * (K + 6) + 45 ≤ 2 ^ 14)
    {l : Line} {b : Nat → BitVec 8} (h : OnLine D (FwCsr.Machine.envs D p) l b) (hN : ∀ k, l.sent k ↔ k < 4) (hb : b 0 = 3)
    {t : Terminal} {W : Nat} (ht : t.Connected D (FwCsr.line D (FwCsr.Machine.envs D p)) W) (hw : t.Watched l b) (L : Nat) :
    ∃ st N st' M n m, L ≤ M ∧ Styles st ∧ Styles st' ∧
      utf8 (demoText 110 st N ++ "ctrl-c hit\nrule (default 110)? ".toList ++ [Char.ofNat (b 1).toNat, Char.ofNat (b 2).toNat, Char.ofNat (b 3).toNat, '\n'] ++
        demoText (ruleOf [b 1, b 2, b 3]) st' M) <+: t.shown n ∧
      (FwCsr.Machine.at_ D p m).sys.leds.leds = ruleOf [b 1, b 2, b 3] := by
  have ht' := ht
  rw [FwCsr.line_eq, ← FwCsr.envs_eq] at ht'
  have hall := watched_waits hD ⟨by omega, FwCsr.go_soon (D := D) hK, h1, by omega, h3⟩ (by omega) (FwCsr.onLine h) (fun k hk => (hN k).1 hk) hb ht' hw
  obtain ⟨st, N, st', M, m, q, g1, g2, g3, g4, g5⟩ := C103_dialogue (W := 9 * D) hD hK h1 (by omega) h3 h
    (fun k hk => (hall _ hk).2 k rfl) (by omega) (fun k hk => by
      rw [FwCsr.taken_eq, ← FwCsr.envs_eq]; exact (hall k hk).1) hN hb L
  obtain ⟨n, hn⟩ := Fw.shown_of_frames (fun q n hq => (C105_csr (by omega) _ ht).2 q n hq) g4
  exact ⟨st, N, st', M, n, m, g1, g2, g3, hn, g5⟩

/-! ## The conditions can be met -/

namespace Fw

theorem shown_same {t t' : Terminal} (hD : t'.D = t.D) (htk : t'.take = t.take) {n : Nat} (hx : ∀ m < n, t'.x m = t.x m) : t'.shown n = t.shown n := by
  have hrx : ∀ m ≤ n, t'.rx m = t.rx m := fun m hm => by
    induction m with
    | zero => rfl
    | succ m ih =>
      show UartRx.step t'.D (t'.rx m) (t'.x m) (t'.take m) = UartRx.step t.D (t.rx m) (t.x m) (t.take m)
      rw [ih (by omega), hx m (by omega), hD, htk]
  induction n with
  | zero => rfl
  | succ n ih =>
    rw [Terminal.shown, Terminal.shown, ih (fun m hm => hx m (by omega)) (fun m hm => hrx m (by omega)), hrx n (by omega), hrx (n + 1) (by omega)]

/-- What somebody sees at some time depends on what has been on the line until then. -/
theorem looking_same {D' : Nat} {a c : ℝ} (hc : 0 < c) {y y' : Nat → Bool} {T : Nat} (hy : ∀ j ≤ T, y' j = y j) {n : Nat} (hn : n ≤ a + c * T) :
    (looking D' a c y').shown n = (looking D' a c y).shown n := by
  refine shown_same (t := looking D' a c y) (t' := looking D' a c y') rfl rfl fun m hm => ?_
  change (if (m : ℝ) < a then true else y' ⌊(m - a) / c⌋₊) = (if (m : ℝ) < a then true else y ⌊(m - a) / c⌋₊)
  by_cases h : (m : ℝ) < a
  · rw [if_pos h, if_pos h]
  · rw [if_neg h, if_neg h]
    refine hy _ (Nat.floor_le_of_le ?_)
    rw [div_le_iff₀ hc]
    have : (m : ℝ) ≤ n := by exact_mod_cast hm.le
    linarith

theorem line_same {D : Nat} {p p' : Nat → Pins} {T : Nat} (h0 : (p' 0).csr = (p 0).csr) (h : ∀ k < T, p' k = p k) :
    ∀ j ≤ T, line D (Machine.envs D p') j = line D (Machine.envs D p) j := fun j hj => by
  rw [line, line, ← at_sys, ← at_sys, at_same h0 fun k hk => h k (by omega)]

/-- The prompt and the echoes. -/
theorem said_prompt {b : Nat → BitVec 8} (hb : b 0 = 3) {is : List Input} {k : Nat} (h : keysOf is = (List.range (k + 1)).map b) (hk : k < 3) :
    utf8 ("ctrl-c hit\nrule (default 110)? ".toList ++ (List.range k).map fun i => Char.ofNat (b (i + 1)).toNat) <:+: utf8 (session is).said := by
  have R := rule3_at (b1 := b 1) (b2 := b 2) (b3 := b 3) is (by
    rw [h, ← hb]
    match k, hk with
    | 0, _ => exact ⟨[b 1, b 2, b 3], rfl⟩
    | 1, _ => exact ⟨[b 2, b 3], rfl⟩
    | 2, _ => exact ⟨[b 3], rfl⟩)
  rw [h, List.length_map, List.length_range] at R
  have app : ∀ x y : List Char, utf8 (x ++ y) = utf8 x ++ utf8 y := fun x y => by simp [utf8]
  have key : ∀ st N (Y : List Char), (session is).said = demoText 110 st N ++ Y → utf8 Y <:+: utf8 (session is).said := fun st N Y e => by
    rw [e, app]; exact (List.suffix_append _ _).isInfix
  match k, hk, R with
  | 0, _, R => obtain ⟨st, N, -, -, R⟩ := R; exact key st N _ R
  | 1, _, R => obtain ⟨st, N, -, -, R⟩ := R; rw [List.append_assoc] at R; exact key st N _ R
  | 2, _, R => obtain ⟨st, N, -, -, R⟩ := R; rw [List.append_assoc] at R; exact key st N _ R

end Fw

/-- **C106** (it is possible): whatever the characters are, and whatever the terminal, they can be typed in that way. -/
theorem C106_possible {D : Nat} (hD : 2 ≤ D) {K : Nat} {p0 : Nat → Pins} (hK : ∀ n, ∃ m ≥ n, m < n + K ∧ (p0 m).go = true)
    (h1 : 63 * (10 * D + 15 * K + 19) ≤ 142 * 2 ^ 14) (h2 : 33 * K + 36 ≤ 9 * D) (h3 : 40 * K + 45 ≤ 2 ^ 14)
    {P : Nat} (hP1 : 10 * D + 2 + D / 2 ≤ 10 * P + D) (hP2 : 10 * P ≤ 10 * D + D / 2 + 1)
    {D' : Nat} {a c : ℝ} (ha : 0 ≤ a) (hc : 0 < c) (hn : 10 * |c * D - D'| + 4 ≤ (D' : ℝ) / 2) (b : Nat → BitVec 8) (hb : b 0 = 3) (N : Nat) (hN4 : N ≤ 4) :
    ∃ x l, OnLine D (Machine.envs D (withRx p0 x)) l b ∧ (∀ k, l.sent k ↔ k < N) ∧
      (looking D' a c (line D (Machine.envs D (withRx p0 x)))).Watched l b ∧ ∀ k i, l.sent k → l.edge k i = l.edge k 0 + i * P := by
  induction N with
  | zero =>
    refine ⟨fun _ => true, ⟨fun _ => False, fun _ => [], fun _ _ => 0⟩, ⟨nofun, ⟨nofun, nofun, nofun, fun _ _ => rfl⟩, nofun⟩,
      fun k => by simp, nofun, nofun⟩
  | succ N ih =>
    obtain ⟨x, l, h, hN, hw, he⟩ := ih (by omega)
    have hK' : ∀ n, ∃ m ≥ n, m < n + K ∧ (withRx p0 x m).go = true := hK
    have hcon := looking_connected (D := D) (D' := D') ha hc hn (line D (Machine.envs D (withRx p0 x)))
    have hall := watched_waits hD ⟨by omega, hK', h1, by omega, h3⟩ (by omega) h (fun k hk => by have := (hN k).1 hk; omega) hb hcon hw
    have hW : ∀ k, l.sent (k + 1) → l.done 8 D k + 9 * D ≤ l.edge (k + 1) 0 := fun k hk => (hall _ hk).2 k rfl
    -- sooner or later the prompt and the echoes are shown
    obtain ⟨n1, hn1⟩ : ∃ n1, ∀ k, k + 1 = N →
        utf8 ("ctrl-c hit\nrule (default 110)? ".toList ++ (List.range k).map fun i => Char.ofNat (b (i + 1)).toNat) <:+:
          (looking D' a c (line D (Machine.envs D (withRx p0 x)))).shown n1 := by
      cases N with
      | zero => exact ⟨0, fun k hk => absurd hk (by omega)⟩
      | succ M =>
        obtain ⟨hist, -, -, hh⟩ := C102_waits hD hK' h1 (by omega) h3 h hW (by omega) (fun k hk => (hall k hk).1) hN
        obtain ⟨m, -, -, m1, -, q, -, m2⟩ := hh 0
        obtain ⟨n1, hn1⟩ := Fw.shown_of_frames (C105_shows (by omega) _ hcon).2 m2
        refine ⟨n1, fun k hk => ?_⟩
        obtain rfl : k = M := by omega
        exact (said_prompt hb m1 (by omega)).trans hn1.isInfix
    -- the next one is typed then
    obtain ⟨t, t1, t3⟩ := late hD h hN ⌈(n1 : ℝ) / c⌉₊ (9 * D)
    have ht1 : (n1 : ℝ) ≤ a + c * t := by
      have s1 := Nat.le_ceil ((n1 : ℝ) / c)
      have s2 : ((⌈(n1 : ℝ) / c⌉₊ : Nat) : ℝ) ≤ t := by exact_mod_cast t1
      have s3 := s1.trans s2
      rw [div_le_iff₀ hc] at s3
      linarith
    have samep : ∀ k < t, withRx p0 (moreRx P x t (b N)) k = withRx p0 x k := fun k hk => by
      unfold withRx moreRx; rw [if_pos hk]
    obtain ⟨h', -, he'⟩ := more_line (e' := Machine.envs D (withRx p0 (moreRx P x t (b N)))) (c := b N) (x := x) hD hP1 hP2 (fun _ => rfl)
      (fun _ => rfl) h hN he hW t3
    have hmore : moreChar b N (b N) = b := by
      funext i
      unfold moreChar
      split
      · rename_i e; rw [e]
      · rfl
    rw [hmore] at h'
    have hshow : ∀ n : Nat, n ≤ a + c * t → (looking D' a c (line D (Machine.envs D (withRx p0 (moreRx P x t (b N)))))).shown n =
        (looking D' a c (line D (Machine.envs D (withRx p0 x)))).shown n := fun n hn =>
      looking_same hc (line_same (p := withRx p0 x) (p' := withRx p0 (moreRx P x t (b N))) rfl samep) hn
    refine ⟨moreRx P x t (b N), _, h', fun k => Iff.rfl, fun k hk => ?_, he'⟩
    by_cases hkN : k + 1 = N
    · have c1 : (moreLine P l N t (b N)).edge (k + 1) 0 = t := by simp [moreLine, hkN]
      rw [c1]
      exact ⟨n1, ht1, by rw [hshow n1 ht1]; exact hn1 k hkN⟩
    · have hk' : k + 1 < N := by have : k + 1 < N + 1 := hk; omega
      rw [(moreLine_old hk').2]
      obtain ⟨n, s1, s2⟩ := hw k ((hN _).2 hk')
      have s1' : (n : ℝ) ≤ a + c * l.edge (k + 1) 0 := s1
      refine ⟨n, s1, ?_⟩
      rw [hshow n]
      · exact s2
      · have a1 := t3 _ hk'
        have a2 := Line.done_le h.fits ((hN _).2 hk')
        unfold Line.done at a2
        have a2' : l.edge (k + 1) 0 + (2 + D / 2 + (8 + 1) * D) ≤ l.edge (k + 1) 10 := a2
        have a3 : (l.edge (k + 1) 0 : ℝ) ≤ t := by exact_mod_cast (show l.edge (k + 1) 0 ≤ t by omega)
        have := mul_le_mul_of_nonneg_left a3 hc.le
        linarith

/-- Somebody with a keyboard 4 % too slow, who looks at a terminal with a clock of 48 MHz and 5000 cycles per bit, types ctrl-c, `9`, `0` and return, and gets
rule 90. -/
example (L : Nat) : ∃ x st N st' M n, L ≤ M ∧ Styles st ∧ Styles st' ∧
    utf8 (demoText 110 st N ++ "ctrl-c hit\nrule (default 110)? 90\r\n".toList ++ demoText 90 st' M) <+:
      (looking 5000 0 4.01 (line 1250 (Machine.envs 1250 (withRx (fun _ => {}) x)))).shown n := by
  obtain ⟨x, l, h, hN, hw, -⟩ := C106_possible (D := 1250) (K := 1) (p0 := fun _ => {}) (P := 1300) (D' := 5000) (a := 0) (c := 4.01) (by decide)
    (fun n => ⟨n, by omega, by omega, rfl⟩) (by decide) (by decide) (by decide) (by decide) (by decide) (by norm_num) (by norm_num)
    (by rw [abs_of_nonneg (by norm_num)]; norm_num) (fun k => [3, 57, 48, 13].getD k 0) rfl 4 (Nat.le_refl _)
  obtain ⟨st, N, st', M, n, m, g0, g1, g2, g3, -⟩ := C106_dialogue (D := 1250) (K := 1) (p := withRx (fun _ => {}) x) (by decide)
    (fun n => ⟨n, by omega, by omega, rfl⟩) (by decide) (by decide) (by decide) h hN rfl
    (looking_connected (D' := 5000) (a := 0) (c := 4.01) (by norm_num) (by norm_num)
      (by rw [abs_of_nonneg (by norm_num)]; norm_num) _) hw L
  have hr : ruleOf [57, 48, 13] = 90 := by decide
  change utf8 (_ ++ _ ++ [Char.ofNat (57 : BitVec 8).toNat, Char.ofNat (48 : BitVec 8).toNat, Char.ofNat (13 : BitVec 8).toNat, '\n'] ++
    demoText (ruleOf [57, 48, 13]) st' M) <+: _ at g3
  rw [hr] at g3
  refine ⟨x, st, N, st', M, n, g0, g1, g2, ?_⟩
  have e : "ctrl-c hit\nrule (default 110)? 90\r\n".toList = "ctrl-c hit\nrule (default 110)? ".toList ++ [Char.ofNat (57 : BitVec 8).toNat,
      Char.ofNat (48 : BitVec 8).toNat, Char.ofNat (13 : BitVec 8).toNat, '\n'] := by decide
  rw [e, ← List.append_assoc]
  exact g3

end Sentinel
