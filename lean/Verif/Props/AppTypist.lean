import Verif.Proof.AppTypist
import Verif.Props.AppRuns
import Mathlib.Data.List.Basic
/-!
# C71: a typist who waits is understood
-/

set_option linter.unusedSimpArgs false

namespace Sentinel

open Fw

namespace Fw

/-- `C71_waits` for the inputs as the invariant has them, and whatever `T` it is that is typed by a given time. -/
theorem waits_abs {D K : Nat} {p : Nat → Pins} (F : Fast D K p) {T : Nat → List (BitVec 8)} (mono : ∀ n, T n <+: T (n + 1))
    (hst : ∀ n, stores D (Machine.envs D p) n <+: T n)
    (W : ∀ n, stores D (Machine.envs D p) n = taken D (Machine.envs D p) n ++ (mailbox D (Machine.envs D p) n).toList) :
    (∀ n, keysOf (ghost D p n).hist <+: T n) ∧
    ∀ n r, (∀ d, T (n + d) = T n) → (∃ m ≥ n, T n <+: stores D (Machine.envs D p) m) → (∀ m ≥ r, (p m).rx = true) →
      ∃ m ≥ n, taken D (Machine.envs D p) m = T n ∧ keysOf (ghost D p m).hist = T n ∧
      calls D (Machine.envs D p) m = utf8 (session (ghost D p m).hist).said ∧ ∃ q ≥ m, utf8 (session (ghost D p m).hist).said <+: frames D (Machine.envs D p) q := by
  have hts : ∀ n, taken D (Machine.envs D p) n <+: stores D (Machine.envs D p) n := fun n => by rw [W n]; exact List.prefix_append _ _
  have E := explains_ghost D p
  refine ⟨fun n => ?_, fun n r htyp hev hrest => ?_⟩
  · induction n with
    | zero => rw [E.start]; exact List.nil_prefix
    | succ n ih =>
      have hty : T n <+: T (n + 1) := mono n
      rcases E.grows n with g | ⟨i, g⟩
      · rw [g]; exact ih.trans hty
      · have hb := E.box n i g
        have hpend : (Machine.at_ D p n).app.pc.pend = [] := by
          rcases (ghost_input g).2 with ⟨d, hd, -⟩ | ⟨buf, hd⟩ <;> rw [hd] <;> rfl
        have hkeys := (appInv_at D p n).keys
        rw [hpend, List.append_nil] at hkeys
        have : keysOf (ghost D p (n + 1)).hist = stores D (Machine.envs D p) n := by
          rw [W n, g, hkeys, ← hb]
          simp only [keysOf, List.filterMap_append, List.filterMap_cons, List.filterMap_nil]
          cases i.key <;> rfl
        rw [this]
        exact (hst n).trans hty
  · obtain ⟨m0, m01, m02⟩ := hev
    have hall : ∀ k ≥ m0, stores D (Machine.envs D p) k = T n := by
      intro k hk'
      obtain ⟨d, rfl⟩ := Nat.exists_eq_add_of_le hk'
      obtain ⟨d', hd'⟩ := Nat.exists_eq_add_of_le (show n ≤ m0 + d by omega)
      have a1 := hst (m0 + d)
      rw [hd', htyp] at a1
      rw [hd']
      have a2 := m02.trans (stores_mono (D := D) (e := Machine.envs D p) m0 d)
      rw [hd'] at a2
      exact List.IsPrefix.eq_of_length_le a1 a2.length_le
    have key : ∃ b ≥ m0, taken D (Machine.envs D p) b = T n := by
      obtain ⟨m1, m11, m12, -, m13⟩ := all_said F (max m0 r)
      have hmx : m0 ≤ m1 ∧ r ≤ m1 := by omega
      rw [← m12] at m13
      have w1 := W m1
      rw [hall m1 hmx.1] at w1
      cases hmb : mailbox D (Machine.envs D p) m1 with
      | none => rw [hmb] at w1; exact ⟨m1, hmx.1, by simpa using w1.symm⟩
      | some c =>
        rw [hmb] at w1
        have hin : ∃ m ≥ m1, (ghost D p m).hist = (ghost D p m1).hist ∧ (ghost D p (m + 1)).hist ≠ (ghost D p m).hist := by
          cases hp : (session (ghost D p m1).hist).phase with
          | demo rule style gen =>
            exact demo_goes_on F (fun m hm => by
              exact hrest m (by omega)) hp
          | ask ks => exact ask_goes_on F hp m13 (by rw [hmb]; nofun)
        obtain ⟨m2, m21, m22, m23⟩ := hin
        rcases ghost_step D p m2 with g | ⟨i, g⟩
        · exact absurd g m23
        · have hb := E.box m2 i g
          have ht : taken D (Machine.envs D p) m2 = taken D (Machine.envs D p) m1 := by
            obtain ⟨d, rfl⟩ := Nat.exists_eq_add_of_le m21
            have b1 := taken_mono (D := D) (e := Machine.envs D p) m1 d
            have b2 := E.keys (m1 + d)
            rw [m22, ← m13] at b2
            exact List.IsPrefix.eq_of_length_le b2 b1.length_le
          have w2 := W m2
          rw [hall m2 (by omega), w1, ht] at w2
          have hc : mailbox D (Machine.envs D p) m2 = some c := by
            have := List.append_cancel_left w2
            cases hx : mailbox D (Machine.envs D p) m2 with
            | none => rw [hx] at this; cases this
            | some x => rw [hx] at this; simpa using this.symm
          rw [hc] at hb
          obtain ⟨m3, m31, -, -, m32⟩ := all_said F (m2 + 1)
          refine ⟨m3, by omega, ?_⟩
          rw [m32, g, m22, w1, m13]
          simp [keysOf, hb]
    obtain ⟨b, b1, b2⟩ := key
    obtain ⟨m, mb, mh, mc, mt⟩ := all_said F b
    rw [← mh] at mc mt
    obtain ⟨q, q1, q2⟩ := calls_sent F m
    rw [mc] at q2
    suffices hx : taken D (Machine.envs D p) m = T n from ⟨m, by omega, hx, mt ▸ hx, mc, q, q1, q2⟩
    obtain ⟨d, rfl⟩ := Nat.exists_eq_add_of_le mb
    have c1 := taken_mono (D := D) (e := Machine.envs D p) b d
    have c2 := hts (b + d)
    rw [hall _ (by omega)] at c2
    rw [b2] at c1
    exact List.IsPrefix.eq_of_length_le c2 c1.length_le

theorem typed_end {D : Nat} {keys : Nat → Option (BitVec 8)} {n : Nat} (hn : ∀ k ≥ n, keys k = none) (d : Nat) :
    typed D keys (n + d) = typed D keys n := by
  induction d with
  | zero => rfl
  | succ d ih =>
    rw [← Nat.add_assoc, typed, hn (n + d) (by omega), ih]
    simp

/-- `C71_waits` for the inputs as the invariant has them. -/
theorem waits {D : Nat} (hD : 4 ≤ D) {K : Nat} {p : Nat → Pins} (hK : ∀ n, ∃ m ≥ n, m < n + K ∧ (p m).go = true)
    (h1 : 63 * (10 * D + 15 * K + 19) ≤ 142 * 2 ^ 14) (h2 : 32 * K + 36 ≤ 9 * D) (h3 : 40 * K + 45 ≤ 2 ^ 14)
    {keys : Nat → Option (BitVec 8)} (hw : Wired D (Machine.envs D p) keys) {P : Nat}
    (hP : ∀ m n, m < n → (keyboard D keys m).ack = true → (keys m).isSome = true → (keyboard D keys n).ack = true → (keys n).isSome = true → m + P ≤ n)
    (h4 : 33 * K + 33 + D / 2 + 9 * D ≤ P)
    (hslow : ∀ t, (keyboard D keys t).ack = true → (keys t).isSome = true → taken D (Machine.envs D p) t = typed D keys t) :
    (∀ n, keysOf (ghost D p n).hist <+: typed D keys n) ∧
    ∀ n, (∀ k ≥ n, keys k = none) → ∃ m ≥ n, taken D (Machine.envs D p) m = typed D keys n ∧ keysOf (ghost D p m).hist = typed D keys n ∧
      calls D (Machine.envs D p) m = utf8 (session (ghost D p m).hist).said ∧ ∃ q ≥ m, utf8 (session (ghost D p m).hist).said <+: frames D (Machine.envs D p) q := by
  have F : Fast D K p := ⟨by omega, hK, h1, h2, h3⟩
  have hk := C70_keeps_up hD hK h1 hw hP h4
  have hst : ∀ n, stores D (Machine.envs D p) n <+: typed D keys n := fun n => (C70_typed hD hK h1 hw hP h4 n).1
  have W := waited (D := D) (e := Machine.envs D p) hst (fun t ht => hslow t ht.1 ht.2)
  obtain ⟨g1, g2⟩ := waits_abs F (fun n => ⟨_, rfl⟩) hst W
  refine ⟨g1, fun n hn => ?_⟩
  refine g2 n (n + 10 * D + 1) (typed_end hn) (C70_typed hD hK h1 hw hP h4 n).2 fun m hm => ?_
  have := (keyboard_rest (by omega) hw hk hn (t := m) (by omega)).1
  simpa [Machine.envs, Machine.env] using this

end Fw

/-- **C71** (a typist who waits): let the processor be fast enough, as in C69, and let a keyboard be connected whose characters are far enough apart, as in C70.
If, in addition, no character is typed before the application has taken the one before it, then it takes
all the characters typed, in that order, none of them lost or doubled, and everything that the session specified has to answer to them gets onto the line. -/
theorem C71_waits {D : Nat} (hD : 4 ≤ D) {K : Nat} {p : Nat → Pins} (hK : ∀ n, ∃ m ≥ n, m < n + K ∧ (p m).go = true)
    (h1 : 63 * (10 * D + 15 * K + 19) ≤ 142 * 2 ^ 14) (h2 : 32 * K + 36 ≤ 9 * D) (h3 : 40 * K + 45 ≤ 2 ^ 14)
    {keys : Nat → Option (BitVec 8)} (hw : Wired D (Machine.envs D p) keys) {P : Nat}
    (hP : ∀ m n, m < n → (keyboard D keys m).ack = true → (keys m).isSome = true → (keyboard D keys n).ack = true → (keys n).isSome = true → m + P ≤ n)
    (h4 : 33 * K + 33 + D / 2 + 9 * D ≤ P)
    (hslow : ∀ t, (keyboard D keys t).ack = true → (keys t).isSome = true → taken D (Machine.envs D p) t = typed D keys t) :
    ∃ h : Nat → List Input, Explains D p h ∧ (∀ n, keysOf (h n) <+: typed D keys n) ∧
    ∀ n, (∀ k ≥ n, keys k = none) → ∃ m ≥ n, taken D (Machine.envs D p) m = typed D keys n ∧ keysOf (h m) = typed D keys n ∧
      calls D (Machine.envs D p) m = utf8 (session (h m)).said ∧ ∃ q ≥ m, utf8 (session (h m)).said <+: frames D (Machine.envs D p) q :=
  ⟨_, explains_ghost D p, waits hD hK h1 h2 h3 hw hP h4 hslow⟩

namespace Fw

/-- The styles of the lines of a demonstration: the first one at first, and then either the same as before or the next one. -/
def Styles (st : Nat → Nat) : Prop := st 0 = 0 ∧ ∀ j, st (j + 1) = st j ∨ st (j + 1) = (st j + 1) % 4

/-- Where a session is after `k` of the characters ctrl-c, `b1`, `b2`, `b3`. -/
def Rule3 (b1 b2 b3 : BitVec 8) : Nat → Session → Prop
  | 0, s => ∃ st N, Styles st ∧ s.phase = .demo 110 (st N) N ∧ s.said = demoText 110 st N ∧ s.leds = 0
  | 1, s => ∃ st N, Styles st ∧ s.phase = .ask [] ∧ s.said = demoText 110 st N ++ "ctrl-c hit\nrule (default 110)? ".toList
  | 2, s => ∃ st N, Styles st ∧ s.phase = .ask [b1] ∧
      s.said = demoText 110 st N ++ "ctrl-c hit\nrule (default 110)? ".toList ++ [Char.ofNat b1.toNat]
  | 3, s => ∃ st N, Styles st ∧ s.phase = .ask [b1, b2] ∧
      s.said = demoText 110 st N ++ "ctrl-c hit\nrule (default 110)? ".toList ++ [Char.ofNat b1.toNat, Char.ofNat b2.toNat]
  | _, s => ∃ st N st' M, Styles st ∧ Styles st' ∧ s.phase = .demo (ruleOf [b1, b2, b3]) (st' M) M ∧ s.leds = ruleOf [b1, b2, b3] ∧
      s.said = demoText 110 st N ++ "ctrl-c hit\nrule (default 110)? ".toList ++ [Char.ofNat b1.toNat, Char.ofNat b2.toNat, Char.ofNat b3.toNat, '\n'] ++
        demoText (ruleOf [b1, b2, b3]) st' M

/-- One more line. -/
theorem demo_line (rule : BitVec 8) {st : Nat → Nat} (hst : Styles st) (N : Nat) (press : Bool) :
    ∃ st', Styles st' ∧ st' (N + 1) = (if press then (st N + 1) % 4 else st N) ∧
      demoText rule st N ++ rowText rule (if press then (st N + 1) % 4 else st N) (N + 1) = demoText rule st' (N + 1) := by
  refine ⟨fun j => if j ≤ N then st j else if press then (st N + 1) % 4 else st N, ⟨by simpa using hst.1, fun j => ?_⟩, by simp, ?_⟩
  · by_cases h1 : j + 1 ≤ N
    · have h2 : j ≤ N := by omega
      simpa [h1, h2] using hst.2 j
    · by_cases h2 : j ≤ N
      · have : j = N := by omega
        subst this
        cases press <;> simp
      · cases press <;> simp [h1, h2]
  · rw [demoText, demoText, List.range_succ (n := N + 1), List.flatMap_append, List.append_assoc]
    congr 2
    · refine List.flatMap_congr fun j hj => ?_
      have : j ≤ N := by have := List.mem_range.1 hj; omega
      simp [this]
    · simp

theorem rule3_step {b1 b2 b3 : BitVec 8} (i : Input) : ∀ {k : Nat} {s : Session}, k ≤ 4 → Rule3 b1 b2 b3 k s → (∀ b, i.key = some b → [3, b1, b2, b3][k]? = some b) →
    Rule3 b1 b2 b3 (k + i.key.toList.length) (s.step i)
  | 0, s, _, h, hi => by
    obtain ⟨st, N, h1, h2, h3, h4⟩ := h
    cases hk : i.key with
    | none =>
      obtain ⟨st', g1, g2, g3⟩ := demo_line 110 h1 N i.press
      refine ⟨st', N + 1, g1, ?_, ?_, ?_⟩
      · simp [Session.step, h2, hk, g2]
      · rw [← g3, Session.step, h2]
        simp [hk, h3]
      · simp [Session.step, h2, hk, h4]
    | some b =>
      have := hi b hk
      simp at this
      subst this
      exact ⟨st, N, h1, by simp [Session.step, h2, hk], by simp [Session.step, h2, hk, h3]⟩
  | 1, s, _, h, hi => by
    obtain ⟨st, N, h1, h2, h3⟩ := h
    cases hk : i.key with
    | none => exact ⟨st, N, h1, by simp [Session.step, h2, hk], by simp [Session.step, h2, hk, h3]⟩
    | some b =>
      have := hi b hk
      simp at this
      subst this
      exact ⟨st, N, h1, by simp [Session.step, h2, hk], by simp [Session.step, h2, hk, h3]⟩
  | 2, s, _, h, hi => by
    obtain ⟨st, N, h1, h2, h3⟩ := h
    cases hk : i.key with
    | none => exact ⟨st, N, h1, by simp [Session.step, h2, hk], by simp [Session.step, h2, hk, h3]⟩
    | some b =>
      have := hi b hk
      simp at this
      subst this
      exact ⟨st, N, h1, by simp [Session.step, h2, hk], by simp [Session.step, h2, hk, h3]⟩
  | 3, s, _, h, hi => by
    obtain ⟨st, N, h1, h2, h3⟩ := h
    cases hk : i.key with
    | none => exact ⟨st, N, h1, by simp [Session.step, h2, hk], by simp [Session.step, h2, hk, h3]⟩
    | some b =>
      have := hi b hk
      simp at this
      subst this
      refine ⟨st, N, fun _ => 0, 0, h1, ⟨rfl, fun _ => .inl rfl⟩, ?_, ?_, ?_⟩ <;> simp [Session.step, h2, hk, h3, demoText]
  | 4, s, _, h, hi => by
    obtain ⟨st, N, st1, M, h1, h1', h2, h4, h3⟩ := h
    cases hk : i.key with
    | none =>
      obtain ⟨st', g1, g2, g3⟩ := demo_line (ruleOf [b1, b2, b3]) h1' M i.press
      refine ⟨st, N, st', M + 1, h1, g1, ?_, ?_, ?_⟩
      · simp [Session.step, h2, hk, g2]
      · simp [Session.step, h2, hk, h4]
      · rw [← g3, Session.step, h2]
        simp [hk, h3]
    | some b =>
      have := hi b hk
      simp at this
  | k + 5, _, h, _, _ => by omega

theorem keysOf_mono (m d : Nat) : keysOf (ghost D p m).hist <+: keysOf (ghost D p (m + d)).hist := by
  induction d with
  | zero => exact List.prefix_refl _
  | succ d ih =>
    rcases ghost_step D p (m + d) with g | ⟨i, g⟩
    · rw [← Nat.add_assoc, g]; exact ih
    · rw [← Nat.add_assoc, g, keysOf_snoc]; exact ih.trans (List.prefix_append _ _)

theorem rule3_at {b1 b2 b3 : BitVec 8} (is : List Input) (h : keysOf is <+: [3, b1, b2, b3]) : Rule3 b1 b2 b3 (keysOf is).length (session is) := by
  induction is using List.reverseRecOn with
  | nil => exact ⟨fun _ => 0, 0, ⟨rfl, fun _ => .inl rfl⟩, rfl, by simp [session, demoText, keysOf], rfl⟩
  | append_singleton is i ih =>
    rw [keysOf_snoc] at h
    rw [session_snoc, keysOf_snoc, List.length_append]
    have h0 := (List.prefix_append _ _).trans h
    refine rule3_step i (by simpa using h0.length_le) (ih h0) (fun b hb => ?_)
    rw [hb] at h
    obtain ⟨t, ht⟩ := h
    rw [← ht]
    simp

end Fw

namespace Fw

theorem dialogue_abs {D K : Nat} {p : Nat → Pins} (F : Fast D K p) {T : Nat → List (BitVec 8)} (mono : ∀ n, T n <+: T (n + 1))
    (hst : ∀ n, stores D (Machine.envs D p) n <+: T n)
    (W : ∀ n, stores D (Machine.envs D p) n = taken D (Machine.envs D p) n ++ (mailbox D (Machine.envs D p) n).toList)
    {n r : Nat} (hend : ∀ d, T (n + d) = T n) (hev : ∃ m ≥ n, T n <+: stores D (Machine.envs D p) m) (hrest : ∀ m ≥ r, (p m).rx = true)
    {b1 b2 b3 : BitVec 8} (ht : T n = [3, b1, b2, b3]) (L : Nat) :
    ∃ st N st' M m q, L ≤ M ∧ Styles st ∧ Styles st' ∧
      utf8 (demoText 110 st N ++ "ctrl-c hit\nrule (default 110)? ".toList ++ [Char.ofNat b1.toNat, Char.ofNat b2.toNat, Char.ofNat b3.toNat, '\n'] ++
        demoText (ruleOf [b1, b2, b3]) st' M) <+: frames D (Machine.envs D p) q ∧
      (Machine.at_ D p m).sys.leds.leds = ruleOf [b1, b2, b3] := by
  have E := explains_ghost D p
  obtain ⟨hpre, hh⟩ := waits_abs F mono hst W
  obtain ⟨m0, m01, -, m02, -⟩ := hh n r hend hev hrest
  have htyp : ∀ k ≥ n, T k = [3, b1, b2, b3] := by
    intro k hk'
    obtain ⟨d, rfl⟩ := Nat.exists_eq_add_of_le hk'
    rw [hend, ht]
  have hkeys : ∀ k ≥ m0, keysOf (ghost D p k).hist = [3, b1, b2, b3] := by
    intro k hk'
    have a1 := hpre k
    rw [htyp k (by omega)] at a1
    refine a1.eq_of_length_le ?_
    rw [← ht, ← m02]
    obtain ⟨d, rfl⟩ := Nat.exists_eq_add_of_le hk'
    exact (keysOf_mono m0 d).length_le
  have hrule : ∀ k ≥ m0, Rule3 b1 b2 b3 4 (session (ghost D p k).hist) := by
    intro k hk'
    have := rule3_at (b1 := b1) (b2 := b2) (b3 := b3) (ghost D p k).hist (by rw [hkeys k hk']; exact List.prefix_refl _)
    rwa [hkeys k hk'] at this
  have more : ∃ m ≥ max m0 r, ∃ rule style gen, (session (ghost D p m).hist).phase = .demo rule style gen ∧ L ≤ gen := by
    induction L with
    | zero =>
      obtain ⟨st, N, st', M, r1, r2, r3, -⟩ := hrule (max m0 r) (by omega)
      exact ⟨_, Nat.le_refl _, _, _, _, r3, Nat.zero_le _⟩
    | succ L ih =>
      obtain ⟨m, hm, rule, style, gen, g1, g2⟩ := ih
      obtain ⟨m', i1, i2, i3⟩ := demo_goes_on F (fun k hk' => by
        exact hrest k (by omega)) g1
      rcases ghost_step D p m' with g | ⟨i, g⟩
      · exact absurd g i3
      · have k1 := hkeys (m' + 1) (by omega)
        rw [g, keysOf_snoc, hkeys m' (by omega)] at k1
        have hi : i.key = none := by
          cases hx : i.key with
          | none => rfl
          | some b => rw [hx] at k1; simp at k1
        refine ⟨m' + 1, by omega, rule, if i.press then (style + 1) % 4 else style, gen + 1, ?_, by omega⟩
        rw [g, i2, session_snoc, Session.step, g1]
        simp [hi]
  obtain ⟨m1, m11, rule, style, gen, m12, m13⟩ := more
  obtain ⟨m, mb, mh, mc, -⟩ := all_said F m1
  rw [← mh] at mc m12
  obtain ⟨q, q1, q2⟩ := calls_sent F m
  rw [mc] at q2
  obtain ⟨st, N, st', M, r1, r2, r3, r4, r5⟩ := hrule m (by omega)
  rw [m12] at r3
  obtain ⟨-, -, rfl⟩ : _ ∧ _ ∧ gen = M := by simpa using r3
  refine ⟨st, N, st', gen, m, q, m13, r1, r2, ?_, ?_⟩
  · rw [← r5]; exact q2
  · rw [E.leds m mc, r4]

end Fw

/-- **C71** (the dialogue): under the same conditions, if the characters typed, by the time `n`, are ctrl-c and three more, and that is all, then what is
on the line begins, at some time, with some lines of the demonstration of rule 110, the prompt, the three characters, and then the demonstration of the rule that they make,
for as many lines as one likes (`L`), which is on the LEDs then.  (The button may be pressed; it changes the style of the lines.) -/
theorem C71_dialogue {D : Nat} (hD : 4 ≤ D) {K : Nat} {p : Nat → Pins} (hK : ∀ n, ∃ m ≥ n, m < n + K ∧ (p m).go = true)
    (h1 : 63 * (10 * D + 15 * K + 19) ≤ 142 * 2 ^ 14) (h2 : 32 * K + 36 ≤ 9 * D) (h3 : 40 * K + 45 ≤ 2 ^ 14)
    {keys : Nat → Option (BitVec 8)} (hw : Wired D (Machine.envs D p) keys) {P : Nat}
    (hP : ∀ m n, m < n → (keyboard D keys m).ack = true → (keys m).isSome = true → (keyboard D keys n).ack = true → (keys n).isSome = true → m + P ≤ n)
    (h4 : 33 * K + 33 + D / 2 + 9 * D ≤ P)
    (hslow : ∀ t, (keyboard D keys t).ack = true → (keys t).isSome = true → taken D (Machine.envs D p) t = typed D keys t)
    {n : Nat} (hn : ∀ k ≥ n, keys k = none) {b1 b2 b3 : BitVec 8} (ht : typed D keys n = [3, b1, b2, b3]) (L : Nat) :
    ∃ st N st' M m q, L ≤ M ∧ Styles st ∧ Styles st' ∧
      utf8 (demoText 110 st N ++ "ctrl-c hit\nrule (default 110)? ".toList ++ [Char.ofNat b1.toNat, Char.ofNat b2.toNat, Char.ofNat b3.toNat, '\n'] ++
        demoText (ruleOf [b1, b2, b3]) st' M) <+: frames D (Machine.envs D p) q ∧
      (Machine.at_ D p m).sys.leds.leds = ruleOf [b1, b2, b3] := by
  have F : Fast D K p := ⟨by omega, hK, h1, h2, h3⟩
  have hk := C70_keeps_up hD hK h1 hw hP h4
  have hst : ∀ n, stores D (Machine.envs D p) n <+: typed D keys n := fun n => (C70_typed hD hK h1 hw hP h4 n).1
  have W := waited (D := D) (e := Machine.envs D p) hst (fun t ht => hslow t ht.1 ht.2)
  refine dialogue_abs F (fun n => ⟨_, rfl⟩) hst W (r := n + 10 * D + 1) (typed_end hn) (C70_typed hD hK h1 hw hP h4 n).2 (fun m hm => ?_) ht L
  have := (keyboard_rest (by omega) hw hk hn (t := m) (by omega)).1
  simpa [Machine.envs, Machine.env] using this

namespace Fw

/-- The pins `p0`, with the keyboard connected. -/
def withKeys (D : Nat) (p0 : Nat → Pins) (keys : Nat → Option (BitVec 8)) (n : Nat) : Pins := { p0 n with rx := (keyboard D keys n).out }

/-- The same characters, and `b` in cycle `t`. -/
def oneMore (keys : Nat → Option (BitVec 8)) (t : Nat) (b : BitVec 8) (k : Nat) : Option (BitVec 8) := if k = t then some b else keys k

theorem keyboard_same {D : Nat} {keys keys' : Nat → Option (BitVec 8)} {n : Nat} (h : ∀ k < n, keys' k = keys k) : keyboard D keys' n = keyboard D keys n := by
  induction n with
  | zero => rfl
  | succ n ih =>
    show UartTx.step D (keyboard D keys' n) _ _ = UartTx.step D (keyboard D keys n) _ _
    rw [ih (fun k hk => h k (by omega))]
    show UartTx.step D _ (keys' n).isSome (byteBits ((keys' n).getD 0)) = _
    rw [h n (by omega)]

theorem typed_same {D : Nat} {keys keys' : Nat → Option (BitVec 8)} {n : Nat} (h : ∀ k < n, keys' k = keys k) : typed D keys' n = typed D keys n := by
  induction n with
  | zero => rfl
  | succ n ih => rw [typed, typed, ih (fun k hk => h k (by omega)), h n (by omega), keyboard_same (fun k hk => h k (by omega))]

theorem at_same {D : Nat} {p p' : Nat → Pins} {n : Nat} (h0 : (p' 0).csr = (p 0).csr) (h : ∀ k < n, p' k = p k) :
    Machine.at_ D p' n = Machine.at_ D p n := by
  induction n with
  | zero => rw [Machine.at_, Machine.at_, h0]
  | succ n ih =>
    show (Machine.at_ D p' n).step D (p' n) = (Machine.at_ D p n).step D (p n)
    rw [ih (fun k hk => h k (by omega)), h n (by omega)]

theorem taken_same {D : Nat} {p p' : Nat → Pins} {n : Nat} (h0 : (p' 0).csr = (p 0).csr) (h : ∀ k < n, p' k = p k) :
    taken D (Machine.envs D p') n = taken D (Machine.envs D p) n := by
  induction n with
  | zero => rfl
  | succ n ih =>
    have ha := at_same (D := D) (n := n) (p := p) (p' := p') h0 (fun k hk => h k (by omega))
    rw [taken, taken, ih (fun k hk => h k (by omega)), mailbox, mailbox, ← at_sys, ← at_sys, ha]
    unfold Machine.envs
    rw [ha, h n (by omega)]

end Fw

/-- **C71** (it is possible): whatever the characters are, somebody can type them in that way: the conditions of `C71_waits` can be met with any
`P`, and the characters typed are those. -/
theorem C71_possible {D : Nat} (hD : 4 ≤ D) {K : Nat} {p0 : Nat → Pins} (hK : ∀ n, ∃ m ≥ n, m < n + K ∧ (p0 m).go = true)
    (h1 : 63 * (10 * D + 15 * K + 19) ≤ 142 * 2 ^ 14) (h2 : 32 * K + 36 ≤ 9 * D) (h3 : 40 * K + 45 ≤ 2 ^ 14)
    {P : Nat} (h4 : 33 * K + 33 + D / 2 + 9 * D ≤ P) (l : List (BitVec 8)) :
    ∃ keys, Wired D (Machine.envs D (withKeys D p0 keys)) keys ∧
      (∀ m n, m < n → (keyboard D keys m).ack = true → (keys m).isSome = true → (keyboard D keys n).ack = true → (keys n).isSome = true → m + P ≤ n) ∧
      (∀ t, (keyboard D keys t).ack = true → (keys t).isSome = true → taken D (Machine.envs D (withKeys D p0 keys)) t = typed D keys t) ∧
      ∃ n, (∀ k ≥ n, keys k = none) ∧ typed D keys n = l := by
  have wired : ∀ keys, Wired D (Machine.envs D (withKeys D p0 keys)) keys := fun keys n => rfl
  induction l using List.reverseRecOn with
  | nil => exact ⟨fun _ => none, wired _, nofun, nofun, 0, fun _ _ => rfl, rfl⟩
  | append_singleton l b ih =>
    obtain ⟨keys, hw, hP, hslow, n, hn, ht⟩ := ih
    have hK' : ∀ n, ∃ m ≥ n, m < n + K ∧ (withKeys D p0 keys m).go = true := hK
    obtain ⟨m, m1, m2⟩ : ∃ m ≥ n, taken D (Machine.envs D (withKeys D p0 keys)) m = typed D keys n := by
      obtain ⟨h, -, -, hh⟩ := C71_waits hD hK' h1 h2 h3 hw hP h4 hslow
      obtain ⟨m, a, b, -⟩ := hh n hn
      exact ⟨m, a, b⟩
    have hk := C70_keeps_up hD hK' h1 hw hP h4
    have hst : ∀ k, (taken D (Machine.envs D (withKeys D p0 keys)) k).Sublist (typed D keys k) :=
      fun k => (C64_take _ k).1.trans (C70_typed hD hK' h1 hw hP h4 k).1.sublist
    have htyp : ∀ d, typed D keys (n + d) = typed D keys n := by
      intro d
      induction d with
      | zero => rfl
      | succ d ih =>
        rw [← Nat.add_assoc, typed, hn (n + d) (by omega), ih]
        simp
    -- the next one is typed when the line has been idle for long enough
    obtain ⟨t, ht1, ht2, ht3⟩ : ∃ t, m ≤ t ∧ n + 10 * D + 1 ≤ t ∧ n + P ≤ t := ⟨m + n + 10 * D + 1 + P, by omega, by omega, by omega⟩
    have hack := (keyboard_rest hD hw hk hn ht2).2
    have same : ∀ k < t, oneMore keys t b k = keys k := fun k hk => if_neg (by omega)
    have after : ∀ k > t, oneMore keys t b k = none := fun k hk => by rw [oneMore, if_neg (by omega)]; exact hn k (by omega)
    have samep : ∀ k < t, withKeys D p0 (oneMore keys t b) k = withKeys D p0 keys k := fun k hk => by
      unfold withKeys; rw [keyboard_same (fun j hj => same j (by omega))]
    have htt : taken D (Machine.envs D (withKeys D p0 keys)) t = typed D keys t := by
      obtain ⟨d, rfl⟩ := Nat.exists_eq_add_of_le ht1
      obtain ⟨d', hd'⟩ := Nat.exists_eq_add_of_le (show n ≤ m + d by omega)
      have b1 := hst (m + d)
      refine b1.eq_of_length_le ?_
      have b2 := (taken_mono (D := D) (e := Machine.envs D (withKeys D p0 keys)) m d).length_le
      rw [m2] at b2
      rw [hd', htyp, ← hd']
      exact b2
    refine ⟨oneMore keys t b, wired _, ?_, ?_, t + 1, fun k hk => after k (by omega), ?_⟩
    · intro i j hij a1 a2 a3 a4
      rcases Nat.lt_trichotomy j t with hj | hj | hj
      · rw [keyboard_same (fun k hk => same k (by omega))] at a1 a3
        rw [same _ (by omega)] at a2 a4
        exact hP i j hij a1 a2 a3 a4
      · rw [same _ (by omega)] at a2
        have : i < n := by
          by_contra hx
          rw [hn i (by omega)] at a2
          cases a2
        omega
      · rw [after j hj] at a4; cases a4
    · intro j a1 a2
      rcases Nat.lt_trichotomy j t with hj | hj | hj
      · rw [taken_same (p := withKeys D p0 keys) (p' := withKeys D p0 (oneMore keys t b)) rfl (fun k hk => samep k (by omega)), typed_same (fun k hk => same k (by omega))]
        rw [keyboard_same (fun k hk => same k (by omega))] at a1
        rw [same _ (by omega)] at a2
        exact hslow j a1 a2
      · subst hj
        rw [taken_same (p := withKeys D p0 keys) (p' := withKeys D p0 (oneMore keys j b)) rfl samep, typed_same same]
        exact htt
      · rw [after j hj] at a2; cases a2
    · rw [typed, typed_same same, keyboard_same same, hack]
      obtain ⟨d, rfl⟩ := Nat.exists_eq_add_of_le (show n ≤ t by omega)
      rw [htyp, ht]
      simp [oneMore]

/-- So the conditions of `C71_dialogue` can be met: somebody types ctrl-c, `9`, `0` and return at the board with 9600 baud and 12 MHz, and gets rule 90. -/
example (L : Nat) : ∃ p st N st' M m q, L ≤ M ∧ Styles st ∧ Styles st' ∧
    utf8 (demoText 110 st N ++ "ctrl-c hit\nrule (default 110)? 90\r\n".toList ++ demoText 90 st' M) <+: frames 1250 (Machine.envs 1250 p) q ∧
    (Machine.at_ 1250 p m).sys.leds.leds = 90 := by
  obtain ⟨keys, hw, hP, hslow, n, hn, ht⟩ := C71_possible (D := 1250) (K := 1) (p0 := fun _ => {}) (P := 400000) (by decide) (fun n => ⟨n, by omega, by omega, rfl⟩)
    (by decide) (by decide) (by decide) (by decide) [3, 57, 48, 13]
  obtain ⟨st, N, st', M, m, q, g0, g1, g2, g3, g4⟩ := C71_dialogue (D := 1250) (K := 1) (P := 400000) (by decide) (fun n => ⟨n, by omega, by omega, rfl⟩) (by decide) (by decide) (by decide) hw hP (by decide) hslow hn ht L
  have hr : ruleOf [57, 48, 13] = 90 := by decide
  rw [hr] at g3 g4
  refine ⟨_, st, N, st', M, m, q, g0, g1, g2, ?_, g4⟩
  have : "ctrl-c hit\nrule (default 110)? 90\r\n".toList = "ctrl-c hit\nrule (default 110)? ".toList ++ ['9', '0', '\r', '\n'] := by decide
  rw [this, ← List.append_assoc]
  exact g3

end Sentinel
