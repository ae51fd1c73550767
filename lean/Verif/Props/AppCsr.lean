import Verif.Props.FirmwareCsr
import Verif.Props.App
import Verif.Props.AppLive
import Verif.Props.AppRuns
import Verif.Props.AppKeys
import Verif.Props.AppTypist
/-!
# C82, C83: the application of the Rust firmware on the CSR bus
-/

set_option linter.unusedSimpArgs false

namespace Sentinel

open Fw (Env Main Isr Soft Pins keyboard typed utf8 session keysOf demoText ruleOf Styles withKeys oneMore)
open FwCsr

namespace FwCsr

theorem explains_csr {D : Nat} {p : Nat → Pins} {h : Nat → List Fw.Input} (E : Fw.Explains D (pins D p) h) : Explains D p h := by
  have he := envs_eq (D := D) (p := p)
  refine ⟨E.start, E.grows, ?_, ?_, ?_, ?_, ?_, ?_, ?_, ?_, ?_⟩
  · intro n i hi
    have := E.acts n i hi
    simp only [pins, Bool.and_eq_true] at this
    exact this.1
  · intro n; rw [calls_eq, ← he]; exact E.said n
  · intro n is i hi; rw [calls_eq, ← he]; exact E.before n is i hi
  · intro n i hi; rw [mailbox_eq, ← he]; exact E.box n i hi
  · intro n; rw [taken_eq, ← he]; exact E.keys n
  · intro n is i hi; rw [taken_eq, ← he]; exact E.keysBefore n is i hi
  · intro n hn
    rw [calls_eq, ← he] at hn
    rw [← E.leds n hn, (msim_at n).sys.same.leds]
  · intro n i rule style gen hi hp
    obtain ⟨b1, b2⟩ := E.button n i rule style gen hi hp
    have hg := E.acts n i hi
    simp only [pins, Bool.and_eq_true, Option.isNone_iff_eq_none] at hg
    have hs := samples_eq (D := D) (e := Machine.envs D p) n
    rw [← at_sys, hg.2, if_neg (by rintro ⟨h, -⟩; cases h)] at hs
    rw [← hs.2, ← he]
    exact ⟨b1, b2⟩
  · intro n i rule style gen hi hp
    obtain ⟨m, h1, h2⟩ := E.apart n i rule style gen hi hp
    exact ⟨m, h1, fun k k1 k2 => by rw [writing_eq, ← he]; exact h2 k k1 k2⟩

theorem act_go {D : Nat} {p : Nat → Pins} (n : Nat) : (Machine.envs D p n).act.isSome = (p n).go := by
  unfold Machine.envs Machine.env
  cases (p n).go <;> rfl

theorem go_soon {D K : Nat} {p : Nat → Pins} (h : ∀ n, ∃ m ≥ n, m < n + K ∧ (p m).go = true) (n : Nat) :
    ∃ m ≥ n, m < n + (K + 6) ∧ (pins D p m).go = true := by
  obtain ⟨m, m1, m2, m3, m4⟩ := acts_soon (D := D) (e := Machine.envs D p) (K := K) (fun n => by
    obtain ⟨m, h1, h2, h3⟩ := h n
    exact ⟨m, h1, h2, by rw [act_go]; exact h3⟩) n
  refine ⟨m, m1, m2, ?_⟩
  rw [act_go] at m4
  rw [← at_sys] at m3
  simp [pins, m3, m4]

end FwCsr

/-- **C82** (the conversation): for every run there is a history of inputs that explains everything that is observed. -/
theorem C82_session (D : Nat) (p : Nat → Pins) : ∃ h : Nat → List Fw.Input, Explains D p h := by
  obtain ⟨h, E⟩ := C66_session D (pins D p)
  exact ⟨h, explains_csr E⟩

/-- **C82** (at both ends of the cable): a terminal that keeps up shows what the session is to say, and the characters of
the session were typed at the keyboard, in that order, if the firmware keeps up. -/
theorem C82_terminal {D : Nat} (hD : 4 ≤ D) (p : Nat → Pins) : ∃ h : Nat → List Fw.Input, Explains D p h ∧
    (∀ take, TerminalKeepsUp D (Machine.envs D p) take → ∀ n, shown D (Machine.envs D p) take n <+: utf8 (session (h n)).said) ∧
    (∀ keys, Fw.Wired D (Machine.envs D p) keys → DriverKeepsUp D (Machine.envs D p) keys →
      ∀ n is i, h n = is ++ [i] → (keysOf is).Sublist (typed D keys n)) := by
  obtain ⟨h, hh⟩ := C82_session D p
  refine ⟨h, hh, ?_, ?_⟩
  · intro take hk n
    exact (C80_terminal hD _ hk n).1.trans (hh.said n)
  · intro keys hw hk n is i hi
    exact ((hh.keysBefore n is i hi).sublist.trans (C81_take _ n).1).trans (C81_keyboard hD _ hw hk n).2.sublist

/-- **C82** (no deadlock): if the processor does an action at least every `K` cycles and the serial line is fast enough, interrupts are
enabled again and again. -/
theorem C82_enabled {D : Nat} (hD : 0 < D) {K : Nat} {p : Nat → Pins} (hK : ∀ n, ∃ m ≥ n, m < n + K ∧ (p m).go = true)
    (hfast : 63 * (10 * D + 15 * (K + 6) + 19) ≤ 142 * 2 ^ 14) (n : Nat) :
    ∃ m ≥ n, m ≤ n + (11 * (K + 6) + 4) ∧ (Sys.at_ D (Machine.envs D p) m).soft.main.enabled = true := by
  obtain ⟨m, m1, m2, m3⟩ := C67_enabled hD (go_soon (D := D) hK) hfast n
  refine ⟨m, m1, m2, ?_⟩
  rw [envs_eq, (soft_same (sim_at _ m)).2.1] at m3
  exact m3

/-- **C82** (flow): under the same conditions everything written gets onto the line, and everything received gets stored. -/
theorem C82_flow {D : Nat} (hD : 0 < D) {K : Nat} {p : Nat → Pins} (hK : ∀ n, ∃ m ≥ n, m < n + K ∧ (p m).go = true)
    (hfast : 63 * (10 * D + 15 * (K + 6) + 19) ≤ 142 * 2 ^ 14) (n : Nat) :
    (∃ m ≥ n, returned D (Machine.envs D p) n <+: frames D (Machine.envs D p) m) ∧
    (∃ m ≥ n, received D (Machine.envs D p) n <+: stores D (Machine.envs D p) m) := by
  have := C67_flow hD (go_soon (D := D) hK) hfast n
  rw [envs_eq] at this
  simp only [returned_eq, frames_eq, received_eq, stores_eq]
  exact this

/-- **C82** (the conversation goes on): if the processor is fast enough for the divisor, then, after each input, everything that is to be said is said, and the character of
the input is taken out of `RX`, before the next input.  In a demonstration there is a next input if the receive line stays idle; at the prompt there is one
as soon as a character is in `RX`. -/
theorem C82_goes_on {D : Nat} (hD : 0 < D) {K : Nat} {p : Nat → Pins} (hK : ∀ n, ∃ m ≥ n, m < n + K ∧ (p m).go = true)
    (h1 : 63 * (10 * D + 15 * (K + 6) + 19) ≤ 142 * 2 ^ 14) (h2 : 32 * (K + 6) + 36 ≤ 9 * D) (h3 : 40 * (K + 6) + 45 ≤ 2 ^ 14) :
    ∃ h : Nat → List Fw.Input, Explains D p h ∧
    (∀ n, ∃ m ≥ n, h m = h n ∧ calls D (Machine.envs D p) m = utf8 (session (h n)).said ∧ taken D (Machine.envs D p) m = keysOf (h n)) ∧
    (∀ n rule style gen, (session (h n)).phase = .demo rule style gen → (∀ m ≥ n, (p m).rx = true) →
      ∃ m ≥ n, ∃ i, h m = h n ∧ h (m + 1) = h n ++ [i]) ∧
    (∀ n ks, (session (h n)).phase = .ask ks → taken D (Machine.envs D p) n = keysOf (h n) → mailbox D (Machine.envs D p) n ≠ none →
      ∃ m ≥ n, ∃ i, h m = h n ∧ h (m + 1) = h n ++ [i]) := by
  obtain ⟨h, E, g1, g2, g3⟩ := C69_goes_on hD (go_soon (D := D) hK) h1 h2 h3
  rw [envs_eq] at g1 g3
  refine ⟨h, explains_csr E, ?_, g2, ?_⟩
  · simp only [calls_eq, taken_eq]; exact g1
  · simp only [taken_eq, mailbox_eq]; exact g3

/-- **C82** (unattended): under the same conditions, with the receive line idle and nobody pressing the button, the demonstration of rule 110
goes on for ever: for each `N` the bytes on the line begin, at some time, with its first `N` generations, as specified. -/
theorem C82_unattended {D : Nat} (hD : 0 < D) {K : Nat} {p : Nat → Pins} (hK : ∀ n, ∃ m ≥ n, m < n + K ∧ (p m).go = true)
    (h1 : 63 * (10 * D + 15 * (K + 6) + 19) ≤ 142 * 2 ^ 14) (h2 : 32 * (K + 6) + 36 ≤ 9 * D) (h3 : 40 * (K + 6) + 45 ≤ 2 ^ 14)
    (hr : ∀ n, (p n).rx = true) (hb : ∀ n, (p n).gpioI.getLsbD 0 = false) (N : Nat) :
    ∃ m, utf8 (demoText 110 (fun _ => 0) N) <+: frames D (Machine.envs D p) m := by
  obtain ⟨m, hm⟩ := C69_unattended hD (go_soon (D := D) hK) h1 h2 h3 hr hb N
  rw [envs_eq] at hm
  exact ⟨m, by rw [frames_eq]; exact hm⟩

/-- The conditions can be met: 9600 baud at 12 MHz and an action in each cycle (or every 344 cycles). -/
example (N : Nat) : ∃ m, utf8 (demoText 110 (fun _ => 0) N) <+: frames 1250 (Machine.envs 1250 fun _ => {}) m :=
  C82_unattended (K := 344) (by decide) (fun n => ⟨n, by omega, by omega, rfl⟩) (by decide) (by decide) (by decide) (fun _ => rfl) (fun _ => rfl) N

/-- **C83** (the firmware keeps up): if the processor is fast enough, and the characters are far enough apart, none is lost in the serial port. -/
theorem C83_keeps_up {D : Nat} (hD : 4 ≤ D) {K : Nat} {p : Nat → Pins} (hK : ∀ n, ∃ m ≥ n, m < n + K ∧ (p m).go = true)
    (h1 : 63 * (10 * D + 15 * (K + 6) + 19) ≤ 142 * 2 ^ 14) {keys : Nat → Option (BitVec 8)} (hw : Fw.Wired D (Machine.envs D p) keys) {P : Nat}
    (hP : ∀ m n, m < n → (keyboard D keys m).ack = true → (keys m).isSome = true → (keyboard D keys n).ack = true → (keys n).isSome = true → m + P ≤ n)
    (h2 : 33 * (K + 6) + 33 + D / 2 + 9 * D ≤ P) : DriverKeepsUp D (Machine.envs D p) keys := by
  rw [driver_iff, ← envs_eq]
  exact C70_keeps_up hD (go_soon hK) h1 (by rw [envs_eq]; exact hw) hP h2

/-- **C83** (typed): what is typed is stored, in that order. -/
theorem C83_typed {D : Nat} (hD : 4 ≤ D) {K : Nat} {p : Nat → Pins} (hK : ∀ n, ∃ m ≥ n, m < n + K ∧ (p m).go = true)
    (h1 : 63 * (10 * D + 15 * (K + 6) + 19) ≤ 142 * 2 ^ 14) {keys : Nat → Option (BitVec 8)} (hw : Fw.Wired D (Machine.envs D p) keys) {P : Nat}
    (hP : ∀ m n, m < n → (keyboard D keys m).ack = true → (keys m).isSome = true → (keyboard D keys n).ack = true → (keys n).isSome = true → m + P ≤ n)
    (h2 : 33 * (K + 6) + 33 + D / 2 + 9 * D ≤ P) (n : Nat) :
    stores D (Machine.envs D p) n <+: typed D keys n ∧ ∃ m ≥ n, typed D keys n <+: stores D (Machine.envs D p) m := by
  simp only [stores_eq, ← envs_eq]
  exact C70_typed hD (go_soon hK) h1 (by rw [envs_eq]; exact hw) hP h2 n

/-- **C83** (at full speed): if the processor is fast enough, the characters may follow one another without a pause. -/
theorem C83_full_speed {D : Nat} (hD : 4 ≤ D) {K : Nat} {p : Nat → Pins} (hK : ∀ n, ∃ m ≥ n, m < n + K ∧ (p m).go = true)
    (h1 : 63 * (10 * D + 15 * (K + 6) + 19) ≤ 142 * 2 ^ 14) {keys : Nat → Option (BitVec 8)} (hw : Fw.Wired D (Machine.envs D p) keys)
    (h2 : 33 * (K + 6) + 32 + D / 2 ≤ D) (n : Nat) :
    stores D (Machine.envs D p) n <+: typed D keys n ∧ ∃ m ≥ n, typed D keys n <+: stores D (Machine.envs D p) m := by
  simp only [stores_eq, ← envs_eq]
  exact C70_full_speed hD (go_soon hK) h1 (by rw [envs_eq]; exact hw) h2 n

/-- The conditions can be met: 9600 baud at 12 MHz and an action at least every 11 cycles, with whatever is typed. -/
example (keys : Nat → Option (BitVec 8)) (n : Nat) :
    ∃ m ≥ n, typed 1250 keys n <+: stores 1250 (Machine.envs 1250 fun k => { rx := (keyboard 1250 keys k).out }) m :=
  (C83_full_speed (K := 11) (by decide) (fun n => ⟨n, by omega, by omega, rfl⟩) (by decide) (fun _ => rfl) (by decide) n).2

/-- **C83** (a typist who waits): if, in addition, no character is typed before the application has taken the one before it, then it takes
all the characters typed, in that order, none of them lost or doubled, and everything that the session specified has to answer to them gets onto the line. -/
theorem C83_waits {D : Nat} (hD : 4 ≤ D) {K : Nat} {p : Nat → Pins} (hK : ∀ n, ∃ m ≥ n, m < n + K ∧ (p m).go = true)
    (h1 : 63 * (10 * D + 15 * (K + 6) + 19) ≤ 142 * 2 ^ 14) (h2 : 32 * (K + 6) + 36 ≤ 9 * D) (h3 : 40 * (K + 6) + 45 ≤ 2 ^ 14)
    {keys : Nat → Option (BitVec 8)} (hw : Fw.Wired D (Machine.envs D p) keys) {P : Nat}
    (hP : ∀ m n, m < n → (keyboard D keys m).ack = true → (keys m).isSome = true → (keyboard D keys n).ack = true → (keys n).isSome = true → m + P ≤ n)
    (h4 : 33 * (K + 6) + 33 + D / 2 + 9 * D ≤ P)
    (hslow : ∀ t, (keyboard D keys t).ack = true → (keys t).isSome = true → taken D (Machine.envs D p) t = typed D keys t) :
    ∃ h : Nat → List Fw.Input, Explains D p h ∧ (∀ n, keysOf (h n) <+: typed D keys n) ∧
    ∀ n, (∀ k ≥ n, keys k = none) → ∃ m ≥ n, taken D (Machine.envs D p) m = typed D keys n ∧ keysOf (h m) = typed D keys n ∧
      calls D (Machine.envs D p) m = utf8 (session (h m)).said ∧ ∃ q ≥ m, utf8 (session (h m)).said <+: frames D (Machine.envs D p) q := by
  simp only [taken_eq, calls_eq, frames_eq, ← envs_eq] at hslow ⊢
  obtain ⟨h, E, g⟩ := C71_waits hD (go_soon (D := D) hK) h1 h2 h3 (by rw [envs_eq]; exact hw) hP h4 hslow
  exact ⟨h, explains_csr E, g⟩

/-- **C83** (the dialogue): under the same conditions, if the characters typed, by the time `n`, are ctrl-c and three more, and that is all, then what is
on the line begins, at some time, with some lines of the demonstration of rule 110, the prompt, the three characters, and then the demonstration of the rule that they make,
for as many lines as one likes (`L`), which is on the LEDs then. -/
theorem C83_dialogue {D : Nat} (hD : 4 ≤ D) {K : Nat} {p : Nat → Pins} (hK : ∀ n, ∃ m ≥ n, m < n + K ∧ (p m).go = true)
    (h1 : 63 * (10 * D + 15 * (K + 6) + 19) ≤ 142 * 2 ^ 14) (h2 : 32 * (K + 6) + 36 ≤ 9 * D) (h3 : 40 * (K + 6) + 45 ≤ 2 ^ 14)
    {keys : Nat → Option (BitVec 8)} (hw : Fw.Wired D (Machine.envs D p) keys) {P : Nat}
    (hP : ∀ m n, m < n → (keyboard D keys m).ack = true → (keys m).isSome = true → (keyboard D keys n).ack = true → (keys n).isSome = true → m + P ≤ n)
    (h4 : 33 * (K + 6) + 33 + D / 2 + 9 * D ≤ P)
    (hslow : ∀ t, (keyboard D keys t).ack = true → (keys t).isSome = true → taken D (Machine.envs D p) t = typed D keys t)
    {n : Nat} (hn : ∀ k ≥ n, keys k = none) {b1 b2 b3 : BitVec 8} (ht : typed D keys n = [3, b1, b2, b3]) (L : Nat) :
    ∃ st N st' M m q, L ≤ M ∧ Styles st ∧ Styles st' ∧
      utf8 (demoText 110 st N ++ "ctrl-c hit\nrule (default 110)? ".toList ++ [Char.ofNat b1.toNat, Char.ofNat b2.toNat, Char.ofNat b3.toNat, '\n'] ++
        demoText (ruleOf [b1, b2, b3]) st' M) <+: frames D (Machine.envs D p) q ∧
      (Machine.at_ D p m).sys.leds.leds = ruleOf [b1, b2, b3] := by
  simp only [taken_eq, ← envs_eq] at hslow
  obtain ⟨st, N, st', M, m, q, g1, g2, g3, g4, g5⟩ :=
    C71_dialogue hD (go_soon (D := D) hK) h1 h2 h3 (by rw [envs_eq]; exact hw) hP h4 hslow hn ht L
  refine ⟨st, N, st', M, m, q, g1, g2, g3, ?_, ?_⟩
  · rw [frames_eq, ← envs_eq]; exact g4
  · rw [← (msim_at m).sys.same.leds]; exact g5

namespace FwCsr

theorem at_same {D : Nat} {p p' : Nat → Pins} {n : Nat} (h : ∀ k < n, p' k = p k) : Machine.at_ D p' n = Machine.at_ D p n := by
  induction n with
  | zero => rfl
  | succ n ih =>
    show (Machine.at_ D p' n).step D (p' n) = (Machine.at_ D p n).step D (p n)
    rw [ih (fun k hk => h k (by omega)), h n (by omega)]

theorem taken_same {D : Nat} {p p' : Nat → Pins} {n : Nat} (h : ∀ k < n, p' k = p k) :
    taken D (Machine.envs D p') n = taken D (Machine.envs D p) n := by
  induction n with
  | zero => rfl
  | succ n ih =>
    have ha := at_same (D := D) (n := n) (p := p) (p' := p') (fun k hk => h k (by omega))
    rw [taken, taken, ih (fun k hk => h k (by omega)), mailbox, mailbox, ← at_sys, ← at_sys, ha]
    unfold Machine.envs
    rw [ha, h n (by omega)]

end FwCsr

/-- **C83** (it is possible): whatever the characters are, somebody can type them in that way. -/
theorem C83_possible {D : Nat} (hD : 4 ≤ D) {K : Nat} {p0 : Nat → Pins} (hK : ∀ n, ∃ m ≥ n, m < n + K ∧ (p0 m).go = true)
    (h1 : 63 * (10 * D + 15 * (K + 6) + 19) ≤ 142 * 2 ^ 14) (h2 : 32 * (K + 6) + 36 ≤ 9 * D) (h3 : 40 * (K + 6) + 45 ≤ 2 ^ 14)
    {P : Nat} (h4 : 33 * (K + 6) + 33 + D / 2 + 9 * D ≤ P) (l : List (BitVec 8)) :
    ∃ keys, Fw.Wired D (Machine.envs D (withKeys D p0 keys)) keys ∧
      (∀ m n, m < n → (keyboard D keys m).ack = true → (keys m).isSome = true → (keyboard D keys n).ack = true → (keys n).isSome = true → m + P ≤ n) ∧
      (∀ t, (keyboard D keys t).ack = true → (keys t).isSome = true → taken D (Machine.envs D (withKeys D p0 keys)) t = typed D keys t) ∧
      ∃ n, (∀ k ≥ n, keys k = none) ∧ typed D keys n = l := by
  have wired : ∀ keys, Fw.Wired D (Machine.envs D (withKeys D p0 keys)) keys := fun keys n => rfl
  induction l using List.reverseRecOn with
  | nil => exact ⟨fun _ => none, wired _, nofun, nofun, 0, fun _ _ => rfl, rfl⟩
  | append_singleton l b ih =>
    obtain ⟨keys, hw, hP, hslow, n, hn, ht⟩ := ih
    have hK' : ∀ n, ∃ m ≥ n, m < n + K ∧ (withKeys D p0 keys m).go = true := hK
    obtain ⟨m, m1, m2⟩ : ∃ m ≥ n, taken D (Machine.envs D (withKeys D p0 keys)) m = typed D keys n := by
      obtain ⟨h, -, -, hh⟩ := C83_waits hD hK' h1 h2 h3 hw hP h4 hslow
      obtain ⟨m, a, b, -⟩ := hh n hn
      exact ⟨m, a, b⟩
    have hk := C83_keeps_up hD hK' h1 hw hP h4
    have hst : ∀ k, (taken D (Machine.envs D (withKeys D p0 keys)) k).Sublist (typed D keys k) :=
      fun k => (C81_take _ k).1.trans (C83_typed hD hK' h1 hw hP h4 k).1.sublist
    have htyp : ∀ d, typed D keys (n + d) = typed D keys n := by
      intro d
      induction d with
      | zero => rfl
      | succ d ih =>
        rw [← Nat.add_assoc, typed, hn (n + d) (by omega), ih]
        simp
    -- the next one is typed when the line has been idle for long enough
    obtain ⟨t, ht1, ht2, ht3⟩ : ∃ t, m ≤ t ∧ n + 10 * D + 1 ≤ t ∧ n + P ≤ t := ⟨m + n + 10 * D + 1 + P, by omega, by omega, by omega⟩
    have hack := (Fw.keyboard_rest hD ((wired_iff keys).1 hw) ((driver_iff keys).1 hk) hn ht2).2
    have same : ∀ k < t, oneMore keys t b k = keys k := fun k hk => if_neg (by omega)
    have after : ∀ k > t, oneMore keys t b k = none := fun k hk => by rw [oneMore, if_neg (by omega)]; exact hn k (by omega)
    have samep : ∀ k < t, withKeys D p0 (oneMore keys t b) k = withKeys D p0 keys k := fun k hk => by
      unfold withKeys; rw [Fw.keyboard_same (fun j hj => same j (by omega))]
    have htt : taken D (Machine.envs D (withKeys D p0 keys)) t = typed D keys t := by
      obtain ⟨d, rfl⟩ := Nat.exists_eq_add_of_le ht1
      obtain ⟨d', hd'⟩ := Nat.exists_eq_add_of_le (show n ≤ m + d by omega)
      have b1 := hst (m + d)
      refine b1.eq_of_length_le ?_
      have b2 := (Fw.taken_mono (D := D) (e := shadows D (Machine.envs D (withKeys D p0 keys))) m d).length_le
      rw [← taken_eq, ← taken_eq, m2] at b2
      rw [hd', htyp, ← hd']
      exact b2
    refine ⟨oneMore keys t b, wired _, ?_, ?_, t + 1, fun k hk => after k (by omega), ?_⟩
    · intro i j hij a1 a2 a3 a4
      rcases Nat.lt_trichotomy j t with hj | hj | hj
      · rw [Fw.keyboard_same (fun k hk => same k (by omega))] at a1 a3
        rw [same _ (by omega)] at a2 a4
        exact hP i j hij a1 a2 a3 a4
      · rw [same _ (by omega)] at a2
        have : i < n := by
          by_contra hx
          rw [hn i (by omega)] at a2
          cases a2
        omega
      · rw [after j hj] at a4; cases a4
    · intro j a1 a2
      rcases Nat.lt_trichotomy j t with hj | hj | hj
      · rw [taken_same (p := withKeys D p0 keys) (p' := withKeys D p0 (oneMore keys t b)) (fun k hk => samep k (by omega)), Fw.typed_same (fun k hk => same k (by omega))]
        rw [Fw.keyboard_same (fun k hk => same k (by omega))] at a1
        rw [same _ (by omega)] at a2
        exact hslow j a1 a2
      · subst hj
        rw [taken_same (p := withKeys D p0 keys) (p' := withKeys D p0 (oneMore keys j b)) samep, Fw.typed_same same]
        exact htt
      · rw [after j hj] at a2; cases a2
    · rw [typed, Fw.typed_same same, Fw.keyboard_same same, hack]
      obtain ⟨d, rfl⟩ := Nat.exists_eq_add_of_le (show n ≤ t by omega)
      rw [htyp, ht]
      simp [oneMore]

/-- So the conditions of `C83_dialogue` can be met: somebody types ctrl-c, `9`, `0` and return at the board with 9600 baud and 12 MHz, and gets rule 90. -/
example (L : Nat) : ∃ p st N st' M m q, L ≤ M ∧ Styles st ∧ Styles st' ∧
    utf8 (demoText 110 st N ++ "ctrl-c hit\nrule (default 110)? 90\r\n".toList ++ demoText 90 st' M) <+: frames 1250 (Machine.envs 1250 p) q ∧
    (Machine.at_ 1250 p m).sys.leds.leds = 90 := by
  obtain ⟨keys, hw, hP, hslow, n, hn, ht⟩ := C83_possible (D := 1250) (K := 1) (p0 := fun _ => {}) (P := 400000) (by decide) (fun n => ⟨n, by omega, by omega, rfl⟩)
    (by decide) (by decide) (by decide) (by decide) [3, 57, 48, 13]
  obtain ⟨st, N, st', M, m, q, g0, g1, g2, g3, g4⟩ := C83_dialogue (D := 1250) (K := 1) (P := 400000) (by decide) (fun n => ⟨n, by omega, by omega, rfl⟩) (by decide) (by decide) (by decide) hw hP (by decide) hslow hn ht L
  have hr : ruleOf [57, 48, 13] = 90 := by decide
  rw [hr] at g3 g4
  refine ⟨_, st, N, st', M, m, q, g0, g1, g2, ?_, g4⟩
  have : "ctrl-c hit\nrule (default 110)? 90\r\n".toList = "ctrl-c hit\nrule (default 110)? ".toList ++ ['9', '0', '\r', '\n'] := by decide
  rw [this, ← List.append_assoc]
  exact g3

end Sentinel
