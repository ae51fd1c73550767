import Verif.Proof.AppRuns
import Verif.Props.App
import Verif.Props.AppLive
import Mathlib.Data.List.Induction
/-!
# C69: the session of the Rust firmware goes on
-/

set_option linter.unusedSimpArgs false

namespace Sentinel

open Fw

/-- **C69** (the conversation goes on): let the processor do an action at least every `K` cycles, and let it be fast enough for
the divisor (`K` up to 350 cycles for 9600 baud at 12 MHz).  Then, after each input,
everything that is to be said is said, and the character of the input is taken out of `RX`, before the next input (whatever arrives
on the receive line meanwhile).  In a demonstration there is a next input if the receive line stays idle, i.e. the next line will be
drawn; at the prompt there is one as soon as a character is in `RX` (and the last one has been taken out). -/
theorem C69_goes_on {D : Nat} (hD : 0 < D) {K : Nat} {p : Nat → Pins} (hK : ∀ n, ∃ m ≥ n, m < n + K ∧ (p m).go = true)
    (h1 : 63 * (10 * D + 15 * K + 19) ≤ 142 * 2 ^ 14) (h2 : 32 * K + 36 ≤ 9 * D) (h3 : 40 * K + 45 ≤ 2 ^ 14) :
    ∃ h : Nat → List Input, Explains D p h ∧
    (∀ n, ∃ m ≥ n, h m = h n ∧ calls D (Machine.envs D p) m = utf8 (session (h n)).said ∧ taken D (Machine.envs D p) m = keysOf (h n)) ∧
    (∀ n rule style gen, (session (h n)).phase = .demo rule style gen → (∀ m ≥ n, (p m).rx = true) →
      ∃ m ≥ n, ∃ i, h m = h n ∧ h (m + 1) = h n ++ [i]) ∧
    (∀ n ks, (session (h n)).phase = .ask ks → taken D (Machine.envs D p) n = keysOf (h n) → mailbox D (Machine.envs D p) n ≠ none →
      ∃ m ≥ n, ∃ i, h m = h n ∧ h (m + 1) = h n ++ [i]) := by
  have F : Fast D K p := ⟨hD, hK, h1, h2, h3⟩
  have hin : ∀ n, (∃ m ≥ n, (ghost D p m).hist = (ghost D p n).hist ∧ (ghost D p (m + 1)).hist ≠ (ghost D p m).hist) →
      ∃ m ≥ n, ∃ i, (ghost D p m).hist = (ghost D p n).hist ∧ (ghost D p (m + 1)).hist = (ghost D p n).hist ++ [i] := by
    rintro n ⟨m, m1, m2, m3⟩
    rcases ghost_step D p m with h | ⟨i, h⟩
    · exact absurd h m3
    · exact ⟨m, m1, i, m2, by rw [h, m2]⟩
  exact ⟨_, explains_ghost D p, all_said F, fun n rule style gen hp hr => hin n (demo_goes_on F hr hp),
    fun n ks hp ht hb => hin n (ask_goes_on F hp ht hb)⟩

namespace Fw

/-- The lines 0 to `N` of the first demonstration. -/
def demoText (rule : BitVec 8) (style : Nat → Nat) (N : Nat) : List Char :=
  firstRow ++ (List.range (N + 1)).flatMap fun j => rowText rule (style j) j

end Fw

/-- **C69** (unattended): under the same conditions, with the receive line idle and nobody pressing the button, the demonstration of rule 110
goes on for ever: for each `N` the bytes on the line begin, at some time, with its first `N` generations, as specified. -/
theorem C69_unattended {D : Nat} (hD : 0 < D) {K : Nat} {p : Nat → Pins} (hK : ∀ n, ∃ m ≥ n, m < n + K ∧ (p m).go = true)
    (h1 : 63 * (10 * D + 15 * K + 19) ≤ 142 * 2 ^ 14) (h2 : 32 * K + 36 ≤ 9 * D) (h3 : 40 * K + 45 ≤ 2 ^ 14)
    (hr : ∀ n, (p n).rx = true) (hb : ∀ n, (p n).gpioI.getLsbD 0 = false) (N : Nat) :
    ∃ m, utf8 (demoText 110 (fun _ => 0) N) <+: frames D (Machine.envs D p) m := by
  obtain ⟨h, E, say, demo, -⟩ := C69_goes_on hD hK h1 h2 h3
  have hs : ∀ is : List Input, (∀ i ∈ is, i = ⟨false, none⟩) →
      (session is).phase = .demo 110 0 is.length ∧ (session is).said = demoText 110 (fun _ => 0) is.length := by
    intro is
    induction is using List.reverseRecOn with
    | nil => exact fun _ => ⟨rfl, by simp [session, demoText]⟩
    | append_singleton is i ih =>
      intro hi
      obtain ⟨g1, g2⟩ := ih (fun j hj => hi j (by simp [hj]))
      have hii := hi i (by simp)
      subst hii
      rw [session_snoc, Session.step, g1]
      simp only [reduceCtorEq, if_false, Bool.false_eq_true, List.length_append, List.length_singleton, true_and]
      rw [g2, demoText, demoText, List.range_succ (n := is.length + 1)]
      simp
  have hn : ∀ n, ∀ i ∈ h n, i = ⟨false, none⟩ := by
    intro n
    induction n with
    | zero => rw [E.start]; nofun
    | succ n ih =>
      rcases E.grows n with g | ⟨i, g⟩
      · rw [g]; exact ih
      · rw [g]
        intro j hj
        rcases List.mem_append.1 hj with hj | hj
        · exact ih j hj
        · rw [List.mem_singleton.1 hj]
          have k1 := E.box n i g
          rw [idle_box (D := D) (e := Machine.envs D p) hr n] at k1
          obtain ⟨k2, k3⟩ := E.button n i _ _ _ g (hs _ ih).1
          have k4 : ∀ n, ∀ b ∈ samples D (Machine.envs D p) n, b = false := by
            intro n
            induction n with
            | zero => nofun
            | succ n ih =>
              rw [samples]
              split
              · nofun
              · intro b hb'
                rcases List.mem_append.1 hb' with hb' | hb'
                · exact ih b hb'
                · split at hb'
                  · rw [List.mem_singleton.1 hb']; exact hb _
                  · cases hb'
          obtain ⟨b, l, hbl⟩ := List.exists_cons_of_ne_nil k2
          have k5 := k4 n
          rw [hbl] at k5 k3
          rw [k5 b (by simp)] at k3
          simp at k3
          obtain ⟨pr, ky⟩ := i
          simp only at k1 k3
          rw [k1, k3]
  have long : ∀ N, ∃ m, (h m).length = N := by
    intro N
    induction N with
    | zero => exact ⟨0, by rw [E.start]; rfl⟩
    | succ N ih =>
      obtain ⟨m, hm⟩ := ih
      obtain ⟨k, k1, i, k2, k3⟩ := demo m _ _ _ (hs _ (hn m)).1 (fun m _ => hr m)
      exact ⟨k + 1, by rw [k3]; simp [hm]⟩
  obtain ⟨m, hm⟩ := long (N + 1)
  obtain ⟨k, k1, k2, k3, -⟩ := say m
  obtain ⟨⟨q, q1, q2⟩, -⟩ := C67_flow hD hK h1 k
  refine ⟨q, List.IsPrefix.trans ?_ q2⟩
  rw [(hs _ (hn m)).2, hm] at k3
  have hcut : utf8 (demoText 110 (fun _ => 0) (N + 1)) = utf8 (demoText 110 (fun _ => 0) N) ++ utf8 (rowText 110 0 (N + 1)) := by
    rw [demoText, demoText, List.range_succ (n := N + 1)]
    simp [utf8]
  have hpos : 0 < (utf8 (rowText 110 0 (N + 1))).length := by
    rw [rowText, utf8, List.flatMap_append, List.length_append]
    exact Nat.lt_of_lt_of_le (by decide) (Nat.le_add_left _ _)
  rw [hcut] at k3
  have hc := (C62_backlog hD (Machine.envs D p) k).2
  have hlen := congrArg List.length (hc.symm.trans k3)
  rw [List.length_append, List.length_append] at hlen
  have hw : (writing D (Machine.envs D p) k).toList.length ≤ 1 := by
    cases writing D (Machine.envs D p) k <;> simp
  exact List.prefix_of_prefix_length_le ⟨_, k3.symm⟩ ⟨_, hc.symm⟩ (by omega)

/-- The conditions can be met: 9600 baud at 12 MHz and an action in each cycle.  So the line will show the first thousand generations. -/
example : ∃ m, utf8 (demoText 110 (fun _ => 0) 999) <+: frames 1250 (Machine.envs 1250 fun _ => {}) m :=
  C69_unattended (K := 1) (by decide) (fun n => ⟨n, by omega, by omega, rfl⟩) (by decide) (by decide) (by decide) (fun _ => rfl) (fun _ => rfl) 999

example : 63 * (10 * 1250 + 15 * 350 + 19) ≤ 142 * 2 ^ 14 ∧ 32 * 350 + 36 ≤ 9 * 1250 ∧ 40 * 350 + 45 ≤ 2 ^ 14 := by decide

end Sentinel
