import Verif.Proof.AppRuns
import Verif.Props.AppKeys
import Verif.Props.App
/-!
# A typist who waits
-/

set_option linter.unusedSimpArgs false

namespace Sentinel.Fw

variable {D K : Nat} {p : Nat → Pins} {e : Nat → Env}

theorem taken_mono (m k : Nat) : taken D e m <+: taken D e (m + k) := by
  induction k with
  | zero => exact List.prefix_refl _
  | succ k ih => exact ih.trans ⟨_, rfl⟩

theorem calls_mono (m k : Nat) : calls D e m <+: calls D e (m + k) := by
  induction k with
  | zero => exact List.prefix_refl _
  | succ k ih => exact ih.trans ⟨_, rfl⟩

/-- Whatever has been written gets onto the line. -/
theorem calls_sent (F : Fast D K p) (n : Nat) : ∃ m ≥ n, calls D (Machine.envs D p) n <+: frames D (Machine.envs D p) m := by
  obtain ⟨k, k1, k2⟩ := asks_again F n
  have hw : writing D (Machine.envs D p) k = none := by
    obtain ⟨-, -, a3, -⟩ := asked (D := D) k2
    unfold writing
    rw [← at_sys]
    rcases a3 with a3 | a3 <;> rw [a3] <;> rfl
  obtain ⟨⟨m, m1, m2⟩, -⟩ := C67_flow F.pos F.act F.drain k
  refine ⟨m, by omega, List.IsPrefix.trans ?_ m2⟩
  have hc := (C62_backlog F.pos (Machine.envs D p) k).2
  rw [hw] at hc
  simp only [Option.toList, List.append_nil] at hc
  rw [← hc]
  obtain ⟨d, rfl⟩ := Nat.exists_eq_add_of_le k1
  exact calls_mono n d

theorem typed_step (keys : Nat → Option (BitVec 8)) (n : Nat) :
    (Types D keys n ∧ (typed D keys (n + 1)).length = (typed D keys n).length + 1) ∨ typed D keys (n + 1) = typed D keys n := by
  rw [typed]
  by_cases h : (keyboard D keys n).ack = true
  · rw [if_pos h]
    cases hk : keys n with
    | none => right; simp
    | some b => left; exact ⟨⟨h, by rw [hk]; rfl⟩, by simp⟩
  · rw [if_neg h]; right; simp

/-- When was the character number `L` typed? -/
theorem typed_when (keys : Nat → Option (BitVec 8)) {L n : Nat} (h : L < (typed D keys n).length) :
    ∃ t < n, Types D keys t ∧ (typed D keys t).length = L := by
  induction n with
  | zero => simp [typed] at h
  | succ n ih =>
    rcases typed_step (D := D) keys n with ⟨h1, h2⟩ | h1
    · by_cases hL : L < (typed D keys n).length
      · obtain ⟨t, t1, t2⟩ := ih hL
        exact ⟨t, by omega, t2⟩
      · exact ⟨n, by omega, h1, by omega⟩
    · rw [h1] at h
      obtain ⟨t, t1, t2⟩ := ih h
      exact ⟨t, by omega, t2⟩

/-- If the typist waits for each character to be taken, nothing is overwritten in `RX`. -/
theorem waited {keys : Nat → Option (BitVec 8)} (hs : ∀ n, stores D e n <+: typed D keys n)
    (hslow : ∀ t, Types D keys t → taken D e t = typed D keys t) (n : Nat) :
    stores D e n = taken D e n ++ (mailbox D e n).toList := by
  refine (C64_take e n).2 ?_
  intro k hk
  induction k using Nat.strong_induction_on with
  | _ k ih =>
    intro hst
    obtain ⟨c, hc⟩ := Option.ne_none_iff_exists'.1 hst
    have hprev := (C64_take e k).2 (fun j hj => ih j hj (by omega))
    cases hm : mailbox D e k with
    | none => rfl
    | some b =>
      have hlen : (taken D e k).length + 1 < (typed D keys (k + 1)).length := by
        have h1 := (hs (k + 1)).length_le
        rw [stores, hprev, hm, hc] at h1
        simp at h1
        omega
      obtain ⟨t, t1, t2, t3⟩ := typed_when keys hlen
      have h2 := congrArg List.length (hslow t t2)
      obtain ⟨d, rfl⟩ := Nat.exists_eq_add_of_le (show t ≤ k by omega)
      have h3 := (taken_mono (D := D) (e := e) t d).length_le
      omega

/-- When nothing is typed any more, the line becomes idle. -/
theorem keyboard_rest (hD : 4 ≤ D) {keys : Nat → Option (BitVec 8)} (hw : Wired D e keys) (hk : DriverKeepsUp D e keys) {n : Nat}
    (hn : ∀ k ≥ n, keys k = none) {t : Nat} (ht : n + 10 * D + 1 ≤ t) : (e t).rx = true ∧ (keyboard D keys t).ack = true := by
  have hi := (kbLink D e keys).idle_or_busy (by show 3 ≤ D; omega) (fun t => byteBits_length _)
    (fun t ht => by rw [kbLink_rx hw]; exact .inl (hk t ht.1 ht.2)) t
  rw [hw t]
  rcases hi with hi | ⟨t0, k, rfl, hlt, _, hacc, _⟩
  · exact ⟨hi.txOut, by have := hi.txCount; change (keyboard D keys t).count = 0 at this; simp [UartTx.ack, this]⟩
  · change k < (8 + 2) * D at hlt
    have h2 : (keys t0).isSome = true := hacc.2
    rw [hn t0 (by omega)] at h2
    cases h2

end Sentinel.Fw
