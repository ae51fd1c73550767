import Verif.Proof.Button
/-!
# Registers and memory in any cycle, also if the bus does not answer any more

The cycles up to `T` are those of a run in which the bus answers `d` to everything from then on.
-/

set_option linter.unusedSimpArgs false

namespace Sentinel
open Ucode Spec

/-- The core, whether it had a request in the cycle before, with the inputs `inp` before cycle `T`, and answers `d` to all requests, each in its second cycle, from
then on. -/
def State.answered (s : State) (inp : Nat → Input) (T : Nat) (d : Word) : Nat → State × Bool
  | 0 => (s, false)
  | n + 1 =>
    let x := answered s inp T d n
    (x.1.step (if n < T then inp n else ⟨d, x.2, false⟩), x.1.cyc)

/-- The inputs in that run. -/
def State.answers (s : State) (inp : Nat → Input) (T : Nat) (d : Word) (n : Nat) : Input :=
  if n < T then inp n else ⟨d, (s.answered inp T d n).2, false⟩

section
variable {s : State} {inp : Nat → Input} {T : Nat} {d : Word}

theorem run_answers (n : Nat) : s.run (s.answers inp T d) n = (s.answered inp T d n).1 := by
  induction n with
  | zero => rfl
  | succ n ih =>
    show (s.run (s.answers inp T d) n).step _ = _
    rw [ih]; rfl

theorem answers_eq {n : Nat} (h : n < T) : s.answers inp T d n = inp n := if_pos h

theorem run_same_answers : ∀ n ≤ T, s.run (s.answers inp T d) n = s.run inp n := by
  intro n
  induction n with
  | zero => intro _; rfl
  | succ n ih =>
    intro h
    show (s.run (s.answers inp T d) n).step _ = (s.run inp n).step _
    rw [ih (by omega), answers_eq (by omega)]

theorem events_same_answers {t : Nat} : ∀ m, t + m ≤ T → s.events (s.answers inp T d) t m = s.events inp t m := by
  intro m
  induction m with
  | zero => intro _; rfl
  | succ m ih =>
    intro h
    rw [State.events_snoc, State.events_snoc, ih (by omega), run_same_answers _ (by omega), answers_eq (by omega)]

theorem registered_answers (hr : s.RegisteredAck inp) : s.RegisteredAck (s.answers inp T d) := by
  intro t ⟨h1, h2⟩
  by_cases ht : t < T
  · rw [answers_eq ht]
    refine hr t ⟨by rw [← run_same_answers (d := d) t (Nat.le_of_lt ht)]; exact h1, fun t' e => ?_⟩
    rw [← run_same_answers (T := T) (d := d) t' (by omega)]; exact h2 t' e
  · rw [State.answers, if_neg ht]
    cases t with
    | zero => rfl
    | succ t =>
      show (s.answered inp T d t).1.cyc = false
      rw [← run_answers]; exact h2 t rfl

theorem fair_answers : s.FairAck (s.answers inp T d) := by
  intro t _
  cases hc : (s.run (s.answers inp T d) (t + T)).cyc
  · exact ⟨t + T, by omega, .inl hc⟩
  · refine ⟨t + T + 1, by omega, .inr ?_⟩
    rw [State.answers, if_neg (by omega)]
    show (s.answered inp T d (t + T)).1.cyc = true
    rw [← run_answers]; exact hc

/-- All events that were not in the run are answered with `d`. -/
theorem events_answers {t m : Nat} (ht : T ≤ t) : ∀ r x, Event.bus r x ∈ s.events (s.answers inp T d) t m → x = d := by
  induction m generalizing t with
  | zero => intro r x h; cases h
  | succ m ih =>
    intro r x h
    rcases List.mem_append.1 h with h | h
    · have e : s.answers inp T d t = ⟨d, (s.answered inp T d t).2, false⟩ := if_neg (by omega)
      rw [State.obs, e] at h
      rcases List.mem_append.1 h with h | h
      · split at h
        · simp only [List.mem_singleton, Event.bus.injEq] at h; exact h.2
        · cases h
      · split at h
        · simp at h
        · cases h
    · exact ih (by omega) r x h

theorem dispatching_answers {n : Nat} (h : n ≤ T) : s.Dispatching (s.answers inp T d) n ↔ s.Dispatching inp n := by
  unfold State.Dispatching
  rw [run_same_answers n h]

theorem dispatches_answers {n : Nat} {w : Word} (h : n ≤ T) (hd : s.Dispatches inp n w) : s.Dispatches (s.answers inp T d) n w := by
  refine ⟨(dispatching_answers h).2 hd.1, ?_⟩
  have := hd.1.1
  rw [events_same_answers _ (by omega)]
  exact hd.2

/-- The last dispatch, if any. -/
theorem last_dispatch_any (h : AfterReset s) (hr : s.RegisteredAck inp) (t : Nat) :
    (∀ u ≤ t, ¬ s.Dispatching inp u) ∨ ∃ v w, v ≤ t ∧ s.Dispatches inp v w ∧ ∀ u, v < u → u ≤ t → ¬ s.Dispatching inp u := by
  classical
  by_cases hex : ∃ u ≤ t, s.Dispatching inp u
  · right
    obtain ⟨u0, h0, h0'⟩ := hex
    have hP : ∃ d, d ≤ t ∧ s.Dispatching inp (t - d) := ⟨t - u0, by omega, by rwa [show t - (t - u0) = u0 by omega]⟩
    obtain ⟨w, -, -, hw⟩ := at_dispatch h hr (Nat.find_spec hP).2
    refine ⟨t - Nat.find hP, w, by omega, hw, fun u h1 h2 h3 => ?_⟩
    exact Nat.find_min hP (m := t - u) (by omega) ⟨by omega, by rwa [show t - (t - u) = u by omega]⟩
  · left
    intro u hu hd
    exact hex ⟨u, hu, hd⟩

end

section
variable {β : Type} {act : β → Event → β}

/-- In any cycle registers and `X` are those at the last dispatch, or, whatever the bus would answer from now on, those after the instruction; or the instruction is a
shift. -/
theorem window_any (hpoll : ∀ m b, act m (.poll b) = m) (hread : ∀ m r d, r.we = false → act m (.bus r d) = m)
    {γ : Type} {π : β → γ} {m0 : β} {X : Nat → γ} {s : State} {inp : Nat → Input} {t n : Nat} {w : Word}
    (h : AfterReset s) (hr : s.RegisteredAck inp) (hd : s.Dispatches inp t w) (hno : ∀ u, t < u → u ≤ t + n → ¬ s.Dispatching inp u)
    (hX : ∀ j ≤ n, X j = π ((s.events inp t j).foldl act m0) ∨
      (s.run inp (t + j)).cyc = true ∧ X j = π ((s.events inp t (j + 1)).foldl act m0)) (h0 : X 0 = π m0) :
    ((∀ q, (s.run inp (t + n)).arch.reg q = (s.run inp t).arch.reg q) ∧ X n = X 0) ∨
    (∀ d, ∃ l x, (cycle .asBuilt ((s.run inp t).arch, w)).Path (s.events inp t (n + 1) ++ l) x ∧ (∀ r y, Event.bus r y ∈ l → y = d) ∧
      (∀ q, (s.run inp (t + n)).arch.reg q = x.1.reg q) ∧ X n = π ((s.events inp t (n + 1) ++ l).foldl act m0)) ∨
    ∃ ins rd, decode w = some ins ∧ isShift ins = true ∧ destReg ins = some rd ∧
      (∀ q, q ≠ rd → (s.run inp (t + n)).arch.reg q = (s.run inp t).arch.reg q) ∧ X n = X 0 := by
  classical
  suffices H : ∀ d, ((∀ q, (s.run inp (t + n)).arch.reg q = (s.run inp t).arch.reg q) ∧ X n = X 0) ∨
      (∃ l x, (cycle .asBuilt ((s.run inp t).arch, w)).Path (s.events inp t (n + 1) ++ l) x ∧ (∀ r y, Event.bus r y ∈ l → y = d) ∧
        (∀ q, (s.run inp (t + n)).arch.reg q = x.1.reg q) ∧ X n = π ((s.events inp t (n + 1) ++ l).foldl act m0)) ∨
      ∃ ins rd, decode w = some ins ∧ isShift ins = true ∧ destReg ins = some rd ∧
        (∀ q, q ≠ rd → (s.run inp (t + n)).arch.reg q = (s.run inp t).arch.reg q) ∧ X n = X 0 by
    by_contra hc
    push Not at hc
    obtain ⟨c1, ⟨d, c2⟩, c3⟩ := hc
    rcases H d with ⟨x1, x2⟩ | ⟨l, x, x1, x2, x3, x4⟩ | ⟨ins, rd, x1, x2, x3, x4, x5⟩
    · exact c1 x1 x2
    · exact c2 l x x1 x2 x3 x4
    · exact c3 ins rd x1 x2 x3 x4 x5
  intro d
  have hr' := registered_answers (T := t + n + 1) (d := d) hr
  have hf' := fair_answers (s := s) (inp := inp) (T := t + n + 1) (d := d)
  have hd' := dispatches_answers (T := t + n + 1) (d := d) (by omega) hd
  obtain ⟨m, he⟩ := executes_of_fair h hr' hf' hd'
  have hnm : n < m := by
    by_contra hc
    exact hno (t + m) (by have := he.2.1; omega) (by omega) ((dispatching_answers (by omega)).1 he.2.2.1)
  obtain ⟨w', hp, -, -⟩ := executes h hr' he
  have hev : ∀ j ≤ n + 1, s.events (s.answers inp (t + n + 1) d) t j = s.events inp t j := fun j hj => events_same_answers j (by omega)
  have hsplit : s.events (s.answers inp (t + n + 1) d) t m =
      s.events inp t (n + 1) ++ s.events (s.answers inp (t + n + 1) d) (t + (n + 1)) (m - (n + 1)) := by
    rw [← hev (n + 1) (by omega), ← State.events_add, show n + 1 + (m - (n + 1)) = m by omega]
  have pre : ∀ i ≤ m, ∃ q, s.events (s.answers inp (t + n + 1) d) t m = s.events (s.answers inp (t + n + 1) d) t i ++ q := by
    intro i hi
    exact ⟨s.events (s.answers inp (t + n + 1) d) (t + i) (m - i), by rw [← State.events_add, show i + (m - i) = m by omega]⟩
  have := window_of hpoll hread (π := π) (m0 := m0)
    (X := fun j => if j ≤ n then X j else π ((s.events (s.answers inp (t + n + 1) d) t j).foldl act m0)) h hr' he
    (fun j hj => by
      by_cases hjn : j ≤ n
      · simp only [if_pos hjn]
        rcases hX j hjn with e | ⟨-, e⟩
        · obtain ⟨q, hq⟩ := pre j hj
          exact ⟨_, q, hq, by rw [e, hev j (by omega)]⟩
        · obtain ⟨q, hq⟩ := pre (j + 1) (by omega)
          exact ⟨_, q, hq, by rw [e, hev (j + 1) (by omega)]⟩
      · simp only [if_neg hjn]
        obtain ⟨q, hq⟩ := pre j hj
        exact ⟨_, q, hq, rfl⟩)
    (by simpa using h0) (by simp only [if_neg (show ¬ m ≤ n by omega)]) (j := n) (by omega)
  simp only [Nat.le_refl, if_true, Nat.zero_le, if_neg (show ¬ m ≤ n by omega), run_same_answers t (by omega : t ≤ t + n + 1),
    run_same_answers (t + n) (by omega : t + n ≤ t + n + 1)] at this
  rw [run_same_answers t (by omega)] at hp
  rcases this with x | ⟨x1, x2⟩ | x
  · exact .inl x
  · refine .inr (.inl ⟨_, _, by rw [← hsplit]; exact hp, events_answers (by omega), x1, ?_⟩)
    rw [x2, hsplit]
  · exact .inr (.inr x)

end

end Sentinel
