import Verif.Proof.Portable
import Verif.Props.Leak
/-!
# Portable programs, cycle by cycle

Two executions of a portable program in different environments make the same requests in the same cycles.
-/

set_option linter.unusedSimpArgs false

namespace Sentinel
open Ucode Spec

theorem script_deaf {a : Arch} (h : a.intEnabled = false) (w : Word) (i0 i1 : Bool) : script a w i0 i1 = script a w false false := by
  have e1 : idleCycles a w [.poll i0, .poll i1] = idleCycles a w [.poll false, .poll false] := by
    rw [idle_mute h, idle_mute h w [.poll false, .poll false]]; rfl
  have e2 : nextPc a w i0 i1 = nextPc a w false false := by
    simp only [nextPc, h, Bool.and_false]
  simp only [script, e1, e2, h, Bool.and_false]

/-- The answered requests, without what the core cannot have looked at. -/
def reqs : List Event → List Event
  | [] => []
  | .bus r d :: l => mute (.bus r d) :: reqs l
  | .poll _ :: l => reqs l

theorem reqs_append (l l' : List Event) : reqs (l ++ l') = reqs l ++ reqs l' := by
  induction l with
  | nil => rfl
  | cons e l ih => cases e <;> simp [reqs, ih]

theorem reqs_mute (l : List Event) : reqs (l.map mute) = reqs l := by
  induction l with
  | nil => rfl
  | cons e l ih =>
    cases e with
    | poll b => exact ih
    | bus r d =>
      simp only [List.map_cons, mute, reqs, ih]
      cases r.we <;> simp

theorem reqs_obs (σ : State) (i : Input) : reqs (σ.obs i) = if σ.cyc && i.ack then [mute (.bus σ.req i.datR)] else [] := by
  unfold State.obs
  cases σ.cyc && i.ack <;> cases σ.polls <;> simp [reqs]

theorem afterOf_reqs {k : Nat} {F : Plat k → Req → Plat k} (P : Plat k) (l : List Event) : afterOf F P (reqs l) = afterOf F P l := by
  induction l generalizing P with
  | nil => rfl
  | cons e l ih => cases e <;> exact ih _

theorem mute_req {r r' : Req} {d d' : Word} (h : mute (.bus r d) = mute (.bus r' d')) : r = r' := (Event.bus.inj h).1

section
variable {k : Nat} {A : Plat k → Req → Word → Prop} {F : Plat k → Req → Plat k}
variable (S : Standard A F)
include S

/-- As `portable_lock`, in every cycle; `hack`: on this platform the times of the answers depend on the requests only. -/
theorem portable_cycles {s : State} {inp inp' : Nat → Input} (h : AfterReset s) (hr : s.RegisteredAck inp) (hr' : s.RegisteredAck inp')
    (hf : s.FairAck inp) (hf' : s.FairAck inp') (hi : inp 0 = inp' 0) {P : Plat k} (hp : Portable P (s.boot (inp 0)))
    (ht : ∀ n, TraceOf A F P (s.events inp 1 n)) (ht' : ∀ n, TraceOf A F P (s.events inp' 1 n))
    {c : List Event → Nat} (hc : ∀ l, c l = c (l.map mute))
    (hm : ∀ {t w m}, s.Executes inp t w m → m = idleCycles (s.run inp t).arch w (s.events inp t m) + c (s.events inp t m))
    (hm' : ∀ {t w m}, s.Executes inp' t w m → m = idleCycles (s.run inp' t).arch w (s.events inp' t m) + c (s.events inp' t m))
    {b : Nat} (h0 : ∀ t, s.Dispatching inp t → b ≤ t) (h0' : ∀ t, s.Dispatching inp' t → b ≤ t)
    (hb : s.Dispatching inp b) (hb' : s.Dispatching inp' b)
    (hack : ∀ T, (∀ u ≤ T, (s.run inp u).traffic = (s.run inp' u).traffic) → (inp T).ack = (inp' T).ack) (t : Nat) :
    (s.run inp t).cyc = (s.run inp' t).cyc ∧ ((s.run inp t).cyc = true → (s.run inp t).req = (s.run inp' t).req) ∧
      (inp t).ack = (inp' t).ack ∧ reqs (s.events inp 1 t) = reqs (s.events inp' 1 t) := by
  obtain ⟨T, w, h1, h1', h2⟩ := portable_lock S h hr hr' hf hf' hi hp ht ht' hc hm hm' h0 h0' hb hb'
  have same : ∀ N, ∀ u ≤ N, (s.run inp u).traffic = (s.run inp' u).traffic ∧ (s.Dispatching inp u ↔ s.Dispatching inp' u) := by
    intro N
    induction N with
    | zero => exact same_of_script h h hr hr' (by omega) (by omega)
    | succ N ih =>
      refine same_of_script h h hr hr' (fun u hu => hack u fun v hv => (ih v (by omega)).1) fun u _ x x' hx hx' => ?_
      obtain ⟨n, rfl⟩ := (h1 u).1 hx.1
      obtain ⟨-, e1, e2, e3, e4, -⟩ := h2 n
      rw [hx.unique e1.1, hx'.unique e2.1, script_deaf e4, e3]
      exact (script_deaf (e3 ▸ e4) _ _ _).symm
  have traf : ∀ u, (s.run inp u).traffic = (s.run inp' u).traffic := fun u => (same u u (Nat.le_refl u)).1
  have ack : ∀ u, (inp u).ack = (inp' u).ack := fun u => hack u fun v _ => traf v
  have cyc : ∀ u, (s.run inp u).cyc = (s.run inp' u).cyc := by
    intro u
    have := traf u
    unfold State.traffic at this
    generalize s.run inp u = σ at this
    generalize s.run inp' u = τ at this
    cases h1 : σ.cyc <;> cases h2 : τ.cyc <;> first | rfl | (rw [h1, h2] at this; simp at this)
  have len : ∀ u, (reqs (s.events inp 1 u)).length = (reqs (s.events inp' 1 u)).length := by
    intro u
    induction u with
    | zero => rfl
    | succ u ih =>
      rw [State.events_snoc, State.events_snoc, reqs_append, reqs_append, List.length_append, List.length_append, ih, reqs_obs, reqs_obs,
        cyc, ack]
      split <;> rfl
  have grow : ∀ n, n ≤ T n := by
    intro n
    induction n with
    | zero => omega
    | succ n ih => have := (h2 n).1; omega
  have pre : ∀ u, reqs (s.events inp 1 u) = reqs (s.events inp' 1 u) := by
    intro u
    have hall : ∀ inp : Nat → Input, s.events inp 1 (T (u + 1) - 1) = s.events inp 1 u ++ s.events inp (1 + u) (T (u + 1) - 1 - u) := by
      intro inp
      have := grow (u + 1)
      rw [← State.events_add, show u + (T (u + 1) - 1 - u) = T (u + 1) - 1 by omega]
    have e := congrArg reqs (h2 (u + 1)).2.2.2.2.2.2
    rw [reqs_mute, reqs_mute, hall inp, hall inp', reqs_append, reqs_append] at e
    exact (List.append_inj e (len u)).1
  refine ⟨cyc t, fun hcy => ?_, ack t, pre t⟩
  -- the request stays until it is answered
  have hold : ∀ (inp : Nat → Input) (j : Nat), (s.run inp t).cyc = true → (∀ i < j, (inp (t + i)).ack = false) →
      (s.run inp (t + j)).cyc = true ∧ (s.run inp (t + j)).req = (s.run inp t).req := by
    intro inp j hc0 hno
    induction j with
    | zero => exact ⟨hc0, rfl⟩
    | succ j ih =>
      obtain ⟨i1, i2⟩ := ih fun i hi => hno i (by omega)
      obtain ⟨c1, -, c3, c4, c5, c6⟩ := C23_stable h inp i1 (hno j (by omega))
      exact ⟨c1, (Soc.req_of c3 c4 c5 c6).trans i2⟩
  have hex : ∃ j, (inp (t + j)).ack = true := by
    obtain ⟨t', ht', hor⟩ := hf t hcy
    obtain ⟨j, rfl⟩ := Nat.exists_eq_add_of_le ht'
    by_contra hno
    have hno' : ∀ i, (inp (t + i)).ack = false := fun i => by
      cases e : (inp (t + i)).ack
      · rfl
      · exact absurd ⟨i, e⟩ hno
    have := (hold inp j hcy fun i _ => hno' i).1
    rcases hor with hor | hor
    · rw [hor] at this; cases this
    · rw [hno' j] at hor; cases hor
  classical
  have ha := Nat.find_spec hex
  have hno : ∀ i < Nat.find hex, (inp (t + i)).ack = false := fun i hi => by
    have := Nat.find_min hex hi
    simpa using this
  generalize Nat.find hex = j at ha hno
  obtain ⟨c1, c2⟩ := hold inp j hcy hno
  obtain ⟨c1', c2'⟩ := hold inp' j (by rw [← cyc]; exact hcy) fun i hi => by rw [← ack]; exact hno i hi
  have ht1 : 1 ≤ t + j := by
    rcases Nat.eq_zero_or_pos (t + j) with h3 | h3
    · have hs : ∃ u mem rd, s = State.resetRegs u mem rd := by
        rcases h with h | ⟨σ, en, i, -, h⟩ <;> exact ⟨_, _, _, h⟩
      have := (boot_run hs inp).1 0 (by omega)
      rw [h3, this] at c1; cases c1
    · exact h3
  have e := pre (t + j)
  obtain ⟨u, hu⟩ : ∃ u, t + j = u + 1 := ⟨t + j - 1, by omega⟩
  rw [hu, State.events_snoc, State.events_snoc, reqs_append, reqs_append, pre u, reqs_obs, reqs_obs, Nat.add_comm 1 u, ← hu, ← cyc, ← ack, c1, ha] at e
  have e := List.append_cancel_left e
  simp only [Bool.and_self, if_true, List.cons.injEq, and_true] at e
  rw [← c2, ← c2']
  exact mute_req e

end

end Sentinel
