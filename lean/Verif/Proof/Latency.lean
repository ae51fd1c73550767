import Verif.Spec.Latency
import Verif.Soc.Slow
import Verif.Proof.SocRun
/-!
# Wait states do not matter
-/

set_option linter.unusedSimpArgs false

namespace Sentinel
open Ucode Spec

theorem Agree.cons {α : Type} {x y : α} {l l' : List α} : Agree (x :: l) (y :: l') ↔ x = y ∧ Agree l l' := by
  simp only [Agree, List.cons_prefix_cons]
  constructor
  · rintro (⟨h1, h2⟩ | ⟨h1, h2⟩)
    · exact ⟨h1, .inl h2⟩
    · exact ⟨h1.symm, .inr h2⟩
  · rintro ⟨h1, h2 | h2⟩
    · exact .inl ⟨h1, h2⟩
    · exact .inr ⟨h1.symm, h2⟩

theorem Agree.nil_left {α : Type} (l : List α) : Agree [] l := .inl List.nil_prefix

theorem Agree.nil_right {α : Type} (l : List α) : Agree l [] := .inr List.nil_prefix

/-- Two behaviours of a machine that does not look at the answers to writes, on the same memory and with the same samples. -/
theorem Behaves.agree {α : Type} {next : α → Tree α} (hn : ∀ x, Tree.Blind (next x)) {T : Tree α} {l : List Event} (h : Behaves next T l) :
    ∀ {k : Nat} {M : Mem k} {l' : List Event}, Tree.Blind T → Behaves next T l' → MemTrace M l → MemTrace M l' →
      Agree (samples l) (samples l') → Agree (l.map seen) (l'.map seen) := by
  induction h with
  | stop => intros; exact Agree.nil_left _
  | @ret x l _ ih =>
    intro k M l' hb h' hm hm' hs
    cases h' with
    | stop => exact Agree.nil_right _
    | ret h' => exact ih (hn x) h' hm hm' hs
  | @poll f b l _ ih =>
    intro k M l' hb h' hm hm' hs
    cases h' with
    | stop => exact Agree.nil_right _
    | @poll _ b' l' h' =>
      obtain ⟨rfl, hs2⟩ := Agree.cons.1 hs
      exact Agree.cons.2 ⟨rfl, ih (hb b) h' hm hm' hs2⟩
  | @bus r f d l _ ih =>
    intro k M l' hb h' hm hm' hs
    cases h' with
    | stop => exact Agree.nil_right _
    | @bus _ _ d' l' h' =>
      obtain ⟨m1, m2⟩ := hm
      obtain ⟨m1', m2'⟩ := hm'
      have e : f d' = f d ∧ seen (.bus r d) = seen (.bus r d') := by
        cases hw : r.we
        · rw [m1 hw, m1' hw]; exact ⟨rfl, rfl⟩
        · exact ⟨hb.1 hw _ _, by simp [seen, hw]⟩
      rw [e.1] at h'
      exact Agree.cons.2 ⟨e.2, ih (hb.2 d) h' m2 m2' hs⟩

theorem path_det {α : Type} {T : Tree α} {l : List Event} {x : α} (h : T.Path l x) (hb : Tree.Blind T) :
    ∀ {l' : List Event} {x' : α} {r r' : List Event}, T.Path l' x' → l.map seen ++ r = l'.map seen ++ r' → x' = x ∧ r' = r := by
  induction h with
  | ret x =>
    intro l' x' r r' h' e
    cases h'
    exact ⟨rfl, by simpa using e.symm⟩
  | @poll f b l x _ ih =>
    intro l' x' r r' h' e
    cases h' with
    | @poll _ b' l' _ h' =>
      simp only [List.map_cons, seen, List.cons_append, List.cons.injEq, Event.poll.injEq] at e
      obtain ⟨rfl, e⟩ := e
      exact ih (hb b) h' e
  | @bus q f d l x _ ih =>
    intro l' x' r r' h' e
    cases h' with
    | @bus _ _ d' l' _ h' =>
      simp only [List.map_cons, seen, List.cons_append, List.cons.injEq, Event.bus.injEq, true_and] at e
      obtain ⟨e1, e⟩ := e
      have ef : f d' = f d := by
        cases hw : q.we
        · simp only [hw, Bool.false_eq_true, if_false] at e1; rw [e1]
        · exact hb.1 hw _ _
      rw [ef] at h'
      exact ih (hb.2 d) h' e

/-- What has been computed after given events. -/
theorem runs_det {α : Type} {next : α → Tree α} (hn : ∀ x, Tree.Blind (next x)) (hne : ∀ x l y, (next x).Path l y → l ≠ []) {T : Tree α} {l : List Event}
    {x : α} (h : Runs next T l x) : ∀ {l' : List Event} {x' : α}, Tree.Blind T → Runs next T l' x' → l.map seen = l'.map seen → x' = x := by
  have nonempty : ∀ {x l y}, Runs next (next x) l y → l ≠ [] := by
    intro x l y h
    cases h with
    | here h => exact hne _ _ _ h
    | more h _ =>
      have := hne _ _ _ h
      intro e
      exact this (List.append_eq_nil_iff.1 e).1
  induction h with
  | @here T l x h =>
    intro l' x' hb h' e
    cases h' with
    | here h' => exact (path_det h hb (r := []) (r' := []) h' (by simpa using e)).1
    | @more _ l1 x1 l2 _ h1 h2 =>
      have := (path_det h hb (r := []) (r' := l2.map seen) h1 (by simpa using e)).2
      exact absurd (List.map_eq_nil_iff.1 this) (nonempty h2)
  | @more T l x l2 y h h2 ih =>
    intro l' x' hb h' e
    cases h' with
    | here h' =>
      have := (path_det h hb (r := l2.map seen) (r' := []) h' (by simpa using e)).2
      exact absurd (List.map_eq_nil_iff.1 this.symm) (nonempty h2)
    | @more _ l1 x1 l3 _ h1 h3 =>
      obtain ⟨e1, e2⟩ := path_det h hb (r := l2.map seen) (r' := l3.map seen) h1 (by simpa using e)
      subst e1
      exact ih (hn _) h3 e2.symm

theorem cycle_nonempty (cfg : Cfg) (x : Arch × Word) (l : List Event) (y : Arch × Word) (h : (cycle cfg x).Path l y) : l ≠ [] := by
  unfold cycle exec at h
  rw [Tree.bind_poll] at h
  cases h
  simp

/-! ## The slow memory -/

namespace Slow
variable {k : Nat} {s : Slow k} {irq : Nat → Bool} {d : Nat → Nat}

theorem run_cpu (s : Slow k) (irq : Nat → Bool) (d : Nat → Nat) (n : Nat) :
    (s.run irq d n).cpu = s.cpu.run (s.inputs irq d) n := by
  induction n with
  | zero => rfl
  | succ n ih =>
    have : (s.run irq d (n + 1)).cpu = (s.run irq d n).cpu.step ((s.run irq d n).input (irq n)) := by
      simp only [run, step]
      split
      · split <;> rfl
      · rfl
    rw [this, ih]; rfl

/-- What happens in a cycle without a request, or when the answer is there. -/
theorem step_idle {s : Slow k} {i : Bool} {e : Nat} (h : (s.cpu.cyc && !s.ack) = false) :
    (s.step i e).ack = false ∧ (s.step i e).mem = s.mem := by
  have h' : (s.cpu.cyc && s.cpu.stb && !s.ack) = false := by
    rw [show s.cpu.stb = s.cpu.cyc from rfl, Bool.and_self]; exact h
  simp [step, h']

theorem step_wait {s : Slow k} {i : Bool} {e : Nat} (h : s.cpu.cyc = true) (ha : s.ack = false) (hl : s.left ≠ 0) :
    (s.step i e).ack = false ∧ (s.step i e).mem = s.mem ∧ (s.step i e).left = s.left - 1 := by
  have h' : s.cpu.stb = true := h
  simp [step, h, h', ha, hl]

theorem step_serve {s : Slow k} {i : Bool} {e : Nat} (h : s.cpu.cyc = true) (ha : s.ack = false) (hl : s.left = 0) :
    (s.step i e).ack = true ∧ (s.step i e).mem = s.mem.after s.cpu.req ∧
      (s.cpu.we = false → (s.step i e).rdata = s.mem (s.cpu.adr.setWidth k)) := by
  have h' : s.cpu.stb = true := h
  cases hw : s.cpu.we
  · rw [Soc.after_read _ _ (by simp [State.req, hw])]
    simp [step, h, h', ha, hl, hw]
  · rw [Soc.after_req _ _ hw]
    simp [step, h, h', ha, hl, hw]

theorem registered (h : AfterReset s) : s.cpu.RegisteredAck (s.inputs irq d) := by
  intro t ht
  cases t with
  | zero => exact h.ack
  | succ t =>
    have hc := ht.2 t rfl
    rw [← run_cpu] at hc
    exact (step_idle (i := irq t) (e := d t) (by rw [hc]; rfl)).1

theorem fair (h : AfterReset s) : s.cpu.FairAck (s.inputs irq d) := by
  have key : ∀ n t, (s.run irq d t).left = n → (s.cpu.run (s.inputs irq d) t).cyc = true →
      ∃ t', t ≤ t' ∧ ((s.cpu.run (s.inputs irq d) t').cyc = false ∨ (s.inputs irq d t').ack = true) := by
    intro n
    induction n with
    | zero =>
      intro t hl hc
      cases ha : (s.inputs irq d t).ack
      · refine ⟨t + 1, by omega, .inr ?_⟩
        rw [← run_cpu] at hc
        exact (step_serve (i := irq t) (e := d t) hc ha hl).1
      · exact ⟨t, by omega, .inr ha⟩
    | succ n ih =>
      intro t hl hc
      cases ha : (s.inputs irq d t).ack
      · have hs := (C23_stable h.cpu (s.inputs irq d) hc ha).1
        rw [← run_cpu] at hc
        have hw := step_wait (i := irq t) (e := d t) hc ha (by omega)
        obtain ⟨t', h1, h2⟩ := ih (t + 1) (by rw [run, hw.2.2, hl]; rfl) hs
        exact ⟨t', by omega, h2⟩
      · exact ⟨t, by omega, .inr ha⟩
  intro t hc
  exact key _ t rfl hc

/-- What holds of the memory in cycle `t + 1`. -/
theorem inv (h : AfterReset s) (t : Nat) :
    MemTrace s.mem (s.cpu.events (s.inputs irq d) 1 t) ∧
    ((s.run irq d (t + 1)).ack = false →
      (s.run irq d (t + 1)).mem = s.mem.afterAll (s.cpu.events (s.inputs irq d) 1 t)) ∧
    ((s.run irq d (t + 1)).ack = true → (s.run irq d (t + 1)).cpu.cyc = true ∧
      (s.run irq d (t + 1)).mem =
        (s.mem.afterAll (s.cpu.events (s.inputs irq d) 1 t)).after (s.run irq d (t + 1)).cpu.req ∧
      ((s.run irq d (t + 1)).cpu.we = false → (s.run irq d (t + 1)).rdata =
        s.mem.afterAll (s.cpu.events (s.inputs irq d) 1 t) ((s.run irq d (t + 1)).cpu.adr.setWidth k))) := by
  induction t with
  | zero =>
    have hs : ∃ u mem rd, s.cpu = State.resetRegs u mem rd := by
      rcases h.cpu with h | ⟨σ, en, i, -, h⟩ <;> exact ⟨_, _, _, h⟩
    have hc : s.cpu.cyc = false := (boot_run hs (s.inputs irq d)).1 0 (by omega)
    have := step_idle (s := s) (i := irq 0) (e := d 0) (by rw [hc]; rfl)
    refine ⟨trivial, fun _ => this.2, fun ha => ?_⟩
    have ha : (s.step (irq 0) (d 0)).ack = true := ha
    rw [this.1] at ha; cases ha
  | succ t ih =>
    obtain ⟨i1, i2, i3⟩ := ih
    rw [State.events_snoc, Nat.add_comm 1 t, MemTrace.append, Mem.afterAll_append, Soc.trace_obs, Soc.bus_obs,
      ← run_cpu]
    generalize hM : s.mem.afterAll (s.cpu.events (s.inputs irq d) 1 t) = M at *
    have hst : s.run irq d (t + 1 + 1) = (s.run irq d (t + 1)).step (irq (t + 1)) (d (t + 1)) := rfl
    have hack : (s.inputs irq d (t + 1)).ack = (s.run irq d (t + 1)).ack := rfl
    have hdat : (s.inputs irq d (t + 1)).datR = (s.run irq d (t + 1)).rdata := rfl
    have hstable := C23_stable (t := t + 1) h.cpu (s.inputs irq d)
    rw [← run_cpu, ← run_cpu, hack] at hstable
    rw [hack, hdat]
    generalize hσ : s.run irq d (t + 1) = σ at *
    cases ha : σ.ack
    · have hm := i2 ha
      cases hc : σ.cpu.cyc
      · have hi := step_idle (s := σ) (i := irq (t + 1)) (e := d (t + 1)) (by rw [hc]; rfl)
        rw [hst]
        refine ⟨⟨i1, by intro h; cases h⟩, fun _ => by rw [hi.2, hm]; simp, fun h' => ?_⟩
        rw [hi.1] at h'; cases h'
      · obtain ⟨c1, -, c3, c4, c5, c6⟩ := hstable hc ha
        have hreq := Soc.req_of c3 c4 c5 c6
        by_cases hl : σ.left = 0
        · have hi := step_serve (i := irq (t + 1)) (e := d (t + 1)) hc ha hl
          refine ⟨⟨i1, by intro _ h; cases h⟩, fun h' => ?_, fun _ => ⟨c1, ?_, fun hw => ?_⟩⟩
          · rw [hst, hi.1] at h'; cases h'
          · rw [hreq, hst, hi.2.1, hm]; simp
          · rw [c3, hst, hi.2.2 (by rw [← c5]; exact hw), hm]; simp
        · have hi := step_wait (i := irq (t + 1)) (e := d (t + 1)) hc ha hl
          refine ⟨⟨i1, by intro _ h; cases h⟩, fun _ => ?_, fun h' => ?_⟩
          · rw [hst, hi.2.1, hm]; simp
          · rw [hst, hi.1] at h'; cases h'
    · obtain ⟨hc, hm, hr⟩ := i3 ha
      have hi := step_idle (s := σ) (i := irq (t + 1)) (e := d (t + 1)) (by rw [ha, Bool.not_true, Bool.and_false])
      refine ⟨⟨i1, fun _ _ hw => hr hw⟩, fun _ => ?_, fun h' => ?_⟩
      · rw [hst, hi.2, hm, hc]; rfl
      · rw [hst, hi.1] at h'; cases h'

end Slow

end Sentinel
