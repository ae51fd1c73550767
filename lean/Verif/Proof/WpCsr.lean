import Verif.Proof.AttoCsrProg
/-!
# Proving programs with interrupts on the example SoC with the CSR bus

Weakest preconditions, as in `Proof/Wp.lean`, for programs that may take interrupts and access any device: the invariant is about the
architectural state, the platform, and the events so far.
-/

set_option linter.unusedSimpArgs false

namespace Sentinel.Spec
variable {k : Nat} {α : Type}

/-- Whatever the platform answers, and whatever the interrupt line does, the computation `T`, started on platform `P` after the events `l`, only makes
requests for addresses where something is, and ends in `Q`. -/
def WpC (Q : α → Plat k → List Event → Prop) : Tree α → Plat k → List Event → Prop
  | .ret x, P, l => Q x P l
  | .poll f, P, l => ∀ b, WpC Q (f b) P (l ++ [.poll b])
  | .bus r f, P, l => r.csrTarget.isSome = true ∧ ∀ d, P.AnswersCsr r d → WpC Q (f d) (P.afterCsr r) (l ++ [.bus r d])

theorem WpC.bind {β : Type} {Q : α → Plat k → List Event → Prop} {R : β → Plat k → List Event → Prop}
    {T : Tree α} {f : α → Tree β} {P : Plat k} {l : List Event} (hT : WpC Q T P l)
    (hf : ∀ x P l, Q x P l → WpC R (f x) P l) : WpC R (T.bind f) P l := by
  induction T generalizing P l with
  | ret x => exact hf _ _ _ hT
  | poll g ih => exact fun b => ih b (hT b)
  | bus r g ih => exact ⟨hT.1, fun d hd => ih d (hT.2 d hd)⟩

theorem WpC.path {Q : α → Plat k → List Event → Prop} {T : Tree α} {P : Plat k} {h : List Event}
    (hT : WpC Q T P h) {l : List Event} {x : α} (hp : T.Path l x) (hl : PlatTraceCsr P l) : Q x (P.afterAllCsr l) (h ++ l) := by
  induction hp generalizing P h with
  | ret x => rw [List.append_nil]; exact hT
  | poll _ ih =>
    have := ih (hT _) hl
    rwa [List.append_assoc] at this
  | bus _ ih =>
    have := ih (hT.2 _ hl.1) hl.2
    rwa [List.append_assoc] at this

/-- In every behaviour of a machine with invariant `Q` every request is for an address where something is. -/
theorem WpC.behaves {Q : α → Plat k → List Event → Prop} {next : α → Tree α}
    (hn : ∀ x P h, Q x P h → WpC Q (next x) P h) {T : Tree α} {P : Plat k} {h : List Event}
    (hT : WpC Q T P h) {l : List Event} (hb : Behaves next T l) :
    ∀ l' r d, l = l' ++ [.bus r d] → PlatTraceCsr P l' → r.csrTarget.isSome = true := by
  induction hb generalizing P h with
  | stop t => exact fun l' r d e => by simp at e
  | ret _ ih => exact ih (hn _ _ _ hT)
  | poll _ ih =>
    have i2 := ih (hT _)
    intro l' r d e hl
    cases l' with
    | nil => simp at e
    | cons e' l' =>
      simp only [List.cons_append, List.cons.injEq] at e
      obtain ⟨rfl, e⟩ := e
      exact i2 _ _ _ e hl
  | @bus r f d l _ ih =>
    intro l' r' d' e hl
    cases l' with
    | nil =>
      simp only [List.nil_append, List.cons.injEq, Event.bus.injEq] at e
      rw [← e.1.1]; exact hT.1
    | cons e' l' =>
      simp only [List.cons_append, List.cons.injEq] at e
      obtain ⟨rfl, e⟩ := e
      exact ih (hT.2 _ hl.1) _ _ _ e hl.2

/-- An invariant `I` of a program: in a state of `I` the next instruction is in RAM, and executing it leads to `I` again, with `R` of the
states and platforms before and after and of the events in between (without the fetch of the next instruction). -/
structure ProgC (I : Arch → Plat k → List Event → Prop) (R : Arch → Plat k → List Event → Arch → Plat k → List Event → Prop) : Prop where
  pc : ∀ {a P l}, I a P l → a.pc.toNat < 0x02000000
  fetches : ∀ {a P l}, I a P l → ∀ d, I a P (l ++ [.bus (fetchReq a) d])
  step : ∀ {a P l}, I a P l → WpC (fun a' P' l' => I a' P' l' ∧ ∃ w, l' = l ++ w ∧ R a P l a' P' w)
    (exec .asBuilt a (P.ram ((wordAdr a.pc).setWidth k))) P l

section
variable {I : Arch → Plat k → List Event → Prop} {R : Arch → Plat k → List Event → Arch → Plat k → List Event → Prop}

/-- The invariant after a fetch. -/
def FetchedC (I : Arch → Plat k → List Event → Prop) (x : Arch × Word) (P : Plat k) (l : List Event) : Prop :=
  I x.1 P l ∧ x.2 = P.ram ((wordAdr x.1.pc).setWidth k)

theorem ProgC.fetch (hI : ProgC I R) {a : Arch} {P : Plat k} {l : List Event} (h0 : I a P l) : WpC (FetchedC I) (fetch a) P l := by
  have ht := csrTarget_ram (fetch_target (hI.pc h0))
  refine ⟨by rw [ht]; rfl, fun d hd => ?_⟩
  obtain ⟨t, h1, h2⟩ := hd
  rw [ht] at h1; cases h1
  have hP : P.afterCsr (fetchReq a) = P := by simp [Plat.afterCsr, fetchReq]
  rw [hP]
  exact ⟨hI.fetches h0 d, h2 rfl⟩

theorem ProgC.next (hI : ProgC I R) (x : Arch × Word) (P : Plat k) (l : List Event)
    (hx : FetchedC I x P l) : WpC (FetchedC I) (cycle .asBuilt x) P l := by
  obtain ⟨h1, h2⟩ := hx
  have := hI.step h1
  rw [← h2] at this
  exact this.bind fun a P h h' => hI.fetch h'.1

/-- One instruction. -/
theorem ProgC.path (hI : ProgC I R) {x y : Arch × Word} {P : Plat k} {h : List Event}
    (hx : FetchedC I x P h) {l : List Event} (hp : (cycle .asBuilt x).Path l y) (hl : PlatTraceCsr P l) :
    FetchedC I y (P.afterAllCsr l) (h ++ l) ∧ ∃ w d, l = w ++ [.bus (fetchReq y.1) d] ∧ R x.1 P h y.1 (P.afterAllCsr l) w := by
  obtain ⟨h1, h2⟩ := hx
  have hs := hI.step h1
  rw [← h2] at hs
  have hw : WpC (fun y P' h' => FetchedC I y P' h' ∧ ∃ w d, h' = h ++ (w ++ [.bus (fetchReq y.1) d]) ∧ R x.1 P h y.1 P' w)
      (cycle .asBuilt x) P h := by
    refine hs.bind fun a P' h' hQ => ?_
    obtain ⟨hQ, w, rfl, hR⟩ := hQ
    have ht := csrTarget_ram (fetch_target (hI.pc hQ))
    refine ⟨by rw [ht]; rfl, fun d hd => ?_⟩
    obtain ⟨t, g1, g2⟩ := hd
    rw [ht] at g1; cases g1
    have hP : P'.afterCsr (fetchReq a) = P' := by simp [Plat.afterCsr, fetchReq]
    rw [hP]
    exact ⟨⟨hI.fetches hQ d, g2 rfl⟩, w, d, by rw [List.append_assoc], hR⟩
  obtain ⟨g1, w, d, g2, g3⟩ := hw.path hp hl
  exact ⟨g1, w, d, List.append_cancel_left g2, g3⟩

end
end Sentinel.Spec

namespace Sentinel.AttoCsr
open Spec
variable {k D : Nat} {s : AttoCsr k} {p : Nat → AttoIn}
variable {I : Arch → Plat k → List Event → Prop} {R : Arch → Plat k → List Event → Arch → Plat k → List Event → Prop}

/-- The invariant holds at the dispatch in cycle `t`. -/
structure AtC (I : Arch → Plat k → List Event → Prop) (s : AttoCsr k) (D : Nat) (p : Nat → AttoIn) (t : Nat) (w : Word) : Prop where
  disp : s.cpu.Dispatches (s.inputs D p) t w
  inv : FetchedC I ((s.run D p t).cpu.arch, w) (s.run D p t).plat (s.cpu.events (s.inputs D p) 1 (t - 1))

theorem progC_safe (hI : ProgC I R) (h : s.AfterReset) (h0 : I (s.run D p 5).cpu.arch s.plat []) : Safe s.plat (s.run D p 5).cpu.arch :=
  fun l r d hb hl => WpC.behaves hI.next (hI.fetch h0) hb _ _ _ rfl hl

theorem progC_mem (hI : ProgC I R) (h : s.AfterReset) (h0 : I (s.run D p 5).cpu.arch s.plat []) (t : Nat) (hc : (s.run D p t).cpu.cyc = true) :
    (s.run D p t).cpu.req.csrTarget.isSome = true := (C72_safe h (progC_safe hI h h0)).1 t hc

theorem progC_first (hI : ProgC I R) (h : s.AfterReset) (h0 : I (s.run D p 5).cpu.arch s.plat []) :
    ∃ t w d, AtC I s D p t w ∧ s.cpu.events (s.inputs D p) 1 (t - 1) = [.bus (fetchReq (s.run D p 5).cpu.arch) d] ∧
      (s.run D p t).cpu.arch = (s.run D p 5).cpu.arch := by
  have hr := registered (D := D) (p := p) h
  have hf := fair (D := D) (p := p) h fun t hc => by rw [dev_some]; exact progC_mem hI h h0 t hc
  obtain ⟨t, w, ht, hp, ha, hd⟩ := first_exec h.cpu hr hf
  have hb : (s.run D p 5).cpu.arch = s.cpu.boot (s.inputs D p 0) := by
    have hs : ∃ u mem rd, s.cpu = State.resetRegs u mem rd := by
      rcases h.cpu with h | ⟨σ, en, i, -, h⟩ <;> exact ⟨_, _, _, h⟩
    rw [run_cpu]; exact (boot_run hs _).2.2.2.2.1
  rw [← hb] at hp ha
  have htr := (C72_trace h D p (t - 1)).2.2.1
  have hx := (hI.fetch h0).path hp htr
  have hpl := (C72_trace h D p 0).2.2.2 t hd.1
  rw [← run_cpu] at ha
  refine ⟨t, w, w, ⟨hd, ?_⟩, ?_, ha⟩
  · rw [ha, hpl]; exact hx
  · generalize s.cpu.events (s.inputs D p) 1 (t - 1) = ev at hp
    cases hp with
    | bus hp => cases hp; rfl

/-- From one instruction to the next. -/
theorem progC_step (hI : ProgC I R) (h : s.AfterReset) (h0 : I (s.run D p 5).cpu.arch s.plat []) {t : Nat} {w : Word} (ha : AtC I s D p t w) :
    ∃ m w' l d, s.cpu.Executes (s.inputs D p) t w m ∧ m ≤ 73 ∧ AtC I s D p (t + m) w' ∧
      s.cpu.events (s.inputs D p) t m = l ++ [.bus (fetchReq (s.run D p (t + m)).cpu.arch) d] ∧
      R (s.run D p t).cpu.arch (s.run D p t).plat (s.cpu.events (s.inputs D p) 1 (t - 1)) (s.run D p (t + m)).cpu.arch (s.run D p (t + m)).plat l := by
  have hr := registered (D := D) (p := p) h
  have hf := fair (D := D) (p := p) h fun t hc => by rw [dev_some]; exact progC_mem hI h h0 t hc
  obtain ⟨hd, hF⟩ := ha
  obtain ⟨m, he⟩ := executes_of_fair h.cpu hr hf hd
  obtain ⟨w', hp, hd', -⟩ := executes h.cpu hr he
  have ht := hd.1.1
  have e : s.cpu.events (s.inputs D p) 1 (t + m - 1) =
      s.cpu.events (s.inputs D p) 1 (t - 1) ++ s.cpu.events (s.inputs D p) t m := by
    rw [show t + m - 1 = (t - 1) + m by omega, State.events_add, show 1 + (t - 1) = t by omega]
  have hl := (C72_trace h D p (t + m - 1)).2.2.1
  have hpl := (C72_trace h D p 0).2.2.2 t hd.1
  have hpl' := (C72_trace h D p 0).2.2.2 (t + m) hd'.1
  rw [e, PlatTraceCsr.append, ← hpl] at hl
  rw [e, Plat.afterAllCsr_append, ← hpl] at hpl'
  rw [← run_cpu, ← run_cpu] at hp
  obtain ⟨g1, l, d, g2, g3⟩ := hI.path hF hp hl.2
  refine ⟨m, w', l, d, he, (C72_cycles h he).2.2.1, ⟨hd', ?_⟩, g2, ?_⟩
  · rw [e, hpl']; exact g1
  · rw [hpl']; exact g3

/-- The first event of an instruction is the sampling of the interrupt line. -/
theorem first_poll (h : s.AfterReset) {t m : Nat} (hd : s.cpu.Dispatching (s.inputs D p) t) (hm : 0 < m) :
    ∃ l, s.cpu.events (s.inputs D p) t m = .poll (s.run D p t).irq :: l := by
  obtain ⟨m, rfl⟩ : ∃ m', m = m' + 1 := ⟨m - 1, by omega⟩
  obtain ⟨w, ha, -⟩ := at_dispatch h.cpu (registered (D := D) (p := p) h) hd
  have hu := ha.uop
  refine ⟨s.cpu.events (s.inputs D p) (t + 1) m, ?_⟩
  rw [State.events]
  have hc : (s.cpu.run (s.inputs D p) t).cyc = false := by simp [State.cyc, hu, Ucode.u_01]
  have hq : (s.cpu.run (s.inputs D p) t).polls = true := by simp [State.polls, hu, Ucode.u_01]
  unfold State.obs
  rw [hc, hq]
  rfl

end Sentinel.AttoCsr
