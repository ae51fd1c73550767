import Verif.Proof.Wp
import Verif.Props.Atto
/-!
# Programs with an invariant on the example SoC
-/

set_option linter.unusedSimpArgs false

namespace Sentinel.Spec
variable {k : Nat}

theorem Plat.after_leds (P : Plat k) (r : Req) : (P.after r).leds = r.ledWrite.getD P.leds := by
  unfold Plat.after Req.ledWrite
  cases hw : r.we
  · simp
  · cases ht : r.target with
    | none => simp
    | some x =>
      cases x
      · simp
      · cases hs : r.sel.getLsbD 0
        · simp
        · have hlt : r.byteAdr / 4 % 4 < 4 := Nat.mod_lt _ (by omega)
          generalize r.byteAdr / 4 % 4 = n at hlt ⊢
          match n, hlt with
          | 0, _ => simp [Plat.setLeds]
          | 1, _ => simp [Plat.setLeds]
          | 2, _ => simp [Plat.setLeds]
          | 3, _ => simp [Plat.setLeds]
      · simp
      · simp

theorem Plat.afterAll_leds (P : Plat k) (l : List Event) :
    (P.afterAll l).leds = (ledOut l).getLast?.getD P.leds := by
  induction l generalizing P with
  | nil => rfl
  | cons e l ih =>
    cases e with
    | poll b => exact ih P
    | bus r d =>
      rw [Plat.afterAll, ih, Plat.after_leds, ledOut]
      cases r.ledWrite with
      | none => rfl
      | some v =>
        rw [Option.toList_some, List.singleton_append, List.getLast?_cons]
        rfl

end Sentinel.Spec

namespace Sentinel.Atto
open Spec

variable {k D : Nat} {s : Atto k} {p : Nat → AttoIn}

/-- The values written to the LED register before cycle `t`. -/
def outputs (s : Atto k) (D : Nat) (p : Nat → AttoIn) (t : Nat) : List (BitVec 8) :=
  ledOut (s.cpu.events (s.inputs D p) 1 (t - 1))

/-- The LED pins show the last value written. -/
theorem leds_eq (h : s.AfterReset) (t : Nat) :
    (s.run D p t).leds.leds = (outputs s D p t).getLast?.getD 0 := by
  have hp : s.plat.leds = 0 := by
    show s.leds.leds = 0
    rw [h.leds]
  rw [outputs, ← hp, ← Plat.afterAll_leds]
  cases t with
  | zero => rfl
  | succ t =>
    obtain ⟨-, h1, h2⟩ := inv (D := D) (p := p) h t
    cases ha : (s.run D p (t + 1)).ack
    · exact congrArg Plat.leds (h1 ha)
    · exact congrArg Plat.leds (h2 ha).2.1

theorem ledOut_obs (σ : State) (i : Input) : (ledOut (σ.obs i)).length ≤ 1 := by
  unfold State.obs
  cases σ.cyc && i.ack <;> cases σ.polls <;> simp [ledOut]

theorem outputs_succ (t : Nat) : ∃ l, l.length ≤ 1 ∧ outputs s D p (t + 1) = outputs s D p t ++ l := by
  cases t with
  | zero => exact ⟨[], by simp, rfl⟩
  | succ t =>
    refine ⟨_, ledOut_obs (s.cpu.run (s.inputs D p) (1 + t)) (s.inputs D p (1 + t)), ?_⟩
    rw [outputs, outputs, Nat.add_sub_cancel, Nat.add_sub_cancel, State.events_snoc, ledOut_append]

variable {G : List (BitVec 8) → Prop} {I : Arch → Plat k → List (BitVec 8) → Prop} {μ : Arch → Nat}

/-- A program with an invariant only accesses addresses where something is, and its outputs are in `G`. -/
theorem prog_safe {R : Arch → Arch → Prop} (hI : ProgInv G I R) (h : s.AfterReset) (h0 : I (s.run D p 5).cpu.arch s.plat []) :
    Safe s.plat (s.run D p 5).cpu.arch ∧ ∀ t, G (outputs s D p t) := by
  refine ⟨fun l r d hb hl => ((hI.behaves h0 hb).2 l r d rfl hl).isSome, fun t => ?_⟩
  obtain ⟨-, h1, h2, -⟩ := C56_trace h D p (t - 1)
  exact (hI.behaves h0 h1).1 h2

/-- The program outputs again and again. -/
theorem prog_live (hI : ProgInv G I fun a' a => μ a' < μ a) (h : s.AfterReset)
    (h0 : I (s.run D p 5).cpu.arch s.plat []) (n : Nat) : ∃ t, n ≤ (outputs s D p t).length := by
  have hsafe := (prog_safe hI h h0).1
  obtain ⟨h2, -, hm⟩ := C56_safe h hsafe
  have hr := registered (D := D) (p := p) h
  have hf := h2.fair
  -- the invariant at a dispatch
  let At : Nat → Word → Prop := fun t w => s.cpu.Dispatches (s.inputs D p) t w ∧
    Fetched I ((s.cpu.run (s.inputs D p) t).arch, w)
      (s.plat.afterAll (s.cpu.events (s.inputs D p) 1 (t - 1))) (outputs s D p t)
  have htr : ∀ m, PlatTrace s.plat (s.cpu.events (s.inputs D p) 1 m) := fun m => (inv h m).1
  have step : ∀ t w, At t w → ∃ t' w', At t' w' ∧ ((outputs s D p t).length < (outputs s D p t').length ∨
      (outputs s D p t).length = (outputs s D p t').length ∧
        μ (s.cpu.run (s.inputs D p) t').arch < μ (s.cpu.run (s.inputs D p) t).arch) := by
    rintro t w ⟨hd, hF⟩
    obtain ⟨m, he⟩ := executes_of_fair h.cpu hr hf hd
    obtain ⟨w', hp, hd', -⟩ := executes h.cpu hr he
    have ht := hd.1.1
    have e : s.cpu.events (s.inputs D p) 1 (t + m - 1) =
        s.cpu.events (s.inputs D p) 1 (t - 1) ++ s.cpu.events (s.inputs D p) t m := by
      rw [show t + m - 1 = (t - 1) + m by omega, State.events_add, show 1 + (t - 1) = t by omega]
    have hl := htr (t + m - 1)
    rw [e, PlatTrace.append] at hl
    obtain ⟨g1, g2⟩ := hI.path hF hp hl.2
    have eo : outputs s D p (t + m) = outputs s D p t ++ ledOut (s.cpu.events (s.inputs D p) t m) := by
      rw [outputs, e, ledOut_append]; rfl
    refine ⟨t + m, w', ⟨hd', ?_⟩, ?_⟩
    · rw [eo, e, Plat.afterAll_append]; exact g1
    · rw [eo, List.length_append]
      rcases g2 with g2 | ⟨g2, g3⟩
      · have := List.length_pos_iff.2 g2; left; omega
      · right; rw [g2]; exact ⟨rfl, g3⟩
  have more : ∀ N t w, At t w → μ (s.cpu.run (s.inputs D p) t).arch ≤ N →
      ∃ t' w', At t' w' ∧ (outputs s D p t).length < (outputs s D p t').length := by
    intro N
    induction N with
    | zero =>
      intro t w ha hN
      obtain ⟨t', w', ha', h1 | ⟨-, h1⟩⟩ := step t w ha
      · exact ⟨t', w', ha', h1⟩
      · omega
    | succ N ih =>
      intro t w ha hN
      obtain ⟨t', w', ha', h1 | ⟨h1, h3⟩⟩ := step t w ha
      · exact ⟨t', w', ha', h1⟩
      · obtain ⟨t2, w2, ha2, h4⟩ := ih t' w' ha' (by omega)
        exact ⟨t2, w2, ha2, by omega⟩
  have first : ∃ t w, At t w := by
    obtain ⟨t, w, ht, hp, ha, hd⟩ := first_exec h.cpu hr hf
    have hb : (s.run D p 5).cpu.arch = s.cpu.boot (s.inputs D p 0) := by
      have hs : ∃ u mem rd, s.cpu = State.resetRegs u mem rd := by
        rcases h.cpu with h | ⟨σ, en, i, -, h⟩ <;> exact ⟨_, _, _, h⟩
      rw [run_cpu]; exact (boot_run hs _).2.2.2.2.1
    rw [hb] at h0
    have := (hI.fetch h0).path hp (htr _)
    refine ⟨t, w, hd, ?_⟩
    rw [ha]
    exact this
  obtain ⟨t, w, ha, hn⟩ : ∃ t w, At t w ∧ n ≤ (outputs s D p t).length := by
    induction n with
    | zero => obtain ⟨t, w, h⟩ := first; exact ⟨t, w, h, Nat.zero_le _⟩
    | succ n ih =>
      obtain ⟨t, w, ha, hn⟩ := ih
      obtain ⟨t', w', ha', hl⟩ := more _ t w ha (Nat.le_refl _)
      exact ⟨t', w', ha', by omega⟩
  exact ⟨t, hn⟩

end Sentinel.Atto
