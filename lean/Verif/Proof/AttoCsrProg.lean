import Verif.Proof.AttoProg
import Verif.Props.AttoCsr
/-!
# Programs with an invariant on the example SoC with the CSR bus

Requests for RAM and writes to the LED register are the same on both platforms, so the invariants of `Proof/Wp.lean` can be used for both.
-/

set_option linter.unusedSimpArgs false

namespace Sentinel.Spec
variable {k : Nat} {α : Type}

theorem csrTarget_ram {r : Req} (h : r.target = some .ram) : r.csrTarget = some .ram := by
  unfold Req.target target at h
  unfold Req.csrTarget csrTarget
  by_cases h1 : r.byteAdr < 0x02000000
  · rw [if_pos h1]
  · rw [if_neg h1] at h
    revert h
    repeat' split
    all_goals nofun

theorem Req.Common.csr {r : Req} (h : r.Common) : r.csrTarget.isSome = true := by
  rcases h with ⟨h, -⟩ | ⟨-, h⟩
  · rw [csrTarget_ram h]; rfl
  · rw [Req.csrTarget, h]; rfl

theorem Req.Common.after {r : Req} (h : r.Common) (P : Plat k) : P.afterCsr r = P.after r := by
  unfold Plat.afterCsr Plat.after
  rcases h with ⟨h, -⟩ | ⟨hw, h⟩
  · rw [h, csrTarget_ram h]
  · have h1 : r.target = some .leds := by rw [Req.target, h]; rfl
    have h2 : r.csrTarget = some .periph := by rw [Req.csrTarget, h]; rfl
    rw [h1, h2]
    simp only [hw, if_true, h]
    rfl

theorem Req.Common.answers {r : Req} (h : r.Common) {P : Plat k} {d : Word} (ha : P.AnswersCsr r d) : P.Answers r d := by
  rcases h with ⟨h, -⟩ | ⟨hw, h⟩
  · obtain ⟨t, h1, h2⟩ := ha
    rw [csrTarget_ram h] at h1
    cases h1
    exact ⟨.ram, h, fun hr => h2 hr⟩
  · exact ⟨.leds, by rw [Req.target, h]; rfl, fun hr => by rw [hw] at hr; cases hr⟩

/-- The value a request writes to the LED register on the CSR bus, if it does. -/
def Req.ledWriteCsr (r : Req) : Option (BitVec 8) :=
  if r.we = true ∧ r.sel.getLsbD 0 = true ∧ r.byteAdr = 0x02000000 then some (byteOf r.data 0) else none

/-- The values written to the LED register in the course of a trace, in order. -/
def ledOutCsr : List Event → List (BitVec 8)
  | [] => []
  | .poll _ :: l => ledOutCsr l
  | .bus r _ :: l => r.ledWriteCsr.toList ++ ledOutCsr l

theorem ledOutCsr_append (l l' : List Event) : ledOutCsr (l ++ l') = ledOutCsr l ++ ledOutCsr l' := by
  induction l with
  | nil => rfl
  | cons e l ih => cases e <;> simp [ledOutCsr, ih]

theorem Req.Common.ledWrite {r : Req} (h : r.Common) : r.ledWriteCsr = r.ledWrite := by
  unfold Req.ledWriteCsr Req.ledWrite
  rcases h with ⟨h, -⟩ | ⟨hw, h⟩
  · have h' : ¬ r.byteAdr = 0x02000000 := by
      intro e; rw [Req.target, e] at h; cases h
    rw [if_neg fun hx => h' hx.2.2, if_neg fun hx => by rw [h] at hx; cases hx.2.1]
  · have h1 : r.target = some .leds := by rw [Req.target, h]; rfl
    rw [h1, h]
    simp [hw]

theorem Plat.afterCsr_leds (P : Plat k) (r : Req) : (P.afterCsr r).leds = r.ledWriteCsr.getD P.leds := by
  unfold Plat.afterCsr Req.ledWriteCsr
  cases hw : r.we
  · simp
  · simp only [if_true, true_and]
    cases ht : r.csrTarget with
    | none =>
      have hx : ¬ (r.sel.getLsbD 0 = true ∧ r.byteAdr = 0x02000000) := by
        rintro ⟨-, e⟩
        rw [Req.csrTarget, e] at ht; cases ht
      rw [if_neg hx]; rfl
    | some x =>
      cases x with
      | ram =>
        have hx : ¬ (r.sel.getLsbD 0 = true ∧ r.byteAdr = 0x02000000) := by
          rintro ⟨-, e⟩
          rw [Req.csrTarget, e] at ht; cases ht
        rw [if_neg hx]; rfl
      | periph =>
        simp only
        cases hs : r.sel.getLsbD 0
        · simp
        · simp only [if_true, true_and]
          unfold Plat.setCsr
          by_cases h0 : r.byteAdr = 0x02000000
          · rw [if_pos h0, if_pos h0]; rfl
          · rw [if_neg h0, if_neg h0]
            repeat' split
            all_goals rfl

theorem Plat.afterAllCsr_leds (P : Plat k) (l : List Event) :
    (P.afterAllCsr l).leds = (ledOutCsr l).getLast?.getD P.leds := by
  induction l generalizing P with
  | nil => rfl
  | cons e l ih =>
    cases e with
    | poll b => exact ih P
    | bus r d =>
      rw [Plat.afterAllCsr, ih, Plat.afterCsr_leds, ledOutCsr]
      cases r.ledWriteCsr with
      | none => rfl
      | some v =>
        rw [Option.toList_some, List.singleton_append, List.getLast?_cons]
        rfl

theorem ledOutCsr_obs (σ : State) (i : Input) :
    ledOutCsr (σ.obs i) = if σ.cyc && i.ack then σ.req.ledWriteCsr.toList else [] := by
  unfold State.obs
  cases σ.cyc && i.ack <;> cases σ.polls <;> simp [ledOutCsr]

variable {G : List (BitVec 8) → Prop}

/-- A behaviour on the platform with the CSR bus is one on the platform with Wishbone peripherals. -/
theorem Wp.transfer {Q : α → Plat k → List (BitVec 8) → Prop} {next : α → Tree α}
    (hn : ∀ x P h, Q x P h → Wp G Q (next x) P h) {T : Tree α} {P : Plat k} {h : List (BitVec 8)}
    (hT : Wp G Q T P h) {l : List Event} (hb : Behaves next T l) (hl : PlatTraceCsr P l) :
    PlatTrace P l ∧ P.afterAllCsr l = P.afterAll l ∧ ledOutCsr l = ledOut l := by
  induction hb generalizing P h with
  | stop t => exact ⟨trivial, rfl, rfl⟩
  | ret _ ih => exact ih (hn _ _ _ hT) hl
  | poll _ ih => exact ih (hT _) hl
  | @bus r f d l _ ih =>
    have ha := hT.1.answers hl.1
    have hl2 := hl.2
    rw [hT.1.after] at hl2
    obtain ⟨i1, i2, i3⟩ := ih (hT.2.2 _ ha) hl2
    refine ⟨⟨ha, i1⟩, ?_, ?_⟩
    · rw [Plat.afterAllCsr, hT.1.after, i2]; rfl
    · rw [ledOutCsr, ledOut, hT.1.ledWrite, i3]

end Sentinel.Spec

namespace Sentinel.AttoCsr
open Spec

variable {k D : Nat} {s : AttoCsr k} {p : Nat → AttoIn}

/-- What the request on the bus has written to the LED register. -/
def pend (σ : AttoCsr k) : List (BitVec 8) := if Done σ then σ.cpu.req.ledWriteCsr.toList else []

/-- The values written to the LED register before cycle `t`. -/
def outputs (s : AttoCsr k) (D : Nat) (p : Nat → AttoIn) (t : Nat) : List (BitVec 8) :=
  ledOutCsr (s.cpu.events (s.inputs D p) 1 (t - 1)) ++ pend (s.run D p t)

theorem pend_zero (h : s.AfterReset) : pend s = [] := by
  unfold pend
  rw [if_neg]
  unfold Done
  rw [h.ram, h.bridge]; simp

/-- The LED pins show the last value written. -/
theorem leds_eq (h : s.AfterReset) (t : Nat) :
    (s.run D p t).leds.leds = (outputs s D p t).getLast?.getD 0 := by
  have hp : s.plat.leds = 0 := by
    show s.leds.leds = 0
    rw [h.leds]
  cases t with
  | zero =>
    unfold outputs
    rw [show s.run D p 0 = s from rfl, pend_zero h]
    exact hp
  | succ t =>
    have hi := congrArg Plat.leds (inv (D := D) (p := p) h t).2.plat
    rw [show (s.run D p (t + 1)).plat.leds = (s.run D p (t + 1)).leds.leds from rfl] at hi
    rw [hi, outputs, Nat.add_sub_cancel]
    unfold pend
    by_cases hd : Done (s.run D p (t + 1))
    · rw [if_pos hd, if_pos hd, Plat.afterCsr_leds, Plat.afterAllCsr_leds, hp]
      cases (s.run D p (t + 1)).cpu.req.ledWriteCsr with
      | none => simp
      | some v => simp
    · rw [if_neg hd, if_neg hd, Plat.afterAllCsr_leds, hp, List.append_nil]

theorem ack_done {σ : AttoCsr k} (hb : BusInv σ) (ha : σ.ack = true) : Done σ := by
  cases hd : σ.dev with
  | none => simp [AttoCsr.ack, hd] at ha
  | some d =>
    cases d with
    | ram => simp only [AttoCsr.ack, hd] at ha; exact .inl ha
    | periph => simp only [AttoCsr.ack, hd] at ha; exact .inr (by have := hb.ack ha; omega)

theorem done_cyc {σ : AttoCsr k} (hb : BusInv σ) (hd : Done σ) : σ.cpu.cyc = true := by
  rcases hd with hd | hd
  · exact (ack_ram (hb.ramAck hd)).1
  · exact (ack_periph (hb.cycle (by omega))).1

theorem done_step {σ : AttoCsr k} (q : AttoIn) (hb : BusInv σ) (hd : Done σ) : Done (σ.step D q) ↔ σ.ack = false := by
  have hra := step_ramAck D σ q
  have hcy := step_cycle D σ q
  unfold Done
  rw [hra, hcy]
  rcases hd with hd | hd
  · have h1 := hb.ramAck hd
    have h2 : σ.devCyc .periph = false := by
      cases h2 : σ.devCyc .periph with
      | false => rfl
      | true => rw [not_both σ h2] at h1; cases h1
    have h3 := hb.cycle_zero h2
    rw [(ack_ram h1).2.2, hd, h3, h2]
    simp
  · have h1 := hb.cycle (by omega)
    have h2 := not_both σ h1
    rw [(ack_periph h1).2.2, h2, h1]
    cases ha : σ.bridge.ack with
    | true => simp
    | false => simp; split <;> omega

/-- One step of the outputs. -/
theorem outputs_step (h : s.AfterReset) (t : Nat) :
    (Done (s.run D p t) → outputs s D p (t + 1) = outputs s D p t) ∧
    (¬ Done (s.run D p t) → outputs s D p (t + 1) = outputs s D p t ++ pend (s.run D p (t + 1))) := by
  cases t with
  | zero =>
    have hz : ¬ Done s := by unfold Done; rw [h.ram, h.bridge]; simp
    refine ⟨fun hd => absurd hd hz, fun _ => ?_⟩
    unfold outputs
    rw [show s.run D p 0 = s from rfl, pend_zero h]
    rfl
  | succ t =>
    have hb := busInv (D := D) (p := p) h (t + 1)
    have hst : s.run D p (t + 1 + 1) = (s.run D p (t + 1)).step D (p (t + 1)) := rfl
    unfold outputs
    rw [Nat.add_sub_cancel, Nat.add_sub_cancel, State.events_snoc, ledOutCsr_append, ledOutCsr_obs, Nat.add_comm 1 t, ← run_cpu,
      show (s.inputs D p (t + 1)).ack = (s.run D p (t + 1)).ack from rfl]
    constructor
    · intro hd
      have hc := done_cyc hb hd
      have hn := done_step (D := D) (p (t + 1)) hb hd
      rw [← hst] at hn
      unfold pend
      rw [if_pos hd, hc]
      cases ha : (s.run D p (t + 1)).ack with
      | true =>
        rw [ha] at hn
        have hn' : ¬ Done (s.run D p (t + 1 + 1)) := by rw [hn]; simp
        simp [hn']
      | false =>
        rw [ha] at hn
        have hn' : Done (s.run D p (t + 1 + 1)) := hn.2 rfl
        simp only [hn', if_true]
        rw [(stable (D := D) (p := p) h hc ha).req]; simp
    · intro hd
      have ha : (s.run D p (t + 1)).ack = false := by
        cases ha : (s.run D p (t + 1)).ack with
        | false => rfl
        | true => exact absurd (ack_done hb ha) hd
      rw [show pend (s.run D p (t + 1)) = [] from if_neg hd, ha]; simp

theorem pend_length (σ : AttoCsr k) : (pend σ).length ≤ 1 := by
  unfold pend; split
  · cases σ.cpu.req.ledWriteCsr <;> simp
  · simp

theorem outputs_succ (h : s.AfterReset) (t : Nat) : ∃ l, l.length ≤ 1 ∧ outputs s D p (t + 1) = outputs s D p t ++ l := by
  obtain ⟨h1, h2⟩ := outputs_step (D := D) (p := p) h t
  by_cases hd : Done (s.run D p t)
  · exact ⟨[], by simp, by rw [h1 hd, List.append_nil]⟩
  · exact ⟨_, pend_length _, h2 hd⟩

/-- The outputs are those of a trace. -/
theorem outputs_trace (h : s.AfterReset) (t : Nat) : ∃ m, outputs s D p t = ledOutCsr (s.cpu.events (s.inputs D p) 1 m) := by
  have last : ∀ t, Done (s.run D p t) → (s.run D p t).ack = true → ∃ m, outputs s D p t = ledOutCsr (s.cpu.events (s.inputs D p) 1 m) := by
    intro t hd ha
    refine ⟨t, ?_⟩
    have hb := busInv (D := D) (p := p) h t
    rw [← (outputs_step (D := D) (p := p) h t).1 hd]
    have hn := (done_step (D := D) (p t) hb hd).not.2 (by rw [ha]; simp)
    have : pend (s.run D p (t + 1)) = [] := if_neg hn
    unfold outputs
    rw [this, List.append_nil, Nat.add_sub_cancel]
  by_cases hd : Done (s.run D p t)
  · have hb := busInv (D := D) (p := p) h t
    rcases hd with hr | hp
    · have := (ack_ram (hb.ramAck hr)).2.2
      exact last t (.inl hr) (by rw [this, hr])
    · by_cases ha : (s.run D p t).bridge.ack = true
      · have := (ack_periph (hb.cycle (by omega))).2.2
        exact last t (.inr hp) (by rw [this, ha])
      · obtain ⟨c, hc⟩ : ∃ c, (s.run D p t).bridge.cycle = c := ⟨_, rfl⟩
        have hle := hb.le
        rw [hc] at hp hle
        obtain ⟨u, rfl, g1, g2⟩ := back h hc (by omega) (by simpa using ha)
        have run : ∀ j, c ≤ j → j ≤ 5 → outputs s D p (u + c) = outputs s D p (u + j) := by
          intro j h1 h2
          induction j with
          | zero => obtain rfl : c = 0 := by omega
                    rfl
          | succ j ih =>
            by_cases e : c = j + 1
            · rw [e]
            · rw [ih (by omega) (by omega), ← Nat.add_assoc]
              refine ((outputs_step (D := D) (p := p) h (u + j)).1 (.inr ?_)).symm
              rw [(forward (D := D) (p := p) h g1 g2 j (by omega)).2.2.2.2.2.2.2.1]; omega
        rw [run 5 (by omega) (by omega)]
        obtain ⟨-, -, -, -, -, -, f7, f8, f9, -⟩ := forward (D := D) (p := p) h g1 g2 5 (by omega)
        exact last (u + 5) (.inr (by rw [f8]; omega)) (by rw [(ack_periph f7).2.2, f9]; rfl)
  · refine ⟨t - 1, ?_⟩
    unfold outputs
    rw [show pend (s.run D p t) = [] from if_neg hd, List.append_nil]

variable {G : List (BitVec 8) → Prop} {I : Arch → Plat k → List (BitVec 8) → Prop} {μ : Arch → Nat}

theorem prog_trace {R : Arch → Arch → Prop} (hI : ProgInv G I R) (h : s.AfterReset) (h0 : I (s.run D p 5).cpu.arch s.plat []) (m : Nat) :
    PlatTrace s.plat (s.cpu.events (s.inputs D p) 1 m) ∧
    s.plat.afterAllCsr (s.cpu.events (s.inputs D p) 1 m) = s.plat.afterAll (s.cpu.events (s.inputs D p) 1 m) ∧
    ledOutCsr (s.cpu.events (s.inputs D p) 1 m) = ledOut (s.cpu.events (s.inputs D p) 1 m) := by
  obtain ⟨-, h1, h2, -⟩ := C72_trace h D p m
  exact Wp.transfer hI.next (hI.fetch h0) h1 h2

/-- A program with an invariant only accesses addresses where something is, and its outputs are in `G`. -/
theorem prog_safe {R : Arch → Arch → Prop} (hI : ProgInv G I R) (h : s.AfterReset) (h0 : I (s.run D p 5).cpu.arch s.plat []) :
    Safe s.plat (s.run D p 5).cpu.arch ∧ ∀ t, G (outputs s D p t) := by
  refine ⟨fun l r d hb hl => ?_, fun t => ?_⟩
  · have := (Wp.transfer hI.next (hI.fetch h0) hb.prefix hl).1
    exact ((hI.behaves h0 hb).2 l r d rfl this).csr
  · obtain ⟨m, e⟩ := outputs_trace (D := D) (p := p) h t
    obtain ⟨t1, -, t3⟩ := prog_trace hI h h0 m
    rw [e, t3]
    exact (hI.behaves h0 (C72_trace h D p m).2.1).1 t1

/-- The program outputs again and again. -/
theorem prog_live (hI : ProgInv G I fun a' a => μ a' < μ a) (h : s.AfterReset)
    (h0 : I (s.run D p 5).cpu.arch s.plat []) (n : Nat) : ∃ t, n ≤ (outputs s D p t).length := by
  obtain ⟨hm, -⟩ := C72_safe h (prog_safe hI h h0).1
  have hr := registered (D := D) (p := p) h
  have hf := fair (D := D) (p := p) h fun t hc => by rw [dev_some]; exact hm t hc
  let out : Nat → List (BitVec 8) := fun t => ledOut (s.cpu.events (s.inputs D p) 1 (t - 1))
  -- the invariant at a dispatch
  let At : Nat → Word → Prop := fun t w => s.cpu.Dispatches (s.inputs D p) t w ∧
    Fetched I ((s.cpu.run (s.inputs D p) t).arch, w)
      (s.plat.afterAll (s.cpu.events (s.inputs D p) 1 (t - 1))) (out t)
  have htr : ∀ m, PlatTrace s.plat (s.cpu.events (s.inputs D p) 1 m) := fun m => (prog_trace hI h h0 m).1
  have step : ∀ t w, At t w → ∃ t' w', At t' w' ∧ ((out t).length < (out t').length ∨
      (out t).length = (out t').length ∧
        μ (s.cpu.run (s.inputs D p) t').arch < μ (s.cpu.run (s.inputs D p) t).arch) := by
    rintro t w ⟨hd, hF⟩
    obtain ⟨m, he⟩ := executes_of_fair h.cpu hr hf hd
    obtain ⟨w', hp, hd', -⟩ := executes h.cpu hr he
    have ht := hd.1.1
    have e : s.cpu.events (s.inputs D p) 1 (t + m - 1) =
        s.cpu.events (s.inputs D p) 1 (t - 1) ++ s.cpu.events (s.inputs D p) t m := by
      rw [show t + m - 1 = (t - 1) + m by omega, State.events_add, show 1 + (t - 1) = t by omega]
    have hl := htr (t + m - 1)
    rw [e, PlatTrace.append] at hl
    obtain ⟨g1, g2⟩ := hI.path hF hp hl.2
    have eo : out (t + m) = out t ++ ledOut (s.cpu.events (s.inputs D p) t m) := by
      show ledOut _ = _
      rw [e, ledOut_append]
    refine ⟨t + m, w', ⟨hd', ?_⟩, ?_⟩
    · rw [eo, e, Plat.afterAll_append]; exact g1
    · rw [eo, List.length_append]
      rcases g2 with g2 | ⟨g2, g3⟩
      · have := List.length_pos_iff.2 g2; left; omega
      · right; rw [g2]; exact ⟨rfl, g3⟩
  have more : ∀ N t w, At t w → μ (s.cpu.run (s.inputs D p) t).arch ≤ N →
      ∃ t' w', At t' w' ∧ (out t).length < (out t').length := by
    intro N
    induction N with
    | zero =>
      intro t w ha hN
      obtain ⟨t', w', ha', h1 | ⟨-, h1⟩⟩ := step t w ha
      · exact ⟨t', w', ha', h1⟩
      · omega
    | succ N ih =>
      intro t w ha hN
      obtain ⟨t', w', ha', h1 | ⟨h1, h3⟩⟩ := step t w ha
      · exact ⟨t', w', ha', h1⟩
      · obtain ⟨t2, w2, ha2, h4⟩ := ih t' w' ha' (by omega)
        exact ⟨t2, w2, ha2, by omega⟩
  have first : ∃ t w, At t w := by
    obtain ⟨t, w, ht, hp, ha, hd⟩ := first_exec h.cpu hr hf
    have hb : (s.run D p 5).cpu.arch = s.cpu.boot (s.inputs D p 0) := by
      have hs : ∃ u mem rd, s.cpu = State.resetRegs u mem rd := by
        rcases h.cpu with h | ⟨σ, en, i, -, h⟩ <;> exact ⟨_, _, _, h⟩
      rw [run_cpu]; exact (boot_run hs _).2.2.2.2.1
    rw [hb] at h0
    have := (hI.fetch h0).path hp (htr _)
    refine ⟨t, w, hd, ?_⟩
    rw [ha]
    exact this
  obtain ⟨t, w, ha, hn⟩ : ∃ t w, At t w ∧ n ≤ (out t).length := by
    induction n with
    | zero => obtain ⟨t, w, h⟩ := first; exact ⟨t, w, h, Nat.zero_le _⟩
    | succ n ih =>
      obtain ⟨t, w, ha, hn⟩ := ih
      obtain ⟨t', w', ha', hl⟩ := more _ t w ha (Nat.le_refl _)
      exact ⟨t', w', ha', by omega⟩
  refine ⟨t, ?_⟩
  have e := (prog_trace hI h h0 (t - 1)).2.2
  unfold outputs
  rw [e, List.length_append]
  show n ≤ (out t).length + _
  omega

end Sentinel.AttoCsr
