import Verif.Proof.Window
import Verif.Props.Soc
import Verif.Props.Demo
/-!
# C87: what the bus gives away

The bus traffic of the core, cycle by cycle, is a function of the instruction-set-level leakage
(`Spec.leak`), the times of the answers and the interrupt line: nothing else about the values in the
registers, on the data lines or in the memory can be told from it.
-/

set_option linter.unusedSimpArgs false

namespace Sentinel
open Ucode Spec

variable {s : State} {inp : Nat → Input} {t : Nat} {w : Word}

/-- **C87.** From dispatch of a word to dispatch of the next one the bus follows the script that the specification gives for the
word in the architectural state: so many cycles without a request and then which request, whenever the answers come. -/
theorem C87_script (h : AfterReset s) (hr : s.RegisteredAck inp) (hd : s.Dispatches inp t w) :
    s.Follows inp true (script (s.run inp t).arch w (inp t).irq (inp (t + 1)).irq) t :=
  follows_script h hr hd.1.1 (hd.at h hr)

/-- **C87.** After reset: five cycles without a request, then the fetch at address 0. -/
theorem C87_boot (h : AfterReset s) (hr : s.RegisteredAck inp) : s.Follows inp false [(5, fetchTraffic 0)] 0 := by
  have hs := h
  obtain ⟨u, mem, rd, he, hm⟩ := h.eq
  have hb := boot_run ⟨u, mem, rd, he⟩ inp
  obtain ⟨n, hn, p⟩ : ∃ n : Cnt, n.idle = 1 ∧
      Impl (fun p s n => AtDispatch p s ∧ n.idle = 4) (s.prevCyc inp 2) (s.run inp 2) (fetch (s.boot (inp 0))) n ∧
      (s.run inp 1).uop = u_02 := by
    subst he
    obtain ⟨h1, h2, h3, h4, h5, h6, h7⟩ := boot_first u mem rd (inp 0)
    have hi := boot_impl (pv := (State.resetRegs u mem rd).prevCyc inp 1) h1 h2 h3 h4 h5 h6 h7
      (RamOk.step (s := State.resetRegs u mem rd) hm _)
    have hu : ((State.resetRegs u mem rd).run inp 1).uop = u_02 := h1
    obtain ⟨T', ha, p⟩ := hi.advance (s := State.resetRegs u mem rd) (inp := inp) (t := 1) hr (by intro x; simp [fetch])
    have hobs : ((State.resetRegs u mem rd).run inp 1).obs (inp 1) = [] := by
      simp [State.obs, State.cyc, State.polls, hu, u_02]
    rw [hobs] at ha
    generalize hTT : fetch _ = TT at ha
    cases ha
    rw [← hTT] at p
    have hi1 : ((0 : Cnt) + ((State.resetRegs u mem rd).run inp 1).tally (inp 1)).idle = 1 := by
      simp [State.tally, State.cyc, hu, u_02]
    exact ⟨_, hi1, p, hu⟩
  obtain ⟨p, hu1⟩ := p
  obtain ⟨j0, r, k, e1, e2, e3⟩ := p.wave hs hr 2 rfl rfl trivial
  have hc1 := (e3 j0 (by omega) (by omega)).1
  have hc5 : (s.run inp 5).cyc = true := by simp [State.cyc, hb.2.1, hb.2.2.1, u_00]
  have hj : j0 = 3 := by
    rcases Nat.lt_trichotomy j0 3 with h | h | h
    · rw [hb.1 (2 + j0) (by omega)] at hc1; cases hc1
    · exact h
    · have := (e2 3 h).1
      rw [hc5] at this; cases this
  subst hj
  have hk : r = fetchReq (s.boot (inp 0)) ∧ k = fun w' => .ret (s.boot (inp 0), w') := by
    generalize s.events inp 2 3 = l at e1
    simp only [fetch] at e1
    cases e1 with
    | refl => exact ⟨rfl, rfl⟩
    | bus e1 => cases e1
  obtain ⟨rfl, rfl⟩ := hk
  refine ⟨?_, ?_⟩
  · intro j hj
    refine ⟨traffic_none (by rw [Nat.zero_add]; exact hb.1 j (by omega)), ?_⟩
    simp only [Bool.false_eq_true, false_and, iff_false, Nat.zero_add]
    rintro ⟨h1, h2⟩
    rw [rom_01] at h2
    obtain rfl | h3 : j = 1 ∨ 2 ≤ j := by omega
    · rw [hu1] at h2; cases h2
    · refine (e2 (j - 2) (by omega)).2 (by omega) ?_
      rw [show 2 + (j - 2) = j by omega]; exact h2
  · intro j hj hno
    obtain ⟨b1, b2, b3⟩ := e3 (j - 2) (by omega) (fun i h1 h2 => by
      have := hno (i + 2) (by omega) (by omega)
      rwa [show 0 + (i + 2) = 2 + i by omega] at this)
    rw [show 2 + (j - 2) = 0 + j by omega] at b1 b2 b3
    refine ⟨?_, not_dispatching_of_cyc b1, fun ha => ?_⟩
    · rw [traffic_some b1 b2, fetchReq_traffic]
      rfl
    · obtain ⟨n', -, b4⟩ := b3 ha
      have := ret_done hs hr (fun σ n h => by rw [h.1.uop]; rfl) b1 ha b4
      exact (dispatching_iff (by omega)).2 this.1.uop

theorem script_head (a : Arch) (w : Word) (i0 i1 : Bool) : ∃ n r l, script a w i0 i1 = (n, r) :: l ∧ 2 ≤ n := by
  unfold script
  split
  · refine ⟨_, _, _, rfl, ?_⟩
    unfold dataStart; split <;> omega
  · refine ⟨_, _, _, rfl, ?_⟩
    unfold idleCycles
    simp only
    split
    · omega
    · split
      · omega
      · omega
      · omega
      · rename_i ins _ _ _
        suffices 1 ≤ instrCycles a [.poll i1] ins by omega
        cases ins <;> simp only [instrCycles] <;> (repeat' split) <;> (try unfold shiftCycles) <;> (repeat' split) <;> omega

/-- What is seen of two executions in a cycle is the same. -/
def Same (s s' : State) (inp inp' : Nat → Input) (u : Nat) : Prop :=
  (s.run inp u).traffic = (s'.run inp' u).traffic ∧ (s.Dispatching inp u ↔ s'.Dispatching inp' u)

/-- Two executions that follow the same script. -/
theorem Follows.sync {s s' : State} {inp inp' : Nat → Input} {T : Nat} (hack : ∀ u < T, (inp u).ack = (inp' u).ack) :
    ∀ (l : List (Nat × Traffic)) (d : Bool) (t : Nat), s.Follows inp d l t → s'.Follows inp' d l t →
      (∀ t', t + l.length ≤ t' → t' ≤ T → s.Dispatching inp t' → s'.Dispatching inp' t' → ∀ u, t' ≤ u → u ≤ T → Same s s' inp inp' u) →
      ∀ u, t ≤ u → u ≤ T → Same s s' inp inp' u := by
  intro l
  induction l with
  | nil => intro d t h1 h2 hc u hu hT; exact hc t (by simp) (by omega) h1 h2 u hu hT
  | cons x l ih =>
    obtain ⟨n, r⟩ := x
    intro d t h1 h2 hc u hu hT
    obtain ⟨q1, r1⟩ := h1
    obtain ⟨q2, r2⟩ := h2
    obtain ⟨i, rfl⟩ := Nat.exists_eq_add_of_le hu
    by_cases hi : i < n
    · exact ⟨by rw [(q1 i hi).1, (q2 i hi).1], by rw [(q1 i hi).2, (q2 i hi).2]⟩
    · -- the first answer, if there is one before
      by_cases hex : ∃ j, n ≤ j ∧ j < i ∧ (inp (t + j)).ack = true
      · classical
        obtain ⟨j, ⟨hj1, hj2, hj3⟩, hmin⟩ : ∃ j, (n ≤ j ∧ j < i ∧ (inp (t + j)).ack = true) ∧
            ∀ j' < j, ¬ (n ≤ j' ∧ j' < i ∧ (inp (t + j')).ack = true) :=
          ⟨Nat.find hex, Nat.find_spec hex, fun j' h => Nat.find_min hex h⟩
        have hno : ∀ i', n ≤ i' → i' < j → (inp (t + i')).ack = false := by
          intro i' h1 h2
          have := hmin i' h2
          simp only [not_and] at this
          simpa using this h1 (by omega)
        have f1 := (r1 j hj1 hno).2.2 hj3
        have f2 := (r2 j hj1 (fun i' h1 h2 => by rw [← hack _ (by omega)]; exact hno i' h1 h2)).2.2
          (by rw [← hack _ (by omega)]; exact hj3)
        refine ih false (t + j + 1) f1 f2 (fun t' h1 h2 h3 h4 => ?_) (t + i) (by omega) hT
        exact hc t' (by simp only [List.length_cons]; omega) h2 h3 h4
      · have hno : ∀ i', n ≤ i' → i' < i → (inp (t + i')).ack = false := by
          intro i' h1 h2
          by_contra h3
          exact hex ⟨i', h1, h2, by simpa using h3⟩
        have f1 := r1 i (by omega) hno
        have f2 := r2 i (by omega) (fun i' h1 h2 => by rw [← hack _ (by omega)]; exact hno i' h1 h2)
        exact ⟨by rw [f1.1, f2.1], by simp only [f1.2.1, f2.2.1]⟩

/-- Two executions whose requests are answered in the same cycles and whose instructions have the same scripts. -/
theorem same_of_script {s s' : State} {inp inp' : Nat → Input} (h : AfterReset s) (h' : AfterReset s')
    (hr : s.RegisteredAck inp) (hr' : s'.RegisteredAck inp') {T : Nat}
    (hack : ∀ u < T, (inp u).ack = (inp' u).ack)
    (hsc : ∀ u, u + 1 < T → ∀ w w', s.Dispatches inp u w → s'.Dispatches inp' u w' →
      script (s.run inp u).arch w (inp u).irq (inp (u + 1)).irq = script (s'.run inp' u).arch w' (inp' u).irq (inp' (u + 1)).irq) :
    ∀ u ≤ T, (s.run inp u).traffic = (s'.run inp' u).traffic ∧ (s.Dispatching inp u ↔ s'.Dispatching inp' u) := by
  have key : ∀ m t, T - t = m → t ≤ T → s.Dispatching inp t → s'.Dispatching inp' t → ∀ u, t ≤ u → u ≤ T → Same s s' inp inp' u := by
    intro m
    induction m using Nat.strong_induction_on with
    | _ m ih =>
      intro t hm ht hd hd' u hu hT
      obtain ⟨w, -, -, hw⟩ := at_dispatch h hr hd
      obtain ⟨w', -, -, hw'⟩ := at_dispatch h' hr' hd'
      have f := C87_script h hr hw
      have f' := C87_script h' hr' hw'
      by_cases hlt : t + 1 < T
      · rw [hsc t hlt w w' hw hw'] at f
        obtain ⟨n, r, l, hl', -⟩ := script_head (s'.run inp' t).arch w' (inp' t).irq (inp' (t + 1)).irq
        refine Follows.sync hack _ true t f f' (fun t' h1 h2 h3 h4 u' h5 h6 => ?_) u hu hT
        rw [hl', List.length_cons] at h1
        exact ih (T - t') (by omega) t' rfl h2 h3 h4 u' h5 h6
      · obtain ⟨n, r, l, e, hn⟩ := script_head (s.run inp t).arch w (inp t).irq (inp (t + 1)).irq
        obtain ⟨n', r', l', e', hn'⟩ := script_head (s'.run inp' t).arch w' (inp' t).irq (inp' (t + 1)).irq
        rw [e] at f
        rw [e'] at f'
        obtain ⟨i, rfl⟩ := Nat.exists_eq_add_of_le hu
        have q := f.1 i (by omega)
        have q' := f'.1 i (by omega)
        exact ⟨by rw [q.1, q'.1], by rw [q.2, q'.2]⟩
  intro u hu
  refine Follows.sync hack _ false 0 (C87_boot h hr) (C87_boot h' hr') (fun t' h1 h2 h3 h4 u' h5 h6 => ?_) u (by omega) hu
  exact key _ t' rfl h2 h3 h4 u' h5 h6

/-- **C87.** Two executions, of whatever programs on whatever values, whose requests are answered in the same cycles and with the
same interrupt line: if whenever both dispatch an instruction the two give away the same, then the bus traffic is the same in every
cycle, and so are the cycles in which instructions are dispatched. -/
theorem C87_contract {s s' : State} {inp inp' : Nat → Input} (h : AfterReset s) (h' : AfterReset s')
    (hr : s.RegisteredAck inp) (hr' : s'.RegisteredAck inp') {T : Nat}
    (hack : ∀ u < T, (inp u).ack = (inp' u).ack) (hirq : ∀ u < T, (inp u).irq = (inp' u).irq)
    (hleak : ∀ u < T, ∀ w w', s.Dispatches inp u w → s'.Dispatches inp' u w' → leak (s.run inp u).arch w = leak (s'.run inp' u).arch w') :
    ∀ u ≤ T, (s.run inp u).traffic = (s'.run inp' u).traffic ∧ (s.Dispatching inp u ↔ s'.Dispatching inp' u) := by
  refine same_of_script h h' hr hr' hack fun u hu w w' hw hw' => ?_
  rw [script_leak (hleak u (by omega) w w' hw hw'), hirq u (by omega), hirq (u + 1) hu]

/-! ## With a memory -/

namespace Soc
variable {k k' : Nat} {s : Soc k} {s' : Soc k'}

theorem same_ack {s : Soc k} {s' : Soc k'} {irq : Nat → Bool} (h : s.AfterReset) (h' : s'.AfterReset) {T : Nat}
    (hs : ∀ u < T, (s.run irq u).cpu.traffic = (s'.run irq u).cpu.traffic) :
    ∀ u ≤ T, (s.inputs irq u).ack = (s'.inputs irq u).ack := by
  intro u
  induction u with
  | zero => intro _; exact h.ram.trans h'.ram.symm
  | succ u ih =>
    intro hu
    rw [ack_succ, ack_succ, ih (by omega)]
    have := hs u (by omega)
    rw [run_cpu, run_cpu] at this
    congr 1
    simp only [State.traffic] at this
    split at this <;> split at this <;> simp_all

/-- **C87.** Two systems of a core and a memory, with the same interrupt line: if whenever both dispatch an instruction the two give
away the same, then the bus traffic is the same in every cycle. -/
theorem C87_soc (h : s.AfterReset) (h' : s'.AfterReset) (irq : Nat → Bool) {T : Nat}
    (hleak : ∀ u < T, ∀ w w', s.cpu.Dispatches (s.inputs irq) u w → s'.cpu.Dispatches (s'.inputs irq) u w' →
      leak (s.run irq u).cpu.arch w = leak (s'.run irq u).cpu.arch w') :
    ∀ u ≤ T, (s.run irq u).cpu.traffic = (s'.run irq u).cpu.traffic ∧
      (s.cpu.Dispatching (s.inputs irq) u ↔ s'.cpu.Dispatching (s'.inputs irq) u) := by
  induction T with
  | zero =>
    intro u hu
    rw [run_cpu, run_cpu]
    exact C87_contract h.cpu h'.cpu (registered h) (registered h') (T := 0) (by omega) (by omega) (by omega) u hu
  | succ T ih =>
    intro u hu
    have hT := ih (fun u hu => hleak u (by omega))
    rw [run_cpu, run_cpu]
    refine C87_contract h.cpu h'.cpu (registered h) (registered h') (T := T + 1) ?_ (fun _ _ => rfl) ?_ u hu
    · intro u hu
      exact same_ack h h' (T := T + 1) (fun v hv => (hT v (by omega)).1) u (by omega)
    · intro u hu w w' hw hw'
      rw [← run_cpu, ← run_cpu]
      exact hleak u hu w w' hw hw'

/-- The number of dispatches before a cycle. -/
noncomputable def dispatches (s : Soc k) (b : Bool) : Nat → Nat
  | 0 => 0
  | t + 1 => dispatches s b t + (open Classical in if s.cpu.Dispatching (s.inputs fun _ => b) t then 1 else 0)

theorem AtNth.first (h : AfterReset s) (b : Bool) : ∃ t, AtNth s b 0 t ∧ ∀ u < t, ¬ s.cpu.Dispatching (s.inputs fun _ => b) u := by
  have hr := registered (irq := fun _ => b) h
  have hf := fair s (fun _ => b)
  have hb {t m} := events_poll (s := s.cpu) (inp := s.inputs fun _ => b) (b := b) (fun _ => rfl) t m
  have hs : ∃ u mem rd, s.cpu = State.resetRegs u mem rd := by
    rcases h.cpu with h | ⟨σ, en, i, -, h⟩ <;> exact ⟨_, _, _, h⟩
  unfold AtNth
  rw [(boot_run hs _).2.2.2.2.1]
  obtain ⟨t, w, ht, hp, ha, hd⟩ := first_exec h.cpu hr hf
  refine ⟨t, ⟨w, hd, ?_⟩, ?_⟩
  · rw [flat, onMem_path hp (blind_fetch _) (inv h (t - 1)).1 hb, dispatch_ram h hd, run_cpu, ha]
  · intro u hu hd'
    obtain ⟨-, hl⟩ := Tree.Path.fetch_inv hp
    have hu1 := hd'.1
    obtain ⟨m, hm⟩ : ∃ m, t - 1 = (u - 1) + (m + 1) := ⟨t - 1 - u, by omega⟩
    have e : s.cpu.events (s.inputs fun _ => b) 1 (t - 1) = s.cpu.events (s.inputs fun _ => b) 1 (u - 1) ++
        ((s.cpu.run (s.inputs fun _ => b) u).obs ((s.inputs fun _ => b) u) ++ s.cpu.events (s.inputs fun _ => b) (u + 1) m) := by
      rw [hm, State.events_add, show 1 + (u - 1) = u by omega]
      rfl
    rw [hl, State.obs_dispatch (by rw [← rom_01]; exact hd'.2)] at e
    have : Event.poll ((s.inputs fun _ => b) u).irq ∈ [Event.bus (fetchReq (s.cpu.boot ((s.inputs fun _ => b) 0))) w] := by
      rw [e]; simp
    simp at this

theorem dispatches_zero {b : Bool} : ∀ t, (∀ u < t, ¬ s.cpu.Dispatching (s.inputs fun _ => b) u) → s.dispatches b t = 0 := by
  intro t
  induction t with
  | zero => intro _; rfl
  | succ t ih => intro h; simp [dispatches, ih (fun u hu => h u (by omega)), h t (by omega)]

theorem dispatches_add {b : Bool} {t : Nat} (h : s.cpu.Dispatching (s.inputs fun _ => b) t) :
    ∀ m, (∀ j, 0 < j → j ≤ m → ¬ s.cpu.Dispatching (s.inputs fun _ => b) (t + j)) → s.dispatches b (t + m + 1) = s.dispatches b t + 1 := by
  intro m
  induction m with
  | zero => intro _; simp [dispatches, h]
  | succ m ih =>
    intro hm
    rw [dispatches, show t + (m + 1) = t + m + 1 by omega, ih (fun j h1 h2 => hm j h1 (by omega))]
    have := hm (m + 1) (by omega) (by omega)
    rw [show t + (m + 1) = t + m + 1 by omega] at this
    simp [this]

/-- The instruction dispatched in a cycle is the one of the flat-memory machine of that number. -/
theorem at_nth (h : AfterReset s) (b : Bool) : ∀ t, s.cpu.Dispatching (s.inputs fun _ => b) t → AtNth s b (s.dispatches b t) t := by
  intro t
  induction t using Nat.strong_induction_on with
  | _ t ih =>
    intro hd
    by_cases hex : ∃ v, v < t ∧ s.cpu.Dispatching (s.inputs fun _ => b) v
    · classical
      obtain ⟨v, hv1, hv2, hv3⟩ : ∃ v, v < t ∧ s.cpu.Dispatching (s.inputs fun _ => b) v ∧
          ∀ v', v < v' → v' < t → ¬ s.cpu.Dispatching (s.inputs fun _ => b) v' := by
        obtain ⟨v0, h0, h0'⟩ := hex
        have hP : ∃ d, d < t ∧ s.cpu.Dispatching (s.inputs fun _ => b) (t - 1 - d) := ⟨t - 1 - v0, by omega, by
          rw [show t - 1 - (t - 1 - v0) = v0 by omega]; exact h0'⟩
        refine ⟨t - 1 - Nat.find hP, by omega, (Nat.find_spec hP).2, fun v' h1 h2 h3 => ?_⟩
        refine Nat.find_min hP (m := t - 1 - v') (by omega) ⟨by omega, ?_⟩
        rw [show t - 1 - (t - 1 - v') = v' by omega]; exact h3
      obtain ⟨m, w, he, ha, -⟩ := AtNth.succ h (ih v hv1 hv2)
      obtain ⟨-, hm, hdm, hno⟩ := he
      have e : v + m = t := by
        rcases Nat.lt_trichotomy (v + m) t with h | h | h
        · exact absurd hdm (hv3 _ (by omega) h)
        · exact h
        · exact absurd hd (by
            have := hno (t - v) (by omega) (by omega)
            rwa [show v + (t - v) = t by omega] at this)
      have hc : s.dispatches b t = s.dispatches b v + 1 := by
        have := dispatches_add hv2 (m - 1) (fun j h1 h2 => hno j h1 (by omega))
        rwa [show v + (m - 1) + 1 = t by omega] at this
      rw [hc, ← e]; exact ha
    · obtain ⟨t0, h0, hno⟩ := AtNth.first h b
      have e : t0 = t := by
        rcases Nat.lt_trichotomy t0 t with h | h | h
        · exact absurd ⟨t0, h, h0.choose_spec.1.1⟩ hex
        · exact h
        · exact absurd hd (hno t h)
      rw [dispatches_zero t (by rw [← e]; exact hno), ← e]; exact h0

/-- What the `n`-th instruction of the flat-memory machine gives away. -/
def leakAt (s : Soc k) (b : Bool) (n : Nat) : Leak :=
  leak (flat .asBuilt b s.ram.mem (s.run (fun _ => b) 5).cpu.arch n).1.1 (flat .asBuilt b s.ram.mem (s.run (fun _ => b) 5).cpu.arch n).1.2

/-- **C87.** With a constant interrupt line: if all instructions of the flat-memory machine give away the same for two initial
contents of registers and memory, then the bus traffic is the same for ever, cycle by cycle. -/
theorem C87_flat (h : s.AfterReset) (h' : s'.AfterReset) (b : Bool) (hleak : ∀ n, s.leakAt b n = s'.leakAt b n) (t : Nat) :
    (s.run (fun _ => b) t).cpu.traffic = (s'.run (fun _ => b) t).cpu.traffic := by
  suffices key : ∀ T, ∀ u ≤ T, (s.run (fun _ => b) u).cpu.traffic = (s'.run (fun _ => b) u).cpu.traffic ∧
      (s.cpu.Dispatching (s.inputs fun _ => b) u ↔ s'.cpu.Dispatching (s'.inputs fun _ => b) u) from (key t t (Nat.le_refl t)).1
  intro T
  induction T with
  | zero => exact C87_soc h h' _ (T := 0) (by omega)
  | succ T ih =>
    refine C87_soc h h' _ (T := T + 1) fun u hu w w' hw hw' => ?_
    have hcount : ∀ v ≤ T + 1, s.dispatches b v = s'.dispatches b v := by
      intro v
      induction v with
      | zero => intro _; rfl
      | succ v ihv =>
        intro hv
        have hiff := (ih v (by omega)).2
        simp only [dispatches, ihv (by omega)]
        by_cases hp : s.cpu.Dispatching (s.inputs fun _ => b) v
        · rw [if_pos hp, if_pos (hiff.1 hp)]
        · rw [if_neg hp, if_neg (fun hq => hp (hiff.2 hq))]
    obtain ⟨w1, hw1, e1⟩ := at_nth h b u hw.1
    obtain ⟨w2, hw2, e2⟩ := at_nth h' b u hw'.1
    have := hleak (s.dispatches b u)
    rw [leakAt, leakAt, run_cpu, run_cpu, e1] at this
    rw [hcount u (by omega), e2] at this
    rw [hw.unique hw1, hw'.unique hw2]
    exact this

/-! ## A program that keeps its secrets -/

/-- Compare the words at 96 and 100 without giving away whether they are equal, store the result, and start again. -/
def vaultProgram : List Word :=
  [0x06002083#32,  -- lw x1, 96(x0)
   0x06402103#32,  -- lw x2, 100(x0)
   0x0020C1B3#32,  -- xor x3, x1, x2
   0x0011B193#32,  -- sltiu x3, x3, 1
   0x06302423#32,  -- sw x3, 104(x0)
   0xFEDFF06F#32]  -- jal x0, -20

/-- A memory with a program, and the secrets `p` and `q` at the byte addresses 96 and 100. -/
def secrets (l : List Word) (p q : Word) : Mem 5 := fun a => if a = 24#5 then p else if a = 25#5 then q else romOf l a

/-- The core at power-on with that memory. -/
def vault (l : List Word) (p q : Word) : Soc 5 := ⟨powerOn, ⟨secrets l p q, 0, false⟩⟩

theorem vault_reset (l : List Word) (p q : Word) : (vault l p q).AfterReset := ⟨.inl rfl, rfl⟩

theorem vault_boot (l : List Word) (p q : Word) : ((vault l p q).run (fun _ => false) 5).cpu.arch = a0 := by
  rw [run_cpu, show (vault l p q).cpu = powerOn from rfl, (boot_run (s := powerOn) ⟨_, _, _, rfl⟩ _).2.2.2.2.1]
  have e : (vault l p q).inputs (fun _ => false) 0 = ⟨0, false, false⟩ := rfl
  rw [e]
  rfl

/-- What the instructions of the program give away. -/
def vaultLeak (tv : Word) : Nat → Leak
  | 0 => ⟨0, 0x06002083, false, tv, some (.adr 96)⟩
  | 1 => ⟨4, 0x06402103, false, tv, some (.adr 100)⟩
  | 2 => ⟨8, 0x0020C1B3, false, tv, some .none⟩
  | 3 => ⟨12, 0x0011B193, false, tv, some .none⟩
  | 4 => ⟨16, 0x06302423, false, tv, some (.adr 104)⟩
  | _ => ⟨20, 0xFEDFF06F, false, tv, some .none⟩

/-- The invariant of the program. -/
structure VaultInv (tv : Word) (x : (Arch × Word) × Mem 5) (i : Nat) : Prop where
  pc : x.1.1.pc = BitVec.ofNat 32 (4 * i)
  word : x.1.2 = vaultProgram.getD i 0
  mie : x.1.1.mie = false
  mtvec : x.1.1.mtvec = tv
  code : ∀ j < 6, x.2 (BitVec.ofNat 5 j) = vaultProgram.getD j 0

theorem leak_some {a : Arch} {w : Word} {ins : Instr} (h : decode w = some ins) :
    leak a w = ⟨a.pc, w, a.intEnabled, a.mtvec, some (detail a ins)⟩ := by
  rw [leak, h]; rfl

theorem detail_load (a : Arch) (op : LdOp) (rd rs1 : BitVec 5) (imm : BitVec 12) :
    detail a (.load op rd rs1 imm) = .adr (a.reg rs1 + imm.signExtend 32) := rfl

theorem detail_store (a : Arch) (op : StOp) (rs1 rs2 : BitVec 5) (imm : BitVec 12) :
    detail a (.store op rs1 rs2 imm) = .adr (a.reg rs1 + imm.signExtend 32) := rfl

theorem vault_step {tv : Word} {x : (Arch × Word) × Mem 5} {i : Nat} (hi : i < 6) (h : VaultInv tv x i) :
    VaultInv tv ((cycle .asBuilt x.1).onMem false x.2) ((i + 1) % 6) ∧ leak x.1.1 x.1.2 = vaultLeak tv i := by
  obtain ⟨⟨a, w⟩, M⟩ := x
  obtain ⟨h1, h2, h3, h4, h5⟩ := h
  simp only at h1 h2 h3 h4 h5
  subst h2
  have hen : a.intEnabled = false := by simp [Arch.intEnabled, h3]
  have hr0 : a.reg 0#5 = 0#32 := by simp [Arch.reg]
  have c0 := h5 0 (by omega)
  have c1 := h5 1 (by omega)
  have c2 := h5 2 (by omega)
  have c3 := h5 3 (by omega)
  have c4 := h5 4 (by omega)
  have c5 := h5 5 (by omega)
  have d0 : decode 0x06002083#32 = some (.load .lw 1#5 0#5 96#12) := by decide
  have d1 : decode 0x06402103#32 = some (.load .lw 2#5 0#5 100#12) := by decide
  have d2 : decode 0x0020C1B3#32 = some (.op .xor 3#5 1#5 2#5) := by decide
  have d3 : decode 0x0011B193#32 = some (.opImm .sltu 3#5 3#5 1#12) := by decide
  have d4 : decode 0x06302423#32 = some (.store .sw 0#5 3#5 104#12) := by decide
  have d5 : decode 0xFEDFF06F#32 = some (.jal 0#5 0xFFFF6#20) := by decide
  simp only [vaultProgram, List.getD_cons_zero, List.getD_cons_succ] at c0 c1 c2 c3 c4 c5
  simp only
  obtain rfl | rfl | rfl | rfl | rfl | rfl : i = 0 ∨ i = 1 ∨ i = 2 ∨ i = 3 ∨ i = 4 ∨ i = 5 := by omega
  · rw [show vaultProgram.getD 0 0 = 0x06002083#32 from rfl]
    refine ⟨?_, ?_⟩
    · simp [cycle, exec, d0, hen, execInstr, hr0, Tree.bind, Tree.onMem, fetch, fetchReq, wordAdr, aligned, LdOp.size, StOp.size, readReq, writeReq, Mem.after, targetOk, h1, Arch.next, Arch.setReg]
      refine ⟨by simp, ?_, by simp [h3], by simp [h4], ?_⟩
      · simp [c1, h1, vaultProgram]
      · exact h5
    · rw [leak_some d0, h1, hen, h4]
      rw [detail_load, hr0]; rfl
  · rw [show vaultProgram.getD 1 0 = 0x06402103#32 from rfl]
    refine ⟨?_, ?_⟩
    · simp [cycle, exec, d1, hen, execInstr, hr0, Tree.bind, Tree.onMem, fetch, fetchReq, wordAdr, aligned, LdOp.size, StOp.size, readReq, writeReq, Mem.after, targetOk, h1, Arch.next, Arch.setReg]
      refine ⟨by simp, ?_, by simp [h3], by simp [h4], ?_⟩
      · simp [c2, h1, vaultProgram]
      · exact h5
    · rw [leak_some d1, h1, hen, h4]
      rw [detail_load, hr0]; rfl
  · rw [show vaultProgram.getD 2 0 = 0x0020C1B3#32 from rfl]
    refine ⟨?_, ?_⟩
    · simp [cycle, exec, d2, hen, execInstr, hr0, Tree.bind, Tree.onMem, fetch, fetchReq, wordAdr, aligned, LdOp.size, StOp.size, readReq, writeReq, Mem.after, targetOk, h1, Arch.next, Arch.setReg]
      refine ⟨by simp, ?_, by simp [h3], by simp [h4], ?_⟩
      · simp [c3, h1, vaultProgram]
      · exact h5
    · rw [leak_some d2, h1, hen, h4]
      rfl
  · rw [show vaultProgram.getD 3 0 = 0x0011B193#32 from rfl]
    refine ⟨?_, ?_⟩
    · simp [cycle, exec, d3, hen, execInstr, hr0, Tree.bind, Tree.onMem, fetch, fetchReq, wordAdr, aligned, LdOp.size, StOp.size, readReq, writeReq, Mem.after, targetOk, h1, Arch.next, Arch.setReg]
      refine ⟨by simp, ?_, by simp [h3], by simp [h4], ?_⟩
      · simp [c4, h1, vaultProgram]
      · exact h5
    · rw [leak_some d3, h1, hen, h4]
      rfl
  · rw [show vaultProgram.getD 4 0 = 0x06302423#32 from rfl]
    refine ⟨?_, ?_⟩
    · simp [cycle, exec, d4, hen, execInstr, hr0, Tree.bind, Tree.onMem, fetch, fetchReq, wordAdr, aligned, LdOp.size, StOp.size, readReq, writeReq, Mem.after, targetOk, h1, Arch.next, Arch.setReg]
      refine ⟨by simp, ?_, by simp [h3], by simp [h4], ?_⟩
      · simp [c5, h1, vaultProgram]
      · intro k hk; rw [← h5 k hk]; rcases k with _|_|_|_|_|_|k <;> first | omega | rfl
    · rw [leak_some d4, h1, hen, h4]
      rw [detail_store, hr0]; rfl
  · rw [show vaultProgram.getD 5 0 = 0xFEDFF06F#32 from rfl]
    refine ⟨?_, ?_⟩
    · simp [cycle, exec, d5, hen, execInstr, hr0, Tree.bind, Tree.onMem, fetch, fetchReq, wordAdr, aligned, LdOp.size, StOp.size, readReq, writeReq, Mem.after, targetOk, h1, Arch.next, Arch.setReg]
      refine ⟨by simp, ?_, by simp [h3], by simp [h4], ?_⟩
      · simp [c0, h1, vaultProgram]
      · exact h5
    · rw [leak_some d5, h1, hen, h4]
      rfl

theorem vault_inv (p q : Word) : ∀ n, VaultInv a0.mtvec (flat .asBuilt false (secrets vaultProgram p q) a0 n) (n % 6) := by
  intro n
  induction n with
  | zero =>
    have hc : ∀ j < 6, secrets vaultProgram p q (BitVec.ofNat 5 j) = vaultProgram.getD j 0 := by
      intro j hj
      rcases j with _ | _ | _ | _ | _ | _ | j <;> first | omega | rfl
    exact ⟨rfl, rfl, rfl, rfl, hc⟩
  | succ n ih =>
    have := (vault_step (Nat.mod_lt n (by omega)) ih).1
    rwa [show (n % 6 + 1) % 6 = (n + 1) % 6 by omega] at this

/-- **C87.** An instance: the bus traffic of this program is the same for all secrets, for ever. -/
theorem C87_vault (p q p' q' : Word) (t : Nat) :
    ((vault vaultProgram p q).run (fun _ => false) t).cpu.traffic = ((vault vaultProgram p' q').run (fun _ => false) t).cpu.traffic := by
  have key : ∀ p q n, (vault vaultProgram p q).leakAt false n = vaultLeak a0.mtvec (n % 6) := by
    intro p q n
    rw [leakAt, vault_boot]
    exact (vault_step (Nat.mod_lt n (by omega)) (vault_inv p q n)).2
  exact C87_flat (vault_reset _ _ _) (vault_reset _ _ _) false (fun n => by rw [key, key]) t

/-- A program that does not keep its secret: it shifts by it. -/
def leakyProgram : List Word :=
  [0x06002083#32,  -- lw x1, 96(x0)
   0x001091B3#32,  -- sll x3, x1, x1
   0xFF9FF06F#32]  -- jal x0, -8

/-- Another secret, other traffic: here already in cycle 23, so the hypothesis of `C87_flat` cannot be dropped. -/
theorem C87_leaky : ((vault leakyProgram 1 0).run (fun _ => false) 23).cpu.traffic ≠ ((vault leakyProgram 5 0).run (fun _ => false) 23).cpu.traffic := by
  have h1 : ((vault leakyProgram 1 0).run (fun _ => false) 23).cpu.traffic.isSome = true := by decide +kernel
  have h2 : ((vault leakyProgram 5 0).run (fun _ => false) 23).cpu.traffic.isSome = false := by decide +kernel
  intro h
  rw [h, h2] at h1
  cases h1

end Soc

end Sentinel
