import Verif.Proof.Main
/-!
# One instruction of an execution
-/

set_option linter.unusedSimpArgs false

namespace Sentinel
open Ucode Spec

/-- The computation `T₀` has taken part in the events `l` and goes on as `T`. -/
inductive Leads {α} : Tree α → List Event → Tree α → Prop
  | refl (t) : Leads t [] t
  | poll {k : Bool → Tree α} {b l t} : Leads (k b) l t → Leads (.poll k) (.poll b :: l) t
  | bus {r} {k : BitVec 32 → Tree α} {d l t} : Leads (k d) l t → Leads (.bus r k) (.bus r d :: l) t

theorem Leads.adv {α : Type} {t : Tree α} {l T e T'} (h : Leads t l T) (ha : Adv T e T') :
    Leads t (l ++ e) T' := by
  induction h with
  | refl t =>
    cases ha with
    | none => exact .refl _
    | poll => exact .poll (.refl _)
    | bus => exact .bus (.refl _)
  | poll _ ih => exact .poll (ih ha)
  | bus _ ih => exact .bus (ih ha)

theorem Leads.path {α : Type} {t : Tree α} {l x} (h : Leads t l (.ret x)) : t.Path l x := by
  generalize e : Tree.ret x = T at h
  induction h with
  | refl t => subst e; exact .ret _
  | poll _ ih => exact .poll (ih e)
  | bus _ ih => exact .bus (ih e)

theorem State.idle_snoc (s : State) (inp : Nat → Input) (t m : Nat) :
    s.idle inp t (m + 1) = s.idle inp t m + if (s.run inp (t + m)).cyc then 0 else 1 := by
  rw [State.idle_add]; simp [State.idle]

theorem State.tallies_snoc (s : State) (inp : Nat → Input) (t m : Nat) :
    s.tallies inp t (m + 1) = s.tallies inp t m + (s.run inp (t + m)).tally (inp (t + m)) := by
  rw [State.tallies_add]; simp [State.tallies]

/-- After `m` cycles of an implementation it is finished, or has not finished. -/
theorem Impl.partway {α : Type} {F : α → State → Cnt → Prop} {s : State} {inp : Nat → Input}
    (hr : s.RegisteredAck inp) {t : Nat} {T : Tree α} {n : Cnt}
    (p : Impl F (s.prevCyc inp t) (s.run inp t) T n) (m : Nat) :
    (∃ k x, k ≤ m ∧ T.Path (s.events inp t k) x ∧ F x (s.run inp (t + k)) (n + s.tallies inp t k)) ∨
    ∃ T', Impl F (s.prevCyc inp (t + m)) (s.run inp (t + m)) T' (n + s.tallies inp t m) ∧
      Leads T (s.events inp t m) T' := by
  induction m with
  | zero => exact .inr ⟨T, by simpa [State.tallies] using p, .refl _⟩
  | succ m ih =>
    rcases ih with ⟨k, x, hk, h⟩ | ⟨T', hi, hl⟩
    · exact .inl ⟨k, x, by omega, h⟩
    have key : (∀ x, T' ≠ .ret x) → ∃ T', Impl F (s.prevCyc inp (t + (m + 1)))
        (s.run inp (t + (m + 1))) T' (n + s.tallies inp t (m + 1)) ∧
        Leads T (s.events inp t (m + 1)) T' := by
      intro hT
      obtain ⟨T'', ha, hi'⟩ := hi.advance hr hT
      refine ⟨T'', ?_, ?_⟩
      · rw [State.tallies_snoc, ← Cnt.add_assoc]; exact hi'
      · rw [State.events_snoc]; exact hl.adv ha
    cases T' with
    | poll k => exact .inr (key (by intro x; simp))
    | bus r k => exact .inr (key (by intro x; simp))
    | ret x =>
      generalize hpv : s.prevCyc inp (t + m) = pv at hi
      generalize hs : s.run inp (t + m) = σ at hi
      cases hi with
      | done h => exact .inl ⟨m, x, by omega, hl.path, by rw [hs]; exact h⟩
      | quiet a b h =>
        refine .inr ⟨.ret x, ?_, ?_⟩
        · rw [State.tallies_snoc, hs, ← Cnt.add_assoc]
          have e1 : s.run inp (t + (m + 1)) = σ.step (inp (t + m)) := by rw [← hs]; rfl
          have e2 : s.prevCyc inp (t + (m + 1)) = σ.cyc := by rw [← hs]; rfl
          rw [e1, e2, a]
          exact h (inp (t + m))
        · rw [State.events_snoc, hs]
          have e : σ.obs (inp (t + m)) = [] := by simp [State.obs, a, b]
          rw [e, List.append_nil]; exact hl

variable {s : State} {inp : Nat → Input} {t m : Nat} {w : Word}

theorem State.obs_dispatch {σ : State} (h : σ.uop = u_01) (i : Input) : σ.obs i = [.poll i.irq] := by
  simp [State.obs, State.cyc, State.polls, h, u_01]

/-- Execution of an instruction that reaches the next dispatch. -/
theorem executes_tally (h : AfterReset s) (hr : s.RegisteredAck inp) (he : s.Executes inp t w m) :
    ∃ w', (cycle .asBuilt ((s.run inp t).arch, w)).Path (s.events inp t m)
        ((s.run inp (t + m)).arch, w') ∧
      s.Dispatches inp (t + m) w' ∧
      Tally (s.run inp t).arch w (s.events inp t m) (s.tallies inp t m) := by
  obtain ⟨hd, hm, hd', hno⟩ := he
  have h0 := hd.at h hr
  have hi := exec_impl (pv := s.prevCyc inp t) h0
  obtain ⟨m', rfl⟩ : ∃ m', m = m' + 1 := ⟨m - 1, by omega⟩
  have hcyc : (s.run inp t).cyc = false := by simp [State.cyc, h0.uop, u_01]
  have hidle : ∀ j, 0 < j → 0 < s.idle inp t j := by
    intro j hj
    obtain ⟨j', rfl⟩ : ∃ j', j = j' + 1 := ⟨j - 1, by omega⟩
    simp only [State.idle, hcyc]
    simp
  -- the run is finished in cycle `t + m`
  have hfin : ∃ k x, k ≤ m' + 1 ∧
      ((cycle .asBuilt ((s.run inp t).arch, w)).tag []).Path (s.events inp t k) x ∧
      Timed (s.run inp t).arch w x (s.run inp (t + k)) (0 + s.tallies inp t k) := by
    rcases hi.partway hr (m' + 1) with hx | ⟨T', hi', hl⟩
    · exact hx
    · have hu : (s.run inp (t + (m' + 1))).uop = u_01 := by rw [← rom_01]; exact hd'.2
      have hpos := hidle (m' + 1) hm
      generalize hn : 0 + s.tallies inp t (m' + 1) = n at hi'
      generalize hs : s.run inp (t + (m' + 1)) = σ at hi' hu
      generalize s.prevCyc inp (t + (m' + 1)) = pv at hi'
      cases hi' with
      | done hf => exact ⟨m' + 1, _, Nat.le_refl _, hl.path, by rw [hs, hn]; exact hf⟩
      | quiet _ b _ => exact absurd hu (State.uop_ne_of_polls b)
      | poll _ _ c _ => have := c hu; rw [← hn, Cnt.zero_add, State.tallies_idle] at this; omega
      | first _ b _ _ => exact absurd hu (State.uop_ne_of_polls b)
      | busy _ b _ _ _ => exact absurd hu (State.uop_ne_of_polls b)
      | wait I hI hc _ _ _ => exact absurd hu (State.uop_ne_of_polls (hc _ hI).2.1)
  obtain ⟨k, x, hk, hp, hf, hn⟩ := hfin
  obtain ⟨hp, hx⟩ := Tree.Path.of_tag hp
  have hk0 : 0 < k := by
    rcases Nat.eq_zero_or_pos k with rfl | hk0
    · exfalso
      rw [State.events] at hp
      revert hp
      simp only [cycle, exec, Tree.bind]
      intro hp; cases hp
    · exact hk0
  have hkm : k = m' + 1 := by
    rcases Nat.lt_or_ge k (m' + 1) with hlt | hge
    · refine absurd ⟨?_, ?_⟩ (hno k hk0 hlt)
      · have := hd.1.1; omega
      · rw [rom_01]; exact hf.uop
    · omega
  subst hkm
  have e : x.1 = ((s.run inp (t + (m' + 1))).arch, x.1.2) := by rw [← hf.arch]
  refine ⟨x.1.2, e ▸ hp, ⟨hd', ?_⟩, ?_⟩
  · obtain ⟨l', _, hl'⟩ := Tree.Path.cycle_inv hp
    refine ⟨s.events inp 1 (t - 1) ++ l', fetchReq x.1.1, ?_⟩
    have := s.events_add inp 1 (t - 1) (m' + 1)
    rw [show t - 1 + (m' + 1) = t + (m' + 1) - 1 by have := hd.1.1; omega,
      show 1 + (t - 1) = t by have := hd.1.1; omega, hl'] at this
    rw [this, List.append_assoc]
  · rw [hx, List.nil_append, Cnt.zero_add] at hn; exact hn

/-- Execution of an instruction that reaches the next dispatch. -/
theorem executes (h : AfterReset s) (hr : s.RegisteredAck inp) (he : s.Executes inp t w m) :
    ∃ w', (cycle .asBuilt ((s.run inp t).arch, w)).Path (s.events inp t m)
        ((s.run inp (t + m)).arch, w') ∧
      s.Dispatches inp (t + m) w' ∧
      s.idle inp t m = idleCycles (s.run inp t).arch w (s.events inp t m) := by
  obtain ⟨w', h1, h2, h3, -⟩ := executes_tally h hr he
  exact ⟨w', h1, h2, by rw [← State.tallies_idle]; exact h3⟩

/-- **Progress.**  With a fair bus every dispatched instruction is executed. -/
theorem executes_of_fair (h : AfterReset s) (hr : s.RegisteredAck inp) (hf : s.FairAck inp)
    (hd : s.Dispatches inp t w) : ∃ m, s.Executes inp t w m := by
  have h0 := hd.at h hr
  obtain ⟨m, x, hp, hx, -⟩ := (cycle_impl (pv := s.prevCyc inp t) h0).finishes hr hf t rfl rfl
  have hm : 0 < m := by
    rcases Nat.eq_zero_or_pos m with rfl | hk0
    · exfalso
      rw [State.events] at hp
      revert hp
      simp only [cycle, exec, Tree.bind]
      intro hp; cases hp
    · exact hk0
  have hex : ∃ m, 0 < m ∧ s.Dispatching inp (t + m) :=
    ⟨m, hm, by have := hd.1.1; omega, by rw [rom_01]; exact AtDispatch.uop hx⟩
  classical
  refine ⟨Nat.find hex, hd, (Nat.find_spec hex).1, (Nat.find_spec hex).2, ?_⟩
  intro k hk hlt hdk
  exact Nat.find_min hex hlt ⟨hk, hdk⟩

/-- With a fair bus there is a first dispatch. -/
theorem first_dispatch (h : AfterReset s) (hr : s.RegisteredAck inp) (hf : s.FairAck inp) :
    ∃ t, s.Dispatching inp t := by
  obtain ⟨u, mem, rd, rfl, hm⟩ := h.eq
  obtain ⟨h1, h2, h3, h4, h5, h6, h7⟩ := boot_first u mem rd (inp 0)
  have hi := boot_impl (pv := (State.resetRegs u mem rd).prevCyc inp 1) h1 h2 h3 h4 h5 h6 h7
    (RamOk.step (s := State.resetRegs u mem rd) hm _)
  obtain ⟨m, x, hp, hx, -⟩ := hi.finishes hr hf 1 rfl rfl
  exact ⟨1 + m, by omega, by rw [rom_01]; exact AtDispatch.uop hx.1⟩

end Sentinel
