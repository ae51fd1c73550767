import Verif.Core.Rvfi
import Verif.Proof.CsrSecond
import Verif.Props.Bus
/-!
# The RVFI harness follows the core
-/

set_option linter.unusedSimpArgs false

namespace Sentinel
open Ucode Spec

/-! ## When the harness commits -/

theorem map_ne_182 : (0xf0#8 :: (mapTargets ++ csrTargets)).all (fun x => !(x = 182#8)) = true := by
  decide +kernel

theorem to_182 : live.all (fun k => (romT k).jmpType = .map || bools.all fun e => bools.all fun z =>
    bools.all fun a => !(nextT k e z a = 182#8) || !(romT k).memReq) = true := by decide +kernel

theorem from_fetch : waits.all (fun k => !(romT k).insnFetch || (bools.all fun e => bools.all fun z =>
    nextT k e z true = 1#8 && (romT k).jmpType ≠ .map)) = true := by decide +kernel

theorem fetch_waits : waits.all (fun k => !(romT k).insnFetch || k = 182 ||
    ((romT k).exceptCtl = .none && (romT k).csrOp = .none && (romT k).regWSel = .rd)) = true := by
  decide +kernel

variable {s : State} {inp : Nat → Input} {t m : Nat} {w : Word}

theorem LiveAt.nextT {k : BitVec 8} {σ : State} (h : LiveAt k σ) (hm : σ.uop.jmpType ≠ .map) (i : Input) :
    σ.romAdr i = Sentinel.nextT k.toNat (σ.exception i) (aluZero σ.aluO) i.ack := by
  simp only [State.romAdr, Sentinel.nextT, h.rstGuard, h.next, h.uop, rom_eq] at hm ⊢
  unfold State.test
  rw [h.uop, rom_eq]
  cases hj : (romT k.toNat).jmpType
  case map => exact absurd hj hm
  all_goals simp [seqAdr]

/-- A microinstruction that leads to 182 makes no request. -/
theorem LiveAt.before_182 {k : BitVec 8} {σ : State} (h : LiveAt k σ) {i : Input}
    (e : σ.romAdr i = 182#8) : σ.uop.memReq = false := by
  by_cases hm : σ.uop.jmpType = .map
  · exact (h.node.map hm).2.2.1
  · have h1 := List.all_eq_true.mp to_182 _ h.live
    rw [h.nextT hm] at e
    rw [h.uop, rom_eq] at hm ⊢
    simp only [hm, decide_false, Bool.false_or] at h1
    have h2 := bools_all (bools_all (bools_all h1 (σ.exception i)) (aluZero σ.aluO)) i.ack
    simpa [e] using h2

theorem LiveAt.unique {k : BitVec 8} {σ : State} {i : Input} (h : LiveAt k (σ.step i)) :
    k = σ.romAdr i := by
  have : σ.romAdr i + 1#8 = k + 1#8 := h.next
  exact (BitVec.add_right_inj (1#8)).mp (by rw [BitVec.add_comm, ← this, BitVec.add_comm])

theorem run_cyc (h : AfterReset s) (inp : Nat → Input) (T : Nat) :
    (s.run inp (T + 1)).cyc = (s.run inp (T + 1)).uop.memReq := by
  obtain ⟨k, hk⟩ := live_run h inp T
  simp [State.cyc, hk.memGuard]

/-- An acknowledged fetch leads to dispatch, and writes no CSR and raises no exception. -/
theorem fetched (h : AfterReset s) (hr : s.RegisteredAck inp) {T : Nat}
    (hf : (s.run inp (T + 1)).uop.insnFetch = true) (ha : (inp (T + 1)).ack = true) :
    (s.run inp (T + 1)).romAdr (inp (T + 1)) = 1#8 ∧ (s.run inp (T + 1)).uop.exceptCtl = .none ∧
      (s.run inp (T + 1)).uop.csrOp = .none ∧ (s.run inp (T + 1)).uop.regWSel = .rd := by
  obtain ⟨k0, hk0⟩ := live_run h inp T
  have hreq := hk0.node.fetch hf
  have hcyc : (s.run inp (T + 1)).cyc = true := by rw [run_cyc h]; exact hreq
  obtain ⟨k, hk, hkw⟩ := ack_waits h hr (T + 1) hcyc ha
  have hf' : (romT k.toNat).insnFetch = true := by rw [← rom_eq, ← hk.uop]; exact hf
  have h1 := List.all_eq_true.mp from_fetch _ hkw
  simp only [hf', Bool.not_true, Bool.false_or] at h1
  have h1 := bools_all (bools_all h1 ((s.run inp (T + 1)).exception (inp (T + 1))))
    (aluZero (s.run inp (T + 1)).aluO)
  simp only [Bool.and_eq_true, decide_eq_true_eq] at h1
  have hm : (s.run inp (T + 1)).uop.jmpType ≠ .map := by rw [hk.uop, rom_eq]; exact h1.2
  refine ⟨by rw [hk.nextT hm, ha]; exact h1.1, ?_⟩
  have hne : k ≠ 182#8 := by
    rintro rfl
    have hlast : (s.run inp T).cyc = false := by
      rcases Nat.eq_zero_or_pos T with rfl | hT
      · obtain ⟨u, mem, rd, rfl, -⟩ := h.eq
        exact cyc_resetRegs _ _ _
      · obtain ⟨T', rfl⟩ : ∃ T', T = T' + 1 := ⟨T - 1, by omega⟩
        obtain ⟨k', hk'⟩ := live_run h inp T'
        rw [run_cyc h]
        exact hk'.before_182 (i := inp (T' + 1)) hk.unique.symm
    have := hr (T + 1) ⟨hcyc, fun t' e => by cases e; exact hlast⟩
    rw [this] at ha; cases ha
  have hne' : k.toNat ≠ 182 := fun e => hne (BitVec.eq_of_toNat_eq e)
  have h2 := List.all_eq_true.mp fetch_waits _ hkw
  simp only [hf', hne', Bool.not_true, Bool.false_or, decide_false, Bool.and_eq_true,
    decide_eq_true_eq] at h2
  rw [hk.uop, rom_eq]
  exact ⟨h2.1.1, h2.1.2, h2.2⟩

theorem first_romAdr (h : AfterReset s) (inp : Nat → Input) : s.romAdr (inp 0) = 2#8 := by
  obtain ⟨u, mem, rd, rfl, -⟩ := h.eq
  simp [State.romAdr, State.resetRegs, seqAdr]

/-- The harness commits in the cycle before dispatch. -/
theorem committed_iff (h : AfterReset s) (hr : s.RegisteredAck inp) (T : Nat) :
    (s.run inp T).committed (inp T) = true ↔ s.Dispatching inp (T + 1) := by
  constructor
  · intro hc
    simp only [State.committed, Bool.and_eq_true, decide_eq_true_eq] at hc
    refine ⟨by omega, ?_⟩
    show rom ((s.run inp T).romAdr (inp T)) = _
    rw [hc.2]
  · intro hd
    obtain ⟨w, h1, -⟩ := at_dispatch h hr hd
    have e : (s.run inp T).romAdr (inp T) = 1#8 := by
      have h2 : (s.run inp T).romAdr (inp T) + 1#8 = 2#8 := h1.nextAdr
      have h3 : (2#8 : BitVec 8) = 1#8 + 1#8 := by decide
      rw [h3] at h2
      exact (BitVec.add_left_inj (1#8)).mp h2
    rcases Nat.eq_zero_or_pos T with rfl | hT
    · have := first_romAdr h inp
      have e : s.romAdr (inp 0) = 1#8 := e
      rw [this] at e; exact absurd e (by decide)
    · obtain ⟨T', rfl⟩ : ∃ T', T = T' + 1 := ⟨T - 1, by omega⟩
      obtain ⟨k, hk⟩ := live_run h inp T'
      obtain ⟨h2, h3⟩ := (hk.romAdr_live (inp (T' + 1))).2.2.2.2 e
      simp [State.committed, e, h2, h3]

/-- What happens in a committing cycle. -/
theorem committing (h : AfterReset s) (hr : s.RegisteredAck inp) {T : Nat}
    (hc : (s.run inp T).committed (inp T) = true) :
    1 ≤ T ∧ (s.run inp T).uop.exceptCtl = .none ∧ (s.run inp T).uop.csrOp = .none ∧
      (s.run inp T).uop.regWSel = .rd ∧ (s.run inp T).uop.insnFetch = true ∧
      (s.run inp T).uop.memReq = true ∧ (inp T).ack = true ∧
      (s.run inp T).uop.pcAction = .hold := by
  have hc' := hc
  simp only [State.committed, Bool.and_eq_true, decide_eq_true_eq] at hc'
  obtain ⟨⟨h1, h2⟩, h3⟩ := hc'
  rcases Nat.eq_zero_or_pos T with rfl | hT
  · have := first_romAdr h inp
    have e : s.romAdr (inp 0) = 1#8 := h3
    rw [this] at e; exact absurd e (by decide)
  · obtain ⟨T', rfl⟩ : ∃ T', T = T' + 1 := ⟨T - 1, by omega⟩
    obtain ⟨-, a, b, c⟩ := fetched h hr h1 h2
    obtain ⟨k, hk⟩ := live_run h inp T'
    have hreq := hk.node.fetch h1
    exact ⟨hT, a, b, c, h1, hreq, h2, (hk.node.keep hreq).1⟩

/-- From the second cycle on, the decoder is started exactly in the committing cycles. -/
theorem doDecode_iff (h : AfterReset s) (hr : s.RegisteredAck inp) (T : Nat) :
    (s.run inp (T + 1)).doDecode (inp (T + 1)) = (s.run inp (T + 1)).committed (inp (T + 1)) := by
  cases hd : (s.run inp (T + 1)).doDecode (inp (T + 1))
  · symm
    simp only [State.doDecode] at hd
    simp [State.committed, hd]
  · have hd' := hd
    simp only [State.doDecode, Bool.and_eq_true] at hd'
    have := (fetched h hr hd'.1 hd'.2).1
    simp [State.committed, this, hd'.1, hd'.2]

/-- The word dispatched is the one on the bus in the committing cycle. -/
theorem dispatched_word (h : AfterReset s) (hr : s.RegisteredAck inp) {T : Nat}
    (hd : s.Dispatches inp (T + 1) w) : (inp T).datR = w := by
  have hc := (committed_iff h hr T).2 hd.1
  obtain ⟨hT, a, b, -, f, mr, ha, -⟩ := committing h hr hc
  obtain ⟨l, r, hl⟩ := hd.2
  obtain ⟨T', rfl⟩ : ∃ T', T = T' + 1 := ⟨T - 1, by omega⟩
  have e : s.events inp 1 (T' + 1 + 1 - 1) = s.events inp 1 T' ++ (s.run inp (T' + 1)).obs (inp (T' + 1)) := by
    rw [show T' + 1 + 1 - 1 = T' + 1 by omega, State.events_snoc, Nat.add_comm 1 T']
  have hcyc := run_cyc h inp T'
  rw [e] at hl
  have ho : (s.run inp (T' + 1)).obs (inp (T' + 1)) =
      [.bus (s.run inp (T' + 1)).req (inp (T' + 1)).datR] := by
    simp [State.obs, State.polls, hcyc, mr, ha, a, b]
  rw [ho] at hl
  have := List.append_inj_right' hl rfl
  simp only [List.cons.injEq, Event.bus.injEq, and_true] at this
  exact this.2

/-! ## Registers that are loaded at commit -/

theorem Executes.step {j : Nat} (h : AfterReset s) (hr : s.RegisteredAck inp)
    (he : s.Executes inp t w m) (hj : j + 1 < m) :
    (s.run inp (t + j)).committed (inp (t + j)) = false := by
  cases hc : (s.run inp (t + j)).committed (inp (t + j))
  · rfl
  · exact absurd ((committed_iff h hr _).1 hc) (he.2.2.2 (j + 1) (by omega) hj)

/-- A register that is only loaded at commit holds the value loaded. -/
theorem latched {α : Type} {f g : Nat → α} (h : AfterReset s) (hr : s.RegisteredAck inp)
    (hf : ∀ T, f (T + 1) = if (s.run inp T).committed (inp T) then g T else f T)
    (he : s.Executes inp t w m) {j : Nat} (hj : j < m) : f (t + j) = g (t - 1) := by
  induction j with
  | zero =>
    have ht := he.1.1.1
    have e : t + 0 = (t - 1) + 1 := by omega
    have hc : (s.run inp (t - 1)).committed (inp (t - 1)) = true :=
      (committed_iff h hr _).2 (by rw [show t - 1 + 1 = t by omega]; exact he.1.1)
    rw [e, hf, hc]; rfl
  | succ j ih =>
    rw [show t + (j + 1) = (t + j) + 1 by omega, hf, Executes.step h hr he hj]
    exact ih (by omega)

/-- An instruction takes at least two cycles. -/
theorem two_cycles (h : AfterReset s) (hr : s.RegisteredAck inp) (he : s.Executes inp t w m) :
    2 ≤ m := by
  rcases Nat.lt_or_ge m 2 with hlt | hge
  · have hm : m = 1 := by have := he.2.1; omega
    subst hm
    have hc := (committed_iff h hr t).2 he.2.2.1
    have hu := he.1.1.2
    simp [State.committed, hu, rom_01, u_01] at hc
  · exact hge

/-- The last cycle of an instruction commits the next. -/
theorem last_commits (h : AfterReset s) (hr : s.RegisteredAck inp) (he : s.Executes inp t w m) :
    (s.run inp (t + m - 1)).committed (inp (t + m - 1)) = true := by
  refine (committed_iff h hr _).2 ?_
  rw [show t + m - 1 + 1 = t + m by have := he.2.1; omega]
  exact he.2.2.1

theorem first_commits (h : AfterReset s) (hr : s.RegisteredAck inp) (he : s.Dispatches inp t w) :
    (s.run inp (t - 1)).committed (inp (t - 1)) = true := by
  refine (committed_iff h hr _).2 ?_
  rw [show t - 1 + 1 = t by have := he.1.1; omega]
  exact he.1

end Sentinel
