import Verif.Spec.Critical
import Verif.Spec.Portable
import Verif.Proof.Window
import Verif.Proof.Frame
/-!
# Where the core looks at the interrupt line

With interrupts off the level of the interrupt line in any cycle makes no difference to the state of the core, unless mip is read.
-/

set_option linter.unusedSimpArgs false

namespace Sentinel
open Ucode Spec

variable {s : State} {inp inp' : Nat → Input} {t : Nat}

/-- One cycle with two levels of the interrupt line. -/
theorem step_irq (σ : State) {i i' : Input} (ha : i.ack = i'.ack) (hd : i.datR = i'.datR)
    (h1 : σ.uop.exceptCtl = .latchDecoder → σ.pending i = σ.pending i')
    (h2 : σ.uop.csrOp = .readCsr → σ.csrAdr ≠ CSR_MIP) : σ.step i = σ.step i' := by
  have e1 : σ.exception i = σ.exception i' := by
    unfold State.exception exceptionOut
    cases he : σ.uop.exceptCtl <;> simp only
    rw [h1 he]
  have e2 : σ.cause.step σ.uop.exceptCtl σ.uop.memSel σ.aluO σ.dec.exc.valid σ.dec.exc.eType (σ.pending i) =
      σ.cause.step σ.uop.exceptCtl σ.uop.memSel σ.aluO σ.dec.exc.valid σ.dec.exc.eType (σ.pending i') := by
    unfold CauseLatch.step
    cases he : σ.uop.exceptCtl <;> simp only
    rw [h1 he]
  have e3 : σ.csr.step σ.uop.csrOp σ.csrAdr σ.aluO i.irq σ.uop.exceptCtl = σ.csr.step σ.uop.csrOp σ.csrAdr σ.aluO i'.irq σ.uop.exceptCtl := by
    simp only [CsrState.step, CsrState.mk.injEq, true_and, and_true]
    by_cases hr : σ.uop.csrOp = .readCsr
    · rw [if_pos hr, if_pos hr, if_neg (h2 hr), if_neg (h2 hr)]
    · rw [if_neg hr, if_neg hr]
  have e4 : σ.romAdr i = σ.romAdr i' := by
    unfold State.romAdr State.test
    rw [e1, ha]
  have e5 : σ.ram i = σ.ram i' := by
    unfold State.ram State.regRAdr
    rw [hd]
  have e6 : σ.doDecode i = σ.doDecode i' := by unfold State.doDecode; rw [ha]
  unfold State.step
  rw [e2, e3, e4, e5, e6, hd]

theorem not_polls {σ : State} (h : σ.polls = false) : σ.uop.exceptCtl ≠ .latchDecoder ∧ (σ.uop.csrOp = .readCsr → σ.csrAdr ≠ CSR_MIP) := by
  simp only [State.polls, Bool.or_eq_false_iff, decide_eq_false_iff_not, Bool.and_eq_false_iff] at h
  refine ⟨h.1, fun h1 h2 => ?_⟩
  rcases h.2 with h3 | h3
  · exact h3 h1
  · exact h3 h2

/-- A computation that does not look at the interrupt line. -/
def NoPoll {α : Type} : Tree α → Prop
  | .ret _ => True
  | .poll _ => False
  | .bus _ k => ∀ d, NoPoll (k d)

theorem NoPoll.bind {α β : Type} {T : Tree α} {f : α → Tree β} (h : NoPoll T) (hf : ∀ x, NoPoll (f x)) : NoPoll (T.bind f) := by
  induction T with
  | ret x => exact hf x
  | poll k ih => exact h.elim
  | bus r k ih => exact fun d => ih d (h d)

theorem NoPoll.tag {α : Type} {T : Tree α} (h : NoPoll T) : ∀ acc, NoPoll (T.tag acc) := by
  induction T with
  | ret x => exact fun _ => trivial
  | poll k ih => exact h.elim
  | bus r k ih => exact fun acc d => ih d (h d) _

theorem noPoll_fetch (a : Arch) : NoPoll (fetch a) := fun _ => trivial

theorem nopoll_cycles {α : Type} {F : α → State → Cnt → Prop} (hr : s.RegisteredAck inp) (hF : ∀ x σ n, F x σ n → σ.uop = u_01) :
    ∀ (j v : Nat) (T : Tree α) (n : Cnt), 1 ≤ v → Impl F (s.prevCyc inp v) (s.run inp v) T n → NoPoll T →
      (∀ i ≤ j, ¬ s.Dispatching inp (v + i)) → (s.run inp (v + j)).polls = false := by
  intro j
  induction j with
  | zero =>
    intro v T n hv p hT hn
    generalize s.prevCyc inp v = pv at p
    cases p with
    | done hf => exact absurd ((dispatching_iff (by omega)).2 (hF _ _ _ hf)) (hn 0 (Nat.le_refl 0))
    | quiet a b _ => exact b
    | poll => exact hT.elim
    | first a b _ _ => exact b
    | busy a b _ _ _ => exact b
    | wait I a b _ _ _ => exact (b _ a).2.1
  | succ j ih =>
    intro v T n hv p hT hn
    have hn' : ∀ i ≤ j, ¬ s.Dispatching inp (v + 1 + i) := fun i hi => by
      have := hn (i + 1) (by omega)
      rwa [show v + (i + 1) = v + 1 + i by omega] at this
    rw [show v + (j + 1) = v + 1 + j by omega]
    by_cases hret : ∃ x, T = .ret x
    · obtain ⟨x, rfl⟩ := hret
      generalize s.prevCyc inp v = pv at p
      cases p with
      | done hf => exact absurd ((dispatching_iff (by omega)).2 (hF _ _ _ hf)) (hn 0 (by omega))
      | quiet a b c =>
        have := c (inp v)
        rw [show (s.run inp v).step (inp v) = s.run inp (v + 1) from rfl, ← a, show (s.run inp v).cyc = s.prevCyc inp (v + 1) from rfl] at this
        exact ih (v + 1) _ _ (by omega) this hT hn'
    · obtain ⟨T', ha, p'⟩ := p.advance hr (fun x hx => hret ⟨x, hx⟩)
      refine ih (v + 1) T' _ (by omega) p' ?_ hn'
      generalize (s.run inp v).obs (inp v) = l at ha
      cases ha with
      | none => exact hT
      | poll k b => exact hT.elim
      | bus r k d => exact hT d

theorem body_noPoll {a : Arch} {w : Word} (h1 : a.intEnabled = false) (hc : ∀ op rd src adr, decode w ≠ some (.csr op rd src adr)) (b : Bool) :
    NoPoll (body a w b) := by
  unfold body
  rw [h1, Bool.and_false, if_neg (by simp)]
  cases hd : decode w with
  | none => trivial
  | some ins =>
    cases ins
    case csr op rd src adr => exact absurd hd (hc op rd src adr)
    all_goals simp only [execInstr]
    all_goals (repeat' split)
    all_goals first | trivial | exact fun _ => trivial

/-- In the cycles of an instruction other than the one in which it is dispatched the core does not look at the interrupt line, but for CSR instructions
one cycle after dispatch. -/
theorem polls_where (h : AfterReset s) (hr : s.RegisteredAck inp) {w : Word} (hd : s.Dispatches inp t w)
    (h1 : (s.run inp t).arch.intEnabled = false) (h2 : usesMip w = false) {v : Nat} (hv : t < v)
    (hn : ∀ u, t < u → u ≤ v → ¬ s.Dispatching inp u) (hp : (s.run inp v).polls = true) :
    v = t + 1 ∧ (s.run inp v).uop = u_24 ∧ (s.run inp v).csr.mie = (s.run inp t).csr.mie ∧ (s.run inp v).csr.meie = (s.run inp t).csr.meie := by
  have hat := hd.at h hr
  have hu := hat.uop
  have ht := hd.1.1
  obtain ⟨T', ha, p⟩ := (exec_impl (pv := s.prevCyc inp t) hat).advance hr (by rw [cycle_tag]; intro x; simp)
  rw [cycle_tag, State.obs_dispatch hu] at ha
  cases ha
  rw [rest_body] at p
  have hF : ∀ x σ n, Timed (s.run inp t).arch w x σ n → σ.uop = u_01 := fun x σ n hx => hx.1.uop
  by_cases hc : ∃ op rd src adr, decode w = some (.csr op rd src adr)
  · obtain ⟨op, rd, src, adr, hw⟩ := hc
    have hi : ((inp t).irq && (s.run inp t).arch.intEnabled) = false := by rw [h1, Bool.and_false]
    have hu1 : (s.run inp (t + 1)).uop = u_24 := csr_uop hat hi hw
    by_cases hv1 : v = t + 1
    · subst hv1
      refine ⟨rfl, hu1, ?_, ?_⟩
      · show ((s.run inp t).step (inp t)).csr.mie = _
        simp [State.step, CsrState.step, hu, u_01]
      · show ((s.run inp t).step (inp t)).csr.meie = _
        simp [State.step, CsrState.step, hu, u_01]
    · exfalso
      obtain ⟨T'', ha, p'⟩ := p.advance hr (by intro x; simp [body, h1, hw, execInstr, Tree.bind, Tree.tag])
      have hobs : (s.run inp (t + 1)).obs (inp (t + 1)) = [.poll (inp (t + 1)).irq] := by
        simp [State.obs, State.cyc, State.polls, hu1, u_24]
      rw [hobs] at ha
      simp only [body, h1, hw, execInstr, Tree.bind, Tree.tag, Bool.and_false, Bool.false_eq_true, if_false] at ha
      cases ha
      have hm : csrKind adr ≠ .impl .mip := by
        intro e
        simp [usesMip, hw, e] at h2
      have := nopoll_cycles hr hF (v - (t + 2)) (t + 2) _ _ (by omega) p' (NoPoll.tag (NoPoll.bind (by
          split
          · trivial
          · split <;> trivial
          · next c hk =>
            unfold execCsr
            have : ¬ (c = .mip ∧ csrReads op rd = true) := fun e => hm (by rw [hk, e.1])
            simp only [this, if_false]
            trivial) noPoll_fetch) _)
        (fun i hi => hn _ (by omega) (by omega))
      rw [show t + 2 + (v - (t + 2)) = v by omega, hp] at this
      cases this
  · exfalso
    have hc' : ∀ op rd src adr, decode w ≠ some (.csr op rd src adr) := fun op rd src adr e => hc ⟨op, rd, src, adr, e⟩
    have := nopoll_cycles hr hF (v - (t + 1)) (t + 1) _ _ (by omega) p
      (NoPoll.tag (NoPoll.bind (body_noPoll h1 hc' _) noPoll_fetch) _) (fun i hi => hn _ (by omega) (by omega))
    rw [show t + 1 + (v - (t + 1)) = v by omega, hp] at this
    cases this

/-- From a dispatch on, as long as interrupts are off and mip is not read: the state of the core does not depend on the interrupt line. -/
theorem deaf_run (h : AfterReset s) (hr : s.RegisteredAck inp) (hd : s.Dispatching inp t) (hst : s.run inp t = s.run inp' t) {u : Nat}
    (hin : ∀ v, t ≤ v → v < u → (inp v).ack = (inp' v).ack ∧ (inp v).datR = (inp' v).datR)
    (hq : ∀ v w, t ≤ v → v < u → s.Dispatches inp v w → (s.run inp v).arch.intEnabled = false ∧ usesMip w = false) :
    ∀ v, t ≤ v → v ≤ u → s.run inp v = s.run inp' v := by
  intro v hv
  induction v with
  | zero => intro _; rw [show (0 : Nat) = t by omega]; exact hst
  | succ v ih =>
    intro hu
    rcases Nat.lt_or_ge v t with hlt | hge
    · rw [show v + 1 = t by omega]; exact hst
    · have e := ih hge (by omega)
      -- the instruction
      obtain ⟨d, hd1, hd2, hd3, hno⟩ : ∃ d, t ≤ d ∧ d ≤ v ∧ s.Dispatching inp d ∧ ∀ u, d < u → u ≤ v → ¬ s.Dispatching inp u := by
        classical
        have hP : ∃ k, k ≤ v - t ∧ s.Dispatching inp (v - k) := ⟨v - t, Nat.le_refl _, by rw [show v - (v - t) = t by omega]; exact hd⟩
        refine ⟨v - Nat.find hP, ?_, by omega, (Nat.find_spec hP).2, fun u h1 h2 h3 => ?_⟩
        · have := (Nat.find_spec hP).1; omega
        · have := (Nat.find_spec hP).1
          refine Nat.find_min hP (m := v - u) (by omega) ⟨by omega, ?_⟩
          rw [show v - (v - u) = u by omega]; exact h3
      obtain ⟨w, -, -, hw⟩ := at_dispatch h hr hd3
      obtain ⟨q1, q2⟩ := hq d w hd1 (by omega) hw
      obtain ⟨a1, a2⟩ := hin v hge (by omega)
      have hpend : ∀ {σ : State}, σ.csr.mie = (s.run inp d).csr.mie → σ.csr.meie = (s.run inp d).csr.meie → ∀ i i', σ.pending i = σ.pending i' := by
        intro σ e1 e2 i i'
        have : ((s.run inp d).csr.mie && (s.run inp d).csr.meie) = false := q1
        unfold State.pending intPending
        rw [e1, e2]
        revert this
        cases (s.run inp d).csr.mie <;> cases (s.run inp d).csr.meie <;> simp
      show (s.run inp v).step (inp v) = (s.run inp' v).step (inp' v)
      rw [← e]
      rcases Nat.eq_or_lt_of_le hd2 with rfl | hlt
      · refine step_irq _ a1 a2 (fun _ => hpend rfl rfl _ _) ?_
        rw [(hw.at h hr).uop]; simp [u_01]
      · cases hp : (s.run inp v).polls
        · obtain ⟨g1, g2⟩ := not_polls hp
          exact step_irq _ a1 a2 (fun e => absurd e g1) g2
        · obtain ⟨-, g2, g3, g4⟩ := polls_where h hr hw q1 q2 hlt hno hp
          refine step_irq _ a1 a2 (fun _ => hpend g3 g4 _ _) ?_
          rw [g2]; simp [u_24]

end Sentinel
