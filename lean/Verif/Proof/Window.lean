import Verif.Proof.Wave
import Verif.Props.Request
import Verif.Core.Traffic
/-!
# The bus traffic of one instruction, cycle by cycle
-/

set_option linter.unusedSimpArgs false

namespace Sentinel
open Ucode Spec

variable {s : State} {inp : Nat → Input} {t : Nat} {w : Word} {ar : Arch}

/-! ## What follows an answer -/

theorem next_eq {k : BitVec 8} {σ : State} (h : LiveAt k σ) (hm : σ.uop.jmpType ≠ .map) (i : Input) :
    σ.romAdr i = nextT k.toNat (σ.exception i) (aluZero σ.aluO) i.ack := by
  simp only [State.romAdr, nextT, h.rstGuard, h.next, h.uop, rom_eq] at hm ⊢
  unfold State.test
  rw [h.uop, rom_eq]
  cases hj : (romT k.toNat).jmpType
  case map => exact absurd hj hm
  all_goals simp [seqAdr]

/-- After the answer to a fetch comes dispatch; after the answer to a data access comes one cycle and then a request. -/
def ackOk (k : Nat) : Bool :=
  !((romT k).jmpType = .map) && bools.all fun e => bools.all fun z =>
    let n := nextT k e z true
    if (romT k).insnFetch then n = 1#8
    else !((romT n.toNat).jmpType = .map) && bools.all fun e => bools.all fun z => bools.all fun ack =>
      (romT (nextT n.toNat e z ack).toNat).memReq

theorem ack_all : waits.all ackOk = true := by decide +kernel

/-- In the cycle after an answer a computation that has returned is done, if that is when it makes no request. -/
theorem ret_done {α : Type} {F : α → State → Cnt → Prop} (hs : AfterReset s) (hr : s.RegisteredAck inp) {x : α} {n : Cnt}
    (hF : ∀ σ n, F x σ n → σ.uop.memReq = false)
    (hc : (s.run inp t).cyc = true) (ha : (inp t).ack = true)
    (h : Impl F true (s.run inp (t + 1)) (.ret x) n) : F x (s.run inp (t + 1)) n := by
  obtain ⟨k, hk, hw⟩ := ack_waits hs hr t hc ha
  have hok := List.all_eq_true.mp ack_all _ hw
  simp only [ackOk, Bool.and_eq_true, Bool.not_eq_true', decide_eq_false_iff_not] at hok
  obtain ⟨h1, h2⟩ := hok
  have hu : (s.run inp t).uop = romT k.toNat := by rw [hk.uop, rom_eq]
  have e := next_eq hk (by rw [hu]; exact h1) (inp t)
  rw [ha] at e
  have h2 := bools_all (bools_all h2 ((s.run inp t).exception (inp t))) (aluZero (s.run inp t).aluO)
  rw [← e] at h2
  have hu' : (s.run inp (t + 1)).uop = rom ((s.run inp t).romAdr (inp t)) := rfl
  have hk' : LiveAt ((s.run inp t).romAdr (inp t)) (s.run inp (t + 1)) := hk.step _
  generalize hσ : s.run inp (t + 1) = σ at *
  cases h with
  | done hf => exact hf
  | quiet a b hq =>
    exfalso
    split at h2
    · simp only [decide_eq_true_eq] at h2
      rw [h2, rom_01] at hu'
      exact State.uop_ne_of_polls b hu'
    · simp only [Bool.and_eq_true, Bool.not_eq_true', decide_eq_false_iff_not] at h2
      obtain ⟨h3, h4⟩ := h2
      have e' := next_eq hk' (by rw [hu', rom_eq]; exact h3) (inp (t + 1))
      have h4 := bools_all (bools_all (bools_all h4 (σ.exception (inp (t + 1)))) (aluZero σ.aluO)) (inp (t + 1)).ack
      rw [← e'] at h4
      have hm : (σ.step (inp (t + 1))).uop.memReq = true := by
        have : (σ.step (inp (t + 1))).uop = rom (σ.romAdr (inp (t + 1))) := rfl
        rw [this, rom_eq]; exact h4
      have := hq (inp (t + 1))
      cases this with
      | done hf => rw [hF _ _ hf] at hm; cases hm
      | quiet a' _ _ =>
        have hg : (σ.step (inp (t + 1))).memGuard = false := rfl
        simp only [State.cyc, hm, hg, Bool.not_false, Bool.and_true] at a'
        cases a'


/-! ## Hypothetical answers -/

theorem Leads.det {α : Type} {T : Tree α} {l T1} (h1 : Leads T l T1) : ∀ {T2}, Leads T l T2 → T1 = T2 := by
  induction h1 with
  | refl => intro T2 h2; cases h2; rfl
  | poll _ ih => intro T2 h2; cases h2 with | poll h2 => exact ih h2
  | bus _ ih => intro T2 h2; cases h2 with | bus h2 => exact ih h2

/-- The same inputs up to cycle `u`, where there is no answer; then an answer; and then none any more. -/
def answerAt (inp : Nat → Input) (u : Nat) (d : Word) (v : Nat) : Input :=
  if v < u then inp v
  else if v = u + 1 then { inp v with ack := true, datR := d }
  else { inp v with ack := false }

theorem answerAt_irq (u : Nat) (d : Word) (v : Nat) : (answerAt inp u d v).irq = (inp v).irq := by
  unfold answerAt; repeat' split
  all_goals rfl

theorem answerAt_lt {u v : Nat} (d : Word) (h : v < u) : answerAt inp u d v = inp v := if_pos h

theorem answerAt_run (s : State) (u : Nat) (d : Word) : ∀ v ≤ u, s.run (answerAt inp u d) v = s.run inp v := by
  intro v
  induction v with
  | zero => intro _; rfl
  | succ v ih =>
    intro hv
    simp only [State.run, ih (by omega), answerAt_lt d (show v < u by omega)]

theorem answerAt_events (s : State) (u : Nat) (d : Word) : ∀ m t, t + m ≤ u → s.events (answerAt inp u d) t m = s.events inp t m := by
  intro m
  induction m with
  | zero => intro t _; rfl
  | succ m ih =>
    intro t h
    simp only [State.events, answerAt_run s u d t (by omega), answerAt_lt d (show t < u by omega), ih (t + 1) (by omega)]

theorem answerAt_registered (hs : AfterReset s) (hr : s.RegisteredAck inp) {u : Nat} {d : Word} (hc : (s.run inp u).cyc = true) :
    s.RegisteredAck (answerAt inp u d) := by
  intro v hv
  by_cases h1 : v < u
  · rw [answerAt_lt d h1]
    refine hr v ⟨?_, ?_⟩
    · rw [← answerAt_run s u d v (by omega)]; exact hv.1
    · intro v' e
      rw [← answerAt_run s u d v' (by omega)]; exact hv.2 v' e
  · by_cases h2 : v = u + 1
    · exfalso
      have := hv.2 u h2
      rw [answerAt_run s u d u (by omega), hc] at this
      cases this
    · simp [answerAt, h1, h2]

/-- The count when the request is answered, whether it is or not. -/
theorem Impl.count {α : Type} {F : α → State → Cnt → Prop} (hs : AfterReset s) (hr : s.RegisteredAck inp)
    {T : Tree α} {n : Cnt} (p : Impl F (s.prevCyc inp t) (s.run inp t) T n) (hb : Tree.Busy T)
    {j0 : Nat} {r : Req} {k : Word → Tree α} (hl : Leads T (s.events inp t j0) (.bus r k))
    (hq : ∀ j < j0, (s.run inp (t + j)).cyc = false) (hc : (s.run inp (t + j0)).cyc = true)
    {x : Word → α} (hk : ∀ d, k d = .ret (x d)) (hF : ∀ d σ n, F (x d) σ n → σ.uop.memReq = false) (d : Word) :
    ∃ σ n', F (x d) σ n' ∧ n'.idle = n.idle + j0 := by
  have hr' : s.RegisteredAck (answerAt inp (t + j0) d) := answerAt_registered hs hr hc
  have hprev : s.prevCyc (answerAt inp (t + j0) d) t = s.prevCyc inp t := by
    cases t with
    | zero => rfl
    | succ t => simp only [State.prevCyc, answerAt_run s (t + 1 + j0) d t (by omega)]
  obtain ⟨j1, r', k', e1, e2, e3⟩ := p.wave hs hr' t hprev (answerAt_run s _ d t (by omega)) hb
  have hj : j1 = j0 := by
    rcases Nat.lt_trichotomy j1 j0 with h | h | h
    · have := (e3 j1 (by omega) (by omega)).1
      rw [answerAt_run s _ d _ (by omega), hq j1 h] at this
      cases this
    · exact h
    · have := (e2 j0 h).1
      rw [answerAt_run s _ d _ (by omega), hc] at this
      cases this
  subst hj
  rw [answerAt_events s _ d j1 t (by omega)] at e1
  have := hl.det e1
  injection this with h1 h2
  subst h1; subst h2
  have hno : (answerAt inp (t + j1) d (t + j1)).ack = false := by simp [answerAt]
  have hyes : answerAt inp (t + j1) d (t + (j1 + 1)) = { inp (t + j1 + 1) with ack := true, datR := d } := by
    simp [answerAt, Nat.add_assoc]
  obtain ⟨c1, -, c3⟩ := e3 (j1 + 1) (by omega) (fun i h1 h2 => by
    obtain rfl : i = j1 := by omega
    exact hno)
  obtain ⟨n', hn', hi⟩ := c3 (by rw [hyes])
  rw [hyes, hk] at hi
  exact ⟨_, n', ret_done hs hr' (hF d) c1 (by rw [hyes]) hi, hn'⟩

/-! ## Instructions without a data access -/

/-- What an instruction does before the next fetch. -/
def body (ar : Arch) (w : Word) (irq : Bool) : Tree Arch :=
  if irq && ar.intEnabled then Tree.ret (ar.takeInterrupt .asBuilt)
    else match decode w with
      | none => .ret (ar.exception .asBuilt (illegalCause .asBuilt w))
      | some ins => execInstr .asBuilt ar ins

theorem rest_body (ar : Arch) (w : Word) (irq : Bool) : rest ar w irq = ((body ar w irq).bind fetch).tag [.poll irq] := rfl

theorem NoBus.leads_tag {T : Tree Arch} (hT : NoBus T) : ∀ {acc l r k}, Leads ((T.bind fetch).tag acc) l (.bus r k) →
    ∃ a, T.Path l a ∧ r = fetchReq a ∧ ∀ d, k d = .ret ((a, d), acc ++ l ++ [.bus r d]) := by
  induction T with
  | ret x =>
    intro acc l r k h
    simp only [Tree.bind, fetch, Tree.tag] at h
    cases h with
    | refl => exact ⟨x, .ret x, rfl, fun d => by simp⟩
    | bus h => cases h
  | poll k' ih =>
    intro acc l r k h
    simp only [Tree.bind, Tree.tag] at h
    cases h with
    | @poll _ b l _ h =>
      obtain ⟨a, h1, h2, h3⟩ := ih b (hT b) h
      exact ⟨a, .poll h1, h2, fun d => by rw [h3]; simp⟩
  | bus => cases hT

theorem NoBus.busy {T : Tree Arch} (hT : NoBus T) : ∀ acc, Tree.Busy ((T.bind fetch).tag acc) := by
  induction T with
  | ret x => intro acc; trivial
  | poll k ih => intro acc b; exact ih b (hT b) _
  | bus => cases hT

theorem body_noBus {irq : Bool} (h : (if irq && ar.intEnabled then none else dataReq ar w) = none) : NoBus (body ar w irq) := by
  unfold body
  split
  · trivial
  · rename_i hi
    rw [if_neg hi] at h
    split
    · trivial
    · rename_i ins hdec
      unfold dataReq at h
      rw [hdec] at h
      cases ins <;> simp only [execInstr] at h ⊢
      case jal => split <;> trivial
      case jalr => split <;> trivial
      case branch => repeat' split
                     all_goals trivial
      case load =>
        split at h
        · cases h
        · rename_i ha; rw [if_neg ha]; trivial
      case store =>
        split at h
        · cases h
        · rename_i ha; rw [if_neg ha]; trivial
      case csr =>
        intro b
        beta_reduce
        repeat' split
        all_goals first | trivial | exact noBus_execCsr _ _ _ _ _
      all_goals trivial

theorem execCsr_pc {a : Arch} {op : CsrOp} {rd : Reg} {src : CsrSrc} {c : Csr} {l : List Event} {a' : Arch}
    (h : (execCsr a op rd src c).Path l a') : a'.pc = a.pc + 4 := by
  have key : ∀ v, ((if csrWrites op src then (a.setReg rd v).csrWrite (csrNew op v (a.csrOperand src)) c else a.setReg rd v).next).pc = a.pc + 4 := by
    intro v
    split
    · cases c <;> simp only [Arch.csrWrite, Arch.next, Arch.setReg] <;> (repeat' split) <;> rfl
    · simp only [Arch.next, Arch.setReg]; split <;> rfl
  unfold execCsr at h
  simp only at h
  split at h
  · cases h with
    | poll h =>
      beta_reduce at h
      split at h
      · cases h with
        | poll h => cases h; exact key _
      · cases h; exact key _
  · cases h; exact key _

theorem setReg_next_pc4 (a : Arch) (rd : Reg) (v : Word) : (a.setReg rd v).next.pc = a.pc + 4 := by
  simp only [Arch.next, Arch.setReg]; split <;> rfl

theorem body_pc {irq i1 : Bool} {l : List Event} {a' : Arch} (hp : (body ar w irq).Path l a')
    (hn : (if irq && ar.intEnabled then none else dataReq ar w) = none)
    (hc : ∀ op rd src adr, (irq && ar.intEnabled) = false → decode w = some (.csr op rd src adr) → ∃ l', l = .poll i1 :: l') :
    a'.pc = nextPc ar w irq i1 ∧ ∀ e, idleCycles ar w ([.poll irq] ++ l ++ e) = idleCycles ar w [.poll irq, .poll i1] := by
  unfold body at hp
  unfold nextPc
  by_cases hi : (irq && ar.intEnabled) = true
  · rw [if_pos hi] at hp ⊢
    cases hp
    exact ⟨rfl, fun e => by simp [idleCycles, hi]⟩
  · rw [if_neg hi] at hp hn ⊢
    have hi' : (irq && ar.intEnabled) = false := by simpa using hi
    cases hdec : decode w with
    | none =>
      rw [hdec] at hp
      cases hp
      exact ⟨rfl, fun e => by simp [idleCycles, hi', hdec]⟩
    | some ins =>
      unfold dataReq at hn
      rw [hdec] at hp hn
      cases ins
      case csr op rd src adr =>
        obtain ⟨l', rfl⟩ := hc _ _ _ _ hi' hdec
        simp only [execInstr] at hp
        cases hp with
        | poll hp =>
          beta_reduce at hp
          refine ⟨?_, fun e => by simp [idleCycles, hi', hdec, instrCycles]⟩
          dsimp only
          by_cases h1 : (i1 && ar.intEnabled) = true
          · rw [if_pos h1] at hp ⊢; cases hp; rfl
          · rw [if_neg h1] at hp ⊢
            cases hk : csrKind adr with
            | absent => rw [hk] at hp; cases hp; rfl
            | zero =>
              rw [hk] at hp
              dsimp only at hp ⊢
              split at hp
              · rename_i h2; rw [if_pos h2]; cases hp; rfl
              · rename_i h2; rw [if_neg h2]; cases hp; exact setReg_next_pc4 _ _ _
            | impl c => rw [hk] at hp; exact execCsr_pc hp
      case load =>
        simp only [execInstr] at hp hn
        split at hn
        · cases hn
        · rename_i ha
          rw [if_neg ha] at hp
          cases hp
          exact ⟨by simp only [ha]; rfl, fun e => by simp [idleCycles, hi', hdec, instrCycles]⟩
      case store =>
        simp only [execInstr] at hp hn
        split at hn
        · cases hn
        · rename_i ha
          rw [if_neg ha] at hp
          cases hp
          exact ⟨by simp only [ha]; rfl, fun e => by simp [idleCycles, hi', hdec, instrCycles]⟩
      case jal =>
        simp only [execInstr] at hp
        refine ⟨?_, fun e => by simp [idleCycles, hi', hdec, instrCycles]⟩
        dsimp only
        split at hp <;> rename_i h1
        · cases hp; rw [if_pos h1]
        · cases hp; rw [if_neg h1]; rfl
      case jalr =>
        simp only [execInstr] at hp
        refine ⟨?_, fun e => by simp [idleCycles, hi', hdec, instrCycles]⟩
        dsimp only
        split at hp <;> rename_i h1
        · cases hp; rw [if_pos h1]
        · cases hp; rw [if_neg h1]; rfl
      case branch =>
        simp only [execInstr] at hp
        refine ⟨?_, fun e => by simp [idleCycles, hi', hdec, instrCycles]⟩
        dsimp only
        split at hp <;> rename_i h1
        · rw [if_pos h1]
          split at hp <;> rename_i h2
          · cases hp; rw [if_pos h2]
          · cases hp; rw [if_neg h2]; rfl
        · cases hp; rw [if_neg h1]; rfl
      all_goals
        simp only [execInstr] at hp
        cases hp
        refine ⟨?_, fun e => by simp [idleCycles, hi', hdec, instrCycles]⟩
        first | rfl | exact setReg_next_pc4 _ _ _


/-! ## The whole instruction -/

theorem csr_uop {op rd src adr} {σ : State} {i : Input} (h : AtDispatch (ar, w) σ) (hi : (i.irq && ar.intEnabled) = false)
    (hw : decode w = some (.csr op rd src adr)) : (σ.step i).uop = u_24 := by
  obtain ⟨g1, g2, -⟩ := decoded hw
  obtain ⟨h1, h2, h3, h4, h5, h6, h7, d0, f1, f2, hd⟩ := h
  have hpend : σ.pending i = false := by
    rw [← hi]
    simp only [State.pending, intPending, Arch.intEnabled, h6.mie, h6.meie]
    cases ar.mie <;> cases ar.meie <;> cases i.irq <;> rfl
  have hvalid : σ.dec.exc.valid = false := by
    rw [← g1]; simp [hd, DecState.step, ExcState.step, f2]
  have hop : σ.dec.map.requestedOp = mapOp w d0.map.requestedOp := by
    simp [hd, DecState.step, MapState.step, f1]
  have hop' : mapOp w d0.map.requestedOp = 0x24#8 := by
    simp only [isCsrInsn, Bool.and_eq_true, Bool.not_eq_true', decide_eq_true_eq,
      decide_eq_false_iff_not] at g2
    obtain ⟨⟨⟨⟨c1, c2⟩, c3⟩, c4⟩, c5⟩ := g2
    simp [mapOp, c1, c2, c3, c4, c5]
  have hadr : σ.romAdr i = 0x24#8 := by
    simp [State.romAdr, State.test, State.exception, exceptionOut, testOut, rawTest, seqAdr, h1, h3,
      u_01, hpend, hvalid, hop, hop']
  show rom (σ.romAdr i) = _
  rw [hadr, rom_24]

theorem dispatching_iff (ht : 1 ≤ t) : s.Dispatching inp t ↔ (s.run inp t).uop = u_01 := by
  simp only [State.Dispatching, rom_01]
  exact ⟨fun h => h.2, fun h => ⟨ht, h⟩⟩

theorem not_dispatching_of_cyc (hc : (s.run inp t).cyc = true) : ¬ s.Dispatching inp t := by
  rintro ⟨-, h⟩
  rw [rom_01] at h
  simp [State.cyc, h, u_01] at hc

/-- The tree of an instruction with a data access. -/
theorem rest_data {irq : Bool} {r : Req} (hi : (irq && ar.intEnabled) = false) (hr : dataReq ar w = some r) :
    ∃ a2 : Word → Arch, (∀ d, (a2 d).pc = ar.pc + 4) ∧
      rest ar w irq = .bus r (fun d => (fetch (a2 d)).tag [.poll irq, .bus r d]) ∧
      ∀ e, idleCycles ar w (.poll irq :: e) = dataStart w + 1 := by
  unfold dataReq at hr
  split at hr
  · rename_i op rd rs1 imm hdec
    split at hr
    · rename_i ha
      cases hr
      refine ⟨fun d => (ar.setReg rd (loadValue op (ar.reg rs1 + imm.signExtend 32) d)).next, fun d => setReg_next_pc4 _ _ _, ?_, fun e => ?_⟩
      · rw [rest_some hi hdec]
        simp only [execInstr, ha, if_true, Tree.bind_bus, Tree.tag, Tree.bind_ret]
        rfl
      · simp [idleCycles, hi, hdec, instrCycles, ha, dataStart]
    · cases hr
  · rename_i op rs1 rs2 imm hdec
    split at hr
    · rename_i ha
      cases hr
      refine ⟨fun d => ar.next, fun d => rfl, ?_, fun e => ?_⟩
      · rw [rest_some hi hdec]
        simp only [execInstr, ha, if_true, Tree.bind_bus, Tree.tag, Tree.bind_ret]
        rfl
      · simp [idleCycles, hi, hdec, instrCycles, ha, dataStart]
    · cases hr
  · cases hr

theorem traffic_none (h : (s.run inp t).cyc = false) : (s.run inp t).traffic = none := by simp [State.traffic, h]

theorem traffic_some {r : Req} (h : (s.run inp t).cyc = true) (hr : (s.run inp t).req = r) : (s.run inp t).traffic = some r.traffic := by
  subst hr; simp [State.traffic, h, State.req, Req.traffic]

theorem fetchReq_traffic (a : Arch) : (fetchReq a).traffic = fetchTraffic a.pc := rfl

theorem Timed.memReq {x : (Arch × Word) × List Event} {σ : State} {n : Cnt} (h : Timed ar w x σ n) : σ.uop.memReq = false := by
  rw [h.1.uop]; rfl

/-- From dispatch to dispatch the bus follows the script. -/
theorem follows_script (hs : AfterReset s) (hr : s.RegisteredAck inp) (ht : 1 ≤ t) (h : AtDispatch (ar, w) (s.run inp t)) :
    s.Follows inp true (script ar w (inp t).irq (inp (t + 1)).irq) t := by
  have hu : (s.run inp t).uop = u_01 := h.uop
  have hc0 : (s.run inp t).cyc = false := by simp [State.cyc, hu, u_01]
  have hpv1 : s.prevCyc inp (t + 1) = false := by simp [State.prevCyc, hc0]
  have hti : ((s.run inp t).tally (inp t)).idle = 1 := by simp [State.tally, hc0]
  have hobs : (s.run inp t).obs (inp t) = [.poll (inp t).irq] := State.obs_dispatch hu _
  obtain ⟨n1, hn1, p1⟩ : ∃ n1 : Cnt, n1.idle = 1 ∧
      Impl (Timed ar w) (s.prevCyc inp (t + 1)) (s.run inp (t + 1)) (rest ar w (inp t).irq) n1 := by
    obtain ⟨T', ha, p⟩ := (exec_impl (pv := s.prevCyc inp t) h).advance hr (by rw [cycle_tag]; intro x; simp)
    rw [cycle_tag, hobs] at ha
    cases ha
    exact ⟨_, by rw [Cnt.idle_add, hti]; rfl, p⟩
  have hd0 : s.Dispatching inp t := (dispatching_iff ht).2 hu
  cases hn : (if (inp t).irq && ar.intEnabled then none else dataReq ar w) with
  | none =>
    obtain ⟨j0, r, k, e1, e2, e3⟩ := p1.wave hs hr (t + 1) rfl rfl (by rw [rest_body]; exact (body_noBus hn).busy _)
    have hc1 := (e3 j0 (by omega) (by omega)).1
    rw [rest_body] at e1
    obtain ⟨a', hp, rfl, hk⟩ := (body_noBus hn).leads_tag e1
    have hcond : ∀ op rd src adr, ((inp t).irq && ar.intEnabled) = false → decode w = some (.csr op rd src adr) →
        ∃ l', s.events inp (t + 1) j0 = .poll (inp (t + 1)).irq :: l' := by
      intro op rd src adr hi hw
      have hu' : (s.run inp (t + 1)).uop = u_24 := csr_uop h hi hw
      rcases j0 with _ | j0
      · rw [Nat.add_zero] at hc1
        simp [State.cyc, hu', u_24] at hc1
      · refine ⟨s.events inp (t + 1 + 1) j0, ?_⟩
        simp [State.events, State.obs, State.cyc, State.polls, hu', u_24]
    obtain ⟨hpc, hidle⟩ := body_pc hp hn hcond
    have hN : idleCycles ar w [.poll (inp t).irq, .poll (inp (t + 1)).irq] = 1 + j0 := by
      obtain ⟨σ, n', ⟨-, g, -⟩, hn'⟩ := p1.count hs hr (by rw [rest_body]; exact (body_noBus hn).busy _) e1 (fun j hj => (e2 j hj).1) hc1 hk
        (fun d σ n h => h.memReq) 0
      rw [hidle] at g
      omega
    simp only [script, hn, hN]
    refine ⟨?_, ?_⟩
    · intro j hj
      rcases j with _ | j
      · exact ⟨traffic_none hc0, by simpa using hd0⟩
      · have := e2 j (by omega)
        rw [show t + 1 + j = t + (j + 1) by omega] at this
        refine ⟨traffic_none this.1, ?_⟩
        rw [dispatching_iff (by omega)]
        simpa using this.2 (by omega)
    · intro j hj hno
      obtain ⟨j, rfl⟩ : ∃ j', j = j' + 1 := ⟨j - 1, by omega⟩
      obtain ⟨g1, g2, g3⟩ := e3 j (by omega) (fun i h1 h2 => by
        have := hno (i + 1) (by omega) (by omega)
        rwa [show t + (i + 1) = t + 1 + i by omega] at this)
      rw [show t + 1 + j = t + (j + 1) by omega] at g1 g2 g3
      refine ⟨?_, not_dispatching_of_cyc g1, fun ha => ?_⟩
      · rw [traffic_some g1 g2, fetchReq_traffic, hpc]
      · obtain ⟨n', -, g4⟩ := g3 ha
        rw [hk] at g4
        have := ret_done hs hr (fun σ n h => h.memReq) g1 ha g4
        exact (dispatching_iff (by omega)).2 this.1.uop
  | some r =>
    have hi : ((inp t).irq && ar.intEnabled) = false := by
      by_contra hi
      rw [if_pos (by simpa using hi)] at hn
      cases hn
    rw [hi] at hn
    have hdr : dataReq ar w = some r := hn
    obtain ⟨a2, ha2, hrest, hidle⟩ := rest_data hi hdr
    -- up to the answer of the access
    obtain ⟨m1, hm1, q1⟩ : ∃ m1 : Cnt, m1.idle = 1 ∧
        Impl (PreF w) (s.prevCyc inp (t + 1)) (s.run inp (t + 1)) (.bus r fun d => .ret (some d)) m1 := by
      obtain ⟨T', ha, p⟩ := (pre_mem (pv := s.prevCyc inp t) h hdr).advance hr (by intro x; simp)
      rw [hobs] at ha
      cases ha
      rw [preTree, hi] at p
      exact ⟨_, by rw [Cnt.idle_add, hti]; rfl, p⟩
    obtain ⟨j0, r', k, e1, e2, e3⟩ := q1.wave hs hr (t + 1) rfl rfl trivial
    have hc1 := (e3 j0 (by omega) (by omega)).1
    have hl : s.events inp (t + 1) j0 = [] ∧ r' = r ∧ k = fun d => .ret (some d) := by
      generalize s.events inp (t + 1) j0 = l at e1
      cases e1 with
      | refl => exact ⟨rfl, rfl, rfl⟩
      | bus e1 => cases e1
    obtain ⟨hl, rfl, rfl⟩ := hl
    have hN : dataStart w = 1 + j0 := by
      obtain ⟨σ, n', ⟨-, g⟩, hn'⟩ := q1.count hs hr trivial e1 (fun j hj => (e2 j hj).1) hc1 (x := fun d => some d) (fun d => rfl)
        (fun d σ n h => h.1) 0
      have := (g rfl).1
      omega
    -- the same access of the whole instruction
    obtain ⟨j1, r1, k1, f1, f2, f3⟩ := p1.wave hs hr (t + 1) rfl rfl (by rw [hrest]; trivial)
    have hj : j1 = j0 := by
      rcases Nat.lt_trichotomy j1 j0 with h | h | h
      · have := (f3 j1 (by omega) (by omega)).1
        rw [(e2 j1 h).1] at this
        cases this
      · exact h
      · have := (f2 j0 h).1
        rw [hc1] at this
        cases this
    subst hj
    rw [hl, hrest] at f1
    obtain ⟨rfl, rfl⟩ : r1 = r' ∧ k1 = fun d => (fetch (a2 d)).tag [.poll (inp t).irq, .bus r' d] := by
      cases f1; exact ⟨rfl, rfl⟩
    rw [script]
    simp only [hi, Bool.false_eq_true, if_false, hdr, hN]
    refine ⟨?_, ?_⟩
    · intro j hj
      rcases j with _ | j
      · exact ⟨traffic_none hc0, by simpa using hd0⟩
      · have := f2 j (by omega)
        rw [show t + 1 + j = t + (j + 1) by omega] at this
        refine ⟨traffic_none this.1, ?_⟩
        rw [dispatching_iff (by omega)]
        simpa using this.2 (by omega)
    · intro j hj hno
      obtain ⟨j, rfl⟩ : ∃ j', j = j' + 1 := ⟨j - 1, by omega⟩
      obtain ⟨g1, g2, g3⟩ := f3 j (by omega) (fun i h1 h2 => by
        have := hno (i + 1) (by omega) (by omega)
        rwa [show t + (i + 1) = t + 1 + i by omega] at this)
      rw [show t + 1 + j = t + (j + 1) by omega] at g1 g2 g3
      refine ⟨traffic_some g1 g2, not_dispatching_of_cyc g1, fun ha => ?_⟩
      obtain ⟨n', hn', g4⟩ := g3 ha
      beta_reduce at g4
      generalize hd : (inp (t + (j + 1))).datR = d at g4
      generalize ht2 : t + (j + 1) + 1 = t2 at g4 ⊢
      have hpv2 : s.prevCyc inp t2 = true := by rw [← ht2]; exact g1
      rw [← hpv2] at g4
      obtain ⟨j2, r2, k2, d1, d2, d3⟩ := g4.wave hs hr t2 rfl rfl trivial
      have hc2 := (d3 j2 (by omega) (by omega)).1
      have hk2 : r2 = fetchReq (a2 d) ∧ k2 = fun w' => .ret ((a2 d, w'), [.poll (inp t).irq, .bus r1 d] ++ [.bus (fetchReq (a2 d)) w']) := by
        generalize s.events inp t2 j2 = l at d1
        simp only [fetch, Tree.tag] at d1
        cases d1 with
        | refl => exact ⟨rfl, rfl⟩
        | bus d1 => cases d1
      obtain ⟨rfl, rfl⟩ := hk2
      have hj2 : j2 = 1 := by
        obtain ⟨σ, n'', ⟨-, g, -⟩, hn''⟩ := g4.count hs hr trivial d1 (fun j hj => (d2 j hj).1) hc2
          (x := fun w' => ((a2 d, w'), [.poll (inp t).irq, .bus r1 d] ++ [.bus (fetchReq (a2 d)) w'])) (fun d => rfl)
          (fun d σ n h => h.memReq) 0
        simp only [List.cons_append] at g
        rw [hidle] at g
        omega
      subst hj2
      refine ⟨?_, ?_⟩
      · intro i hi'
        have := d2 i hi'
        refine ⟨traffic_none this.1, ?_⟩
        rw [dispatching_iff (by omega)]
        simpa using this.2 (by omega)
      · intro i hi' hno'
        obtain ⟨b1, b2, b3⟩ := d3 i hi' hno'
        refine ⟨?_, not_dispatching_of_cyc b1, fun ha' => ?_⟩
        · rw [traffic_some b1 b2, fetchReq_traffic, ha2]
        · obtain ⟨n'', -, b4⟩ := b3 ha'
          have := ret_done hs hr (fun σ n h => h.memReq) b1 ha' b4
          exact (dispatching_iff (by omega)).2 this.1.uop

end Sentinel
