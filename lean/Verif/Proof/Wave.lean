import Verif.Spec.Leak
import Verif.Proof.CsrSecond
import Verif.Props.Bus
/-!
# When requests are on the bus
-/

set_option linter.unusedSimpArgs false

namespace Sentinel
open Ucode Spec

/-- A tree that comes to a bus access, whatever the interrupt line does. -/
def Tree.Busy {α : Type} : Tree α → Prop
  | .ret _ => False
  | .poll k => ∀ b, Tree.Busy (k b)
  | .bus _ _ => True

/-- A tree is left at a bus access, with the request-free cycles counted. -/
theorem Impl.wave {α : Type} {F : α → State → Cnt → Prop} {s : State} {inp : Nat → Input} (hs : AfterReset s) (hr : s.RegisteredAck inp)
    {pv : Bool} {σ : State} {T : Tree α} {n : Cnt} (p : Impl F pv σ T n) :
    ∀ t, s.prevCyc inp t = pv → s.run inp t = σ → Tree.Busy T →
    ∃ j0 r k, Leads T (s.events inp t j0) (.bus r k) ∧
      (∀ j < j0, (s.run inp (t + j)).cyc = false ∧ (0 < n.idle → (s.run inp (t + j)).uop ≠ u_01)) ∧
      ∀ j, j0 ≤ j → (∀ i, j0 ≤ i → i < j → (inp (t + i)).ack = false) →
        (s.run inp (t + j)).cyc = true ∧ (s.run inp (t + j)).req = r ∧
        ((inp (t + j)).ack = true → ∃ n', n'.idle = n.idle + j0 ∧ Impl F true (s.run inp (t + j + 1)) (k (inp (t + j)).datR) n') := by
  induction p with
  | done hf => intro t _ _ hb; exact hb.elim
  | @quiet pv σ T n a b h ih =>
    intro t hp hσ hb
    obtain ⟨j0, r, k, e1, e2, e3⟩ := ih (inp t) (t + 1) (by simp [State.prevCyc, hσ, a]) (by simp [State.run, hσ]) hb
    have hti : (σ.tally (inp t)).idle = 1 := by simp [State.tally, a]
    refine ⟨j0 + 1, r, k, ?_, ?_, ?_⟩
    · have : (s.run inp t).obs (inp t) = [] := by simp [State.obs, hσ, a, b]
      simpa [State.events, this] using e1
    · intro j hj
      rcases j with _ | j
      · refine ⟨by rw [Nat.add_zero, hσ]; exact a, fun _ => ?_⟩
        rw [Nat.add_zero, hσ]
        intro hu
        simp [State.polls, hu, u_01] at b
      · have := e2 j (by omega)
        rw [show t + 1 + j = t + (j + 1) by omega] at this
        exact ⟨this.1, fun hn => this.2 (by rw [Cnt.idle_add]; omega)⟩
    · intro j hj hno
      obtain ⟨j, rfl⟩ : ∃ j', j = j' + 1 := ⟨j - 1, by omega⟩
      have := e3 j (by omega) (fun i h1 h2 => by
        have := hno (i + 1) (by omega) (by omega)
        rwa [show t + (i + 1) = t + 1 + i by omega] at this)
      rw [show t + 1 + j = t + (j + 1) by omega] at this
      refine ⟨this.1, this.2.1, fun ha => ?_⟩
      obtain ⟨n', hn', hi⟩ := this.2.2 ha
      exact ⟨n', by rw [hn', Cnt.idle_add, hti]; omega, hi⟩
  | @poll pv σ k n a b c h ih =>
    intro t hp hσ hb
    obtain ⟨j0, r, k', e1, e2, e3⟩ := ih (inp t) (t + 1) (by simp [State.prevCyc, hσ, a]) (by simp [State.run, hσ]) (hb _)
    have hti : (σ.tally (inp t)).idle = 1 := by simp [State.tally, a]
    refine ⟨j0 + 1, r, k', ?_, ?_, ?_⟩
    · have : (s.run inp t).obs (inp t) = [.poll (inp t).irq] := by simp [State.obs, hσ, a, b]
      simp only [State.events, this, List.singleton_append]
      exact .poll e1
    · intro j hj
      rcases j with _ | j
      · refine ⟨by rw [Nat.add_zero, hσ]; exact a, fun hn => ?_⟩
        rw [Nat.add_zero, hσ]
        intro hu
        have := c hu
        omega
      · have := e2 j (by omega)
        rw [show t + 1 + j = t + (j + 1) by omega] at this
        exact ⟨this.1, fun hn => this.2 (by rw [Cnt.idle_add]; omega)⟩
    · intro j hj hno
      obtain ⟨j, rfl⟩ : ∃ j', j = j' + 1 := ⟨j - 1, by omega⟩
      have := e3 j (by omega) (fun i h1 h2 => by
        have := hno (i + 1) (by omega) (by omega)
        rwa [show t + (i + 1) = t + 1 + i by omega] at this)
      rw [show t + 1 + j = t + (j + 1) by omega] at this
      refine ⟨this.1, this.2.1, fun ha => ?_⟩
      obtain ⟨n', hn', hi⟩ := this.2.2 ha
      exact ⟨n', by rw [hn', Cnt.idle_add, hti]; omega, hi⟩
  | @first σ r k n a b c h ih =>
    intro t hp hσ hb
    have hack : (inp t).ack = false := hr.at t (by rw [hσ]; exact a) hp
    obtain ⟨j0, r', k', e1, e2, e3⟩ := ih (inp t) hack (t + 1) (by simp [State.prevCyc, hσ, a]) (by simp [State.run, hσ]) trivial
    have hti : (σ.tally (inp t)).idle = 0 := by simp [State.tally, a]
    have hc1 := (C23_stable hs inp (t := t) (by rw [hσ]; exact a) hack).1
    have hj0 : j0 = 0 := by
      by_contra hne
      have := (e2 0 (by omega)).1
      rw [Nat.add_zero, hc1] at this
      cases this
    subst hj0
    cases e1
    refine ⟨0, r, k, .refl _, fun j hj => by omega, ?_⟩
    intro j _ hno
    rcases j with _ | j
    · rw [Nat.add_zero, hσ]
      exact ⟨a, c, fun ha => by rw [hack] at ha; cases ha⟩
    · have := e3 j (by omega) (fun i h1 h2 => by
        have := hno (i + 1) (by omega) (by omega)
        rwa [show t + (i + 1) = t + 1 + i by omega] at this)
      rw [show t + 1 + j = t + (j + 1) by omega] at this
      refine ⟨this.1, this.2.1, fun ha => ?_⟩
      obtain ⟨n', hn', hi⟩ := this.2.2 ha
      exact ⟨n', by rw [hn', Cnt.idle_add, hti], hi⟩
  | @busy pv σ r k n a b c h1 h2 ih1 ih2 =>
    intro t hp hσ hb
    have hti : (σ.tally (inp t)).idle = 0 := by simp [State.tally, a]
    refine ⟨0, r, k, .refl _, fun j hj => by omega, ?_⟩
    intro j _ hno
    rcases j with _ | j
    · rw [Nat.add_zero, hσ]
      refine ⟨a, c, fun ha => ⟨n + σ.tally (inp t), by rw [Cnt.idle_add, hti], ?_⟩⟩
      have := h2 (inp t) ha
      simpa [State.run, hσ] using this
    · have hack : (inp t).ack = false := hno 0 (by omega) (by omega)
      obtain ⟨j0, r', k', e1, e2, e3⟩ := ih1 (inp t) hack (t + 1) (by simp [State.prevCyc, hσ, a]) (by simp [State.run, hσ]) trivial
      have hc1 := (C23_stable hs inp (t := t) (by rw [hσ]; exact a) hack).1
      have hj0 : j0 = 0 := by
        by_contra hne
        have := (e2 0 (by omega)).1
        rw [Nat.add_zero, hc1] at this
        cases this
      subst hj0
      cases e1
      have := e3 j (by omega) (fun i h1 h2 => by
        have := hno (i + 1) (by omega) (by omega)
        rwa [show t + (i + 1) = t + 1 + i by omega] at this)
      rw [show t + 1 + j = t + (j + 1) by omega] at this
      refine ⟨this.1, this.2.1, fun ha => ?_⟩
      obtain ⟨n', hn', hi⟩ := this.2.2 ha
      exact ⟨n', by rw [hn', Cnt.idle_add, hti], hi⟩
  | @wait pv σ r k n I hI hc ht hno hyes ih =>
    intro t hp hσ hb
    refine ⟨0, r, k, .refl _, fun j hj => by omega, ?_⟩
    intro j _ hj
    have hIj : ∀ j, (∀ i, i < j → (inp (t + i)).ack = false) → I (s.run inp (t + j)) := by
      intro j
      induction j with
      | zero => intro _; rw [Nat.add_zero, hσ]; exact hI
      | succ j ihj =>
        intro hj
        exact hno _ (inp (t + j)) (ihj fun i hi => hj i (by omega)) (hj j (by omega))
    have hIj := hIj j (fun i hi => hj i (by omega) hi)
    obtain ⟨c1, c2, c3⟩ := hc _ hIj
    exact ⟨c1, c3, fun ha => ⟨n, by omega, hyes _ (inp (t + j)) hIj ha⟩⟩


/-! ## Up to the data access -/

variable {ar : Arch} {w : Word} {s : State} {pv : Bool}

/-- An instruction up to the answer of its data access. -/
def preTree (ar : Arch) (r : Req) (irq : Bool) : Tree (Option Word) :=
  if irq && ar.intEnabled then .bus (fetchReq (ar.takeInterrupt .asBuilt)) fun _ => .ret none else .bus r fun d => .ret (some d)

/-- The number of cycles without a request up to the answer. -/
def PreF (w : Word) (x : Option Word) (σ : State) (n : Cnt) : Prop :=
  σ.uop.memReq = false ∧ (x.isSome = true → n.idle = dataStart w ∧ σ.uop ≠ u_01)

theorem pre_go {e : BitVec 8} {u : UInsn} {r : Req} (h : AtDispatch (ar, w) s) (hgo : Go w e) (hu : rom e = u)
    (H : ∀ d0 b o mem mie mpie meie rb pa d c da wd pc,
        Dec (keepOf w d0) d → Rel ar mem mie mpie meie c → ar.pc = pc ++ 0#2 →
        Impl (PreF w) false ⟨u, e + 1#8, false, false, ar.reg (insnRs1 w), b, o, pc, mem,
          ar.reg (insnRs2 w), ⟨mie, mpie, meie, rb, pa⟩, d, c, da, wd⟩ (.bus r fun d => .ret (some d)) (0 + 1)) :
    Impl (PreF w) pv s (.poll (preTree ar r)) 0 := by
  obtain ⟨g1, g2, g3⟩ := hgo
  refine dispatch h rfl ?_ ?_ ?_ ?_
  · intro hi
    simp only [preTree, hi, Bool.true_and, if_true]
    exact ⟨_, rfl, fun d _ hs => .done ⟨by rw [hs.uop]; rfl, fun h => by cases h⟩⟩
  · intro irq _ hv; rw [g1] at hv; cases hv
  · intro irq hirq _ _ d0 b o mem mie mpie meie rb pa d c da wd pc hd hrel hpc
    rw [preTree, hirq, g3, hu]
    exact H d0 b o mem mie mpie meie rb pa d c da wd pc hd hrel hpc
  · intro irq _ _ hc; rw [g2] at hc; cases hc

theorem pre_load {op rd rs1 imm} (h : AtDispatch (ar, w) s) (hdec : decode w = some (.load op rd rs1 imm))
    (ha : aligned (ar.reg rs1 + imm.signExtend 32) op.size = true) :
    Impl (PreF w) pv s (.poll (preTree ar (readReq (ar.reg rs1 + imm.signExtend 32) op.size))) 0 := by
  obtain ⟨hg, h1, h2, h3⟩ := decoded hdec
  have e : ∀ d0, ar.reg (insnRs1 w) + (keepOf w d0).imm = ar.reg rs1 + imm.signExtend 32 := by
    intro d0; simp only [keepOf, h3, h2]
  cases op <;> simp only [LdOp.size] at ha ⊢
  case lb =>
    refine pre_go h hg rom_08 fun d0 b o mem mie mpie meie rb pa d c da wd pc hd hrel hpc => ?_
    rw [← e d0] at ha ⊢
    refine q_08 hd fun d hd => q_0e hd fun d hd => q_0f hd fun d hd => w_10 hd ?_ fun x o d hd => .done ⟨rfl, fun _ => ⟨?_, fun e => by cases e⟩⟩
    · rw [show MemSel.byte = selOfSize 1 from rfl, wbSel_eq 1 (by simp) _ ha]; rfl
    · simp [dataStart, hdec]
  case lbu =>
    refine pre_go h hg rom_0c fun d0 b o mem mie mpie meie rb pa d c da wd pc hd hrel hpc => ?_
    rw [← e d0] at ha ⊢
    refine q_0c hd fun d hd => q_1a hd fun d hd => q_1b hd fun d hd => w_1c hd ?_ fun x o d hd => .done ⟨rfl, fun _ => ⟨?_, fun e => by cases e⟩⟩
    · rw [show MemSel.byte = selOfSize 1 from rfl, wbSel_eq 1 (by simp) _ ha]; rfl
    · simp [dataStart, hdec]
  case lh =>
    refine pre_go h hg rom_09 fun d0 b o mem mie mpie meie rb pa d c da wd pc hd hrel hpc => ?_
    rw [← e d0] at ha ⊢
    refine q_09 hd fun d hd => q_12 hd fun d hd => q_13_f hd (by rw [dataMisaligned_hword, ha]; rfl) fun d hd =>
      w_14 hd ?_ fun x o d hd => .done ⟨rfl, fun _ => ⟨?_, fun e => by cases e⟩⟩
    · rw [show MemSel.hword = selOfSize 2 from rfl, wbSel_eq 2 (by simp) _ ha]; rfl
    · simp [dataStart, hdec]
  case lhu =>
    refine pre_go h hg rom_0d fun d0 b o mem mie mpie meie rb pa d c da wd pc hd hrel hpc => ?_
    rw [← e d0] at ha ⊢
    refine q_0d hd fun d hd => q_1e hd fun d hd => q_1f_f hd (by rw [dataMisaligned_hword, ha]; rfl) fun d hd =>
      w_20 hd ?_ fun x o d hd => .done ⟨rfl, fun _ => ⟨?_, fun e => by cases e⟩⟩
    · rw [show MemSel.hword = selOfSize 2 from rfl, wbSel_eq 2 (by simp) _ ha]; rfl
    · simp [dataStart, hdec]
  case lw =>
    refine pre_go h hg rom_0a fun d0 b o mem mie mpie meie rb pa d c da wd pc hd hrel hpc => ?_
    rw [← e d0] at ha ⊢
    refine q_0a hd fun d hd => q_16 hd fun d hd => q_17_f hd (by rw [dataMisaligned_word, ha]; rfl) fun d hd =>
      w_18 hd ?_ fun x o d hd => .done ⟨rfl, fun _ => ⟨?_, fun e => by cases e⟩⟩
    · rw [show MemSel.word = selOfSize 4 from rfl, wbSel_eq 4 (by simp) _ ha]; rfl
    · simp [dataStart, hdec]

theorem pre_store {op rs1 rs2 imm} (h : AtDispatch (ar, w) s) (hdec : decode w = some (.store op rs1 rs2 imm))
    (ha : aligned (ar.reg rs1 + imm.signExtend 32) op.size = true) :
    Impl (PreF w) pv s (.poll (preTree ar (writeReq (ar.reg rs1 + imm.signExtend 32) op.size (ar.reg rs2)))) 0 := by
  obtain ⟨hg, h1, h2, h3⟩ := decoded hdec
  have e : ∀ d0, ar.reg (insnRs1 w) + (keepOf w d0).imm = ar.reg rs1 + imm.signExtend 32 := by
    intro d0; simp only [keepOf, h3, h1]
  have e2 : ∀ d0, (keepOf w d0).srcB = rs2 := by intro d0; simp only [keepOf, h2]
  cases op <;> simp only [StOp.size] at ha ⊢
  case sb =>
    refine pre_go h hg rom_80 fun d0 b o mem mie mpie meie rb pa d c da wd pc hd hrel hpc => ?_
    rw [← e d0] at ha ⊢
    rw [← e2 d0]
    refine q_80 hd fun d hd => q_9d hd fun d hd => q_9e hd fun d hd => q_9f hd fun d hd => w_a0 hd ?_ fun x o d hd => .done ⟨rfl, fun _ => ⟨?_, fun e => by cases e⟩⟩
    · rw [show MemSel.byte = selOfSize 1 from rfl, wbSel_eq 1 (by simp) _ ha, hrel.reg,
        BitVec.zero_add, writeDataAlign_eq 1 (by simp) _ _ ha]; rfl
    · simp [dataStart, hdec]
  case sh =>
    refine pre_go h hg rom_81 fun d0 b o mem mie mpie meie rb pa d c da wd pc hd hrel hpc => ?_
    rw [← e d0] at ha ⊢
    rw [← e2 d0]
    refine q_81 hd fun d hd => q_a2 hd fun d hd => q_a3_f hd (by rw [dataMisaligned_hword, ha]; rfl) fun d hd =>
      q_a4 hd fun d hd => w_a5 hd ?_ fun x o d hd => .done ⟨rfl, fun _ => ⟨?_, fun e => by cases e⟩⟩
    · rw [show MemSel.hword = selOfSize 2 from rfl, wbSel_eq 2 (by simp) _ ha, hrel.reg,
        BitVec.zero_add, writeDataAlign_eq 2 (by simp) _ _ ha]; rfl
    · simp [dataStart, hdec]
  case sw =>
    refine pre_go h hg rom_82 fun d0 b o mem mie mpie meie rb pa d c da wd pc hd hrel hpc => ?_
    rw [← e d0] at ha ⊢
    rw [← e2 d0]
    refine q_82 hd fun d hd => q_a7 hd fun d hd => q_a8_f hd (by rw [dataMisaligned_word, ha]; rfl) fun d hd =>
      q_a9 hd fun d hd => w_aa hd ?_ fun x o d hd => .done ⟨rfl, fun _ => ⟨?_, fun e => by cases e⟩⟩
    · rw [show MemSel.word = selOfSize 4 from rfl, wbSel_eq 4 (by simp) _ ha, hrel.reg,
        BitVec.zero_add, writeDataAlign_eq 4 (by simp) _ _ ha]; rfl
    · simp [dataStart, hdec]

theorem pre_mem {r : Req} (h : AtDispatch (ar, w) s) (hr : dataReq ar w = some r) :
    Impl (PreF w) pv s (.poll (preTree ar r)) 0 := by
  unfold dataReq at hr
  split at hr
  · rename_i op rd rs1 imm hdec
    split at hr
    · rename_i ha; cases hr; exact pre_load h hdec ha
    · cases hr
  · rename_i op rs1 rs2 imm hdec
    split at hr
    · rename_i ha; cases hr; exact pre_store h hdec ha
    · cases hr
  · cases hr

end Sentinel
