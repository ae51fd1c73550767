import Verif.Props.Mem
import Verif.Props.Trace
/-!
# C25: every request, answered or not
-/

set_option linter.unusedSimpArgs false

namespace Sentinel
open Ucode Spec

variable {s : State} {inp : Nat → Input} {t n : Nat} {w : Word}

/-- A computation that makes no bus request. -/
def NoBus {α : Type} : Tree α → Prop
  | .ret _ => True
  | .poll k => ∀ b, NoBus (k b)
  | .bus _ _ => False

theorem NoBus.leads {T : Tree Arch} (hT : NoBus T) {l r k} (h : Leads (T.bind fetch) l (.bus r k)) :
    ∃ a, r = fetchReq a := by
  induction T generalizing l with
  | ret x =>
    simp only [Tree.bind, fetch] at h
    cases h with
    | refl => exact ⟨x, rfl⟩
    | bus h => cases h
  | poll k' ih =>
    simp only [Tree.bind] at h
    cases h with
    | poll h => exact ih _ (hT _) h
  | bus => cases hT

theorem noBus_execCsr (a : Arch) (op : CsrOp) (rd : Reg) (src : CsrSrc) (c : Csr) : NoBus (execCsr a op rd src c) := by
  unfold execCsr
  simp only
  split
  · intro b
    split
    · intro _; trivial
    · trivial
  · trivial

/-- The request of an instruction other than the fetch of the next. -/
def IsAccess (a : Arch) (w : Word) (r : Req) : Prop :=
  (∃ op rd rs1 imm, decode w = some (.load op rd rs1 imm) ∧
    (a.reg rs1 + imm.signExtend 32).toNat % op.size = 0 ∧ r = readReq (a.reg rs1 + imm.signExtend 32) op.size) ∨
  (∃ op rs1 rs2 imm, decode w = some (.store op rs1 rs2 imm) ∧
    (a.reg rs1 + imm.signExtend 32).toNat % op.size = 0 ∧ r = writeReq (a.reg rs1 + imm.signExtend 32) op.size (a.reg rs2))

theorem cycle_leads {cfg : Cfg} {a : Arch} {b : Bool} {l : List Event} {r : Req} {k}
    (h : Leads (cycle cfg (a, w)) (.poll b :: l) (.bus r k)) :
    (∃ a, r = fetchReq a) ∨ ((b && a.intEnabled) = false ∧ IsAccess a w r) := by
  simp only [cycle, exec, Tree.bind] at h
  cases h with
  | poll h =>
    simp only at h
    by_cases hb : (b && a.intEnabled) = true
    · rw [if_pos hb] at h
      exact .inl (NoBus.leads (T := .ret _) trivial h)
    rw [if_neg hb] at h
    have hb' : (b && a.intEnabled) = false := by simpa using hb
    cases hw : decode w with
    | none =>
      rw [hw] at h
      exact .inl (NoBus.leads (T := .ret _) trivial h)
    | some ins =>
      rw [hw] at h
      simp only at h
      by_cases hc : NoBus (execInstr cfg a ins)
      · exact .inl (NoBus.leads hc h)
      revert h hc
      cases ins with
      | load op rd rs1 imm =>
        intro h hc
        simp only [execInstr, aligned, decide_eq_true_eq] at h
        split at h
        · next ha =>
          simp only [Tree.bind] at h
          cases h with
          | refl => exact .inr ⟨hb', .inl ⟨_, _, _, _, hw, ha, rfl⟩⟩
          | bus h => exact .inl (NoBus.leads (T := .ret _) trivial h)
        · exact .inl (NoBus.leads (T := .ret _) trivial h)
      | store op rs1 rs2 imm =>
        intro h hc
        simp only [execInstr, aligned, decide_eq_true_eq] at h
        split at h
        · next ha =>
          simp only [Tree.bind] at h
          cases h with
          | refl => exact .inr ⟨hb', .inr ⟨_, _, _, _, hw, ha, rfl⟩⟩
          | bus h => exact .inl (NoBus.leads (T := .ret _) trivial h)
        · exact .inl (NoBus.leads (T := .ret _) trivial h)
      | lui | auipc | opImm | op | fence | wfi | mret | ecall | ebreak => intro _ hc; exact absurd trivial hc
      | jal | jalr => intro _ hc; exfalso; apply hc; simp only [execInstr]; split <;> trivial
      | branch => intro _ hc; exfalso; apply hc; simp only [execInstr]; split <;> (try split) <;> trivial
      | csr op rd src adr =>
        intro _ hc; exfalso; apply hc
        simp only [execInstr]
        intro irq
        simp only
        split
        · trivial
        · split
          · trivial
          · split <;> trivial
          · exact noBus_execCsr _ _ _ _ _

theorem Impl.cyc_bus {α : Type} {F : α → State → Cnt → Prop} {pv σ T c} (h : Impl F pv σ T c) (hc : σ.cyc = true) :
    (∃ x, T = .ret x ∧ F x σ c) ∨ ∃ k, T = .bus σ.req k := by
  cases h with
  | done h => exact .inl ⟨_, rfl, h⟩
  | quiet a => rw [hc] at a; cases a
  | poll a => rw [hc] at a; cases a
  | first _ _ c _ => subst c; exact .inr ⟨_, rfl⟩
  | busy _ _ c _ _ => subst c; exact .inr ⟨_, rfl⟩
  | wait I hI hw _ _ _ => have := (hw _ hI).2.2; subst this; exact .inr ⟨_, rfl⟩

/-- **C25** (requests): whatever request is on the bus in a cycle `n`, answered or not, let `w` be the instruction dispatched last, in cycle `t`.
The request is a read of a whole word, the fetch of the next instruction; or no interrupt was taken, `w` is a load or a store at an aligned
address, and it is the read or the write of this load or store.  So writes are only made by stores. -/
theorem C25_request (h : AfterReset s) (hr : s.RegisteredAck inp) (hd : s.Dispatches inp t w) (ht : t < n)
    (hno : ∀ k, t < k → k ≤ n → ¬ s.Dispatching inp k) (hc : (s.run inp n).cyc = true) :
    let a := (s.run inp t).arch
    (∃ adr, (s.run inp n).req = ⟨adr, 0xF, false, 0⟩) ∨
    (¬ s.IrqTaken inp t ∧
      ((∃ op rd rs1 imm, decode w = some (.load op rd rs1 imm) ∧
          (a.reg rs1 + imm.signExtend 32).toNat % op.size = 0 ∧
          (s.run inp n).req = readReq (a.reg rs1 + imm.signExtend 32) op.size) ∨
        ∃ op rs1 rs2 imm, decode w = some (.store op rs1 rs2 imm) ∧
          (a.reg rs1 + imm.signExtend 32).toNat % op.size = 0 ∧
          (s.run inp n).req = writeReq (a.reg rs1 + imm.signExtend 32) op.size (a.reg rs2))) := by
  intro a
  have h0 := hd.at h hr
  obtain ⟨m, rfl⟩ := Nat.exists_eq_add_of_lt ht
  rw [Nat.add_assoc] at *
  rcases (cycle_impl (pv := s.prevCyc inp t) h0).partway hr (m + 1) with ⟨k, x, hk, hp, hx⟩ | ⟨T', hi, hl⟩
  · exfalso
    rcases Nat.eq_zero_or_pos k with rfl | hk0
    · rw [State.events] at hp
      revert hp
      simp only [cycle, exec, Tree.bind]
      intro hp; cases hp
    · refine hno (t + k) (by omega) (by omega) ⟨by have := hd.1.1; omega, ?_⟩
      rw [rom_01]; exact AtDispatch.uop hx
  · have hev : s.events inp t (m + 1) = .poll (inp t).irq :: s.events inp (t + 1) m := by
      rw [State.events, State.obs_dispatch h0.uop]; rfl
    rcases hi.cyc_bus hc with ⟨x, -, hx⟩ | ⟨k, rfl⟩
    · exfalso
      have := AtDispatch.uop hx
      rw [State.cyc, this] at hc
      simp [u_01] at hc
    rw [hev] at hl
    rcases cycle_leads hl with ⟨a', e⟩ | ⟨hb, hacc⟩
    · exact .inl ⟨_, e⟩
    · refine .inr ⟨?_, hacc⟩
      intro hq
      simp [Arch.intEnabled, hq.1] at hb
      have := hb hq.2.1
      rw [hq.2.2] at this; cases this

/-- **C25** (first request): before the first instruction is dispatched the only request is the fetch of the word at 0. -/
theorem C25_first (h : AfterReset s) (hr : s.RegisteredAck inp) (hno : ∀ k ≤ n, ¬ s.Dispatching inp k)
    (hc : (s.run inp n).cyc = true) : 5 ≤ n ∧ (s.run inp n).req = ⟨0, 0xF, false, 0⟩ := by
  have hs : ∃ u mem rd, s = State.resetRegs u mem rd := by
    rcases h with rfl | ⟨σ, en, i, -, rfl⟩ <;> exact ⟨_, _, _, rfl⟩
  have h5 : 5 ≤ n := by
    by_contra hn
    rw [(boot_run hs inp).1 n (by omega)] at hc; cases hc
  refine ⟨h5, ?_⟩
  obtain ⟨u, mem, rd, rfl, hm⟩ := h.eq
  obtain ⟨h1, h2, h3, h4, h5', h6, h7⟩ := boot_first u mem rd (inp 0)
  have hi := boot_impl (pv := (State.resetRegs u mem rd).prevCyc inp 1) h1 h2 h3 h4 h5' h6 h7
    (RamOk.step (s := State.resetRegs u mem rd) hm _)
  obtain ⟨m, rfl⟩ : ∃ m, n = 1 + m := ⟨n - 1, by omega⟩
  have hi : Impl (fun p s n => AtDispatch p s ∧ n.idle = 4) ((State.resetRegs u mem rd).prevCyc inp 1)
    ((State.resetRegs u mem rd).run inp 1) _ 0 := hi
  rcases hi.partway hr m with ⟨k, x, hk, hp, hx⟩ | ⟨T', hi, hl⟩
  · exact absurd ⟨by omega, by rw [rom_01]; exact AtDispatch.uop hx.1⟩ (hno (1 + k) (by omega))
  · rcases hi.cyc_bus hc with ⟨x, -, hx⟩ | ⟨k, rfl⟩
    · exfalso
      have := AtDispatch.uop hx.1
      rw [State.cyc, this] at hc
      simp [u_01] at hc
    · simp only [fetch] at hl
      generalize hR : State.req _ = R at hl ⊢
      generalize State.events _ _ _ _ = E at hl
      cases hl with
      | refl => simp only [fetchReq, bootArch]; rfl
      | bus hl => cases hl

/-- The store of `sw x0, 0(x0)`, dispatched in cycle 9, stays on the bus from cycle 14 on if it is not answered. -/
example : ∃ inp : Nat → Input, powerOn.RegisteredAck inp ∧ powerOn.Dispatches inp 9 0x00002023#32 ∧
    (∀ k, 9 < k → k ≤ 20 → ¬ powerOn.Dispatching inp k) ∧ (powerOn.run inp 20).cyc = true ∧ (powerOn.run inp 20).req.we = true := by
  refine ⟨fun n => ⟨0x00002023, n = 8, false⟩, ?_, ⟨⟨by omega, by decide +kernel⟩, [], ⟨0, 0xF, false, 0⟩, by decide +kernel⟩, ?_,
    by decide +kernel, by decide +kernel⟩
  · intro t hf
    by_cases ht : t = 8
    · subst ht
      have := hf.2 7 rfl
      revert this
      decide +kernel
    · simp [ht]
  · intro k h1 h2 hd
    have : ∀ j : _root_.Fin 11, (powerOn.run (fun n => ⟨0x00002023, n = 8, false⟩) (10 + j.val)).uop ≠ rom 1#8 := by decide +kernel
    have := this ⟨k - 10, by omega⟩
    rw [show 10 + (k - 10) = k by omega] at this
    exact this hd.2

end Sentinel
