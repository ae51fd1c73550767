import Verif.Proof.Rel
/-!
# CSR writes and trap entry
-/

set_option linter.unusedSimpArgs false

namespace Sentinel
open Ucode Spec

/-- Address of a CSR in the CSR file. -/
def encOf : Csr → BitVec 4
  | .mstatus => CSR_MSTATUS
  | .mie => CSR_MIE
  | .mtvec => CSR_MTVEC
  | .mscratch => CSR_MSCRATCH
  | .mepc => CSR_MEPC
  | .mcause => CSR_MCAUSE
  | .mip => CSR_MIP

theorem low_clear (v : BitVec 32) : (v &&& ~~~3#32).extractLsb' 0 2 = 0#2 := by
  ext i hi
  have : i = 0 ∨ i = 1 := by omega
  rcases this with rfl | rfl <;> simp

theorem clear_low {v : BitVec 32} (h : v.extractLsb' 0 2 = 0#2) : v &&& ~~~3#32 = v := by
  apply BitVec.eq_of_getLsbD_eq
  intro i hi
  have h0 : v.getLsbD 0 = false := by
    have := congrArg (·.getLsbD 0) h; simpa using this
  have h1 : v.getLsbD 1 = false := by
    have := congrArg (·.getLsbD 1) h; simpa using this
  by_cases e0 : i = 0
  · subst e0; simpa using h0
  by_cases e1 : i = 1
  · subst e1; simpa using h1
  have h3 : (3#32).getLsbD i = false := by
    revert e0 e1 i hi; decide +kernel
  simp only [BitVec.getLsbD_and, BitVec.getLsbD_not, h3, hi]
  simp

theorem low_append (pc : BitVec 30) : (pc ++ 0#2 : BitVec 32).extractLsb' 0 2 = 0#2 := by
  apply BitVec.eq_of_toNat_eq
  rw [BitVec.extractLsb'_toNat, toNat_pc]
  simp

theorem extract_append_low {v : BitVec 32} (h : v.extractLsb' 0 2 = 0#2) :
    (v.extractLsb' 2 30 ++ 0#2 : BitVec 32) = v := by
  apply BitVec.eq_of_toNat_eq
  rw [toNat_pc, BitVec.extractLsb'_toNat]
  have := congrArg BitVec.toNat h
  rw [BitVec.extractLsb'_toNat] at this
  have hv := v.isLt
  simp [Nat.shiftRight_eq_div_pow] at this ⊢
  omega

namespace Rel

variable {ar : Arch} {mem : BitVec 6 → BitVec 32} {mie mpie meie : Bool} {c : CauseLatch}

/-- A CSR write by an instruction. -/
theorem csrWrite (h : Rel ar mem mie mpie meie c) (r : Csr) (v : Word) :
    Rel (ar.csrWrite v r) (memSet mem (csrRamAdr (encOf r)) (csrWriteData (encOf r) v))
      (if encOf r = CSR_MSTATUS then v.getLsbD 3 else mie)
      (if encOf r = CSR_MSTATUS then v.getLsbD 7 else mpie)
      (if encOf r = CSR_MIE then v.getLsbD 11 else meie) c := by
  obtain ⟨h1, h2, h3, h4, h5, h6, h7, h8, h9, h10, h11, h12⟩ := h
  cases r <;> constructor <;>
    simp [-BitVec.getLsbD_eq_getElem, encOf, Arch.csrWrite, memSet, csrRamAdr_inj, gpRamAdr_ne_csr,
      csrWriteData, h1, h2, h3, h4, h5, h6, h7, h8, h9, h10, h11, h12] <;>
    first
      | exact h1 | exact h2 | exact h3 | exact h4 | exact h5 | exact h6 | exact h11 | exact h12
      | exact low_clear v

end Rel

variable {α : Type} {F : α → State → Cnt → Prop} {pv : Bool} {n : Cnt} {k : Keep}
  {a b o rd rb da wd : BitVec 32} {pc : BitVec 30} {mem : BitVec 6 → BitVec 32}
  {mie mpie meie : Bool} {pa : BitVec 4} {d : DecState} {c : CauseLatch} {ar : Arch}
  {K : BitVec 32 → Tree α}

/-- `fast_epilog_csr`: the CSR is written while the instruction fetch goes on. -/
theorem w_b6 (hd : Dec k d) (hrel : Rel ar mem mie mpie meie c) (p : Word) (hp : p = pc ++ 0#2)
    {r : Csr} (hk : k.enc = encOf r)
    (h : ∀ w s, AtDispatch ({ ar.csrWrite o r with pc := p }, w) s →
      Impl F true s (K w) (n + .c0)) :
    Impl F pv ⟨u_b6, 183#8, false, false, a, b, o, pc, mem, rd, ⟨mie, mpie, meie, rb, pa⟩, d, c, da, wd⟩
      (.bus (fetchReq { ar.csrWrite o r with pc := p }) K) n := by
  subst hp
  have hrel' := (hrel.csrWrite r o).withPc (pc ++ 0#2)
  refine .busyq .c0 rfl rfl (fetchReq_eq rfl).symm (fun _ => rfl) (fun i hi => ?_) (fun i hi => ?_)
  · refine Fetching.impl ⟨?_, ?_, ?_, ?_, ?_, ?_, ?_, ?_⟩ h
    case refine_6 =>
      simpa [-BitVec.getLsbD_eq_getElem, State.step, State.ram, ramCtl, RamCtl.memNext,
        CsrState.step, CauseLatch.step, u_b6, State.csrAdr, hd.enc, hk] using hrel'
    all_goals
      simp [State.step, State.romAdr, State.test, testOut, rawTest, seqAdr, u_b6, hi, rom_00,
        pcNext, DecState.step, MapState.step, ExcState.step, State.doDecode]
  · refine h _ _ ⟨?_, ?_, ?_, ?_, ?_, ?_, ?_, ?_⟩
    case refine_6 =>
      simpa [-BitVec.getLsbD_eq_getElem, State.step, State.ram, ramCtl, RamCtl.memNext,
        CsrState.step, CauseLatch.step, u_b6, State.csrAdr, hd.enc, hk] using hrel'
    case refine_7 =>
      have hx := hrel'.reg (insnRs1 i.datR)
      rw [← hx]
      simp [State.step, State.ram, ramCtl, RamCtl.rdataNext, u_b6, State.regRAdr, gpRamAdr_ne_csr,
        memSet]
    case refine_8 =>
      exact ⟨d, hd.f1, hd.f2, by simp [State.step, State.doDecode, u_b6, hi]⟩
    all_goals
      simp [State.step, State.romAdr, State.test, testOut, rawTest, seqAdr, u_b6, hi, rom_01, pcNext]

/-- `save_pc`: trap entry. -/
theorem q_trap {c0 : CauseLatch} {int : Bool} (hd : Dec k d) (hrel : Rel ar mem mie mpie meie c0)
    (hpc : ar.pc = pc ++ 0#2) (hi : c.interrupt = (ar.irqTaken || int))
    (h : ∀ w s, AtDispatch (ar.trap .asBuilt int c.cause, w) s → Impl F true s (K w) (n + .stk 4)) :
    Impl F pv ⟨u_f0, 241#8, false, false, a, b, o, pc, mem, rd, ⟨mie, mpie, meie, rb, pa⟩, d, c, da, wd⟩
      (.bus (fetchReq (ar.trap .asBuilt int c.cause)) K) n := by
  obtain ⟨h1, h2, h3, h4, h5, h6, h7, h8, h9, h10, h11, h12⟩ := hrel
  have htv : csrView 5#4 rb (mem (csrRamAdr 5#4)) = ar.mtvec := by simpa [csrView] using h3
  have hw : (0#32 + c.word : Word) = (ar.trap .asBuilt int c.cause).mcause := by
    simp [CauseLatch.word, Arch.trap, hi, Cfg.asBuilt, Bool.or_comm]
  have hpc' : (ar.trap .asBuilt int c.cause).pc = (0#32 + ar.mtvec : Word).extractLsb' 2 30 ++ 0#2 := by
    simp [Arch.trap, extract_append_low h11]
  refine q_f0 hd fun d hd => ?_
  refine q_f1 hd fun d hd => ?_
  refine q_f2 hd fun d hd => ?_
  refine q_f3 hd fun d hd => ?_
  simp only [show rbNext 5#4 mie mpie meie false rb = rb from rfl, htv, hw]
  refine f_f4 hd (fetchReq_eq hpc') fun d rd hd => ?_
  refine w_00 hd ?_ hpc' h
  constructor <;>
    simp [-BitVec.getLsbD_eq_getElem, memSet, csrRamAdr_inj, gpRamAdr_ne_csr, csrWriteData,
      Arch.trap, h1, h4, h7, h9, h11]
  · exact h2
  · exact h3
  · exact h4
  · rw [hpc]; exact clear_low (low_append pc)
  · exact hi
  · rw [hpc]; exact low_append pc

end Sentinel
