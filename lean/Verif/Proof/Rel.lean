import Verif.Proof.Steps
import Verif.Spec.Isa
/-!
# Relation between the core and the instruction-set state; instruction fetch
-/

set_option linter.unusedSimpArgs false

namespace Sentinel
open Ucode Spec

/-- The registers of the core hold those of the instruction-set state (all but the program
counter). -/
structure Rel (ar : Arch) (mem : BitVec 6 → BitVec 32) (mie mpie meie : Bool) (c : CauseLatch) :
    Prop where
  x : ∀ r, mem (gpRamAdr r) = ar.x r
  x0 : ar.x 0 = 0
  mtvec : mem (csrRamAdr CSR_MTVEC) = ar.mtvec
  mscratch : mem (csrRamAdr CSR_MSCRATCH) = ar.mscratch
  mepc : mem (csrRamAdr CSR_MEPC) = ar.mepc
  mcause : mem (csrRamAdr CSR_MCAUSE) = ar.mcause
  mie : mie = ar.mie
  mpie : mpie = ar.mpie
  meie : meie = ar.meie
  irq : c.interrupt = ar.irqTaken
  tv : ar.mtvec.extractLsb' 0 2 = 0#2
  ep : ar.mepc.extractLsb' 0 2 = 0#2

/-- The core is about to execute the fetched word `aw.2` in the instruction-set state `aw.1`. -/
structure AtDispatch (aw : Arch × Word) (s : State) : Prop where
  uop : s.uop = u_01
  nextAdr : s.nextAdr = 2#8
  rstGuard : s.rstGuard = false
  memGuard : s.memGuard = false
  pc : aw.1.pc = s.pc ++ 0#2
  rel : Rel aw.1 s.mem s.csr.mie s.csr.mpie s.csr.meie s.cause
  rdata : s.rdata = aw.1.reg (insnRs1 aw.2)
  dec : ∃ d0 : DecState, d0.map.fwd = false ∧ d0.exc.fwd = false ∧ s.dec = d0.step true aw.2

namespace Rel

variable {ar : Arch} {mem : BitVec 6 → BitVec 32} {mie mpie meie : Bool} {c : CauseLatch}

theorem reg (h : Rel ar mem mie mpie meie c) (r : Reg) : mem (gpRamAdr r) = ar.reg r := by
  unfold Arch.reg
  split
  · next hr => subst hr; rw [h.x]; exact h.x0
  · exact h.x r

theorem withPc (h : Rel ar mem mie mpie meie c) (p : Word) :
    Rel { ar with pc := p } mem mie mpie meie c := ⟨h.1, h.2, h.3, h.4, h.5, h.6, h.7, h.8, h.9,
      h.10, h.11, h.12⟩

theorem next (h : Rel ar mem mie mpie meie c) : Rel ar.next mem mie mpie meie c := h.withPc _

theorem cause (h : Rel ar mem mie mpie meie c) (n : BitVec 31) :
    Rel ar mem mie mpie meie { c with cause := n } := ⟨h.1, h.2, h.3, h.4, h.5, h.6, h.7, h.8, h.9,
      h.10, h.11, h.12⟩

theorem setReg (h : Rel ar mem mie mpie meie c) (r : Reg) (v : Word) :
    Rel (ar.setReg r v) (gpSet mem r v) mie mpie meie c := by
  unfold Arch.setReg gpSet
  by_cases hr : r = 0#5
  · simp [hr]; exact h
  · simp [hr]
    refine ⟨?_, ?_, ?_, ?_, ?_, ?_, h.7, h.8, h.9, h.10, h.11, h.12⟩
    · intro q
      simp only [memSet, gpRamAdr_inj]
      split
      · rfl
      · exact h.x q
    · exact (if_neg (fun e => hr e.symm)).trans h.x0
    all_goals simp only [memSet, csrRamAdr_ne_gp, if_false]
    · exact h.mtvec
    · exact h.mscratch
    · exact h.mepc
    · exact h.mcause

end Rel

theorem toNat_pc (pc : BitVec 30) : (pc ++ 0#2 : BitVec 32).toNat = pc.toNat * 4 := by
  have := BitVec.toNat_append pc 0#2
  rw [Nat.shiftLeft_eq] at this
  simpa using this

theorem wordAdr_append (pc : BitVec 30) : wordAdr (pc ++ 0#2) = pc := by
  apply BitVec.eq_of_toNat_eq
  have := pc.isLt
  rw [wordAdr, BitVec.extractLsb'_toNat, toNat_pc, Nat.shiftRight_eq_div_pow]
  omega

theorem pc_inc (pc : BitVec 30) : (pc ++ 0#2 : BitVec 32) + 4 = (pc + 1#30) ++ 0#2 := by
  apply BitVec.eq_of_toNat_eq
  rw [BitVec.toNat_add, toNat_pc, toNat_pc, BitVec.toNat_add]
  have := pc.isLt
  simp
  omega

theorem fetchReq_eq {ar : Arch} {pc : BitVec 30} (h : ar.pc = pc ++ 0#2) :
    fetchReq ar = ⟨pc, 0xF, false, 0⟩ := by
  simp [fetchReq, h, wordAdr_append]

variable {α : Type} {F : α → State → Cnt → Prop} {pv : Bool} {n : Cnt} {k : Keep}
  {a b o rd rb da wd : BitVec 32} {pc : BitVec 30} {mem : BitVec 6 → BitVec 32}
  {mie mpie meie : Bool} {pa : BitVec 4} {d : DecState} {c : CauseLatch} {ar : Arch}
  {K : BitVec 32 → Tree α}

/-- Waiting for an instruction (microaddress 0). -/
structure Fetching (ar : Arch) (s : State) : Prop where
  uop : s.uop = u_00
  nextAdr : s.nextAdr = 1#8
  rstGuard : s.rstGuard = false
  memGuard : s.memGuard = false
  pc : ar.pc = s.pc ++ 0#2
  rel : Rel ar s.mem s.csr.mie s.csr.mpie s.csr.meie s.cause
  f1 : s.dec.map.fwd = false
  f2 : s.dec.exc.fwd = false

theorem Fetching.req {s : State} (h : Fetching ar s) :
    s.cyc = true ∧ s.polls = false ∧ s.req = fetchReq ar := by
  obtain ⟨h1, h2, h3, h4, h5, h6, h7⟩ := h
  rw [fetchReq_eq h5]
  simp [State.cyc, State.polls, State.req, State.adr, State.sel, State.we, h1, h4, u_00, wbAdr, wbSel]

theorem Fetching.tally {s : State} {i : Input} (h : Fetching ar s) : s.tally i = 0 := by
  obtain ⟨h1, h2, h3, h4, h5, h6, h7⟩ := h
  simp [State.tally, State.cyc, State.exception, h1, h4, u_00, exceptionOut]; rfl

theorem Fetching.noAck {s : State} {i : Input} (h : Fetching ar s) (hi : i.ack = false) :
    Fetching ar (s.step i) := by
  obtain ⟨h1, h2, h3, h4, h5, h6, h7, h8⟩ := h
  constructor <;>
  simp [State.step, State.romAdr, State.test, testOut, rawTest, seqAdr, h1, h2, h3, u_00, hi, rom_00,
    pcNext, h5, DecState.step, MapState.step, ExcState.step, State.doDecode]
  simpa [State.ram, ramCtl, RamCtl.memNext, CsrState.step, CauseLatch.step, h1, u_00] using h6

theorem Fetching.ack {s : State} {i : Input} (h : Fetching ar s) (hi : i.ack = true) :
    AtDispatch (ar, i.datR) (s.step i) := by
  obtain ⟨h1, h2, h3, h4, h5, h6, h7, h8⟩ := h
  constructor
  case dec =>
    exact ⟨s.dec, h7, h8, by simp [State.step, State.doDecode, h1, u_00, hi]⟩
  case rel =>
    simpa [State.step, State.ram, ramCtl, RamCtl.memNext, CsrState.step, CauseLatch.step, h1, u_00]
      using h6
  case rdata =>
    simpa [State.step, State.ram, ramCtl, RamCtl.rdataNext, State.regRAdr, h1, u_00] using h6.reg _
  all_goals
    simp [State.step, State.romAdr, State.test, testOut, rawTest, seqAdr, h1, h2, h3, u_00, hi,
      rom_01, pcNext, h5]

theorem Fetching.impl {s : State} (hs : Fetching ar s)
    (h : ∀ w s, AtDispatch (ar, w) s → Impl F true s (K w) n) :
    Impl F pv s (.bus (fetchReq ar) K) n :=
  .wait (Fetching ar) hs (fun _ h => h.req) (fun _ _ h => h.tally) (fun _ _ h hi => h.noAck hi)
    (fun _ _ h' hi => h _ _ (h'.ack hi))

/-- Instruction fetch from microaddress 0. -/
theorem w_00 (hd : Dec k d) (hrel : Rel ar mem mie mpie meie c) (hpc : ar.pc = pc ++ 0#2)
    (h : ∀ w s, AtDispatch (ar, w) s → Impl F true s (K w) n) :
    Impl F pv ⟨u_00, 1#8, false, false, a, b, o, pc, mem, rd, ⟨mie, mpie, meie, rb, pa⟩, d, c, da, wd⟩
      (.bus (fetchReq ar) K) n :=
  Fetching.impl ⟨rfl, rfl, rfl, rfl, hpc, hrel, hd.f1, hd.f2⟩ h

/-- `fast_epilog`: the result is written while the instruction fetch goes on. -/
theorem w_b5 (hd : Dec k d) (hrel : Rel ar mem mie mpie meie c) (p : Word) (hp : p = pc ++ 0#2)
    (h : ∀ w s, AtDispatch ({ ar.setReg k.dst o with pc := p }, w) s →
      Impl F true s (K w) (n + .w0)) :
    Impl F pv ⟨u_b5, 182#8, false, false, a, b, o, pc, mem, rd, ⟨mie, mpie, meie, rb, pa⟩, d, c, da, wd⟩
      (.bus (fetchReq { ar.setReg k.dst o with pc := p }) K) n := by
  subst hp
  have hrel' := (hrel.setReg k.dst o).withPc (pc ++ 0#2)
  refine .busyq .w0 rfl rfl (fetchReq_eq rfl).symm (fun _ => rfl) (fun i hi => ?_) (fun i hi => ?_)
  · refine Fetching.impl ⟨?_, ?_, ?_, ?_, ?_, ?_, ?_, ?_⟩ h
    case refine_6 =>
      simpa [State.step, State.ram, ramCtl, RamCtl.memNext, CsrState.step, CauseLatch.step, u_b5,
        State.regWAdr, State.allowZeroWr, gpRamAdr_eq_zero, gpSet, hd.dst] using hrel'
    all_goals
      simp [State.step, State.romAdr, State.test, testOut, rawTest, seqAdr, u_b5, hi, rom_00,
        pcNext, DecState.step, MapState.step, ExcState.step, State.doDecode]
  · refine h _ _ ⟨?_, ?_, ?_, ?_, ?_, ?_, ?_, ?_⟩
    case refine_6 =>
      simpa [State.step, State.ram, ramCtl, RamCtl.memNext, CsrState.step, CauseLatch.step, u_b5,
        State.regWAdr, State.allowZeroWr, gpRamAdr_eq_zero, gpSet, hd.dst] using hrel'
    case refine_7 =>
      have hx := hrel'.reg (insnRs1 i.datR)
      simp only [gpSet] at hx
      rw [← hx]
      by_cases h0 : k.dst = 0#5
      · simp [State.step, State.ram, ramCtl, RamCtl.rdataNext, u_b5, State.regWAdr, State.regRAdr,
          State.allowZeroWr, gpRamAdr_eq_zero, hd.dst, h0]
      · simp [State.step, State.ram, ramCtl, RamCtl.rdataNext, u_b5, State.regWAdr, State.regRAdr,
          State.allowZeroWr, gpRamAdr_eq_zero, hd.dst, h0, memSet]
    case refine_8 =>
      exact ⟨d, hd.f1, hd.f2, by simp [State.step, State.doDecode, u_b5, hi]⟩
    all_goals
      simp [State.step, State.romAdr, State.test, testOut, rawTest, seqAdr, u_b5, hi, rom_01, pcNext]

end Sentinel
