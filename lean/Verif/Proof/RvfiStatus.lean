import Verif.Proof.RvfiCsr
/-!
# What the RVFI harness reports about `mstatus` and `mip` around traps and MRET
-/

set_option linter.unusedSimpArgs false

namespace Sentinel
open Ucode Spec

variable {s : State} {inp : Nat → Input} {t m : Nat} {w : Word} {r : Rvfi} {c : Csr}

/-! ## Paths through the microprogram -/

/-- A set of microaddresses that is only left by dispatching. -/
def closedOk (S : List Nat) : Bool := S.all fun k => !((romT k).jmpType = .map) &&
  bools.all fun e => bools.all fun z => bools.all fun a =>
    nextT k e z a = 1#8 || S.contains (nextT k e z a).toNat

/-- The microaddress in a cycle of an instruction. -/
theorem adr_at (h : AfterReset s) (he : s.Executes inp t w m) (j : Nat) :
    ∃ k, LiveAt k (s.run inp (t + j)) := by
  have ht := he.1.1.1
  obtain ⟨k, hk⟩ := live_run h inp (t + j - 1)
  rw [show t + j - 1 + 1 = t + j by omega] at hk
  exact ⟨k, hk⟩

theorem not_one (he : s.Executes inp t w m) {j : Nat} (h0 : 0 < j) (hj : j < m) {k : BitVec 8}
    (hk : LiveAt k (s.run inp (t + j))) : k ≠ 1#8 := by
  rintro rfl
  have ht := he.1.1.1
  exact he.2.2.2 j h0 hj ⟨by omega, hk.uop⟩

theorem stay {S : List Nat} (hS : closedOk S = true) (he : s.Executes inp t w m) {j d : Nat}
    {k : BitVec 8} (hk : LiveAt k (s.run inp (t + j))) (hkS : k.toNat ∈ S) (hd : j + d < m) :
    ∃ k', LiveAt k' (s.run inp (t + (j + d))) ∧ k'.toNat ∈ S := by
  induction d with
  | zero => exact ⟨k, hk, hkS⟩
  | succ d ih =>
    obtain ⟨k', h1, h2⟩ := ih (by omega)
    have hc := List.all_eq_true.mp hS _ h2
    simp only [Bool.and_eq_true, Bool.not_eq_true', decide_eq_false_iff_not] at hc
    have hm : (s.run inp (t + (j + d))).uop.jmpType ≠ .map := by
      rw [h1.uop, rom_eq]; exact hc.1
    have h3 := h1.step (inp (t + (j + d)))
    have e := h1.nextT hm (inp (t + (j + d)))
    have hc := bools_all (bools_all (bools_all hc.2 ((s.run inp (t + (j + d))).exception (inp (t + (j + d)))))
      (aluZero (s.run inp (t + (j + d))).aluO)) (inp (t + (j + d))).ack
    rw [← e] at hc
    simp only [Bool.or_eq_true, decide_eq_true_eq, List.contains_iff_mem] at hc
    refine ⟨_, h3, hc.resolve_left ?_⟩
    exact not_one he (j := j + d + 1) (by omega) hd h3

/-! ## Traps -/

theorem exc_to_f0 : live.all (fun k => (romT k).jmpType = .map || (romT k).exceptCtl = .none ||
    (romT k).exceptCtl = .enterInt || (romT k).exceptCtl = .leaveInt ||
    bools.all fun z => bools.all fun a => nextT k true z a = 0xf0#8) = true := by decide +kernel

/-- An exception leads to the trap routine. -/
theorem LiveAt.trap {k : BitVec 8} {σ : State} (h : LiveAt k σ) {i : Input} (hx : σ.exception i = true) :
    σ.romAdr i = 0xf0#8 := by
  by_cases hm : σ.uop.jmpType = .map
  · obtain ⟨h1, h2, -, -, h3, h4⟩ := h.node.map hm
    simp [State.romAdr, State.test, seqAdr, testOut, rawTest, h.rstGuard, hm, h2, h3, h4, hx]
  · rw [h.nextT hm, hx]
    have hl := List.all_eq_true.mp exc_to_f0 _ h.live
    rw [h.uop, rom_eq] at hm
    have hc : ∀ c : ExceptCtl, c = .none ∨ c = .enterInt ∨ c = .leaveInt → (romT k.toNat).exceptCtl ≠ c := by
      intro c hc e
      have : σ.exception i = false := by
        simp only [State.exception, h.uop, rom_eq, e]
        rcases hc with rfl | rfl | rfl <;> rfl
      rw [this] at hx; cases hx
    simp only [hm, hc _ (.inl rfl), hc _ (.inr (.inl rfl)), hc _ (.inr (.inr rfl)), decide_false,
      Bool.false_or] at hl
    have := bools_all (bools_all hl (aluZero σ.aluO)) i.ack
    simpa using this

/-- The trap routine. -/
def trapAdrs : List Nat := [240, 241, 242, 243, 244, 0]

theorem trapAdrs_closed : closedOk trapAdrs = true := by decide +kernel

/-- Only the first microinstruction of the trap routine touches the interrupt-enable stack, and it makes
no request. -/
theorem trapAdrs_stacks : trapAdrs.all (fun k => !(romT k).memReq ||
    ((romT k).exceptCtl = .none)) = true := by decide +kernel

theorem tallies_exc_iff {j : Nat} : (s.tallies inp t j).exc = true ↔
    ∃ i, i < j ∧ (s.run inp (t + i)).exception (inp (t + i)) = true := by
  induction j with
  | zero => simp [State.tallies]
  | succ j ih =>
    have e : (s.tallies inp t (j + 1)).exc =
        ((s.run inp (t + j)).exception (inp (t + j)) || (s.tallies inp t j).exc) := by
      rw [State.tallies_snoc]; rfl
    rw [e, Bool.or_eq_true, ih]
    constructor
    · rintro (h | ⟨i, h1, h2⟩)
      · exact ⟨j, by omega, h⟩
      · exact ⟨i, by omega, h2⟩
    · rintro ⟨i, h1, h2⟩
      rcases Nat.lt_or_ge i j with hlt | hge
      · exact .inr ⟨i, hlt, h2⟩
      · have : i = j := by omega
        subst this; exact .inl h2

theorem tallies_cw {j : Nat} (h : (s.tallies inp t j).cw = false) {i : Nat} (hi : i < j) :
    ((s.run inp (t + i)).uop.csrOp = .writeCsr → (s.run inp (t + i)).uop.csrSel ≠ .insnCsr) := by
  induction j with
  | zero => omega
  | succ j ih =>
    have e : (s.tallies inp t (j + 1)).cw = (((s.run inp (t + j)).uop.csrOp = .writeCsr &&
        (s.run inp (t + j)).uop.csrSel = .insnCsr) || (s.tallies inp t j).cw) := by
      rw [State.tallies_snoc]; rfl
    rw [e, Bool.or_eq_false_iff] at h
    rcases Nat.lt_or_ge i j with hlt | hge
    · exact ih h.2 hlt
    · have : i = j := by omega
      subst this
      intro h1 h2
      rw [h1, h2] at h
      exact absurd h.1 (by decide)

/-- Without a write of the CSR that the instruction names, only `mepc` and `mcause` are written. -/
theorem no_write (h : AfterReset s) (he : s.Executes inp t w m) {j : Nat} (hc : c ≠ .mepc) (hc' : c ≠ .mcause)
    (hw : (s.run inp (t + j)).uop.csrOp = .writeCsr → (s.run inp (t + j)).uop.csrSel ≠ .insnCsr ∨
      (s.run inp (t + j)).dec.map.csrEncoding ≠ csrNo c) :
    (s.run inp (t + j)).csrWriteTo c = false := by
  obtain ⟨k, hk⟩ := adr_at h he j
  cases hx : (s.run inp (t + j)).csrWriteTo c
  · rfl
  · exfalso
    simp only [State.csrWriteTo, Bool.and_eq_true, decide_eq_true_eq] at hx
    obtain ⟨h1, h2⟩ := hx
    have hw := hw h1
    cases hsel : (s.run inp (t + j)).uop.csrSel
    · simp only [State.csrAdr, hsel] at h2
      rcases hw with hw | hw
      · exact hw hsel
      · exact hw h2
    · simp only [State.csrAdr, hsel] at h2
      have := List.all_eq_true.mp trg_writes _ hk.node.used
      rw [← rom_eq, ← hk.uop] at this
      simp only [h1, hsel, decide_true, Bool.and_true, Bool.not_true, Bool.false_or, Bool.or_eq_true,
        decide_eq_true_eq, h2] at this
      cases c <;> first | exact hc rfl | exact hc' rfl | exact absurd this (by decide)

/-- The hold flag stays low while nothing is written. -/
theorem hold_at (h : AfterReset s) (hr : s.RegisteredAck inp) (he : s.Executes inp t w m) {j : Nat}
    (hj : j < m) (hw : ∀ i, i < j → (s.run inp (t + i)).csrWriteTo c = false) :
    ((r.run s inp (t + j)).csr c).hold = false := by
  induction j with
  | zero => exact hold_first h hr he.1
  | succ j ih =>
    have e : (r.run s inp (t + (j + 1))).csr c =
      (r.run s inp (t + j)).csrStep (s.run inp (t + j)) (inp (t + j)) c := rfl
    rw [e]
    simp [Rvfi.csrStep, hw j (by omega), ih (by omega) fun i hi => hw i (by omega)]

/-- While `mstatus` is not written, its report trails it by one cycle. -/
theorem mstatus_trails (h : AfterReset s) (hr : s.RegisteredAck inp) (he : s.Executes inp t w m)
    (hw : ∀ i, i < m → (s.run inp (t + i)).csrWriteTo .mstatus = false) :
    ((r.run s inp (t + m - 1)).csr .mstatus).rdata =
      (s.run inp (t + m - 2)).arch.csrRead false .mstatus := by
  have hm := two_cycles h hr he
  have hh := hold_at (r := r) (j := m - 2) h hr he (by omega) fun i hi => hw i (by omega)
  have e : (r.run s inp (t + (m - 2) + 1)).csr .mstatus =
    (r.run s inp (t + (m - 2))).csrStep (s.run inp (t + (m - 2))) (inp (t + (m - 2))) .mstatus := rfl
  rw [show t + (m - 2) + 1 = t + m - 1 by omega] at e
  rw [e]
  rw [show t + m - 2 = t + (m - 2) by omega]
  simp only [Rvfi.csrStep, hh, Bool.false_eq_true, if_false]
  exact mstatusView_eq _ _

/-- While `mip` is not written, its report trails the interrupt line by one cycle. -/
theorem mip_trails (h : AfterReset s) (hr : s.RegisteredAck inp) (he : s.Executes inp t w m)
    (hw : ∀ i, i < m → (s.run inp (t + i)).csrWriteTo .mip = false) :
    ((r.run s inp (t + m - 1)).csr .mip).rdata =
      (s.run inp t).arch.csrRead (inp (t + m - 2)).irq .mip := by
  have hm := two_cycles h hr he
  have hh := hold_at (r := r) (j := m - 2) h hr he (by omega) fun i hi => hw i (by omega)
  have e : (r.run s inp (t + (m - 2) + 1)).csr .mip =
    (r.run s inp (t + (m - 2))).csrStep (s.run inp (t + (m - 2))) (inp (t + (m - 2))) .mip := rfl
  rw [show t + (m - 2) + 1 = t + m - 1 by omega] at e
  rw [e]
  rw [show t + m - 2 = t + (m - 2) by omega]
  simp only [Rvfi.csrStep, hh, Bool.false_eq_true, if_false]
  exact meiView_eq _

/-- An instruction that traps writes no CSR but `mepc` and `mcause`. -/
theorem no_write_trap (h : AfterReset s) (hr : s.RegisteredAck inp) (he : s.Executes inp t w m)
    (hx : traps (s.run inp t).arch w (s.events inp t m) = true) (hc : c ≠ .mepc) (hc' : c ≠ .mcause)
    {j : Nat} (hj : j < m) : (s.run inp (t + j)).csrWriteTo c = false := by
  obtain ⟨w', -, -, -, h1, -, -, h2⟩ := executes_tally h hr he
  rw [hx] at h1
  exact no_write h he hc hc' fun h3 => .inl (tallies_cw (h2 h1).2 hj h3)

theorem mstatus_keeps (σ : State) (i : Input) (hw : σ.csrWriteTo .mstatus = false)
    (hs : σ.uop.exceptCtl = .none) :
    (σ.step i).arch.csrRead false .mstatus = σ.arch.csrRead false .mstatus :=
  csrRead_step σ i (by decide) hw fun _ => by simp [State.stacks, hs]

/-- The report about `mstatus` when an instruction traps: the value after the trap. -/
theorem mstatus_trap (h : AfterReset s) (hr : s.RegisteredAck inp) (he : s.Executes inp t w m)
    (hx : traps (s.run inp t).arch w (s.events inp t m) = true) :
    ((r.run s inp (t + m - 1)).csr .mstatus).rdata =
      (s.run inp (t + m)).arch.csrRead false .mstatus := by
  have hm := two_cycles h hr he
  have hnw : ∀ i, i < m → (s.run inp (t + i)).csrWriteTo .mstatus = false :=
    fun i hi => no_write_trap h hr he hx (by decide) (by decide) hi
  rw [mstatus_trails h hr he hnw]
  obtain ⟨w', -, -, -, h1, -⟩ := executes_tally h hr he
  rw [hx, tallies_last h hr he, tallies_exc_iff] at h1
  obtain ⟨j, hj, hjx⟩ := h1
  obtain ⟨k, hk⟩ := adr_at h he j
  have hf0 := hk.step (inp (t + j))
  rw [hk.trap hjx] at hf0
  have hlc := last_commits h hr he
  obtain ⟨-, hc1, -⟩ := committing h hr hlc
  -- the last cycle but one
  have hcyc : (s.run inp (t + m - 2)).uop.memReq = true := by
    obtain ⟨-, -, -, -, -, hreq, hack, -⟩ := committing h hr hlc
    have ht := he.1.1.1
    cases hreq' : (s.run inp (t + m - 2)).uop.memReq
    · exfalso
      have e1 : (s.run inp (t + m - 1)).cyc = true := by
        have := run_cyc h inp (t + m - 2)
        rw [show t + m - 2 + 1 = t + m - 1 by omega] at this
        rw [this]; exact hreq
      have e2 : (s.run inp (t + m - 2)).cyc = false := by simp [State.cyc, hreq']
      have := hr (t + m - 1) ⟨e1, fun t' e => by
        have : t' = t + m - 2 := by omega
        subst this; exact e2⟩
      rw [this] at hack; cases hack
    · rfl
  have hj2 : j + 1 ≤ m - 2 := by
    rcases Nat.lt_or_ge (j + 1) (m - 1) with hlt | hge
    · omega
    · exfalso
      have e : t + j + 1 = t + m - 1 := by omega
      have hu := hf0.uop
      have e2 : (s.run inp (t + j)).step (inp (t + j)) = s.run inp (t + m - 1) := by rw [← e]; rfl
      rw [e2] at hu
      rw [hu] at hc1
      exact absurd hc1 (by rw [rom_eq]; decide +kernel)
  have e2 : (s.run inp (t + j)).step (inp (t + j)) = s.run inp (t + (j + 1)) := rfl
  rw [e2] at hf0
  obtain ⟨k', hk', hkS⟩ := stay trapAdrs_closed he (d := m - 2 - (j + 1)) hf0 (by decide) (by omega)
  rw [show t + (j + 1 + (m - 2 - (j + 1))) = t + m - 2 by omega] at hk'
  have hst := List.all_eq_true.mp trapAdrs_stacks _ hkS
  rw [← rom_eq, ← hk'.uop, hcyc] at hst
  have hst : (s.run inp (t + m - 2)).uop.exceptCtl = .none := by simpa using hst
  have f1 := mstatus_keeps (s.run inp (t + m - 2)) (inp (t + m - 2))
    (by have := hnw (m - 2) (by omega); rwa [show t + (m - 2) = t + m - 2 by omega] at this) hst
  have f2 := mstatus_keeps (s.run inp (t + m - 1)) (inp (t + m - 1))
    (by have := hnw (m - 1) (by omega); rwa [show t + (m - 1) = t + m - 1 by omega] at this) hc1
  have g1 : (s.run inp (t + m - 2)).step (inp (t + m - 2)) = s.run inp (t + m - 1) := by
    rw [show t + m - 1 = t + m - 2 + 1 by omega]; rfl
  have g2 : (s.run inp (t + m - 1)).step (inp (t + m - 1)) = s.run inp (t + m) := by
    conv => rhs; rw [show t + m = t + m - 1 + 1 by omega]
    rfl
  rw [g1] at f1; rw [g2] at f2
  rw [f2, f1]

/-! ## MRET -/

theorem mstatus_between {a d : Nat} (hw : ∀ i, a ≤ i → i < a + d → (s.run inp i).csrWriteTo .mstatus = false ∧
    (s.run inp i).stacks = false) :
    (s.run inp (a + d)).arch.csrRead false .mstatus = (s.run inp a).arch.csrRead false .mstatus := by
  induction d with
  | zero => rfl
  | succ d ih =>
    obtain ⟨h1, h2⟩ := hw (a + d) (by omega) (by omega)
    have : s.run inp (a + (d + 1)) = (s.run inp (a + d)).step (inp (a + d)) := rfl
    rw [this, csrRead_step _ _ (by decide) h1 fun _ => h2]
    exact ih fun i h1 h2 => hw i h1 (by omega)

/-- The microaddress at dispatch is 1. -/
theorem adr_first (h : AfterReset s) (hr : s.RegisteredAck inp) (he : s.Executes inp t w m) :
    LiveAt 1#8 (s.run inp t) := by
  obtain ⟨k, hk⟩ := adr_at h he 0
  have h1 := (he.1.at h hr).nextAdr
  have h2 : (s.run inp t).nextAdr = k + 1#8 := hk.next
  have : k = 1#8 := by
    rw [h1] at h2; bv_omega
  subst this
  exact hk

/-- Where the word is dispatched to. -/
theorem adr_second (h : AfterReset s) (hr : s.RegisteredAck inp) (he : s.Executes inp t w m)
    (hx : (s.run inp t).exception (inp t) = false) :
    ∃ old, LiveAt (mapOp w old) (s.run inp (t + 1)) := by
  have h1 := adr_first h hr he
  have hd := he.1.at h hr
  obtain ⟨d0, f1, f2, f3⟩ := hd.dec
  have f3 : (s.run inp t).dec = d0.step true w := f3
  have hm : (s.run inp t).uop.jmpType = .map := by rw [hd.uop]; rfl
  have h2 := h1.step (inp t)
  obtain ⟨-, g2, -, -, g3, g4⟩ := h1.node.map hm
  have e : (s.run inp t).romAdr (inp t) = (s.run inp t).dec.map.requestedOp := by
    simp [State.romAdr, State.test, seqAdr, testOut, rawTest, h1.rstGuard, hm, g2, g3, g4, hx]
  refine ⟨d0.map.requestedOp, ?_⟩
  have e2 : (s.run inp t).dec.map.requestedOp = mapOp w d0.map.requestedOp := by
    rw [f3]; simp [DecState.step, MapState.step, f1]
  rw [e, e2] at h2
  exact h2

/-- A straight step of the microprogram. -/
theorem adr_next {σ : State} {k n : Nat} (h : LiveAt (BitVec.ofNat 8 k) σ) (i : Input)
    (hk : (k < 256 && !((romT k).jmpType = .map) && bools.all fun e => bools.all fun z => bools.all fun a =>
      nextT k e z a = BitVec.ofNat 8 n) = true) : LiveAt (BitVec.ofNat 8 n) (σ.step i) := by
  simp only [Bool.and_eq_true, Bool.not_eq_true', decide_eq_false_iff_not, decide_eq_true_eq] at hk
  obtain ⟨⟨h1, h2⟩, h3⟩ := hk
  have ek : (BitVec.ofNat 8 k).toNat = k := by simp; omega
  have hm : σ.uop.jmpType ≠ .map := by rw [h.uop, rom_eq, ek]; exact h2
  have h4 := h.step i
  rw [h.nextT hm, ek] at h4
  have := bools_all (bools_all (bools_all h3 (σ.exception i)) (aluZero σ.aluO)) i.ack
  rw [decide_eq_true_eq] at this
  rwa [this] at h4

theorem LiveAt.quiet {σ : State} {k : Nat} (h : LiveAt (BitVec.ofNat 8 k) σ)
    (hk : (k < 256 && (romT k).csrOp ≠ .writeCsr && (romT k).exceptCtl ≠ .enterInt &&
      (romT k).exceptCtl ≠ .leaveInt) = true) : σ.csrWriteTo c = false ∧ σ.stacks = false := by
  simp only [Bool.and_eq_true, decide_eq_true_eq] at hk
  obtain ⟨⟨⟨h1, h2⟩, h3⟩, h4⟩ := hk
  have ek : (BitVec.ofNat 8 k).toNat = k := by simp; omega
  simp [State.csrWriteTo, State.stacks, h.uop, rom_eq, ek, h2, h3, h4]

/-- The report about `mstatus` for MRET: the value before it if the next instruction is fetched without
wait states, else the value after it. -/
theorem mstatus_mret (h : AfterReset s) (hr : s.RegisteredAck inp) (he : s.Executes inp t w m)
    (hw : decode w = some .mret) (hx : traps (s.run inp t).arch w (s.events inp t m) = false) :
    7 ≤ m ∧ ((r.run s inp (t + m - 1)).csr .mstatus).rdata =
      (s.run inp (if m = 7 then t else t + m)).arch.csrRead false .mstatus := by
  have hm := two_cycles h hr he
  have hex : (s.run inp t).exception (inp t) = false := by
    obtain ⟨w', -, -, -, h1, -⟩ := executes_tally h hr he
    rw [hx] at h1
    cases hq : (s.run inp t).exception (inp t)
    · rfl
    · rw [tallies_exc_iff.2 ⟨0, by omega, hq⟩] at h1; cases h1
  obtain ⟨old, a1⟩ := adr_second h hr he hex
  have hgo : Go w 0xf8 := decoded hw
  rw [hgo.2.2 old] at a1
  have a2 := adr_next (k := 248) (n := 249) a1 (inp (t + 1)) (by decide +kernel)
  have a3 := adr_next (k := 249) (n := 250) a2 (inp (t + 2)) (by decide +kernel)
  have a4 := adr_next (k := 250) (n := 251) a3 (inp (t + 3)) (by decide +kernel)
  have a5 := adr_next (k := 251) (n := 252) a4 (inp (t + 4)) (by decide +kernel)
  have a6 := adr_next (k := 252) (n := 0) a5 (inp (t + 5)) (by decide +kernel)
  change LiveAt _ (s.run inp (t + 2)) at a2
  change LiveAt _ (s.run inp (t + 3)) at a3
  change LiveAt _ (s.run inp (t + 4)) at a4
  change LiveAt _ (s.run inp (t + 5)) at a5
  change LiveAt _ (s.run inp (t + 6)) at a6
  -- the end
  have hend : ∀ j k, LiveAt k (s.run inp (t + j)) → k ≠ 1#8 → j ≠ m := by
    rintro j k hk hk1 rfl
    obtain ⟨w', hd⟩ : ∃ w', AtDispatch ((s.run inp (t + j)).arch, w') (s.run inp (t + j)) := by
      obtain ⟨w', hd, -⟩ := at_dispatch h hr he.2.2.1
      exact ⟨w', hd⟩
    have h2 := hk.next
    rw [hd.nextAdr] at h2
    exact hk1 (by bv_omega)
  have m2 := hend 2 _ a2 (by decide)
  have m3 := hend 3 _ a3 (by decide)
  have m4 := hend 4 _ a4 (by decide)
  have m5 := hend 5 _ a5 (by decide)
  have m6 := hend 6 _ a6 (by decide)
  have hm7 : 7 ≤ m := by omega
  refine ⟨hm7, ?_⟩
  have late : ∀ j, 6 ≤ j → j < m → LiveAt (BitVec.ofNat 8 0) (s.run inp (t + j)) := by
    intro j h6 hj
    obtain ⟨k', hk', hkS⟩ := stay (S := [0]) (by decide +kernel) he (d := j - 6) a6 (by decide) (by omega)
    rw [show 6 + (j - 6) = j by omega] at hk'
    have : k' = 0#8 := BitVec.eq_of_toNat_eq (by simpa using hkS)
    subst this; exact hk'
  have a0 : LiveAt (BitVec.ofNat 8 1) (s.run inp t) := adr_first h hr he
  have q0 := fun c => a0.quiet (c := c) (by decide +kernel)
  have q1 := fun c => LiveAt.quiet (k := 248) (c := c) a1 (by decide +kernel)
  have q2 := fun c => a2.quiet (c := c) (by decide +kernel)
  have q3 := fun c => a3.quiet (c := c) (by decide +kernel)
  have q4 := fun c => a4.quiet (c := c) (by decide +kernel)
  have ql := fun j h6 hj c => (late j h6 hj).quiet (c := c) (by decide +kernel)
  have w5 : (s.run inp (t + 5)).csrWriteTo .mstatus = false := by
    have e : (s.run inp (t + 5)).uop = romT 252 := by rw [a5.uop, rom_eq]; rfl
    have e2 : (romT 252).csrOp ≠ .writeCsr := by decide +kernel
    simp [State.csrWriteTo, e, e2]
  have early : ∀ i, t ≤ i → i < t + 5 → (s.run inp i).csrWriteTo .mstatus = false ∧
      (s.run inp i).stacks = false := by
    intro i h1 h2
    obtain ⟨d, rfl⟩ : ∃ d, i = t + d := ⟨i - t, by omega⟩
    obtain rfl | rfl | rfl | rfl | rfl : d = 0 ∨ d = 1 ∨ d = 2 ∨ d = 3 ∨ d = 4 := by omega
    · exact q0 _
    · exact q1 _
    · exact q2 _
    · exact q3 _
    · exact q4 _
  have hnw : ∀ i, i < m → (s.run inp (t + i)).csrWriteTo .mstatus = false := by
    intro i hi
    rcases Nat.lt_or_ge i 5 with h5 | h5
    · exact (early (t + i) (by omega) (by omega)).1
    · rcases Nat.lt_or_ge i 6 with h6 | h6
      · have : i = 5 := by omega
        subst this; exact w5
      · exact (ql i h6 hi _).1
  rw [mstatus_trails h hr he hnw]
  by_cases e7 : m = 7
  · rw [if_pos e7]
    rw [show t + m - 2 = t + 5 by omega]
    exact mstatus_between early
  · rw [if_neg e7]
    have := mstatus_between (s := s) (inp := inp) (a := t + m - 2) (d := 2) fun i h1 h2 => by
      obtain ⟨d, rfl⟩ : ∃ d, i = t + d := ⟨i - t, by omega⟩
      exact ql d (by omega) (by omega) _
    rw [show t + m - 2 + 2 = t + m by omega] at this
    exact this.symm

/-! ## Instructions that are not CSR instructions -/

/-- Microaddresses that are executed outside CSR instructions, after dispatch. -/
def plainAdrs : List Nat := live.filter fun k => !([1, 2, 3, 4, 5, 36, 37, 38, 39, 40, 41, 42, 43, 44, 45, 46,
  49, 50, 51, 52, 53, 54, 55, 56, 57, 58, 59, 60, 61, 62, 63, 73, 74, 75, 76, 182].contains k)

theorem plainAdrs_closed : closedOk plainAdrs = true := by decide +kernel

theorem plainAdrs_writes : plainAdrs.all (fun k => !((romT k).csrOp = .writeCsr) ||
    !((romT k).csrSel = .insnCsr)) = true := by decide +kernel

theorem plain_targets : mapTargets.all (fun x => x = 0x24#8 || plainAdrs.contains x.toNat) = true := by
  decide +kernel

/-- An instruction that is not a CSR instruction writes no CSR but `mepc` and `mcause`. -/
theorem no_write_plain (h : AfterReset s) (hr : s.RegisteredAck inp) (he : s.Executes inp t w m)
    (hn : isCsrInsn w = false) (hc : c ≠ .mepc) (hc' : c ≠ .mcause) {j : Nat} (hj : j < m) :
    (s.run inp (t + j)).csrWriteTo c = false := by
  rcases Nat.eq_zero_or_pos j with rfl | h0
  · have a0 : LiveAt (BitVec.ofNat 8 1) (s.run inp t) := adr_first h hr he
    exact (a0.quiet (c := c) (by decide +kernel)).1
  obtain ⟨k, hk, hkS⟩ : ∃ k, LiveAt k (s.run inp (t + 1)) ∧ k.toNat ∈ plainAdrs := by
    cases hx : (s.run inp t).exception (inp t)
    · obtain ⟨old, a1⟩ := adr_second h hr he hx
      refine ⟨_, a1, ?_⟩
      have hd := he.1.at h hr
      obtain ⟨d0, f1, f2, f3⟩ := hd.dec
      have f3 : (s.run inp t).dec = d0.step true w := f3
      have hv : decodeValid w = false := by
        have e : (s.run inp t).dec.exc.valid = decodeValid w := by
          rw [f3]; simp [DecState.step, ExcState.step, f2]
        cases hq : decodeValid w
        · rfl
        · rw [hq] at e
          have : (s.run inp t).exception (inp t) = true := by
            simp [State.exception, exceptionOut, hd.uop, u_01, e]
          rw [this] at hx; cases hx
      obtain ⟨g1, g2⟩ := mapOp_mem hv old
      have := List.all_eq_true.mp plain_targets _ g1
      simp only [Bool.or_eq_true, decide_eq_true_eq, List.contains_iff_mem] at this
      refine this.resolve_left fun e => ?_
      have := g2 e
      rw [hn] at this; cases this
    · have a0 := adr_first h hr he
      have a1 := a0.step (inp t)
      rw [a0.trap hx] at a1
      exact ⟨_, a1, by decide +kernel⟩
  obtain ⟨k', hk', hkS'⟩ := stay plainAdrs_closed he (d := j - 1) hk hkS (by omega)
  rw [show 1 + (j - 1) = j by omega] at hk'
  have := List.all_eq_true.mp plainAdrs_writes _ hkS'
  rw [← rom_eq, ← hk'.uop] at this
  refine no_write h he hc hc' fun h1 => .inl fun h2 => ?_
  rw [h1, h2] at this
  exact absurd this (by decide)

/-- A CSR instruction that names another implemented CSR writes none but that one, `mepc` and
`mcause`. -/
theorem no_write_other {op rd src adr} {c' : Csr} (h : AfterReset s) (hr : s.RegisteredAck inp)
    (he : s.Executes inp t w m) (hw : decode w = some (.csr op rd src adr)) (hk : csrKind adr = .impl c')
    (hne : c' ≠ c) (hc : c ≠ .mepc) (hc' : c ≠ .mcause) {j : Nat} (hj : j < m) :
    (s.run inp (t + j)).csrWriteTo c = false := by
  refine no_write h he hc hc' fun _ => .inr ?_
  rw [(dec_at h hr he hj).2 (decode_csr hw).2.2.2, csrEncode_of hw hk]
  intro e
  apply hne
  revert e
  cases c <;> cases c' <;> decide

theorem not_isCsrInsn {ins : Instr} (hw : decode w = some ins) (hn : isCsr w = false) (h1 : ins ≠ .ecall)
    (h2 : ins ≠ .ebreak) : isCsrInsn w = false := by
  have hd := decoded hw
  simp only [isCsr, hw] at hn
  cases ins
  case csr => cases hn
  case ecall => exact absurd rfl h1
  case ebreak => exact absurd rfl h2
  case fence => exact (show Go w 0x30 from hd).2.1
  case wfi => exact (show Go w 0x30 from hd).2.1
  case mret => exact (show Go w 0xf8 from hd).2.1
  all_goals exact hd.1.2.1

/-- No instruction but one that names `mip` writes `mip` (zero CSRs not considered). -/
theorem mip_line (h : AfterReset s) (hr : s.RegisteredAck inp) (he : s.Executes inp t w m)
    (hw : traps (s.run inp t).arch w (s.events inp t m) = true ∨ isCsr w = false ∨
      ∃ op rd src adr c', decode w = some (.csr op rd src adr) ∧ csrKind adr = .impl c' ∧ c' ≠ .mip) :
    ((r.run s inp (t + m - 1)).csr .mip).rdata =
      (s.run inp t).arch.csrRead (inp (t + m - 2)).irq .mip := by
  refine mip_trails h hr he fun j hj => ?_
  cases hx : traps (s.run inp t).arch w (s.events inp t m)
  · rcases hw with hw | hw | ⟨op, rd, src, adr, c', hw, hk, hne⟩
    · rw [hx] at hw; cases hw
    · have hut : (s.run inp t).uop = u_01 := by rw [← rom_01]; exact he.1.1.2
      have hm := he.2.1
      obtain ⟨m', rfl⟩ : ∃ m', m = m' + 1 := ⟨m - 1, by omega⟩
      cases hd : decode w with
      | none => simp [State.events, State.obs_dispatch hut, traps, excCause, hd] at hx
      | some ins =>
        refine no_write_plain h hr he (not_isCsrInsn hd hw ?_ ?_) (by decide) (by decide) hj
        · rintro rfl
          simp [State.events, State.obs_dispatch hut, traps, excCause, hd] at hx
        · rintro rfl
          simp [State.events, State.obs_dispatch hut, traps, excCause, hd] at hx
    · exact no_write_other h hr he hw hk hne (by decide) (by decide) hj
  · exact no_write_trap h hr he hx (by decide) (by decide) hj

end Sentinel
