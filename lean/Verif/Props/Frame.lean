import Verif.Proof.Frame
import Verif.Props.Rvfi
/-!
# C78: what an instruction leaves alone; C79: the reports of the RVFI harness agree with each other
-/

set_option linter.unusedSimpArgs false

namespace Sentinel
open Ucode Spec

variable {s : State} {inp : Nat → Input} {t m : Nat} {w : Word} {r : Rvfi} {c : Csr}

/-! ## C78 -/

/-- **C78** (registers): an instruction changes no register but its destination register, and none if it traps or is replaced by
an interrupt. -/
theorem C78_regs (h : OneInstr s inp t w m) {q : Reg}
    (hq : traps (s.run inp t).arch w (s.events inp t m) = true ∨ ∀ ins, decode w = some ins → destReg ins ≠ some q) :
    (s.run inp (t + m)).arch.reg q = (s.run inp t).arch.reg q := by
  obtain ⟨l, w', -, hf⟩ := h.frame
  split at hf
  · obtain ⟨⟨i, c, e⟩, -⟩ := hf
    rw [e]; rfl
  · next ht =>
    obtain ⟨ins, hw, hk⟩ := hf
    exact hk.regs q (hq.resolve_left ht ins hw)

/-- **C78** (CSRs): an instruction that completes changes no CSR but the one it writes; MRET changes mstatus only. -/
theorem C78_csrs (h : OneInstr s inp t w m) (hx : traps (s.run inp t).arch w (s.events inp t m) = false)
    (hc : ∀ ins, decode w = some ins → destCsr ins ≠ some c) (hm : c = .mstatus → decode w ≠ some .mret) :
    (s.run inp (t + m)).arch.csrRead false c = (s.run inp t).arch.csrRead false c := by
  obtain ⟨l, w', -, hf⟩ := h.frame
  rw [hx] at hf
  obtain ⟨ins, hw, hk⟩ := hf
  exact hk.csrs c (hc ins hw) fun e e' => hm e (by rw [hw, e'])

/-- **C78** (traps): a trap changes mstatus, mepc and mcause only. -/
theorem C78_trap (h : OneInstr s inp t w m) (hx : traps (s.run inp t).arch w (s.events inp t m) = true)
    (hc : c ≠ .mstatus ∧ c ≠ .mepc ∧ c ≠ .mcause) :
    (s.run inp (t + m)).arch.csrRead false c = (s.run inp t).arch.csrRead false c := by
  obtain ⟨l, w', -, hf⟩ := h.frame
  rw [hx] at hf
  obtain ⟨⟨i, c', e⟩, -⟩ := hf
  rw [e]
  cases c <;> first | rfl | simp at hc

/-- **C78** (next instruction): the next instruction is the next word, but after a jump, a branch, MRET or a trap. -/
theorem C78_pc (h : OneInstr s inp t w m) (hx : traps (s.run inp t).arch w (s.events inp t m) = false)
    (hj : ∀ ins, decode w = some ins → ¬ Jumps ins) : (s.run inp (t + m)).arch.pc = (s.run inp t).arch.pc + 4 := by
  obtain ⟨l, w', -, hf⟩ := h.frame
  rw [hx] at hf
  obtain ⟨ins, hw, hk⟩ := hf
  exact hk.pc (hj ins hw)

/-- **C78** (bus): there is no access to the bus but the fetch of the next instruction, unless it is a load or a store that
completes. -/
theorem C78_bus (h : OneInstr s inp t w m)
    (hn : traps (s.run inp t).arch w (s.events inp t m) = true ∨
      ∀ ins, decode w = some ins → (∀ op rd rs1 imm, ins ≠ .load op rd rs1 imm) ∧ ∀ op rs1 rs2 imm, ins ≠ .store op rs1 rs2 imm) :
    ∃ l w', s.events inp t m = l ++ [.bus (fetchReq (s.run inp (t + m)).arch) w'] ∧ ∀ e ∈ l, ∃ b, e = .poll b := by
  obtain ⟨l, w', hl, hf⟩ := h.frame
  refine ⟨.poll (inp t).irq :: l, w', by simpa using hl, ?_⟩
  have : ∀ e ∈ l, ∃ b, e = Event.poll b := by
    split at hf
    · exact hf.2
    · next ht =>
      obtain ⟨ins, hw, hk⟩ := hf
      obtain ⟨h1, h2⟩ := hn.resolve_left ht ins hw
      exact hk.bus h1 h2
  intro e he
  rcases List.mem_cons.1 he with rfl | he
  · exact ⟨_, rfl⟩
  · exact this e he

/-- `addi x1, x0, 5` leaves x2 and mscratch alone and goes on at the next word; the `lw x2, 1(x0)` after it traps and leaves x2 alone. -/
example : ∃ inp t m m', OneInstr powerOn inp t 0x00500093#32 m ∧ OneInstr powerOn inp (t + m) 0x00102103#32 m' ∧
    (powerOn.run inp (t + m)).arch.reg 2 = (powerOn.run inp t).arch.reg 2 ∧
    (powerOn.run inp (t + m)).arch.csrRead false .mscratch = (powerOn.run inp t).arch.csrRead false .mscratch ∧
    (powerOn.run inp (t + m)).arch.pc = (powerOn.run inp t).arch.pc + 4 ∧
    (powerOn.run inp (t + m + m')).arch.reg 2 = (powerOn.run inp (t + m)).arch.reg 2 ∧
    (powerOn.run inp (t + m + m')).arch.csrRead false .mtvec = (powerOn.run inp (t + m)).arch.csrRead false .mtvec := by
  obtain ⟨inp, t, m, m', h1, h2, hq, e1, e2⟩ := demo_two d9Program 0
    (P := fun a => (excCause a 0x00500093#32).isSome = false)
    (P' := fun a => (excCause a 0x00102103#32).isSome = true)
    (w := 0x00500093#32) (w' := 0x00102103#32) (by decide +kernel) (by decide +kernel)
    (by decide +kernel) (by decide +kernel)
  have hd : decode 0x00500093#32 = some (.opImm .add 1 0 5) := by decide +kernel
  have t1 : traps (powerOn.run inp t).arch 0x00500093#32 (powerOn.events inp t m) = false := by rw [traps_low h1 hq, e1]
  have t2 : traps (powerOn.run inp (t + m)).arch 0x00102103#32 (powerOn.events inp (t + m) m') = true := by rw [traps_low h2 hq, e2]
  refine ⟨inp, t, m, m', h1, h2, C78_regs h1 (.inr ?_), C78_csrs h1 t1 ?_ nofun, C78_pc h1 t1 ?_, C78_regs h2 (.inl t2),
    C78_trap h2 t2 (by decide)⟩
  · intro ins he; rw [hd] at he; cases he; decide
  · intro ins he; rw [hd] at he; cases he; decide
  · intro ins he; rw [hd] at he; cases he; exact id

/-! ## C79 -/

/-- Two reports with none in between are about two instructions one after the other. -/
theorem reports_next (hs : AfterReset s) (ha : s.RegisteredAck inp) (hr : r.AfterReset) {T T' : Nat} (hlt : T < T')
    (hv : r.validAt s inp T = true) (hv' : r.validAt s inp T' = true) (hno : ∀ k, T < k → k < T' → r.validAt s inp k = false) :
    ∃ t w m w' m', OneInstr s inp t w m ∧ OneInstr s inp (t + m) w' m' ∧ T = t + m - 1 ∧ T' = t + m + m' - 1 := by
  obtain ⟨t, w, m, h1, e1⟩ := (C49_valid hs ha hr T).1 hv
  obtain ⟨t', w', m', h2, e2⟩ := (C49_valid hs ha hr T').1 hv'
  have hm := h1.runs.2.1
  have hm' := two_cycles h2.reset h2.ack h2.runs
  have ht : t' = t + m := by
    rcases Nat.lt_trichotomy t' (t + m) with hl | hl | hl
    · exfalso
      refine h2.runs.2.2.2 (t + m - t') (by omega) (by omega) ?_
      rw [show t' + (t + m - t') = t + m by omega]; exact h1.runs.2.2.1
    · exact hl
    · exfalso
      obtain ⟨k, hk1, hk2, hk3⟩ := last_of (p := fun k => s.Dispatching inp k) t' ⟨t + m, hl, h1.runs.2.2.1⟩
      have hkm : t + m ≤ k := by
        rcases Nat.lt_or_ge k (t + m) with h | h
        · exact absurd h1.runs.2.2.1 (hk3 (t + m) h hl)
        · exact h
      obtain ⟨w0, -, -, hd⟩ := at_dispatch hs ha hk2
      have : OneInstr s inp k w0 (t' - k) := by
        refine ⟨hs, ha, hd, by omega, ?_, ?_⟩
        · rw [show k + (t' - k) = t' by omega]; exact h2.runs.1.1
        · intro j hj hj'; exact hk3 (k + j) (by omega) (by omega)
      have h4 := (C49_valid hs ha hr (t' - 1)).2 ⟨k, w0, t' - k, this, by omega⟩
      rw [hno (t' - 1) (by omega) (by omega)] at h4
      cases h4
  subst ht
  exact ⟨t, w, m, w', m', h1, h2, by omega, by omega⟩

/-- **C79** (program counter): each report begins where the one before it said that the program would go on. -/
theorem C79_pc (hs : AfterReset s) (ha : s.RegisteredAck inp) (hr : r.AfterReset) {T T' : Nat} (hlt : T < T')
    (hv : r.validAt s inp T = true) (hv' : r.validAt s inp T' = true) (hno : ∀ k, T < k → k < T' → r.validAt s inp k = false) :
    (r.run s inp T').pcRdata = Rvfi.pcWdata (s.run inp T) (inp T) := by
  obtain ⟨t, w, m, w', m', h1, h2, rfl, rfl⟩ := reports_next hs ha hr hlt hv hv' hno
  rw [(C50_pc h1 (r := r)).2, (C50_pc h2).1]

/-- The value of each register as the reports before cycle `T` tell it: `rd_wdata` of the last one without trap that has it as `rd_addr`. -/
def Rvfi.shadow (r : Rvfi) (s : State) (inp : Nat → Input) : Nat → Reg → Option Word
  | 0, _ => none
  | T + 1, q =>
    if r.validAt s inp T ∧ (r.run s inp T).trap = false ∧ (r.run s inp T).rdAddr = q then
      some ((r.run s inp T).rdWdata (s.run inp T) (inp T))
    else r.shadow s inp T q

theorem shadow_keep {T k : Nat} (hno : ∀ j, T ≤ j → j < T + k → r.validAt s inp j = false) (q : Reg) :
    r.shadow s inp (T + k) q = r.shadow s inp T q := by
  induction k with
  | zero => rfl
  | succ k ih =>
    rw [← Nat.add_assoc, Rvfi.shadow, if_neg, ih fun j h1 h2 => hno j h1 (by omega)]
    rw [hno (T + k) (by omega) (by omega)]
    simp

theorem shadow_reg (hs : AfterReset s) (ha : s.RegisteredAck inp) (hr : r.AfterReset) (T : Nat) :
    ∀ t w m, OneInstr s inp t w m → T + 1 = t + m → ∀ q v, r.shadow s inp T q = some v → (s.run inp t).arch.reg q = v := by
  induction T using Nat.strongRecOn with
  | _ T ih =>
    intro t w m h hT q v hq
    by_cases hex : ∃ k, k < T ∧ r.validAt s inp k = true
    · obtain ⟨T0, h1, h2, h3⟩ := last_of T hex
      have h3' : ∀ k, T0 < k → k < T → r.validAt s inp k = false := fun k a b => by
        have := h3 k a b
        simpa using this
      obtain ⟨t0, w0, m0, w1, m1, i1, i2, e1, e2⟩ := reports_next hs ha hr h1 h2 ((C49_valid hs ha hr T).2 ⟨t, w, m, h, hT⟩) h3'
      have hm0 := i1.runs.2.1
      have hm1 := i2.runs.2.1
      have hm := h.runs.2.1
      have ht : t = t0 + m0 := by
        rcases Nat.lt_trichotomy t (t0 + m0) with hl | hl | hl
        · exfalso
          refine h.runs.2.2.2 (t0 + m0 - t) (by omega) (by omega) ?_
          rw [show t + (t0 + m0 - t) = t0 + m0 by omega]; exact i1.runs.2.2.1
        · exact hl
        · exfalso
          refine i2.runs.2.2.2 (t - (t0 + m0)) (by omega) (by omega) ?_
          rw [show t0 + m0 + (t - (t0 + m0)) = t by omega]; exact h.runs.1.1
      have hk := shadow_keep (r := r) (s := s) (inp := inp) (T := T0 + 1) (k := T - (T0 + 1)) (fun j a b => h3' j (by omega) (by omega)) q
      rw [show T0 + 1 + (T - (T0 + 1)) = T by omega] at hk
      rw [hk, Rvfi.shadow] at hq
      have hrec := ih T0 h1 t0 w0 m0 i1 (by omega) q v
      rw [ht]
      have htr := C52_trap i1 (r := r)
      rw [← e1] at htr
      split at hq
      · next hc =>
        obtain ⟨-, hx, hd⟩ := hc
        rw [htr] at hx
        cases hw : decode w0 with
        | none => rw [C53_none i1 hw] at hx; cases hx
        | some ins =>
          obtain ⟨h5, h6⟩ := C53_rd_partial i1 hw hx (r := r)
          rw [← e1] at h5 h6
          rw [h6, ← h5, hd] at hq
          exact Option.some.inj hq
      · next hc =>
        rw [← hrec hq]
        refine C78_regs i1 ?_
        cases hx : traps (s.run inp t0).arch w0 (s.events inp t0 m0)
        · refine .inr fun ins hw he => hc ⟨h2, by rw [htr, hx], ?_⟩
          have h5 := (C53_rd_partial i1 hw hx (r := r)).1
          rw [← e1, he] at h5
          exact h5
        · exact .inl rfl
    · exfalso
      have hk := shadow_keep (r := r) (s := s) (inp := inp) (T := 0) (k := T) (fun j _ b => by
        cases hv : r.validAt s inp j
        · rfl
        · exact absurd ⟨j, by omega, hv⟩ hex) q
      rw [Nat.zero_add] at hk
      rw [hk] at hq
      cases hq

/-- **C79** (registers): the values reported for the source registers are those that earlier reports have said were
written to them. -/
theorem C79_regs (hs : AfterReset s) (ha : s.RegisteredAck inp) (hr : r.AfterReset) {T : Nat} (hv : r.validAt s inp T = true) {v : Word} :
    (r.shadow s inp T (r.run s inp T).rs1Addr = some v → (r.run s inp T).rs1Rdata = v) ∧
    (r.shadow s inp T (r.run s inp T).rs2Addr = some v → (r.run s inp T).rs2Rdata = v) := by
  obtain ⟨t, w, m, h, e⟩ := (C49_valid hs ha hr T).1 hv
  have hsh := shadow_reg hs ha hr T t w m h e
  obtain ⟨h1, h2, h3, h4⟩ := C50_rs h (r := r)
  rw [show t + m - 1 = T by omega] at h1 h2 h3 h4
  rw [h1, h2, h3, h4]
  exact ⟨hsh _ v, hsh _ v⟩

/-- The bits of a CSR that can be written. -/
def csrBits : Csr → Word
  | .mie => 0x800
  | .mtvec | .mepc => 0xFFFFFFFC
  | .mip => 0
  | .mstatus => 0x88
  | _ => 0xFFFFFFFF

theorem mie_bits (v : Word) : (if v.getLsbD 11 then 0x800#32 else 0#32) = v &&& 0x800#32 := by
  ext i hi
  by_cases h : i = 11
  · subst h
    cases hb : v.getLsbD 11 <;> simp [BitVec.getLsbD_eq_getElem] at hb ⊢ <;> exact hb
  · have h0 : (0x800#32 : Word)[i] = false := by
      exact (Nat.testBit_two_pow (n := 11) (m := i)).trans (decide_eq_false fun e => h e.symm)
    cases hb : v.getLsbD 11 <;> simp [h0]

/-- **C79** (CSRs): from power-on, what a report gives as the value of a CSR (other than mstatus and mip) before the instruction is what the report
before gave as the value after it, in the bits that exist. -/
theorem C79_csrs (ha : powerOn.RegisteredAck inp) (hr : r.AfterReset) {T T' : Nat} (hlt : T < T')
    (hv : r.validAt powerOn inp T = true) (hv' : r.validAt powerOn inp T' = true)
    (hno : ∀ k, T < k → k < T' → r.validAt powerOn inp k = false) (hc : c ≠ .mstatus ∧ c ≠ .mip) :
    ((r.run powerOn inp T').csr c).rdata = ((r.run powerOn inp T).csr c).wdata &&& csrBits c := by
  obtain ⟨t, w, m, w', m', h1, h2, rfl, rfl⟩ := reports_next (.inl rfl) ha hr hlt hv hv' hno
  rw [C54_rdata h2 hc.2 (fun e => absurd e hc.1), ← C54_always h1 hr hc.1]
  generalize ((r.run powerOn inp (t + m - 1)).csr c).wdata = v
  generalize (powerOn.run inp (t + m)).arch = a
  cases c <;> simp only [Arch.csrWrite, Arch.csrRead, csrBits]
  · simp at hc
  · have := mie_bits v
    simpa using this
  · rfl
  · exact (BitVec.and_allOnes (x := v)).symm
  · rfl
  · exact (BitVec.and_allOnes (x := v)).symm
  · simp at hc

/-- `addi x1, x0, 5`, then `addi x2, x1, 0`: the second report repeats the value of the first. -/
example : ∃ inp T T', T < T' ∧ ({} : Rvfi).validAt powerOn inp T = true ∧ ({} : Rvfi).validAt powerOn inp T' = true ∧
    (∀ k, T < k → k < T' → ({} : Rvfi).validAt powerOn inp k = false) ∧
    ({} : Rvfi).shadow powerOn inp T' (({} : Rvfi).run powerOn inp T').rs1Addr = some 5 ∧
    (({} : Rvfi).run powerOn inp T').rs1Rdata = 5 ∧ (({} : Rvfi).run powerOn inp T').pcRdata = 4 := by
  obtain ⟨inp, t, m, m', h1, h2, hq, e1, e2⟩ := demo_two [0x00500093#32, 0x00008113#32] 0
    (P := fun a => a.pc = 0 ∧ a.reg 0 = 0 ∧ (excCause a 0x00500093#32).isSome = false) (P' := fun a => a.pc = 4 ∧ a.reg 1 = 5) (w := 0x00500093#32) (w' := 0x00008113#32)
    (by decide +kernel) (by decide +kernel) (by decide +kernel) (by decide +kernel)
  have hm := h1.runs.2.1
  have hm' := h2.runs.2.1
  have hv := (C49_valid h1.reset h1.ack rvfi_reset (t + m - 1)).2 ⟨_, _, _, h1, by omega⟩
  have hv' := (C49_valid h1.reset h1.ack rvfi_reset (t + m + m' - 1)).2 ⟨_, _, _, h2, by omega⟩
  have hno : ∀ k, t + m - 1 < k → k < t + m + m' - 1 → ({} : Rvfi).validAt powerOn inp k = false := by
    intro k ha hb
    cases hk : ({} : Rvfi).validAt powerOn inp k
    · rfl
    · obtain ⟨t1, w1, m1, h3, e3⟩ := (C49_valid h1.reset h1.ack rvfi_reset k).1 hk
      exfalso
      refine h2.runs.2.2.2 (k + 1 - (t + m)) (by omega) (by omega) ?_
      rw [show t + m + (k + 1 - (t + m)) = t1 + m1 by omega]; exact h3.runs.2.2.1
  obtain ⟨-, -, h3, -⟩ := C50_rs h2 (r := {})
  have ha := (C50_rs h2 (r := {})).1
  have hrs : (0x00008113#32 : Word).extractLsb' 15 5 = 1 := by decide
  rw [hrs] at ha h3
  refine ⟨inp, t + m - 1, t + m + m' - 1, by omega, hv, hv', hno, ?_, by rw [h3]; exact e2.2, by rw [(C50_pc h2).1]; exact e2.1⟩
  have hd : decode 0x00500093#32 = some (.opImm .add 1 0 5) := by decide +kernel
  have t1 : traps (powerOn.run inp t).arch 0x00500093#32 (powerOn.events inp t m) = false := by rw [traps_low h1 hq, e1.2.2]
  obtain ⟨h5, h6⟩ := C53_rd_partial h1 hd t1 (r := {})
  have hk := shadow_keep (r := {}) (s := powerOn) (inp := inp) (T := t + m - 1 + 1) (k := m' - 1) (fun j a b => hno j (by omega) (by omega)) 1
  rw [show t + m - 1 + 1 + (m' - 1) = t + m + m' - 1 by omega] at hk
  rw [ha, hk, Rvfi.shadow, if_pos ⟨hv, by rw [C52_trap h1, t1], h5⟩, h6]
  exact congrArg some e2.2

end Sentinel
