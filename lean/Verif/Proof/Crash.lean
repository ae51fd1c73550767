import Verif.Spec.Crash
import Verif.Proof.RvfiRegs
import Verif.Props.Decode
/-!
# Where the microcode writes the destination register

Each routine but those of the shifts writes it at most once.
-/

set_option linter.unusedSimpArgs false

namespace Sentinel
open Ucode Spec

variable {s : State} {inp : Nat → Input} {t m : Nat} {w : Word}

/-- The microaddresses of the shift routines. -/
def shiftSet : List Nat :=
  [65, 69, 77, 89, 90, 91, 92, 93, 94, 95, 96, 97, 98, 99, 100, 101, 102, 103, 193, 197, 205, 216, 217, 218, 220, 221, 222, 224, 225, 226]

/-- The microaddresses that are reached after a register has been written, but for those of the shift routines. -/
def wroteSet : List Nat := [0, 58, 62, 63, 182]

/-- What the graph of the microcode says about the microinstruction at `k`, if it is neither in a shift nor at the very beginning. -/
def crashOk (k : Nat) : Bool :=
  shiftSet.contains k || k == 2 || k == 3 || k == 4 ||
  ((decide ((romT k).jmpType = .map) || bools.all fun e => bools.all fun z => bools.all fun a =>
      !shiftSet.contains (nextT k e z a).toNat &&
        ((nextT k e z a).toNat == 1 || !((romT k).regWrite || wroteSet.contains k) || wroteSet.contains (nextT k e z a).toNat)) &&
    (!wroteSet.contains k || (!(romT k).regWrite && !decide ((romT k).jmpType = .map))) &&
    (!decide ((romT k).jmpType = .map) || !(romT k).regWrite))

theorem crash_all : live.all crashOk = true := by decide +kernel

theorem nextT_eq {k : BitVec 8} {σ : State} (h : LiveAt k σ) (hm : σ.uop.jmpType ≠ .map) (i : Input) :
    σ.romAdr i = nextT k.toNat (σ.exception i) (aluZero σ.aluO) i.ack := by
  simp only [State.romAdr, nextT, h.rstGuard, h.next, h.uop, rom_eq] at hm ⊢
  unfold State.test
  rw [h.uop, rom_eq]
  cases hj : (romT k.toNat).jmpType
  case map => exact absurd hj hm
  all_goals simp [seqAdr]

/-- A word that is no shift is not dispatched to a shift routine. -/
theorem entry_noShift (hns : ∀ ins, decode w = some ins → isShift ins = false) (d : DecState) (hx : d.exc.fwd = false) (hm : d.map.fwd = false) :
    (d.step true w).exc.valid = true ∨ (d.step true w).map.requestedOp.toNat ∉ shiftSet := by
  cases hd : decode w with
  | none => exact .inl (C42_flagged (.inl hd) d hx)
  | some ins =>
    have hs := hns ins hd
    by_cases he : ins = .ecall
    · subst he; exact .inl (C42_flagged (.inr (.inl hd)) d hx)
    by_cases hb : ins = .ebreak
    · subst hb; exact .inl (C42_flagged (.inr (.inr hd)) d hx)
    right
    have hdd := decoded hd
    have hgo : ∃ a : BitVec 8, (∀ old, mapOp w old = a) ∧ a.toNat ∉ shiftSet := by
      cases ins with
      | lui => exact ⟨_, hdd.1.2.2, by decide⟩
      | auipc => exact ⟨_, hdd.1.2.2, by decide⟩
      | jal => exact ⟨_, hdd.1.2.2, by decide⟩
      | jalr => exact ⟨_, hdd.1.2.2, by decide⟩
      | branch op => exact ⟨_, hdd.1.2.2, by cases op <;> decide⟩
      | load op => exact ⟨_, hdd.1.2.2, by cases op <;> decide⟩
      | store op => exact ⟨_, hdd.1.2.2, by cases op <;> decide⟩
      | opImm op => exact ⟨_, hdd.1.2.2, by cases op <;> first | (cases hs; done) | decide⟩
      | op op => exact ⟨_, hdd.1.2.2, by cases op <;> first | (cases hs; done) | decide⟩
      | fence => exact ⟨_, hdd.2.2, by decide⟩
      | wfi => exact ⟨_, hdd.2.2, by decide⟩
      | mret => exact ⟨_, hdd.2.2, by decide⟩
      | ecall => exact absurd rfl he
      | ebreak => exact absurd rfl hb
      | csr op rd src adr =>
        obtain ⟨h1, h2, -⟩ := hdd
        refine ⟨0x24#8, fun old => ?_, by decide⟩
        simp only [isCsrInsn, Bool.and_eq_true, Bool.not_eq_true', decide_eq_false_iff_not, decide_eq_true_eq] at h2
        simp [mapOp, h2]
    obtain ⟨a, h1, h2⟩ := hgo
    simpa [DecState.step, MapState.step, hm, h1] using h2

theorem csrTargets_noShift : csrTargets.all (fun x => !shiftSet.contains x.toNat) = true := by decide +kernel

/-- While a word that is no shift is executed: no microinstruction of a shift; and after a register has been written none is
written until the next dispatch. -/
theorem once_at (h : AfterReset s) (hr : s.RegisteredAck inp) (he : s.Executes inp t w m)
    (hns : ∀ ins, decode w = some ins → isShift ins = false) : ∀ j < m, ∃ k, LiveAt k (s.run inp (t + j)) ∧ k ≠ 4#8 ∧ k.toNat ∉ shiftSet ∧
      (j = 0 → k = 1#8) ∧ ((∃ i < j, (s.run inp (t + i)).uop.regWrite = true) → k.toNat ∈ wroteSet) := by
  have ht := dispatch_late h he.1.1
  intro j
  induction j with
  | zero =>
    intro _
    obtain ⟨T, hT⟩ : ∃ T, t = T + 4 := ⟨t - 4, by omega⟩
    obtain ⟨k, hk, -, -, k4⟩ := late_k h inp T
    rw [← hT] at hk
    have e : k = 1#8 := by
      have hu := hk.uop
      rw [he.1.1.2, rom_01] at hu
      rcases hk.map_k (by rw [he.1.1.2, rom_01]; rfl) with e | e
      · exact e
      · rw [e, rom_24] at hu
        simp [u_01, u_24] at hu
    exact ⟨k, hk, k4, by rw [e]; decide, fun _ => e, fun ⟨i, hi, _⟩ => absurd hi (by omega)⟩
  | succ j ih =>
    intro hj
    obtain ⟨k, hk, k4, hns', k1, hw⟩ := ih (by omega)
    have hk' := hk.step (inp (t + j))
    have hnd : ¬ s.Dispatching inp (t + (j + 1)) := he.2.2.2 (j + 1) (by omega) hj
    have hne1 : (s.run inp (t + j)).romAdr (inp (t + j)) ≠ 1#8 := by
      intro e
      refine hnd ⟨by omega, ?_⟩
      rw [show s.run inp (t + (j + 1)) = (s.run inp (t + j)).step (inp (t + j)) from rfl, hk'.uop, e]
    have hl : (s.run inp (t + j)).uop = romT k.toNat := by rw [hk.uop, rom_eq]
    have hc := List.all_eq_true.mp crash_all _ hk.live
    have k2 : k ≠ 2#8 ∧ k ≠ 3#8 := by
      obtain ⟨T, hT⟩ : ∃ T, t + j = T + 4 := ⟨t + j - 4, by omega⟩
      obtain ⟨k', hk2, n2, n3, -⟩ := late_k h inp T
      rw [← hT] at hk2
      have : k = k' := by
        have e1 := hk.next
        rw [hk2.next] at e1
        bv_omega
      rw [this]; exact ⟨n2, n3⟩
    have hc : ((decide ((romT k.toNat).jmpType = .map) || bools.all fun e => bools.all fun z => bools.all fun a =>
          !shiftSet.contains (nextT k.toNat e z a).toNat &&
          ((nextT k.toNat e z a).toNat == 1 || !((romT k.toNat).regWrite || wroteSet.contains k.toNat) ||
            wroteSet.contains (nextT k.toNat e z a).toNat)) = true) ∧
        (k.toNat ∈ wroteSet → (romT k.toNat).regWrite = false ∧ (romT k.toNat).jmpType ≠ .map) ∧
        ((romT k.toNat).jmpType = .map → (romT k.toNat).regWrite = false) := by
      have n2 : k.toNat ≠ 2 := fun e => k2.1 (BitVec.eq_of_toNat_eq e)
      have n3 : k.toNat ≠ 3 := fun e => k2.2 (BitVec.eq_of_toNat_eq e)
      have n4 : k.toNat ≠ 4 := fun e => k4 (BitVec.eq_of_toNat_eq e)
      unfold crashOk at hc
      rw [show shiftSet.contains k.toNat = false by simpa using hns', beq_eq_false_iff_ne.2 n2, beq_eq_false_iff_ne.2 n3,
        beq_eq_false_iff_ne.2 n4] at hc
      simp only [Bool.false_or, Bool.and_eq_true] at hc
      obtain ⟨⟨c1, c2⟩, c3⟩ := hc
      refine ⟨c1, fun hin => ?_, fun hj => ?_⟩
      · rw [show wroteSet.contains k.toNat = true by simpa using hin] at c2
        simpa using c2
      · rw [decide_eq_true hj] at c3
        simpa using c3
    obtain ⟨c1, c2, c3⟩ := hc
    have hnext4 : (s.run inp (t + j)).romAdr (inp (t + j)) ≠ 4#8 := fun e => k2.2 ((hk.romAdr_live (inp (t + j))).2.2.2.1.1 e)
    refine ⟨_, hk', hnext4, ?_, fun e => absurd e (by omega), ?_⟩
    · by_cases hm : (romT k.toNat).jmpType = .map
      · obtain ⟨h1, h2⟩ := hk.romAdr_map (by rw [hl]; exact hm) (inp (t + j))
        rcases h1 with h1 | h1
        · rw [h1]; decide
        · by_cases hv : (s.run inp (t + j)).dec.exc.valid = true
          · rw [h2 hv]; decide
          · rw [h1]
            rcases hk.map_k (by rw [hl]; exact hm) with e | e
            · -- dispatch
              have hj0 : j = 0 := by
                by_contra hj0
                refine he.2.2.2 j (by omega) (by omega) ⟨by omega, ?_⟩
                rw [hk.uop, e]
              subst hj0
              obtain ⟨d0, d1, d2, hd⟩ := (he.1.at h hr).dec
              have hd : (s.run inp (t + 0)).dec = d0.step true w := hd
              rcases entry_noShift hns d0 d2 d1 with h3 | h3
              · rw [hd, h3] at hv; exact absurd rfl hv
              · rw [hd]; exact h3
            · rcases hk.tramp e with h3 | h3
              · exact absurd h3 hv
              · have := List.all_eq_true.mp csrTargets_noShift _ h3
                simpa using this
      · rw [nextT_eq hk (by rw [hl]; exact hm)]
        rw [decide_eq_false hm, Bool.false_or] at c1
        have := bools_all (bools_all (bools_all c1 ((s.run inp (t + j)).exception (inp (t + j)))) (aluZero (s.run inp (t + j)).aluO)) (inp (t + j)).ack
        simp only [Bool.and_eq_true] at this
        simpa using this.1
    · rintro ⟨i, hi, hwr⟩
      have hin : (romT k.toNat).regWrite = true ∨ k.toNat ∈ wroteSet := by
        by_cases e : i = j
        · subst e; left; rw [← hl]; exact hwr
        · right; exact hw ⟨i, by omega, hwr⟩
      have hm : (romT k.toNat).jmpType ≠ .map := by
        rcases hin with h1 | h1
        · intro e; rw [c3 e] at h1; cases h1
        · exact (c2 h1).2
      rw [nextT_eq hk (by rw [hl]; exact hm)] at hne1 ⊢
      rw [decide_eq_false hm, Bool.false_or] at c1
      have := bools_all (bools_all (bools_all c1 ((s.run inp (t + j)).exception (inp (t + j)))) (aluZero (s.run inp (t + j)).aluO)) (inp (t + j)).ack
      simp only [Bool.and_eq_true] at this
      have h2 := this.2
      have hne : ((nextT k.toNat ((s.run inp (t + j)).exception (inp (t + j))) (aluZero (s.run inp (t + j)).aluO) (inp (t + j)).ack).toNat == 1) = false := by
        rw [beq_eq_false_iff_ne]; intro e; exact hne1 (BitVec.eq_of_toNat_eq e)
      have hin' : ((romT k.toNat).regWrite || wroteSet.contains k.toNat) = true := by
        rcases hin with h1 | h1
        · rw [h1]; rfl
        · rw [show wroteSet.contains k.toNat = true by simpa using h1, Bool.or_true]
      rw [hne, hin'] at h2
      simpa using h2

/-! ## Registers -/

theorem gp_inj {a b : Reg} (h : gpRamAdr a = gpRamAdr b) : a = b := by
  have h2 := congrArg BitVec.toNat h
  simp only [gpRamAdr, BitVec.toNat_append] at h2
  apply BitVec.eq_of_toNat_eq
  simpa using h2

theorem gp_keep {σ : State} {i : Input} (hw : σ.uop.regWrite = false) (q : Reg) : (σ.step i).mem (gpRamAdr q) = σ.mem (gpRamAdr q) := by
  rw [mem_gp_step, if_neg]
  rintro ⟨-, h, -⟩
  rw [hw] at h; cases h

/-- Only the destination register of the word changes. -/
theorem gp_other (h : AfterReset s) (hr : s.RegisteredAck inp) (he : s.Executes inp t w m) {q : Reg} (hq : q ≠ insnRd w) :
    ∀ j ≤ m, (s.run inp (t + j)).mem (gpRamAdr q) = (s.run inp t).mem (gpRamAdr q) := by
  have ht := dispatch_late h he.1.1
  intro j
  induction j with
  | zero => intro _; rfl
  | succ j ih =>
    intro hj
    rw [← ih (by omega)]
    obtain ⟨T, hT⟩ : ∃ T, t + j = T + 4 := ⟨t + j - 4, by omega⟩
    obtain ⟨k, hk, -, -, k4⟩ := late_k h inp T
    have hd := (dec_at h hr he (j := j) (by omega)).1
    rw [← hT] at hk
    have hsel : (s.run inp (t + j)).uop.regWSel = .rd := by
      cases hs : (s.run inp (t + j)).uop.regWSel
      · rfl
      · exact absurd (BitVec.eq_of_toNat_eq (hk.node.zero.1 hs)) k4
    have hwa : (s.run inp (t + j)).regWAdr = gpRamAdr (insnRd w) := by
      simp [State.regWAdr, hsel, hd]
    show ((s.run inp (t + j)).step (inp (t + j))).mem (gpRamAdr q) = _
    rw [mem_gp_step, if_neg]
    rintro ⟨-, -, h3, -⟩
    rw [hwa] at h3
    exact hq (gp_inj h3).symm

/-- While a word that is no shift is executed, the registers are those before or those after. -/
theorem gp_once (h : AfterReset s) (hr : s.RegisteredAck inp) (he : s.Executes inp t w m)
    (hns : ∀ ins, decode w = some ins → isShift ins = false) {j : Nat} (hj : j ≤ m) :
    (∀ q, (s.run inp (t + j)).mem (gpRamAdr q) = (s.run inp t).mem (gpRamAdr q)) ∨
      ∀ q, (s.run inp (t + j)).mem (gpRamAdr q) = (s.run inp (t + m)).mem (gpRamAdr q) := by
  by_cases hw : ∃ i < j, (s.run inp (t + i)).uop.regWrite = true
  · right
    intro q
    have key : ∀ d, j + d ≤ m → (s.run inp (t + (j + d))).mem (gpRamAdr q) = (s.run inp (t + j)).mem (gpRamAdr q) := by
      intro d
      induction d with
      | zero => intro _; rfl
      | succ d ih =>
        intro hd
        rw [← ih (by omega)]
        obtain ⟨k, hk, k4, hns', -, hwr⟩ := once_at h hr he hns (j + d) (by omega)
        obtain ⟨i, hi, hw⟩ := hw
        have hin := hwr ⟨i, by omega, hw⟩
        refine gp_keep ?_ q
        show (s.run inp (t + (j + d))).uop.regWrite = false
        rw [hk.uop, rom_eq]
        have := List.all_eq_true.mp (show wroteSet.all (fun k => !(romT k).regWrite) = true by decide +kernel) _ hin
        simpa using this
    have := key (m - j) (by omega)
    rw [show j + (m - j) = m by omega] at this
    exact this.symm
  · left
    intro q
    have key : ∀ d ≤ j, (s.run inp (t + d)).mem (gpRamAdr q) = (s.run inp t).mem (gpRamAdr q) := by
      intro d
      induction d with
      | zero => intro _; rfl
      | succ d ih =>
        intro hd
        rw [← ih (by omega)]
        refine gp_keep ?_ q
        by_contra h1
        exact hw ⟨d, by omega, by simpa using h1⟩
    exact key j (Nat.le_refl j)

/-- Before the first dispatch: the registers but for `x0` do not change, and there is no write request. -/
theorem gp_boot (h : AfterReset s) (inp : Nat → Input) : ∀ t, (∀ u ≤ t, ¬ s.Dispatching inp u) →
    (∀ q, q ≠ 0#5 → (s.run inp t).mem (gpRamAdr q) = s.mem (gpRamAdr q)) ∧ ((s.run inp t).cyc = true → (s.run inp t).we = false) ∧
      (1 ≤ t → ∃ k, LiveAt k (s.run inp t) ∧ (k = 2#8 ∨ k = 3#8 ∨ k = 4#8 ∨ k = 5#8 ∨ k = 0#8)) := by
  have hs : ∃ u mem rd, s = State.resetRegs u mem rd := by
    rcases h with rfl | ⟨σ, en, i, -, rfl⟩ <;> exact ⟨_, _, _, rfl⟩
  intro t
  induction t with
  | zero =>
    intro _
    refine ⟨fun _ _ => rfl, ?_, by omega⟩
    obtain ⟨u, mem, rd, rfl⟩ := hs
    intro hc
    rw [State.run, cyc_resetRegs] at hc
    cases hc
  | succ t ih =>
    intro hnd
    obtain ⟨i1, -, i3⟩ := ih (fun u hu => hnd u (by omega))
    have hk : ∃ k, LiveAt k (s.run inp (t + 1)) ∧ (k = 2#8 ∨ k = 3#8 ∨ k = 4#8 ∨ k = 5#8 ∨ k = 0#8) := by
      cases t with
      | zero =>
        obtain ⟨k, hk⟩ := live_run h inp 0
        obtain ⟨u, mem, rd, rfl⟩ := hs
        have hb := boot_first u mem rd (inp 0)
        have : k + 1#8 = 3#8 := by rw [← hk.next]; exact hb.2.1
        exact ⟨k, hk, .inl (by bv_omega)⟩
      | succ t =>
        obtain ⟨k, hk, hcase⟩ := i3 (by omega)
        refine ⟨_, hk.step (inp (t + 1)), ?_⟩
        have hu := hk.uop
        have hne1 : (s.run inp (t + 1)).romAdr (inp (t + 1)) ≠ 1#8 := by
          intro e
          refine hnd (t + 1 + 1) (Nat.le_refl _) ⟨by omega, ?_⟩
          rw [← e]; exact (hk.step (inp (t + 1))).uop
        have hnm : (s.run inp (t + 1)).uop.jmpType ≠ .map := by
          intro e
          rcases hk.map_k e with e | e <;> rw [e] at hcase <;> revert hcase <;> decide
        rw [nextT_eq hk hnm] at hne1 ⊢
        generalize (s.run inp (t + 1)).exception (inp (t + 1)) = e at *
        generalize aluZero (s.run inp (t + 1)).aluO = z at *
        generalize (inp (t + 1)).ack = a at *
        have key : ∀ k ∈ [2#8, 3#8, 4#8, 5#8, 0#8], ∀ e z a, nextT (BitVec.toNat k) e z a = 1#8 ∨ nextT (BitVec.toNat k) e z a ∈ [2#8, 3#8, 4#8, 5#8, 0#8] := by
          decide +kernel
        have := key k (by simpa using hcase) e z a
        rcases this with h | h
        · exact absurd h hne1
        · simpa using h
    obtain ⟨k, hk, hcase⟩ := hk
    refine ⟨?_, ?_, fun _ => ⟨k, hk, hcase⟩⟩
    · intro q hq
      rw [← i1 q hq]
      cases t with
      | zero => exact (boot_run hs inp).2.2.2.2.2 q hq
      | succ t =>
        obtain ⟨k, hk, hcase⟩ := i3 (by omega)
        show ((s.run inp (t + 1)).step (inp (t + 1))).mem (gpRamAdr q) = _
        rw [mem_gp_step, if_neg]
        rintro ⟨-, h2, h3, -⟩
        rw [hk.uop] at h2
        rcases hcase with rfl | rfl | rfl | rfl | rfl
        · rw [rom_02] at h2; cases h2
        · rw [rom_03] at h2; cases h2
        · have : (s.run inp (t + 1)).uop.regWSel = .zero := by rw [hk.uop, rom_04]; rfl
          rw [State.regWAdr, this] at h3
          exact hq (gp_inj (a := 0#5) h3).symm
        · rw [rom_05] at h2; cases h2
        · rw [rom_00] at h2; cases h2
    · intro _
      rw [State.we, hk.uop]
      rcases hcase with rfl | rfl | rfl | rfl | rfl
      · rw [rom_02]; rfl
      · rw [rom_03]; rfl
      · rw [rom_04]; rfl
      · rw [rom_05]; rfl
      · rw [rom_00]; rfl

end Sentinel
