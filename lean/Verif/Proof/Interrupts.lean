import Verif.Spec.Interrupts
import Verif.Props.Soc
/-!
# A program that is interrupted does what it does without interrupts
-/

set_option linter.unusedSimpArgs false

namespace Sentinel
open Spec

variable {k : Nat}

theorem onMem_bind {α β : Type} (b : Bool) (T : Tree α) (f : α → Tree β) (M : Mem k) :
    (T.bind f).onMem b M = (f (T.onMem b M).1).onMem b (T.onMem b M).2 := by
  induction T generalizing M with
  | ret x => rfl
  | poll g ih => exact ih b M
  | bus r g ih => exact ih _ _

theorem flat_succ (M0 : Mem k) (a0 : Arch) (n : Nat) :
    let p := flat .asBuilt false M0 a0 n
    let q := (exec .asBuilt p.1.1 p.1.2).onMem false p.2
    flat .asBuilt false M0 a0 (n + 1) = ((q.1, q.2.word q.1.pc), q.2) := by
  intro p q
  show (cycle .asBuilt p.1).onMem false p.2 = _
  rw [cycle, onMem_bind]
  rfl

theorem flat_word (M0 : Mem k) (a0 : Arch) (n : Nat) :
    let p := flat .asBuilt false M0 a0 n
    p.1.2 = p.2.word p.1.1.pc := by
  cases n with
  | zero => rfl
  | succ n => intro p; simp only [p]; rw [flat_succ]

/-- A store changes one word. -/
theorem after_other {M : Mem k} {r : Req} {i : BitVec k} (h : i ≠ r.adr.setWidth k) : (M.after r) i = M i := by
  unfold Mem.after
  split
  · simp [h]
  · rfl

theorem after_agree {M M' : Mem k} {R : BitVec k → Prop} (h : ∀ i, ¬ R i → M' i = M i) (r : Req) (i : BitVec k) (hi : ¬ R i) :
    (M'.after r) i = (M.after r) i := by
  unfold Mem.after
  split
  · simp only
    rw [h i hi]
  · exact h i hi

theorem getLsbD_read (c : Csr) (a : Arch) (mp : Bool) (irq : Bool) (hc : c ≠ .mstatus) (me mc : Word) (it : Bool) (h1 : c ≠ .mepc) (h2 : c ≠ .mcause) :
    ({ a with mpie := mp, mepc := me, mcause := mc, irqTaken := it } : Arch).csrRead irq c = a.csrRead irq c := by
  cases c <;> first | rfl | contradiction

/-- What is the same in the two runs. -/
structure Alike (R : BitVec k → Prop) (ar : Arch) (Mr : Mem k) (a : Arch) (M : Mem k) : Prop where
  same : ar.Same a
  mpie : a.mpie = ar.mpie ∨ a.mpie = true
  mem : ∀ i, ¬ R i → M i = Mr i

theorem same_set {a b : Arch} (h : a.Same b) (rd : Reg) (v : Word) : (a.setReg rd v).Same (b.setReg rd v) := by
  unfold Arch.Same at h ⊢
  rw [h]
  unfold Arch.setReg
  split <;> rfl

theorem set_mpie (a : Arch) (rd : Reg) (v : Word) : (a.setReg rd v).mpie = a.mpie := by
  unfold Arch.setReg; split <;> rfl

theorem same_pc {a b : Arch} (h : a.Same b) (p : Word) : Arch.Same { a with pc := p } { b with pc := p } := by
  unfold Arch.Same at h ⊢
  rw [h]

theorem same_reg {a b : Arch} (h : a.Same b) (r : Reg) : b.reg r = a.reg r := by
  unfold Arch.Same at h
  rw [h]; rfl

theorem same_pc' {a b : Arch} (h : a.Same b) : b.pc = a.pc := by
  unfold Arch.Same at h
  rw [h]

/-- mstatus: what is read and written differs in MPIE only. -/
theorem status_bit (a : Arch) (irq : Bool) : (a.csrRead irq .mstatus).getLsbD 3 = a.mie ∧ (a.csrRead irq .mstatus).getLsbD 7 = a.mpie := by
  simp only [Arch.csrRead]
  cases a.mie <;> cases a.mpie <;> exact ⟨by decide, by decide⟩

theorem csrNew_bit (op : CsrOp) (old old' v : Word) (i : Nat) (h : old'.getLsbD i = old.getLsbD i) :
    (csrNew op old' v).getLsbD i = (csrNew op old v).getLsbD i := by
  cases op <;> simp [-BitVec.getLsbD_eq_getElem, csrNew, h]

theorem csrNew_mono (op : CsrOp) (old old' v : Word) (i : Nat) (h : old'.getLsbD i = true) :
    (csrNew op old' v).getLsbD i = (csrNew op old v).getLsbD i ∨ (csrNew op old' v).getLsbD i = true := by
  cases op
  · exact .inl rfl
  · right; simp [-BitVec.getLsbD_eq_getElem, csrNew, h]
  · simp only [csrNew, BitVec.getLsbD_and, h, Bool.true_and]
    cases (~~~v).getLsbD i
    · left; simp
    · right; rfl

/-- One instruction of the program, in the two runs. -/
theorem main_step {R : BitVec k → Prop} {entry : Word} {ar a a' : Arch} {Mr M : Mem k} {w : Word} {ins : Instr} {l : List Event}
    (h : Alike R ar Mr a M) (hA : Apart R entry ar w) (hw : decode w = some ins)
    (hp : (execInstr .asBuilt a ins).Path l a') (hM : MemTrace M l)
    (hc : isCsr w = true → ∀ b l', l = .poll b :: l' → (b && a.intEnabled) = false) :
    let q := (execInstr .asBuilt ar ins).onMem false Mr
    Alike R q.1 q.2 a' (M.afterAll l) ∧ ∀ i, R i → (M.afterAll l) i = M i := by
  obtain ⟨hs, hmp, hmem⟩ := h
  have hpc := same_pc' hs
  have hr := fun r => same_reg hs r
  have fin : ∀ {b c : Arch}, b.Same c → (c.mpie = b.mpie ∨ c.mpie = true) → Alike R b Mr c M ∧ ∀ i, R i → M i = M i :=
    fun h1 h2 => ⟨⟨h1, h2, hmem⟩, fun _ _ => rfl⟩
  have fset : ∀ (rd : Reg) (v : Word), Alike R (ar.setReg rd v).next Mr (a.setReg rd v).next M ∧ ∀ i, R i → M i = M i := by
    intro rd v
    have h1 := same_set hs rd v
    refine fin ?_ ?_
    · unfold Arch.next; rw [same_pc' h1]; exact same_pc h1 _
    · show (a.setReg rd v).mpie = (ar.setReg rd v).mpie ∨ (a.setReg rd v).mpie = true
      rw [set_mpie, set_mpie]; exact hmp
  have fnext : Alike R ar.next Mr a.next M ∧ ∀ i, R i → M i = M i := by
    refine fin ?_ hmp
    unfold Arch.next; rw [hpc]; exact same_pc hs _
  have fjump : ∀ (rd : Reg) (v p : Word), Alike R { ar.setReg rd v with pc := p } Mr { a.setReg rd v with pc := p } M ∧ ∀ i, R i → M i = M i := by
    intro rd v p
    refine fin (same_pc (same_set hs rd v) _) ?_
    show (a.setReg rd v).mpie = (ar.setReg rd v).mpie ∨ (a.setReg rd v).mpie = true
    rw [set_mpie, set_mpie]; exact hmp
  have hexc := hA.exc
  unfold excCause at hexc
  rw [hw] at hexc
  cases ins with
  | lui rd imm => cases hp; exact fset rd _
  | auipc rd imm => cases hp; rw [hpc]; exact fset rd _
  | opImm op rd rs1 imm => cases hp; rw [hr]; exact fset rd _
  | op op rd rs1 rs2 => cases hp; rw [hr, hr]; exact fset rd _
  | fence => cases hp; exact fnext
  | wfi => cases hp; exact fnext
  | ecall => cases hexc
  | ebreak => cases hexc
  | mret => exact absurd hw hA.mret
  | jal rd imm =>
    simp only [execInstr, hpc] at hp ⊢
    dsimp only at hexc
    split at hexc
    · cases hexc
    · next hx =>
      have hx : targetOk (ar.pc + (imm ++ 0#1 : BitVec 21).signExtend 32) = true := by simpa [targetOk, aligned] using hx
      rw [if_pos hx] at hp ⊢
      cases hp
      exact fjump rd _ _
  | jalr rd rs1 imm =>
    simp only [execInstr, hpc, hr] at hp ⊢
    dsimp only at hexc
    split at hexc
    · cases hexc
    · next hx =>
      have hx : targetOk ((ar.reg rs1 + imm.signExtend 32) &&& ~~~1#32) = true := by simpa only [targetOk, aligned, ne_eq, Decidable.not_not, decide_eq_true_eq] using hx
      rw [if_pos hx] at hp ⊢
      cases hp
      exact fjump rd _ _
  | branch op rs1 rs2 imm =>
    simp only [execInstr, hpc, hr] at hp ⊢
    dsimp only at hexc
    split at hexc
    · cases hexc
    · next hx =>
      by_cases hb : brTaken op (ar.reg rs1) (ar.reg rs2) = true
      · have hx : targetOk (ar.pc + (imm ++ 0#1 : BitVec 13).signExtend 32) = true := by simpa [targetOk, aligned, hb] using hx
        rw [if_pos hb, if_pos hx] at hp ⊢
        cases hp
        exact fin (same_pc hs _) hmp
      · rw [if_neg hb] at hp ⊢
        cases hp
        exact fnext
  | load op rd rs1 imm =>
    have hd := hA.data (ar.reg rs1 + imm.signExtend 32) (by simp [dataAdr, hw])
    simp only [execInstr, hr] at hp ⊢
    dsimp only at hexc
    split at hexc
    · cases hexc
    · next hx =>
      have hx : aligned (ar.reg rs1 + imm.signExtend 32) op.size = true := by simpa only [aligned, ne_eq, Decidable.not_not, decide_eq_true_eq] using hx
      rw [if_pos hx] at hp ⊢
      cases hp with
      | @bus _ _ d _ _ hp =>
        cases hp
        have hd' : d = M (wordIdx k (ar.reg rs1 + imm.signExtend 32)) := hM.1 rfl
        rw [hmem _ hd] at hd'
        subst hd'
        exact fset rd _
  | store op rs1 rs2 imm =>
    have hd := hA.data (ar.reg rs1 + imm.signExtend 32) (by simp [dataAdr, hw])
    simp only [execInstr, hr] at hp ⊢
    dsimp only at hexc
    split at hexc
    · cases hexc
    · next hx =>
      have hx : aligned (ar.reg rs1 + imm.signExtend 32) op.size = true := by simpa only [aligned, ne_eq, Decidable.not_not, decide_eq_true_eq] using hx
      rw [if_pos hx] at hp ⊢
      cases hp with
      | @bus _ _ d _ _ hp =>
        cases hp
        obtain ⟨⟨n1, n2, -⟩, -⟩ := fnext
        refine ⟨⟨n1, n2, fun i hi => after_agree hmem (writeReq (ar.reg rs1 + imm.signExtend 32) op.size (ar.reg rs2)) i hi⟩, fun i hi => ?_⟩
        refine after_other (M := M) (r := writeReq (ar.reg rs1 + imm.signExtend 32) op.size (ar.reg rs2)) fun e => hd ?_
        rw [e] at hi
        exact hi
  | csr op rd src adr =>
    obtain ⟨c1, c2, c3, c4⟩ := hA.csr op rd src adr hw
    have hcs : isCsr w = true := by simp [isCsr, hw]
    have hop : a.csrOperand src = ar.csrOperand src := by
      cases src
      · exact hr _
      · rfl
    simp only [execInstr] at hp ⊢
    cases hp with
    | @poll _ b l _ hp =>
      have hb := hc hcs b l rfl
      beta_reduce at hp
      rw [hb] at hp
      simp only [Tree.onMem, Bool.false_and, Bool.false_eq_true, if_false] at hp ⊢
      show Alike R _ _ a' (M.afterAll l) ∧ ∀ i, R i → (M.afterAll l) i = M i
      dsimp only at hexc
      split at hexc
      · cases hexc
      next hx =>
      rw [not_or] at hx
      cases hk : csrKind adr with
      | absent => exact absurd hk hx.1
      | zero =>
        rw [hk] at hp
        simp only at hp ⊢
        rw [if_neg hx.2] at hp ⊢
        cases hp
        exact fset rd _
      | impl c =>
        rw [hk] at hp c1 c2 c3 c4
        simp only at hp ⊢
        have hcm : ¬ (c = .mip ∧ csrReads op rd = true) := by rintro ⟨rfl, -⟩; exact c3 rfl
        unfold execCsr at hp ⊢
        simp only at hp ⊢
        rw [if_neg hcm] at hp ⊢
        cases hp
        rw [hop]
        by_cases hst : c = .mstatus
        · subst hst
          have h3 : (a.csrRead false .mstatus).getLsbD 3 = (ar.csrRead false .mstatus).getLsbD 3 := by
            rw [(status_bit _ _).1, (status_bit _ _).1, hs]
          -- what goes to the register is the same
          have hset : (ar.setReg rd (ar.csrRead false .mstatus)).Same (a.setReg rd (a.csrRead false .mstatus)) := by
            rcases c4 rfl with h0 | h0
            · subst h0; exact hs
            · have : a.csrRead false .mstatus = ar.csrRead false .mstatus := by
                have h7 : a.mpie = ar.mpie := by rcases hmp with g | g <;> rw [g]; rw [h0]
                have h8 : a.mie = ar.mie := by rw [hs]
                simp only [Arch.csrRead, h7, h8]
              rw [this]; exact same_set hs _ _
          cases csrWrites op src with
          | false =>
            simp only [Bool.false_eq_true, if_false]
            refine fin ?_ ?_
            · unfold Arch.next; rw [same_pc' hset]; exact same_pc hset _
            · show (a.setReg rd _).mpie = (ar.setReg rd _).mpie ∨ (a.setReg rd _).mpie = true
              rw [set_mpie, set_mpie]; exact hmp
          | true =>
            simp only [if_true]
            refine fin ?_ ?_
            · have hb3 := csrNew_bit op _ _ (ar.csrOperand src) 3 h3
              unfold Arch.next
              simp only [Arch.csrWrite]
              rw [hb3]
              generalize ar.setReg rd _ = x at *
              generalize a.setReg rd _ = y at *
              unfold Arch.Same at hset
              rw [hset]
              rfl
            · show (csrNew op _ _).getLsbD 7 = (csrNew op _ _).getLsbD 7 ∨ (csrNew op _ _).getLsbD 7 = true
              rcases hmp with g | g
              · left
                exact csrNew_bit op _ _ _ 7 (by rw [(status_bit _ _).2, (status_bit _ _).2, g])
              · exact csrNew_mono op _ _ _ 7 (by rw [(status_bit _ _).2, g])
        · have h1 : c ≠ .mepc := fun e => c1 (by rw [e])
          have h2 : c ≠ .mcause := fun e => c2 (by rw [e])
          have hrd : a.csrRead false c = ar.csrRead false c := by
            unfold Arch.Same at hs; rw [hs]; exact getLsbD_read c ar _ _ hst _ _ _ h1 h2
          rw [hrd]
          have hset := same_set hs rd (ar.csrRead false c)
          cases csrWrites op src with
          | false => exact fset rd _
          | true =>
            simp only [if_true]
            refine fin ?_ ?_
            · generalize ar.setReg rd _ = x at *
              generalize a.setReg rd _ = y at *
              unfold Arch.Same at hset
              rw [hset]
              cases c <;> first | rfl | contradiction
            · have e1 := set_mpie a rd (ar.csrRead false c)
              have e2 := set_mpie ar rd (ar.csrRead false c)
              generalize ar.setReg rd _ = x at *
              generalize a.setReg rd _ = y at *
              have : ∀ z : Arch, ((z.csrWrite (csrNew op (ar.csrRead false c) (ar.csrOperand src)) c).next).mpie = z.mpie := by
                intro z; cases c <;> first | rfl | contradiction
              rw [this]
              show y.mpie = ((x.csrWrite _ c).next).mpie ∨ _
              rw [this, e1, e2]
              exact hmp

namespace Soc
variable {s : Soc k} {irq : Nat → Bool} {t m : Nat} {w : Word}

/-- The word dispatched is the word at the program counter. -/
theorem dispatch_word (h : AfterReset s) (hd : s.cpu.Dispatches (s.inputs irq) t w) :
    w = (s.run irq t).ram.mem.word (s.run irq t).cpu.arch.pc := by
  have hr := C29_state h.cpu (registered h) hd
  obtain ⟨l, hl⟩ := Runs.last hr
  have hM := (inv (irq := irq) h (t - 1)).1
  have hram := dispatch_ram h hd
  rw [hl] at hM hram
  rw [MemTrace.append] at hM
  rw [hram, Mem.afterAll_append, run_cpu]
  exact hM.2.1 rfl

/-- One instruction of the core is one instruction of the instruction-set machine. -/
theorem exec_step (h : AfterReset s) (he : s.cpu.Executes (s.inputs irq) t w m) :
    ∃ l, (exec .asBuilt (s.run irq t).cpu.arch w).Path (.poll (irq t) :: l) (s.run irq (t + m)).cpu.arch ∧
      MemTrace (s.run irq t).ram.mem l ∧ (s.run irq (t + m)).ram.mem = (s.run irq t).ram.mem.afterAll l ∧
      (∃ w', s.cpu.events (s.inputs irq) t m = .poll (irq t) :: l ++ [.bus (fetchReq (s.run irq (t + m)).cpu.arch) w']) ∧
      ∃ w', s.cpu.Dispatches (s.inputs irq) (t + m) w' := by
  have hO : OneInstr s.cpu (s.inputs irq) t w m := ⟨h.cpu, registered h, he⟩
  obtain ⟨l, w', hp, hl, hd, l', rfl⟩ := hO.path
  have hd0 := he.1
  have ht := hd0.1.1
  have hall := s.cpu.events_add (s.inputs irq) 1 (t - 1) m
  rw [show 1 + (t - 1) = t by omega, show t - 1 + m = t + m - 1 by omega] at hall
  have hM := (inv (irq := irq) h (t + m - 1)).1
  rw [hall, MemTrace.append, ← dispatch_ram h hd0, hl, MemTrace.append] at hM
  refine ⟨l', by rw [run_cpu, run_cpu]; exact hp, hM.2.1, ?_, ⟨w', by rw [run_cpu]; exact hl⟩, w', hd⟩
  rw [dispatch_ram h hd, hall, Mem.afterAll_append, ← dispatch_ram h hd0, hl, Mem.afterAll_append]
  rfl

end Soc

end Sentinel
