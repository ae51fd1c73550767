import Verif.Proof.Crash
import Verif.Proof.SocRun
/-!
# Memory and registers between two dispatches
-/

set_option linter.unusedSimpArgs false

namespace Sentinel
open Ucode Spec

/-! ## The events of an instruction -/

/-- The computation makes no write request. -/
def Tree.Reads {α : Type} : Tree α → Prop
  | .ret _ => True
  | .poll f => ∀ b, Tree.Reads (f b)
  | .bus r f => r.we = false ∧ ∀ d, Tree.Reads (f d)

theorem Tree.Reads.bind {α β : Type} {T : Tree α} {f : α → Tree β} (h : Tree.Reads T)
    (hf : ∀ x, Tree.Reads (f x)) : Tree.Reads (T.bind f) := by
  induction T with
  | ret x => exact hf x
  | poll g ih => exact fun b => ih b (h b)
  | bus r g ih => exact ⟨h.1, fun d => ih d (h.2 d)⟩

theorem reads_fetch (a : Arch) : Tree.Reads (fetch a) := ⟨rfl, fun _ => trivial⟩

theorem reads_ite {α : Type} {c : Prop} [Decidable c] {T U : Tree α} (h1 : Tree.Reads T)
    (h2 : Tree.Reads U) : Tree.Reads (if c then T else U) := by split <;> assumption

theorem reads_execCsr (a : Arch) (op : CsrOp) (rd : Reg) (src : CsrSrc) (c : Csr) :
    Tree.Reads (execCsr a op rd src c) :=
  reads_ite (fun _ => reads_ite (fun _ => trivial) trivial) trivial

theorem reads_instr (cfg : Cfg) (a : Arch) (ins : Instr) (hs : ∀ op rs1 rs2 imm, ins ≠ .store op rs1 rs2 imm) :
    Tree.Reads (execInstr cfg a ins) := by
  cases ins with
  | lui | auipc | opImm | op | fence | wfi | ecall | ebreak | mret => trivial
  | jal => exact reads_ite trivial trivial
  | jalr => exact reads_ite trivial trivial
  | branch => exact reads_ite (reads_ite trivial trivial) trivial
  | load => exact reads_ite ⟨rfl, fun _ => trivial⟩ trivial
  | store => exact absurd rfl (hs _ _ _ _)
  | csr op rd src adr =>
    intro b
    refine reads_ite trivial ?_
    cases csrKind adr with
    | absent => trivial
    | zero => exact reads_ite trivial trivial
    | impl c => exact reads_execCsr _ _ _ _ _

theorem reads_cycle (cfg : Cfg) (a : Arch) (w : Word) (hs : ∀ op rs1 rs2 imm, decode w ≠ some (.store op rs1 rs2 imm)) :
    Tree.Reads (cycle cfg (a, w)) := by
  refine Tree.Reads.bind ?_ reads_fetch
  intro b
  refine reads_ite trivial ?_
  simp only
  cases hd : decode w with
  | none => trivial
  | some ins => exact reads_instr _ _ _ fun _ _ _ _ e => hs _ _ _ _ (by rw [hd, e])

theorem reads_path {α : Type} {T : Tree α} {l : List Event} {x : α} (hp : T.Path l x) (hT : Tree.Reads T) :
    ∀ r d, Event.bus r d ∈ l → r.we = false := by
  induction hp with
  | ret => intro r d h; cases h
  | poll _ ih => intro r d h; simp only [List.mem_cons, reduceCtorEq, false_or] at h; exact ih (hT _) r d h
  | bus _ ih =>
    intro r d h
    rcases List.mem_cons.1 h with e | h
    · cases e; exact hT.1
    · exact ih (hT.2 _) r d h

theorem afterAll_reads {k : Nat} (M : Mem k) : ∀ l : List Event, (∀ r d, Event.bus r d ∈ l → r.we = false) → M.afterAll l = M := by
  intro l
  induction l with
  | nil => intro _; rfl
  | cons e l ih =>
    intro h
    have h' := ih fun r d hm => h r d (List.mem_cons_of_mem _ hm)
    cases e with
    | poll b => exact h'
    | bus r d =>
      simp only [Mem.afterAll]
      rw [show M.after r = M by simp [Mem.after, h r d (by simp)]]
      exact h'

/-- A store changes no register; and the memory after some of its events is that before or that after. -/
theorem store_path {cfg : Cfg} {k : Nat} {a : Arch} {w : Word} {op : StOp} {rs1 rs2 : Reg} {imm : BitVec 12} {l : List Event}
    {x : Arch × Word} (hd : decode w = some (.store op rs1 rs2 imm)) (hp : (cycle cfg (a, w)).Path l x) (M : Mem k) :
    (∀ q, x.1.reg q = a.reg q) ∧ ∀ p q, l = p ++ q → M.afterAll p = M ∨ M.afterAll p = M.afterAll l := by
  have key : (∀ q, x.1.reg q = a.reg q) ∧ ((∃ b w', l = [.poll b, .bus (fetchReq x.1) w']) ∨
      ∃ b r d w', l = [.poll b, .bus r d, .bus (fetchReq x.1) w']) := by
    unfold cycle exec at hp
    rw [Tree.bind_poll] at hp
    cases hp with
    | @poll _ b l' _ hp =>
      beta_reduce at hp
      by_cases hb : (b && a.intEnabled) = true
      · rw [if_pos hb] at hp
        cases hp with
        | bus hp => cases hp; exact ⟨fun _ => rfl, .inl ⟨_, _, rfl⟩⟩
      · rw [if_neg hb] at hp
        simp only [hd, execInstr] at hp
        by_cases ha : aligned (a.reg rs1 + imm.signExtend 32) op.size = true
        · rw [if_pos ha] at hp
          cases hp with
          | bus hp =>
            cases hp with
            | bus hp => cases hp; exact ⟨fun _ => rfl, .inr ⟨_, _, _, _, rfl⟩⟩
        · rw [if_neg ha] at hp
          cases hp with
          | bus hp => cases hp; exact ⟨fun _ => rfl, .inl ⟨_, _, rfl⟩⟩
  refine ⟨key.1, fun p q e => ?_⟩
  have hf : ∀ M : Mem k, M.after (fetchReq x.1) = M := fun M => by simp [Mem.after, fetchReq]
  rcases key.2 with ⟨b, w', rfl⟩ | ⟨b, r, d, w', rfl⟩
  · left
    refine afterAll_reads M p fun r d hm => ?_
    have : Event.bus r d ∈ p ++ q := List.mem_append_left _ hm
    rw [← e] at this
    simp at this
    rw [this.1]; rfl
  · rcases p with _ | ⟨e1, _ | ⟨e2, p⟩⟩
    · left; rfl
    · left
      simp only [List.cons_append, List.nil_append, List.cons.injEq] at e
      rw [← e.1]; rfl
    · right
      simp only [List.cons_append, List.cons.injEq] at e
      rw [← e.1, ← e.2.1]
      simp only [Mem.afterAll, hf]
      refine afterAll_reads _ p fun r' d' hm => ?_
      have : Event.bus r' d' ∈ p ++ q := List.mem_append_left _ hm
      rw [← e.2.2] at this
      simp at this
      rw [this.1]; rfl

namespace Soc
variable {k : Nat} {s : Soc k} {irq : Nat → Bool} {t m : Nat} {w : Word}

/-- The memory in a cycle while a word is executed is the memory after some of the events of that word. -/
theorem mem_at (h : AfterReset s) (he : s.cpu.Executes (s.inputs irq) t w m) {j : Nat} (hj : j ≤ m) :
    ∃ p q, s.cpu.events (s.inputs irq) t m = p ++ q ∧ (s.run irq (t + j)).ram.mem = (s.run irq t).ram.mem.afterAll p := by
  have ht := he.1.1.1
  have split : ∀ i ≤ m, ∃ q, s.cpu.events (s.inputs irq) t m = s.cpu.events (s.inputs irq) t i ++ q := by
    intro i hi
    refine ⟨s.cpu.events (s.inputs irq) (t + i) (m - i), ?_⟩
    rw [← State.events_add, show i + (m - i) = m by omega]
  obtain ⟨T, hT⟩ : ∃ T, t = T + 1 := ⟨t - 1, by omega⟩
  have hall : ∀ i, s.cpu.events (s.inputs irq) 1 (T + i) = s.cpu.events (s.inputs irq) 1 T ++ s.cpu.events (s.inputs irq) t i := by
    intro i
    rw [State.events_add, hT, Nat.add_comm 1 T]
  have h0 := dispatch_ram h he.1
  rw [show t - 1 = T by omega] at h0
  have hinv := inv (irq := irq) h (T + j)
  rw [show T + j + 1 = t + j by omega, hall, Mem.afterAll_append, ← h0] at hinv
  cases ha : (s.run irq (t + j)).ram.ack
  · obtain ⟨q, hq⟩ := split j hj
    exact ⟨_, q, hq, hinv.2.1 ha⟩
  · obtain ⟨hc, hm, -⟩ := hinv.2.2 ha
    have hlt : j < m := by
      rcases Nat.lt_or_eq_of_le hj with h | h
      · exact h
      · subst h
        have hu := he.2.2.1.2
        rw [rom_01, ← run_cpu] at hu
        rw [State.cyc, hu] at hc
        simp [u_01] at hc
    obtain ⟨q, hq⟩ := split (j + 1) hlt
    refine ⟨_, q, hq, ?_⟩
    rw [State.events_snoc, Mem.afterAll_append, bus_obs, ← run_cpu, hc, show (s.inputs irq (t + j)).ack = true from ha, hm]
    rfl

theorem reg_gp {σ τ : State} (h : ∀ q, σ.mem (gpRamAdr q) = τ.mem (gpRamAdr q)) (q : Reg) : σ.arch.reg q = τ.arch.reg q := by
  unfold Arch.reg
  split
  · rfl
  · exact h q

/-- Between two dispatches: registers and memory are those before the instruction, or those after it; or the instruction is a
shift, and memory and all registers but its destination register are those before it. -/
theorem window (h : AfterReset s) (he : s.cpu.Executes (s.inputs irq) t w m) {j : Nat} (hj : j ≤ m) :
    ((∀ q, (s.run irq (t + j)).cpu.arch.reg q = (s.run irq t).cpu.arch.reg q) ∧ (s.run irq (t + j)).ram.mem = (s.run irq t).ram.mem) ∨
    ((∀ q, (s.run irq (t + j)).cpu.arch.reg q = (s.run irq (t + m)).cpu.arch.reg q) ∧
      (s.run irq (t + j)).ram.mem = (s.run irq (t + m)).ram.mem) ∨
    ∃ ins rd, decode w = some ins ∧ isShift ins = true ∧ destReg ins = some rd ∧
      (∀ q, q ≠ rd → (s.run irq (t + j)).cpu.arch.reg q = (s.run irq t).cpu.arch.reg q) ∧
      (s.run irq (t + j)).ram.mem = (s.run irq t).ram.mem := by
  have hr := registered (irq := irq) h
  obtain ⟨w', hp, hd', -⟩ := executes h.cpu hr he
  obtain ⟨p, q, hpq, hM⟩ := mem_at h he hj
  obtain ⟨p', q', hpq', hM'⟩ := mem_at h he (Nat.le_refl m)
  -- the whole
  have hfull : (s.run irq (t + m)).ram.mem = (s.run irq t).ram.mem.afterAll (s.cpu.events (s.inputs irq) t m) := by
    have ht := he.1.1.1
    rw [dispatch_ram h hd', dispatch_ram h he.1, ← Mem.afterAll_append]
    congr 1
    have := s.cpu.events_add (s.inputs irq) 1 (t - 1) m
    rwa [show 1 + (t - 1) = t by omega, show t - 1 + m = t + m - 1 by omega] at this
  by_cases hst : ∃ op rs1 rs2 imm, decode w = some (.store op rs1 rs2 imm)
  · obtain ⟨op, rs1, rs2, imm, hst⟩ := hst
    have hns : ∀ ins, decode w = some ins → isShift ins = false := by
      intro ins e; rw [hst] at e; cases e; rfl
    obtain ⟨s1, s2⟩ := store_path hst hp (s.run irq t).ram.mem
    have hregs : ∀ q, (s.run irq (t + j)).cpu.arch.reg q = (s.run irq t).cpu.arch.reg q := by
      intro q
      simp only [run_cpu]
      rcases gp_once h.cpu hr he hns hj with g | g
      · exact reg_gp g q
      · rw [reg_gp g q]; exact s1 q
    rcases s2 p q hpq with g | g
    · exact .inl ⟨hregs, by rw [hM, g]⟩
    · refine .inr (.inl ⟨fun q => ?_, by rw [hM, g, hfull]⟩)
      rw [hregs q]
      simp only [run_cpu]
      exact (s1 q).symm
  · have hrd := reads_path hp (reads_cycle _ _ _ fun op rs1 rs2 imm e => hst ⟨op, rs1, rs2, imm, e⟩)
    have hsame : (s.run irq (t + j)).ram.mem = (s.run irq t).ram.mem := by
      rw [hM]
      exact afterAll_reads _ p fun r d hm => hrd r d (by rw [hpq]; exact List.mem_append_left _ hm)
    have hsame' : (s.run irq (t + m)).ram.mem = (s.run irq t).ram.mem := by
      rw [hM']
      exact afterAll_reads _ p' fun r d hm => hrd r d (by rw [hpq']; exact List.mem_append_left _ hm)
    by_cases hsh : ∃ ins, decode w = some ins ∧ isShift ins = true
    · obtain ⟨ins, hi, hs⟩ := hsh
      have hdest : destReg ins = some (insnRd w) := by
        have := decoded hi
        cases ins with
        | opImm op rd => simp only [Decoded] at this; simp [destReg, this]
        | op op rd => simp only [Decoded] at this; simp [destReg, this]
        | _ => cases hs
      refine .inr (.inr ⟨ins, _, hi, hs, hdest, fun q hq => ?_, hsame⟩)
      unfold Arch.reg
      split
      · rfl
      · simp only [run_cpu]
        exact gp_other h.cpu hr he hq j hj
    · have hns : ∀ ins, decode w = some ins → isShift ins = false := by
        intro ins hi
        by_contra hc
        exact hsh ⟨ins, hi, by simpa using hc⟩
      rcases gp_once h.cpu hr he hns hj with g | g
      · refine .inl ⟨fun q => ?_, hsame⟩
        simp only [run_cpu]; exact reg_gp g q
      · refine .inr (.inl ⟨fun q => ?_, by rw [hsame, hsame']⟩)
        simp only [run_cpu]; exact reg_gp g q

/-- Before the first dispatch. -/
theorem window_boot (h : AfterReset s) : ∀ t, (∀ u ≤ t, ¬ s.cpu.Dispatching (s.inputs irq) u) →
    (∀ q, (s.run irq t).cpu.arch.reg q = s.cpu.arch.reg q) ∧ (s.run irq t).ram.mem = s.ram.mem := by
  intro t ht
  constructor
  · intro q
    unfold Arch.reg
    split
    · rfl
    · next hq => rw [run_cpu]; exact (gp_boot h.cpu (s.inputs irq) t ht).1 q hq
  · induction t with
    | zero => rfl
    | succ t ih =>
      rw [← ih fun u hu => ht u (by omega)]
      have hg := (gp_boot h.cpu (s.inputs irq) t fun u hu => ht u (by omega)).2.1
      rw [← run_cpu] at hg
      show ((s.run irq t).step (irq t)).ram.mem = _
      cases hc : (s.run irq t).cpu.cyc
      · exact ram_mem_idle _ _ hc
      · rw [ram_mem _ _ hc]
        exact after_read _ _ (by simp [State.req, hg hc])

/-- Every cycle is before the first dispatch, or between two dispatches. -/
theorem last_dispatch (h : AfterReset s) (t : Nat) : (∀ u ≤ t, ¬ s.cpu.Dispatching (s.inputs irq) u) ∨
    ∃ v w m, v ≤ t ∧ t ≤ v + m ∧ s.cpu.Executes (s.inputs irq) v w m := by
  classical
  by_cases hex : ∃ u ≤ t, s.cpu.Dispatching (s.inputs irq) u
  · right
    obtain ⟨v, hv, hvd, hvm⟩ : ∃ v ≤ t, s.cpu.Dispatching (s.inputs irq) v ∧ ∀ u, v < u → u ≤ t → ¬ s.cpu.Dispatching (s.inputs irq) u := by
      obtain ⟨u0, h0, h0'⟩ := hex
      have hP : ∃ d, d ≤ t ∧ s.cpu.Dispatching (s.inputs irq) (t - d) := ⟨t - u0, by omega, by rwa [show t - (t - u0) = u0 by omega]⟩
      refine ⟨t - Nat.find hP, by omega, (Nat.find_spec hP).2, fun u h1 h2 h3 => ?_⟩
      refine Nat.find_min hP (m := t - u) (by omega) ⟨by omega, by rwa [show t - (t - u) = u by omega]⟩
    obtain ⟨w, -, -, hw⟩ := at_dispatch h.cpu (registered h) hvd
    obtain ⟨m, hm⟩ := executes_of_fair h.cpu (registered h) (fair s irq) hw
    refine ⟨v, w, m, hv, ?_, hm⟩
    by_contra hlt
    exact hvm (v + m) (by have := hm.2.1; omega) (by omega) hm.2.2.1
  · left
    intro u hu hd
    exact hex ⟨u, hu, hd⟩

end Soc

end Sentinel
