import Verif.Proof.Interrupts
/-!
# C84: a program does not notice that it is interrupted
-/

set_option linter.unusedSimpArgs false

namespace Sentinel.Soc
open Ucode Spec

variable {k : Nat} {s : Soc k} {irq : Nat → Bool} {t m : Nat} {w : Word}

/-- The word `w` is dispatched in cycle `t`, and an interrupt is taken instead of it. -/
def Interrupted (s : Soc k) (irq : Nat → Bool) (t : Nat) (w : Word) : Prop :=
  s.cpu.IrqTaken (s.inputs irq) t ∨ isCsr w = true ∧ s.cpu.IrqTaken (s.inputs irq) (t + 1)

/-- Where the core is when it dispatches an instruction in cycle `t`, counting from a dispatch in cycle `t0` on: `Thread t false n c` is in the program, `n` instructions of which have been
executed; `Thread t true n c` is in the handler, after `n` instructions of the program.  The handler has returned `c` times. -/
inductive Thread (s : Soc k) (irq : Nat → Bool) (t0 : Nat) : Nat → Bool → Nat → Nat → Prop
  | start : Thread s irq t0 t0 false 0 0
  | retire {t n c w m} : Thread s irq t0 t false n c → s.cpu.Executes (s.inputs irq) t w m → ¬ s.Interrupted irq t w →
      Thread s irq t0 (t + m) false (n + 1) c
  | enter {t n c w m} : Thread s irq t0 t false n c → s.cpu.Executes (s.inputs irq) t w m → s.Interrupted irq t w →
      Thread s irq t0 (t + m) true n c
  | inside {t n c w m} : Thread s irq t0 t true n c → s.cpu.Executes (s.inputs irq) t w m → w ≠ mretWord →
      Thread s irq t0 (t + m) true n c
  | leave {t n c w m} : Thread s irq t0 t true n c → s.cpu.Executes (s.inputs irq) t w m → w = mretWord →
      Thread s irq t0 (t + m) false n (c + 1)

/-- The hypotheses of C84: cycle `t0` dispatches the first instruction of a program, there is a handler, and the program, run without interrupts, keeps apart from it. -/
structure Setup (s : Soc k) (irq : Nat → Bool) (t0 : Nat) (R : BitVec k → Prop) (I : Nat → Mem k → Prop) (entry : Word) : Prop where
  reset : s.AfterReset
  first : ∃ w, s.cpu.Dispatches (s.inputs irq) t0 w
  handler : Handler R I entry
  data : I 0 (s.run irq t0).ram.mem
  apart : ∀ n, let p := flat .asBuilt false (s.run irq t0).ram.mem (s.run irq t0).cpu.arch n
    Apart R entry p.1.1 p.1.2

variable {t0 : Nat} {R : BitVec k → Prop} {I : Nat → Mem k → Prop} {entry : Word}

/-- What a state in the program or the handler looks like. -/
def Good (s : Soc k) (irq : Nat → Bool) (t0 : Nat) (R : BitVec k → Prop) (I : Nat → Mem k → Prop) (t : Nat) (b : Bool) (n c : Nat) : Prop :=
  let p := flat .asBuilt false (s.run irq t0).ram.mem (s.run irq t0).cpu.arch n
  (∃ w, s.cpu.Dispatches (s.inputs irq) t w) ∧
  match b with
  | false => Alike R p.1.1 p.2 (s.run irq t).cpu.arch (s.run irq t).ram.mem ∧ I c (s.run irq t).ram.mem
  | true => ∃ a M, Alike R p.1.1 p.2 a M ∧
      Returns (fun a' M' => a.Same a' ∧ a'.mpie = true ∧ (∀ i, ¬ R i → M' i = M i) ∧ I (c + 1) M') (s.run irq t).cpu.arch (s.run irq t).ram.mem

theorem _root_.Sentinel.Alike.word {ar a : Arch} {Mr M : Mem k} (h : Alike R ar Mr a M) (hn : ¬ R (wordIdx k ar.pc)) : M.word a.pc = Mr.word ar.pc := by
  rw [same_pc' h.same]; exact h.mem _ hn

/-- The interrupt is taken: nothing but the trap entry happens. -/
theorem taken (h : s.AfterReset) (he : s.cpu.Executes (s.inputs irq) t w m) (hi : s.Interrupted irq t w) :
    (s.run irq (t + m)).cpu.arch = (s.run irq t).cpu.arch.takeInterrupt .asBuilt ∧ (s.run irq (t + m)).ram.mem = (s.run irq t).ram.mem ∧
    (s.run irq t).cpu.arch.mie = true ∧ (s.run irq t).cpu.arch.meie = true := by
  have hO : OneInstr s.cpu (s.inputs irq) t w m := ⟨h.cpu, registered h, he⟩
  obtain ⟨l, hp, hM, hm, ⟨w', hev⟩, -⟩ := exec_step h he
  rw [run_cpu] at hev
  have fin : ∀ l', s.cpu.Effect (s.inputs irq) t m (s.cpu.run (s.inputs irq) t).arch.enterInterrupt l' → (∀ M : Mem k, M.afterAll l' = M) →
      (s.run irq (t + m)).cpu.arch = (s.run irq t).cpu.arch.takeInterrupt .asBuilt ∧ (s.run irq (t + m)).ram.mem = (s.run irq t).ram.mem := by
    intro l' hE hl'
    obtain ⟨h1, w'', h2, -⟩ := hE
    refine ⟨by rw [run_cpu, run_cpu, h1, interrupt_eq], ?_⟩
    rw [hm]
    have : l = l' := by
      rw [hev] at h2
      have h2 : l ++ _ = l' ++ _ := (List.cons.inj h2).2
      have := (List.append_inj' h2 rfl).1
      exact this
    rw [this]; exact hl' _
  by_cases h1 : s.cpu.IrqTaken (s.inputs irq) t
  · obtain ⟨f1, f2⟩ := fin [] (C19_taken hO h1) fun _ => rfl
    exact ⟨f1, f2, by rw [run_cpu]; exact h1.2.1, by rw [run_cpu]; exact h1.2.2⟩
  · rcases hi with hi | ⟨hc, hi⟩
    · exact absurd hi h1
    · obtain ⟨f1, f2⟩ := fin _ (C19_csr hO h1 hc hi) fun _ => rfl
      refine ⟨f1, f2, ?_⟩
      have : ∃ op rd src adr, decode w = some (.csr op rd src adr) := by
        unfold isCsr at hc
        split at hc
        · next op rd src adr e => exact ⟨op, rd, src, adr, e⟩
        · cases hc
      obtain ⟨op, rd, src, adr, hd⟩ := this
      obtain ⟨l, -, -, hirq⟩ := hO.csr h1 hd
      have := hirq.1 hi
      simp only [Arch.intEnabled, Bool.and_eq_true] at this
      rw [run_cpu]; exact this.2

theorem good (h : s.Setup irq t0 R I entry) {b : Bool} {n c : Nat} (hT : Thread s irq t0 t b n c) : Good s irq t0 R I t b n c := by
  have hr := h.reset
  induction hT with
  | start => exact ⟨h.first, ⟨rfl, .inl rfl, fun _ _ => rfl⟩, h.data⟩
  | @retire t n c w m _ he hni ih =>
    obtain ⟨hd, hA, hI⟩ := ih
    obtain ⟨l, hp, hM, hm, ⟨w', hev⟩, hd'⟩ := exec_step hr he
    have hO : OneInstr s.cpu (s.inputs irq) t w m := ⟨hr.cpu, registered hr, he⟩
    have hap := h.apart n
    have hw : w = (flat .asBuilt false (s.run irq t0).ram.mem (s.run irq t0).cpu.arch n).1.2 := by
      rw [dispatch_word hr he.1, flat_word, hA.word hap.fetch]
    have h1 : ¬ s.cpu.IrqTaken (s.inputs irq) t := fun g => hni (.inl g)
    have hb : (irq t && (s.run irq t).cpu.arch.intEnabled) = false := by
      rw [run_cpu]
      show ((s.inputs irq t).irq && (s.cpu.run (s.inputs irq) t).arch.intEnabled) = false
      simpa [State.IrqTaken, Arch.intEnabled] using h1
    simp only [Spec.exec] at hp
    refine ⟨hd', ?_⟩
    have hfl := flat_succ (s.run irq t0).ram.mem (s.run irq t0).cpu.arch n
    generalize flat .asBuilt false (s.run irq t0).ram.mem (s.run irq t0).cpu.arch n = p at *
    simp only [← hw] at hap hfl
    cases hdw : decode w with
    | none => have := hap.exc; unfold excCause at this; rw [hdw] at this; cases this
    | some ins =>
    cases hp with
    | poll hp =>
      beta_reduce at hp
      rw [hb, hdw] at hp
      simp only [Bool.false_eq_true, if_false] at hp
      have key := main_step hA hap hdw hp hM (by
        intro hc b l' hl
        have : ∃ op rd src adr, decode w = some (.csr op rd src adr) := by
          unfold isCsr at hc
          split at hc
          · next op rd src adr e => exact ⟨op, rd, src, adr, e⟩
          · cases hc
        obtain ⟨op, rd, src, adr, hd⟩ := this
        obtain ⟨l2, -, ⟨-, w2, h2, -⟩, hirq⟩ := hO.csr h1 hd
        rw [hev, hl] at h2
        have h2 := (List.cons.inj (List.cons.inj h2).2).1
        injection h2 with h2
        rw [h2]
        have : ¬ s.cpu.IrqTaken (s.inputs irq) (t + 1) := fun g => hni (.inr ⟨hc, g⟩)
        rw [hirq] at this
        rw [run_cpu]
        simpa only [Bool.not_eq_true] using this)
      have hex : (exec .asBuilt p.1.1 w).onMem false p.2 = (execInstr .asBuilt p.1.1 ins).onMem false p.2 := by
        simp [Spec.exec, Tree.onMem, hdw]
      rw [hfl, hex]
      rw [hm]
      exact ⟨key.1, h.handler.own c _ _ key.2 hI⟩
  | @enter t n c w m _ he hi ih =>
    obtain ⟨hd, hA, hI⟩ := ih
    obtain ⟨h1, h2, h3, h4⟩ := taken hr he hi
    obtain ⟨-, -, -, -, -, hd'⟩ := exec_step hr he
    refine ⟨hd', _, _, hA, ?_⟩
    rw [h1, h2]
    refine h.handler.returns c _ _ hI ?_ h3 h4
    have hs := hA.same
    unfold Arch.Same at hs
    rw [hs] at h3 h4 ⊢
    exact (h.apart n).vec h3 h4
  | @inside t n c w m _ he hne ih =>
    obtain ⟨hd, a, M, hA, hR⟩ := ih
    obtain ⟨l, hp, hM, hm, -, hd'⟩ := exec_step hr he
    have hw := dispatch_word hr he.1
    refine ⟨hd', a, M, hA, ?_⟩
    cases hR with
    | mret h1 _ => exact absurd (hw.trans h1) hne
    | step _ h2 =>
      refine h2 _ _ ⟨.poll (irq t) :: l, ?_, ?_, ?_⟩
      · rw [← hw]; exact hp
      · exact hM
      · exact hm
  | @leave t n c w m _ he he' ih =>
    obtain ⟨hd, a, M, hA, hR⟩ := ih
    obtain ⟨l, hp, hM, hm, -, hd'⟩ := exec_step hr he
    have hw := dispatch_word hr he.1
    refine ⟨hd', ?_⟩
    cases hR with
    | step h1 _ => exact absurd (hw.symm.trans he') h1
    | mret _ h2 =>
      obtain ⟨g1, g2, g3, g4⟩ := h2 _ _ ⟨.poll (irq t) :: l, by rw [← hw]; exact hp, hM, hm⟩
      refine ⟨⟨?_, .inr g2, fun i hi => (g3 i hi).trans (hA.mem i hi)⟩, g4⟩
      have := hA.same
      unfold Arch.Same at this g1 ⊢
      rw [g1, this]

/-- **C84.** For every interrupt waveform: when `n` instructions of the program have been executed and the handler has returned `c` times (and the core is not in the handler), then
the state is that of the same program run without interrupts for `n` instructions, but for mepc, mcause and mstatus.MPIE; so is the instruction that comes next, and all memory
outside of that of the handler, which is as it is to be after `c` interrupts. -/
theorem C84_transparent (h : s.Setup irq t0 R I entry) {n c : Nat} (hT : Thread s irq t0 t false n c) :
    let p := flat .asBuilt false (s.run irq t0).ram.mem (s.run irq t0).cpu.arch n
    p.1.1.Same (s.run irq t).cpu.arch ∧ s.cpu.Dispatches (s.inputs irq) t p.1.2 ∧
    (∀ i, ¬ R i → (s.run irq t).ram.mem i = p.2 i) ∧ I c (s.run irq t).ram.mem := by
  intro p
  obtain ⟨⟨w, hd⟩, hA, hI⟩ := good h hT
  refine ⟨hA.same, ?_, hA.mem, hI⟩
  have : w = p.1.2 := by
    rw [dispatch_word h.reset hd, flat_word, hA.word (h.apart n).fetch]
  rw [← this]; exact hd

/-- Every dispatch leads on to another. -/
theorem Thread.more (h : s.Setup irq t0 R I entry) {b : Bool} {n c : Nat} (hT : Thread s irq t0 t b n c) :
    ∃ w m, s.cpu.Executes (s.inputs irq) t w m ∧ ∃ b' n' c', Thread s irq t0 (t + m) b' n' c' := by
  obtain ⟨⟨w, hd⟩, -⟩ := good h hT
  obtain ⟨m, he⟩ := executes_of_fair h.reset.cpu (registered h.reset) (fair s irq) hd
  refine ⟨w, m, he, ?_⟩
  cases b with
  | false =>
    by_cases hi : s.Interrupted irq t w
    · exact ⟨_, _, _, .enter hT he hi⟩
    · exact ⟨_, _, _, .retire hT he hi⟩
  | true =>
    by_cases hi : w = mretWord
    · exact ⟨_, _, _, .leave hT he hi⟩
    · exact ⟨_, _, _, .inside hT he hi⟩

/-- **C84.** Every instruction dispatched from `t0` on belongs to the program or to the handler. -/
theorem C84_thread (h : s.Setup irq t0 R I entry) (ht : t0 ≤ t) (hd : s.cpu.Dispatches (s.inputs irq) t w) :
    ∃ b n c, Thread s irq t0 t b n c := by
  have key : ∀ d u b n c, t - u = d → u ≤ t → Thread s irq t0 u b n c → ∃ b n c, Thread s irq t0 t b n c := by
    intro d
    induction d using Nat.strongRecOn with
    | ind d ih =>
      intro u b n c hud hut hT
      rcases Nat.eq_or_lt_of_le hut with rfl | hlt
      · exact ⟨b, n, c, hT⟩
      · obtain ⟨w', m, he, b', n', c', hT'⟩ := hT.more h
        have hm := he.2.1
        by_cases hle : u + m ≤ t
        · exact ih (t - (u + m)) (by omega) _ _ _ _ rfl hle hT'
        · refine absurd ?_ (he.2.2.2 (t - u) (by omega) (by omega))
          rw [show u + (t - u) = t by omega]
          exact hd.1
  exact key _ t0 _ _ _ rfl ht .start

/-- **C84.** The handler returns. -/
theorem C84_return (h : s.Setup irq t0 R I entry) {n c : Nat} (hT : Thread s irq t0 t true n c) :
    ∃ t', t < t' ∧ Thread s irq t0 t' false n (c + 1) := by
  obtain ⟨-, a, M, hA, hR⟩ := good h hT
  have hr := h.reset
  generalize ha : (s.run irq t).cpu.arch = x at hR
  generalize hMm : (s.run irq t).ram.mem = y at hR
  induction hR generalizing t with
  | mret h1 _ =>
    obtain ⟨⟨w, hd⟩, -⟩ := good h hT
    obtain ⟨m, he⟩ := executes_of_fair h.reset.cpu (registered h.reset) (fair s irq) hd
    have hw := dispatch_word hr hd
    rw [ha, hMm, h1] at hw
    exact ⟨t + m, by have := he.2.1; omega, .leave hT he hw⟩
  | step h1 h2 ih =>
    obtain ⟨⟨w, hd⟩, -⟩ := good h hT
    obtain ⟨m, he⟩ := executes_of_fair h.reset.cpu (registered h.reset) (fair s irq) hd
    have hw := dispatch_word hr hd
    rw [ha, hMm] at hw
    obtain ⟨l, hp, hM, hm, -, hd'⟩ := exec_step hr he
    have hT' := Thread.inside hT he (by rw [hw]; exact h1)
    obtain ⟨t', ht', hx⟩ := ih _ _ ⟨.poll (irq t) :: l, by rw [← hw, ← ha]; exact hp, by rw [← hMm]; exact hM, by rw [← hMm]; exact hm⟩ hT' rfl rfl
    exact ⟨t', by have := he.2.1; omega, hx⟩

/-- **C84.** Once the interrupt line stays low, the program goes on for ever. -/
theorem C84_progress (h : s.Setup irq t0 R I entry) {b : Bool} {n c : Nat} (hT : Thread s irq t0 t b n c) (hq : ∀ u, t ≤ u → irq u = false) (n' : Nat) (hn : n < n') :
    ∃ t' c', t < t' ∧ Thread s irq t0 t' false n' c' := by
  obtain ⟨t1, ht1, c1, hT1⟩ : ∃ t1, t ≤ t1 ∧ ∃ c1, Thread s irq t0 t1 false n c1 := by
    cases b with
    | false => exact ⟨t, Nat.le_refl _, c, hT⟩
    | true => obtain ⟨t', h1, h2⟩ := C84_return h hT; exact ⟨t', by omega, _, h2⟩
  obtain ⟨d, rfl⟩ : ∃ d, n' = n + 1 + d := ⟨n' - (n + 1), by omega⟩
  clear hT hn
  induction d with
  | zero =>
    obtain ⟨⟨w, hd⟩, -⟩ := good h hT1
    obtain ⟨m, he⟩ := executes_of_fair h.reset.cpu (registered h.reset) (fair s irq) hd
    refine ⟨t1 + m, c1, by have := he.2.1; omega, .retire hT1 he ?_⟩
    rintro (⟨g, -⟩ | ⟨-, g, -⟩)
    · have : irq t1 = true := g
      rw [hq _ ht1] at this; cases this
    · have : irq (t1 + 1) = true := g
      rw [hq _ (by omega)] at this; cases this
  | succ d ih =>
    obtain ⟨t2, c2, ht2, hT2⟩ := ih
    obtain ⟨⟨w, hd⟩, -⟩ := good h hT2
    obtain ⟨m, he⟩ := executes_of_fair h.reset.cpu (registered h.reset) (fair s irq) hd
    refine ⟨t2 + m, c2, by omega, .retire hT2 he ?_⟩
    rintro (⟨g, -⟩ | ⟨-, g, -⟩)
    · have : irq t2 = true := g
      rw [hq _ (by omega)] at this; cases this
    · have : irq (t2 + 1) = true := g
      rw [hq _ (by omega)] at this; cases this

end Sentinel.Soc
