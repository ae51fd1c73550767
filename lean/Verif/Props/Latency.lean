import Verif.Proof.Latency
import Verif.Props.Trace
import Verif.Props.Soc
/-!
# C90: wait states do not matter; C91: what is executed is what the memory holds
-/

set_option linter.unusedSimpArgs false

namespace Sentinel
open Ucode Spec

variable {k : Nat} {s s' : State} {inp inp' : Nat → Input} {M : Mem k}

theorem boot5 (h : AfterReset s) (inp : Nat → Input) : (s.run inp 5).arch = s.boot (inp 0) := by
  have hs : ∃ u mem rd, s = State.resetRegs u mem rd := by
    rcases h with h | ⟨σ, en, i, -, h⟩ <;> exact ⟨_, _, _, h⟩
  exact (boot_run hs inp).2.2.2.2.1

/-- **C90.** Two executions on buses that answer whenever they like, from the same architectural state and the same memory contents: if
the interrupt line is the same at each sample, then the transactions are the same, in the same order (and the samples are taken at the same
points between them): what has been seen of one is at any time a beginning of what is seen of the other, or the other way round. -/
theorem C90_events (h : AfterReset s) (h' : AfterReset s') (hr : s.RegisteredAck inp) (hr' : s'.RegisteredAck inp')
    (ha : (s.run inp 5).arch = (s'.run inp' 5).arch) (n n' : Nat)
    (hm : MemTrace M (s.events inp 1 n)) (hm' : MemTrace M (s'.events inp' 1 n'))
    (hs : Agree (samples (s.events inp 1 n)) (samples (s'.events inp' 1 n'))) :
    Agree ((s.events inp 1 n).map seen) ((s'.events inp' 1 n').map seen) := by
  have b := (C01_trace h hr n).2.2.2.2
  have b' := (C01_trace h' hr' n').2.2.2.2
  rw [← ha] at b'
  exact Behaves.agree (blind_cycle _) b (blind_fetch _) b' hm hm' hs

/-- **C90.** After the same transactions and samples two such executions that dispatch an instruction dispatch the same one, in the same
architectural state. -/
theorem C90_state (h : AfterReset s) (h' : AfterReset s') (hr : s.RegisteredAck inp) (hr' : s'.RegisteredAck inp')
    (ha : (s.run inp 5).arch = (s'.run inp' 5).arch) {t t' : Nat} {w w' : Word} (hd : s.Dispatches inp t w) (hd' : s'.Dispatches inp' t' w')
    (he : (s.events inp 1 (t - 1)).map seen = (s'.events inp' 1 (t' - 1)).map seen) :
    w = w' ∧ (s.run inp t).arch = (s'.run inp' t').arch := by
  obtain ⟨w1, -, r1, e1⟩ := at_dispatch h hr hd.1
  obtain ⟨w2, -, r2, e2⟩ := at_dispatch h' hr' hd'.1
  rw [← boot5 h] at r1
  rw [← boot5 h', ← ha] at r2
  have := runs_det (blind_cycle _) (cycle_nonempty _) r1 (blind_fetch _) r2 he
  rw [hd.unique e1, hd'.unique e2]
  exact ⟨(congrArg Prod.snd this).symm, (congrArg Prod.fst this).symm⟩

/-- **C90.** With a constant interrupt line, on any bus on which every request is answered some time and every read returns what the
memory holds: one instruction after the other is dispatched, and the architectural state, the word and the memory at the `n`-th dispatch are
those of the flat-memory machine after `n` instructions. -/
theorem C90_flat (h : AfterReset s) (hr : s.RegisteredAck inp) (hf : s.FairAck inp) {b : Bool} (hb : ∀ t, (inp t).irq = b)
    (hm : ∀ n, MemTrace M (s.events inp 1 n)) : ∃ T : Nat → Nat, (∀ t, s.Dispatching inp t ↔ ∃ n, t = T n) ∧ ∀ n, ∃ w,
      T n < T (n + 1) ∧ s.Executes inp (T n) w (T (n + 1) - T n) ∧
      flat .asBuilt b M (s.run inp 5).arch n = (((s.run inp (T n)).arch, w), M.afterAll (s.events inp 1 (T n - 1))) := by
  classical
  rw [boot5 h]
  have hpoll {t m} := events_poll (s := s) (inp := inp) (b := b) hb t m
  let At : Nat → Nat → Prop := fun n t => ∃ w, s.Dispatches inp t w ∧
    flat .asBuilt b M (s.boot (inp 0)) n = (((s.run inp t).arch, w), M.afterAll (s.events inp 1 (t - 1)))
  obtain ⟨t0, w0, ht0, hp0, ha0, hd0⟩ := first_exec h hr hf
  have h0 : At 0 t0 := ⟨w0, hd0, by rw [flat, onMem_path hp0 (blind_fetch _) (hm _) hpoll, ha0]⟩
  have hstep : ∀ n (p : { t // At n t }), ∃ q : { t // At (n + 1) t }, ∃ w, p.1 < q.1 ∧ s.Executes inp p.1 w (q.1 - p.1) ∧
      flat .asBuilt b M (s.boot (inp 0)) n = (((s.run inp p.1).arch, w), M.afterAll (s.events inp 1 (p.1 - 1))) := by
    rintro n ⟨t, w, hd, e⟩
    obtain ⟨m, he⟩ := executes_of_fair h hr hf hd
    obtain ⟨w', hp, hd', -⟩ := executes h hr he
    have ht := hd.1.1
    have hall := s.events_add inp 1 (t - 1) m
    rw [show 1 + (t - 1) = t by omega, show t - 1 + m = t + m - 1 by omega] at hall
    have hM := hm (t + m - 1)
    rw [hall, MemTrace.append] at hM
    refine ⟨⟨t + m, w', hd', ?_⟩, w, by have := he.2.1; simp only; omega, by simpa using he, e⟩
    rw [flat, e]
    simp only
    rw [onMem_path hp (blind_cycle _ _) hM.2 hpoll, hall, Mem.afterAll_append]
  choose f hf' using hstep
  let T : ∀ n, { t // At n t } := fun n => Nat.rec ⟨t0, h0⟩ (fun n p => f n p) n
  have hT : ∀ n, ∃ w, (T n).1 < (T (n + 1)).1 ∧ s.Executes inp (T n).1 w ((T (n + 1)).1 - (T n).1) ∧
      flat .asBuilt b M (s.boot (inp 0)) n = (((s.run inp (T n).1).arch, w), M.afterAll (s.events inp 1 ((T n).1 - 1))) :=
    fun n => hf' n (T n)
  refine ⟨fun n => (T n).1, fun t => ⟨fun hd => ?_, ?_⟩, hT⟩
  · -- no dispatch before the first
    have hfirst : t0 ≤ t := by
      by_contra hlt
      obtain ⟨-, hl⟩ := Tree.Path.fetch_inv hp0
      have hu1 := hd.1
      obtain ⟨m, hmm⟩ : ∃ m, t0 - 1 = (t - 1) + (m + 1) := ⟨t0 - 1 - t, by omega⟩
      have e : s.events inp 1 (t0 - 1) = s.events inp 1 (t - 1) ++ ((s.run inp t).obs (inp t) ++ s.events inp (t + 1) m) := by
        rw [hmm, State.events_add, show 1 + (t - 1) = t by omega]
        rfl
      rw [hl, State.obs_dispatch (by rw [← rom_01]; exact hd.2)] at e
      have : Event.poll (inp t).irq ∈ [Event.bus (fetchReq (s.boot (inp 0))) w0] := by
        rw [e]; simp
      simp at this
    have key : ∀ n, (T n).1 ≤ t → (∃ m ≤ n, t = (T m).1) ∨ (T n).1 < t := by
      intro n hn
      rcases Nat.lt_or_eq_of_le hn with h | h
      · exact .inr h
      · exact .inl ⟨n, Nat.le_refl n, h.symm⟩
    have hgrow : ∀ n, n ≤ (T n).1 := by
      intro n
      induction n with
      | zero => omega
      | succ n ih => obtain ⟨_, h1, -⟩ := hT n; omega
    by_contra hno
    have hall : ∀ n, (T n).1 < t := by
      intro n
      induction n with
      | zero =>
        rcases Nat.lt_or_eq_of_le hfirst with h | h
        · exact h
        · exact absurd ⟨0, h.symm⟩ hno
      | succ n ih =>
        obtain ⟨w, h1, h2, -⟩ := hT n
        by_contra hge
        have hne : t ≠ (T (n + 1)).1 := fun e => hno ⟨n + 1, e⟩
        refine h2.2.2.2 (t - (T n).1) (by omega) (by omega) ?_
        rw [show (T n).1 + (t - (T n).1) = t by omega]; exact hd
    have h1 := hgrow t
    have h2 := hall t
    omega
  · rintro ⟨n, rfl⟩
    obtain ⟨w, -, he, -⟩ := hT n
    exact he.1.1

namespace Slow
variable {s : Slow k}

/-- **C90.** A memory with any wait states, different ones for each access: the core executes the program as on a flat memory. -/
theorem C90_slow (h : s.AfterReset) (b : Bool) (d : Nat → Nat) : ∃ T : Nat → Nat,
    (∀ t, s.cpu.Dispatching (s.inputs (fun _ => b) d) t ↔ ∃ n, t = T n) ∧ ∀ n, ∃ w, T n < T (n + 1) ∧
      flat .asBuilt b s.mem (s.run (fun _ => b) d 5).cpu.arch n =
        (((s.run (fun _ => b) d (T n)).cpu.arch, w), (s.run (fun _ => b) d (T n)).mem) := by
  obtain ⟨T, h1, h2⟩ := C90_flat (inp := s.inputs (fun _ => b) d) (M := s.mem) h.cpu (registered h) (fair h) (b := b) (fun _ => rfl)
    (fun n => (inv h n).1)
  refine ⟨T, h1, fun n => ?_⟩
  obtain ⟨w, h3, h4, h5⟩ := h2 n
  refine ⟨w, h3, ?_⟩
  rw [run_cpu, run_cpu, h5]
  congr 1
  have hd := h4.1.1
  obtain ⟨t, ht⟩ : ∃ t, T n = t + 1 := ⟨T n - 1, by have := hd.1; omega⟩
  rw [ht, Nat.add_sub_cancel]
  refine ((inv h t).2.1 ?_).symm
  cases ha : (s.run (fun _ => b) d (t + 1)).ack
  · rfl
  · have hc := ((inv h t).2.2 ha).1
    rw [run_cpu, State.cyc, ← ht, hd.2, rom_01] at hc
    simp [u_01] at hc

/-- A memory that needs three more cycles for each access, with a program. -/
def demoSlow (p : List Word) : Slow 5 := ⟨powerOn, romOf p, 0, false, 3⟩

example : (demoSlow Soc.sumProgram).AfterReset ∧ (∃ t, (((demoSlow Soc.sumProgram).run (fun _ => false) (fun _ => 3) t).mem 25 = 84)) ∧
    ((demo Soc.sumProgram).run (fun _ => false) 45).ram.mem 25 = 84 ∧
    ((demoSlow Soc.sumProgram).run (fun _ => false) (fun _ => 3) 45).mem 25 ≠ 84 :=
  ⟨⟨.inl rfl, rfl⟩, ⟨80, by decide +kernel⟩, by decide +kernel, by decide +kernel⟩

end Slow

namespace Soc
variable {s : Soc k}

/-- **C91.** The word that is executed is the one the memory holds at the program counter in the cycle in which it is dispatched, whatever
has been stored there, and however recently: there is no prefetch or cache that a program has to take into account. -/
theorem C91_code (h : s.AfterReset) (irq : Nat → Bool) {t : Nat} {w : Word} (hd : s.cpu.Dispatches (s.inputs irq) t w) :
    w = (s.run irq t).ram.mem ((wordAdr (s.run irq t).cpu.arch.pc).setWidth k) := by
  obtain ⟨w1, -, r1, e1⟩ := at_dispatch h.cpu (registered h) hd.1
  rw [hd.unique e1, dispatch_ram h e1]
  obtain ⟨l, hl⟩ := Runs.last r1
  have hm := (inv (irq := irq) h (t - 1)).1
  rw [hl] at hm ⊢
  rw [MemTrace.append] at hm
  have h2 := hm.2.1 rfl
  rw [Mem.afterAll_append]
  simp only [Mem.afterAll]
  rw [after_read _ _ rfl, run_cpu]
  exact h2

/-- A program that overwrites the instruction after the store: word 24 is `addi x2, x0, 7`. -/
def selfProgram : List Word :=
  [0x06002083#32,  -- lw x1, 96(x0)
   0x00102423#32,  -- sw x1, 8(x0)
   0x00100113#32]  -- addi x2, x0, 1 (overwritten)

/-- The core with that program. -/
def selfDemo : Soc 5 := ⟨powerOn, ⟨fun a => if a = 24 then 0x00700113#32 else romOf selfProgram a, 0, false⟩⟩

/-- The new instruction is executed, right after the store. -/
example : selfDemo.AfterReset ∧ selfDemo.cpu.Dispatching (selfDemo.inputs fun _ => false) 26 ∧
    (selfDemo.run (fun _ => false) 26).cpu.arch.pc = 8 ∧ selfDemo.ram.mem 2 = 0x00100113#32 ∧ (selfDemo.run (fun _ => false) 26).ram.mem 2 = 0x00700113#32 ∧
    (selfDemo.run (fun _ => false) 30).cpu.arch.reg 2 = 7 :=
  ⟨⟨.inl rfl, rfl⟩, ⟨by decide, by decide +kernel⟩, by decide +kernel, by decide +kernel, by decide +kernel, by decide +kernel⟩

end Soc

end Sentinel
