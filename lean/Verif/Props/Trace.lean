import Verif.Props.Trap
/-!
# C01, C27, C28, C29, C33: whole executions
-/

set_option linter.unusedSimpArgs false

namespace Sentinel
open Ucode Spec

variable {s : State} {inp : Nat → Input} {t m : Nat} {w : Word}

/-! ## C01 -/

/-- **C01** for the instruction set as the code implements it (`Cfg.asBuilt`: RV32I_Zicsr but for the
value of mcause in deviations D1 and D2): after reset, everything the core does on the bus, with any
program, bus and interrupt line, is a behaviour of the instruction-set machine that starts by
fetching at address 0 with interrupts disabled. -/
theorem C01_trace (h : AfterReset s) (hr : s.RegisteredAck inp) (n : Nat) :
    let a := (s.run inp 5).arch
    a.pc = 0 ∧ a.mie = false ∧ a.meie = false ∧ a.mcause = 0 ∧
      Behaves (cycle .asBuilt) (fetch a) (s.events inp 1 n) := by
  have hs : ∃ u mem rd, s = State.resetRegs u mem rd := by
    rcases h with h | ⟨σ, en, i, -, h⟩ <;> exact ⟨_, _, _, h⟩
  have hb := (boot_run hs inp).2.2.2.2.1
  simp only [hb]
  refine ⟨rfl, rfl, rfl, ?_, ?_⟩
  · rfl
  · obtain ⟨T, k, -, ha, -⟩ := stands h hr n
    exact ha.behaves

/-- **C01, full statement**: the same for the instruction set as documented. -/
def C01_full : Prop :=
  ∀ s inp n, AfterReset s → s.RegisteredAck inp →
    Behaves (cycle .isa) (fetch (s.run inp 5).arch) (s.events inp 1 n)

theorem trap_isa {a : Arch} {i : Bool} (c : BitVec 31) (h : i = true ∨ a.irqTaken = false) :
    a.trap .isa i c = a.trap .asBuilt i c := by
  rcases h with rfl | h
  · simp [Arch.trap]
  · simp [Arch.trap, h, Cfg.isa, Cfg.asBuilt]

theorem instr_isa {a : Arch} {w : Word} {ins : Instr} (hw : decode w = some ins)
    (hexc : ∀ c, excCause a w ≠ none → a.exception .isa c = a.exception .asBuilt c) :
    execInstr .isa a ins = execInstr .asBuilt a ins := by
  unfold excCause at hexc
  rw [hw] at hexc
  cases ins with
  | lui | auipc | opImm | op | fence | wfi | mret => simp only [execInstr]
  | ecall | ebreak => simp only [execInstr]; rw [hexc _ (by simp)]
  | jal rd imm =>
    simp only [execInstr, targetOk, aligned, decide_eq_true_eq]
    split
    · rfl
    · next h => rw [hexc 0 (by simp only; rw [if_pos h]; simp)]
  | jalr rd rs1 imm =>
    simp only [execInstr, targetOk, aligned, decide_eq_true_eq]
    split
    · rfl
    · next h => rw [hexc 0 (by simp only; rw [if_pos h]; simp)]
  | branch op rs1 rs2 imm =>
    simp only [execInstr, targetOk, aligned, decide_eq_true_eq]
    split
    · next hb =>
      split
      · rfl
      · next h => rw [hexc 0 (by simp only; rw [if_pos ⟨hb, h⟩]; simp)]
    · rfl
  | load op rd rs1 imm =>
    simp only [execInstr, aligned, decide_eq_true_eq]
    split
    · rfl
    · next h => rw [hexc 4 (by simp only; rw [if_pos h]; simp)]
  | store op rs1 rs2 imm =>
    simp only [execInstr, aligned, decide_eq_true_eq]
    split
    · rfl
    · next h => rw [hexc 6 (by simp only; rw [if_pos h]; simp)]
  | csr op rd src adr =>
    simp only [execInstr]
    refine congrArg Tree.poll (funext fun irq' => ?_)
    simp only at hexc
    rw [show a.takeInterrupt .isa = a.takeInterrupt .asBuilt from trap_isa _ (.inl rfl)]
    generalize csrKind adr = kk at hexc ⊢
    generalize csrReadOnly adr = ro at hexc ⊢
    generalize csrWrites op src = wr at hexc ⊢
    split
    · rfl
    cases kk with
    | absent => simp only; rw [hexc 2 (by rw [if_pos (.inl rfl)]; simp)]
    | zero =>
      simp only
      split
      · next h => rw [hexc 2 (by rw [if_pos (.inr h)]; simp)]
      · rfl
    | impl c => rfl

/-- The two instruction sets agree where neither deviation applies. -/
theorem exec_isa (a : Arch) (w : Word) (hd : w ∉ d2Words)
    (hx : a.irqTaken = true → excCause a w = none) : exec .isa a w = exec .asBuilt a w := by
  have hexc : ∀ c, excCause a w ≠ none → a.exception .isa c = a.exception .asBuilt c := by
    intro c h
    refine trap_isa _ (.inr ?_)
    cases ha : a.irqTaken
    · rfl
    · exact absurd (hx ha) h
  have hill : illegalCause .isa w = illegalCause .asBuilt w := by
    simp only [d2Words, List.mem_cons, List.not_mem_nil, or_false] at hd
    unfold illegalCause; rw [if_neg (fun h => by cases h.1), if_neg (fun h => hd h.2)]
  unfold exec
  refine congrArg Tree.poll (funext fun irq => ?_)
  rw [show a.takeInterrupt .isa = a.takeInterrupt .asBuilt from trap_isa _ (.inl rfl), hill]
  cases hw : decode w with
  | none => simp only; rw [hexc _ (by unfold excCause; rw [hw]; simp)]
  | some ins => simp only; rw [instr_isa hw hexc]

/-- No deviation applies in the first `n` cycles: none of the words 0x70, 0x71, 0x72 is dispatched,
and no word dispatched after an interrupt has been taken raises an exception of its own.  (Programs
that never take an interrupt, and interrupt handlers that raise no exception, satisfy the second
part.) -/
def NoDeviation (s : State) (inp : Nat → Input) (n : Nat) : Prop :=
  ∀ t w, t ≤ n → s.Dispatches inp t w → w ∉ d2Words ∧
    ((s.run inp t).arch.irqTaken = true → excCause (s.run inp t).arch w = none)

theorem stands_isa (h : AfterReset s) (hr : s.RegisteredAck inp) (n : Nat) (hn : NoDeviation s inp n) :
    Stands .isa (s.boot (inp 0)) s inp n := by
  induction n with
  | zero => exact Stands.zero h inp _
  | succ n ih =>
    refine (ih fun t w ht => hn t w (by omega)).succ hr ?_
    intro p hp ha
    obtain ⟨l', hl⟩ := Runs.last ha.runs
    have hd : s.Dispatches inp (n + 1) p.2 :=
      ⟨⟨by omega, by rw [rom_01]; exact hp.uop⟩, l', _, hl⟩
    obtain ⟨h1, h2⟩ := hn (n + 1) p.2 (by omega) hd
    rw [← hp.arch] at h2
    unfold cycle
    rw [exec_isa _ _ h1 h2]

/-- **C01** for the instruction set as documented holds while neither deviation applies. -/
theorem C01_isa_partial (h : AfterReset s) (hr : s.RegisteredAck inp) (n : Nat)
    (hn : NoDeviation s inp n) :
    Behaves (cycle .isa) (fetch (s.run inp 5).arch) (s.events inp 1 n) := by
  have hs : ∃ u mem rd, s = State.resetRegs u mem rd := by
    rcases h with h | ⟨σ, en, i, -, h⟩ <;> exact ⟨_, _, _, h⟩
  rw [(boot_run hs inp).2.2.2.2.1]
  obtain ⟨T, k, -, ha, -⟩ := stands_isa h hr n hn
  exact ha.behaves

/-- A check that a list of events is *not* a behaviour (it answers `true` when it runs out of
fuel). -/
def mayBehave {α : Type} (next : α → Tree α) : Nat → Tree α → List Event → Bool
  | 0, _, _ => true
  | _ + 1, _, [] => true
  | f + 1, .ret x, l => mayBehave next f (next x) l
  | f + 1, .poll k, .poll b :: l => mayBehave next f (k b) l
  | f + 1, .bus r k, .bus r' d :: l => r = r' && mayBehave next f (k d) l
  | _ + 1, _, _ => false

theorem Spec.Behaves.may {α : Type} {next : α → Tree α} {T : Tree α} {l : List Event}
    (h : Behaves next T l) : ∀ f, mayBehave next f T l = true := by
  induction h with
  | stop t => intro f; cases f <;> cases t <;> rfl
  | @ret x l h ih =>
    intro f
    cases f with
    | zero => rfl
    | succ f => cases l <;> simp [mayBehave, ih]
  | poll h ih => intro f; cases f <;> simp [mayBehave, ih]
  | bus h ih => intro f; cases f <;> simp [mayBehave, ih]

/-- Set mtvec to 8, then run into the word 0x70; the handler stores mcause. -/
def d2Program : List Word :=
  [0x30545073#32,  -- csrrwi x0, mtvec, 8
   0x00000070#32,  -- (not an instruction)
   0x342020F3#32,  -- csrrs x1, mcause, x0
   0x06102023#32]  -- sw x1, 96(x0)

/-- **C01** as documented does not hold: after the word 0x70 the handler finds cause 11, not 2. -/
theorem C01_full_false : ¬ C01_full := by
  intro hall
  have := (hall powerOn (demoIn d2Program false) 45 (.inl rfl)
    (Soc.registered (demo_reset d2Program))).may 100
  rw [demo_boot] at this
  revert this
  decide +kernel

/-- `NoDeviation` is met by every execution in which the interrupt line stays low and no word 0x70,
0x71, 0x72 is dispatched. -/
theorem noDeviation_of_quiet (h : AfterReset s) (hq : ∀ t, (inp t).irq = false) (n : Nat)
    (hw : ∀ t w, s.Dispatches inp t w → w ∉ d2Words) : NoDeviation s inp n := by
  intro t w _ hd
  refine ⟨hw t w hd, fun hi => ?_⟩
  rw [interrupt_false h inp t fun t' _ h => by have := h.1; rw [hq] at this; cases this] at hi
  cases hi

/-- A check of `NoDeviation` for a concrete execution. -/
def noDevCheck (s : State) (inp : Nat → Input) (n : Nat) : Bool :=
  (List.range (n + 1)).all fun t =>
    (s.run inp t).uop ≠ rom 1#8 || match (s.events inp 1 (t - 1)).getLast? with
      | some (.bus _ w) => w ∉ d2Words &&
          (!(s.run inp t).arch.irqTaken || excCause (s.run inp t).arch w = none)
      | _ => false

theorem noDevCheck_sound {n : Nat} (h : noDevCheck s inp n = true) : NoDeviation s inp n := by
  intro t w ht hd
  have h := List.all_eq_true.1 h t (List.mem_range.2 (by omega))
  obtain ⟨⟨-, hu⟩, l, r, hl⟩ := hd
  rw [hl] at h
  simp only [hu, ne_eq, not_true_eq_false, decide_false, Bool.false_or, List.getLast?_append,
    List.getLast?_singleton, Option.some_or, Bool.and_eq_true, decide_eq_true_eq, Bool.or_eq_true,
    Bool.not_eq_true'] at h
  refine ⟨h.1, fun hi => ?_⟩
  rcases h.2 with h2 | h2
  · rw [hi] at h2; cases h2
  · exact h2

/-- Interrupts enabled, then an endless stream of them: handler at 20 with MRET. -/
def irqLoop : List Word :=
  [0xFFF00093#32, 0x305A5073#32, 0x30409073#32, 0x30045073#32, 0x00000013#32, 0x30200073#32]

/-- Neither deviation applies to 120 cycles of a program with interrupts (at least one of which is
taken). -/
example : AfterReset powerOn ∧ powerOn.RegisteredAck (demoIn irqLoop true) ∧
    NoDeviation powerOn (demoIn irqLoop true) 120 ∧
    (powerOn.run (demoIn irqLoop true) 120).arch.irqTaken = true :=
  ⟨.inl rfl, Soc.registered (demo_reset _), noDevCheck_sound (by decide +kernel), by decide +kernel⟩

/-! ## C29 -/

/-- **C29.** At every dispatch the architectural registers, and the word about to be executed, are
those of the instruction-set machine that has taken part in the same events. -/
theorem C29_state (h : AfterReset s) (hr : s.RegisteredAck inp) (hd : s.Dispatches inp t w) :
    Runs (cycle .asBuilt) (fetch (s.run inp 5).arch) (s.events inp 1 (t - 1))
      ((s.run inp t).arch, w) := by
  have hs : ∃ u mem rd, s = State.resetRegs u mem rd := by
    rcases h with h | ⟨σ, en, i, -, h⟩ <;> exact ⟨_, _, _, h⟩
  rw [(boot_run hs inp).2.2.2.2.1]
  obtain ⟨w', -, h2, h3⟩ := at_dispatch h hr hd.1
  rw [hd.unique h3]; exact h2

/-- **C29** for the instruction set as documented, while neither deviation applies. -/
theorem C29_isa_partial (h : AfterReset s) (hr : s.RegisteredAck inp) (hd : s.Dispatches inp t w)
    (hn : NoDeviation s inp t) :
    Runs (cycle .isa) (fetch (s.run inp 5).arch) (s.events inp 1 (t - 1)) ((s.run inp t).arch, w) := by
  have hs : ∃ u mem rd, s = State.resetRegs u mem rd := by
    rcases h with h | ⟨σ, en, i, -, h⟩ <;> exact ⟨_, _, _, h⟩
  rw [(boot_run hs inp).2.2.2.2.1]
  obtain ⟨ht, hu⟩ := hd.1
  obtain ⟨t, rfl⟩ : ∃ t', t = t' + 1 := ⟨t - 1, by omega⟩
  rw [rom_01] at hu
  obtain ⟨p, hp, ha⟩ := (stands_isa h hr t fun t' w ht' => hn t' w (by omega)).dispatch hu
  have e : p = ((s.run inp (t + 1)).arch, p.2) := by rw [← hp.arch]
  have hr := ha.runs
  obtain ⟨l', hl⟩ := Runs.last hr
  have hd' : s.Dispatches inp (t + 1) p.2 := ⟨hd.1, l', _, hl⟩
  rw [hd.unique hd', ← e]; exact hr

/-- The interrupt handler of `irqLoop` is dispatched in cycle 36 with mepc = 16. -/
example : AfterReset powerOn ∧ powerOn.RegisteredAck (demoIn irqLoop true) ∧
    powerOn.Dispatches (demoIn irqLoop true) 36 0x30200073#32 ∧
    NoDeviation powerOn (demoIn irqLoop true) 36 ∧
    (powerOn.run (demoIn irqLoop true) 36).arch.mepc = 16 := by
  refine ⟨.inl rfl, Soc.registered (demo_reset _), ?_, noDevCheck_sound (by decide +kernel), by decide +kernel⟩
  exact (runsCheck_sound (r := ⟨5, 15, false, 0⟩) (m := 7) (by decide +kernel)).1

/-! ## C27 -/

/-- **C27.** With a bus that answers every request, there is no last instruction: after any cycle
another one is dispatched, and each is executed in finitely many cycles. -/
theorem C27_progress (h : AfterReset s) (hr : s.RegisteredAck inp) (hf : s.FairAck inp) :
    (∀ n, ∃ t w m, n ≤ t ∧ s.Executes inp t w m) ∧
    ∀ t w, s.Dispatches inp t w → ∃ m, s.Executes inp t w m := by
  refine ⟨fun n => ?_, fun t w hd => executes_of_fair h hr hf hd⟩
  induction n with
  | zero =>
    obtain ⟨t, ht⟩ := first_dispatch h hr hf
    obtain ⟨w, -, -, hd⟩ := at_dispatch h hr ht
    obtain ⟨m, hm⟩ := executes_of_fair h hr hf hd
    exact ⟨t, w, m, by omega, hm⟩
  | succ n ih =>
    obtain ⟨t, w, m, ht, he⟩ := ih
    obtain ⟨w', -, -, hd⟩ := at_dispatch h hr he.2.2.1
    obtain ⟨m', hm'⟩ := executes_of_fair h hr hf hd
    exact ⟨t + m, w', m', by have := he.2.1; omega, hm'⟩

/-- The bus of the example SoC is fair, whatever the program and the interrupt line. -/
example (p : List Word) (irq : Nat → Bool) : AfterReset powerOn ∧
    powerOn.RegisteredAck ((demo p).inputs irq) ∧ powerOn.FairAck ((demo p).inputs irq) :=
  ⟨.inl rfl, Soc.registered (demo_reset p), Soc.fair (demo p) irq⟩

/-! ## C28 -/

/-- **C28.** An instruction takes `idleCycles` (a function of the instruction-set state and of the
events, `Verif/Spec/Timing.lean`) cycles, plus the cycles in which a request is on the bus. -/
theorem C28_cycles (h : OneInstr s inp t w m) :
    m = idleCycles (s.run inp t).arch w (s.events inp t m) + s.busy inp t m := by
  obtain ⟨w', -, -, hi⟩ := executes h.reset h.ack h.runs
  have := s.idle_add_busy inp t m
  omega

/-- Number of bus transactions in a list of events. -/
def busCount : List Event → Nat
  | [] => 0
  | .bus .. :: l => busCount l + 1
  | .poll _ :: l => busCount l

theorem busCount_append (l l' : List Event) : busCount (l ++ l') = busCount l + busCount l' := by
  induction l with
  | nil => simp [busCount]
  | cons e l ih => cases e <;> simp [busCount, ih] <;> omega

theorem busCount_obs (σ : State) (i : Input) :
    busCount (σ.obs i) = if σ.cyc && i.ack then 1 else 0 := by
  unfold State.obs
  cases σ.cyc && i.ack <;> cases σ.polls <;> rfl

theorem State.busy_add (s : State) (inp : Nat → Input) (t m k : Nat) :
    s.busy inp t (m + k) = s.busy inp t m + s.busy inp (t + m) k := by
  induction m generalizing t with
  | zero => simp [State.busy]
  | succ m ih =>
    rw [Nat.succ_add]
    simp only [State.busy, ih]
    rw [show t + 1 + m = t + (m + 1) by omega]; omega

/-- A bus that answers every request in its second cycle. -/
def State.TwoCycleAck (s : State) (inp : Nat → Input) : Prop :=
  (inp 0).ack = false ∧ ∀ t, (inp (t + 1)).ack = ((s.run inp t).cyc && !(inp t).ack)

theorem State.TwoCycleAck.registered (h2 : s.TwoCycleAck inp) : s.RegisteredAck inp := by
  intro t ht
  cases t with
  | zero => exact h2.1
  | succ t => rw [h2.2, ht.2 t rfl]; rfl

theorem State.TwoCycleAck.fair (h2 : s.TwoCycleAck inp) : s.FairAck inp := by
  intro t hc
  cases ha : (inp t).ack
  · exact ⟨t + 1, by omega, .inr (by rw [h2.2, hc, ha]; rfl)⟩
  · exact ⟨t, by omega, .inr ha⟩

theorem State.TwoCycleAck.cyc (h : AfterReset s) (h2 : s.TwoCycleAck inp) (ha : (inp t).ack = true) :
    (s.run inp t).cyc = true := by
  cases t with
  | zero => rw [h2.1] at ha; cases ha
  | succ t =>
    rw [h2.2] at ha
    simp only [Bool.and_eq_true, Bool.not_eq_true'] at ha
    exact (C23_stable h inp ha.1 ha.2).1

/-- The bus answers every request in its second cycle. -/
theorem busy_eq (h : AfterReset s) (h2 : s.TwoCycleAck inp) (t m : Nat) :
    s.busy inp t m + (if (inp t).ack then 1 else 0) =
      2 * busCount (s.events inp t m) + (if (inp (t + m)).ack then 1 else 0) := by
  induction m with
  | zero => simp [State.busy, State.events, busCount]
  | succ m ih =>
    rw [State.busy_add, State.events_snoc, busCount_append, busCount_obs]
    have hnext := h2.2 (t + m)
    have hinv := h2.cyc (t := t + m) h
    rw [← Nat.add_assoc, hnext]
    simp only [State.busy]
    revert ih hinv
    cases (inp (t + m)).ack <;> cases (s.run inp (t + m)).cyc <;>
      simp <;> omega

/-- **C28** with a bus that answers every request in its second cycle: two cycles per bus
transaction. -/
theorem C28_two (h : AfterReset s) (h2 : s.TwoCycleAck inp) (he : s.Executes inp t w m) :
    m = idleCycles (s.run inp t).arch w (s.events inp t m) + 2 * busCount (s.events inp t m) := by
  have h1 := C28_cycles ⟨h, h2.registered, he⟩
  have h3 := busy_eq h h2 t m
  have hd : ∀ t', s.Dispatching inp t' → (inp t').ack = false := by
    intro t' hd
    cases ha : (inp t').ack
    · rfl
    · have := h2.cyc h ha
      have hu := hd.2
      rw [rom_01] at hu
      simp [State.cyc, hu, u_01] at this
  rw [hd _ he.1.1, hd _ he.2.2.1] at h3
  omega

namespace Soc
variable {k : Nat} {s : Soc k} {irq : Nat → Bool}

theorem twoCycle (h : s.AfterReset) : s.cpu.TwoCycleAck (s.inputs irq) := ⟨h.ram, ack_succ s irq⟩

/-- **C28** with the memory of the example SoC: two cycles per bus transaction. -/
theorem C28_soc {w : Word} (h : s.AfterReset) (he : s.cpu.Executes (s.inputs irq) t w m) :
    m = idleCycles (s.run irq t).cpu.arch w (s.cpu.events (s.inputs irq) t m) +
      2 * busCount (s.cpu.events (s.inputs irq) t m) := by
  rw [run_cpu]; exact C28_two h.cpu (twoCycle h) he

end Soc

/-- Arithmetic: 4 cycles; shifts: `z` for amount 0, else 7 + 2n. -/
def docAlu (op : AluOp) (z n : Nat) : Nat :=
  match op with
  | .sll | .srl | .sra => if n = 0 then z else 7 + 2 * n
  | _ => 4

/-- Throughput in cycles per instruction as given in `doc/development/internals.md` 237-268, for a
bus that answers in the second cycle of a request; `none` where the document gives no number.  The
document gives 8 for MRET, the number proved here is 7 (deviation D5). -/
def docThroughput (a : Arch) : Instr → Option Nat
  | .lui _ _ => some 4
  | .op op _ _ rs2 => some (docAlu op 10 ((a.reg rs2).toNat % 32))
  | .opImm op _ _ imm => some (docAlu op 9 (imm.toNat % 32))
  | .branch op rs1 rs2 _ => some (if brTaken op (a.reg rs1) (a.reg rs2) then 8 else 7)
  | .jal _ _ => some 7
  | .jalr _ _ _ => some 7
  | .load _ _ _ _ => some 9
  | .store _ _ _ _ => some 10
  | .csr op _ src adr =>
    if csrKind adr = .zero then some 6
    else if op = .rc ∧ csrWrites op src = true then some 10 else none
  | .mret => some 7
  | _ => none

/-- The bus transactions of an instruction that raises no exception, other than the fetch of the next
one. -/
def dataAccesses : Instr → Nat
  | .load .. | .store .. => 1
  | _ => 0

theorem busCount_execCsr {a : Arch} {op : CsrOp} {rd : Reg} {src : CsrSrc} {c : Csr} {l : List Event}
    {a' : Arch} (hp : (execCsr a op rd src c).Path l a') : busCount l = 0 := by
  unfold execCsr at hp
  simp only at hp
  split at hp
  · cases hp with
    | poll hp =>
      split at hp
      · cases hp with
        | poll hp => cases hp; rfl
      · cases hp; rfl
  · cases hp; rfl

theorem busCount_instr {cfg : Cfg} {a : Arch} {w : Word} {ins : Instr} {l : List Event} {a' : Arch}
    (hw : decode w = some ins) (hp : (execInstr cfg a ins).Path l a') :
    busCount l ≤ dataAccesses ins ∧ (excCause a w = none → busCount l = dataAccesses ins) := by
  unfold excCause
  rw [hw]
  cases ins with
  | lui | auipc | opImm | op | fence | wfi | mret | ecall | ebreak =>
    simp only [execInstr] at hp; cases hp; exact ⟨Nat.le_refl _, fun _ => rfl⟩
  | jal =>
    simp only [execInstr] at hp; split at hp <;> cases hp <;> exact ⟨Nat.le_refl _, fun _ => rfl⟩
  | jalr =>
    simp only [execInstr] at hp; split at hp <;> cases hp <;> exact ⟨Nat.le_refl _, fun _ => rfl⟩
  | branch =>
    simp only [execInstr] at hp
    split at hp
    · split at hp <;> cases hp <;> exact ⟨Nat.le_refl _, fun _ => rfl⟩
    · cases hp; exact ⟨Nat.le_refl _, fun _ => rfl⟩
  | load =>
    simp only [execInstr, aligned, decide_eq_true_eq] at hp
    split at hp
    · cases hp with
      | bus hp => cases hp; exact ⟨Nat.le_refl _, fun _ => rfl⟩
    · next h => cases hp; refine ⟨Nat.zero_le _, fun hx => ?_⟩; simp only at hx; rw [if_pos h] at hx; cases hx
  | store =>
    simp only [execInstr, aligned, decide_eq_true_eq] at hp
    split at hp
    · cases hp with
      | bus hp => cases hp; exact ⟨Nat.le_refl _, fun _ => rfl⟩
    · next h => cases hp; refine ⟨Nat.zero_le _, fun hx => ?_⟩; simp only at hx; rw [if_pos h] at hx; cases hx
  | csr op rd src adr =>
    have : busCount l = 0 := by
      simp only [execInstr] at hp
      cases hp with
      | poll hp =>
        simp only at hp
        simp only [busCount]
        split at hp
        · cases hp; rfl
        · generalize csrKind adr = kk at hp
          cases kk with
          | absent => cases hp; rfl
          | zero => simp only at hp; split at hp <;> cases hp <;> rfl
          | impl c => exact (busCount_execCsr hp : _)
    exact ⟨by omega, fun _ => this⟩

theorem doc_csr {a : Arch} {w : Word} {op : CsrOp} {rd : Reg} {src : CsrSrc} {adr : BitVec 12} {n : Nat}
    (hw : decode w = some (.csr op rd src adr)) (hx : excCause a w = none)
    (hn : docThroughput a (.csr op rd src adr) = some n) :
    1 + (1 + match csrKind adr with
      | .absent => 4
      | .zero => if csrReadOnly adr ∧ csrWrites op src then 4 else 2
      | .impl _ => csrCycles op rd src) + 2 = n := by
  unfold excCause at hx
  rw [hw] at hx
  simp only at hx
  generalize csrReadOnly adr = ro at *
  unfold docThroughput at hn
  simp only at hn
  generalize csrKind adr = kk at *
  cases kk with
  | absent => simp at hx
  | zero =>
    simp only [if_true, Option.some.injEq] at hn
    simp only
    rw [if_neg (by intro h; rw [if_pos (.inr h)] at hx; cases hx), ← hn]
  | impl c =>
    simp only [reduceCtorEq, if_false] at hn
    split at hn
    · next hwr =>
      obtain ⟨rfl, hwr⟩ := hwr
      simp only [csrCycles]
      rw [if_pos hwr]; simp only [Option.some.injEq] at hn; rw [← hn]
    · cases hn

theorem doc_instr {a : Arch} {w : Word} {ins : Instr} {l : List Event} {n : Nat}
    (hcs : ¬ ∃ op rd src adr, ins = .csr op rd src adr)
    (hw : decode w = some ins) (hx : excCause a w = none) (hn : docThroughput a ins = some n) :
    1 + instrCycles a l ins + 2 * (dataAccesses ins + 1) = n := by
  unfold excCause at hx
  rw [hw] at hx
  clear hw
  cases ins with
  | csr op rd src adr => exact absurd ⟨op, rd, src, adr, rfl⟩ hcs
  | lui => cases hn; rfl
  | mret => cases hn; rfl
  | auipc => cases hn
  | fence => cases hn
  | wfi => cases hn
  | ecall => cases hn
  | ebreak => cases hn
  | jal =>
    cases hn
    dsimp only at hx
    simp only [instrCycles, targetOk, aligned, decide_eq_true_eq, dataAccesses]
    split at hx
    · cases hx
    · next h' => rw [if_pos (by simpa only [ne_eq, Decidable.not_not] using h')]
  | jalr =>
    cases hn
    dsimp only at hx
    simp only [instrCycles, targetOk, aligned, decide_eq_true_eq, dataAccesses]
    split at hx
    · cases hx
    · next h' => rw [if_pos (by simpa only [ne_eq, Decidable.not_not] using h')]
  | branch op rs1 rs2 imm =>
    have hn := Option.some.inj hn
    subst hn
    dsimp only at hx
    simp only [instrCycles, targetOk, aligned, decide_eq_true_eq, dataAccesses]
    split at hx
    · cases hx
    · next h' =>
      by_cases hbr : brTaken op (a.reg rs1) (a.reg rs2) = true
      · rw [if_pos hbr, if_pos hbr]
        have h'' := not_and.1 h' hbr
        rw [if_pos (by simpa only [ne_eq, Decidable.not_not] using h'')]
      · rw [if_neg hbr, if_neg hbr]
  | load =>
    cases hn
    dsimp only at hx
    simp only [instrCycles, aligned, decide_eq_true_eq, dataAccesses]
    split at hx
    · cases hx
    · next h' => rw [if_pos (by simpa only [ne_eq, Decidable.not_not] using h')]
  | store =>
    cases hn
    dsimp only at hx
    simp only [instrCycles, aligned, decide_eq_true_eq, dataAccesses]
    split at hx
    · cases hx
    · next h' => rw [if_pos (by simpa only [ne_eq, Decidable.not_not] using h')]
  | opImm op rd rs1 imm =>
    have hn := Option.some.inj hn
    subst hn
    clear hx hcs
    simp only [instrCycles, dataAccesses, shiftCycles, docAlu]
    generalize imm.toNat % 32 = q
    cases op <;> simp only <;> split <;> omega
  | op op rd rs1 rs2 =>
    have hn := Option.some.inj hn
    subst hn
    clear hx hcs
    simp only [instrCycles, dataAccesses, shiftCycles, docAlu]
    generalize (a.reg rs2).toNat % 32 = q
    cases op <;> simp only <;> split <;> omega

/-- Cycles of an instruction that is executed: no interrupt is taken instead. -/
theorem cycles_some {ins : Instr} (h : AfterReset s) (h2 : s.TwoCycleAck inp)
    (he : s.Executes inp t w m) (hi : ¬ s.IrqTaken inp t)
    (hw : decode w = some ins) :
    ∃ l w' a', (execInstr .asBuilt (s.run inp t).arch ins).Path l a' ∧
      m = 1 + instrCycles (s.run inp t).arch (l ++ [.bus (fetchReq a') w']) ins +
        2 * (busCount l + 1) := by
  have hc := C28_two h h2 he
  have ho : OneInstr s inp t w m := ⟨h, h2.registered, he⟩
  obtain ⟨l, hp, -, w', hl, -⟩ := ho.ofSome hi hw
  refine ⟨l, w', _, hp, ?_⟩
  rw [hl] at hc
  have hb : ((inp t).irq && (s.run inp t).arch.intEnabled) = false := by
    simpa [State.IrqTaken, Arch.intEnabled] using hi
  simp only [List.cons_append, List.nil_append, idleCycles, hb, hw, busCount, busCount_append,
    Bool.false_eq_true, if_false] at hc
  refine hc.trans ?_
  clear hc
  cases ins <;> rfl

/-- **C28.** The throughput numbers of the document: each instruction that raises no exception, and
in place of which no interrupt is taken, takes exactly the documented number of cycles with a
bus that answers in the second cycle. -/
theorem C28_doc_two {ins : Instr} {n : Nat} (h : AfterReset s) (h2 : s.TwoCycleAck inp)
    (he : s.Executes inp t w m) (hi : ¬ s.IrqTaken inp t)
    (hi' : isCsr w = true → ¬ s.IrqTaken inp (t + 1))
    (hw : decode w = some ins) (hx : excCause (s.run inp t).arch w = none)
    (hn : docThroughput (s.run inp t).arch ins = some n) : m = n := by
  by_cases hcs : ∃ op rd src adr, ins = .csr op rd src adr
  · obtain ⟨op, rd, src, adr, rfl⟩ := hcs
    have hc := C28_two h h2 he
    have ho : OneInstr s inp t w m := ⟨h, h2.registered, he⟩
    obtain ⟨l, hp, ⟨-, w', hl, -⟩, hirq⟩ := ho.csr hi hw
    have hb : ((inp t).irq && (s.run inp t).arch.intEnabled) = false := by
      simpa [State.IrqTaken, Arch.intEnabled] using hi
    have hb' : ((inp (t + 1)).irq && (s.run inp t).arch.intEnabled) = false := by
      have := hi' (by simp [isCsr, hw])
      rw [hirq] at this
      simpa using this
    have hd := doc_csr hw hx hn
    clear hx hn
    rw [hl] at hc
    have hl0 : busCount l = 0 := by
      simp only [csrTail, hb', Bool.false_eq_true, if_false] at hp
      generalize (s.run inp (t + m)).arch = a' at hp
      generalize csrKind adr = kk at hp
      cases kk with
      | absent => cases hp; rfl
      | zero => simp only at hp; split at hp <;> cases hp <;> rfl
      | impl c => exact busCount_execCsr hp
    simp only [List.cons_append, List.nil_append, idleCycles, hb, hb', hw, busCount, busCount_append,
      Bool.false_eq_true, if_false, instrCycles, hl0] at hc
    rw [hc, ← hd]; rfl
  · obtain ⟨l, w', a', hp, hm⟩ := cycles_some h h2 he hi hw
    have hb := (busCount_instr hw hp).2 hx
    rw [hb] at hm
    rw [hm]
    exact doc_instr hcs hw hx hn

/-- **C28.** Worst case: with a bus that answers in the second cycle every instruction, trap or interrupt entry
takes at least 4 and at most 69 cycles (a shift by 31). -/
theorem C28_bound_two (h : AfterReset s) (h2 : s.TwoCycleAck inp) (he : s.Executes inp t w m) :
    4 ≤ m ∧ m ≤ 69 := by
  have hc := C28_two h h2 he
  have ho : OneInstr s inp t w m := ⟨h, h2.registered, he⟩
  by_cases hi : s.IrqTaken inp t
  · obtain ⟨-, w', hl, -⟩ := ho.irq hi
    rw [hl] at hc
    have hb : ((inp t).irq && (s.run inp t).arch.intEnabled) = true := by
      simp [Arch.intEnabled, hi.1, hi.2.1, hi.2.2]
    simp only [List.append_nil, List.cons_append, List.nil_append, idleCycles, hb, busCount, if_true] at hc
    omega
  · cases hw : decode w with
    | none =>
      obtain ⟨-, w', hl, -⟩ := ho.ofNone hi hw
      rw [hl] at hc
      have hb : ((inp t).irq && (s.run inp t).arch.intEnabled) = false := by
        simpa [State.IrqTaken, Arch.intEnabled] using hi
      simp only [List.append_nil, List.cons_append, List.nil_append, idleCycles, hb, busCount, hw,
        Bool.false_eq_true, if_false] at hc
      omega
    | some ins =>
      obtain ⟨l, w', a', hp, hm⟩ := cycles_some h h2 he hi hw
      have hb := (busCount_instr hw hp).1
      rw [hm]
      clear hm hc
      generalize (s.run inp t).arch = a at *
      cases ins <;> simp only [dataAccesses] at hb <;> simp only [instrCycles]
      case lui | auipc | fence | wfi | ecall | ebreak | mret => omega
      case jal | jalr | load | store => split <;> omega
      case branch => split <;> (try split) <;> omega
      case opImm op _ _ imm =>
        have : imm.toNat % 32 < 32 := Nat.mod_lt _ (by decide)
        generalize imm.toNat % 32 = q at *
        cases op <;> simp only [shiftCycles] <;> (try split) <;> omega
      case op op _ _ rs2 =>
        have : (a.reg rs2).toNat % 32 < 32 := Nat.mod_lt _ (by decide)
        generalize (a.reg rs2).toNat % 32 = q at *
        cases op <;> simp only [shiftCycles] <;> (try split) <;> omega
      case csr op rd src adr =>
        have hcc : 2 ≤ csrCycles op rd src ∧ csrCycles op rd src ≤ 6 := by
          cases op <;> simp only [csrCycles] <;> split <;> omega
        simp only [execInstr] at hp
        cases hp with
        | poll hp =>
          simp only [List.cons_append]
          simp only [busCount] at hb ⊢
          split
          · omega
          · generalize csrKind adr = kk
            cases kk with
            | absent => simp only; omega
            | zero => simp only; split <;> omega
            | impl c => simp only; omega

namespace Soc
variable {k : Nat} {s : Soc k} {irq : Nat → Bool}

/-- **C28.** The throughput numbers of the document: each instruction that raises no exception, and
in place of which no interrupt is taken, takes exactly the documented number of cycles with the
memory of the example SoC. -/
theorem C28_doc {w : Word} {ins : Instr} {n : Nat} (h : s.AfterReset)
    (he : s.cpu.Executes (s.inputs irq) t w m) (hi : ¬ s.cpu.IrqTaken (s.inputs irq) t)
    (hi' : isCsr w = true → ¬ s.cpu.IrqTaken (s.inputs irq) (t + 1))
    (hw : decode w = some ins) (hx : excCause (s.cpu.run (s.inputs irq) t).arch w = none)
    (hn : docThroughput (s.cpu.run (s.inputs irq) t).arch ins = some n) : m = n :=
  C28_doc_two h.cpu (twoCycle h) he hi hi' hw hx hn

/-- **C28.** Worst case: with the memory of the example SoC every instruction, trap or interrupt entry
takes at least 4 and at most 69 cycles (a shift by 31). -/
theorem C28_bound {w : Word} (h : s.AfterReset) (he : s.cpu.Executes (s.inputs irq) t w m) :
    4 ≤ m ∧ m ≤ 69 := C28_bound_two h.cpu (twoCycle h) he

end Soc

/-- Shift left by 31: 69 cycles.  A load: 9 cycles.  CSRRC on mscratch: 10 cycles. -/
example :
    (∃ w, (demo [0x01F00113#32, 0x002110B3#32]).cpu.Executes (demoIn [0x01F00113#32, 0x002110B3#32] false)
      11 w 69 ∧ decode w = some (.op .sll 1 2 2) ∧
      docThroughput (powerOn.run (demoIn [0x01F00113#32, 0x002110B3#32] false) 11).arch
        (.op .sll 1 2 2) = some 69) ∧
    (∃ w, (demo [0x00002083#32]).cpu.Executes (demoIn [0x00002083#32] false) 7 w 9 ∧
      decode w = some (.load .lw 1 0 0)) ∧
    ∃ w, (demo [0x3400F0F3#32]).cpu.Executes (demoIn [0x3400F0F3#32] false) 7 w 10 ∧
      decode w = some (.csr .rc 1 (.imm 1) 0x340) := by
  refine ⟨⟨0x002110B3#32, ?_, by decide, by decide +kernel⟩, ⟨0x00002083#32, ?_, by decide⟩,
    0x3400F0F3#32, ?_, by decide⟩
  · exact runsCheck_sound (s := powerOn) (r := ⟨1, 15, false, 0⟩) (by decide +kernel)
  · exact runsCheck_sound (s := powerOn) (r := ⟨0, 15, false, 0⟩) (by decide +kernel)
  · exact runsCheck_sound (s := powerOn) (r := ⟨0, 15, false, 0⟩) (by decide +kernel)

/-! ## C33 -/

/-- **C33.** Whatever an instruction writes to a register is what the next instruction reads, for any
latency of either: here, an ADDI `rd, rs1, imm` followed by any register-register operation that
reads `rd` through both operands.  (Stated for the pair of words; the value is computed from the
state before the first one.) -/
theorem C33_forward {rd rs1 rd' : Reg} {imm : BitVec 12} {op' : AluOp} {w w' : Word} {m' : Nat}
    (h : OneInstr s inp t w m) (hi : ¬ s.IrqTaken inp t)
    (hw : decode w = some (.opImm .add rd rs1 imm)) (hrd : rd ≠ 0)
    (h' : OneInstr s inp (t + m) w' m') (hi' : ¬ s.IrqTaken inp (t + m))
    (hw' : decode w' = some (.op op' rd' rd rd)) :
    let v := (s.run inp t).arch.reg rs1 + imm.signExtend 32
    (s.run inp (t + m + m')).arch =
      ({ (s.run inp t).arch.setReg rd v with pc := (s.run inp t).arch.pc + 8 }).setReg rd'
        (alu op' v v) := by
  intro v
  have e1 := (h.pure hi hw rfl).1
  have e2 := (h'.pure hi' hw' rfl).1
  rw [e2, e1]
  have hv : v = alu .add ((s.run inp t).arch.reg rs1) (imm.signExtend 32) := rfl
  rw [← hv]
  clear_value v
  clear e1 e2 hv h h' hi hi' hw hw'
  generalize (s.run inp t).arch = a
  have hrd' : ¬ rd = 0#5 := hrd
  have hr : ((a.setReg rd v).next).reg rd = v := by
    simp [Arch.reg, Arch.setReg, Arch.next, hrd']
  rw [hr]
  unfold Arch.setReg Arch.next
  have h8 : a.pc + 4#32 + 4#32 = a.pc + 8#32 := by rw [BitVec.add_assoc]; rfl
  by_cases h0 : rd' = 0#5 <;> simp [h0, hrd', h8]

/-- **C33.** In general: two instructions in a row have the effect of the second one, as an
instruction of the instruction set, in the state the first one leads to. -/
theorem C33_pair {w' : Word} {m' : Nat} (h : OneInstr s inp t w m)
    (h' : OneInstr s inp (t + m) w' m') :
    ∃ l l' a', (exec .asBuilt (s.run inp t).arch w).Path l a' ∧
      (exec .asBuilt a' w').Path l' (s.run inp (t + m + m')).arch ∧
      ∃ w'', s.events inp t (m + m') =
        l ++ [.bus (fetchReq a') w'] ++ l' ++ [.bus (fetchReq (s.run inp (t + m + m')).arch) w''] := by
  obtain ⟨l, w1, hp, hl, hd, -⟩ := h.path
  obtain ⟨l', w2, hp', hl', -, -⟩ := h'.path
  obtain rfl := hd.unique h'.runs.1
  exact ⟨l, l', _, hp, hp', w2, by rw [State.events_add, hl, hl']; simp⟩

/-- `addi x1, x0, 31` followed by `add x2, x1, x1`. -/
example : ∃ s inp t m m', OneInstr s inp t 0x01F00093#32 m ∧ OneInstr s inp (t + m) 0x00108133#32 m' ∧
    (∀ t, ¬ s.IrqTaken inp t) ∧ (s.run inp t).arch.pc = 4 :=
  demo_pair (P := fun a => a.pc = 4) [0x00000013#32, 0x01F00093#32, 0x00108133#32] 1
    (by decide +kernel) (by decide +kernel) (by decide +kernel)

end Sentinel
