import Verif.Props.Frame
import Verif.Props.Trap
import Verif.Props.Trace
/-!
# C86: how long things take on any bus
-/

set_option linter.unusedSimpArgs false

namespace Sentinel
open Ucode Spec

variable {s : State} {inp : Nat → Input} {t m : Nat} {w : Word} {r : Rvfi} {W : Nat}

/-- The bus answers every request within `W` cycles (its first cycle counts as one). -/
def State.AckWithin (s : State) (inp : Nat → Input) (W : Nat) : Prop :=
  ∀ t, s.FirstCycle inp t → ∃ k, k < W ∧ (inp (t + k)).ack = true

/-- For how many cycles the request on the bus in cycle `T` has been there. -/
def State.age (s : State) (inp : Nat → Input) : Nat → Nat
  | 0 => 0
  | T + 1 => if (s.run inp T).cyc = true ∧ (inp T).ack = false then State.age s inp T + 1 else 0

theorem age_spec (h : AfterReset s) (hr : s.RegisteredAck inp) (T : Nat) :
    ((s.run inp T).cyc = false → s.age inp T = 0) ∧
    ((s.run inp T).cyc = true → ∃ f, f + s.age inp T = T ∧ s.FirstCycle inp f ∧ ∀ j, f ≤ j → j < T → (inp j).ack = false) := by
  induction T with
  | zero =>
    refine ⟨fun _ => rfl, fun hc => ⟨0, rfl, ⟨hc, fun t' e => by omega⟩, fun j _ h => by omega⟩⟩
  | succ T ih =>
    unfold State.age
    by_cases hg : (s.run inp T).cyc = true ∧ (inp T).ack = false
    · rw [if_pos hg]
      have hc := (C23_stable h inp hg.1 hg.2).1
      refine ⟨fun he => (by rw [hc] at he; cases he), fun _ => ?_⟩
      obtain ⟨f, e, hf, hk⟩ := ih.2 hg.1
      refine ⟨f, by omega, hf, fun j h1 h2 => ?_⟩
      by_cases hj : j = T
      · rw [hj]; exact hg.2
      · exact hk j h1 (by omega)
    · rw [if_neg hg]
      refine ⟨fun _ => rfl, fun hc => ⟨T + 1, rfl, ⟨hc, fun t' e => ?_⟩, fun j _ h => by omega⟩⟩
      obtain rfl : T = t' := by omega
      by_contra hx
      have hx : (s.run inp T).cyc = true := by simpa using hx
      have ha : (inp T).ack = true := by
        by_contra ha
        exact hg ⟨hx, by simpa using ha⟩
      rw [C24_drop h hr hx ha] at hc
      cases hc

theorem age_lt (h : AfterReset s) (hr : s.RegisteredAck inp) (hW : s.AckWithin inp W) {T : Nat} (hc : (s.run inp T).cyc = true) :
    s.age inp T < W := by
  obtain ⟨f, e, hf, hk⟩ := (age_spec h hr T).2 hc
  obtain ⟨k, h1, h2⟩ := hW f hf
  by_contra hn
  have := hk (f + k) (by omega) (by omega)
  rw [h2] at this
  cases this

theorem age_pos (h : AfterReset s) (hr : s.RegisteredAck inp) {T : Nat} (hc : (s.run inp T).cyc = true) (ha : (inp T).ack = true) :
    1 ≤ s.age inp T := by
  obtain ⟨f, e, hf, hk⟩ := (age_spec h hr T).2 hc
  have hne : f ≠ T := by
    rintro rfl
    have := hr f hf
    rw [ha] at this
    cases this
  omega

/-- Each transaction takes at most `W` cycles. -/
theorem busy_le (h : AfterReset s) (hr : s.RegisteredAck inp) (hW : s.AckWithin inp W) (t m : Nat) :
    s.busy inp t m + s.age inp t ≤ W * busCount (s.events inp t m) + s.age inp (t + m) := by
  induction m with
  | zero => simp [State.busy, State.events, busCount]
  | succ m ih =>
    rw [State.busy_add, State.events_snoc, busCount_append, busCount_obs, ← Nat.add_assoc]
    simp only [State.busy, State.age, Nat.mul_add, Nat.add_zero]
    cases hc : (s.run inp (t + m)).cyc with
    | false =>
      have := (age_spec h hr (t + m)).1 hc
      simp
      omega
    | true =>
      have := age_lt h hr hW hc
      cases ha : (inp (t + m)).ack <;> simp <;> omega

/-- And at least 2. -/
theorem busy_ge (h : AfterReset s) (hr : s.RegisteredAck inp) (t m : Nat) :
    2 * busCount (s.events inp t m) + s.age inp (t + m) ≤ s.busy inp t m + s.age inp t := by
  induction m with
  | zero => simp [State.busy, State.events, busCount]
  | succ m ih =>
    rw [State.busy_add, State.events_snoc, busCount_append, busCount_obs, ← Nat.add_assoc]
    simp only [State.busy, State.age, Nat.mul_add, Nat.add_zero]
    cases hc : (s.run inp (t + m)).cyc with
    | false =>
      have := (age_spec h hr (t + m)).1 hc
      simp
      omega
    | true =>
      cases ha : (inp (t + m)).ack
      · simp; omega
      · have := age_pos h hr hc ha
        simp; omega

theorem dispatch_age (h : AfterReset s) (hr : s.RegisteredAck inp) (hd : s.Dispatching inp t) : s.age inp t = 0 := by
  refine (age_spec h hr t).1 ?_
  have hu := hd.2
  rw [rom_01] at hu
  simp [State.cyc, hu, u_01]

/-- Cycles without a request and number of requests of one instruction. -/
theorem idle_requests (ho : OneInstr s inp t w m) : 2 ≤ idleCycles (s.run inp t).arch w (s.events inp t m) ∧
    ((idleCycles (s.run inp t).arch w (s.events inp t m) ≤ 67 ∧ busCount (s.events inp t m) = 1) ∨
     (idleCycles (s.run inp t).arch w (s.events inp t m) ≤ 6 ∧ busCount (s.events inp t m) = 2)) := by
  by_cases hi : s.IrqTaken inp t
  · obtain ⟨-, w', hl, -⟩ := ho.irq hi
    rw [hl]
    have hb : ((inp t).irq && (s.run inp t).arch.intEnabled) = true := by
      simp [Arch.intEnabled, hi.1, hi.2.1, hi.2.2]
    simp only [List.append_nil, List.cons_append, List.nil_append, idleCycles, hb, busCount, if_true]
    exact ⟨by decide, .inl ⟨by decide, trivial⟩⟩
  have hb : ((inp t).irq && (s.run inp t).arch.intEnabled) = false := by
    simpa [State.IrqTaken, Arch.intEnabled] using hi
  cases hw : decode w with
  | none =>
    obtain ⟨-, w', hl, -⟩ := ho.ofNone hi hw
    rw [hl]
    simp only [List.append_nil, List.cons_append, List.nil_append, idleCycles, hb, busCount, hw,
      Bool.false_eq_true, if_false]
    exact ⟨by decide, .inl ⟨by decide, trivial⟩⟩
  | some ins =>
    obtain ⟨l, hp, -, w', hl, -⟩ := ho.ofSome hi hw
    have hbc := (busCount_instr hw hp).1
    have e : idleCycles (s.run inp t).arch w (s.events inp t m) =
        1 + instrCycles (s.run inp t).arch (l ++ [.bus (fetchReq (s.run inp (t + m)).arch) w']) ins := by
      rw [hl]
      simp only [List.cons_append, List.nil_append, idleCycles, hb, hw, Bool.false_eq_true, if_false]
      cases ins <;> rfl
    have e2 : busCount (s.events inp t m) = busCount l + 1 := by
      rw [hl]; simp [busCount, busCount_append]
    rw [e, e2]
    clear e e2 hl
    generalize (s.run inp t).arch = a at *
    have hz : ∀ b, (Tree.ret b : Tree Arch).Path l (s.run inp (t + m)).arch → busCount l = 0 := by
      intro b hp
      cases hp
      rfl
    cases ins <;> simp only [dataAccesses] at hbc <;> simp only [instrCycles]
    case lui | auipc | fence | wfi | ecall | ebreak | mret => omega
    case jal | jalr => split <;> omega
    case load | store =>
      simp only [execInstr] at hp
      split
      · omega
      · next hn =>
        rw [if_neg hn] at hp
        have := hz _ hp
        omega
    case branch => split <;> (try split) <;> omega
    case opImm op _ _ imm =>
      have : imm.toNat % 32 < 32 := Nat.mod_lt _ (by decide)
      generalize imm.toNat % 32 = q at *
      cases op <;> simp only [shiftCycles] <;> (try split) <;> omega
    case op op _ _ rs2 =>
      have : (a.reg rs2).toNat % 32 < 32 := Nat.mod_lt _ (by decide)
      generalize (a.reg rs2).toNat % 32 = q at *
      cases op <;> simp only [shiftCycles] <;> (try split) <;> omega
    case csr op rd src adr =>
      have hcc : 2 ≤ csrCycles op rd src ∧ csrCycles op rd src ≤ 6 := by
        cases op <;> simp only [csrCycles] <;> split <;> omega
      simp only [execInstr] at hp
      cases hp with
      | poll hp =>
        simp only [List.cons_append]
        simp only [busCount] at hbc ⊢
        split
        · omega
        · generalize csrKind adr = kk
          cases kk with
          | absent => simp only; omega
          | zero => simp only; split <;> omega
          | impl c => simp only; omega

/-- The longest an instruction, a trap or the entry of an interrupt takes if the bus answers within `W` cycles. -/
def longest (W : Nat) : Nat := max (67 + W) (6 + 2 * W)

/-- **C86** (bounds): on every bus with a registered ACK an instruction takes at least 4 cycles; if the bus answers within `W` cycles,
at most `longest W`. -/
theorem C86_bound (h : OneInstr s inp t w m) : 4 ≤ m ∧ (s.AckWithin inp W → m ≤ longest W) := by
  have hc := C28_cycles h
  obtain ⟨h1, h2⟩ := idle_requests h
  have a0 := dispatch_age h.reset h.ack h.runs.1.1
  have a1 := dispatch_age h.reset h.ack h.runs.2.2.1
  refine ⟨?_, fun hW => ?_⟩
  · have := busy_ge h.reset h.ack t m
    rcases h2 with ⟨-, e⟩ | ⟨-, e⟩ <;> rw [e] at this <;> omega
  · have := busy_le h.reset h.ack hW t m
    unfold longest
    rcases h2 with ⟨e', e⟩ | ⟨e', e⟩ <;> rw [e] at this <;> omega

theorem State.AckWithin.fair (h : AfterReset s) (hr : s.RegisteredAck inp) (hW : s.AckWithin inp W) : s.FairAck inp := by
  intro t hc
  obtain ⟨f, e, hf, hk⟩ := (age_spec h hr t).2 hc
  obtain ⟨k, h1, h2⟩ := hW f hf
  refine ⟨f + k, ?_, .inr h2⟩
  by_contra hn
  have := hk (f + k) (by omega) (by omega)
  rw [h2] at this
  cases this

/-- **C86** (dispatch): if the bus answers within `W` cycles, from any cycle (after the first dispatch) it takes less than
`longest W` cycles to the next dispatch. -/
theorem C86_dispatch (h : AfterReset s) (hr : s.RegisteredAck inp) (hW : s.AckWithin inp W) {t0 : Nat} (h0 : s.Dispatching inp t0) (ht : t0 ≤ t) :
    ∃ j < longest W, s.Dispatching inp (t + j) ∧ ∀ i < j, ¬ s.Dispatching inp (t + i) := by
  classical
  have key : ∃ j, j < longest W ∧ s.Dispatching inp (t + j) := by
    obtain ⟨d, rfl⟩ := Nat.exists_eq_add_of_le ht
    clear ht
    induction d using Nat.strong_induction_on generalizing t0 with
    | _ d ih =>
      by_cases hd0 : d = 0
      · subst hd0; exact ⟨0, by unfold longest; omega, h0⟩
      obtain ⟨w, -, -, hd⟩ := at_dispatch h hr h0
      obtain ⟨m, hm'⟩ := executes_of_fair h hr (hW.fair h hr) hd
      have hb := (C86_bound (W := W) ⟨h, hr, hm'⟩).2 hW
      by_cases hlt : d < m
      · exact ⟨m - d, by omega, by rw [show t0 + d + (m - d) = t0 + m by omega]; exact hm'.2.2.1⟩
      · have hpos := hm'.2.1
        have := ih (d - m) (by omega) hm'.2.2.1
        rwa [show t0 + m + (d - m) = t0 + d by omega] at this
  have hf := Nat.find_spec key
  exact ⟨Nat.find key, hf.1, hf.2, fun i hi hx => Nat.find_min key hi ⟨by have := hf.1; omega, hx⟩⟩

/-- **C86** (interrupt entry): from the cycle in which an interrupt is taken to the dispatch of the first instruction of the handler it takes
5 cycles and those of one bus request: 7 on the fastest bus, at most 5 + `W` if the bus answers within `W` cycles. -/
theorem C86_entry (h : OneInstr s inp t w m) (hi : s.IrqTaken inp t) :
    (s.run inp (t + m)).arch.pc = (s.run inp t).arch.mtvec ∧ 7 ≤ m ∧ (s.AckWithin inp W → m ≤ 5 + W) := by
  have hc := C28_cycles h
  obtain ⟨he, w', hl, -⟩ := C19_taken h hi
  have hb : ((inp t).irq && (s.run inp t).arch.intEnabled) = true := by
    simp [Arch.intEnabled, hi.1, hi.2.1, hi.2.2]
  have e1 : idleCycles (s.run inp t).arch w (s.events inp t m) = 5 := by
    rw [hl]; simp only [List.append_nil, List.cons_append, List.nil_append, idleCycles, hb, if_true]
  have e2 : busCount (s.events inp t m) = 1 := by
    rw [hl]; simp only [List.append_nil, List.cons_append, List.nil_append, busCount]
  have a0 := dispatch_age h.reset h.ack h.runs.1.1
  have a1 := dispatch_age h.reset h.ack h.runs.2.2.1
  refine ⟨by rw [he]; rfl, ?_, fun hW => ?_⟩
  · have := busy_ge h.reset h.ack t m
    rw [e2] at this; omega
  · have := busy_le h.reset h.ack hW t m
    rw [e2] at this; omega

/-- **C86** (interrupt latency): on a bus that answers within `W` cycles, if the line is high from cycle `t` on and interrupts are enabled
at the next dispatch, then less than `longest W + 5 + W` cycles after `t` the first instruction of the handler is dispatched; no instruction completes
in between but the one that was being executed in cycle `t`. -/
theorem C86_latency (h : AfterReset s) (hr : s.RegisteredAck inp) (hW : s.AckWithin inp W) {t0 : Nat} (h0 : s.Dispatching inp t0) (ht : t0 ≤ t)
    (hl : ∀ j < longest W, (inp (t + j)).irq = true)
    (he : ∀ j < longest W, s.Dispatching inp (t + j) → (s.run inp (t + j)).arch.mie = true ∧ (s.run inp (t + j)).arch.meie = true) :
    ∃ j k w, j < longest W ∧ k ≤ 5 + W ∧ (∀ i < j, ¬ s.Dispatching inp (t + i)) ∧ OneInstr s inp (t + j) w k ∧
      s.Effect inp (t + j) k (s.run inp (t + j)).arch.enterInterrupt [] := by
  obtain ⟨j, hj, hd, hn⟩ := C86_dispatch h hr hW h0 ht
  obtain ⟨w, -, -, hd'⟩ := at_dispatch h hr hd
  obtain ⟨k, hk⟩ := executes_of_fair h hr (hW.fair h hr) hd'
  have ho : OneInstr s inp (t + j) w k := ⟨h, hr, hk⟩
  have hi : s.IrqTaken inp (t + j) := ⟨hl j hj, he j hj hd⟩
  exact ⟨j, k, w, hj, (C86_entry ho hi).2.2 hW, hn, ho, C19_taken ho hi⟩

/-- **C86** (reports): on a bus that answers within `W` cycles the RVFI port reports an instruction at least every `longest W` cycles. -/
theorem C86_reports (h : AfterReset s) (hr : s.RegisteredAck inp) (hW : s.AckWithin inp W) (hv : r.AfterReset) {T : Nat}
    (hT : r.validAt s inp T = true) : ∃ j, 4 ≤ j ∧ j ≤ longest W ∧ r.validAt s inp (T + j) = true ∧ ∀ i, 0 < i → i < j → r.validAt s inp (T + i) = false := by
  obtain ⟨t, w, m, h1, e⟩ := (C49_valid h hr hv T).1 hT
  obtain ⟨w', -, -, hd'⟩ := at_dispatch h hr h1.runs.2.2.1
  obtain ⟨k, hk⟩ := executes_of_fair h hr (hW.fair h hr) hd'
  have ho : OneInstr s inp (t + m) w' k := ⟨h, hr, hk⟩
  obtain ⟨b1, b2⟩ := C86_bound (W := W) ho
  refine ⟨k, b1, b2 hW, (C49_valid h hr hv _).2 ⟨t + m, w', k, ho, by omega⟩, fun i h1' h2 => ?_⟩
  by_contra hx
  have hx : r.validAt s inp (T + i) = true := by simpa using hx
  obtain ⟨t', w'', m', h3, e'⟩ := (C49_valid h hr hv _).1 hx
  have := h3.runs.2.2.1
  rw [← e'] at this
  exact hk.2.2.2 i h1' h2 (by rwa [show t + m + i = T + i + 1 by omega])

/-- The memory of the example SoC answers within 2 cycles: 69 cycles at most, and 75 from the interrupt line to the first instruction of
the handler. -/
example : longest 2 = 69 ∧ longest 2 + 5 + 2 = 76 := by decide

theorem State.TwoCycleAck.within (h : AfterReset s) (h2 : s.TwoCycleAck inp) : s.AckWithin inp 2 := by
  intro t ht
  refine ⟨1, by omega, ?_⟩
  rw [h2.2, ht.1, h2.registered t ht]; rfl

/-- `csrrci x1, mstatus, 8` on a bus that answers within 2 cycles. -/
example : ∃ inp t m, OneInstr powerOn inp t 0x300470F3#32 m ∧ powerOn.AckWithin inp 2 := by
  obtain ⟨T, hT⟩ := demo_seq [0x300470F3#32] false
  obtain ⟨h1, -, -⟩ := hT 0
  have hw : (demoAt [0x300470F3#32] false 0).1.2 = 0x300470F3#32 := by decide +kernel
  rw [hw] at h1
  exact ⟨_, _, _, h1, State.TwoCycleAck.within h1.reset (Soc.twoCycle (demo_reset [0x300470F3#32]))⟩

/-- With interrupts enabled and the line high from the start, `addi x1, x0, 5` gives way to an interrupt. -/
example : ∃ inp t m, OneInstr powerOn inp t 0x00500093#32 m ∧ powerOn.IrqTaken inp t ∧ powerOn.AckWithin inp 2 := by
  obtain ⟨T, hT⟩ := demo_seq [0x80000093#32, 0x30409073#32, 0x30045073#32, 0x00500093#32] true
  obtain ⟨h1, h2, h3⟩ := hT 3
  have hw : (demoAt [0x80000093#32, 0x30409073#32, 0x30045073#32, 0x00500093#32] true 3).1.2 = 0x00500093#32 := by decide +kernel
  have hm : (demoAt [0x80000093#32, 0x30409073#32, 0x30045073#32, 0x00500093#32] true 3).1.1.mie = true ∧
      (demoAt [0x80000093#32, 0x30409073#32, 0x30045073#32, 0x00500093#32] true 3).1.1.meie = true := by decide +kernel
  rw [hw] at h1
  rw [← h3] at hm
  exact ⟨_, _, _, h1, ⟨rfl, hm.1, hm.2⟩, State.TwoCycleAck.within h1.reset (Soc.twoCycle (demo_reset _))⟩

/-! ## The bounds are reached -/

/-- The core on a bus that answers every request in its `W`-th cycle, with the word `d`.  The second component is the age of the request. -/
def slow (W : Nat) (d : Word) : Nat → State × Nat
  | 0 => (powerOn, 0)
  | n + 1 =>
    let p := slow W d n
    let ack : Bool := p.1.cyc && p.2 + 1 = W
    (p.1.step { datR := d, ack := ack, irq := false }, if p.1.cyc && !ack then p.2 + 1 else 0)

def slowIn (W : Nat) (d : Word) (n : Nat) : Input :=
  { datR := d, ack := (slow W d n).1.cyc && (slow W d n).2 + 1 = W, irq := false }

theorem slow_run (W : Nat) (d : Word) (n : Nat) : powerOn.run (slowIn W d) n = (slow W d n).1 ∧ powerOn.age (slowIn W d) n = (slow W d n).2 := by
  induction n with
  | zero => exact ⟨rfl, rfl⟩
  | succ n ih =>
    refine ⟨?_, ?_⟩
    · show (powerOn.run (slowIn W d) n).step (slowIn W d n) = _
      rw [ih.1]; rfl
    · show (if (powerOn.run (slowIn W d) n).cyc = true ∧ (slowIn W d n).ack = false then powerOn.age (slowIn W d) n + 1 else 0) =
        if (slow W d n).1.cyc && !(slowIn W d n).ack then (slow W d n).2 + 1 else 0
      rw [ih.1, ih.2]
      simp only [Bool.and_eq_true, Bool.not_eq_true']

theorem slow_ack (W : Nat) (d : Word) (n : Nat) : (slowIn W d n).ack = true ↔ (powerOn.run (slowIn W d) n).cyc = true ∧ powerOn.age (slowIn W d) n + 1 = W := by
  rw [(slow_run W d n).1, (slow_run W d n).2]
  simp [slowIn]

/-- In the first cycle of a request its age is 0. -/
theorem first_age {T : Nat} (hf : s.FirstCycle inp T) : s.age inp T = 0 := by
  cases T with
  | zero => rfl
  | succ T => rw [State.age, if_neg]; rw [hf.2 T rfl]; simp

theorem slow_registered {W : Nat} (hW : 2 ≤ W) (d : Word) : powerOn.RegisteredAck (slowIn W d) := by
  intro t hf
  by_contra hx
  have := (slow_ack W d t).1 (by simpa using hx)
  rw [first_age hf] at this
  omega

theorem slow_within {W : Nat} (hW : 2 ≤ W) (d : Word) : powerOn.AckWithin (slowIn W d) W := by
  intro t hf
  refine ⟨W - 1, by omega, ?_⟩
  have key : ∀ k, k < W → (powerOn.run (slowIn W d) (t + k)).cyc = true ∧ powerOn.age (slowIn W d) (t + k) = k := by
    intro k
    induction k with
    | zero => exact fun _ => ⟨hf.1, first_age hf⟩
    | succ k ih =>
      intro hk
      obtain ⟨h1, h2⟩ := ih (by omega)
      have ha : (slowIn W d (t + k)).ack = false := by
        by_contra hx
        have := ((slow_ack W d (t + k)).1 (by simpa using hx)).2
        omega
      refine ⟨(C23_stable (.inl rfl) _ h1 ha).1, ?_⟩
      rw [← Nat.add_assoc, State.age, if_pos ⟨h1, ha⟩, h2]
  obtain ⟨h1, h2⟩ := key (W - 1) (by omega)
  exact (slow_ack W d _).2 ⟨h1, by omega⟩

theorem slow_busy {W : Nat} (hW : 2 ≤ W) (d : Word) (t m : Nat) :
    powerOn.busy (slowIn W d) t m + powerOn.age (slowIn W d) t =
      W * busCount (powerOn.events (slowIn W d) t m) + powerOn.age (slowIn W d) (t + m) := by
  have hr := slow_registered hW d
  induction m with
  | zero => simp [State.busy, State.events, busCount]
  | succ m ih =>
    rw [State.busy_add, State.events_snoc, busCount_append, busCount_obs, ← Nat.add_assoc]
    simp only [State.busy, State.age, Nat.mul_add, Nat.add_zero]
    cases hc : (powerOn.run (slowIn W d) (t + m)).cyc with
    | false =>
      have := (age_spec (.inl rfl) hr (t + m)).1 hc
      simp
      omega
    | true =>
      cases ha : (slowIn W d (t + m)).ack
      · simp; omega
      · have := ((slow_ack W d _).1 ha).2
        simp; omega

theorem slow_word {W : Nat} (d : Word) {q : Req} {x : Word} : ∀ {m t : Nat}, Event.bus q x ∈ powerOn.events (slowIn W d) t m → x = d := by
  intro m
  induction m with
  | zero => intro t h; simp [State.events] at h
  | succ m ih =>
    intro t h
    simp only [State.events, List.mem_append] at h
    rcases h with h | h
    · unfold State.obs at h
      rw [List.mem_append] at h
      rcases h with h | h
      · split at h
        · simp only [List.mem_singleton, Event.bus.injEq] at h
          exact h.2
        · simp at h
      · split at h <;> simp at h
    · exact ih h

/-- On such a bus the word `d` is executed, and takes its idle cycles and `W` cycles per request. -/
theorem slow_one {W : Nat} (hW : 2 ≤ W) (d : Word) : ∃ t m, OneInstr powerOn (slowIn W d) t d m ∧
    m = idleCycles (powerOn.run (slowIn W d) t).arch d (powerOn.events (slowIn W d) t m) + W * busCount (powerOn.events (slowIn W d) t m) := by
  have hr := slow_registered hW d
  have hw := slow_within hW d
  obtain ⟨t, w, m, -, he⟩ := (C27_progress (.inl rfl) hr (hw.fair (.inl rfl) hr)).1 0
  obtain ⟨l, q, hl⟩ := he.1.2
  obtain rfl : w = d := slow_word d (q := q) (by rw [hl]; simp)
  have ho : OneInstr powerOn (slowIn W w) t w m := ⟨.inl rfl, hr, he⟩
  refine ⟨t, m, ho, ?_⟩
  have h1 := C28_cycles ho
  have h2 := slow_busy hW w t m
  rw [dispatch_age ho.reset ho.ack he.1.1, dispatch_age ho.reset ho.ack he.2.2.1] at h2
  omega

/-- **C86** (sharp): for every `W` there is a bus that answers within `W` cycles and an instruction that takes `longest W` cycles on it:
`slli x1, x1, 31`, or, on a slow bus, `sw x0, 0(x0)`. -/
theorem C86_sharp {W : Nat} (hW : 2 ≤ W) : ∃ inp t w, powerOn.AckWithin inp W ∧ OneInstr powerOn inp t w (longest W) := by
  have noirq : ∀ d t, ¬ powerOn.IrqTaken (slowIn W d) t := fun d t h => absurd h.1 (by simp [slowIn])
  have A : ∃ t, OneInstr powerOn (slowIn W 0x01F09093#32) t 0x01F09093#32 (67 + W) := by
    obtain ⟨t, m, ho, e⟩ := slow_one hW 0x01F09093#32
    obtain ⟨l, hp, -, w', hl, -⟩ := ho.ofSome (noirq _ _) (ins := .opImm .sll 1 1 0x1F) (by decide)
    generalize ha' : (powerOn.run (slowIn W 0x01F09093#32) (t + m)).arch = a' at *
    simp only [execInstr] at hp
    cases hp
    rw [hl] at e
    refine ⟨t, ?_⟩
    rw [show 67 + W = m from ?_]; exact ho
    rw [e]
    have hd : decode 0x01F09093#32 = some (.opImm .sll 1 1 0x1F) := by decide
    have hq : (slowIn W 0x01F09093#32 t).irq = false := rfl
    simp only [List.cons_append, List.nil_append, List.append_nil, idleCycles, hq, hd, Bool.false_and, Bool.false_eq_true, if_false, busCount, instrCycles]
    have : shiftCycles 6 ((0x1F : BitVec 12).toNat % 32) = 66 := by decide
    omega
  have B : ∃ t, OneInstr powerOn (slowIn W 0x00002023#32) t 0x00002023#32 (6 + 2 * W) := by
    obtain ⟨t, m, ho, e⟩ := slow_one hW 0x00002023#32
    have hd : decode 0x00002023#32 = some (.store .sw 0 0 0) := by decide
    obtain ⟨d, -, w', hl, -⟩ := C05_store ho (noirq _ _) hd (by show ((0 : Word) + _).toNat % 4 = 0; decide)
    rw [hl] at e
    refine ⟨t, ?_⟩
    rw [show 6 + 2 * W = m from ?_]; exact ho
    rw [e]
    have hq : (slowIn W 0x00002023#32 t).irq = false := rfl
    have hal : aligned ((powerOn.run (slowIn W 0x00002023#32) t).arch.reg 0 + (0 : BitVec 12).signExtend 32) StOp.sw.size = true := by
      show aligned ((0 : Word) + _) 4 = true; decide
    simp only [List.cons_append, List.nil_append, List.append_nil, idleCycles, hq, hd, Bool.false_and, Bool.false_eq_true, if_false, busCount, instrCycles,
      hal, if_true]
    omega
  by_cases hc : 6 + 2 * W ≤ 67 + W
  · obtain ⟨t, h⟩ := A
    exact ⟨_, t, _, slow_within hW _, by rwa [show longest W = 67 + W by unfold longest; omega]⟩
  · obtain ⟨t, h⟩ := B
    exact ⟨_, t, _, slow_within hW _, by rwa [show longest W = 6 + 2 * W by unfold longest; omega]⟩

end Sentinel
