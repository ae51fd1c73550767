import Verif.Proof.SocMem
/-!
# The core with a memory is the flat-memory machine
-/

set_option linter.unusedSimpArgs false

namespace Sentinel
open Ucode Spec

/-- The computation does not depend on the data returned by a write. -/
def Tree.Blind {α : Type} : Tree α → Prop
  | .ret _ => True
  | .poll f => ∀ b, Tree.Blind (f b)
  | .bus r f => (r.we = true → ∀ d d', f d = f d') ∧ ∀ d, Tree.Blind (f d)

theorem Tree.Blind.bind {α β : Type} {T : Tree α} {f : α → Tree β} (h : Tree.Blind T)
    (hf : ∀ x, Tree.Blind (f x)) : Tree.Blind (T.bind f) := by
  induction T with
  | ret x => exact hf x
  | poll g ih => exact fun b => ih b (h b)
  | bus r g ih => exact ⟨fun hw d d' => by show (g d).bind f = (g d').bind f; rw [h.1 hw d d'], fun d => ih d (h.2 d)⟩

theorem blind_fetch (a : Arch) : Tree.Blind (fetch a) := ⟨fun h => (by cases h), fun _ => trivial⟩

theorem blind_ite {α : Type} {c : Prop} [Decidable c] {T U : Tree α} (h1 : Tree.Blind T)
    (h2 : Tree.Blind U) : Tree.Blind (if c then T else U) := by split <;> assumption

theorem blind_execCsr (a : Arch) (op : CsrOp) (rd : Reg) (src : CsrSrc) (c : Csr) :
    Tree.Blind (execCsr a op rd src c) :=
  blind_ite (fun _ => blind_ite (fun _ => trivial) trivial) trivial

theorem blind_instr (cfg : Cfg) (a : Arch) (ins : Instr) : Tree.Blind (execInstr cfg a ins) := by
  cases ins with
  | lui | auipc | opImm | op | fence | wfi | ecall | ebreak | mret => trivial
  | jal => exact blind_ite trivial trivial
  | jalr => exact blind_ite trivial trivial
  | branch => exact blind_ite (blind_ite trivial trivial) trivial
  | load => exact blind_ite ⟨fun h => (by cases h), fun _ => trivial⟩ trivial
  | store => exact blind_ite ⟨fun _ _ _ => rfl, fun _ => trivial⟩ trivial
  | csr op rd src adr =>
    intro b
    refine blind_ite trivial ?_
    cases csrKind adr with
    | absent => trivial
    | zero => exact blind_ite trivial trivial
    | impl c => exact blind_execCsr _ _ _ _ _

theorem blind_cycle (cfg : Cfg) (p : Arch × Word) : Tree.Blind (cycle cfg p) := by
  refine Tree.Blind.bind ?_ blind_fetch
  intro b
  refine blind_ite trivial ?_
  cases decode p.2 with
  | none => trivial
  | some ins => exact blind_instr _ _ _

theorem onMem_path {α : Type} {k : Nat} {b : Bool} {T : Tree α} {l : List Event} {x : α}
    (hp : T.Path l x) (hb : Tree.Blind T) {M : Mem k} (hm : MemTrace M l)
    (hi : ∀ c, Event.poll c ∈ l → c = b) : T.onMem b M = (x, M.afterAll l) := by
  induction hp generalizing M with
  | ret x => rfl
  | @poll f c l x _ ih =>
    obtain rfl := hi c (by simp)
    exact ih (hb _) hm fun c hc => hi c (by simp [hc])
  | @bus r f d l x _ ih =>
    have e : f (if r.we then 0 else M (r.adr.setWidth k)) = f d := by
      cases hw : r.we
      · rw [hm.1 hw]; rfl
      · exact hb.1 hw _ _
    simp only [Tree.onMem, Mem.afterAll, e]
    exact ih (hb.2 _) hm.2 fun c hc => hi c (by simp [hc])

theorem events_poll {s : State} {inp : Nat → Input} {b : Bool} (hb : ∀ t, (inp t).irq = b) (t m : Nat) :
    ∀ c, Event.poll c ∈ s.events inp t m → c = b := by
  induction m generalizing t with
  | zero => intro c hc; simp [State.events] at hc
  | succ m ih =>
    intro c hc
    simp only [State.events, List.mem_append] at hc
    rcases hc with hc | hc
    · unfold State.obs at hc
      cases hx : ((s.run inp t).cyc && (inp t).ack) <;> cases hy : (s.run inp t).polls <;>
        simp [hx, hy] at hc <;> rw [hc, hb]
    · exact ih _ c hc

/-- The first dispatch: the word at the reset address, in the state reached by the reset routine. -/
theorem first_exec {s : State} {inp : Nat → Input} (h : AfterReset s) (hr : s.RegisteredAck inp)
    (hf : s.FairAck inp) :
    ∃ t w, 1 ≤ t ∧ (fetch (s.boot (inp 0))).Path (s.events inp 1 (t - 1)) (s.boot (inp 0), w) ∧
      (s.run inp t).arch = s.boot (inp 0) ∧ s.Dispatches inp t w := by
  have hs := h
  obtain ⟨u, mem, rd, rfl, hm⟩ := h.eq
  obtain ⟨h1, h2, h3, h4, h5, h6, h7⟩ := boot_first u mem rd (inp 0)
  have hi := boot_impl (pv := (State.resetRegs u mem rd).prevCyc inp 1) h1 h2 h3 h4 h5 h6 h7
    (RamOk.step (s := State.resetRegs u mem rd) hm _)
  obtain ⟨m, x, hp, hx, -⟩ := hi.finishes hr hf 1 rfl rfl
  obtain ⟨hx1, hl⟩ := Tree.Path.fetch_inv hp
  have e : x = ((State.resetRegs u mem rd).boot (inp 0), x.2) := by
    rw [← Prod.eta x, hx1]; rfl
  refine ⟨1 + m, x.2, by omega, ?_, ?_, ⟨by omega, by rw [rom_01]; exact AtDispatch.uop hx.1⟩, [], fetchReq ((State.resetRegs u mem rd).boot (inp 0)), ?_⟩
  · rw [show 1 + m - 1 = m by omega]; rw [e] at hp; exact hp
  · rw [← hx.1.arch, hx1]; rfl
  · rw [show 1 + m - 1 = m by omega, hl]; rfl

namespace Soc
variable {k : Nat} {s : Soc k} {irq : Nat → Bool}

theorem dispatch_ram (h : AfterReset s) {t : Nat} {w : Word} (hd : s.cpu.Dispatches (s.inputs irq) t w) :
    (s.run irq t).ram.mem = s.ram.mem.afterAll (s.cpu.events (s.inputs irq) 1 (t - 1)) := by
  obtain ⟨t, rfl⟩ : ∃ t', t = t' + 1 := ⟨t - 1, by have := hd.1.1; omega⟩
  refine (inv h t).2.1 ?_
  cases ha : (s.run irq (t + 1)).ram.ack
  · rfl
  · have hc := ((inv (irq := irq) h t).2.2 ha).1
    rw [run_cpu] at hc
    have hu := hd.1.2
    rw [rom_01] at hu
    simp [State.cyc, hu, u_01] at hc

theorem first_late (h : AfterReset s) {t : Nat} {w : Word} (hd : s.cpu.Dispatches (s.inputs irq) t w) :
    6 ≤ t := by
  have hs : ∃ u mem rd, s.cpu = State.resetRegs u mem rd := by
    rcases h.cpu with h | ⟨σ, en, i, -, h⟩ <;> exact ⟨_, _, _, h⟩
  by_contra hlt
  have hu := hd.1.2
  rw [rom_01] at hu
  obtain rfl | hlt : t = 5 ∨ t < 5 := by omega
  · rw [(boot_run hs _).2.1] at hu; simp [u_00, u_01] at hu
  · obtain ⟨l, r, hl⟩ := hd.2
    have : ∀ m t0, t0 + m ≤ 5 → Event.bus r w ∉ s.cpu.events (s.inputs irq) t0 m := by
      intro m
      induction m with
      | zero => intro t0 _; simp [State.events]
      | succ m ih =>
        intro t0 ht0
        simp only [State.events, List.mem_append, not_or]
        refine ⟨?_, ih _ (by omega)⟩
        unfold State.obs
        rw [(boot_run hs _).1 t0 (by omega)]
        cases (s.cpu.run (s.inputs irq) t0).polls <;> simp
    exact this (t - 1) 1 (by omega) (by rw [hl]; simp)

/-- The `n`-th instruction is dispatched in cycle `t`. -/
def AtNth (s : Soc k) (b : Bool) (n t : Nat) : Prop :=
  ∃ w, s.cpu.Dispatches (s.inputs fun _ => b) t w ∧
    flat .asBuilt b s.ram.mem (s.cpu.run (s.inputs fun _ => b) 5).arch n =
      (((s.run (fun _ => b) t).cpu.arch, w), (s.run (fun _ => b) t).ram.mem)

theorem AtNth.zero (h : AfterReset s) (b : Bool) : ∃ t, AtNth s b 0 t := by
  have hr := registered (irq := fun _ => b) h
  have hf := fair s (fun _ => b)
  have hb {t m} := events_poll (s := s.cpu) (inp := s.inputs fun _ => b) (b := b) (fun _ => rfl) t m
  have hs : ∃ u mem rd, s.cpu = State.resetRegs u mem rd := by
    rcases h.cpu with h | ⟨σ, en, i, -, h⟩ <;> exact ⟨_, _, _, h⟩
  unfold AtNth
  rw [(boot_run hs _).2.2.2.2.1]
  obtain ⟨t, w, ht, hp, ha, hd⟩ := first_exec h.cpu hr hf
  refine ⟨t, w, hd, ?_⟩
  rw [flat, onMem_path hp (blind_fetch _) (inv h (t - 1)).1 hb, dispatch_ram h hd, run_cpu, ha]

theorem AtNth.succ (h : AfterReset s) {b : Bool} {n t : Nat} (ha : AtNth s b n t) :
    ∃ m w, s.cpu.Executes (s.inputs fun _ => b) t w m ∧ AtNth s b (n + 1) (t + m) ∧
      flat .asBuilt b s.ram.mem (s.cpu.run (s.inputs fun _ => b) 5).arch n =
        (((s.run (fun _ => b) t).cpu.arch, w), (s.run (fun _ => b) t).ram.mem) := by
  have hr := registered (irq := fun _ => b) h
  have hf := fair s (fun _ => b)
  have hb {t m} := events_poll (s := s.cpu) (inp := s.inputs fun _ => b) (b := b) (fun _ => rfl) t m
  obtain ⟨w, hd0, e⟩ := ha
  obtain ⟨m, hm⟩ := executes_of_fair h.cpu hr hf hd0
  obtain ⟨w', hp, hd, -⟩ := executes h.cpu hr hm
  refine ⟨m, w, hm, ⟨w', hd, ?_⟩, e⟩
  have ht := hd0.1.1
  have hall := s.cpu.events_add (s.inputs fun _ => b) 1 (t - 1) m
  rw [show 1 + (t - 1) = t by omega, show t - 1 + m = t + m - 1 by omega] at hall
  have hM := (inv (irq := fun _ => b) h (t + m - 1)).1
  rw [hall, MemTrace.append, ← dispatch_ram h hd0] at hM
  rw [flat, e]
  simp only
  rw [run_cpu, onMem_path hp (blind_cycle _ _) hM.2 hb,
    dispatch_ram h hd, dispatch_ram h hd0, hall, Mem.afterAll_append, run_cpu]

/-- With a constant interrupt line: the core with a memory executes one instruction after the other,
and the state, the word executed and the memory at the `n`-th are those of the flat-memory machine
after `n` instructions. -/
theorem seq (h : AfterReset s) (b : Bool) : ∃ T : Nat → Nat, ∀ n, ∃ w,
    T n < T (n + 1) ∧ s.cpu.Executes (s.inputs fun _ => b) (T n) w (T (n + 1) - T n) ∧
      flat .asBuilt b s.ram.mem (s.cpu.run (s.inputs fun _ => b) 5).arch n =
        (((s.run (fun _ => b) (T n)).cpu.arch, w), (s.run (fun _ => b) (T n)).ram.mem) := by
  classical
  obtain ⟨t0, h0⟩ := AtNth.zero h b
  have hstep : ∀ n (p : { t // AtNth s b n t }), ∃ q : { t // AtNth s b (n + 1) t }, ∃ w,
      p.1 < q.1 ∧ s.cpu.Executes (s.inputs fun _ => b) p.1 w (q.1 - p.1) ∧
      flat .asBuilt b s.ram.mem (s.cpu.run (s.inputs fun _ => b) 5).arch n =
        (((s.run (fun _ => b) p.1).cpu.arch, w), (s.run (fun _ => b) p.1).ram.mem) := by
    intro n p
    obtain ⟨m, w, he, ha, hfl⟩ := AtNth.succ h p.2
    refine ⟨⟨p.1 + m, ha⟩, w, ?_, ?_, hfl⟩
    · have := he.2.1; simp only; omega
    · simpa using he
  choose f hf using hstep
  let T : ∀ n, { t // AtNth s b n t } := fun n => Nat.rec ⟨t0, h0⟩ (fun n p => f n p) n
  exact ⟨fun n => (T n).1, fun n => hf n (T n)⟩

end Soc

end Sentinel
