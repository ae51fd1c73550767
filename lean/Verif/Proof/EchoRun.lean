import Verif.Proof.Echo
import Verif.Props.Line
/-!
# The echo, cycle by cycle (C108)
-/

set_option linter.unusedSimpArgs false

namespace Sentinel
open Spec

/-- Accesses to the peripherals. -/
def isPeriph : Event → Bool
  | .bus r _ => r.csrTarget = some .periph
  | .poll _ => false

theorem events_split {s : State} {inp : Nat → Input} {t m n : Nat} (h1 : t ≤ n) (h2 : n < t + m) :
    s.events inp t m = s.events inp t (n - t) ++ ((s.run inp n).obs (inp n) ++ s.events inp (n + 1) (t + m - n - 1)) := by
  obtain ⟨j, rfl⟩ := Nat.exists_eq_add_of_le h1
  rw [show m = j + (m - j - 1 + 1) by omega, State.events_add, State.events, show t + j - t = j by omega,
    show t + (j + (m - j - 1 + 1)) - (t + j) - 1 = m - j - 1 by omega]

theorem obs_bus {s : State} {i : Input} (hc : s.cyc = true) (ha : i.ack = true) :
    s.obs i = .bus s.req i.datR :: (if s.polls then [.poll i.irq] else []) := by
  unfold State.obs; rw [hc, ha]; rfl

namespace AttoCsr
open Spec Echo
open Clock (at_)

variable {k D : Nat} {s : AttoCsr k} {p : Nat → AttoIn} {t m : Nat}

/-- In the cycles from `t` on, `m` of them, there is one access to the peripherals: the request `r`, with the answer `d`, completed in cycle `n`. -/
structure Acc (s : AttoCsr k) (D : Nat) (p : Nat → AttoIn) (t m : Nat) (r : Req) (d : Word) (n : Nat) : Prop where
  le : t ≤ n
  lt : n < t + m
  comp : Completes s D p n
  req : (s.run D p n).cpu.req = r
  dat : (s.run D p n).datR = d
  only : ∀ n', t ≤ n' → n' < t + m → Completes s D p n' → n' = n

theorem comp_mem {n : Nat} (h1 : t ≤ n) (h2 : n < t + m) (hc : Completes s D p n) :
    .bus (s.run D p n).cpu.req (s.run D p n).datR ∈ s.cpu.events (s.inputs D p) t m := by
  have c1 := hc.cyc
  have c2 := hc.ack
  rw [run_cpu] at c1
  rw [events_split h1 h2, obs_bus c1 c2, run_cpu]
  simp only [List.mem_append, List.cons_append, List.mem_cons]
  exact .inr (.inl rfl)

theorem comp_two {n1 n2 : Nat} (h1 : t ≤ n1) (h12 : n1 < n2) (h2 : n2 < t + m) (c1 : Completes s D p n1) (c2 : Completes s D p n2) :
    2 ≤ (s.cpu.events (s.inputs D p) t m).countP isPeriph := by
  have a1 := c1.cyc
  have a2 := c2.cyc
  have p1 := c1.periph
  have p2 := c2.periph
  rw [run_cpu] at a1 a2 p1 p2
  rw [events_split h1 (by omega : n1 < t + m), obs_bus a1 c1.ack, events_split (t := n1 + 1) (m := t + m - n1 - 1) (n := n2) (by omega) (by omega),
    obs_bus a2 c2.ack]
  simp only [List.cons_append, List.countP_append, List.countP_cons, isPeriph, p1, p2, decide_true, if_true]
  omega

theorem fetch_ram {a : Arch} (h : a.pc.toNat < 0x02000000) : (fetchReq a).csrTarget = some .ram := csrTarget_ram (fetch_target h)

theorem noacc {l : List Event} {a : Arch} {d : Word} (hpc : a.pc.toNat < 0x02000000)
    (hev : s.cpu.events (s.inputs D p) t m = l ++ [.bus (fetchReq a) d]) {b : Bool} (hl : l = [.poll b])
    {n : Nat} (h1 : t ≤ n) (h2 : n < t + m) : ¬ Completes s D p n := by
  intro hc
  have := comp_mem h1 h2 hc
  rw [hev, hl] at this
  simp only [List.cons_append, List.nil_append, List.mem_cons, reduceCtorEq, Event.bus.injEq, List.not_mem_nil, or_false, false_or] at this
  have h3 := hc.periph
  rw [this.1, fetch_ram hpc] at h3
  cases h3

theorem acc {l : List Event} {a : Arch} {d d' : Word} {r : Req} (hpc : a.pc.toNat < 0x02000000) (hr : r.csrTarget = some .periph)
    (hev : s.cpu.events (s.inputs D p) t m = l ++ [.bus (fetchReq a) d']) {b : Bool} (hl : l = [.poll b, .bus r d]) :
    ∃ n, Acc s D p t m r d n := by
  have hmem : Event.bus r d ∈ s.cpu.events (s.inputs D p) t m := by rw [hev, hl]; simp
  obtain ⟨n, n1, n2, n3, n4, n5⟩ := bus_mem hmem
  rw [← run_cpu] at n3 n5
  have hc : Completes s D p n := ⟨n3, n4, by rw [n5]; exact hr⟩
  have h2 := comp_mem n1 n2 hc
  rw [hev, hl] at h2
  simp only [List.cons_append, List.nil_append, List.mem_cons, reduceCtorEq, Event.bus.injEq, List.not_mem_nil, or_false, false_or] at h2
  have hcount : (s.cpu.events (s.inputs D p) t m).countP isPeriph = 1 := by
    rw [hev, hl]
    simp [List.countP_cons, isPeriph, hr, fetch_ram hpc]
  refine ⟨n, n1, n2, hc, n5, ?_, fun n' g1 g2 hc' => ?_⟩
  · rcases h2 with h2 | h2
    · exact h2.2
    · have h3 := hc.periph
      rw [h2.1, fetch_ram hpc] at h3
      cases h3
  · rcases Nat.lt_trichotomy n' n with hx | hx | hx
    · have := comp_two g1 hx n2 hc' hc; omega
    · exact hx
    · have := comp_two n1 hx g2 hc hc'; omega

/-- A strobe belongs to an access within the same instruction. -/
theorem strobe_within (h : s.AfterReset) (hd : s.cpu.Dispatching (s.inputs D p) t) (hd' : s.cpu.Dispatching (s.inputs D p) (t + m))
    {u : Nat} (h1 : t ≤ u) (h2 : u < t + m) :
    ((s.run D p u).reads ≠ none → Completes s D p (u + 5) ∧ u + 5 < t + m) ∧
    ((s.run D p u).bus.w ≠ none → Completes s D p (u + 4) ∧ u + 4 < t + m) := by
  have hst := C73_strobes (D := D) (p := p) (t := u) h
  have inside : ∀ n, Completes s D p n → n - 5 ≤ t + m → n < t + m := by
    intro n hc hn
    by_contra hx
    have := ((C73_access h hc).2 (t + m - (n - 5)) (by omega)).1
    rw [show n - 5 + (t + m - (n - 5)) = t + m by omega, dispatch_cyc hd'] at this
    cases this
  exact ⟨fun hn => ⟨hst.1 hn, inside _ (hst.1 hn) (by omega)⟩, fun hn => ⟨(hst.2 hn).2, inside _ (hst.2 hn).2 (by omega)⟩⟩

theorem strobes_none (h : s.AfterReset) (hd : s.cpu.Dispatching (s.inputs D p) t) (hd' : s.cpu.Dispatching (s.inputs D p) (t + m))
    (hn : ∀ n, t ≤ n → n < t + m → ¬ Completes s D p n) {u : Nat} (h1 : t ≤ u) (h2 : u < t + m) :
    (s.run D p u).reads = none ∧ (s.run D p u).bus.w = none := by
  have hw := strobe_within h hd hd' h1 h2
  constructor
  · by_contra hx
    exact hn _ (by omega) (hw.1 hx).2 (hw.1 hx).1
  · by_contra hx
    exact hn _ (by omega) (hw.2 hx).2 (hw.2 hx).1

theorem strobes_acc (h : s.AfterReset) (hd : s.cpu.Dispatching (s.inputs D p) t) (hd' : s.cpu.Dispatching (s.inputs D p) (t + m))
    {r : Req} {d : Word} {n : Nat} (hA : Acc s D p t m r d n) (hs : r.sel.getLsbD 0 = true) {u : Nat} (h1 : t ≤ u) (h2 : u < t + m) :
    (s.run D p u).reads = (if u + 5 = n ∧ r.we = false then regAt r.byteAdr else none) ∧
    (s.run D p u).bus.w = (if u + 4 = n ∧ r.we = true then (regAt r.byteAdr).map fun g => (g, byteOf r.data 0) else none) := by
  have hw := strobe_within h hd hd' h1 h2
  have ha := C73_access h hA.comp
  rw [hA.req] at ha
  obtain ⟨h5, ha⟩ := ha
  constructor
  · by_cases e : u + 5 = n
    · have := (ha 0 (by omega)).2.2.2.1
      rw [show n - 5 + 0 = u by omega] at this
      rw [this]
      simp only [e, hs, true_and, and_true]
    · rw [if_neg fun g => e g.1]
      by_contra hx
      exact e (hA.only _ (by omega) (hw.1 hx).2 (hw.1 hx).1)
  · by_cases e : u + 4 = n
    · have := (ha 1 (by omega)).2.2.2.2
      rw [show n - 5 + 1 = u by omega] at this
      rw [this]
      simp only [e, hs, true_and, and_true]
    · rw [if_neg fun g => e g.1]
      by_contra hx
      exact e (hA.only _ (by omega) (hw.2 hx).2 (hw.2 hx).1)

/-- What an instruction of the echo does to the serial port. -/
structure Kind (s : AttoCsr k) (D : Nat) (p : Nat → AttoIn) (t m : Nat) : Prop where
  lt : at_ (s.run D p t).cpu.arch < 7
  noIrq : at_ (s.run D p t).cpu.arch ≠ 1 → ∀ u, t ≤ u → u < t + m → (s.serStbs D p u).irqStb = false
  noData : at_ (s.run D p t).cpu.arch ≠ 4 → ∀ u, t ≤ u → u < t + m → (s.serStbs D p u).rStb = false
  noSend : at_ (s.run D p t).cpu.arch ≠ 5 → ∀ u, t ≤ u → u < t + m → (s.serStbs D p u).wStb = false
  k0 : at_ (s.run D p t).cpu.arch = 0 → at_ (s.run D p (t + m)).cpu.arch = 1
  k1 : at_ (s.run D p t).cpu.arch = 1 → at_ (s.run D p (t + m)).cpu.arch = 2 ∧ ∃ u, t ≤ u ∧ u < t + m ∧
    (∀ v, t ≤ v → v < t + m → ((s.serStbs D p v).irqStb = true ↔ v = u)) ∧
    ((s.run D p (t + m)).cpu.arch.reg 1).getLsbD 0 = (s.run D p u).ser.rxIrq
  k2 : at_ (s.run D p t).cpu.arch = 2 → at_ (s.run D p (t + m)).cpu.arch = 3 ∧
    (s.run D p (t + m)).cpu.arch.reg 1 = (s.run D p t).cpu.arch.reg 1 &&& 1
  k3 : at_ (s.run D p t).cpu.arch = 3 → at_ (s.run D p (t + m)).cpu.arch = if (s.run D p t).cpu.arch.reg 1 = 0 then 1 else 4
  k4 : at_ (s.run D p t).cpu.arch = 4 → at_ (s.run D p (t + m)).cpu.arch = 5 ∧ ∃ u, t ≤ u ∧ u < t + m ∧
    (∀ v, t ≤ v → v < t + m → ((s.serStbs D p v).rStb = true ↔ v = u)) ∧
    ((s.run D p (t + m)).cpu.arch.reg 2).setWidth 8 = (s.run D p u).ser.data
  k5 : at_ (s.run D p t).cpu.arch = 5 → at_ (s.run D p (t + m)).cpu.arch = 6 ∧ ∃ u, t ≤ u ∧ u < t + m ∧
    (∀ v, t ≤ v → v < t + m → ((s.serStbs D p v).wStb = true ↔ v = u)) ∧
    (s.serStbs D p u).wData = ((s.run D p t).cpu.arch.reg 2).setWidth 8
  k6 : at_ (s.run D p t).cpu.arch = 6 → at_ (s.run D p (t + m)).cpu.arch = 1

theorem stb_quiet {u : Nat} (h1 : (s.run D p u).reads = none) (h2 : (s.run D p u).bus.w = none) :
    (s.serStbs D p u).irqStb = false ∧ (s.serStbs D p u).rStb = false ∧ (s.serStbs D p u).wStb = false := by
  simp [serStbs, serStb, written, h1, h2]

theorem irqReq_adr : irqReq.byteAdr = 0x03000004 := by decide +kernel
theorem dataReq_adr : dataReq.byteAdr = 0x03000000 := by decide +kernel
theorem irqReq_sel : irqReq.sel.getLsbD 0 = true := by decide +kernel
theorem dataReq_sel : dataReq.sel.getLsbD 0 = true := by decide +kernel

theorem kind (h : s.AfterReset) (hs : StepC (EchoInv s.ram.mem) EchoStep s D p t m) : Kind s D p t m := by
  obtain ⟨w, hw⟩ := hs.here
  obtain ⟨w', hw'⟩ := hs.next
  obtain ⟨l, d, hev, hlt, b, hD⟩ := hs.step
  have hd := hw.disp.1
  have hd' := hw'.disp.1
  have hpc : (s.run D p (t + m)).cpu.arch.pc.toNat < 0x02000000 := by
    obtain ⟨-, i, hi, hpc, -⟩ := hw'.inv.1
    rw [hpc, BitVec.toNat_ofNat, Nat.mod_eq_of_lt (by omega)]; omega
  -- an instruction with no access
  have quiet : l = [.poll b] → ∀ u, t ≤ u → u < t + m →
      (s.serStbs D p u).irqStb = false ∧ (s.serStbs D p u).rStb = false ∧ (s.serStbs D p u).wStb = false := by
    intro hl u h1 h2
    obtain ⟨g1, g2⟩ := strobes_none h hd hd' (fun n g1 g2 => noacc hpc hev hl g1 g2) h1 h2
    exact stb_quiet g1 g2
  generalize hi : at_ (s.run D p t).cpu.arch = i at hlt hD
  match i, hlt, hD with
  | 0, _, hD =>
    have q := quiet hD.2
    exact ⟨by omega, fun _ u a c => (q u a c).1, fun _ u a c => (q u a c).2.1, fun _ u a c => (q u a c).2.2, fun _ => hD.1, by omega, by omega, by omega,
      by omega, by omega, by omega⟩
  | 1, _, hD =>
    obtain ⟨x, e1, e2, e3⟩ := hD
    obtain ⟨n, hA⟩ := acc hpc (by rw [Req.csrTarget, irqReq_adr]; rfl) hev e3
    have q := fun u a c => strobes_acc h hd hd' hA irqReq_sel (u := u) a c
    simp only [irqReq_adr, show irqReq.we = false from rfl, and_true, Bool.false_eq_true, and_false, if_false] at q
    obtain ⟨h5, -⟩ := C73_access h hA.comp
    have hb := begins_after h hd hA.comp hA.le
    have hlt := hA.lt
    have hr := (C73_read h hA.comp (by rw [hA.req]; rfl)).1 (by rw [hA.req]; exact irqReq_sel)
    have hv := hr.2.2.2 (by rw [hA.req]; exact irqReq_adr)
    rw [hA.dat] at hv
    have key : ∀ v, t ≤ v → v < t + m → ((s.serStbs D p v).irqStb = true ↔ v = n - 5) ∧ (s.serStbs D p v).rStb = false ∧ (s.serStbs D p v).wStb = false := by
      intro v a c
      obtain ⟨g1, g2⟩ := q v a c
      simp only [serStbs, serStb, written, g1, g2]
      by_cases e : v + 5 = n
      · simp [e, regAt]; omega
      · simp [e]; omega
    refine ⟨by omega, by omega, fun _ v a c => (key v a c).2.1, fun _ v a c => (key v a c).2.2, by omega, fun _ => ⟨e1, n - 5, by omega, by omega,
      fun v a c => (key v a c).1, ?_⟩, by omega, by omega, by omega, by omega, by omega⟩
    rw [e2, hv]
    cases (s.run D p (n - 5)).ser.rxIrq <;> cases (s.run D p (n - 5)).ser.txIrq <;> rfl
  | 2, _, hD =>
    have q := quiet hD.2.2
    exact ⟨by omega, fun _ u a c => (q u a c).1, fun _ u a c => (q u a c).2.1, fun _ u a c => (q u a c).2.2, by omega, by omega, fun _ => ⟨hD.1, hD.2.1⟩, by omega,
      by omega, by omega, by omega⟩
  | 3, _, hD =>
    have q := quiet hD.2
    exact ⟨by omega, fun _ u a c => (q u a c).1, fun _ u a c => (q u a c).2.1, fun _ u a c => (q u a c).2.2, by omega, by omega, by omega, fun _ => hD.1,
      by omega, by omega, by omega⟩
  | 4, _, hD =>
    obtain ⟨x, e1, e2, e3⟩ := hD
    obtain ⟨n, hA⟩ := acc hpc (by rw [Req.csrTarget, dataReq_adr]; rfl) hev e3
    have q := fun u a c => strobes_acc h hd hd' hA dataReq_sel (u := u) a c
    simp only [dataReq_adr, show dataReq.we = false from rfl, and_true, Bool.false_eq_true, and_false, if_false] at q
    obtain ⟨h5, -⟩ := C73_access h hA.comp
    have hb := begins_after h hd hA.comp hA.le
    have hlt := hA.lt
    have hr := (C73_read h hA.comp (by rw [hA.req]; rfl)).1 (by rw [hA.req]; exact dataReq_sel)
    have hv := hr.2.2.1 (by rw [hA.req]; exact dataReq_adr)
    rw [hA.dat] at hv
    have key : ∀ v, t ≤ v → v < t + m → (s.serStbs D p v).irqStb = false ∧ ((s.serStbs D p v).rStb = true ↔ v = n - 5) ∧ (s.serStbs D p v).wStb = false := by
      intro v a c
      obtain ⟨g1, g2⟩ := q v a c
      simp only [serStbs, serStb, written, g1, g2]
      by_cases e : v + 5 = n
      · simp [e, regAt]; omega
      · simp [e]; omega
    refine ⟨by omega, fun _ v a c => (key v a c).1, by omega, fun _ v a c => (key v a c).2.2, by omega, by omega, by omega, by omega,
      fun _ => ⟨e1, n - 5, by omega, by omega, fun v a c => (key v a c).2.1, ?_⟩, by omega, by omega⟩
    rw [e2, hv, BitVec.setWidth_setWidth_of_le _ (by decide), BitVec.setWidth_eq]; rfl
  | 5, _, hD =>
    obtain ⟨x, e1, e3⟩ := hD
    obtain ⟨n, hA⟩ := acc hpc (send_tgt _) hev e3
    have q := fun u a c => strobes_acc h hd hd' hA (send_sel _) (u := u) a c
    simp only [send_adr, show ∀ v, (sendReq v).we = true from fun _ => rfl, and_true, Bool.true_eq_false, and_false, if_false, send_byte] at q
    obtain ⟨h5, -⟩ := C73_access h hA.comp
    have hb := begins_after h hd hA.comp hA.le
    have hlt := hA.lt
    have key : ∀ v, t ≤ v → v < t + m → (s.serStbs D p v).irqStb = false ∧ (s.serStbs D p v).rStb = false ∧
        ((s.serStbs D p v).wStb = true ↔ v = n - 4) ∧ (v = n - 4 → (s.serStbs D p v).wData = ((s.run D p t).cpu.arch.reg 2).setWidth 8) := by
      intro v a c
      obtain ⟨g1, g2⟩ := q v a c
      simp only [serStbs, serStb, written, g1, g2]
      by_cases e : v + 4 = n
      · simp [e, regAt]; omega
      · simp [e]; omega
    exact ⟨by omega, fun _ v a c => (key v a c).1, fun _ v a c => (key v a c).2.1, by omega, by omega, by omega, by omega, by omega, by omega,
      fun _ => ⟨e1, n - 4, by omega, by omega, fun v a c => (key v a c).2.2.1, (key _ (by omega) (by omega)).2.2.2 rfl⟩, by omega⟩
  | 6, _, hD =>
    have q := quiet hD.2
    exact ⟨by omega, fun _ u a c => (q u a c).1, fun _ u a c => (q u a c).2.1, fun _ u a c => (q u a c).2.2, by omega, by omega, by omega, by omega,
      by omega, by omega, fun _ => hD.1⟩
end AttoCsr
end Sentinel
