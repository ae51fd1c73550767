import Verif.Proof.CrashSoc
import Verif.Soc.Reset
import Verif.Props.AttoCsr
import Verif.Proof.RamSize
/-!
# Memory and registers between two dispatches, on any platform
-/

set_option linter.unusedSimpArgs false

namespace Sentinel
open Ucode Spec

section
variable {β : Type} {act : β → Event → β}

theorem foldl_reads (hpoll : ∀ m b, act m (.poll b) = m) (hread : ∀ m r d, r.we = false → act m (.bus r d) = m) (m : β) :
    ∀ l : List Event, (∀ r d, Event.bus r d ∈ l → r.we = false) → l.foldl act m = m := by
  intro l
  induction l with
  | nil => intro _; rfl
  | cons e l ih =>
    intro h
    have h' := ih fun r d hm => h r d (List.mem_cons_of_mem _ hm)
    rw [List.foldl_cons]
    cases e with
    | poll b => rw [hpoll]; exact h'
    | bus r d => rw [hread _ _ _ (h r d (by simp))]; exact h'

/-- A store changes no register; and what it has stored after some of its events is nothing or everything. -/
theorem store_once (hpoll : ∀ m b, act m (.poll b) = m) (hread : ∀ m r d, r.we = false → act m (.bus r d) = m)
    {cfg : Cfg} {a : Arch} {w : Word} {op : StOp} {rs1 rs2 : Reg} {imm : BitVec 12} {l : List Event}
    {x : Arch × Word} (hd : decode w = some (.store op rs1 rs2 imm)) (hp : (cycle cfg (a, w)).Path l x) (m : β) :
    (∀ q, x.1.reg q = a.reg q) ∧ ∀ p q, l = p ++ q → p.foldl act m = m ∨ p.foldl act m = l.foldl act m := by
  have key : (∀ q, x.1.reg q = a.reg q) ∧ ((∃ b w', l = [.poll b, .bus (fetchReq x.1) w']) ∨
      ∃ b r d w', l = [.poll b, .bus r d, .bus (fetchReq x.1) w']) := by
    unfold cycle exec at hp
    rw [Tree.bind_poll] at hp
    cases hp with
    | @poll _ b l' _ hp =>
      beta_reduce at hp
      by_cases hb : (b && a.intEnabled) = true
      · rw [if_pos hb] at hp
        cases hp with
        | bus hp => cases hp; exact ⟨fun _ => rfl, .inl ⟨_, _, rfl⟩⟩
      · rw [if_neg hb] at hp
        simp only [hd, execInstr] at hp
        by_cases ha : aligned (a.reg rs1 + imm.signExtend 32) op.size = true
        · rw [if_pos ha] at hp
          cases hp with
          | bus hp =>
            cases hp with
            | bus hp => cases hp; exact ⟨fun _ => rfl, .inr ⟨_, _, _, _, rfl⟩⟩
        · rw [if_neg ha] at hp
          cases hp with
          | bus hp => cases hp; exact ⟨fun _ => rfl, .inl ⟨_, _, rfl⟩⟩
  refine ⟨key.1, fun p q e => ?_⟩
  have hf : ∀ m d, act m (.bus (fetchReq x.1) d) = m := fun m d => hread _ _ _ rfl
  rcases key.2 with ⟨b, w', rfl⟩ | ⟨b, r, d, w', rfl⟩
  · left
    refine foldl_reads hpoll hread m p fun r d hm => ?_
    have : Event.bus r d ∈ p ++ q := List.mem_append_left _ hm
    rw [← e] at this
    simp at this
    rw [this.1]; rfl
  · rcases p with _ | ⟨e1, _ | ⟨e2, p⟩⟩
    · left; rfl
    · left
      simp only [List.cons_append, List.nil_append, List.cons.injEq] at e
      rw [← e.1]; exact hpoll _ _
    · right
      simp only [List.cons_append, List.cons.injEq] at e
      rw [← e.1, ← e.2.1]
      simp only [List.foldl_cons, List.foldl_nil, hf]
      refine foldl_reads hpoll hread _ p fun r' d' hm => ?_
      have : Event.bus r' d' ∈ p ++ q := List.mem_append_left _ hm
      rw [← e.2.2] at this
      simp at this
      rw [this.1]; rfl

/-- Between two dispatches, registers and `X` (something that is always as after some of the events of the instruction) are those before the
instruction, or those after it; or the instruction is a shift, and `X` and all registers but its destination register are those before it. -/
theorem window_of (hpoll : ∀ m b, act m (.poll b) = m) (hread : ∀ m r d, r.we = false → act m (.bus r d) = m)
    {γ : Type} {π : β → γ} {m0 : β} {X : Nat → γ} {s : State} {inp : Nat → Input} {t m : Nat} {w : Word}
    (h : AfterReset s) (hr : s.RegisteredAck inp) (he : s.Executes inp t w m)
    (hX : ∀ j ≤ m, ∃ p q, s.events inp t m = p ++ q ∧ X j = π (p.foldl act m0)) (h0 : X 0 = π m0)
    (hm : X m = π ((s.events inp t m).foldl act m0)) {j : Nat} (hj : j ≤ m) :
    ((∀ q, (s.run inp (t + j)).arch.reg q = (s.run inp t).arch.reg q) ∧ X j = X 0) ∨
    ((∀ q, (s.run inp (t + j)).arch.reg q = (s.run inp (t + m)).arch.reg q) ∧ X j = X m) ∨
    ∃ ins rd, decode w = some ins ∧ isShift ins = true ∧ destReg ins = some rd ∧
      (∀ q, q ≠ rd → (s.run inp (t + j)).arch.reg q = (s.run inp t).arch.reg q) ∧ X j = X 0 := by
  obtain ⟨w', hp, hd', -⟩ := executes h hr he
  obtain ⟨p, q, hpq, hM⟩ := hX j hj
  by_cases hst : ∃ op rs1 rs2 imm, decode w = some (.store op rs1 rs2 imm)
  · obtain ⟨op, rs1, rs2, imm, hst⟩ := hst
    have hns : ∀ ins, decode w = some ins → isShift ins = false := by
      intro ins e; rw [hst] at e; cases e; rfl
    obtain ⟨s1, s2⟩ := store_once hpoll hread hst hp m0
    have hregs : ∀ q, (s.run inp (t + j)).arch.reg q = (s.run inp t).arch.reg q := by
      intro q
      rcases gp_once h hr he hns hj with g | g
      · exact Soc.reg_gp g q
      · rw [Soc.reg_gp g q]; exact s1 q
    rcases s2 p q hpq with g | g
    · exact .inl ⟨hregs, by rw [hM, g, h0]⟩
    · refine .inr (.inl ⟨fun q => ?_, by rw [hM, g, hm]⟩)
      rw [hregs q]
      exact (s1 q).symm
  · have hrd := reads_path hp (reads_cycle _ _ _ fun op rs1 rs2 imm e => hst ⟨op, rs1, rs2, imm, e⟩)
    have hsame : X j = X 0 := by
      rw [hM, h0, foldl_reads hpoll hread _ p fun r d hm => hrd r d (by rw [hpq]; exact List.mem_append_left _ hm)]
    have hsame' : X m = X 0 := by
      rw [hm, h0, foldl_reads hpoll hread _ _ hrd]
    by_cases hsh : ∃ ins, decode w = some ins ∧ isShift ins = true
    · obtain ⟨ins, hi, hs⟩ := hsh
      have hdest : destReg ins = some (insnRd w) := by
        have := decoded hi
        cases ins with
        | opImm op rd => simp only [Decoded] at this; simp [destReg, this]
        | op op rd => simp only [Decoded] at this; simp [destReg, this]
        | _ => cases hs
      refine .inr (.inr ⟨ins, _, hi, hs, hdest, fun q hq => ?_, hsame⟩)
      unfold Arch.reg
      split
      · rfl
      · exact gp_other h hr he hq j hj
    · have hns : ∀ ins, decode w = some ins → isShift ins = false := by
        intro ins hi
        by_contra hc
        exact hsh ⟨ins, hi, by simpa using hc⟩
      rcases gp_once h hr he hns hj with g | g
      · exact .inl ⟨fun q => Soc.reg_gp g q, hsame⟩
      · exact .inr (.inl ⟨fun q => Soc.reg_gp g q, by rw [hsame, hsame']⟩)

end

/-- Every cycle is before the first dispatch, or between two dispatches. -/
theorem last_dispatch_of {s : State} {inp : Nat → Input} (h : AfterReset s) (hr : s.RegisteredAck inp) (hf : s.FairAck inp) (t : Nat) :
    (∀ u ≤ t, ¬ s.Dispatching inp u) ∨ ∃ v w m, v ≤ t ∧ t ≤ v + m ∧ s.Executes inp v w m := by
  classical
  by_cases hex : ∃ u ≤ t, s.Dispatching inp u
  · right
    obtain ⟨v, hv, hvd, hvm⟩ : ∃ v ≤ t, s.Dispatching inp v ∧ ∀ u, v < u → u ≤ t → ¬ s.Dispatching inp u := by
      obtain ⟨u0, h0, h0'⟩ := hex
      have hP : ∃ d, d ≤ t ∧ s.Dispatching inp (t - d) := ⟨t - u0, by omega, by rwa [show t - (t - u0) = u0 by omega]⟩
      refine ⟨t - Nat.find hP, by omega, (Nat.find_spec hP).2, fun u h1 h2 h3 => ?_⟩
      refine Nat.find_min hP (m := t - u) (by omega) ⟨by omega, by rwa [show t - (t - u) = u by omega]⟩
    obtain ⟨w, -, -, hw⟩ := at_dispatch h hr hvd
    obtain ⟨m, hm⟩ := executes_of_fair h hr hf hw
    refine ⟨v, w, m, hv, ?_, hm⟩
    by_contra hlt
    exact hvm (v + m) (by have := hm.2.1; omega) (by omega) hm.2.2.1
  · left
    intro u hu hd
    exact hex ⟨u, hu, hd⟩

theorem reach_run_of {s : State} (h : AfterReset s) (inp : Nat → Input) : ∀ n, Reach (s.run inp n) := by
  intro n
  induction n with
  | zero =>
    rcases h with rfl | ⟨σ, en, i, hσ, rfl⟩
    · exact .powerOn
    · exact .tick _ _ _ hσ
  | succ n ih => exact .tick false true (inp n) ih

/-- Splitting the events before and after a dispatch. -/
theorem events_from_one (s : State) (inp : Nat → Input) {t : Nat} (ht : 1 ≤ t) (i : Nat) :
    s.events inp 1 (t - 1 + i) = s.events inp 1 (t - 1) ++ s.events inp t i := by
  rw [State.events_add, show 1 + (t - 1) = t by omega]

/-- The platform after one event. -/
def Spec.Plat.act {k : Nat} (P : Plat k) : Event → Plat k
  | .poll _ => P
  | .bus r _ => P.after r

theorem Spec.Plat.foldl_act {k : Nat} (P : Plat k) (l : List Event) : l.foldl Plat.act P = P.afterAll l := by
  induction l generalizing P with
  | nil => rfl
  | cons e l ih => cases e <;> exact ih _

/-- The platform after one event. -/
def Spec.Plat.actCsr {k : Nat} (P : Plat k) : Event → Plat k
  | .poll _ => P
  | .bus r _ => P.afterCsr r

theorem Spec.Plat.foldl_actCsr {k : Nat} (P : Plat k) (l : List Event) : l.foldl Plat.actCsr P = P.afterAllCsr l := by
  induction l generalizing P with
  | nil => rfl
  | cons e l ih => cases e <;> exact ih _

namespace Atto
variable {k D : Nat} {s : Atto k} {p : Nat → AttoIn} {t m : Nat} {w : Word}

/-- The RAM in a cycle while a word is executed is the RAM after some of the events of that word. -/
theorem ram_at (h : AfterReset s) (he : s.cpu.Executes (s.inputs D p) t w m) {j : Nat} (hj : j ≤ m) :
    ∃ l l', s.cpu.events (s.inputs D p) t m = l ++ l' ∧ (s.run D p (t + j)).ram.mem = ((s.run D p t).plat.afterAll l).ram := by
  have ht := he.1.1.1
  have split : ∀ i ≤ m, ∃ q, s.cpu.events (s.inputs D p) t m = s.cpu.events (s.inputs D p) t i ++ q := by
    intro i hi
    refine ⟨s.cpu.events (s.inputs D p) (t + i) (m - i), ?_⟩
    rw [← State.events_add, show i + (m - i) = m by omega]
  have h0 := dispatch_plat h he.1.1
  have hinv := inv (D := D) (p := p) h (t - 1 + j)
  rw [show t - 1 + j + 1 = t + j by omega, events_from_one _ _ ht, Plat.afterAll_append, ← h0] at hinv
  cases ha : (s.run D p (t + j)).ack
  · obtain ⟨q, hq⟩ := split j hj
    exact ⟨_, q, hq, congrArg Plat.ram (hinv.2.1 ha)⟩
  · obtain ⟨hc, hm, -⟩ := hinv.2.2 ha
    have hlt : j < m := by
      rcases Nat.lt_or_eq_of_le hj with h | h
      · exact h
      · subst h
        have hu := he.2.2.1.2
        rw [rom_01, ← run_cpu] at hu
        rw [State.cyc, hu] at hc
        simp [u_01] at hc
    obtain ⟨q, hq⟩ := split (j + 1) hlt
    refine ⟨_, q, hq, ?_⟩
    rw [State.events_snoc, Plat.afterAll_append, plat_obs, ← run_cpu, hc, show (s.inputs D p (t + j)).ack = true from ha]
    exact congrArg Plat.ram hm

theorem window (h : AfterReset s) (he : s.cpu.Executes (s.inputs D p) t w m) {j : Nat} (hj : j ≤ m) :
    ((∀ q, (s.run D p (t + j)).cpu.arch.reg q = (s.run D p t).cpu.arch.reg q) ∧ (s.run D p (t + j)).ram.mem = (s.run D p t).ram.mem) ∨
    ((∀ q, (s.run D p (t + j)).cpu.arch.reg q = (s.run D p (t + m)).cpu.arch.reg q) ∧
      (s.run D p (t + j)).ram.mem = (s.run D p (t + m)).ram.mem) ∨
    ∃ ins rd, decode w = some ins ∧ isShift ins = true ∧ destReg ins = some rd ∧
      (∀ q, q ≠ rd → (s.run D p (t + j)).cpu.arch.reg q = (s.run D p t).cpu.arch.reg q) ∧
      (s.run D p (t + j)).ram.mem = (s.run D p t).ram.mem := by
  have hr := registered (D := D) (p := p) h
  obtain ⟨_, _, hd', -⟩ := executes h.cpu hr he
  have ht := he.1.1.1
  simp only [run_cpu]
  refine window_of (act := Plat.act) (π := Plat.ram) (m0 := (s.run D p t).plat) (X := fun j => (s.run D p (t + j)).ram.mem)
    (fun _ _ => rfl) (fun m r d hw => by simp [Plat.act, Plat.after, hw]) h.cpu hr he (fun j hj => ?_) rfl ?_ hj
  · obtain ⟨l, l', h1, h2⟩ := ram_at h he hj
    exact ⟨l, l', h1, by rw [Plat.foldl_act]; exact h2⟩
  · have h1 := dispatch_plat h hd'.1
    rw [show t + m - 1 = t - 1 + m by omega, events_from_one _ _ ht, Plat.afterAll_append, ← dispatch_plat h he.1.1] at h1
    rw [Plat.foldl_act]
    exact congrArg Plat.ram h1

/-- Before the first dispatch. -/
theorem window_boot (h : AfterReset s) : ∀ t, (∀ u ≤ t, ¬ s.cpu.Dispatching (s.inputs D p) u) →
    (∀ q, (s.run D p t).cpu.arch.reg q = s.cpu.arch.reg q) ∧ (s.run D p t).ram.mem = s.ram.mem := by
  intro t ht
  constructor
  · intro q
    unfold Arch.reg
    split
    · rfl
    · next hq => rw [run_cpu]; exact (gp_boot h.cpu (s.inputs D p) t ht).1 q hq
  · induction t with
    | zero => rfl
    | succ t ih =>
      rw [← ih fun u hu => ht u (by omega)]
      have hg := (gp_boot h.cpu (s.inputs D p) t fun u hu => ht u (by omega)).2.1
      rw [← run_cpu] at hg
      show ((s.run D p t).step D (p t)).ram.mem = _
      cases hc : (s.run D p t).cpu.cyc
      · simp [step, WbMem.step, devCyc, hc]
      · simp [step, WbMem.step, hg hc]

end Atto

namespace AttoCsr
variable {k D : Nat} {s : AttoCsr k} {p : Nat → AttoIn} {t m : Nat} {w : Word}

theorem ram_periph (P : Plat k) {r : Req} (h : r.csrTarget ≠ some .ram) : (P.afterCsr r).ram = P.ram := by
  unfold Plat.afterCsr
  split
  · split
    · exact absurd ‹_› h
    · split
      · unfold Plat.setCsr; repeat' (first | rfl | split)
      · rfl
    · rfl
  · rfl

/-- The RAM in a cycle while a word is executed is the RAM after some of the events of that word. -/
theorem ram_at (h : AfterReset s) (he : s.cpu.Executes (s.inputs D p) t w m) {j : Nat} (hj : j ≤ m) :
    ∃ l l', s.cpu.events (s.inputs D p) t m = l ++ l' ∧ (s.run D p (t + j)).ram.mem = ((s.run D p t).plat.afterAllCsr l).ram := by
  have ht := he.1.1.1
  have split : ∀ i ≤ m, ∃ q, s.cpu.events (s.inputs D p) t m = s.cpu.events (s.inputs D p) t i ++ q := by
    intro i hi
    refine ⟨s.cpu.events (s.inputs D p) (t + i) (m - i), ?_⟩
    rw [← State.events_add, show i + (m - i) = m by omega]
  have h0 := dispatch_plat h he.1.1
  have hinv := (inv (D := D) (p := p) h (t - 1 + j)).2.plat
  rw [show t - 1 + j + 1 = t + j by omega, events_from_one _ _ ht, Plat.afterAllCsr_append, ← h0] at hinv
  have hb := busInv (D := D) (p := p) h (t + j)
  cases ha : (s.run D p (t + j)).ram.ack
  · obtain ⟨q, hq⟩ := split j hj
    refine ⟨_, q, hq, ?_⟩
    have := congrArg Plat.ram hinv
    rw [show (s.run D p (t + j)).ram.mem = (s.run D p (t + j)).plat.ram from rfl, this]
    split
    · rename_i hd
      refine ram_periph _ fun hx => ?_
      rcases hd with hd | hd
      · rw [ha] at hd; cases hd
      · cases hdc : (s.run D p (t + j)).devCyc .periph with
        | false => rw [hb.cycle_zero hdc] at hd; omega
        | true =>
          have := (ack_periph hdc).2.1
          rw [req_target, this] at hx; cases hx
    · rfl
  · rw [if_pos (.inl ha)] at hinv
    cases hdc : (s.run D p (t + j)).devCyc .ram with
    | false => rw [hb.ack_none hdc] at ha; cases ha
    | true =>
      simp only [devCyc, Bool.and_eq_true, decide_eq_true_eq] at hdc
      obtain ⟨hc, hd⟩ := hdc
      have hack : (s.run D p (t + j)).ack = true := by simp [AttoCsr.ack, hd, ha]
      have hlt : j < m := by
        rcases Nat.lt_or_eq_of_le hj with h | h
        · exact h
        · subst h
          have hu := he.2.2.1.2
          rw [rom_01, ← run_cpu] at hu
          rw [State.cyc, hu] at hc
          simp [u_01] at hc
      obtain ⟨q, hq⟩ := split (j + 1) hlt
      refine ⟨_, q, hq, ?_⟩
      rw [State.events_snoc, Plat.afterAllCsr_append, plat_obs, ← run_cpu, hc, show (s.inputs D p (t + j)).ack = true from hack]
      exact congrArg Plat.ram hinv

theorem window (h : AfterReset s) (he : s.cpu.Executes (s.inputs D p) t w m) {j : Nat} (hj : j ≤ m) :
    ((∀ q, (s.run D p (t + j)).cpu.arch.reg q = (s.run D p t).cpu.arch.reg q) ∧ (s.run D p (t + j)).ram.mem = (s.run D p t).ram.mem) ∨
    ((∀ q, (s.run D p (t + j)).cpu.arch.reg q = (s.run D p (t + m)).cpu.arch.reg q) ∧
      (s.run D p (t + j)).ram.mem = (s.run D p (t + m)).ram.mem) ∨
    ∃ ins rd, decode w = some ins ∧ isShift ins = true ∧ destReg ins = some rd ∧
      (∀ q, q ≠ rd → (s.run D p (t + j)).cpu.arch.reg q = (s.run D p t).cpu.arch.reg q) ∧
      (s.run D p (t + j)).ram.mem = (s.run D p t).ram.mem := by
  have hr := registered (D := D) (p := p) h
  obtain ⟨_, _, hd', -⟩ := executes h.cpu hr he
  have ht := he.1.1.1
  simp only [run_cpu]
  refine window_of (act := Plat.actCsr) (π := Plat.ram) (m0 := (s.run D p t).plat) (X := fun j => (s.run D p (t + j)).ram.mem)
    (fun _ _ => rfl) (fun m r d hw => by simp [Plat.actCsr, Plat.afterCsr, hw]) h.cpu hr he (fun j hj => ?_) rfl ?_ hj
  · obtain ⟨l, l', h1, h2⟩ := ram_at h he hj
    exact ⟨l, l', h1, by rw [Plat.foldl_actCsr]; exact h2⟩
  · have h1 := dispatch_plat h hd'.1
    rw [show t + m - 1 = t - 1 + m by omega, events_from_one _ _ ht, Plat.afterAllCsr_append, ← dispatch_plat h he.1.1] at h1
    rw [Plat.foldl_actCsr]
    exact congrArg Plat.ram h1

/-- Before the first dispatch. -/
theorem window_boot (h : AfterReset s) : ∀ t, (∀ u ≤ t, ¬ s.cpu.Dispatching (s.inputs D p) u) →
    (∀ q, (s.run D p t).cpu.arch.reg q = s.cpu.arch.reg q) ∧ (s.run D p t).ram.mem = s.ram.mem := by
  intro t ht
  constructor
  · intro q
    unfold Arch.reg
    split
    · rfl
    · next hq => rw [run_cpu]; exact (gp_boot h.cpu (s.inputs D p) t ht).1 q hq
  · induction t with
    | zero => rfl
    | succ t ih =>
      rw [← ih fun u hu => ht u (by omega)]
      have hg := (gp_boot h.cpu (s.inputs D p) t fun u hu => ht u (by omega)).2.1
      rw [← run_cpu] at hg
      show ((s.run D p t).step D (p t)).ram.mem = _
      cases hc : (s.run D p t).cpu.cyc
      · simp [step, WbMem.step, devCyc, hc]
      · simp [step, WbMem.step, hg hc]

end AttoCsr

end Sentinel
