import Verif.Proof.Boot
import Verif.Core.Reach
/-!
# The refinement theorem
-/

set_option linter.unusedSimpArgs false

namespace Sentinel
open Ucode Spec

/-! ## Machines -/

/-- The machine, started with `T₀`, is at the tree `T` after the events `l`. -/
inductive After {α} (next : α → Tree α) : Tree α → List Event → Tree α → Prop
  | refl (t) : After next t [] t
  | ret {x l t} : After next (next x) l t → After next (.ret x) l t
  | poll {k : Bool → Tree α} {b l t} : After next (k b) l t → After next (.poll k) (.poll b :: l) t
  | bus {r} {k : BitVec 32 → Tree α} {d l t} :
      After next (k d) l t → After next (.bus r k) (.bus r d :: l) t

namespace After

variable {α : Type} {next : α → Tree α}

theorem adv {t l T e T'} (h : After next t l T) (ha : Adv T e T') : After next t (l ++ e) T' := by
  induction h with
  | refl t =>
    cases ha with
    | none => exact .refl _
    | poll => exact .poll (.refl _)
    | bus => exact .bus (.refl _)
  | ret _ ih => exact .ret (ih ha)
  | poll _ ih => exact .poll (ih ha)
  | bus _ ih => exact .bus (ih ha)

theorem resume {t l x} (h : After next t l (.ret x)) : After next t l (next x) := by
  generalize e : Tree.ret x = T at h
  induction h with
  | refl t => subst e; exact .ret (.refl _)
  | ret _ ih => exact .ret (ih e)
  | poll _ ih => exact .poll (ih e)
  | bus _ ih => exact .bus (ih e)

theorem behaves {t l T} (h : After next t l T) : Behaves next t l := by
  induction h with
  | refl t => exact .stop _
  | ret _ ih => exact .ret ih
  | poll _ ih => exact .poll ih
  | bus _ ih => exact .bus ih

theorem runs {t l x} (h : After next t l (.ret x)) : Runs next t l x := by
  generalize e : Tree.ret x = T at h
  induction h with
  | refl t => subst e; exact .here (.ret _)
  | ret _ ih => exact .more (.ret _) (ih e)
  | poll _ ih =>
    cases ih e with
    | here h => exact .here (.poll h)
    | more h h' => exact .more (.poll h) h'
  | bus _ ih =>
    cases ih e with
    | here h => exact .here (.bus h)
    | more h h' => exact .more (.bus h) h'

end After

theorem Tree.tag_ret {α} {T : Tree α} {acc : List Event} {p : α × List Event}
    (h : T.tag acc = .ret p) : T = .ret p.1 := by
  cases T with
  | ret x => simp only [Tree.tag, Tree.ret.injEq] at h; rw [← h]
  | poll k => cases h
  | bus r k => cases h

/-- Forget the events. -/
theorem Impl.untag {α : Type} {F : α × List Event → State → Cnt → Prop} {pv s n}
    {T' : Tree (α × List Event)} (p : Impl F pv s T' n) :
    ∀ (T : Tree α) (acc : List Event), T.tag acc = T' →
      Impl (fun x s n => ∃ l, F (x, l) s n) pv s T n := by
  induction p with
  | @done pv s x n hf =>
    intro T acc e
    rw [Tree.tag_ret e]; exact .done ⟨x.2, hf⟩
  | quiet a b _ ih => intro T acc e; exact .quiet a b fun i => ih i T acc e
  | poll a b c _ ih =>
    intro T acc e
    cases T with
    | ret x => cases e
    | bus r k => cases e
    | poll k =>
      simp only [Tree.tag, Tree.poll.injEq] at e
      exact .poll a b c fun i => ih i _ _ (congrFun e i.irq)
  | first a b c _ ih =>
    intro T acc e
    cases T with
    | ret x => cases e
    | poll k => cases e
    | bus r k =>
      have e' := e
      simp only [Tree.tag, Tree.bus.injEq] at e
      obtain ⟨rfl, e⟩ := e
      exact .first a b c fun i hi => ih i hi _ _ e'
  | busy a b c _ _ ih1 ih2 =>
    intro T acc e
    cases T with
    | ret x => cases e
    | poll k => cases e
    | bus r k =>
      have e' := e
      simp only [Tree.tag, Tree.bus.injEq] at e
      obtain ⟨rfl, e⟩ := e
      exact .busy a b c (fun i hi => ih1 i hi _ _ e') (fun i hi => ih2 i hi _ _ (congrFun e i.datR))
  | wait I a b b2 c _ ih =>
    intro T acc e
    cases T with
    | ret x => cases e
    | poll k => cases e
    | bus r k =>
      simp only [Tree.tag, Tree.bus.injEq] at e
      obtain ⟨rfl, e⟩ := e
      exact .wait I a b b2 c fun s i hs hi => ih s i hs hi _ _ (congrFun e i.datR)

/-! ## The invariant of executions -/

/-- The relation at the end of an instruction. -/
def Disp (p : Arch × Word) (s : State) (_ : Cnt) : Prop := AtDispatch p s

theorem cycle_impl {p : Arch × Word} {s : State} {pv : Bool} (h : AtDispatch p s) :
    Impl Disp pv s (cycle .asBuilt p) 0 :=
  ((exec_impl (pv := pv) h).untag _ _ rfl).mono fun _ _ _ ⟨_, h, _⟩ => h

theorem cycle_ne_ret (p : Arch × Word) (y) : cycle .asBuilt p ≠ .ret y := by
  simp [cycle, exec, Tree.bind]

/-- Where an execution stands in cycle `t + 1`. -/
def Stands (cfg : Cfg) (a0 : Arch) (s : State) (inp : Nat → Input) (t : Nat) : Prop :=
  ∃ T n, Impl Disp (s.prevCyc inp (t + 1)) (s.run inp (t + 1)) T n ∧
    After (cycle cfg) (fetch a0) (s.events inp 1 t) T ∧
    (n.idle = 0 → (s.run inp (t + 1)).cyc = false ∧ (s.run inp (t + 1)).uop ≠ u_01)

theorem AfterReset.eq {s : State} (h : AfterReset s) :
    ∃ u mem rd, s = State.resetRegs u mem rd ∧ RamOk mem := by
  have hr : ∀ {s}, Reach s → RamOk s.mem := by
    intro s h
    induction h with
    | powerOn => exact RamOk.powerOn
    | tick rst en i _ ih => exact ih.tick rst en i
  rcases h with rfl | ⟨σ, en, i, hσ, rfl⟩
  · exact ⟨_, _, _, rfl, RamOk.powerOn⟩
  · refine ⟨_, _, _, rfl, ?_⟩
    exact (hr hσ).tick true en i

/-- The architectural state in which the core starts after reset; `i` is the input of the first
cycle. -/
def State.boot (s : State) (i : Input) : Arch := bootArch (s.step i).mem (s.step i).csr.mpie

theorem Stands.zero {s : State} (h : AfterReset s) (inp : Nat → Input) (cfg : Cfg) :
    Stands cfg (s.boot (inp 0)) s inp 0 := by
  obtain ⟨u, mem, rd, rfl, hm⟩ := h.eq
  obtain ⟨h1, h2, h3, h4, h5, h6, h7⟩ := boot_first u mem rd (inp 0)
  refine ⟨_, 0, (boot_impl h1 h2 h3 h4 h5 h6 h7 (RamOk.step (s := State.resetRegs u mem rd) hm _)).mono
    fun _ _ _ h => h.1, .refl _, fun _ => ⟨?_, ?_⟩⟩
  · change ((State.resetRegs u mem rd).step (inp 0)).cyc = false
    simp only [State.cyc, h1, u_02, Bool.false_and]
  · change ((State.resetRegs u mem rd).step (inp 0)).uop ≠ u_01
    rw [h1]; simp [u_02, u_01]

theorem State.events_snoc (s : State) (inp : Nat → Input) (t m : Nat) :
    s.events inp t (m + 1) = s.events inp t m ++ (s.run inp (t + m)).obs (inp (t + m)) := by
  rw [State.events_add]; simp [State.events]

/-- If the core dispatches, an instruction has just ended. -/
theorem Stands.dispatch {cfg : Cfg} {a0 : Arch} {s : State} {inp : Nat → Input} {t : Nat}
    (h : Stands cfg a0 s inp t) (hu : (s.run inp (t + 1)).uop = u_01) :
    ∃ p, AtDispatch p (s.run inp (t + 1)) ∧
      After (cycle cfg) (fetch a0) (s.events inp 1 t) (.ret p) := by
  obtain ⟨T, n, hi, ha, hn⟩ := h
  generalize s.prevCyc inp (t + 1) = pv at hi
  generalize s.run inp (t + 1) = σ at *
  cases hi with
  | done h => exact ⟨_, h, ha⟩
  | quiet _ b _ => exact absurd hu (State.uop_ne_of_polls b)
  | poll _ _ c _ => exact absurd hu (hn (c hu)).2
  | first _ b _ _ => exact absurd hu (State.uop_ne_of_polls b)
  | busy _ b _ _ _ => exact absurd hu (State.uop_ne_of_polls b)
  | wait I hI hc _ _ _ => exact absurd hu (State.uop_ne_of_polls (hc _ hI).2.1)

theorem Stands.succ {cfg : Cfg} {a0 : Arch} {s : State} {inp : Nat → Input} (hr : s.RegisteredAck inp)
    {t : Nat} (hcfg : ∀ p, AtDispatch p (s.run inp (t + 1)) →
      After (cycle cfg) (fetch a0) (s.events inp 1 t) (.ret p) → cycle cfg p = cycle .asBuilt p)
    (h : Stands cfg a0 s inp t) : Stands cfg a0 s inp (t + 1) := by
  -- an implementation that is not at its end
  have key : ∀ T n, (∀ x, T ≠ .ret x) →
      Impl Disp (s.prevCyc inp (t + 1)) (s.run inp (t + 1)) T n →
      After (cycle cfg) (fetch a0) (s.events inp 1 t) T →
      (n.idle = 0 → (s.run inp (t + 1)).cyc = false) → Stands cfg a0 s inp (t + 1) := by
    intro T n hT hi ha hn
    obtain ⟨T', hadv, hi'⟩ := hi.advance hr hT
    refine ⟨T', _, hi', ?_, ?_⟩
    · rw [State.events_snoc, Nat.add_comm 1 t]; exact ha.adv hadv
    · intro h0
      exfalso
      simp only [Cnt.idle_add, State.tally] at h0
      split at h0
      · next hc => rw [hn (by omega)] at hc; cases hc
      · omega
  obtain ⟨T, n, hi, ha, hn⟩ := h
  cases T with
  | poll k => exact key _ n (by intro x; simp) hi ha fun h => (hn h).1
  | bus r k => exact key _ n (by intro x; simp) hi ha fun h => (hn h).1
  | ret x =>
    generalize hpv : s.prevCyc inp (t + 1) = pv at hi
    generalize hs : s.run inp (t + 1) = σ at hi
    cases hi with
    | done h =>
      have hc : σ.cyc = false := by
        have h : AtDispatch x σ := h
        simp [State.cyc, h.uop, u_01]
      have e : cycle cfg x = cycle .asBuilt x := hcfg x (by rw [hs]; exact h) ha
      exact key _ 0 (cycle_ne_ret x) (by rw [hpv, hs]; exact cycle_impl h) (e ▸ ha.resume) (fun _ => by
        rw [hs]; exact hc)
    | quiet a b h =>
      refine ⟨.ret x, n + σ.tally (inp (t + 1)), ?_, ?_, by simp [State.tally, a]⟩
      · have e1 : s.run inp (t + 1 + 1) = σ.step (inp (t + 1)) := by rw [← hs]; rfl
        have e2 : s.prevCyc inp (t + 1 + 1) = σ.cyc := by rw [← hs]; rfl
        rw [e1, e2, a]
        exact h (inp (t + 1))
      · rw [State.events_snoc, Nat.add_comm 1 t, hs]
        have e : σ.obs (inp (t + 1)) = [] := by simp [State.obs, a, b]
        rw [e, List.append_nil]; exact ha

theorem stands {s : State} (h : AfterReset s) {inp : Nat → Input} (hr : s.RegisteredAck inp) (t : Nat) :
    Stands .asBuilt (s.boot (inp 0)) s inp t := by
  induction t with
  | zero => exact Stands.zero h inp _
  | succ t ih => exact ih.succ hr fun _ _ _ => rfl

theorem AtDispatch.arch {p : Arch × Word} {s : State} (h : AtDispatch p s) : p.1 = s.arch := by
  obtain ⟨-, -, -, -, hpc, hrel, -, -⟩ := h
  obtain ⟨a, w⟩ := p
  obtain ⟨h1, h2, h3, h4, h5, h6, h7, h8, h9, h10, h11, h12⟩ := hrel
  cases a
  simp only at *
  simp only [State.arch, Arch.mk.injEq]
  exact ⟨hpc, funext fun r => (h1 r).symm, h7.symm, h8.symm, h9.symm, h3.symm, h4.symm, h5.symm,
    h6.symm, h10.symm⟩

/-- Every run of the machine ends with the fetch of the word it returns. -/
theorem Tree.Path.bind_inv {α β : Type} {T : Tree α} {f : α → Tree β} {l : List Event} {y : β}
    (h : (T.bind f).Path l y) : ∃ l1 x l2, T.Path l1 x ∧ (f x).Path l2 y ∧ l = l1 ++ l2 := by
  induction T generalizing l with
  | ret x => exact ⟨[], x, l, .ret x, h, rfl⟩
  | poll k ih =>
    cases h with
    | poll h =>
      obtain ⟨l1, x, l2, h1, h2, rfl⟩ := ih _ h
      exact ⟨_, x, l2, .poll h1, h2, rfl⟩
  | bus r k ih =>
    cases h with
    | bus h =>
      obtain ⟨l1, x, l2, h1, h2, rfl⟩ := ih _ h
      exact ⟨_, x, l2, .bus h1, h2, rfl⟩

theorem Tree.Path.fetch_inv {a : Arch} {l : List Event} {p : Arch × Word} (h : (fetch a).Path l p) :
    p.1 = a ∧ l = [.bus (fetchReq a) p.2] := by
  cases h with
  | bus h => cases h; exact ⟨rfl, rfl⟩

theorem Tree.Path.cycle_inv {cfg : Cfg} {q p : Arch × Word} {l : List Event}
    (h : (cycle cfg q).Path l p) :
    ∃ l', (exec cfg q.1 q.2).Path l' p.1 ∧ l = l' ++ [.bus (fetchReq p.1) p.2] := by
  obtain ⟨l1, x, l2, h1, h2, rfl⟩ := Tree.Path.bind_inv h
  obtain ⟨rfl, rfl⟩ := Tree.Path.fetch_inv h2
  exact ⟨l1, h1, rfl⟩

theorem Runs.last {cfg : Cfg} {a0 : Arch} {l : List Event} {p : Arch × Word}
    (h : Runs (cycle cfg) (fetch a0) l p) : ∃ l', l = l' ++ [.bus (fetchReq p.1) p.2] := by
  generalize hT : fetch a0 = T at h
  have hT' : ∀ l p, T.Path l p → ∃ l', l = l' ++ [.bus (fetchReq p.1) p.2] := by
    intro l p h; subst hT
    obtain ⟨rfl, rfl⟩ := Tree.Path.fetch_inv h
    exact ⟨[], rfl⟩
  clear hT
  induction h with
  | here h => exact hT' _ _ h
  | more h _ ih =>
    obtain ⟨l', rfl⟩ := ih fun l p hp => by
      obtain ⟨l', _, e⟩ := Tree.Path.cycle_inv hp
      exact ⟨l', e⟩
    exact ⟨_ ++ l', (List.append_assoc ..).symm⟩

/-- What holds at a dispatch. -/
theorem at_dispatch {s : State} (h : AfterReset s) {inp : Nat → Input} (hr : s.RegisteredAck inp)
    {t : Nat} (hd : s.Dispatching inp t) :
    ∃ w, AtDispatch ((s.run inp t).arch, w) (s.run inp t) ∧
      Runs (cycle .asBuilt) (fetch (s.boot (inp 0))) (s.events inp 1 (t - 1)) ((s.run inp t).arch, w) ∧
      s.Dispatches inp t w := by
  obtain ⟨ht, hu⟩ := hd
  obtain ⟨t, rfl⟩ : ∃ t', t = t' + 1 := ⟨t - 1, by omega⟩
  rw [rom_01] at hu
  obtain ⟨p, hp, ha⟩ := (stands h hr t).dispatch hu
  have e : p = ((s.run inp (t + 1)).arch, p.2) := by rw [← hp.arch]
  refine ⟨p.2, e ▸ hp, e ▸ ha.runs, ⟨ht, by rw [rom_01]; exact hu⟩, ?_⟩
  obtain ⟨l', hl⟩ := Runs.last ha.runs
  exact ⟨l', _, hl⟩

theorem State.Dispatches.unique {s : State} {inp : Nat → Input} {t : Nat} {w w' : Word}
    (h : s.Dispatches inp t w) (h' : s.Dispatches inp t w') : w = w' := by
  obtain ⟨-, l, r, e⟩ := h
  obtain ⟨-, l', r', e'⟩ := h'
  rw [e] at e'
  have := List.append_inj_right' e' rfl
  simp at this
  exact this.2

theorem State.Dispatches.at {s : State} (h : AfterReset s) {inp : Nat → Input} (hr : s.RegisteredAck inp)
    {t : Nat} {w : Word} (hd : s.Dispatches inp t w) :
    AtDispatch ((s.run inp t).arch, w) (s.run inp t) := by
  obtain ⟨w', h1, -, h3⟩ := at_dispatch h hr hd.1
  rw [hd.unique h3]; exact h1

end Sentinel
