import Verif.Core.Run
/-!
# `Impl`: a state implements a tree

`Impl F pv s t n`: whatever the inputs (with no ACK in the first cycle of a request), the core in
state `s` takes part in the events of `t`, and when the tree returns `x` the state satisfies `F x`
after a number of request-free cycles; `n` is the number of request-free cycles so far, `pv` says
whether CYC was asserted in the previous cycle.
-/

namespace Sentinel

open Spec Ucode

/-- What is counted along an execution: cycles without a bus request, whether an exception was
raised, whether a general-purpose register was written, whether the CSR the instruction names was
written, whether the interrupt-enable stack in `mstatus` was pushed or popped. -/
structure Cnt where
  idle : Nat
  exc : Bool
  wr : Bool
  cw : Bool
  st : Bool
  deriving DecidableEq

namespace Cnt

instance (k : Nat) : OfNat Cnt k := ⟨⟨k, false, false, false, false⟩⟩
instance : NatCast Cnt := ⟨fun k => ⟨k, false, false, false, false⟩⟩
instance : Add Cnt := ⟨fun m n => ⟨m.idle + n.idle, n.exc || m.exc, n.wr || m.wr, n.cw || m.cw,
  n.st || m.st⟩⟩

/-- A request-free cycle that raises an exception. -/
abbrev x : Cnt := ⟨1, true, false, false, false⟩
/-- A request-free cycle that writes a general-purpose register. -/
abbrev w : Cnt := ⟨1, false, true, false, false⟩
/-- A request-free cycle that writes a CSR. -/
abbrev c : Cnt := ⟨1, false, false, true, false⟩
/-- `k` request-free cycles and a write of a general-purpose register. -/
abbrev gw (k : Nat) : Cnt := ⟨k, false, true, false, false⟩
/-- `k` request-free cycles and a CSR write. -/
abbrev cs (k : Nat) : Cnt := ⟨k, false, false, true, false⟩
/-- `k` request-free cycles with both. -/
abbrev gc (k : Nat) : Cnt := ⟨k, false, true, true, false⟩
/-- `k` request-free cycles with an exception and trap entry. -/
abbrev trap (k : Nat) : Cnt := ⟨k, true, false, false, true⟩
/-- `k` request-free cycles and a push or pop of the interrupt-enable stack. -/
abbrev stk (k : Nat) : Cnt := ⟨k, false, false, false, true⟩
/-- A cycle with a request that writes a general-purpose register. -/
abbrev w0 : Cnt := ⟨0, false, true, false, false⟩
/-- A cycle with a request that writes a CSR. -/
abbrev c0 : Cnt := ⟨0, false, false, true, false⟩

@[ext] theorem ext' {m n : Cnt} (h1 : m.idle = n.idle) (h2 : m.exc = n.exc) (h3 : m.wr = n.wr)
    (h4 : m.cw = n.cw) (h5 : m.st = n.st) : m = n := by
  cases m; cases n; simp_all

@[simp] theorem idle_add (m n : Cnt) : (m + n).idle = m.idle + n.idle := rfl
@[simp] theorem exc_add (m n : Cnt) : (m + n).exc = (n.exc || m.exc) := rfl
@[simp] theorem wr_add (m n : Cnt) : (m + n).wr = (n.wr || m.wr) := rfl
@[simp] theorem cw_add (m n : Cnt) : (m + n).cw = (n.cw || m.cw) := rfl

@[simp] theorem st_add (m n : Cnt) : (m + n).st = (n.st || m.st) := rfl

@[simp] theorem idle_ofNat (k : Nat) : (no_index (OfNat.ofNat k) : Cnt).idle = k := rfl
@[simp] theorem exc_ofNat (k : Nat) : (no_index (OfNat.ofNat k) : Cnt).exc = false := rfl
@[simp] theorem wr_ofNat (k : Nat) : (no_index (OfNat.ofNat k) : Cnt).wr = false := rfl
@[simp] theorem cw_ofNat (k : Nat) : (no_index (OfNat.ofNat k) : Cnt).cw = false := rfl

@[simp] theorem st_ofNat (k : Nat) : (no_index (OfNat.ofNat k) : Cnt).st = false := rfl

theorem add_assoc (a b c : Cnt) : a + b + c = a + (b + c) := by
  ext <;> simp [Nat.add_assoc, Bool.or_assoc]

@[simp] theorem add_zero (a : Cnt) : a + 0 = a := rfl
@[simp] theorem zero_add (a : Cnt) : 0 + a = a := by
  ext
  · show 0 + a.idle = a.idle; omega
  · show (a.exc || false) = a.exc; simp
  · show (a.wr || false) = a.wr; simp
  · show (a.cw || false) = a.cw; simp
  · show (a.st || false) = a.st; simp

end Cnt

/-- What one cycle adds to the count. -/
def State.tally (s : State) (i : Input) : Cnt :=
  ⟨if s.cyc then 0 else 1, s.exception i, s.uop.regWrite && !(s.uop.csrOp = .writeCsr),
    s.uop.csrOp = .writeCsr && s.uop.csrSel = .insnCsr,
    s.uop.exceptCtl = .enterInt || s.uop.exceptCtl = .leaveInt⟩

/-- What cycles `t, ..., t+m-1` add to the count. -/
def State.tallies (s : State) (inp : Nat → Input) (t : Nat) : Nat → Cnt
  | 0 => 0
  | m + 1 => (s.run inp t).tally (inp t) + tallies s inp (t + 1) m

inductive Impl {α : Type} (F : α → State → Cnt → Prop) : Bool → State → Tree α → Cnt → Prop
  | done {pv s x n} : F x s n → Impl F pv s (.ret x) n
  | quiet {pv s t n} : s.cyc = false → s.polls = false →
      (∀ i, Impl F false (s.step i) t (n + s.tally i)) → Impl F pv s t n
  | poll {pv s k n} : s.cyc = false → s.polls = true → (s.uop = u_01 → n.idle = 0) →
      (∀ i, Impl F false (s.step i) (k i.irq) (n + s.tally i)) → Impl F pv s (.poll k) n
  | first {s r k n} : s.cyc = true → s.polls = false → s.req = r →
      (∀ i, i.ack = false → Impl F true (s.step i) (.bus r k) (n + s.tally i)) →
      Impl F false s (.bus r k) n
  | busy {pv s r k n} : s.cyc = true → s.polls = false → s.req = r →
      (∀ i, i.ack = false → Impl F true (s.step i) (.bus r k) (n + s.tally i)) →
      (∀ i, i.ack = true → Impl F true (s.step i) (k i.datR) (n + s.tally i)) → Impl F pv s (.bus r k) n
  | wait {pv s r k n} (I : State → Prop) : I s →
      (∀ s, I s → s.cyc = true ∧ s.polls = false ∧ s.req = r) →
      (∀ s i, I s → s.tally i = 0) →
      (∀ s i, I s → i.ack = false → I (s.step i)) →
      (∀ s i, I s → i.ack = true → Impl F true (s.step i) (k i.datR) n) →
      Impl F pv s (.bus r k) n

namespace Impl

variable {α : Type} {F : α → State → Cnt → Prop}

theorem mono {G : α → State → Cnt → Prop} (h : ∀ x s n, F x s n → G x s n) {pv s t n}
    (p : Impl F pv s t n) : Impl G pv s t n := by
  induction p with
  | done hf => exact .done (h _ _ _ hf)
  | quiet a b _ ih => exact .quiet a b ih
  | poll a b c _ ih => exact .poll a b c ih
  | first a b c _ ih => exact .first a b c ih
  | busy a b c _ _ ih1 ih2 => exact .busy a b c ih1 ih2
  | wait I a b b2 c _ ih => exact .wait I a b b2 c ih

/-- Sequential composition. -/
theorem bind {β : Type} {G : β → State → Cnt → Prop} {f : α → Tree β} {pv s t n}
    (p : Impl F pv s t n) (h : ∀ x pv s n, F x s n → Impl G pv s (f x) n) :
    Impl G pv s (t.bind f) n := by
  induction p with
  | done hf => exact h _ _ _ _ hf
  | quiet a b _ ih => exact .quiet a b ih
  | poll a b c _ ih => exact .poll a b c ih
  | first a b c _ ih => exact .first a b c ih
  | busy a b c _ _ ih1 ih2 => exact .busy a b c ih1 ih2
  | wait I a b b2 c _ ih => exact .wait I a b b2 c ih

/-- `quiet`, with the tally of the cycle given. -/
theorem quietq {pv s t n} (q : Cnt) (a : s.cyc = false) (b : s.polls = false)
    (hq : ∀ i, s.tally i = q) (h : ∀ i, Impl F false (s.step i) t (n + q)) : Impl F pv s t n :=
  .quiet a b fun i => by rw [hq]; exact h i

/-- `poll`, with the tally of the cycle given. -/
theorem pollq {pv s k n} (q : Cnt) (a : s.cyc = false) (b : s.polls = true)
    (c : s.uop = u_01 → n.idle = 0) (hq : ∀ i, s.tally i = q)
    (h : ∀ i, Impl F false (s.step i) (k i.irq) (n + q)) : Impl F pv s (.poll k) n :=
  .poll a b c fun i => by rw [hq]; exact h i

/-- `first`, with the tally of the cycle given. -/
theorem firstq {s r k n} (q : Cnt) (a : s.cyc = true) (b : s.polls = false) (c : s.req = r)
    (hq : ∀ i, s.tally i = q)
    (h : ∀ i, i.ack = false → Impl F true (s.step i) (.bus r k) (n + q)) :
    Impl F false s (.bus r k) n :=
  .first a b c fun i hi => by rw [hq]; exact h i hi

/-- `busy`, with the tally of the cycle given. -/
theorem busyq {pv s r k n} (q : Cnt) (a : s.cyc = true) (b : s.polls = false) (c : s.req = r)
    (hq : ∀ i, s.tally i = q)
    (h1 : ∀ i, i.ack = false → Impl F true (s.step i) (.bus r k) (n + q))
    (h2 : ∀ i, i.ack = true → Impl F true (s.step i) (k i.datR) (n + q)) :
    Impl F pv s (.bus r k) n :=
  .busy a b c (fun i hi => by rw [hq]; exact h1 i hi) fun i hi => by rw [hq]; exact h2 i hi

end Impl

/-! ## Consequences for executions -/

/-- One event (or none) advances a tree. -/
inductive Adv {α : Type} : Tree α → List Event → Tree α → Prop
  | none (t) : Adv t [] t
  | poll (k b) : Adv (.poll k) [.poll b] (k b)
  | bus (r k d) : Adv (.bus r k) [.bus r d] (k d)

/-- Is CYC asserted in the cycle before `t`? -/
def State.prevCyc (s : State) (inp : Nat → Input) : Nat → Bool
  | 0 => false
  | t + 1 => (s.run inp t).cyc

theorem State.RegisteredAck.at {s : State} {inp : Nat → Input} (h : s.RegisteredAck inp) (t : Nat)
    (hc : (s.run inp t).cyc = true) (hp : s.prevCyc inp t = false) : (inp t).ack = false := by
  apply h t ⟨hc, ?_⟩
  intro t' ht; subst ht; exact hp

/-- One cycle of an execution. -/
theorem Impl.advance {α : Type} {F : α → State → Cnt → Prop} {s : State} {inp : Nat → Input}
    (hr : s.RegisteredAck inp) {t : Nat} {T : Tree α} {n : Cnt}
    (p : Impl F (s.prevCyc inp t) (s.run inp t) T n) (hT : ∀ x, T ≠ .ret x) :
    ∃ T', Adv T ((s.run inp t).obs (inp t)) T' ∧
      Impl F (s.prevCyc inp (t + 1)) (s.run inp (t + 1)) T'
        (n + (s.run inp t).tally (inp t)) := by
  generalize hpv : s.prevCyc inp t = pv at p
  generalize hs : s.run inp t = σ at p
  have hrun : s.run inp (t + 1) = σ.step (inp t) := by simp [State.run, hs]
  have hprev : s.prevCyc inp (t + 1) = σ.cyc := by simp [State.prevCyc, hs]
  rw [hrun, hprev]
  cases p with
  | done hf => exact absurd rfl (hT _)
  | quiet a b h =>
    refine ⟨T, ?_, ?_⟩
    · simp only [State.obs, a, b]; exact .none _
    · rw [a]; exact h (inp t)
  | @poll _ _ k _ a b c h =>
    refine ⟨k (inp t).irq, ?_, ?_⟩
    · simp only [State.obs, a, b]; exact .poll _ _
    · rw [a]; exact h (inp t)
  | @first _ r k _ a b c h =>
    have hack : (inp t).ack = false := hr.at t (by rw [hs]; exact a) hpv
    refine ⟨.bus r k, ?_, ?_⟩
    · simp only [State.obs, a, b, hack]; exact .none _
    · rw [a]; exact h (inp t) hack
  | @busy _ _ r k _ a b c h1 h2 =>
    cases hack : (inp t).ack with
    | false =>
      refine ⟨.bus r k, ?_, ?_⟩
      · simp only [State.obs, a, b, hack]; exact .none _
      · rw [a]; exact h1 (inp t) hack
    | true =>
      refine ⟨k (inp t).datR, ?_, ?_⟩
      · simp only [State.obs, a, b, hack, c]; exact .bus _ _ _
      · rw [a]; exact h2 (inp t) hack
  | @wait _ _ r k _ I hI hc ht hno hyes =>
    obtain ⟨a, b, c⟩ := hc _ hI
    cases hack : (inp t).ack with
    | false =>
      refine ⟨.bus r k, ?_, ?_⟩
      · simp only [State.obs, a, b, hack]; exact .none _
      · rw [a, ht _ _ hI, Cnt.add_zero]; exact Impl.wait (pv := true) I (hno _ _ hI hack) hc ht hno hyes
    | true =>
      refine ⟨k (inp t).datR, ?_, ?_⟩
      · simp only [State.obs, a, b, hack, c]; exact .bus _ _ _
      · rw [a, ht _ _ hI, Cnt.add_zero]; exact hyes _ (inp t) hI hack

theorem Adv.behaves {α : Type} {next : α → Tree α} {T T' : Tree α} {e l : List Event}
    (h : Adv T e T') (hb : Behaves next T' l) : Behaves next T (e ++ l) := by
  cases h with
  | none => exact hb
  | poll => exact .poll hb
  | bus => exact .bus hb

theorem Adv.path {α : Type} {T T' : Tree α} {e l : List Event} {x : α}
    (h : Adv T e T') (hb : T'.Path l x) : T.Path (e ++ l) x := by
  cases h with
  | none => exact hb
  | poll => exact .poll hb
  | bus => exact .bus hb

/-- **Safety.**  If every state related to `x` implements `next x`, then all events of an execution
that starts by implementing `T` are those of the machine. -/
theorem Impl.behaves {α : Type} {R : α → State → Prop} {next : α → Tree α}
    (hnext : ∀ x y, next x ≠ .ret y)
    (hR : ∀ x s pv, R x s → Impl (fun x s _ => R x s) pv s (next x) 0)
    {s : State} {inp : Nat → Input} (hr : s.RegisteredAck inp) (m : Nat) :
    ∀ (t : Nat) (T : Tree α) (n : Cnt),
      Impl (fun x s _ => R x s) (s.prevCyc inp t) (s.run inp t) T n →
      Behaves next T (s.events inp t m) := by
  induction m with
  | zero => intro t T n _; exact .stop _
  | succ m ih =>
    have key : ∀ (t : Nat) (T : Tree α) (n : Cnt), (∀ x, T ≠ .ret x) →
        Impl (fun x s _ => R x s) (s.prevCyc inp t) (s.run inp t) T n →
        Behaves next T (s.events inp t (m + 1)) := by
      intro t T n hT p
      obtain ⟨T', ha, hp⟩ := p.advance hr hT
      exact ha.behaves (ih _ _ _ hp)
    intro t T n p
    cases T with
    | ret x =>
      generalize hpv : s.prevCyc inp t = pv at p
      generalize hs : s.run inp t = σ at p
      cases p with
      | done h => subst hs; exact .ret (key t _ 0 (hnext x) (hR x _ _ h))
      | quiet a b h =>
        have := ih (t + 1) (.ret x) (n + σ.tally (inp t)) (by
          have := h (inp t)
          simpa [State.run, State.prevCyc, hs, a] using this)
        have e : (s.run inp t).obs (inp t) = [] := by simp [State.obs, hs, a, b]
        simpa [State.events, e] using this
    | poll k => exact key t _ n (by intro x; simp) p
    | bus r k => exact key t _ n (by intro x; simp) p

theorem State.events_add (s : State) (inp : Nat → Input) (t m k : Nat) :
    s.events inp t (m + k) = s.events inp t m ++ s.events inp (t + m) k := by
  induction m generalizing t with
  | zero => simp [State.events]
  | succ m ih =>
    rw [Nat.succ_add]
    simp only [State.events, ih, List.append_assoc]
    rw [show t + 1 + m = t + (m + 1) by omega]

theorem State.idle_add (s : State) (inp : Nat → Input) (t m k : Nat) :
    s.idle inp t (m + k) = s.idle inp t m + s.idle inp (t + m) k := by
  induction m generalizing t with
  | zero => simp [State.idle]
  | succ m ih =>
    rw [Nat.succ_add]
    simp only [State.idle, ih]
    rw [show t + 1 + m = t + (m + 1) by omega]; omega

theorem State.idle_add_busy (s : State) (inp : Nat → Input) (t m : Nat) :
    s.idle inp t m + s.busy inp t m = m := by
  induction m generalizing t with
  | zero => rfl
  | succ m ih =>
    simp only [State.idle, State.busy]
    have := ih (t + 1)
    split <;> omega

/-- Waiting for ACK. -/
theorem State.FairAck.eventually {s : State} {inp : Nat → Input} (h : s.FairAck inp)
    (I : State → Prop) (hc : ∀ s, I s → s.cyc = true)
    (hno : ∀ s i, I s → i.ack = false → I (s.step i)) (t : Nat) (hI : I (s.run inp t)) :
    ∃ m, I (s.run inp (t + m)) ∧ (inp (t + m)).ack = true ∧
      ∀ k, k < m → (inp (t + k)).ack = false ∧ I (s.run inp (t + k)) := by
  obtain ⟨t', hle, ht'⟩ := h t (hc _ hI)
  obtain ⟨d, rfl⟩ := Nat.exists_eq_add_of_le hle
  clear hle
  induction d generalizing t with
  | zero =>
    refine ⟨0, hI, ?_, by omega⟩
    rcases ht' with h1 | h1
    · rw [Nat.add_zero, hc _ hI] at h1; cases h1
    · exact h1
  | succ d ih =>
    cases hack : (inp t).ack with
    | true => exact ⟨0, hI, hack, by omega⟩
    | false =>
      have hI' : I (s.run inp (t + 1)) := hno _ _ hI hack
      obtain ⟨m, h1, h2, h3⟩ := ih (t + 1) hI' (by
        rw [show t + 1 + d = t + (d + 1) by omega]; exact ht')
      refine ⟨m + 1, ?_, ?_, ?_⟩
      · rw [show t + (m + 1) = t + 1 + m by omega]; exact h1
      · rw [show t + (m + 1) = t + 1 + m by omega]; exact h2
      · intro k hk
        cases k with
        | zero => exact ⟨hack, hI⟩
        | succ k =>
          rw [show t + (k + 1) = t + 1 + k by omega]
          exact h3 k (by omega)

/-- The result of an implementation for an execution: after `m` more cycles the tree has returned
`x`, the events of these cycles are a path of the tree, and the state satisfies `F`. -/
def Impl.Result {α : Type} (F : α → State → Cnt → Prop) (s : State) (inp : Nat → Input) (t : Nat)
    (T : Tree α) (n : Cnt) : Prop :=
  ∃ m x, T.Path (s.events inp t m) x ∧ F x (s.run inp (t + m)) (n + s.tallies inp t m) ∧
    ∀ k, k < m → (s.run inp (t + k)).uop = u_01 → (n + s.tallies inp t k).idle = 0

theorem State.uop_ne_of_polls {s : State} (h : s.polls = false) : s.uop ≠ u_01 := by
  intro e; simp [State.polls, e, u_01] at h

theorem Impl.Result.cons {α : Type} {F : α → State → Cnt → Prop} {s : State} {inp : Nat → Input}
    {t : Nat} {T T' : Tree α} {n : Cnt} (ha : Adv T ((s.run inp t).obs (inp t)) T')
    (hn : (s.run inp t).uop = u_01 → n.idle = 0)
    (h : Impl.Result F s inp (t + 1) T' (n + (s.run inp t).tally (inp t))) :
    Impl.Result F s inp t T n := by
  obtain ⟨m, x, hp, hf, hu⟩ := h
  refine ⟨m + 1, x, ?_, ?_, ?_⟩
  · simp only [State.events]; exact ha.path hp
  · rw [show t + (m + 1) = t + 1 + m by omega]
    simp only [State.tallies]
    rw [← Cnt.add_assoc]; exact hf
  · intro k hk hk1
    cases k with
    | zero => exact hn hk1
    | succ k =>
      rw [show t + (k + 1) = t + 1 + k by omega] at hk1
      have := hu k (by omega) hk1
      simp only [State.tallies]; rw [← Cnt.add_assoc]; exact this

theorem State.tallies_add (s : State) (inp : Nat → Input) (t m k : Nat) :
    s.tallies inp t (m + k) = s.tallies inp t m + s.tallies inp (t + m) k := by
  induction m generalizing t with
  | zero => simp [State.tallies]
  | succ m ih =>
    rw [Nat.succ_add]
    simp only [State.tallies, ih]
    rw [show t + 1 + m = t + (m + 1) by omega, Cnt.add_assoc]

theorem State.tallies_idle (s : State) (inp : Nat → Input) (t m : Nat) :
    (s.tallies inp t m).idle = s.idle inp t m := by
  induction m generalizing t with
  | zero => rfl
  | succ m ih => simp only [State.tallies, State.idle, Cnt.idle_add, ih]; rfl

/-- **Liveness.**  With a fair, registered ACK every implemented tree runs to its end. -/
theorem Impl.finishes {α : Type} {F : α → State → Cnt → Prop} {s : State} {inp : Nat → Input}
    (hr : s.RegisteredAck inp) (hf : s.FairAck inp) {pv : Bool} {σ : State} {T : Tree α} {n : Cnt}
    (p : Impl F pv σ T n) :
    ∀ t, s.run inp t = σ → s.prevCyc inp t = pv → Impl.Result F s inp t T n := by
  induction p with
  | done h =>
    intro t hs _
    exact ⟨0, _, .ret _, by rw [Nat.add_zero, hs]; exact h, by omega⟩
  | quiet a b h ih =>
    intro t hs hpv
    refine .cons (T' := _) (by rw [hs]; simp only [State.obs, a, b]; exact .none _) (fun e => absurd (hs ▸ e) (State.uop_ne_of_polls b)) ?_
    have := ih (inp t) (t + 1) (by simp [State.run, hs]) (by simp [State.prevCyc, hs, a])
    rw [hs]; exact this
  | poll a b c h ih =>
    intro t hs hpv
    refine .cons (T' := _) (by rw [hs]; simp only [State.obs, a, b]; exact .poll _ _) (fun e => c (hs ▸ e)) ?_
    have := ih (inp t) (t + 1) (by simp [State.run, hs]) (by simp [State.prevCyc, hs, a])
    rw [hs]; exact this
  | first a b c h ih =>
    intro t hs hpv
    have hack : (inp t).ack = false := hr.at t (by rw [hs]; exact a) hpv
    refine .cons (T' := _) (by rw [hs]; simp only [State.obs, a, b, hack]; exact .none _) (fun e => absurd (hs ▸ e) (State.uop_ne_of_polls b)) ?_
    have := ih (inp t) hack (t + 1) (by simp [State.run, hs]) (by simp [State.prevCyc, hs, a])
    rw [hs]; exact this
  | busy a b c h1 h2 ih1 ih2 =>
    intro t hs hpv
    cases hack : (inp t).ack with
    | false =>
      refine .cons (T' := _) (by rw [hs]; simp only [State.obs, a, b, hack]; exact .none _) (fun e => absurd (hs ▸ e) (State.uop_ne_of_polls b)) ?_
      have := ih1 (inp t) hack (t + 1) (by simp [State.run, hs]) (by simp [State.prevCyc, hs, a])
      rw [hs]; exact this
    | true =>
      refine .cons (T' := _) (by rw [hs]; simp only [State.obs, a, b, hack, c]; exact .bus _ _ _) (fun e => absurd (hs ▸ e) (State.uop_ne_of_polls b)) ?_
      have := ih2 (inp t) hack (t + 1) (by simp [State.run, hs]) (by simp [State.prevCyc, hs, a])
      rw [hs]; exact this
  | @wait pv σ r k n I hI hc ht hno hyes ih =>
    intro t hs hpv
    obtain ⟨m, h1, h2, h3⟩ := hf.eventually I (fun s h => (hc s h).1) hno t (by rw [hs]; exact hI)
    clear hs hpv hI
    induction m generalizing t with
    | zero =>
      rw [Nat.add_zero] at h1 h2
      obtain ⟨a, b, c⟩ := hc _ h1
      refine .cons (T' := _) (by simp only [State.obs, a, b, h2, c]; exact .bus _ _ _) (fun e => absurd e (State.uop_ne_of_polls b)) ?_
      have := ih _ (inp t) h1 h2 (t + 1) (by simp [State.run]) (by simp [State.prevCyc, a])
      rw [ht _ _ ‹_›, Cnt.add_zero]; exact this
    | succ m ihm =>
      obtain ⟨hack, hI⟩ := h3 0 (by omega)
      rw [Nat.add_zero] at hack hI
      obtain ⟨a, b, c⟩ := hc _ hI
      refine .cons (T' := _) (by simp only [State.obs, a, b, hack]; exact .none _) (fun e => absurd e (State.uop_ne_of_polls b)) ?_
      have := ihm (t + 1) (by rw [show t + 1 + m = t + (m + 1) by omega]; exact h1)
        (by rw [show t + 1 + m = t + (m + 1) by omega]; exact h2)
        (by
          intro k hk
          rw [show t + 1 + k = t + (k + 1) by omega]
          exact h3 (k + 1) (by omega))
      rw [ht _ _ ‹_›, Cnt.add_zero]; exact this

end Sentinel
