import Verif.Spec.Portable
import Verif.Spec.PlatformCsr
import Verif.Proof.SocRun
import Verif.Proof.Main
import Verif.Proof.Instr
/-!
# Portable programs
-/

set_option linter.unusedSimpArgs false

namespace Sentinel
open Ucode Spec

/-! ## The times of the dispatches -/

theorem dispatch_times {s : State} {inp : Nat → Input} (h : AfterReset s) (hr : s.RegisteredAck inp) (hf : s.FairAck inp) :
    ∃ (T : Nat → Nat) (w : Nat → Word), (∀ t, s.Dispatching inp t ↔ ∃ n, t = T n) ∧
      (fetch (s.boot (inp 0))).Path (s.events inp 1 (T 0 - 1)) ((s.run inp (T 0)).arch, w 0) ∧
      ∀ n, 1 ≤ T n ∧ T n < T (n + 1) ∧ s.Executes inp (T n) (w n) (T (n + 1) - T n) ∧
        (cycle .asBuilt ((s.run inp (T n)).arch, w n)).Path (s.events inp (T n) (T (n + 1) - T n)) ((s.run inp (T (n + 1))).arch, w (n + 1)) := by
  classical
  let At : Type := { q : Nat × Word // s.Dispatches inp q.1 q.2 }
  obtain ⟨t0, w0, ht0, hp0, ha0, hd0⟩ := first_exec h hr hf
  have hstep : ∀ q : At, ∃ q' : At, q.1.1 < q'.1.1 ∧ s.Executes inp q.1.1 q.1.2 (q'.1.1 - q.1.1) ∧
      (cycle .asBuilt ((s.run inp q.1.1).arch, q.1.2)).Path (s.events inp q.1.1 (q'.1.1 - q.1.1)) ((s.run inp q'.1.1).arch, q'.1.2) := by
    rintro ⟨⟨t, w⟩, hd⟩
    obtain ⟨m, he⟩ := executes_of_fair h hr hf hd
    obtain ⟨w', hp, hd', -⟩ := executes h hr he
    refine ⟨⟨(t + m, w'), hd'⟩, by have := he.2.1; simp only; omega, ?_, ?_⟩
    · simpa using he
    · simpa using hp
  choose f hf' using hstep
  let Q : Nat → At := fun n => Nat.rec ⟨(t0, w0), hd0⟩ (fun _ p => f p) n
  have hT : ∀ n, (Q n).1.1 < (Q (n + 1)).1.1 ∧ s.Executes inp (Q n).1.1 (Q n).1.2 ((Q (n + 1)).1.1 - (Q n).1.1) ∧
      (cycle .asBuilt ((s.run inp (Q n).1.1).arch, (Q n).1.2)).Path (s.events inp (Q n).1.1 ((Q (n + 1)).1.1 - (Q n).1.1))
        ((s.run inp (Q (n + 1)).1.1).arch, (Q (n + 1)).1.2) := fun n => hf' (Q n)
  refine ⟨fun n => (Q n).1.1, fun n => (Q n).1.2, fun t => ⟨fun hd => ?_, ?_⟩, by rw [← ha0] at hp0; simpa [ha0, Q] using hp0,
    fun n => ⟨(Q n).2.1.1, hT n⟩⟩
  · have hfirst : t0 ≤ t := by
      by_contra hlt
      obtain ⟨-, hl⟩ := Tree.Path.fetch_inv hp0
      have hu1 := hd.1
      obtain ⟨m, hmm⟩ : ∃ m, t0 - 1 = (t - 1) + (m + 1) := ⟨t0 - 1 - t, by omega⟩
      have e : s.events inp 1 (t0 - 1) = s.events inp 1 (t - 1) ++ ((s.run inp t).obs (inp t) ++ s.events inp (t + 1) m) := by
        rw [hmm, State.events_add, show 1 + (t - 1) = t by omega]
        rfl
      rw [hl, State.obs_dispatch (by rw [← rom_01]; exact hd.2)] at e
      have : Event.poll (inp t).irq ∈ [Event.bus (fetchReq (s.boot (inp 0))) w0] := by
        rw [e]; simp
      simp at this
    have hgrow : ∀ n, n ≤ (Q n).1.1 := by
      intro n
      induction n with
      | zero => omega
      | succ n ih => have h1 := (hT n).1; omega
    by_contra hno
    have hall : ∀ n, (Q n).1.1 < t := by
      intro n
      induction n with
      | zero =>
        rcases Nat.lt_or_eq_of_le hfirst with h | h
        · exact h
        · exact absurd ⟨0, h.symm⟩ hno
      | succ n ih =>
        obtain ⟨h1, h2, -⟩ := hT n
        by_contra hge
        have hne : t ≠ (Q (n + 1)).1.1 := fun e => hno ⟨n + 1, e⟩
        refine h2.2.2.2 (t - (Q n).1.1) (by omega) (by omega) ?_
        rw [show (Q n).1.1 + (t - (Q n).1.1) = t by omega]; exact hd
    have h1 := hgrow t
    have h2 := hall t
    omega
  · rintro ⟨n, rfl⟩
    exact (hT n).2.1.1.1

/-! ## Computations that do not look at the interrupt line -/

def _root_.Sentinel.Spec.Tree.Deaf {α : Type} : Tree α → Prop
  | .ret _ => True
  | .poll f => (∀ b b', f b = f b') ∧ ∀ b, Tree.Deaf (f b)
  | .bus _ f => ∀ d, Tree.Deaf (f d)

theorem Tree.Deaf.bind {α β : Type} {T : Tree α} {f : α → Tree β} (h : Tree.Deaf T) (hf : ∀ x, Tree.Deaf (f x)) : Tree.Deaf (T.bind f) := by
  induction T with
  | ret x => exact hf x
  | poll g ih => exact ⟨fun b b' => by simp only [h.1 b b'], fun b => ih b (h.2 b)⟩
  | bus r g ih => exact fun d => ih d (h d)

theorem deaf_fetch (a : Arch) : Tree.Deaf (fetch a) := fun _ => trivial

theorem deaf_cycle {x : Arch × Word} (h : (x.1.intEnabled || usesMip x.2) = false) : Tree.Deaf (cycle .asBuilt x) := by
  obtain ⟨a, w⟩ := x
  rw [Bool.or_eq_false_iff] at h
  obtain ⟨h1, h2⟩ := h
  simp only at h1 h2
  refine Tree.Deaf.bind ?_ deaf_fetch
  simp only [exec, h1, Bool.and_false, Bool.false_eq_true, if_false]
  refine ⟨fun _ _ => rfl, fun _ => ?_⟩
  unfold usesMip at h2
  cases hd : decode w with
  | none => trivial
  | some ins =>
    rw [hd] at h2
    cases ins <;> simp only [execInstr, h1, Bool.and_false, Bool.false_eq_true, if_false] <;>
      first
      | trivial
      | (split <;> first | trivial | exact fun _ => trivial)
      | skip
    · split
      · split <;> trivial
      · trivial
    · rename_i op rd src adr
      refine ⟨fun _ _ => rfl, fun _ => ?_⟩
      beta_reduce
      cases hk : csrKind adr with
      | absent => trivial
      | zero => simp only; split <;> trivial
      | impl c =>
        have : c ≠ .mip := by rintro rfl; simp [hk] at h2
        simp only [execCsr, this, false_and, if_false]
        trivial

/-! ## Either kind of peripherals -/

/-- Traces of a platform, given what it answers and what a request does to it. -/
def TraceOf {k : Nat} (A : Plat k → Req → Word → Prop) (F : Plat k → Req → Plat k) : Plat k → List Event → Prop
  | _, [] => True
  | P, .poll _ :: l => TraceOf A F P l
  | P, .bus r d :: l => A P r d ∧ TraceOf A F (F P r) l

def afterOf {k : Nat} (F : Plat k → Req → Plat k) : Plat k → List Event → Plat k
  | P, [] => P
  | P, .poll _ :: l => afterOf F P l
  | P, .bus r _ :: l => afterOf F (F P r) l

section
variable {k : Nat} {A : Plat k → Req → Word → Prop} {F : Plat k → Req → Plat k}

theorem afterOf_append (P : Plat k) (l l' : List Event) : afterOf F P (l ++ l') = afterOf F (afterOf F P l) l' := by
  induction l generalizing P with
  | nil => rfl
  | cons e l ih => cases e <;> exact ih _

theorem TraceOf.append {P : Plat k} {l l' : List Event} : TraceOf A F P (l ++ l') ↔ TraceOf A F P l ∧ TraceOf A F (afterOf F P l) l' := by
  induction l generalizing P with
  | nil => simp [TraceOf, afterOf]
  | cons e l ih =>
    cases e with
    | poll b => exact ih
    | bus r d => simp only [List.cons_append, TraceOf, afterOf, ih, and_assoc]

theorem traceOf_wb {P : Plat k} {l : List Event} : TraceOf Plat.Answers Plat.after P l ↔ PlatTrace P l := by
  induction l generalizing P with
  | nil => exact Iff.rfl
  | cons e l ih => cases e <;> simp only [TraceOf, PlatTrace, ih]

theorem afterOf_wb {P : Plat k} {l : List Event} : afterOf Plat.after P l = P.afterAll l := by
  induction l generalizing P with
  | nil => rfl
  | cons e l ih => cases e <;> simp only [afterOf, Plat.afterAll, ih]

theorem traceOf_csr {P : Plat k} {l : List Event} : TraceOf Plat.AnswersCsr Plat.afterCsr P l ↔ PlatTraceCsr P l := by
  induction l generalizing P with
  | nil => exact Iff.rfl
  | cons e l ih => cases e <;> simp only [TraceOf, PlatTraceCsr, ih]

theorem afterOf_csr {P : Plat k} {l : List Event} : afterOf Plat.afterCsr P l = P.afterAllCsr l := by
  induction l generalizing P with
  | nil => rfl
  | cons e l ih => cases e <;> simp only [afterOf, Plat.afterAllCsr, ih]

/-- The platform treats portable requests as the machine of the specification does. -/
structure Standard (A : Plat k → Req → Word → Prop) (F : Plat k → Req → Plat k) : Prop where
  ans : ∀ {P : Plat k} {r : Req} {d : Word}, r.Portable → A P r d → r.we = false → d = P.ram (r.adr.setWidth k)
  after : ∀ {P : Plat k} {r : Req}, r.Portable → F P r = P.after r

theorem portable_read {r : Req} (h : r.Portable) (hw : r.we = false) : r.byteAdr < 0x02000000 := by
  rcases h with h | ⟨h, -⟩
  · exact h
  · rw [hw] at h; cases h

theorem standard_wb : Standard (k := k) Plat.Answers Plat.after := by
  refine ⟨fun {P r d} hp ha hw => ?_, fun _ => rfl⟩
  obtain ⟨t, ht, ha⟩ := ha
  have hl := portable_read hp hw
  have : t = .ram := by
    rw [Req.target, target, if_pos hl] at ht
    exact (Option.some.inj ht).symm
  subst this
  simpa using ha hw

theorem standard_csr : Standard (k := k) Plat.AnswersCsr Plat.afterCsr := by
  refine ⟨fun {P r d} hp ha hw => ?_, fun {P r} hp => ?_⟩
  · obtain ⟨t, ht, ha⟩ := ha
    have hl := portable_read hp hw
    have : t = .ram := by
      rw [Req.csrTarget, csrTarget, if_pos hl] at ht
      exact (Option.some.inj ht).symm
    subst this
    simpa using ha hw
  · unfold Plat.afterCsr Plat.after
    cases hw : r.we
    · rfl
    · simp only [if_true]
      rcases hp with hl | ⟨-, hm⟩
      · rw [Req.csrTarget, csrTarget, if_pos hl, Req.target, target, if_pos hl]
      · simp only [List.mem_cons, List.not_mem_nil, or_false] at hm
        rcases hm with hm | hm | hm <;> simp only [Req.csrTarget, Req.target, hm] <;> rfl

theorem portable_some {r : Req} (h : r.Portable) : r.target.isSome = true ∧ r.csrTarget.isSome = true := by
  rcases h with hl | ⟨-, hm⟩
  · rw [Req.csrTarget, csrTarget, if_pos hl, Req.target, target, if_pos hl]; exact ⟨rfl, rfl⟩
  · simp only [List.mem_cons, List.not_mem_nil, or_false] at hm
    rcases hm with hm | hm | hm <;> simp only [Req.csrTarget, Req.target, hm] <;> exact ⟨rfl, rfl⟩

/-! ## The machine -/

variable (S : Standard A F)
include S

theorem onPlat_path {α : Type} {T : Tree α} {l : List Event} {x : α} (hp : T.Path l x) (hb : Tree.Blind T) (hd : Tree.Deaf T) {P : Plat k}
    (ht : TraceOf A F P l) {q : α × Plat k} (hq : T.onPlat P = some q) : q = (x, afterOf F P l) := by
  induction hp generalizing P with
  | ret x => exact (Option.some.inj hq).symm
  | @poll f c l x _ ih =>
    rw [Tree.onPlat, hd.1 false c] at hq
    exact ih (hb _) (hd.2 _) ht hq
  | @bus r f d l x _ ih =>
    rw [Tree.onPlat] at hq
    by_cases hr : r.Portable
    · rw [if_pos hr] at hq
      have e : f (if r.we then 0 else P.ram (r.adr.setWidth k)) = f d := by
        cases hw : r.we
        · rw [S.ans hr ht.1 hw]; rfl
        · exact hb.1 hw _ _
      rw [e, ← S.after hr] at hq
      exact ih (hb.2 _) (hd _) ht.2 hq
    · rw [if_neg hr] at hq; cases hq

omit S in
/-- `n` instructions from `q`. -/
def portableFrom (q : (Arch × Word) × Plat k) : Nat → Option ((Arch × Word) × Plat k)
  | 0 => some q
  | n + 1 => (portableFrom q n).bind portableStep

omit S in
theorem portableFrom_succ {q q' : (Arch × Word) × Plat k} (h : portableStep q = some q') (n : Nat) :
    portableFrom q (n + 1) = portableFrom q' n := by
  induction n with
  | zero => exact h
  | succ n ih => rw [portableFrom, ih]; rfl

omit S in
theorem portableRun_from {P : Plat k} {a : Arch} {q : (Arch × Word) × Plat k} (h : (fetch a).onPlat P = some q) (n : Nat) :
    portableRun P a n = portableFrom q n := by
  induction n with
  | zero => exact h
  | succ n ih => rw [portableRun, ih]; rfl

omit S in
theorem portableStep_some {q q' : (Arch × Word) × Plat k} (h : portableStep q = some q') :
    (q.1.1.intEnabled || usesMip q.1.2) = false ∧ (cycle .asBuilt q.1).onPlat q.2 = some q' := by
  unfold portableStep at h
  cases hc : (q.1.1.intEnabled || usesMip q.1.2)
  · rw [hc] at h; exact ⟨rfl, h⟩
  · rw [hc] at h; cases h

theorem portable_behaves {T : Tree (Arch × Word)} {l : List Event} (hbh : Behaves (cycle .asBuilt) T l) (hb : Tree.Blind T) (hd : Tree.Deaf T)
    {P : Plat k} {q : (Arch × Word) × Plat k} (hq : T.onPlat P = some q) (hn : ∀ n, (portableFrom q n).isSome = true) :
    ∀ l' r d, l = l' ++ [.bus r d] → TraceOf A F P l' → r.Portable := by
  induction hbh generalizing P q with
  | stop t => intro l' r d e; simp at e
  | @ret x l _ ih =>
    obtain rfl := Option.some.inj hq
    obtain ⟨q', hq'⟩ := Option.isSome_iff_exists.1 (hn 1)
    have hs : portableStep (x, P) = some q' := hq'
    obtain ⟨h1, h2⟩ := portableStep_some hs
    exact ih (blind_cycle _ _) (deaf_cycle h1) h2 fun n => by rw [← portableFrom_succ hs]; exact hn _
  | @poll f b l _ ih =>
    intro l' r d e ht
    rw [Tree.onPlat, hd.1 false b] at hq
    cases l' with
    | nil => simp at e
    | cons e' l' =>
      obtain ⟨rfl, rfl⟩ := List.cons_eq_cons.1 e
      exact ih (hb _) (hd.2 _) hq hn l' r d rfl ht
  | @bus r f d l _ ih =>
    intro l' r' d' e ht
    rw [Tree.onPlat] at hq
    by_cases hr : r.Portable
    · cases l' with
      | nil =>
        obtain ⟨h1, -⟩ := List.cons_eq_cons.1 e
        obtain ⟨rfl, -⟩ := Event.bus.inj h1
        exact hr
      | cons e' l' =>
        obtain ⟨rfl, rfl⟩ := List.cons_eq_cons.1 e
        rw [if_pos hr] at hq
        have e : f (if r.we then 0 else P.ram (r.adr.setWidth k)) = f d := by
          cases hw : r.we
          · rw [S.ans hr ht.1 hw]; rfl
          · exact hb.1 hw _ _
        rw [e, ← S.after hr] at hq
        exact ih (hb.2 _) (hd _) hq hn l' r' d' rfl ht.2
    · rw [if_neg hr] at hq; cases hq

theorem portable_requests {P : Plat k} {a : Arch} (h : Portable P a) {l : List Event} {r : Req} {d : Word}
    (hb : Behaves (cycle .asBuilt) (fetch a) (l ++ [.bus r d])) (ht : TraceOf A F P l) : r.Portable := by
  obtain ⟨q, hq⟩ := Option.isSome_iff_exists.1 (h 0)
  exact portable_behaves S hb (blind_fetch a) (deaf_fetch a) hq (fun n => by rw [← portableRun_from hq]; exact h n) l r d rfl ht

/-- A portable program on any platform that treats portable requests as it should. -/
theorem portable_core_path {s : State} {inp : Nat → Input} (h : AfterReset s) (hr : s.RegisteredAck inp) (hf : s.FairAck inp) {P : Plat k}
    (hp : Portable P (s.boot (inp 0))) (ht : ∀ n, TraceOf A F P (s.events inp 1 n)) :
    ∃ (T : Nat → Nat) (w : Nat → Word), (∀ t, s.Dispatching inp t ↔ ∃ n, t = T n) ∧
      (fetch (s.boot (inp 0))).Path (s.events inp 1 (T 0 - 1)) ((s.run inp (T 0)).arch, w 0) ∧ ∀ n, T n < T (n + 1) ∧ s.Executes inp (T n) (w n) (T (n + 1) - T n) ∧
        portableRun P (s.boot (inp 0)) n = some (((s.run inp (T n)).arch, w n), afterOf F P (s.events inp 1 (T n - 1))) := by
  obtain ⟨T, w, h1, h2, h3⟩ := dispatch_times h hr hf
  refine ⟨T, w, h1, h2, fun n => ⟨(h3 n).2.1, (h3 n).2.2.1, ?_⟩⟩
  induction n with
  | zero =>
    obtain ⟨q, hq⟩ := Option.isSome_iff_exists.1 (hp 0)
    rw [hq, onPlat_path S h2 (blind_fetch _) (deaf_fetch _) (ht _) hq]
  | succ n ih =>
    obtain ⟨q, hq⟩ := Option.isSome_iff_exists.1 (hp (n + 1))
    have hs := hq
    rw [portableRun, ih] at hs
    obtain ⟨g1, g2⟩ := portableStep_some hs
    obtain ⟨t1, t2, -, hpath⟩ := h3 n
    have hall := s.events_add inp 1 (T n - 1) (T (n + 1) - T n)
    rw [show 1 + (T n - 1) = T n by omega, show T n - 1 + (T (n + 1) - T n) = T (n + 1) - 1 by omega] at hall
    have hM := ht (T (n + 1) - 1)
    rw [hall, TraceOf.append] at hM
    rw [hq, onPlat_path S hpath (blind_cycle _ _) (deaf_cycle g1) hM.2 g2, hall, afterOf_append]

theorem portable_core {s : State} {inp : Nat → Input} (h : AfterReset s) (hr : s.RegisteredAck inp) (hf : s.FairAck inp) {P : Plat k}
    (hp : Portable P (s.boot (inp 0))) (ht : ∀ n, TraceOf A F P (s.events inp 1 n)) :
    ∃ (T : Nat → Nat) (w : Nat → Word), (∀ t, s.Dispatching inp t ↔ ∃ n, t = T n) ∧
      ∀ n, T n < T (n + 1) ∧ s.Executes inp (T n) (w n) (T (n + 1) - T n) ∧
        portableRun P (s.boot (inp 0)) n = some (((s.run inp (T n)).arch, w n), afterOf F P (s.events inp 1 (T n - 1))) := by
  obtain ⟨T, w, h1, -, h2⟩ := portable_core_path S h hr hf hp ht
  exact ⟨T, w, h1, h2⟩

/-! ## Times -/

omit S in
/-- An event without what the core cannot have looked at. -/
def mute : Event → Event
  | .bus r d => .bus r (if r.we then 0 else d)
  | .poll _ => .poll false

theorem path_mute {α : Type} {T : Tree α} {l : List Event} {x : α} (hp : T.Path l x) (hb : Tree.Blind T) (hd : Tree.Deaf T) {P : Plat k}
    (ht : TraceOf A F P l) {q : α × Plat k} (hq : T.onPlat P = some q) {l' : List Event} {x' : α} (hp' : T.Path l' x')
    (ht' : TraceOf A F P l') : l.map mute = l'.map mute := by
  induction hp generalizing P l' x' with
  | ret x => cases hp'; rfl
  | @poll f c l x _ ih =>
    cases hp' with
    | @poll _ c' l' _ hp' =>
      rw [Tree.onPlat, hd.1 false c] at hq
      rw [hd.1 c' c] at hp'
      simp only [List.map_cons, mute, List.cons.injEq, true_and]
      exact ih (hb _) (hd.2 _) ht hq hp' ht'
  | @bus r f d l x _ ih =>
    cases hp' with
    | @bus _ _ d' l' _ hp' =>
      rw [Tree.onPlat] at hq
      by_cases hr : r.Portable
      · rw [if_pos hr] at hq
        have e : f (if r.we then 0 else P.ram (r.adr.setWidth k)) = f d := by
          cases hw : r.we
          · rw [S.ans hr ht.1 hw]; rfl
          · exact hb.1 hw _ _
        have e' : f d' = f d ∧ mute (.bus r d) = mute (.bus r d') := by
          cases hw : r.we
          · rw [S.ans hr ht.1 hw, S.ans hr ht'.1 hw]; exact ⟨rfl, rfl⟩
          · exact ⟨hb.1 hw _ _, by simp [mute, hw]⟩
        rw [e, ← S.after hr] at hq
        rw [e'.1] at hp'
        rw [List.map_cons, List.map_cons, e'.2, ih (hb.2 _) (hd _) ht.2 hq hp' ht'.2]
      · rw [if_neg hr] at hq; cases hq

omit S in
theorem idle_mute {a : Arch} (h : a.intEnabled = false) (w : Word) (l : List Event) : idleCycles a w l = idleCycles a w (l.map mute) := by
  cases l with
  | nil => rfl
  | cons e l =>
    cases e with
    | bus r d => rfl
    | poll b =>
      simp only [idleCycles, List.map_cons, mute, h, Bool.and_false, Bool.false_eq_true, if_false]
      cases hd : decode w with
      | none => rfl
      | some ins =>
        cases ins <;> simp only [instrCycles]
        cases l with
        | nil => rfl
        | cons e l => cases e <;> simp only [List.map_cons, mute, h, Bool.and_false, Bool.false_eq_true, if_false]

/-- On a platform on which the time of an instruction depends on its requests only, the times of a portable program are always the same. -/
theorem portable_lock {s : State} {inp inp' : Nat → Input} (h : AfterReset s) (hr : s.RegisteredAck inp) (hr' : s.RegisteredAck inp')
    (hf : s.FairAck inp) (hf' : s.FairAck inp') (hi : inp 0 = inp' 0) {P : Plat k} (hp : Portable P (s.boot (inp 0)))
    (ht : ∀ n, TraceOf A F P (s.events inp 1 n)) (ht' : ∀ n, TraceOf A F P (s.events inp' 1 n))
    {c : List Event → Nat} (hc : ∀ l, c l = c (l.map mute))
    (hm : ∀ {t w m}, s.Executes inp t w m → m = idleCycles (s.run inp t).arch w (s.events inp t m) + c (s.events inp t m))
    (hm' : ∀ {t w m}, s.Executes inp' t w m → m = idleCycles (s.run inp' t).arch w (s.events inp' t m) + c (s.events inp' t m))
    {b : Nat} (h0 : ∀ t, s.Dispatching inp t → b ≤ t) (h0' : ∀ t, s.Dispatching inp' t → b ≤ t)
    (hb : s.Dispatching inp b) (hb' : s.Dispatching inp' b) :
    ∃ (T : Nat → Nat) (w : Nat → Word), (∀ t, s.Dispatching inp t ↔ ∃ n, t = T n) ∧ (∀ t, s.Dispatching inp' t ↔ ∃ n, t = T n) ∧
      ∀ n, T n < T (n + 1) ∧ s.Executes inp (T n) (w n) (T (n + 1) - T n) ∧ s.Executes inp' (T n) (w n) (T (n + 1) - T n) ∧
        (s.run inp (T n)).arch = (s.run inp' (T n)).arch ∧ (s.run inp (T n)).arch.intEnabled = false ∧
        afterOf F P (s.events inp 1 (T n - 1)) = afterOf F P (s.events inp' 1 (T n - 1)) ∧
        (s.events inp 1 (T n - 1)).map mute = (s.events inp' 1 (T n - 1)).map mute := by
  obtain ⟨T, w, h1, hq0, h2⟩ := portable_core_path S h hr hf hp ht
  obtain ⟨T', w', h1', hq0', h2'⟩ := portable_core_path S h hr' hf' (hi ▸ hp) ht'
  rw [← hi] at h2' hq0'
  have heq : ∀ n, (((s.run inp (T n)).arch, w n), afterOf F P (s.events inp 1 (T n - 1))) =
      (((s.run inp' (T' n)).arch, w' n), afterOf F P (s.events inp' 1 (T' n - 1))) := fun n =>
    Option.some.inj ((h2 n).2.2.symm.trans (h2' n).2.2)
  have mono : ∀ {T : Nat → Nat}, (∀ n, T n < T (n + 1)) → ∀ n, T 0 ≤ T n := by
    intro T hT n
    induction n with
    | zero => exact Nat.le_refl _
    | succ n ih => have := hT n; omega
  have seg : ∀ n, ((s.run inp (T n)).arch = (s.run inp' (T' n)).arch ∧ w n = w' n) ∧ (s.run inp (T n)).arch.intEnabled = false ∧
      (s.events inp (T n) (T (n + 1) - T n)).map mute = (s.events inp' (T' n) (T' (n + 1) - T' n)).map mute := by
    intro n
    have e := heq n
    have hs := (h2 (n + 1)).2.2
    rw [portableRun, (h2 n).2.2] at hs
    obtain ⟨g1, g2⟩ := portableStep_some hs
    obtain ⟨x, hpath, -⟩ := executes h hr (h2 n).2.1
    obtain ⟨x', hpath', -⟩ := executes h hr' (h2' n).2.1
    have hseg : ∀ (inp : Nat → Input) (t m : Nat), 1 ≤ t → (∀ n, TraceOf A F P (s.events inp 1 n)) →
        TraceOf A F (afterOf F P (s.events inp 1 (t - 1))) (s.events inp t m) := by
      intro inp t m ht1 hall
      have hM := hall (t - 1 + m)
      rw [State.events_add, show 1 + (t - 1) = t by omega, TraceOf.append] at hM
      exact hM.2
    have s1 := hseg inp (T n) (T (n + 1) - T n) (h2 n).2.1.1.1.1 ht
    have s2 := hseg inp' (T' n) (T' (n + 1) - T' n) (h2' n).2.1.1.1.1 ht'
    rw [Prod.mk.injEq] at e
    rw [← e.2] at s2
    rw [← e.1] at hpath'
    have key := path_mute S hpath (blind_cycle _ _) (deaf_cycle g1) s1 g2 hpath' s2
    exact ⟨by simpa using e.1, (Bool.or_eq_false_iff.1 g1).1, key⟩
  have hT : ∀ n, T n = T' n := by
    intro n
    induction n with
    | zero =>
      obtain ⟨n, hn⟩ := (h1 b).1 hb
      obtain ⟨n', hn'⟩ := (h1' b).1 hb'
      have a1 := mono (fun n => (h2 n).1) n
      have a2 := mono (fun n => (h2' n).1) n'
      have a3 := h0 _ ((h1 (T 0)).2 ⟨0, rfl⟩)
      have a4 := h0' _ ((h1' (T' 0)).2 ⟨0, rfl⟩)
      omega
    | succ n ih =>
      obtain ⟨e1, g3, key⟩ := seg n
      have l1 := hm (h2 n).2.1
      have l2 := hm' (h2' n).2.1
      rw [← e1.1, ← e1.2, idle_mute g3, ← key, ← idle_mute g3, hc, ← key, ← hc] at l2
      have := (h2 n).1
      have := (h2' n).1
      omega
  have hmu : ∀ n, (s.events inp 1 (T n - 1)).map mute = (s.events inp' 1 (T n - 1)).map mute := by
    intro n
    induction n with
    | zero =>
      obtain ⟨q, hq⟩ := Option.isSome_iff_exists.1 (hp 0)
      have := path_mute S hq0 (blind_fetch _) (deaf_fetch _) (ht _) hq hq0' (ht' _)
      rwa [← hT 0] at this
    | succ n ih =>
      have hall : ∀ inp : Nat → Input, s.events inp 1 (T (n + 1) - 1) = s.events inp 1 (T n - 1) ++ s.events inp (T n) (T (n + 1) - T n) := by
        intro inp
        have := s.events_add inp 1 (T n - 1) (T (n + 1) - T n)
        have h3 := (h2 n).2.1.1.1.1
        have h4 := (h2 n).1
        rwa [show 1 + (T n - 1) = T n by omega, show T n - 1 + (T (n + 1) - T n) = T (n + 1) - 1 by omega] at this
      have := (seg n).2.2
      rw [← hT n, ← hT (n + 1)] at this
      rw [hall, hall, List.map_append, List.map_append, ih, this]
  refine ⟨T, w, h1, fun t => by rw [h1']; exact exists_congr fun n => by rw [hT], fun n => ?_⟩
  have e := heq n
  rw [← hT n, Prod.mk.injEq, Prod.mk.injEq] at e
  have e2 := (h2' n).2.1
  rw [← hT n, ← hT (n + 1), ← e.1.2] at e2
  exact ⟨(h2 n).1, (h2 n).2.1, e2, e.1.1, (seg n).2.1, e.2, hmu n⟩

theorem portable_times {s : State} {inp inp' : Nat → Input} (h : AfterReset s) (hr : s.RegisteredAck inp) (hr' : s.RegisteredAck inp')
    (hf : s.FairAck inp) (hf' : s.FairAck inp') (hi : inp 0 = inp' 0) {P : Plat k} (hp : Portable P (s.boot (inp 0)))
    (ht : ∀ n, TraceOf A F P (s.events inp 1 n)) (ht' : ∀ n, TraceOf A F P (s.events inp' 1 n))
    {c : List Event → Nat} (hc : ∀ l, c l = c (l.map mute))
    (hm : ∀ {t w m}, s.Executes inp t w m → m = idleCycles (s.run inp t).arch w (s.events inp t m) + c (s.events inp t m))
    (hm' : ∀ {t w m}, s.Executes inp' t w m → m = idleCycles (s.run inp' t).arch w (s.events inp' t m) + c (s.events inp' t m))
    {b : Nat} (h0 : ∀ t, s.Dispatching inp t → b ≤ t) (h0' : ∀ t, s.Dispatching inp' t → b ≤ t)
    (hb : s.Dispatching inp b) (hb' : s.Dispatching inp' b) (t : Nat) : (s.Dispatching inp t ↔ s.Dispatching inp' t) ∧
      (s.Dispatching inp t → (s.run inp t).arch = (s.run inp' t).arch ∧
        afterOf F P (s.events inp 1 (t - 1)) = afterOf F P (s.events inp' 1 (t - 1))) := by
  obtain ⟨T, w, h1, h1', h2⟩ := portable_lock S h hr hr' hf hf' hi hp ht ht' hc hm hm' h0 h0' hb hb'
  refine ⟨by rw [h1, h1'], fun hd => ?_⟩
  obtain ⟨n, rfl⟩ := (h1 t).1 hd
  exact ⟨(h2 n).2.2.2.1, (h2 n).2.2.2.2.2.1⟩

end

end Sentinel
