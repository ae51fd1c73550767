import Verif.Proof.InterruptsSoc
/-!
# C107: the core, on a platform
-/

set_option linter.unusedSimpArgs false

namespace Sentinel
open Ucode Spec

variable {k : Nat}

/-! ## The program never asks for an address where nothing is -/

section
variable {K : Kind k}

/-- Whatever the platform answers, `T` accesses memory where something is, and ends in `Q`. -/
def WpK {α : Type} (K : Kind k) (Q : α → Plat k → Prop) : Tree α → Plat k → Prop
  | .ret x, P => Q x P
  | .poll f, P => ∀ b, WpK K Q (f b) P
  | .bus r f, P => K.mapped r.byteAdr ∧ ∀ d, K.answers P r d → WpK K Q (f d) (K.after P r)

/-- All requests of `T` are for addresses where something is. -/
def AllReq {α : Type} (K : Kind k) : Tree α → Prop
  | .ret _ => True
  | .poll f => ∀ b, AllReq K (f b)
  | .bus r f => K.mapped r.byteAdr ∧ ∀ d, AllReq K (f d)

theorem WpK.bind {α β : Type} {Q : α → Plat k → Prop} {Q' : β → Plat k → Prop} {T : Tree α} {f : α → Tree β} {P : Plat k}
    (hT : WpK K Q T P) (hf : ∀ x P, Q x P → WpK K Q' (f x) P) : WpK K Q' (T.bind f) P := by
  induction T generalizing P with
  | ret x => exact hf _ _ hT
  | poll g ih => exact fun b => ih b (hT b)
  | bus r g ih => exact ⟨hT.1, fun d hd => ih d (hT.2 d hd)⟩

theorem wpK_of_paths {α : Type} {Q : α → Plat k → Prop} {T : Tree α} {P : Plat k} (h : AllReq K T)
    (hp : ∀ l x, T.Path l x → K.Trace P l → Q x (K.afterAll P l)) : WpK K Q T P := by
  induction T generalizing P with
  | ret x => exact hp [] x (.ret x) trivial
  | poll g ih => exact fun b => ih b (h b) fun l x hl ht => hp (.poll b :: l) x (.poll hl) ht
  | bus r g ih => exact ⟨h.1, fun d hd => ih d (h.2 d) fun l x hl ht => hp (.bus r d :: l) x (.bus hl) ⟨hd, ht⟩⟩

theorem WpK.behaves {α : Type} {Q : α → Plat k → Prop} {next : α → Tree α} (hn : ∀ x P, Q x P → WpK K Q (next x) P) {T : Tree α} {P : Plat k}
    (hT : WpK K Q T P) {l : List Event} (hb : Behaves next T l) : ∀ l' r d, l = l' ++ [.bus r d] → K.Trace P l' → K.mapped r.byteAdr := by
  induction hb generalizing P with
  | stop t => intro l' r d e; simp at e
  | ret _ ih => exact ih (hn _ _ hT)
  | poll _ ih =>
    intro l' r d e ht
    cases l' with
    | nil => simp at e
    | cons e' l' =>
      obtain ⟨rfl, rfl⟩ := List.cons_eq_cons.1 e
      exact ih (hT _) l' r d rfl ht
  | bus _ ih =>
    intro l' r' d' e ht
    cases l' with
    | nil =>
      obtain ⟨h1, -⟩ := List.cons_eq_cons.1 e
      obtain ⟨rfl, -⟩ := Event.bus.inj h1
      exact hT.1
    | cons e' l' =>
      obtain ⟨rfl, rfl⟩ := List.cons_eq_cons.1 e
      exact ih (hT.2 _ ht.1) l' r' d' rfl ht.2

theorem allReq_noBus {α : Type} {T : Tree α} (h : BusFree T) : AllReq K T := by
  induction T with
  | ret x => trivial
  | poll f ih => exact fun b => ih b (h b)
  | bus r f _ => exact absurd h id

theorem allReq_exec (S : K.Std) (a : Arch) (w : Word) (h : ∀ adr, dataAdr a w = some adr → K.mapped adr.toNat) : AllReq K (exec .asBuilt a w) := by
  intro b
  beta_reduce
  split
  · trivial
  · split
    · trivial
    · next ins hd =>
      by_cases hi : ins.isAccess = true
      · cases ins <;> first | (cases hi; done) | skip
        · have := S.word _ (h _ (by simp only [dataAdr, hd]; rfl))
          simp only [execInstr]
          split
          · exact ⟨by rw [read_byteAdr]; exact this, fun _ => trivial⟩
          · trivial
        · have := S.word _ (h _ (by simp only [dataAdr, hd]; rfl))
          simp only [execInstr]
          split
          · exact ⟨by rw [write_byteAdr]; exact this, fun _ => trivial⟩
          · trivial
      · exact allReq_noBus (noBus_exec a ins (by simpa using hi))

theorem exec_polls {a a' : Arch} {w : Word} {l : List Event} (h : (exec .asBuilt a w).Path l a') : ∃ b l', l = .poll b :: l' := by
  unfold Spec.exec at h
  cases h with
  | @poll _ b l _ h => exact ⟨b, l, rfl⟩

variable {R : BitVec k → Prop} {V : Nat → Prop} {entry : Word} {I : Nat → Plat k → Prop} {P0 : Plat k} {a0 : Arch}

theorem wpK_fetch (S : K.Std) {a : Arch} {P : Plat k} (h : a.pc.toNat < 0x02000000) :
    WpK K (fun x P' => x.1 = a ∧ x.2 = P.ram.word a.pc ∧ P' = P) (fetch a) P := by
  have hp := fetch_portable.2 h
  refine ⟨S.low _ (by rw [fetch_byteAdr]; omega), fun d hd => ⟨rfl, S.std.ans hp hd rfl, ?_⟩⟩
  rw [S.std.after hp]; rfl

theorem good_start (H : SetupSoc K P0 a0 R V I entry) : a0.pc.toNat < 0x02000000 ∧ GoodSoc K P0 a0 R V I false 0 0 a0 P0 := by
  obtain ⟨q, hq, -⟩ := H.apart 0
  obtain ⟨h1, rfl⟩ := onPlat_fetch hq
  exact ⟨h1, _, hq, ⟨rfl, .inl rfl, fun _ _ => rfl, fun _ _ => rfl⟩, H.data⟩

/-- The program, with its handler, never asks for an address where nothing is. -/
theorem safe_soc (S : K.Std) (H : SetupSoc K P0 a0 R V I entry) (l : List Event) (r : Req) (d : Word)
    (hb : Behaves (cycle .asBuilt) (fetch a0) (l ++ [.bus r d])) (ht : K.Trace P0 l) : K.mapped r.byteAdr := by
  let Q : Arch × Word → Plat k → Prop := fun x P => (∃ b n c, GoodSoc K P0 a0 R V I b n c x.1 P) ∧ x.2 = P.ram.word x.1.pc
  have hfetch : ∀ a P, (∃ b n c, GoodSoc K P0 a0 R V I b n c a P) → WpK K Q (fetch a) P := by
    rintro a P ⟨b, n, c, h⟩
    have h1 := wpK_fetch (P := P) S (good_mapped H S h).1
    refine ⟨h1.1, fun d hd => ?_⟩
    obtain ⟨h2, h3, h4⟩ := h1.2 d hd
    rw [h4]
    exact ⟨⟨b, n, c, h⟩, h3⟩
  refine WpK.behaves (Q := Q) ?_ (hfetch a0 P0 ⟨_, _, _, (good_start H).2⟩) hb l r d rfl ht
  rintro ⟨a, w⟩ P ⟨⟨b, n, c, h⟩, hw⟩
  refine WpK.bind (Q := fun a P => ∃ b n c, GoodSoc K P0 a0 R V I b n c a P) ?_ hfetch
  simp only at hw h
  subst hw
  refine wpK_of_paths (allReq_exec S _ _ (good_mapped H S h).2) fun l a' hl ht => ?_
  obtain ⟨b', l', rfl⟩ := exec_polls hl
  exact good_next (l := l') H S h hl ht

end

/-! ## The core -/

/-- The word `w` is dispatched in cycle `t`, and an interrupt is taken instead of it. -/
def State.Interrupted (s : State) (inp : Nat → Input) (t : Nat) (w : Word) : Prop :=
  s.IrqTaken inp t ∨ isCsr w = true ∧ s.IrqTaken inp (t + 1)

/-- Where the core is when it dispatches an instruction in cycle `t`, counting from a dispatch in cycle `t0` on: `Thread t false n c` is in the program, `n` instructions of which
have been executed; `Thread t true n c` is in the handler, after `n` instructions of the program.  The handler has returned `c` times. -/
inductive State.Thread (s : State) (inp : Nat → Input) (t0 : Nat) : Nat → Bool → Nat → Nat → Prop
  | start : Thread s inp t0 t0 false 0 0
  | retire {t n c w m} : Thread s inp t0 t false n c → s.Executes inp t w m → ¬ s.Interrupted inp t w → Thread s inp t0 (t + m) false (n + 1) c
  | enter {t n c w m} : Thread s inp t0 t false n c → s.Executes inp t w m → s.Interrupted inp t w → Thread s inp t0 (t + m) true n c
  | inside {t n c w m} : Thread s inp t0 t true n c → s.Executes inp t w m → w ≠ mretWord → Thread s inp t0 (t + m) true n c
  | leave {t n c w m} : Thread s inp t0 t true n c → s.Executes inp t w m → w = mretWord → Thread s inp t0 (t + m) false n (c + 1)

/-- The first instruction is dispatched in cycle `t0`. -/
def State.First (s : State) (inp : Nat → Input) (t0 : Nat) : Prop := s.Dispatching inp t0 ∧ ∀ t, s.Dispatching inp t → t0 ≤ t

/-- The core on a platform that answers every request. -/
structure State.On (s : State) (inp : Nat → Input) (K : Kind k) (P : Plat k) : Prop where
  reset : AfterReset s
  ack : s.RegisteredAck inp
  fair : s.FairAck inp
  trace : ∀ n, K.Trace P (s.events inp 1 n)

section
variable {s : State} {inp : Nat → Input} {K : Kind k} {P0 : Plat k} {t0 t m n c : Nat} {w : Word}

/-- What the platform is like in cycle `t`. -/
def platAt (s : State) (inp : Nat → Input) (K : Kind k) (P0 : Plat k) (t : Nat) : Plat k := K.afterAll P0 (s.events inp 1 (t - 1))

theorem on_word (S : K.Std) (h : s.On inp K P0) (hd : s.Dispatches inp t w) (hpc : (s.run inp t).arch.pc.toNat < 0x02000000) :
    w = (platAt s inp K P0 t).ram.word (s.run inp t).arch.pc := by
  have hr := C29_state h.reset h.ack hd
  obtain ⟨l, hl⟩ := Runs.last hr
  have hM := h.trace (t - 1)
  unfold platAt
  rw [hl] at hM ⊢
  rw [kTrace_append] at hM
  rw [kAfter_append]
  have hp := fetch_portable.2 hpc
  have := S.std.ans hp hM.2.1 rfl
  show w = (K.after _ (fetchReq _)).ram.word _
  rw [S.std.after hp]
  exact this

theorem on_step (h : s.On inp K P0) (S : K.Std) (he : s.Executes inp t w m) :
    ∃ l, (exec .asBuilt (s.run inp t).arch w).Path (.poll (inp t).irq :: l) (s.run inp (t + m)).arch ∧ K.Trace (platAt s inp K P0 t) l ∧
      ((s.run inp (t + m)).arch.pc.toNat < 0x02000000 → platAt s inp K P0 (t + m) = K.afterAll (platAt s inp K P0 t) l) ∧
      (∃ w', s.events inp t m = .poll (inp t).irq :: l ++ [.bus (fetchReq (s.run inp (t + m)).arch) w']) ∧ ∃ w', s.Dispatches inp (t + m) w' := by
  have hO : OneInstr s inp t w m := ⟨h.reset, h.ack, he⟩
  obtain ⟨l, w', hp, hl, hd, l', rfl⟩ := hO.path
  have ht := he.1.1.1
  have hall := s.events_add inp 1 (t - 1) m
  rw [show 1 + (t - 1) = t by omega, show t - 1 + m = t + m - 1 by omega] at hall
  have hM := h.trace (t + m - 1)
  rw [hall, kTrace_append, hl, kTrace_append] at hM
  refine ⟨l', hp, hM.2.1, fun hpc => ?_, ⟨w', hl⟩, w', hd⟩
  unfold platAt
  rw [hall, kAfter_append, hl, kAfter_append]
  show K.after _ (fetchReq _) = _
  rw [S.std.after (fetch_portable.2 hpc)]
  rfl

/-- Whether the interrupt is taken shows in the events. -/
theorem took_iff (h : s.On inp K P0) (he : s.Executes inp t w m) {l : List Event} {w' : Word}
    (hev : s.events inp t m = .poll (inp t).irq :: l ++ [.bus (fetchReq (s.run inp (t + m)).arch) w']) :
    Took (inp t).irq (s.run inp t).arch w l ↔ s.Interrupted inp t w := by
  have hO : OneInstr s inp t w m := ⟨h.reset, h.ack, he⟩
  have h0 : ((inp t).irq && (s.run inp t).arch.intEnabled) = true ↔ s.IrqTaken inp t := by
    simp [State.IrqTaken, Arch.intEnabled]
  unfold Took State.Interrupted
  rw [h0]
  by_cases h1 : s.IrqTaken inp t
  · exact ⟨fun _ => .inl h1, fun _ => .inl h1⟩
  · refine or_congr Iff.rfl (and_congr_right fun hc => ?_)
    obtain ⟨op, rd, src, adr, hd⟩ := isCsr_some hc
    obtain ⟨l2, -, ⟨-, w2, h2, -⟩, hirq⟩ := hO.csr h1 hd
    rw [hev] at h2
    have h2 : l ++ _ = (.poll (inp (t + 1)).irq :: l2) ++ _ := (List.cons.inj h2).2
    have h2 := (List.append_inj' h2 rfl).1
    rw [hirq, h2]
    constructor
    · rintro ⟨b2, l3, e, hb⟩
      obtain ⟨e1, -⟩ := List.cons_eq_cons.1 e
      injection e1 with e1
      rw [e1]; exact hb
    · exact fun hb => ⟨_, _, rfl, hb⟩

theorem first_path (h : s.On inp K P0) (h0 : s.First inp t0) : ∃ w, (fetch (s.boot (inp 0))).Path (s.events inp 1 (t0 - 1)) ((s.run inp t0).arch, w) ∧ s.Dispatches inp t0 w := by
  obtain ⟨T, w, h1, h2, h3⟩ := dispatch_times h.reset h.ack h.fair
  have hmono : ∀ n, T 0 ≤ T n := by
    intro n
    induction n with
    | zero => exact Nat.le_refl _
    | succ n ih => have := (h3 n).2.1; omega
  obtain ⟨n, hn⟩ := (h1 t0).1 h0.1
  have := h0.2 (T 0) ((h1 _).2 ⟨0, rfl⟩)
  have := hmono n
  have e : t0 = T 0 := by omega
  rw [e]
  exact ⟨w 0, h2, (h3 0).2.2.1.1⟩

variable {R : BitVec k → Prop} {V : Nat → Prop} {entry : Word} {I : Nat → Plat k → Prop}
variable (S : K.Std) (h : s.On inp K P0) (H : SetupSoc K P0 (s.boot (inp 0)) R V I entry) (h0 : s.First inp t0)
include S h H h0

theorem soc_good {b : Bool} (hT : s.Thread inp t0 t b n c) : (∃ w, s.Dispatches inp t w) ∧
    GoodSoc K P0 (s.boot (inp 0)) R V I b n c (s.run inp t).arch (platAt s inp K P0 t) := by
  have next : ∀ {t m w b n c}, s.Executes inp t w m → GoodSoc K P0 (s.boot (inp 0)) R V I b n c (s.run inp t).arch (platAt s inp K P0 t) →
      ∃ l, (exec .asBuilt (s.run inp t).arch ((platAt s inp K P0 t).ram.word (s.run inp t).arch.pc)).Path (.poll (inp t).irq :: l) (s.run inp (t + m)).arch ∧
        K.Trace (platAt s inp K P0 t) l ∧ platAt s inp K P0 (t + m) = K.afterAll (platAt s inp K P0 t) l ∧
        (Took (inp t).irq (s.run inp t).arch ((platAt s inp K P0 t).ram.word (s.run inp t).arch.pc) l ↔ s.Interrupted inp t w) ∧
        w = (platAt s inp K P0 t).ram.word (s.run inp t).arch.pc ∧ ∃ w', s.Dispatches inp (t + m) w' := by
    intro t m w b n c he hg
    have hw := on_word S h he.1 (good_mapped H S hg).1
    obtain ⟨l, h1, h2, h3, ⟨w', h4⟩, h5⟩ := on_step h S he
    have htk := took_iff h he h4
    rw [hw] at h1 htk
    obtain ⟨b', n', c', hg'⟩ := good_next H S hg h1 h2
    rw [← hw] at htk
    exact ⟨l, h1, h2, h3 (good_mapped H S hg').1, by rw [← hw]; exact htk, hw, h5⟩
  induction hT with
  | start =>
    obtain ⟨w, h1, h2⟩ := first_path h h0
    obtain ⟨h3, h4⟩ := Tree.Path.fetch_inv h1
    obtain ⟨g1, g2⟩ := good_start H
    refine ⟨⟨w, h2⟩, ?_⟩
    have : platAt s inp K P0 t0 = P0 := by
      unfold platAt
      rw [h4]
      show K.after P0 (fetchReq _) = P0
      rw [S.std.after (fetch_portable.2 g1)]; rfl
    rw [this, show (s.run inp t0).arch = s.boot (inp 0) from h3]
    exact g2
  | retire _ he hni ih =>
    obtain ⟨l, h1, h2, h3, h4, h5, h6⟩ := next he ih.2
    exact ⟨h6, by rw [h3]; exact good_retire S H ih.2 h1 h2 (mt h4.1 hni)⟩
  | enter _ he hi ih =>
    obtain ⟨l, h1, h2, h3, h4, h5, h6⟩ := next he ih.2
    exact ⟨h6, by rw [h3]; exact good_enter H ih.2 h1 (h4.2 hi)⟩
  | inside _ he hne ih =>
    obtain ⟨l, h1, h2, h3, h4, h5, h6⟩ := next he ih.2
    exact ⟨h6, by rw [h3]; exact good_inside (l := .poll _ :: l) ih.2 h1 h2 (by rw [← h5]; exact hne)⟩
  | leave _ he he' ih =>
    obtain ⟨l, h1, h2, h3, h4, h5, h6⟩ := next he ih.2
    exact ⟨h6, by rw [h3]; exact good_leave (l := .poll _ :: l) ih.2 h1 h2 (by rw [← h5]; exact he')⟩

theorem soc_transparent (hT : s.Thread inp t0 t false n c) : ∃ q, quietRun P0 (s.boot (inp 0)) n = some q ∧
    q.1.1.Same (s.run inp t).arch ∧ s.Dispatches inp t q.1.2 ∧ (∀ i, ¬ R i → (platAt s inp K P0 t).ram i = q.2.ram i) ∧
    (∀ i, ¬ V i → (platAt s inp K P0 t).out i = q.2.out i) ∧ I c (platAt s inp K P0 t) := by
  obtain ⟨⟨w, hd⟩, hg⟩ := soc_good S h H h0 hT
  obtain ⟨q, h1, h2, h3, h4, h5, h6⟩ := good_word H hg
  have := on_word S h hd h6
  rw [h5] at this
  subst this
  exact ⟨q, h1, h2.same, hd, h2.ram, h2.out, h3⟩

theorem soc_more {b : Bool} (hT : s.Thread inp t0 t b n c) : ∃ w m, s.Executes inp t w m ∧ ∃ b' n' c', s.Thread inp t0 (t + m) b' n' c' := by
  obtain ⟨⟨w, hd⟩, -⟩ := soc_good S h H h0 hT
  obtain ⟨m, he⟩ := executes_of_fair h.reset h.ack h.fair hd
  refine ⟨w, m, he, ?_⟩
  cases b with
  | false =>
    by_cases hi : s.Interrupted inp t w
    · exact ⟨_, _, _, .enter hT he hi⟩
    · exact ⟨_, _, _, .retire hT he hi⟩
  | true =>
    by_cases hi : w = mretWord
    · exact ⟨_, _, _, .leave hT he hi⟩
    · exact ⟨_, _, _, .inside hT he hi⟩

theorem soc_thread (hd : s.Dispatching inp t) : ∃ b n c, s.Thread inp t0 t b n c := by
  have key : ∀ d u b n c, t - u = d → u ≤ t → s.Thread inp t0 u b n c → ∃ b n c, s.Thread inp t0 t b n c := by
    intro d
    induction d using Nat.strongRecOn with
    | ind d ih =>
      intro u b n c hud hut hT
      rcases Nat.eq_or_lt_of_le hut with rfl | hlt
      · exact ⟨b, n, c, hT⟩
      · obtain ⟨w', m, he, b', n', c', hT'⟩ := soc_more S h H h0 hT
        have hm := he.2.1
        by_cases hle : u + m ≤ t
        · exact ih (t - (u + m)) (by omega) _ _ _ _ rfl hle hT'
        · refine absurd ?_ (he.2.2.2 (t - u) (by omega) (by omega))
          rw [show u + (t - u) = t by omega]
          exact hd
  exact key _ t0 _ _ _ rfl (h0.2 t hd) .start

theorem soc_return (hT : s.Thread inp t0 t true n c) : ∃ t', t < t' ∧ s.Thread inp t0 t' false n (c + 1) := by
  obtain ⟨-, q, -, a1, P1, -, hR⟩ := soc_good S h H h0 hT
  generalize ha : (s.run inp t).arch = x at hR
  generalize hMm : platAt s inp K P0 t = y at hR
  induction hR generalizing t with
  | mret h1 h2 _ =>
    obtain ⟨⟨w, hd⟩, -⟩ := soc_good S h H h0 hT
    obtain ⟨m, he⟩ := executes_of_fair h.reset h.ack h.fair hd
    have hw := on_word S h hd (by rw [ha]; exact h1)
    rw [ha, hMm, h2] at hw
    exact ⟨t + m, by have := he.2.1; omega, .leave hT he hw⟩
  | step h1 h2 _ _ ih =>
    obtain ⟨⟨w, hd⟩, -⟩ := soc_good S h H h0 hT
    obtain ⟨m, he⟩ := executes_of_fair h.reset h.ack h.fair hd
    have hw := on_word S h hd (by rw [ha]; exact h1)
    rw [ha, hMm] at hw
    have hT' := State.Thread.inside hT he (by rw [hw]; exact h2)
    have hpc' := (good_mapped H S (soc_good S h H h0 hT').2).1
    obtain ⟨l, g1, g2, g3, -, -⟩ := on_step h S he
    obtain ⟨t', ht', hx⟩ := ih _ _ ⟨.poll (inp t).irq :: l, by rw [← hw, ← ha]; exact g1, by rw [← hMm]; exact g2, by rw [← hMm]; exact g3 hpc'⟩ hT' rfl rfl
    exact ⟨t', by have := he.2.1; omega, hx⟩

theorem soc_progress {b : Bool} (hT : s.Thread inp t0 t b n c) (hq : ∀ u, t ≤ u → (inp u).irq = false) (n' : Nat) (hn : n < n') :
    ∃ t' c', t < t' ∧ s.Thread inp t0 t' false n' c' := by
  obtain ⟨t1, ht1, c1, hT1⟩ : ∃ t1, t ≤ t1 ∧ ∃ c1, s.Thread inp t0 t1 false n c1 := by
    cases b with
    | false => exact ⟨t, Nat.le_refl _, c, hT⟩
    | true => obtain ⟨t', h1, h2⟩ := soc_return S h H h0 hT; exact ⟨t', by omega, _, h2⟩
  obtain ⟨d, rfl⟩ : ∃ d, n' = n + 1 + d := ⟨n' - (n + 1), by omega⟩
  clear hT hn
  have one : ∀ {t2 n c}, t ≤ t2 → s.Thread inp t0 t2 false n c → ∃ m, 0 < m ∧ s.Thread inp t0 (t2 + m) false (n + 1) c := by
    intro t2 n c hle hT2
    obtain ⟨⟨w, hd⟩, -⟩ := soc_good S h H h0 hT2
    obtain ⟨m, he⟩ := executes_of_fair h.reset h.ack h.fair hd
    refine ⟨m, by have := he.2.1; omega, .retire hT2 he ?_⟩
    rintro (⟨g, -⟩ | ⟨-, g, -⟩)
    · rw [hq _ hle] at g; cases g
    · rw [hq _ (by omega)] at g; cases g
  induction d with
  | zero =>
    obtain ⟨m, hm, hT2⟩ := one ht1 hT1
    exact ⟨t1 + m, c1, by omega, hT2⟩
  | succ d ih =>
    obtain ⟨t2, c2, ht2, hT2⟩ := ih
    obtain ⟨m, hm, hT3⟩ := one (by omega) hT2
    exact ⟨t2 + m, c2, by omega, hT3⟩

end

end Sentinel
