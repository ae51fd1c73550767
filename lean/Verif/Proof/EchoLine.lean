import Verif.Proof.EchoRun
/-!
# The echo on a line (C108)
-/

set_option linter.unusedSimpArgs false

namespace Sentinel.AttoCsr
open Spec Echo
open Clock (at_)

variable {k D : Nat} {s : AttoCsr k} {p : Nat → AttoIn} {t m : Nat}

/-! ### The receive interrupt -/

/-- The receive interrupt is pending. -/
abbrev flag (s : AttoCsr k) (D : Nat) (p : Nat → AttoIn) (n : Nat) : Bool := (s.run D p n).ser.rxIrq

/-- A character appears. -/
def Rises (s : AttoCsr k) (D : Nat) (p : Nat → AttoIn) (n : Nat) : Prop := (s.run D p n).ser.rx.rdy = true ∧ (s.run D p n).ser.rxPrev = false

theorem flag_succ (n : Nat) : flag s D p (n + 1) = true ↔ Rises s D p n ∨ ((s.serStbs D p n).irqStb = false ∧ flag s D p n = true) := by
  show ((s.run D p n).ser.step D (s.serStbs D p n) (p n).rx).rxIrq = true ↔ _
  simp only [CsrSerial.step, Rises, flag]
  cases (s.run D p n).ser.rx.rdy <;> cases (s.run D p n).ser.rxPrev <;> cases (s.serStbs D p n).irqStb <;> simp

theorem flag_keep {n n' : Nat} (hn : n ≤ n') (h1 : flag s D p n = true) (h2 : ∀ j, n ≤ j → j < n' → (s.serStbs D p j).irqStb = false) :
    flag s D p n' = true := by
  obtain ⟨j, rfl⟩ := Nat.exists_eq_add_of_le hn
  clear hn
  induction j with
  | zero => exact h1
  | succ j ih => exact (flag_succ (n + j)).2 (.inr ⟨h2 _ (by omega) (by omega), ih fun i a c => h2 i a (by omega)⟩)

theorem flag_low {n n' : Nat} (hn : n ≤ n') (h1 : flag s D p n = false) (h2 : ∀ j, n ≤ j → j < n' → ¬ Rises s D p j) :
    flag s D p n' = false := by
  obtain ⟨j, rfl⟩ := Nat.exists_eq_add_of_le hn
  clear hn
  induction j with
  | zero => exact h1
  | succ j ih =>
    rw [Bool.eq_false_iff]
    intro hx
    rcases (flag_succ (n + j)).1 hx with g | g
    · exact h2 _ (by omega) (by omega) g
    · rw [ih fun i a c => h2 i a (by omega)] at g; cases g.2

/-! ### Where the program is -/

/-- It has seen no character. -/
def Quiet (a : Arch) : Prop := at_ a = 0 ∨ at_ a = 1 ∨ at_ a = 6 ∨ (at_ a = 2 ∧ (a.reg 1).getLsbD 0 = false) ∨ (at_ a = 3 ∧ a.reg 1 = 0)

/-- It has seen one, and not fetched it yet. -/
def Hit (a : Arch) : Prop := (at_ a = 2 ∧ (a.reg 1).getLsbD 0 = true) ∨ (at_ a = 3 ∧ a.reg 1 ≠ 0) ∨ at_ a = 4

/-- Instructions until it has fetched one. -/
def mt (a : Arch) : Nat :=
  if at_ a = 4 then 1 else if at_ a = 3 then (if a.reg 1 = 0 then 5 else 2) else if at_ a = 2 then (if (a.reg 1).getLsbD 0 then 3 else 6)
  else if at_ a = 1 then 4 else if at_ a = 5 then 6 else 5

theorem mt_le (a : Arch) : 1 ≤ mt a ∧ mt a ≤ 6 := by unfold mt; split_ifs <;> omega

theorem mt2t {a : Arch} (e : at_ a = 2) (e' : (a.reg 1).getLsbD 0 = true) : mt a = 3 := by
  unfold mt; rw [if_neg (by omega), if_neg (by omega), if_pos e, if_pos e']
theorem mt2f {a : Arch} (e : at_ a = 2) (e' : (a.reg 1).getLsbD 0 = false) : mt a = 6 := by
  unfold mt; rw [if_neg (by omega), if_neg (by omega), if_pos e, if_neg (by rw [e']; decide)]
theorem mt3z {a : Arch} (e : at_ a = 3) (e' : a.reg 1 = 0) : mt a = 5 := by
  unfold mt; rw [if_neg (by omega), if_pos e, if_pos e']
theorem mt3n {a : Arch} (e : at_ a = 3) (e' : a.reg 1 ≠ 0) : mt a = 2 := by
  unfold mt; rw [if_neg (by omega), if_pos e, if_neg e']
theorem mt1 {a : Arch} (e : at_ a = 1) : mt a = 4 := by simp [mt, e]
theorem mt4 {a : Arch} (e : at_ a = 4) : mt a = 1 := by simp [mt, e]

theorem and_one (x : Word) : x &&& 1 = 0 ↔ x.getLsbD 0 = false := by
  show x &&& 1#32 = 0#32 ↔ _
  rw [BitVec.and_one_eq_setWidth_ofBool_getLsbD]
  cases x.getLsbD 0 <;> decide

theorem quiet_next (K : Kind s D p t m) (hq : Quiet (s.run D p t).cpu.arch) (h1 : at_ (s.run D p t).cpu.arch ≠ 1) :
    Quiet (s.run D p (t + m)).cpu.arch ∧ mt (s.run D p (t + m)).cpu.arch + 1 ≤ mt (s.run D p t).cpu.arch := by
  rcases hq with e | e | e | ⟨e, e'⟩ | ⟨e, e'⟩
  · have := K.k0 e
    exact ⟨.inr (.inl this), by simp [mt, e, this]⟩
  · exact absurd e h1
  · have := K.k6 e
    exact ⟨.inr (.inl this), by simp [mt, e, this]⟩
  · obtain ⟨g1, g2⟩ := K.k2 e
    have g3 : (s.run D p (t + m)).cpu.arch.reg 1 = 0 := by rw [g2, and_one]; exact e'
    exact ⟨.inr (.inr (.inr (.inr ⟨g1, g3⟩))), by rw [mt2f e e', mt3z g1 g3]⟩
  · have := K.k3 e
    rw [if_pos e'] at this
    exact ⟨.inr (.inl this), by rw [mt3z e e', mt1 this]⟩

theorem poll_next (K : Kind s D p t m) (h1 : at_ (s.run D p t).cpu.arch = 1) : ∃ u, t ≤ u ∧ u < t + m ∧
    (∀ v, t ≤ v → v < t + m → ((s.serStbs D p v).irqStb = true ↔ v = u)) ∧
    (flag s D p u = false → Quiet (s.run D p (t + m)).cpu.arch) ∧
    (flag s D p u = true → Hit (s.run D p (t + m)).cpu.arch ∧ mt (s.run D p (t + m)).cpu.arch + 1 ≤ mt (s.run D p t).cpu.arch) := by
  obtain ⟨g1, u, g2, g3, g4, g5⟩ := K.k1 h1
  refine ⟨u, g2, g3, g4, fun hf => ?_, fun hf => ?_⟩
  · exact .inr (.inr (.inr (.inl ⟨g1, g5.trans hf⟩)))
  · have e : ((s.run D p (t + m)).cpu.arch.reg 1).getLsbD 0 = true := g5.trans hf
    exact ⟨.inl ⟨g1, e⟩, by rw [mt1 h1, mt2t g1 e]⟩

theorem hit_next (K : Kind s D p t m) (hh : Hit (s.run D p t).cpu.arch) (h4 : at_ (s.run D p t).cpu.arch ≠ 4) :
    Hit (s.run D p (t + m)).cpu.arch ∧ mt (s.run D p (t + m)).cpu.arch + 1 ≤ mt (s.run D p t).cpu.arch := by
  rcases hh with ⟨e, e'⟩ | ⟨e, e'⟩ | e
  · obtain ⟨g1, g2⟩ := K.k2 e
    have g3 : (s.run D p (t + m)).cpu.arch.reg 1 ≠ 0 := by rw [g2, Ne, and_one, e']; decide
    exact ⟨.inr (.inl ⟨g1, g3⟩), by rw [mt2t e e', mt3n g1 g3]⟩
  · have := K.k3 e
    rw [if_neg e'] at this
    exact ⟨.inr (.inr this), by rw [mt3n e e', mt4 this]⟩
  · exact absurd e h4

theorem quiet_or (K : Kind s D p t m) : Quiet (s.run D p t).cpu.arch ∨ Hit (s.run D p t).cpu.arch ∨ at_ (s.run D p t).cpu.arch = 5 := by
  have := K.lt
  unfold Quiet Hit
  by_cases e2 : at_ (s.run D p t).cpu.arch = 2
  · cases ((s.run D p t).cpu.arch.reg 1).getLsbD 0 <;> simp [e2]
  by_cases e3 : at_ (s.run D p t).cpu.arch = 3
  · simp only [e3]; simp; exact Classical.em _
  omega

section
variable (h : s.AfterReset) (hM : HoldsProgram s.ram.mem echoProgram)

theorem echo_start (h : s.AfterReset) : EchoInv s.ram.mem (s.run D p 5).cpu.arch s.plat [] := by
  obtain ⟨h1, h2, -⟩ := C01_trace h.cpu (registered (D := D) (p := p) h) 0
  rw [← run_cpu] at h1 h2
  exact ⟨rfl, 0, by decide, h1, h2, by omega⟩

include h hM

/-- If an interrupt is pending, or has been seen, the character is fetched soon. -/
theorem takes_soon {N : Nat} : ∀ {t : Nat} {w : Word}, AtC (EchoInv s.ram.mem) s D p t w → mt (s.run D p t).cpu.arch ≤ N →
    (Hit (s.run D p t).cpu.arch ∨ flag s D p t = true) → ∃ u, t ≤ u ∧ u < t + 73 * N ∧ (s.serStbs D p u).rStb = true := by
  induction N with
  | zero =>
    intro t w ha hmu hi
    have := mt_le (s.run D p t).cpu.arch
    omega
  | succ N ih =>
    intro t w ha hmu hi
    obtain ⟨m, hs⟩ := stepC_of (echo_ok hM) h (echo_start h) ha
    have K := kind h hs
    have hle := hs.le
    obtain ⟨w', ha'⟩ := hs.next
    have go : (Hit (s.run D p (t + m)).cpu.arch ∨ flag s D p (t + m) = true) → mt (s.run D p (t + m)).cpu.arch + 1 ≤ mt (s.run D p t).cpu.arch →
        ∃ u, t ≤ u ∧ u < t + 73 * (N + 1) ∧ (s.serStbs D p u).rStb = true := by
      intro g1 g2
      obtain ⟨u, u1, u2, u3⟩ := ih ha' (by omega) g1
      exact ⟨u, by omega, by omega, u3⟩
    by_cases h4 : at_ (s.run D p t).cpu.arch = 4
    · obtain ⟨-, u, u1, u2, u3, -⟩ := K.k4 h4
      exact ⟨u, u1, by omega, (u3 u u1 u2).2 rfl⟩
    by_cases hH : Hit (s.run D p t).cpu.arch
    · obtain ⟨g1, g2⟩ := hit_next K hH h4
      exact go (.inl g1) g2
    have hf : flag s D p t = true := hi.resolve_left hH
    by_cases h1 : at_ (s.run D p t).cpu.arch = 1
    · obtain ⟨u, u1, u2, u3, -, u5⟩ := poll_next K h1
      obtain ⟨g1, g2⟩ := u5 (flag_keep u1 hf fun j a c => by
        rw [Bool.eq_false_iff]
        intro hx
        have := (u3 j a (by omega)).1 hx
        omega)
      exact go (.inl g1) g2
    have hf' := flag_keep (n' := t + m) (by omega) hf (K.noIrq h1)
    rcases quiet_or K with hq | hq | h5
    · exact go (.inr hf') (quiet_next K hq h1).2
    · exact absurd hq hH
    · obtain ⟨g1, -⟩ := K.k5 h5
      exact go (.inr hf') (by simp [mt, g1, h5])

/-- A character that appears is fetched within 512 cycles. -/
theorem takes_prompt {n : Nat} (hn : 7 ≤ n) (hr : Rises s D p n) : ∃ u, n ≤ u ∧ u ≤ n + 512 ∧ (s.serStbs D p u).rStb = true := by
  have hf : flag s D p (n + 1) = true := (flag_succ n).2 (.inl hr)
  obtain ⟨t0, w0, d0, hle, ha0, -⟩ := progC_first' (echo_ok hM) h (echo_start (D := D) (p := p) h)
  obtain ⟨t1, m, hs, -, c1, c2⟩ := cover (echo_ok hM) h (echo_start h) (Q := fun _ => True) ha0 trivial (fun _ _ _ _ => trivial)
    (show t0 ≤ n + 1 by omega)
  have K := kind h hs
  have hm := hs.le
  obtain ⟨w, ha⟩ := hs.next
  have hmt := mt_le (s.run D p (t1 + m)).cpu.arch
  have harm : Hit (s.run D p (t1 + m)).cpu.arch ∨ flag s D p (t1 + m) = true := by
    by_cases h1 : at_ (s.run D p t1).cpu.arch = 1
    · obtain ⟨u, u1, u2, u3, -, u5⟩ := poll_next K h1
      by_cases hu : n + 1 ≤ u
      · refine .inl (u5 (flag_keep hu hf fun j a c => ?_)).1
        rw [Bool.eq_false_iff]
        intro hx
        have := (u3 j (by omega) (by omega)).1 hx
        omega
      · refine .inr (flag_keep (by omega) hf fun j a c => ?_)
        rw [Bool.eq_false_iff]
        intro hx
        have := (u3 j (by omega) (by omega)).1 hx
        omega
    · exact .inr (flag_keep (by omega) hf fun j a c => K.noIrq h1 j (by omega) c)
  obtain ⟨u, u1, u2, u3⟩ := takes_soon h hM (N := 6) ha hmt.2 harm
  exact ⟨u, by omega, by omega, u3⟩


variable {l : Line} {b : Nat → BitVec 8}

omit h hM in
/-- When characters appear, in terms of the receiver's history. -/
theorem rises_iff (h : s.AfterReset) (n : Nat) : Rises s D p n ↔ 1 ≤ n ∧
    ((UartRx.reset 8).run D (fun j => (p j).rx) (fun j => (s.serStbs D p j).rStb) (n - 1)).rdy = false ∧
    ((UartRx.reset 8).run D (fun j => (p j).rx) (fun j => (s.serStbs D p j).rStb) n).rdy = true := by
  have e := fun n => (C73_devices h D p n).2.2.1
  unfold Rises
  cases n with
  | zero =>
    rw [e]
    simp [CsrSerial.run, CsrSerial.reset]
  | succ n =>
    have e1 : (s.run D p (n + 1)).ser.rxPrev = (s.run D p n).ser.rx.rdy := rfl
    rw [e1, e, e, CsrSerial.rx_run, CsrSerial.rx_run, Nat.add_sub_cancel]
    simp only [Nat.le_add_left, true_and]
    exact And.comm

/-- The echo takes each character before the next one begins. -/
theorem echo_taken (hD : 2 ≤ D) (hl : l.Levels 8 fun j => (p j).rx) (hf : l.Fits 8 D)
    (hgap : ∀ j, l.sent (j + 1) → l.edge j 0 + 10 * D + 600 ≤ l.edge (j + 1) 0) : l.Taken 8 D fun j => (s.serStbs D p j).rStb := by
  have step : ∀ j, l.sent (j + 1) → Line.Ready 8 D (fun j => (p j).rx) (fun j => (s.serStbs D p j).rStb) (l.edge j 0) →
      ∃ a, l.done 8 D j ≤ a ∧ a ≤ l.edge (j + 1) 0 ∧ (s.serStbs D p a).rStb = true := by
    intro j hj r
    have g := Line.got_of_ready hD hf hl (hl.order j hj).1 r
    have hg := hgap j hj
    have hdn : l.done 8 D j = l.edge j 0 + (2 + D / 2 + (8 + 1) * D) := rfl
    obtain ⟨u, u1, u2, u3⟩ := takes_prompt h hM (D := D) (p := p) (n := l.done 8 D j) (by omega) ((rises_iff h _).2
      ⟨by omega, g.quiet _ (by omega) (by omega), (g.after _ (Nat.le_refl _) fun _ => by omega).2.2.2.2.2 fun i a c => by omega⟩)
    exact ⟨u, u1, by omega, u3⟩
  have ready : ∀ j, l.sent j → Line.Ready 8 D (fun j => (p j).rx) (fun j => (s.serStbs D p j).rStb) (l.edge j 0) := by
    intro j
    induction j with
    | zero => exact fun _ => Line.ready_zero hf hl
    | succ j ih =>
      intro hj
      have hj' := (hl.order j hj).1
      exact Line.ready_succ hf hl hj (Line.got_of_ready hD hf hl hj' (ih hj')) (step j hj (ih hj'))
  exact fun j hj => step j hj (ready j (hl.order j hj).1)

end

/-! ### The history -/

/-- The first `c` characters have been sent back, in the cycles `ws`, and nothing else. -/
structure Hist (l : Line) (b : Nat → BitVec 8) (s : AttoCsr k) (D : Nat) (p : Nat → AttoIn) (c : Nat) (ws : Nat → Nat) (t : Nat) : Prop where
  each : ∀ i < c, l.sent i ∧ l.done 8 D i < ws i ∧ ws i < l.done 8 D i + 584 ∧ ws i < t ∧ (s.serStbs D p (ws i)).wData = b i
  all : ∀ w < t, (s.serStbs D p w).wStb = true ↔ ∃ i < c, w = ws i

theorem Hist.next {l : Line} {b : Nat → BitVec 8} {c : Nat} {ws : Nat → Nat} (H : Hist l b s D p c ws t)
    (hn : ∀ u, t ≤ u → u < t + m → (s.serStbs D p u).wStb = false) : Hist l b s D p c ws (t + m) := by
  refine ⟨fun i hi => ?_, fun w hw => ?_⟩
  · obtain ⟨h1, h2, h3, h4, h5⟩ := H.each i hi
    exact ⟨h1, h2, h3, by omega, h5⟩
  · by_cases e : w < t
    · exact H.all w e
    · rw [hn w (by omega) hw]
      simp only [Bool.false_eq_true, false_iff]
      rintro ⟨i, hi, rfl⟩
      exact e (H.each i hi).2.2.2.1

theorem Hist.send {l : Line} {b : Nat → BitVec 8} {c : Nat} {ws : Nat → Nat} (H : Hist l b s D p c ws t) {u : Nat} (u1 : t ≤ u) (u2 : u < t + m)
    (hu : ∀ v, t ≤ v → v < t + m → ((s.serStbs D p v).wStb = true ↔ v = u)) (h1 : l.sent c) (h2 : l.done 8 D c < u)
    (h3 : u < l.done 8 D c + 584) (h4 : (s.serStbs D p u).wData = b c) :
    Hist l b s D p (c + 1) (fun i => if i = c then u else ws i) (t + m) := by
  refine ⟨fun i hi => ?_, fun w hw => ?_⟩
  · by_cases e : i = c
    · subst e
      rw [if_pos rfl]
      exact ⟨h1, h2, h3, u2, h4⟩
    · rw [if_neg e]
      obtain ⟨g1, g2, g3, g4, g5⟩ := H.each i (by omega)
      exact ⟨g1, g2, g3, by omega, g5⟩
  · by_cases e : w < t
    · rw [H.all w e]
      constructor
      · rintro ⟨i, hi, rfl⟩
        exact ⟨i, by omega, by rw [if_neg (by omega)]⟩
      · rintro ⟨i, hi, hw'⟩
        by_cases ei : i = c
        · rw [if_pos ei] at hw'; omega
        · rw [if_neg ei] at hw'; exact ⟨i, by omega, hw'⟩
    · rw [hu w (by omega) hw]
      constructor
      · rintro rfl
        exact ⟨c, by omega, by rw [if_pos rfl]⟩
      · rintro ⟨i, hi, hw'⟩
        by_cases ei : i = c
        · rw [if_pos ei] at hw'; exact hw'
        · rw [if_neg ei] at hw'
          have := (H.each i (by omega)).2.2.2.1
          omega

/-- Where the echo is with character `c`. -/
inductive Phase (l : Line) (b : Nat → BitVec 8) (s : AttoCsr k) (D : Nat) (p : Nat → AttoIn) (c t : Nat) : Prop
  | wait (h1 : Quiet (s.run D p t).cpu.arch) (h2 : flag s D p t = false) (h3 : l.sent c → t ≤ l.done 8 D c)
  | pend (h1 : Quiet (s.run D p t).cpu.arch) (h2 : flag s D p t = true) (h3 : l.sent c) (h4 : l.done 8 D c < t)
      (h5 : ∀ j, l.done 8 D c ≤ j → j < t → (s.serStbs D p j).rStb = false) (h6 : t + 73 * mt (s.run D p t).cpu.arch ≤ l.done 8 D c + 511)
  | seen (h1 : Hit (s.run D p t).cpu.arch) (h2 : flag s D p t = false) (h3 : l.sent c) (h4 : l.done 8 D c < t)
      (h5 : ∀ j, l.done 8 D c ≤ j → j < t → (s.serStbs D p j).rStb = false) (h6 : t + 73 * mt (s.run D p t).cpu.arch ≤ l.done 8 D c + 511)
  | have_ (h1 : at_ (s.run D p t).cpu.arch = 5) (h2 : flag s D p t = false) (h3 : l.sent c) (h4 : l.done 8 D c < t)
      (h5 : ((s.run D p t).cpu.arch.reg 2).setWidth 8 = b c) (h6 : t ≤ l.done 8 D c + 511)

def Good (l : Line) (b : Nat → BitVec 8) (s : AttoCsr k) (D : Nat) (p : Nat → AttoIn) (t : Nat) : Prop :=
  ∃ c ws, Hist l b s D p c ws t ∧ Phase l b s D p c t

section
variable {l : Line} {b : Nat → BitVec 8}
  (h : s.AfterReset) (hM : HoldsProgram s.ram.mem echoProgram) (hD : 2 ≤ D)
  (hl : l.Levels 8 fun j => (p j).rx) (hf : l.Fits 8 D)
  (hgap : ∀ j, l.sent (j + 1) → l.edge j 0 + 10 * D + 600 ≤ l.edge (j + 1) 0)
include hl hgap

theorem done_gap {i j : Nat} (hij : i < j) (hj : l.sent j) : l.done 8 D i + 10 * D + 600 ≤ l.done 8 D j := by
  have one : ∀ i, l.sent (i + 1) → l.done 8 D i + 10 * D + 600 ≤ l.done 8 D (i + 1) := fun i hi => by
    have := hgap i hi
    unfold Line.done; omega
  induction j with
  | zero => omega
  | succ j ih =>
    have g := one j hj
    by_cases e : i = j
    · rw [e]; exact g
    · have := ih (by omega) (hl.order j hj).1
      omega

include h hM hD hf

theorem rises_done (n : Nat) : Rises s D p n ↔ ∃ j, l.sent j ∧ n = l.done 8 D j := by
  have hT := echo_taken h hM hD hl hf hgap
  obtain ⟨h1, -⟩ := C100_receive hD hl hf hT
  rw [rises_iff h]
  constructor
  · rintro ⟨g1, g2, g3⟩
    obtain ⟨j, hj, e⟩ := (h1 (n - 1)).1 ⟨g2, by rw [show n - 1 + 1 = n by omega]; exact g3⟩
    exact ⟨j, hj, by omega⟩
  · rintro ⟨j, hj, e⟩
    have hdn : l.done 8 D j = l.edge j 0 + (2 + D / 2 + (8 + 1) * D) := rfl
    have := (h1 (n - 1)).2 ⟨j, hj, by omega⟩
    rw [show n - 1 + 1 = n by omega] at this
    exact ⟨by omega, this⟩

theorem good_step (hb : ∀ j, l.sent j → l.char j = byteBits (b j)) (t m : Nat) (hs : StepC (EchoInv s.ram.mem) EchoStep s D p t m)
    (hG : Good l b s D p t) : Good l b s D p (t + m) := by
  have hT := echo_taken h hM hD hl hf hgap
  have R := rises_done h hM hD hl hf hgap
  have K := kind h hs
  have hle := hs.le
  have hpos := hs.pos
  obtain ⟨c, ws, H, hP⟩ := hG
  have gap := fun {i j} (hij : i < j) hj => done_gap (D := D) hl hgap (i := i) (j := j) hij hj
  have old : ∀ i < c, l.done 8 D i < t := fun i hi => by have := H.each i hi; omega
  -- after character `c` nothing appears for some time
  have calm : l.sent c → ∀ n, l.done 8 D c < n → n < l.done 8 D c + 600 → ¬ Rises s D p n := by
    intro hc n h1 h2 hr
    obtain ⟨j, hj, rfl⟩ := (R n).1 hr
    rcases Nat.lt_trichotomy j c with e | e | e
    · have := gap e hc; omega
    · subst e; omega
    · have := gap e hj; omega
  have mtb := mt_le (s.run D p (t + m)).cpu.arch
  have mta := mt_le (s.run D p t).cpu.arch
  have ne4 : Quiet (s.run D p t).cpu.arch → at_ (s.run D p t).cpu.arch ≠ 4 := by
    rintro (e | e | e | ⟨e, -⟩ | ⟨e, -⟩) <;> omega
  have ne5 : Quiet (s.run D p t).cpu.arch → at_ (s.run D p t).cpu.arch ≠ 5 := by
    rintro (e | e | e | ⟨e, -⟩ | ⟨e, -⟩) <;> omega
  cases hP with
  | wait h1 h2 h3 =>
    have H' := H.next (K.noSend (ne5 h1))
    have nd := K.noData (ne4 h1)
    refine ⟨c, ws, H', ?_⟩
    by_cases hc : l.sent c ∧ l.done 8 D c < t + m
    · obtain ⟨hc, hcm⟩ := hc
      have hct := h3 hc
      have up : flag s D p (l.done 8 D c + 1) = true := (flag_succ _).2 (.inl ((R _).2 ⟨c, hc, rfl⟩))
      have low : ∀ n, t ≤ n → n ≤ l.done 8 D c → flag s D p n = false := fun n g1 g2 => by
        refine flag_low g1 h2 fun j a e hr => ?_
        obtain ⟨i, hi, rfl⟩ := (R j).1 hr
        rcases Nat.lt_trichotomy i c with g | g | g
        · have := old i g; omega
        · subst g; omega
        · have := gap g hi; omega
      have nt : ∀ j, l.done 8 D c ≤ j → j < t + m → (s.serStbs D p j).rStb = false := fun j a e => nd j (by omega) e
      by_cases e1 : at_ (s.run D p t).cpu.arch = 1
      · obtain ⟨u, u1, u2, u3, u4, u5⟩ := poll_next K e1
        have only : ∀ j, t ≤ j → j < t + m → j ≠ u → (s.serStbs D p j).irqStb = false := fun j a e g => by
          rw [Bool.eq_false_iff]; intro hx; exact g ((u3 j a e).1 hx)
        by_cases hu : u ≤ l.done 8 D c
        · exact .pend (u4 (low u u1 hu)) (flag_keep (by omega) up fun j a e => only j (by omega) e (by omega)) hc hcm nt (by omega)
        · have hfu : flag s D p u = true := flag_keep (by omega) up fun j a e => only j (by omega) (by omega) (by omega)
          have hfu' : flag s D p (u + 1) = false := by
            rw [Bool.eq_false_iff]
            intro hx
            rcases (flag_succ u).1 hx with g | g
            · exact calm hc u (by omega) (by omega) g
            · rw [(u3 u u1 u2).2 rfl] at g; cases g.1
          exact .seen (u5 hfu).1 (flag_low (by omega) hfu' fun j a e => calm hc j (by omega) (by omega)) hc hcm nt (by omega)
      · exact .pend (quiet_next K h1 e1).1 (flag_keep (by omega) up fun j a e => K.noIrq e1 j (by omega) e) hc hcm nt (by omega)
    · have low : ∀ n, t ≤ n → n ≤ t + m → flag s D p n = false := fun n g1 g2 => by
        refine flag_low g1 h2 fun j a e hr => ?_
        obtain ⟨i, hi, rfl⟩ := (R j).1 hr
        rcases Nat.lt_trichotomy i c with g | g | g
        · have := old i g; omega
        · subst g; exact hc ⟨hi, by omega⟩
        · have hcs := Line.sent_mono hl g.le hi
          have := gap g hi
          exact hc ⟨hcs, by omega⟩
      refine .wait ?_ (low _ (by omega) (Nat.le_refl _)) fun hcs => by
        by_contra hx
        exact hc ⟨hcs, by omega⟩
      by_cases e1 : at_ (s.run D p t).cpu.arch = 1
      · obtain ⟨u, u1, u2, u3, u4, u5⟩ := poll_next K e1
        exact u4 (low u u1 (by omega))
      · exact (quiet_next K h1 e1).1
  | pend h1 h2 h3 h4 h5 h6 =>
    have H' := H.next (K.noSend (ne5 h1))
    have nd := K.noData (ne4 h1)
    have nt : ∀ j, l.done 8 D c ≤ j → j < t + m → (s.serStbs D p j).rStb = false := fun j a e => by
      by_cases g : j < t
      · exact h5 j a g
      · exact nd j (by omega) e
    refine ⟨c, ws, H', ?_⟩
    by_cases e1 : at_ (s.run D p t).cpu.arch = 1
    · obtain ⟨u, u1, u2, u3, u4, u5⟩ := poll_next K e1
      have only : ∀ j, t ≤ j → j < t + m → j ≠ u → (s.serStbs D p j).irqStb = false := fun j a e g => by
        rw [Bool.eq_false_iff]; intro hx; exact g ((u3 j a e).1 hx)
      have hfu : flag s D p u = true := flag_keep u1 h2 fun j a e => only j a (by omega) (by omega)
      have hfu' : flag s D p (u + 1) = false := by
        rw [Bool.eq_false_iff]
        intro hx
        rcases (flag_succ u).1 hx with g | g
        · exact calm h3 u (by omega) (by omega) g
        · rw [(u3 u u1 u2).2 rfl] at g; cases g.1
      obtain ⟨g1, g2⟩ := u5 hfu
      exact .seen g1 (flag_low (by omega) hfu' fun j a e => calm h3 j (by omega) (by omega)) h3 (by omega) nt (by omega)
    · obtain ⟨g1, g2⟩ := quiet_next K h1 e1
      exact .pend g1 (flag_keep (by omega) h2 (K.noIrq e1)) h3 (by omega) nt (by omega)
  | seen h1 h2 h3 h4 h5 h6 =>
    have ne5 : at_ (s.run D p t).cpu.arch ≠ 5 := by
      rcases h1 with ⟨e, -⟩ | ⟨e, -⟩ | e <;> omega
    have H' := H.next (K.noSend ne5)
    have low : flag s D p (t + m) = false := flag_low (by omega) h2 fun j a e => calm h3 j (by omega) (by omega)
    refine ⟨c, ws, H', ?_⟩
    by_cases e4 : at_ (s.run D p t).cpu.arch = 4
    · obtain ⟨g1, u, u1, u2, u3, u4⟩ := K.k4 e4
      refine .have_ g1 low h3 (by omega) ?_ (by rw [mt4 e4] at h6; omega)
      rw [u4, (C73_devices h D p u).2.2.1]
      refine (C100_csr hD hb hl hf hT).2.1 c u h3 (by omega) fun j a e => ?_
      by_cases g : j < t
      · exact h5 j a g
      · rw [Bool.eq_false_iff]
        intro hx
        have := (u3 j (by omega) (by omega)).1 hx
        omega
    · obtain ⟨g1, g2⟩ := hit_next K h1 e4
      have nd := K.noData e4
      exact .seen g1 low h3 (by omega) (fun j a e => by
        by_cases g : j < t
        · exact h5 j a g
        · exact nd j (by omega) e) (by omega)
  | have_ h1 h2 h3 h4 h5 h6 =>
    obtain ⟨g1, u, u1, u2, u3, u4⟩ := K.k5 h1
    refine ⟨c + 1, _, H.send u1 u2 u3 h3 (by omega) (by omega) (u4.trans h5), .wait (.inr (.inr (.inl g1)))
      (flag_low (by omega) h2 fun j a e => calm h3 j (by omega) (by omega)) fun hc => ?_⟩
    have := gap (Nat.lt_succ_self c) hc
    show _ ≤ l.done 8 D (c + 1)
    have e : l.done 8 D c.succ = l.done 8 D (c + 1) := rfl
    omega

/-- In every cycle, what has been sent back. -/
theorem good_all (hb : ∀ j, l.sent j → l.char j = byteBits (b j)) {n : Nat} (hn : 7 ≤ n) :
    ∃ t m, StepC (EchoInv s.ram.mem) EchoStep s D p t m ∧ Good l b s D p t ∧ t ≤ n ∧ n < t + m := by
  obtain ⟨t0, w0, d0, ha0, hev0, harch⟩ := progC_first (echo_ok hM) h (echo_start (D := D) (p := p) h)
  have hle : t0 ≤ 7 := by
    by_contra hx
    obtain ⟨l, hl⟩ := first_poll h (dispatch_seven (D := D) (p := p) h) (show 0 < t0 - 7 by omega)
    rw [show t0 - 1 = 6 + (t0 - 7) by omega, State.events_add, hl] at hev0
    have : Event.poll (s.run D p 7).irq ∈ [Event.bus (fetchReq (s.run D p 5).cpu.arch) d0] := by rw [← hev0]; simp
    simp at this
  refine cover (echo_ok hM) h (echo_start h) (Q := Good l b s D p) ha0 ?_ (good_step h hM hD hl hf hgap hb) (by omega)
  obtain ⟨hpc0, -⟩ := C01_trace h.cpu (registered (D := D) (p := p) h) 0
  rw [← run_cpu] at hpc0
  have hz : ∀ w < t0, (s.serStbs D p w).wStb = false := by
    intro w hw
    have hq : (s.run D p w).bus.w = none := by
      by_contra hx
      obtain ⟨h1, hc⟩ := (C73_strobes (D := D) (p := p) (t := w) h).2 hx
      have h5 := (C73_access h hc).1
      by_cases e : w + 4 < t0
      · have := comp_mem (t := 1) (m := t0 - 1) (by omega) (by omega) hc
        rw [hev0] at this
        simp only [List.mem_cons, Event.bus.injEq, List.not_mem_nil, or_false] at this
        have h3 := hc.periph
        rw [this.1, fetch_ram (by rw [hpc0]; decide)] at h3
        cases h3
      · have := ((C73_access h hc).2 (t0 - (w - 1)) (by omega)).1
        rw [show w + 4 - 5 + (t0 - (w - 1)) = t0 by omega, dispatch_cyc ha0.disp.1] at this
        cases this
    simp [serStbs, serStb, written, hq]
  have hflag : flag s D p t0 = false := by
    refine flag_low (Nat.zero_le _) ?_ fun j _ e hr => ?_
    · show (s.run D p 0).ser.rxIrq = false
      rw [(C73_devices h D p 0).2.2.1]; rfl
    · obtain ⟨i, hi, rfl⟩ := (rises_done h hM hD hl hf hgap j).1 hr
      unfold Line.done at e; omega
  have hq : Quiet (s.run D p t0).cpu.arch := .inl (by rw [harch, at_, hpc0]; rfl)
  refine ⟨0, id, ⟨nofun, fun w hw => by rw [hz w hw]; simp⟩, .wait hq hflag fun _ => ?_⟩
  unfold Line.done; omega

end
end Sentinel.AttoCsr
