import Verif.Proof.AppInv
/-!
# The wait of `do_demo`: the button and the time
-/

set_option linter.unusedSimpArgs false

namespace Sentinel.Fw

/-- `main` begins to read the port only when the application asks for it; an access ends when it is acknowledged. -/
theorem rd_quiet {D : Nat} {s : Machine} {p : Pins} (ha : s.asks p = false) :
    (s.sys.soft.main.reading = false → (s.step D p).sys.soft.main.reading = false ∧ (s.step D p).app.inp = s.app.inp) ∧
    (s.sys.soft.main.reading = true → s.sys.soft.isr = none →
      (s.step D p).sys.soft.isr = none ∧
      (s.sys.leds.ack = true ∧ (s.step D p).sys.soft.main.reading = false ∧ (s.step D p).app.inp = s.sys.leds.datR ∨
      s.sys.leds.ack = false ∧ (s.step D p).sys.soft.main = s.sys.soft.main ∧ (s.step D p).app.inp = s.app.inp)) := by
  have happ : (s.step D p).app.inp = s.input := by simp [Machine.step, ha]
  have hf : (s.step D p).sys.soft = s.sys.softNext (s.env p).act := rfl
  constructor
  · intro hr
    constructor
    · rw [hf]
      unfold Sys.softNext
      cases hac : s.sys.soft.access with
      | some a =>
        simp only
        split
        · unfold Soft.done
          cases hi' : s.sys.soft.isr with
          | some i => exact hr
          | none =>
            show s.sys.soft.main.done.reading = false
            revert hr
            generalize s.sys.soft.main = m
            cases m <;> simp [Main.done, Main.reading, Main.back]
            rename_i x _
            cases x <;> simp
        · exact hr
      | none =>
        simp only
        cases hp : (s.env p).act with
        | none => exact hr
        | some op =>
          simp only
          cases hi' : s.sys.soft.isr with
          | some i =>
            simp only
            rw [show (s.sys.soft.isrAct i).main = s.sys.soft.main by
              cases i <;> simp only [Soft.isrAct] <;> (repeat' split) <;> rfl]
            exact hr
          | none =>
            simp only
            cases he : (s.sys.soft.main.enabled && s.sys.irq)
            · have hgo : p.go = true := by
                unfold Machine.env at hp
                cases hg : p.go
                · rw [hg] at hp; cases hp
                · rfl
              unfold Machine.asks at ha
              rw [hgo, hac, hi', he] at ha
              simp only [Option.isNone_none, Bool.and_self, Bool.true_and, Bool.not_false] at ha
              simp only [Bool.false_eq_true, if_false]
              unfold Soft.mainAct
              cases hm : s.sys.soft.main with
              | app => rw [hm] at ha; simp at ha
              | locked => rw [hm] at ha; simp at ha
              | crit n b => cases n <;> simp only <;> (repeat' split) <;> rfl
              | flag n b => cases n <;> rfl
              | gpio n => rw [hm] at hr; cases hr
              | send n b => simp only [hm]; rfl
              | leds n b => simp only [hm]; rfl
              | _ => rfl
            · exact hr
    · rw [happ]
      unfold Machine.input
      revert hr
      generalize s.sys.soft.main = m
      cases s.sys.soft.isr <;> cases m <;> simp [Main.reading]
  · intro hr hi
    have hm : ∃ x, s.sys.soft.main = .gpio x := by
      revert hr
      generalize s.sys.soft.main = m
      cases m <;> simp [Main.reading]
    obtain ⟨x, hm⟩ := hm
    have hac : s.sys.soft.access = some .gpio := by simp [Soft.access, hi, hm, Main.access]
    have hr : (s.sys.reply .gpio).1 = s.sys.leds.ack := rfl
    rw [happ, hf]
    unfold Sys.softNext Machine.input
    rw [hac, hi, hm]
    simp only [hr]
    by_cases hk : s.sys.leds.ack = true
    · simp only [hk, if_true]
      refine ⟨by simp [Soft.done, hi], .inl ⟨trivial, ?_, trivial⟩⟩
      simp only [Soft.done, hi, hm, Main.done]
      cases x <;> rfl
    · simp only [hk]
      exact ⟨hi, .inr ⟨by simp, hm, rfl⟩⟩

/-- The port has been read: what the bus returns is what the pins were in the cycle before. -/
theorem read_pin {D : Nat} {e : Nat → Env} (n : Nat) (hr : (Sys.at_ D e n).soft.main.reading = true)
    (hi : (Sys.at_ D e n).soft.isr = none) (ha : (Sys.at_ D e n).leds.ack = true) :
    (Sys.at_ D e n).leds.datR = (e (n - 1)).gpioI := by
  cases n with
  | zero => cases ha
  | succ k =>
    have hl : (Sys.at_ D e (k + 1)).leds = (Sys.at_ D e k).leds.step (ledsReq (Sys.at_ D e k).soft.access) (e k).gpioI := rfl
    rw [hl] at ha ⊢
    have hs := soft_succ (D := D) (e := e) k
    -- the access was already there, and not acknowledged
    have h1 : (Sys.at_ D e k).soft.access ≠ none ∧ (Sys.at_ D e k).leds.ack = false := by
      simp only [WbLeds.step] at ha
      cases hac : (Sys.at_ D e k).soft.access with
      | none => rw [hac] at ha; simp [ledsReq] at ha
      | some a =>
        simp only [Bool.and_eq_true, Bool.not_eq_true'] at ha
        exact ⟨nofun, ha.2⟩
    obtain ⟨a, hac⟩ := Option.ne_none_iff_exists'.1 h1.1
    have hg : a = .gpio ∨ ∃ b, a = .leds b := by
      rw [hac] at ha
      cases a <;> simp [WbLeds.step, ledsReq] at ha <;> simp
    have hrep : ((Sys.at_ D e k).reply a).1 = false := by
      rcases hg with rfl | ⟨b, rfl⟩ <;> exact h1.2
    have hsame : (Sys.at_ D e (k + 1)).soft = (Sys.at_ D e k).soft := by
      rw [hs]
      unfold Sys.softNext
      rw [hac]
      simp only [hrep]
      rfl
    rw [hsame] at hr hi
    have hac' : (Sys.at_ D e k).soft.access = some .gpio := by
      unfold Soft.access
      rw [hi]
      revert hr
      generalize (Sys.at_ D e k).soft.main = m
      cases m <;> simp [Main.reading, Main.access]
    rw [hac']
    simp [WbLeds.step, ledsReq, h1.2]

/-- Bit 0 of what the port returned last. -/
abbrev App.bit (a : App) : Bool := a.inp.getLsbD 0

/-- What has been read in the wait, according to where the application is; `rd` says whether a read is going on, `S` is what
has been read. -/
def Pc.Sampled (chk : Bool) (out : List (BitVec 8)) (bit rd : Bool) (S : List Bool) : Pc → Prop
  | .zero _ => rd = false ∧ (out = [] → S = [])
  | .sample _ => out = [] ∧ rd = false ∧ S = []
  | .sampled _ => out = [] ∧ S = if rd then [] else [bit]
  | .wait _ c | .decide _ c => out = [] ∧ rd = false ∧ S ≠ [] ∧ S.all id = c
  | .poll _ => out = [] ∧ rd = false ∧ S ≠ [] ∧ S.all id = true
  | .poll2 _ => out = [] ∧ S ≠ [] ∧ S.all id = (rd || bit)
  | .polled _ v => out = [] ∧ S ≠ [] ∧ S.all id = (v.getLsbD 0 && (rd || bit))
  | .ctrl _ | .look _ => out = [] ∧ rd = false ∧ S ≠ [] ∧ S.all id = chk
  | _ => rd = false

/-- Is this place in the wait? -/
def Pc.waiting : Pc → Bool
  | .sample _ | .sampled _ | .wait _ _ | .poll _ | .poll2 _ | .polled _ _ | .decide _ _ | .ctrl _ | .look _ => true
  | _ => false

/-- Is this place after the loop of the wait? -/
def Pc.waited : Pc → Bool
  | .decide _ _ | .ctrl _ | .look _ => true
  | _ => false

/-- `COUNT` was set to 0 in cycle `m`, and nothing has been written since; if the loop is over it was at least 144 since. -/
def Timed (D : Nat) (e : Nat → Env) (n : Nat) (pc : Pc) : Prop :=
  pc.waiting = true → ∃ m ≤ n, (Sys.at_ D e m).soft.count = 0 ∧ (Sys.at_ D e m).soft.isr = none ∧
    (∀ i, m ≤ i → i ≤ n → writing D e i = none) ∧
    (pc.waited = false → ∀ i, m ≤ i → i ≤ n → (Sys.at_ D e i).soft.main.enabled = true) ∧
    (pc.waited = true → ∃ k ≤ n, m ≤ k ∧ 144 ≤ (Sys.at_ D e k).soft.count.toNat ∧
      ∀ i, m ≤ i → i ≤ k → (Sys.at_ D e i).soft.main.enabled = true)

theorem enabled_of {m : Main} (h1 : m.lk = false) (h2 : m.writing = none) (h3 : m ≠ .start) : m.enabled = true := by
  cases m <;> simp_all [Main.lk, Main.writing, Main.enabled]

theorem enabled_lk {m : Main} (h : m.enabled = true) : m.lk = false ∧ m ≠ .start := by
  cases m with
  | retry n b => cases n <;> simp_all [Main.lk, Main.enabled]
  | gpio n => cases n <;> simp_all [Main.lk, Main.enabled]
  | leds n b => cases n <;> simp_all [Main.lk, Main.enabled]
  | _ => simp_all [Main.lk, Main.enabled]

structure WaitInv (D : Nat) (p : Nat → Pins) (n : Nat) : Prop where
  isr : (Machine.at_ D p n).sys.soft.main.reading = true → (Machine.at_ D p n).sys.soft.isr = none
  sam : (Machine.at_ D p n).app.pc.Sampled (ghost D p n).chk (Machine.at_ D p n).app.out (Machine.at_ D p n).app.bit
    (Machine.at_ D p n).sys.soft.main.reading (samples D (Machine.envs D p) n)
  time : Timed D (Machine.envs D p) n (Machine.at_ D p n).app.pc

theorem wait_quiet {D : Nat} {p : Nat → Pins} {n : Nat} (h : WaitInv D p n) (ha : (Machine.at_ D p n).asks (p n) = false) :
    WaitInv D p (n + 1) := by
  have hi := main_isr_none (D := D) (e := Machine.envs D p) n
  rw [← at_sys] at hi
  obtain ⟨r1, r2⟩ := rd_quiet (D := D) ha
  have q := quiesce (D := D) hi ha
  obtain ⟨h1, h2, h3⟩ := h
  have hs : Machine.at_ D p (n + 1) = (Machine.at_ D p n).step D (p n) := rfl
  have hg : ghost D p (n + 1) = ghost D p n := by
    show (ghost D p n).step _ _ = _
    simp [Ghost.step, ha]
  have hpc : (Machine.at_ D p (n + 1)).app.pc = (Machine.at_ D p n).app.pc := by rw [hs]; simp [Machine.step, ha]
  have hout : (Machine.at_ D p (n + 1)).app.out = (Machine.at_ D p n).app.out := by rw [hs]; simp [Machine.step, ha]
  have hw : (writing D (Machine.envs D p) n) = none → writing D (Machine.envs D p) (n + 1) = none := by
    intro hw
    unfold writing at hw ⊢
    rw [← at_sys] at hw ⊢
    exact q.writing hw
  have hsam : samples D (Machine.envs D p) (n + 1) = if (writing D (Machine.envs D p) (n + 1)).isSome then [] else
      samples D (Machine.envs D p) n ++
      if (Machine.at_ D p n).sys.soft.main.reading && !(Machine.at_ D p (n + 1)).sys.soft.main.reading then [(Machine.envs D p (n - 1)).gpioI.getLsbD 0] else [] := by
    rw [at_sys, at_sys]; rfl
  refine ⟨?_, ?_, ?_⟩
  · intro hr
    cases hrd : (Machine.at_ D p n).sys.soft.main.reading with
    | false => rw [hs, (r1 hrd).1] at hr; cases hr
    | true => rw [hs]; exact (r2 hrd (h1 hrd)).1
  · rw [hg, hpc, hout]
    cases hrd : (Machine.at_ D p n).sys.soft.main.reading with
    | false =>
      obtain ⟨g1, g2⟩ := r1 hrd
      rw [← hs] at g1 g2
      rw [hrd] at h2
      rw [hsam, g1, hrd, App.bit, g2]
      simp only [Bool.false_and, Bool.false_eq_true, if_false, List.append_nil]
      cases hw' : (writing D (Machine.envs D p) (n + 1)) with
      | none => simpa using h2
      | some b =>
        have : (Machine.at_ D p n).app.pc.waiting = false := by
          by_contra hh
          obtain ⟨m, m1, m2, m3, m4, _⟩ := h3 (by simpa using hh)
          have := hw (m4 n m1 (by omega))
          rw [this] at hw'; cases hw'
        revert h2 this
        generalize (Machine.at_ D p n).app.pc = pc
        cases pc <;> simp [Pc.waiting, Pc.Sampled]
    | true =>
      have hisr := h1 hrd
      obtain ⟨_, g⟩ := r2 hrd hisr
      rw [← hs] at g
      rw [hrd] at h2
      have hwn : writing D (Machine.envs D p) n = none := by
        unfold writing
        rw [← at_sys]
        revert hrd
        generalize (Machine.at_ D p n).sys.soft.main = m
        cases m <;> simp [Main.reading, Main.writing]
      rw [hsam, hw hwn, hrd]
      simp only [Option.isSome_none, Bool.false_eq_true, if_false, Bool.true_and]
      rcases g with ⟨k1, k2, k3⟩ | ⟨k1, k2, k3⟩
      · have pin := read_pin (D := D) (e := Machine.envs D p) n (by rw [← at_sys]; exact hrd) (by rw [← at_sys]; exact hisr) (by rw [← at_sys]; exact k1)
        rw [← at_sys, ← k3] at pin
        rw [k2, App.bit, pin]
        simp only [Bool.not_false, if_true]
        revert h2
        generalize (Machine.at_ D p n).app.pc = pc
        cases pc <;> simp [-BitVec.getLsbD_eq_getElem, Pc.Sampled] <;> intros <;> simp_all [-BitVec.getLsbD_eq_getElem]
      · rw [k2, App.bit, k3, hrd]
        simp only [Bool.not_true, Bool.false_eq_true, if_false, List.append_nil]
        exact h2
  · rw [hpc]
    intro hwt
    obtain ⟨m, m1, m2, m3, m4, m5, m6⟩ := h3 hwt
    refine ⟨m, by omega, m2, m3, ?_, ?_, ?_⟩
    · intro i i1 i2
      by_cases hin : i ≤ n
      · exact m4 i i1 hin
      · have : i = n + 1 := by omega
        rw [this]; exact hw (m4 n m1 (by omega))
    · intro hnw i i1 i2
      by_cases hin : i ≤ n
      · exact m5 hnw i i1 hin
      · have hen := m5 hnw n m1 (by omega)
        have : i = n + 1 := by omega
        rw [this]
        have hw' := hw (m4 n m1 (by omega))
        unfold writing at hw'
        rw [← at_sys] at hen hw' ⊢
        exact enabled_of (by rw [hs, q.lk]; exact (enabled_lk hen).1) hw' (fun h => (enabled_lk hen).2 (q.start h))
    · intro hh
      obtain ⟨k, k1, k2⟩ := m6 hh
      exact ⟨k, by omega, k2⟩

theorem back_reading (l : Bool) : (Main.back l).reading = false := by cases l <;> rfl

theorem and_bit (v w : BitVec 8) : (v &&& (w &&& 1) != 0) = (v.getLsbD 0 && w.getLsbD 0) := by
  have h1 : ∀ v : BitVec 8, v &&& 1 = if v.getLsbD 0 then 1 else 0 := by decide +kernel
  rw [h1 w]
  cases w.getLsbD 0
  · simp
  · simp only [if_true, Bool.and_true, h1 v]
    cases v.getLsbD 0 <;> rfl

/-- A step of the application in the wait, that stays in it. -/
theorem timed_move {D : Nat} {p : Nat → Pins} {n : Nat} {pc pc' : Pc} (h : Timed D (Machine.envs D p) n pc) (hw : pc.waiting = true)
    (hw' : writing D (Machine.envs D p) (n + 1) = none)
    (hen : pc'.waited = false → (Sys.at_ D (Machine.envs D p) (n + 1)).soft.main.enabled = true)
    (hwt : pc'.waited = false → pc.waited = false)
    (hc : pc'.waited = true → pc.waited = true ∨ 144 ≤ (Sys.at_ D (Machine.envs D p) n).soft.count.toNat) :
    Timed D (Machine.envs D p) (n + 1) pc' := by
  intro _
  obtain ⟨m, m1, m2, m3, m4, m5, m6⟩ := h hw
  refine ⟨m, by omega, m2, m3, ?_, ?_, ?_⟩
  · intro i i1 i2
    by_cases hi : i ≤ n
    · exact m4 i i1 hi
    · rw [show i = n + 1 by omega]; exact hw'
  · intro h' i i1 i2
    by_cases hi : i ≤ n
    · exact m5 (hwt h') i i1 hi
    · rw [show i = n + 1 by omega]; exact hen h'
  · intro h'
    cases hx : pc.waited with
    | true =>
      obtain ⟨k, k1, k2⟩ := m6 hx
      exact ⟨k, by omega, k2⟩
    | false =>
      rcases hc h' with h'' | h''
      · rw [hx] at h''; cases h''
      · exact ⟨n, by omega, m1, h'', m5 hx⟩

theorem wait_ask {D : Nat} {p : Nat → Pins} {n : Nat} (h : WaitInv D p n) (ha : (Machine.at_ D p n).asks (p n) = true) :
    WaitInv D p (n + 1) := by
  obtain ⟨a1, a2, a3, a4⟩ := asked (D := D) ha
  have lk := (appInv_at D p n).lk
  have hisr : (Machine.at_ D p n).sys.soft.isr = none := by
    unfold Machine.asks at ha
    simp only [Bool.and_eq_true] at ha
    exact Option.isNone_iff_eq_none.1 ha.1.1.2
  obtain ⟨h1, h2, h3⟩ := h
  have hs : Machine.at_ D p (n + 1) = (Machine.at_ D p n).step D (p n) := rfl
  have happ : (Machine.at_ D p (n + 1)).app = (Machine.at_ D p n).app.next (Machine.at_ D p n).sys.soft.rxBox (Machine.at_ D p n).sys.soft.count := by
    rw [hs]; simp [Machine.step, ha]
  have hg : ghost D p (n + 1) = (ghost D p n).step (Machine.at_ D p n) (p n) := rfl
  rw [← hs] at a1
  have hw : writing D (Machine.envs D p) (n + 1) = (Machine.at_ D p (n + 1)).sys.soft.main.writing := by rw [at_sys]; rfl
  have hnr : (Machine.at_ D p n).sys.soft.main.reading = false := by rcases a3 with a3 | a3 <;> rw [a3] <;> rfl
  have hsam : samples D (Machine.envs D p) (n + 1) = if (writing D (Machine.envs D p) (n + 1)).isSome then [] else
      samples D (Machine.envs D p) n := by
    have : samples D (Machine.envs D p) (n + 1) = if (writing D (Machine.envs D p) (n + 1)).isSome then [] else
      samples D (Machine.envs D p) n ++
      if (Machine.at_ D p n).sys.soft.main.reading && !(Machine.at_ D p (n + 1)).sys.soft.main.reading then [(Machine.envs D p (n - 1)).gpioI.getLsbD 0] else [] := by
      rw [at_sys, at_sys]; rfl
    rw [this, hnr]
    simp
  have hisr' : (Machine.at_ D p (n + 1)).sys.soft.isr = none := by
    rw [a1]
    cases (Machine.at_ D p n).app.op <;> simp only [Soft.opAct] <;> (repeat' split) <;> exact hisr
  have hm0 : (Machine.at_ D p n).sys.soft.main.writing = none := by rcases a3 with a3 | a3 <;> rw [a3] <;> rfl
  rw [hnr] at h2
  suffices hh : (Machine.at_ D p (n + 1)).app.pc.Sampled (ghost D p (n + 1)).chk (Machine.at_ D p (n + 1)).app.out (Machine.at_ D p (n + 1)).app.bit
      (Machine.at_ D p (n + 1)).sys.soft.main.reading (samples D (Machine.envs D p) (n + 1)) ∧
      Timed D (Machine.envs D p) (n + 1) (Machine.at_ D p (n + 1)).app.pc from ⟨fun _ => hisr', hh.1, hh.2⟩
  cases ho : (Machine.at_ D p n).app.out with
  | cons b bs =>
    have hop : (Machine.at_ D p n).app.op = .write b := by simp [App.op, ho]
    have hn : (Machine.at_ D p n).app.next (Machine.at_ D p n).sys.soft.rxBox (Machine.at_ D p n).sys.soft.count = { (Machine.at_ D p n).app with out := bs } := by simp [App.next, ho]
    rw [hsam, hw, happ, hg, a1, hop, hn]
    simp only [Soft.opAct, Main.writing, Main.reading, Option.isSome_some, if_true]
    rw [ho] at h2
    constructor
    · show ((Machine.at_ D p n).app.pc).Sampled _ bs _ _ _
      revert h2
      generalize (Machine.at_ D p n).app.pc = pc
      cases pc <;> simp [Pc.Sampled]
    · intro hwt
      exfalso
      revert h2 hwt
      show _ → (Machine.at_ D p n).app.pc.waiting = true → _
      generalize (Machine.at_ D p n).app.pc = pc
      cases pc <;> simp [Pc.Sampled, Pc.waiting]
  | nil =>
    rw [ho] at h2
    have hmain : ∀ (hh : (Machine.at_ D p n).app.pc.lk = false), (Machine.at_ D p n).sys.soft.main = .app := by
      intro hh
      rw [← lk] at hh
      rcases a3 with a3 | a3
      · exact a3
      · rw [a3] at hh; cases hh
    have hnw : ∀ b, (Machine.at_ D p n).app.op ≠ .write b := by
      intro b
      unfold App.op
      rw [ho]
      cases (Machine.at_ D p n).app.pc <;> nofun
    have hw' : writing D (Machine.envs D p) (n + 1) = none := by
      rw [hw, a1]
      revert hnw
      cases (Machine.at_ D p n).app.op <;> intro hnw <;> simp only [Soft.opAct] <;> (repeat' split) <;>
        first | exact hm0 | rfl | exact absurd rfl (hnw _)
    have hr' : (Machine.at_ D p (n + 1)).sys.soft.main.reading = match (Machine.at_ D p n).app.op with | .readGpio => true | _ => false := by
      rw [a1]
      cases (Machine.at_ D p n).app.op <;> simp only [Soft.opAct] <;> (repeat' split) <;>
        first | exact hnr | rfl
    have hen' : (Machine.at_ D p n).app.pc.lk = false → (Machine.at_ D p n).app.op = .other ∨ (Machine.at_ D p n).app.op = .readGpio →
        (Sys.at_ D (Machine.envs D p) (n + 1)).soft.main.enabled = true := by
      intro hl hh
      rw [← at_sys, a1]
      have := hmain hl
      rcases hh with hh | hh <;> rw [hh] <;> simp [Soft.opAct, this, Main.lk] <;> rfl
    rw [hw'] at hsam
    simp only [Option.isSome_none, Bool.false_eq_true, if_false] at hsam
    rw [hr', hsam, hg, happ]
    cases hpc : (Machine.at_ D p n).app.pc with
    | zero d =>
      rw [hpc] at h2 h3
      have hop : (Machine.at_ D p n).app.op = .zeroCount := by simp [App.op, ho, hpc]
      have hn : (Machine.at_ D p n).app.next (Machine.at_ D p n).sys.soft.rxBox (Machine.at_ D p n).sys.soft.count = { (Machine.at_ D p n).app with pc := .sample d } := by simp [App.next, ho, hpc]
      have a1' : (Machine.at_ D p (n + 1)).sys.soft = { (Machine.at_ D p n).sys.soft with count := 0 } := by rw [a1, hop]; rfl
      rw [hop, hn]
      refine ⟨⟨ho, rfl, h2.2 rfl⟩, fun _ => ⟨n + 1, by omega, by rw [← at_sys, a1'], by rw [← at_sys]; exact hisr', ?_, ?_, nofun⟩⟩
      · intro i i1 i2
        rw [show i = n + 1 by omega]
        exact hw'
      · intro _ i i1 i2
        rw [show i = n + 1 by omega, ← at_sys, a1', hmain (by rw [hpc]; rfl)]
        rfl
    | sample d =>
      rw [hpc] at h2 h3
      have hop : (Machine.at_ D p n).app.op = .readGpio := by simp [App.op, ho, hpc]
      rw [hop, show (Machine.at_ D p n).app.next (Machine.at_ D p n).sys.soft.rxBox (Machine.at_ D p n).sys.soft.count = { (Machine.at_ D p n).app with pc := .sampled d } by simp [App.next, ho, hpc]]
      exact ⟨⟨ho, h2.2.2⟩, timed_move h3 rfl hw' (fun _ => hen' (by rw [hpc]; rfl) (.inr hop)) (fun _ => rfl) nofun⟩
    | sampled d =>
      rw [hpc] at h2 h3
      have hop : (Machine.at_ D p n).app.op = .other := by simp [App.op, ho, hpc]
      rw [hop, show (Machine.at_ D p n).app.next (Machine.at_ D p n).sys.soft.rxBox (Machine.at_ D p n).sys.soft.count = { (Machine.at_ D p n).app with pc := .wait d ((Machine.at_ D p n).app.inp &&& 1 != 0) } by simp [App.next, ho, hpc]]
      have hS : samples D (Machine.envs D p) n = [(Machine.at_ D p n).app.bit] := h2.2
      refine ⟨⟨ho, rfl, by rw [hS]; simp, ?_⟩, timed_move h3 rfl hw' (fun _ => hen' (by rw [hpc]; rfl) (.inl hop)) (fun _ => rfl) nofun⟩
      rw [hS, App.bit]
      generalize (Machine.at_ D p n).app.inp = v
      revert v; decide +kernel
    | wait d c =>
      rw [hpc] at h2 h3
      have hop : (Machine.at_ D p n).app.op = .other := by simp [App.op, ho, hpc]
      obtain ⟨g1, g2, g3, g4⟩ := h2
      rw [hop]
      by_cases hc : (Machine.at_ D p n).sys.soft.count.toNat < 144
      · cases c with
        | true =>
          rw [show (Machine.at_ D p n).app.next (Machine.at_ D p n).sys.soft.rxBox (Machine.at_ D p n).sys.soft.count = { (Machine.at_ D p n).app with pc := .poll d } by simp [App.next, ho, hpc, hc]]
          exact ⟨⟨ho, rfl, g3, g4⟩, timed_move h3 rfl hw' (fun _ => hen' (by rw [hpc]; rfl) (.inl hop)) (fun _ => rfl) nofun⟩
        | false =>
          rw [show (Machine.at_ D p n).app.next (Machine.at_ D p n).sys.soft.rxBox (Machine.at_ D p n).sys.soft.count = { (Machine.at_ D p n).app with pc := .wait d false } by simp [App.next, ho, hpc, hc]]
          exact ⟨⟨ho, rfl, g3, g4⟩, timed_move h3 rfl hw' (fun _ => hen' (by rw [hpc]; rfl) (.inl hop)) (fun _ => rfl) nofun⟩
      · rw [show (Machine.at_ D p n).app.next (Machine.at_ D p n).sys.soft.rxBox (Machine.at_ D p n).sys.soft.count = { (Machine.at_ D p n).app with pc := .decide d c } by simp [App.next, ho, hpc, hc]]
        exact ⟨⟨ho, rfl, g3, g4⟩, timed_move h3 rfl hw' (fun _ => hen' (by rw [hpc]; rfl) (.inl hop)) (fun _ => rfl)
          (fun _ => .inr (by rw [← at_sys]; omega))⟩
    | poll d =>
      rw [hpc] at h2 h3
      have hop : (Machine.at_ D p n).app.op = .readGpio := by simp [App.op, ho, hpc]
      rw [hop, show (Machine.at_ D p n).app.next (Machine.at_ D p n).sys.soft.rxBox (Machine.at_ D p n).sys.soft.count = { (Machine.at_ D p n).app with pc := .poll2 d } by simp [App.next, ho, hpc]]
      exact ⟨⟨ho, h2.2.2⟩, timed_move h3 rfl hw' (fun _ => hen' (by rw [hpc]; rfl) (.inr hop)) (fun _ => rfl) nofun⟩
    | poll2 d =>
      rw [hpc] at h2 h3
      have hop : (Machine.at_ D p n).app.op = .readGpio := by simp [App.op, ho, hpc]
      rw [hop, show (Machine.at_ D p n).app.next (Machine.at_ D p n).sys.soft.rxBox (Machine.at_ D p n).sys.soft.count = { (Machine.at_ D p n).app with pc := .polled d (Machine.at_ D p n).app.inp } by simp [App.next, ho, hpc]]
      exact ⟨⟨ho, h2.2.1, by rw [h2.2.2]; simp⟩, timed_move h3 rfl hw' (fun _ => hen' (by rw [hpc]; rfl) (.inr hop)) (fun _ => rfl) nofun⟩
    | polled d v =>
      rw [hpc] at h2 h3
      have hop : (Machine.at_ D p n).app.op = .other := by simp [App.op, ho, hpc]
      rw [hop, show (Machine.at_ D p n).app.next (Machine.at_ D p n).sys.soft.rxBox (Machine.at_ D p n).sys.soft.count = { (Machine.at_ D p n).app with pc := .wait d (v &&& ((Machine.at_ D p n).app.inp &&& 1) != 0) } by simp [App.next, ho, hpc]]
      refine ⟨⟨ho, rfl, h2.2.1, ?_⟩, timed_move h3 rfl hw' (fun _ => hen' (by rw [hpc]; rfl) (.inl hop)) (fun _ => rfl) nofun⟩
      rw [h2.2.2, App.bit, Bool.false_or]
      generalize (Machine.at_ D p n).app.inp = w
      exact (and_bit v w).symm
    | decide d c =>
      rw [hpc] at h2 h3
      have hop : (Machine.at_ D p n).app.op = .other := by simp [App.op, ho, hpc]
      rw [hop, show (Machine.at_ D p n).app.next (Machine.at_ D p n).sys.soft.rxBox (Machine.at_ D p n).sys.soft.count = { (Machine.at_ D p n).app with pc := .ctrl (if c then { d with style := (d.style + 1) % 4 } else d) } by simp [App.next, ho, hpc]]
      refine ⟨⟨ho, rfl, h2.2.2.1, ?_⟩, timed_move h3 rfl hw' (fun _ => hen' (by rw [hpc]; rfl) (.inl hop)) nofun (fun _ => .inl rfl)⟩
      rw [h2.2.2.2]
      simp [Ghost.step, ha, ho, hpc]
    | ctrl d =>
      rw [hpc] at h2 h3
      have hop : (Machine.at_ D p n).app.op = .lock := by simp [App.op, ho, hpc]
      rw [hop, show (Machine.at_ D p n).app.next (Machine.at_ D p n).sys.soft.rxBox (Machine.at_ D p n).sys.soft.count = { (Machine.at_ D p n).app with pc := .look d } by simp [App.next, ho, hpc]]
      refine ⟨⟨ho, rfl, h2.2.2.1, ?_⟩, timed_move h3 rfl hw' nofun nofun (fun _ => .inl rfl)⟩
      rw [h2.2.2.2]
      simp [Ghost.step, ha, ho, hpc]
    | readLook buf =>
      rw [show (Machine.at_ D p n).app.op = .other by simp [App.op, ho, hpc]]
      cases hr : (Machine.at_ D p n).sys.soft.rxBox <;> simp only [App.next, ho, hpc] <;> exact ⟨rfl, nofun⟩
    | look d =>
      rw [show (Machine.at_ D p n).app.op = .other by simp [App.op, ho, hpc]]
      cases hr : (Machine.at_ D p n).sys.soft.rxBox <;> simp only [App.next, ho, hpc] <;> exact ⟨rfl, nofun⟩
    | unlock d c =>
      rw [show (Machine.at_ D p n).app.op = .unlock by simp [App.op, ho, hpc]]
      cases c <;> simp only [App.next, ho, hpc] <;> exact ⟨rfl, nofun⟩
    | readUnlock buf =>
      rw [show (Machine.at_ D p n).app.op = .unlock by simp [App.op, ho, hpc]]
      by_cases hb : buf.length < 3 <;> simp only [App.next, ho, hpc, hb, if_true, if_false] <;> exact ⟨rfl, nofun⟩
    | row d =>
      rw [show (Machine.at_ D p n).app.op = .other by simp [App.op, ho, hpc]]
      simp only [App.next, ho, hpc]
      refine ⟨⟨rfl, fun h => ?_⟩, nofun⟩
      exfalso
      revert h
      simp only [demoRow]
      intro h
      have := congrArg List.length h
      simp [encodeUtf8] at this
    | _ =>
      simp only [App.op, App.next, ho, hpc]
      exact ⟨rfl, nofun⟩

theorem wait_at (D : Nat) (p : Nat → Pins) (n : Nat) : WaitInv D p n := by
  induction n with
  | zero => exact ⟨nofun, rfl, nofun⟩
  | succ n ih =>
    cases ha : (Machine.at_ D p n).asks (p n)
    · exact wait_quiet ih ha
    · exact wait_ask ih ha

end Sentinel.Fw
