import Verif.Proof.Rvfi
/-!
# What the RVFI harness reports
-/

set_option linter.unusedSimpArgs false

namespace Sentinel
open Ucode Spec

variable {s : State} {inp : Nat → Input} {t m : Nat} {w : Word} {r : Rvfi}

/-! ## Retirement -/

theorem inInit_iff (r : Rvfi) (hr : r.inInit = true) (s : State) (inp : Nat → Input) (T : Nat) :
    (r.run s inp T).inInit = false ↔ ∃ T', T' < T ∧ (s.run inp T').committed (inp T') = true := by
  induction T with
  | zero => simp [Rvfi.run, hr]
  | succ T ih =>
    have e : (r.run s inp (T + 1)).inInit =
      ((r.run s inp T).inInit && !(s.run inp T).committed (inp T)) := rfl
    rw [e]
    constructor
    · intro h
      cases hc : (s.run inp T).committed (inp T)
      · rw [hc] at h
        obtain ⟨T', h1, h2⟩ := ih.1 (by simpa using h)
        exact ⟨T', by omega, h2⟩
      · exact ⟨T, by omega, hc⟩
    · rintro ⟨T', h1, h2⟩
      rcases Nat.lt_or_ge T' T with hlt | hge
      · rw [ih.2 ⟨T', hlt, h2⟩]; rfl
      · have : T' = T := by omega
        subst this
        rw [h2]; simp

theorem last_of {p : Nat → Prop} (n : Nat) (h : ∃ k, k < n ∧ p k) :
    ∃ k, k < n ∧ p k ∧ ∀ j, k < j → j < n → ¬ p j := by
  classical
  induction n with
  | zero => obtain ⟨k, hk, -⟩ := h; omega
  | succ n ih =>
    by_cases hn : p n
    · exact ⟨n, by omega, hn, fun j h1 h2 => by omega⟩
    · obtain ⟨k, hk, hp⟩ := h
      have hkn : k ≠ n := by rintro rfl; exact hn hp
      obtain ⟨k', h1, h2, h3⟩ := ih ⟨k, by omega, hp⟩
      refine ⟨k', by omega, h2, fun j hj1 hj2 => ?_⟩
      rcases Nat.lt_or_ge j n with hlt | hge
      · exact h3 j hj1 hlt
      · have : j = n := by omega
        subst this; exact hn

theorem valid_iff (h : AfterReset s) (hr : s.RegisteredAck inp) (hi : r.inInit = true) (T : Nat) :
    r.validAt s inp T = true ↔ ∃ t w m, s.Executes inp t w m ∧ T + 1 = t + m := by
  have e : r.validAt s inp T = ((s.run inp T).committed (inp T) && !(r.run s inp T).inInit) := rfl
  rw [e, Bool.and_eq_true, Bool.not_eq_true', inInit_iff r hi]
  constructor
  · rintro ⟨hc, hx⟩
    obtain ⟨T', h1, h2, h3⟩ := last_of T hx
    have hd := (committed_iff h hr T').1 h2
    obtain ⟨w, -, -, hd'⟩ := at_dispatch h hr hd
    refine ⟨T' + 1, w, T - T', ⟨hd', by omega, ?_, ?_⟩, by omega⟩
    · rw [show T' + 1 + (T - T') = T + 1 by omega]; exact (committed_iff h hr T).1 hc
    · intro k hk hkm hdk
      refine h3 (T' + k) (by omega) (by omega) ((committed_iff h hr _).2 ?_)
      rw [show T' + k + 1 = T' + 1 + k by omega]; exact hdk
  · rintro ⟨t, w, m, he, hT⟩
    have h1 := last_commits h hr he
    rw [show t + m - 1 = T by omega] at h1
    have h2 := two_cycles h hr he
    exact ⟨h1, t - 1, by have := he.1.1.1; omega, first_commits h hr he.1⟩

/-! ## The decoder during an instruction -/

theorem dec_at (h : AfterReset s) (hr : s.RegisteredAck inp) (he : s.Executes inp t w m) {j : Nat}
    (hj : j < m) : (s.run inp (t + j)).dec.dst = insnRd w ∧
      (isCsrInsn w = true → (s.run inp (t + j)).dec.map.csrEncoding = csrEncode w) := by
  induction j with
  | zero =>
    obtain ⟨d0, -, -, hd⟩ := (he.1.at h hr).dec
    have hd : (s.run inp t).dec = d0.step true w := hd
    rw [Nat.add_zero, hd]
    refine ⟨rfl, fun hc => ?_⟩
    simp [DecState.step, MapState.step, hc]
  | succ j ih =>
    obtain ⟨h1, h2⟩ := ih (by omega)
    have ht := he.1.1.1
    have hc := Executes.step h hr he hj
    obtain ⟨T, hT⟩ : ∃ T, t + j = T + 1 := ⟨t + j - 1, by omega⟩
    have hdd := doDecode_iff h hr T
    rw [← hT, hc] at hdd
    have e : (s.run inp (t + (j + 1))).dec =
        (s.run inp (t + j)).dec.step ((s.run inp (t + j)).doDecode (inp (t + j))) (inp (t + j)).datR := rfl
    rw [e, hdd]
    refine ⟨h1, fun hx => ?_⟩
    simpa [DecState.step, MapState.step] using h2 hx

/-! ## Traps -/

theorem exception_none {σ : State} {i : Input} (h : σ.uop.exceptCtl = .none) : σ.exception i = false := by
  simp [State.exception, exceptionOut, h]

theorem trap_at (h : AfterReset s) (hr : s.RegisteredAck inp) (he : s.Executes inp t w m) {j : Nat}
    (hj : j < m) : (r.run s inp (t + j)).trap = (s.tallies inp t j).exc := by
  induction j with
  | zero =>
    have ht := he.1.1.1
    have hc := first_commits h hr he.1
    obtain ⟨-, hx, -⟩ := committing h hr hc
    have e : (r.run s inp (t - 1 + 1)).trap = ((s.run inp (t - 1)).exception (inp (t - 1)) ||
      ((r.run s inp (t - 1)).trap && !(s.run inp (t - 1)).committed (inp (t - 1)))) := rfl
    rw [show t - 1 + 1 = t by omega, hc, exception_none hx] at e
    rw [Nat.add_zero, e]; simp [State.tallies]
  | succ j ih =>
    have hc := Executes.step h hr he hj
    have e : (r.run s inp (t + (j + 1))).trap = ((s.run inp (t + j)).exception (inp (t + j)) ||
      ((r.run s inp (t + j)).trap && !(s.run inp (t + j)).committed (inp (t + j)))) := rfl
    rw [e, hc, ih (by omega), State.tallies_snoc]
    simp [State.tally]

theorem tallies_last (h : AfterReset s) (hr : s.RegisteredAck inp) (he : s.Executes inp t w m) :
    (s.tallies inp t m).exc = (s.tallies inp t (m - 1)).exc := by
  have hm := two_cycles h hr he
  have hc := last_commits h hr he
  obtain ⟨-, hx, -⟩ := committing h hr hc
  have e := s.tallies_snoc inp t (m - 1)
  rw [show m - 1 + 1 = m by omega, show t + (m - 1) = t + m - 1 by omega] at e
  rw [e]
  simp [State.tally, exception_none hx]

theorem trap_report (h : AfterReset s) (hr : s.RegisteredAck inp) (he : s.Executes inp t w m) :
    (r.run s inp (t + m - 1)).trap = traps (s.run inp t).arch w (s.events inp t m) := by
  obtain ⟨w', -, -, -, hx, -⟩ := executes_tally h hr he
  have hm := two_cycles h hr he
  rw [← hx, tallies_last h hr he, show t + m - 1 = t + (m - 1) by omega]
  exact trap_at h hr he (by omega)

/-- `intr` only changes when an instruction retires. -/
theorem intr_at (h : AfterReset s) (hr : s.RegisteredAck inp) (he : s.Executes inp t w m) {j : Nat}
    (hj : j < m) : (r.run s inp (t + j)).intr = (r.run s inp t).intr := by
  induction j with
  | zero => rfl
  | succ j ih =>
    have hc := Executes.step h hr he hj
    have e : (r.run s inp (t + (j + 1))).intr = if (r.run s inp (t + j)).valid (s.run inp (t + j))
      (inp (t + j)) then (r.run s inp (t + j)).trap else (r.run s inp (t + j)).intr := rfl
    rw [e]
    simp only [Rvfi.valid, hc, Bool.false_and]
    exact ih (by omega)

/-! ## Data accesses -/

theorem lastAccess_append (l l' : List Event) : lastAccess (l ++ l') =
    (lastAccess l').or (lastAccess l) := by
  simp only [lastAccess, List.filterMap_append, List.getLast?_append]

/-- What is reported about a data access. -/
def MemReport (v : Rvfi) : Option (Req × Word) → Prop
  | none => v.memRmask = 0 ∧ v.memWmask = 0
  | some (q, d) => v.memAddr = q.adr ++ 0#2 ∧ v.memRdata = d ∧
    if q.we then v.memRmask = 0 ∧ v.memWmask = q.sel ∧ v.memWdata &&& laneMask q.sel = q.data
    else v.memRmask = q.sel ∧ v.memWmask = 0

theorem mem_at (h : AfterReset s) (hr : s.RegisteredAck inp) (he : s.Executes inp t w m) {j : Nat}
    (hj : j < m) : MemReport (r.run s inp (t + j)) (lastAccess (s.events inp t j)) := by
  induction j with
  | zero =>
    have ht := he.1.1.1
    have hc := first_commits h hr he.1
    obtain ⟨-, -, -, -, hf, -⟩ := committing h hr hc
    have e : r.run s inp (t - 1 + 1) = (r.run s inp (t - 1)).step (s.run inp (t - 1)) (inp (t - 1)) := rfl
    rw [show t - 1 + 1 = t by omega] at e
    rw [Nat.add_zero, e]
    simp [State.events, lastAccess, MemReport, Rvfi.step, Rvfi.dataAck, hf, hc]
  | succ j ih =>
    have ih := ih (by omega)
    have hc := Executes.step h hr he hj
    have ht := he.1.1.1
    have e : r.run s inp (t + (j + 1)) = (r.run s inp (t + j)).step (s.run inp (t + j)) (inp (t + j)) := rfl
    rw [State.events_snoc, lastAccess_append, e]
    obtain ⟨T, hT⟩ : ∃ T, t + j = T + 1 := ⟨t + j - 1, by omega⟩
    have hcyc := run_cyc h inp T
    have hnf : (s.run inp (T + 1)).uop.insnFetch = true → (inp (T + 1)).ack = true → False := by
      intro h1 h2
      have := doDecode_iff h hr T
      rw [← hT, hc, hT] at this
      simp [State.doDecode, h1, h2] at this
    rw [hT] at ih hc ⊢
    generalize s.run inp (T + 1) = σ at *
    generalize r.run s inp (T + 1) = v at *
    generalize inp (T + 1) = i at *
    generalize lastAccess (s.events inp t j) = A at *
    have hp : lastAccess (if σ.polls = true then [Event.poll i.irq] else []) = none := by
      split <;> rfl
    have hda : Rvfi.dataAck σ i = (σ.cyc && i.ack) := by
      rw [hcyc]
      simp only [Rvfi.dataAck]
      cases h1 : σ.uop.insnFetch <;> cases h2 : i.ack <;> simp
      exact absurd (hnf h1 h2) id
    simp only [State.obs, lastAccess_append, hp, Option.none_or]
    cases hb : (σ.cyc && i.ack)
    · rw [hb] at hda
      simp only [Bool.false_eq_true, if_false]
      have : lastAccess [] = none := rfl
      rw [this, Option.none_or]
      cases A with
      | none => simpa [MemReport, Rvfi.step, hda, hc] using ih
      | some a => obtain ⟨q, d⟩ := a; simpa [MemReport, Rvfi.step, hda, hc] using ih
    · rw [hb] at hda
      simp only [if_true]
      have : lastAccess [Event.bus σ.req i.datR] = some (σ.req, i.datR) := rfl
      rw [this, Option.some_or]
      simp only [MemReport, Rvfi.step, hda, if_true, State.req]
      refine ⟨trivial, trivial, ?_⟩
      cases σ.we <;> simp

/-- The events of an instruction without its last cycle. -/
theorem events_last (h : AfterReset s) (hr : s.RegisteredAck inp) (he : s.Executes inp t w m)
    {a' : Arch} {l : List Event} (hE : s.Effect inp t m a' l) :
    s.events inp t (m - 1) = .poll (inp t).irq :: l := by
  obtain ⟨-, w', hl, -⟩ := hE
  have hm := two_cycles h hr he
  have ht := he.1.1.1
  have hc := last_commits h hr he
  obtain ⟨-, a, b, -, f, mr, ha, -⟩ := committing h hr hc
  have e := s.events_snoc inp t (m - 1)
  rw [show m - 1 + 1 = m by omega, show t + (m - 1) = t + m - 1 by omega] at e
  obtain ⟨T, hT⟩ : ∃ T, t + m - 1 = T + 1 := ⟨t + m - 2, by omega⟩
  have hcyc := run_cyc h inp T
  rw [← hT] at hcyc
  have ho : (s.run inp (t + m - 1)).obs (inp (t + m - 1)) =
      [.bus (s.run inp (t + m - 1)).req (inp (t + m - 1)).datR] := by
    simp [State.obs, State.polls, hcyc, mr, ha, a, b]
  rw [e, ho] at hl
  have := List.append_inj_left' hl rfl
  simpa using this

theorem mem_report (h : AfterReset s) (hr : s.RegisteredAck inp) (he : s.Executes inp t w m)
    {a' : Arch} {l : List Event} (hE : s.Effect inp t m a' l) :
    MemReport (r.run s inp (t + m - 1)) (lastAccess l) := by
  have hm := two_cycles h hr he
  have h1 := mem_at (r := r) h hr he (j := m - 1) (by omega)
  rw [events_last h hr he hE, show t + (m - 1) = t + m - 1 by omega] at h1
  simpa [lastAccess] using h1

end Sentinel
