import Verif.Proof.App
import Verif.Props.FirmwareLive
/-!
# The application of the Rust firmware in the system
-/

set_option linter.unusedSimpArgs false

namespace Sentinel.Fw

theorem at_sys (D : Nat) (p : Nat → Pins) (n : Nat) : (Machine.at_ D p n).sys = Sys.at_ D (Machine.envs D p) n := by
  induction n with
  | zero => rfl
  | succ n ih =>
    show (Machine.at_ D p n).sys.step D _ = (Sys.at_ D (Machine.envs D p) n).step D _
    rw [ih]
    rfl

/-- Is `main` in a critical section, apart from those of `write_char`? -/
def Main.lk : Main → Bool
  | .start | .app => false
  | .locked => true
  | .retry n _ | .crit n _ | .send n _ | .flag n _ | .gpio n | .leds n _ => n

theorem back_lk (n : Bool) : (Main.back n).lk = n := by cases n <;> rfl

theorem not_enabled_of_lk {m : Main} (h : m.lk = true) : m.enabled = false := by
  cases m <;> simp_all [Main.lk, Main.enabled]

theorem done_lk (m : Main) : m.done.lk = m.lk := by
  cases m <;> simp only [Main.done, back_lk] <;> rfl

theorem done_writing {m : Main} (h : m.writing = none) : m.done.writing = none := by
  cases m <;> simp only [Main.done, back_writing] <;> first | rfl | cases h

/-- What a clock that is no step of the application leaves alone. -/
structure Quiesce (s s' : Sys) : Prop where
  writing : s.soft.main.writing = none → s'.soft.main.writing = none
  lk : s'.soft.main.lk = s.soft.main.lk
  rx : s.soft.main.lk = true → s'.soft.rxBox = s.soft.rxBox
  ledIn : ∀ n b, s'.soft.main = .leds n b → s.soft.main = .leds n b
  ledOut : ∀ n b, s.soft.main = .leds n b → s'.soft.main = .leds n b ∨ s'.leds.leds = b
  led : (∀ n b, s.soft.main ≠ .leds n b) → s'.leds.leds = s.leds.leds
  start : s'.soft.main = .start → s.soft.main = .start

theorem leds_keep (s : WbLeds) (f : Soft) (g : BitVec 8) (h : ∀ n b, f.main ≠ .leds n b) :
    (s.step (ledsReq f.access) g).leds = s.leds := by
  have : ∀ b, f.access ≠ some (.leds b) := by
    intro b
    unfold Soft.access
    cases f.isr with
    | some i => cases i <;> simp [Isr.access]
    | none =>
      generalize f.main = m at h
      cases m <;> simp [Main.access]
      exact absurd rfl (h _ _)
  unfold WbLeds.step
  generalize f.access = a at this
  cases a with
  | none => simp [ledsReq]
  | some a => cases a <;> simp [ledsReq] ; exact absurd rfl (this _)

theorem leds_stay {s : Sys} {act : Option Op} (hi : s.soft.main.enabled = false → s.soft.isr = none) {n : Bool} {b : BitVec 8}
    (h : s.soft.main = .leds n b) : (s.softNext act).main = .leds n b ∨
      ((s.softNext act).main = Main.back n ∧ s.soft.access = some (.leds b) ∧ s.leds.ack = true) := by
  unfold Sys.softNext
  cases hs : s.soft.isr with
  | some i =>
    left
    unfold Soft.access
    rw [hs]
    cases i <;> simp only [Isr.access]
    all_goals first
      | (split <;> simp [Soft.done, hs, h])
      | (cases act with
         | none => exact h
         | some op => simp only [Soft.isrAct]; repeat' split
                      all_goals exact h)
  | none =>
    have : s.soft.access = some (.leds b) := by simp [Soft.access, hs, h, Main.access]
    rw [this]
    have hr : (s.reply (.leds b)).1 = s.leds.ack := rfl
    simp only [hr]
    by_cases hk : s.leds.ack = true
    · right; simp [Soft.done, hs, h, Main.done, hk]
    · left; simp only [hk]; exact h

theorem quiesce {D : Nat} {s : Machine} {p : Pins} (hi : s.sys.soft.main.enabled = false → s.sys.soft.isr = none)
    (h : s.asks p = false) : Quiesce s.sys (s.step D p).sys := by
  have hs : (s.step D p).sys = s.sys.step D (s.env p) := rfl
  have hl : (s.sys.step D (s.env p)).leds = s.sys.leds.step (ledsReq s.sys.soft.access) p.gpioI := rfl
  have hf : (s.sys.step D (s.env p)).soft = s.sys.softNext (s.env p).act := rfl
  -- the shape of the main thread and of `RX`
  have key : ((s.sys.softNext (s.env p).act).main = s.sys.soft.main ∨ (s.sys.softNext (s.env p).act).main = s.sys.soft.main.done ∨
      (s.sys.soft.main.writing = none → (s.sys.softNext (s.env p).act).main.writing = none) ∧
        (s.sys.softNext (s.env p).act).main.lk = s.sys.soft.main.lk ∧ (∀ n b, (s.sys.softNext (s.env p).act).main ≠ .leds n b) ∧
        (s.sys.softNext (s.env p).act).main ≠ .start) ∧
      (s.sys.soft.main.lk = true → (s.sys.softNext (s.env p).act).rxBox = s.sys.soft.rxBox) := by
    unfold Sys.softNext
    cases ha : s.sys.soft.access with
    | some a =>
      simp only
      split
      · unfold Soft.done
        cases hi' : s.sys.soft.isr with
        | some i => exact ⟨.inl rfl, fun _ => rfl⟩
        | none => exact ⟨.inr (.inl rfl), fun _ => rfl⟩
      · exact ⟨.inl rfl, fun _ => rfl⟩
    | none =>
      simp only
      cases hp : (s.env p).act with
      | none => exact ⟨.inl rfl, fun _ => rfl⟩
      | some op =>
        simp only
        cases hi' : s.sys.soft.isr with
        | some i =>
          refine ⟨.inl ?_, fun hk => absurd (hi (not_enabled_of_lk hk)) (by rw [hi']; simp)⟩
          cases i <;> simp only [Soft.isrAct] <;> (repeat' split) <;> rfl
        | none =>
          simp only
          cases he : (s.sys.soft.main.enabled && s.sys.irq)
          · simp only [Bool.false_eq_true, if_false]
            have hgo : p.go = true := by
              unfold Machine.env at hp
              cases hg : p.go
              · rw [hg] at hp; cases hp
              · rfl
            unfold Machine.asks at h
            rw [hgo, ha, hi', he] at h
            simp only [Option.isNone_none, Bool.and_self, Bool.true_and, Bool.not_false] at h
            unfold Soft.mainAct
            cases hm : s.sys.soft.main with
            | app => rw [hm] at h; simp at h
            | locked => rw [hm] at h; simp at h
            | start => exact ⟨.inr (.inr ⟨fun _ => rfl, rfl, nofun, nofun⟩), fun _ => rfl⟩
            | retry n b => exact ⟨.inr (.inr ⟨nofun, rfl, nofun, nofun⟩), fun _ => rfl⟩
            | crit n b =>
              simp only
              split
              · split
                · refine ⟨.inr (.inr ⟨fun _ => back_writing n, back_lk n, ?_, ?_⟩), fun _ => rfl⟩
                  · cases n <;> intro _ _ h <;> cases h
                  · cases n <;> nofun
                · exact ⟨.inr (.inr ⟨nofun, rfl, nofun, nofun⟩), fun _ => rfl⟩
              · exact ⟨.inr (.inr ⟨nofun, rfl, nofun, nofun⟩), fun _ => rfl⟩
            | flag n b =>
              refine ⟨.inr (.inr ⟨fun _ => back_writing n, back_lk n, ?_, ?_⟩), fun _ => rfl⟩
              · cases n <;> intro _ _ h <;> cases h
              · cases n <;> nofun
            | send n b => exact ⟨.inl hm, fun _ => rfl⟩
            | gpio n => exact ⟨.inl hm, fun _ => rfl⟩
            | leds n b => exact ⟨.inl hm, fun _ => rfl⟩
          · exact ⟨.inl rfl, fun _ => rfl⟩
  obtain ⟨k1, k2⟩ := key
  rw [hs]
  refine ⟨?_, ?_, ?_, ?_, ?_, ?_, ?_⟩
  · intro hw
    rw [hf]
    rcases k1 with k | k | k
    · rw [k]; exact hw
    · rw [k]; exact done_writing hw
    · exact k.1 hw
  · rw [hf]
    rcases k1 with k | k | k
    · rw [k]
    · rw [k]; exact done_lk _
    · exact k.2.1
  · rw [hf]; exact k2
  · intro n b hm
    rw [hf] at hm
    rcases k1 with k | k | k
    · rw [← k]; exact hm
    · rw [k] at hm
      generalize s.sys.soft.main = m at hm
      cases m <;> simp [Main.done, Main.back] at hm
      all_goals (split at hm <;> cases hm)
    · exact absurd hm (k.2.2.1 _ _)
  · intro n b hm
    rw [hf, hl]
    rcases leds_stay (act := (s.env p).act) hi hm with g | ⟨g1, g2, g3⟩
    · exact .inl g
    · right
      rw [g2]
      simp [WbLeds.step, ledsReq, g3]
  · intro hm
    rw [hl]
    exact leds_keep _ _ _ hm
  · intro hm
    rw [hf] at hm
    rcases k1 with k | k | k
    · rw [← k]; exact hm
    · rw [k] at hm
      generalize s.sys.soft.main = m at hm
      cases m <;> simp [Main.done, Main.back] at hm ⊢
      all_goals (split at hm <;> cases hm)
    · exact absurd hm k.2.2.2

/-- What a step of the application does in the system. -/
theorem asked {D : Nat} {s : Machine} {p : Pins} (h : s.asks p = true) :
    (s.step D p).sys.soft = s.sys.soft.opAct s.sys.soft.main.lk s.app.op ∧ (s.step D p).sys.leds.leds = s.sys.leds.leds ∧
      (s.sys.soft.main = .app ∨ s.sys.soft.main = .locked) ∧ (s.env p).act = some s.app.op := by
  unfold Machine.asks at h
  simp only [Bool.and_eq_true, Bool.not_eq_true'] at h
  obtain ⟨⟨⟨⟨h1, h2⟩, h3⟩, h4⟩, h5⟩ := h
  have hm : s.sys.soft.main = .app ∨ s.sys.soft.main = .locked := by
    generalize s.sys.soft.main = m at h5
    cases m <;> simp at h5 <;> simp
  have hp : (s.env p).act = some s.app.op := by simp [Machine.env, h1]
  refine ⟨?_, ?_, hm, hp⟩
  · show s.sys.softNext (s.env p).act = _
    unfold Sys.softNext
    rw [Option.isNone_iff_eq_none] at h2 h3
    rw [h2, hp, h3]
    simp only [h4, Bool.false_eq_true, if_false]
    unfold Soft.mainAct
    rcases hm with hm | hm <;> rw [hm] <;> rfl
  · exact leds_keep _ _ _ (by rcases hm with hm | hm <;> rw [hm] <;> nofun)

end Sentinel.Fw
