import Verif.Proof.AppWait
import Verif.Props.FirmwareTime
import Verif.Props.FirmwareRx
/-!
# C66: what the Rust firmware says
-/

set_option linter.unusedSimpArgs false

namespace Sentinel

open Fw

namespace Fw

theorem ghost_step (D : Nat) (p : Nat → Pins) (n : Nat) :
    (ghost D p (n + 1)).hist = (ghost D p n).hist ∨ ∃ i, (ghost D p (n + 1)).hist = (ghost D p n).hist ++ [i] := by
  have (g : Ghost) (s : Machine) (p : Pins) : (g.step s p).hist = g.hist ∨ ∃ i, (g.step s p).hist = g.hist ++ [i] := by
    unfold Ghost.step
    repeat' split
    all_goals first
      | exact .inl rfl
      | exact .inr ⟨_, rfl⟩
  exact this _ _ _

/-- An input is taken while the application looks into `RX`. -/
theorem ghost_input {D : Nat} {p : Nat → Pins} {n : Nat} {i : Input} (h : (ghost D p (n + 1)).hist = (ghost D p n).hist ++ [i]) :
    ((p n).go = true ∧ i.key = mailbox D (Machine.envs D p) n) ∧
    ((∃ d, (Machine.at_ D p n).app.pc = .look d ∧ i.press = (ghost D p n).chk) ∨ ∃ buf, (Machine.at_ D p n).app.pc = .readLook buf) := by
  have hx : ∀ {l : List Input} {j : Input}, (ghost D p n).hist ++ [j] = (ghost D p n).hist ++ [i] → j = i := by
    intro l j hj
    simpa using hj
  have h0 : ¬ (ghost D p n).hist = (ghost D p n).hist ++ [i] := by simp
  have hb : mailbox D (Machine.envs D p) n = (Machine.at_ D p n).sys.soft.rxBox := by rw [at_sys]; rfl
  rw [hb]
  change ((ghost D p n).step (Machine.at_ D p n) (p n)).hist = _ at h
  unfold Ghost.step at h
  split at h
  · rename_i hask
    have hgo : (p n).go = true := by
      unfold Machine.asks at hask
      simp only [Bool.and_eq_true] at hask
      exact hask.1.1.1.1.1
    split at h
    · exact absurd h h0
    · rename_i d hd
      have := hx (l := []) h
      subst this
      exact ⟨⟨hgo, rfl⟩, .inl ⟨d, hd, rfl⟩⟩
    · rename_i buf hd
      split at h
      · have := hx (l := []) h
        subst this
        exact ⟨⟨hgo, rfl⟩, .inr ⟨buf, hd⟩⟩
      · exact absurd h h0
    · exact absurd h h0
  · exact absurd h h0

/-- If the phase is a demonstration then the application is not reading a rule. -/
theorem demo_look {D : Nat} {p : Nat → Pins} {n : Nat} {buf : List (BitVec 8)} (h : (Machine.at_ D p n).app.pc = .readLook buf)
    {rule : BitVec 8} {style gen : Nat} (hp : (session (ghost D p n).hist).phase = .demo rule style gen) : False := by
  have hok := (appInv_at D p n).ok
  rw [h] at hok
  have := hok.1
  rw [hp] at this
  cases this

theorem explains_ghost (D : Nat) (p : Nat → Pins) : Explains D p (fun n => (ghost D p n).hist) := by
  refine ⟨rfl, ghost_step D p, fun n i hh => (ghost_input hh).1.1, ?_, ?_, ?_, ?_, ?_, ?_, ?_, ?_⟩
  · intro n
    rw [← (appInv_at D p n).text]
    exact List.prefix_append _ _
  · intro n is i hh
    exact ((appInv_at D p n).prev is i hh).1
  · intro n i hh
    exact (ghost_input hh).1.2
  · intro n
    rw [← (appInv_at D p n).keys]
    exact List.prefix_append _ _
  · intro n is i hh
    exact ((appInv_at D p n).prev is i hh).2
  · intro n hh
    have h := appInv_at D p n
    have h1 := h.text
    rw [← hh] at h1
    have h2 : utf8 ((Machine.at_ D p n).app.pc.due (session (ghost D p n).hist).phase) = [] := by
      have := congrArg List.length h1
      simp only [List.length_append] at this
      exact List.eq_nil_of_length_eq_zero (by omega)
    have hcons : ∀ (c : Char) (l : List Char), utf8 (c :: l) ≠ [] := by
      intro c l hn
      have := congrArg List.length hn
      rw [utf8_cons, List.length_append, List.length_nil] at this
      have h3 : 0 < (utf8 [c]).length := by
        simp only [utf8, List.flatMap_cons, List.flatMap_nil, List.append_nil, List.length_map]
        rw [String.length_utf8EncodeChar]
        exact Char.utf8Size_pos c
      omega
    have hnl : ∀ r, (Machine.at_ D p n).app.pc ≠ .newline r := by
      intro r hr
      rw [hr] at h2
      exact hcons _ _ h2
    refine h.led (fun x b hb => ?_) ?_
    · obtain ⟨r, hr⟩ := (h.ledIn x b hb).2
      exact hnl r hr
    · cases hpc : (Machine.at_ D p n).app.pc with
      | leds r => rw [hpc] at h2; exact absurd h2 (hcons _ _)
      | readClear buf =>
        rw [hpc] at h2
        simp only [Pc.due] at h2
        by_cases hb : buf.length < 3
        · simp [Pc.ledDue]; omega
        · rw [if_neg hb] at h2; exact absurd h2 (hcons _ _)
      | readUnlock buf =>
        rw [hpc] at h2
        simp only [Pc.due] at h2
        by_cases hb : buf.length < 3
        · simp [Pc.ledDue]; omega
        · rw [if_neg hb] at h2; exact absurd h2 (hcons _ _)
      | _ => rfl
  · intro n i rule style gen hh hp
    rcases (ghost_input hh).2 with ⟨d, hd, hc⟩ | ⟨buf, hd⟩
    · have := (wait_at D p n).sam
      rw [hd] at this
      exact ⟨this.2.2.1, by rw [hc]; exact this.2.2.2.symm⟩
    · exact absurd (demo_look hd hp) id
  · intro n i rule style gen hh hp
    rcases (ghost_input hh).2 with ⟨d, hd, hc⟩ | ⟨buf, hd⟩
    · have := (wait_at D p n).time
      rw [hd] at this
      obtain ⟨m, m1, m2, m3, m4, -, m6⟩ := this rfl
      obtain ⟨k, k1, k2, k3, -⟩ := m6 rfl
      obtain ⟨x, rfl⟩ := Nat.exists_eq_add_of_le k2
      have := C65_wait (D := D) (Machine.envs D p) m3 m2 (by decide : 2 ≤ 144) k3
      exact ⟨m, by omega, m4⟩
    · exact absurd (demo_look hd hp) id

end Fw

/-- **C66** (the conversation): for every run there is a history of inputs that explains everything that is observed. -/
theorem C66_session (D : Nat) (p : Nat → Pins) : ∃ h : Nat → List Input, Explains D p h :=
  ⟨_, explains_ghost D p⟩

/-- **C66** (at both ends of the cable): a terminal that keeps up shows what the session is to say, and the characters of
the session were typed at the keyboard, in that order, if the firmware keeps up. -/
theorem C66_terminal {D : Nat} (hD : 4 ≤ D) (p : Nat → Pins) : ∃ h : Nat → List Input, Explains D p h ∧
    (∀ take, TerminalKeepsUp D (Machine.envs D p) take → ∀ n, shown D (Machine.envs D p) take n <+: utf8 (session (h n)).said) ∧
    (∀ keys, Wired D (Machine.envs D p) keys → DriverKeepsUp D (Machine.envs D p) keys →
      ∀ n is i, h n = is ++ [i] → (keysOf is).Sublist (typed D keys n)) := by
  obtain ⟨h, hh⟩ := C66_session D p
  refine ⟨h, hh, ?_, ?_⟩
  · intro take hk n
    exact (C62_terminal hD _ hk n).1.trans (hh.said n)
  · intro keys hw hk n is i hi
    exact ((hh.keysBefore n is i hi).sublist.trans (C64_take _ n).1).trans (C64_keyboard hD _ hw hk n).2.sublist

/-- What is to be said in the beginning, and after a press of the button, a control-C, and the digits 3 and 0 and a return. -/
example : String.ofList ((session [⟨true, none⟩, ⟨false, some 3⟩, ⟨false, some 0x33⟩, ⟨false, some 0x30⟩, ⟨false, some 0x0d⟩]).said) =
    String.ofList (List.replicate 79 ' ') ++ "█\n" ++
    String.ofList (List.replicate 78 ' ') ++ "░░\n" ++
    String.ofList (List.replicate 77 ' ') ++ ".:#\n" ++
    "ctrl-c hit\nrule (default 110)? 30\r\n" ++
    String.ofList (List.replicate 79 ' ') ++ "█\n" ++
    String.ofList (List.replicate 78 ' ') ++ "░░\n" := by decide +kernel

example : (session [⟨true, none⟩, ⟨false, some 3⟩, ⟨false, some 0x33⟩, ⟨false, some 0x30⟩, ⟨false, some 0x0d⟩]).leds = 30 := by decide +kernel

end Sentinel
