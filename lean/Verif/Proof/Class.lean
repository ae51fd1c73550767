import Verif.Proof.Instr
/-!
# The effect of an instruction, by decoding
-/

set_option linter.unusedSimpArgs false

namespace Sentinel
open Ucode Spec

variable {s : State} {inp : Nat → Input} {t m : Nat} {w : Word}

theorem State.events_head (h : s.Dispatching inp t) (hm : 0 < m) :
    ∃ l, s.events inp t m = .poll (inp t).irq :: l := by
  obtain ⟨m', rfl⟩ : ∃ m', m = m' + 1 := ⟨m - 1, by omega⟩
  exact ⟨_, by simp only [State.events, State.obs_dispatch (by rw [← rom_01]; exact h.2)]; rfl⟩

theorem OneInstr.path (h : OneInstr s inp t w m) :
    ∃ l w', (exec .asBuilt (s.run inp t).arch w).Path l (s.run inp (t + m)).arch ∧
      s.events inp t m = l ++ [.bus (fetchReq (s.run inp (t + m)).arch) w'] ∧
      s.Dispatches inp (t + m) w' ∧ (∃ l', l = .poll (inp t).irq :: l') := by
  obtain ⟨w', hp, hd, -⟩ := executes h.reset h.ack h.runs
  obtain ⟨l, hp, hl⟩ := Tree.Path.cycle_inv hp
  refine ⟨l, w', hp, hl, hd, ?_⟩
  obtain ⟨l', h'⟩ := State.events_head h.runs.1.1 h.runs.2.1
  rw [hl] at h'
  cases l with
  | nil => revert hp; simp only [exec]; intro hp; cases hp
  | cons e l => simp at h'; exact ⟨l, by rw [h'.1]⟩

theorem OneInstr.irq (h : OneInstr s inp t w m) (hi : s.IrqTaken inp t) :
    s.Effect inp t m ((s.run inp t).arch.takeInterrupt .asBuilt) [] := by
  obtain ⟨l, w', hp, hl, hd, l', rfl⟩ := h.path
  have hb : ((inp t).irq && (s.run inp t).arch.intEnabled) = true := by
    simp [Arch.intEnabled, hi.1, hi.2.1, hi.2.2]
  simp only [Spec.exec] at hp
  cases hp with
  | poll hp =>
    simp only [hb, if_true] at hp
    generalize ha : (s.run inp (t + m)).arch = a' at *
    cases hp
    exact ⟨ha, w', by simpa using hl, hd⟩

theorem OneInstr.ofNone (h : OneInstr s inp t w m) (hi : ¬ s.IrqTaken inp t) (hw : decode w = none) :
    s.Effect inp t m ((s.run inp t).arch.exception .asBuilt (illegalCause .asBuilt w)) [] := by
  obtain ⟨l, w', hp, hl, hd, l', rfl⟩ := h.path
  have hb : ((inp t).irq && (s.run inp t).arch.intEnabled) = false := by
    simpa [State.IrqTaken, Arch.intEnabled] using hi
  simp only [Spec.exec] at hp
  cases hp with
  | poll hp =>
    simp only [hb, hw, Bool.false_eq_true, if_false] at hp
    generalize ha : (s.run inp (t + m)).arch = a' at *
    cases hp
    exact ⟨ha, w', by simpa using hl, hd⟩

theorem OneInstr.ofSome {ins : Instr} (h : OneInstr s inp t w m) (hi : ¬ s.IrqTaken inp t)
    (hw : decode w = some ins) :
    ∃ l, (execInstr .asBuilt (s.run inp t).arch ins).Path l (s.run inp (t + m)).arch ∧
      s.Effect inp t m (s.run inp (t + m)).arch l := by
  obtain ⟨l, w', hp, hl, hd, l', rfl⟩ := h.path
  have hb : ((inp t).irq && (s.run inp t).arch.intEnabled) = false := by
    simpa [State.IrqTaken, Arch.intEnabled] using hi
  simp only [Spec.exec] at hp
  cases hp with
  | poll hp =>
    simp only [hb, hw, Bool.false_eq_true, if_false] at hp
    exact ⟨l', hp, rfl, w', by simpa using hl, hd⟩

/-- An instruction that does nothing but lead to `a'`. -/
theorem OneInstr.pure {ins : Instr} {a' : Arch} (h : OneInstr s inp t w m) (hi : ¬ s.IrqTaken inp t)
    (hw : decode w = some ins) (he : execInstr .asBuilt (s.run inp t).arch ins = .ret a') :
    s.Effect inp t m a' [] := by
  obtain ⟨l, hp, hE⟩ := h.ofSome hi hw
  rw [he] at hp
  generalize ha : (s.run inp (t + m)).arch = a'' at *
  cases hp
  exact hE

/-- An instruction that makes one bus access. -/
theorem OneInstr.access {ins : Instr} {r : Req} {f : Word → Arch} (h : OneInstr s inp t w m)
    (hi : ¬ s.IrqTaken inp t) (hw : decode w = some ins)
    (he : execInstr .asBuilt (s.run inp t).arch ins = .bus r fun d => .ret (f d)) :
    ∃ d, s.Effect inp t m (f d) [.bus r d] := by
  obtain ⟨l, hp, hE⟩ := h.ofSome hi hw
  rw [he] at hp
  generalize ha : (s.run inp (t + m)).arch = a'' at *
  cases hp with
  | @bus _ _ d _ _ hp => cases hp; exact ⟨d, hE⟩

end Sentinel
