import Verif.Proof.RvfiCsr
/-!
# What the RVFI harness reports as the destination of an instruction that traps
-/

set_option linter.unusedSimpArgs false

namespace Sentinel
open Ucode Spec

variable {s : State} {inp : Nat → Input} {t m m' : Nat} {w w' : Word} {r : Rvfi}

/-- Only CSR instructions have a second decode cycle. -/
theorem doing_csr (h : AfterReset s) (hr : s.RegisteredAck inp) (hd : s.Dispatches inp t w)
    (hx : (r.run s inp (t + 1)).doingCsrDecode = true) : isCsr w = true := by
  have e : (r.run s inp (t + 1)).doingCsrDecode =
    decide ((s.run inp t).romAdr (inp t) = 0x24#8) := rfl
  rw [e, decide_eq_true_eq] at hx
  have ht := hd.1.1
  obtain ⟨T, hT⟩ : ∃ T, t = T + 1 := ⟨t - 1, by omega⟩
  obtain ⟨k, hk⟩ := live_run h inp T
  rw [← hT] at hk
  have hA := hd.at h hr
  have hu := hA.uop
  obtain ⟨d0, f1, f2, hdec⟩ := hA.dec
  generalize s.run inp t = σ at *
  have hm : σ.uop.jmpType = .map := by rw [hu]; rfl
  obtain ⟨h1, h2⟩ := hk.romAdr_map hm (inp t)
  have hv : σ.dec.exc.valid = decodeValid w := by simp [hdec, DecState.step, ExcState.step, f2]
  have hf : σ.dec.map.fwd = isCsrInsn w := by simp [hdec, DecState.step, MapState.step]
  have g1 : decodeValid w = false := by
    cases hq : decodeValid w
    · rfl
    · rw [h2 (hv.trans hq)] at hx; exact absurd hx (by decide)
  have hk1 : k = 1#8 := by
    rcases hk.map_k hm with rfl | rfl
    · rfl
    · have := hk.uop; rw [hu, rom_24] at this; simp [u_01, u_24] at this
  have g2 : isCsrInsn w = true := by
    rw [← hf]
    rcases hk.disp hk1 with hq | ⟨-, hq⟩
    · rw [hv, g1] at hq; cases hq
    · rcases h1 with h1 | h1
      · rw [h1] at hx; exact absurd hx (by decide)
      · exact hq (h1 ▸ hx)
  cases hw : decode w with
  | none => rw [(undecoded hw).1] at g1; cases g1
  | some ins =>
    have := decoded hw
    cases ins with
    | csr => simp [isCsr, hw]
    | ecall | ebreak => rw [this.1] at g1; cases g1
    | fence | wfi | mret => rw [this.2.1] at g2; cases g2
    | _ => rw [this.1.2.1] at g2; cases g2

theorem doing_never (h : AfterReset s) (hr : s.RegisteredAck inp)
    (he : s.Executes inp t w m) (hc : isCsr w = false) {j : Nat} (hj : j < m) :
    (r.run s inp (t + j)).doingCsrDecode = false := by
  by_cases hj1 : j = 1
  · subst hj1
    cases hx : (r.run s inp (t + 1)).doingCsrDecode
    · rfl
    · rw [doing_csr h hr he.1 hx] at hc; cases hc
  · exact doing_at h hr he hj hj1

/-- The destination reported for an instruction other than a CSR instruction, trapping or not. -/
theorem rdAddr_any {ins : Instr} {q : Reg} (h : AfterReset s) (hr : s.RegisteredAck inp)
    (he : s.Executes inp t w m) (hw : decode w = some ins) (hd : destReg ins = some q)
    (hc : isCsr w = false) {j : Nat} (hj : j < m) :
    (r.run s inp (t + j)).rdAddr = q := by
  induction j with
  | zero =>
    have := rdAddr_at (r := r) h hr he hj rfl
    rw [decode_rd hw, hd] at this
    exact this
  | succ j ih =>
    have hcm := Executes.step h hr he hj
    have e : r.run s inp (t + (j + 1)) = (r.run s inp (t + j)).step (s.run inp (t + j)) (inp (t + j)) := rfl
    rw [e, ← ih (by omega)]
    simp [Rvfi.step, doing_never (r := r) h hr he hc (j := j) (by omega), hcm]

/-- The register write latched at the end of an instruction that completes. -/
theorem datW_after {ins : Instr} {q : Reg} (h : AfterReset s) (hr : s.RegisteredAck inp)
    (he : s.Executes inp t w m) (hw : decode w = some ins)
    (hx : traps (s.run inp t).arch w (s.events inp t m) = false) (hd : destReg ins = some q) (hq : q ≠ 0) :
    (r.run s inp (t + m)).datWReg = (s.run inp (t + m)).arch.reg q := by
  obtain ⟨h1, h2⟩ := rd_report (r := r) h hr he hw hx
  have hm := two_cycles h hr he
  have e' : (r.run s inp (t + m - 1 + 1)).datWReg =
    (r.run s inp (t + m - 1)).datWMux (s.run inp (t + m - 1)) := rfl
  rw [show t + m - 1 + 1 = t + m by omega] at e'
  rw [e']
  rw [hd] at h1 h2
  simp only [Option.getD_some] at h1 h2
  simp only [Rvfi.rdWdata, last_commits h hr he, if_true, h1, hq, if_false] at h2
  exact h2

/-- An instruction that traps reports the register write of the instruction before it. -/
theorem rd_stale {ins ins' : Instr} {q q' : Reg} (h : AfterReset s) (hr : s.RegisteredAck inp)
    (he : s.Executes inp t w m) (hw : decode w = some ins)
    (hx : traps (s.run inp t).arch w (s.events inp t m) = false) (hd : destReg ins = some q) (hq : q ≠ 0)
    (he' : s.Executes inp (t + m) w' m') (hw' : decode w' = some ins')
    (hx' : traps (s.run inp (t + m)).arch w' (s.events inp (t + m) m') = true)
    (hd' : destReg ins' = some q') (hq' : q' ≠ 0) (hc : isCsr w' = false) :
    (r.run s inp (t + m + m' - 1)).rdAddr = q' ∧
      (r.run s inp (t + m + m' - 1)).rdWdata (s.run inp (t + m + m' - 1)) (inp (t + m + m' - 1)) =
        (s.run inp (t + m)).arch.reg q := by
  have hm' := two_cycles h hr he'
  have h1 := rdAddr_any (r := r) h hr he' hw' hd' hc (j := m' - 1) (by omega)
  rw [show t + m + (m' - 1) = t + m + m' - 1 by omega] at h1
  refine ⟨h1, ?_⟩
  simp only [Rvfi.rdWdata, last_commits h hr he', if_true, h1, hq', if_false]
  rw [rd_trap h hr he' hx', datW_after h hr he hw hx hd hq]

end Sentinel
