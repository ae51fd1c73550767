import Verif.Proof.RvfiTrap
/-!
# What the RVFI harness reports as the destination of a CSR instruction that traps
-/

set_option linter.unusedSimpArgs false

namespace Sentinel
open Ucode Spec

variable {s : State} {inp : Nat → Input} {t m : Nat} {w : Word} {r : Rvfi}

/-- The decoder refuses a CSR access exactly if it raises an exception. -/
theorem csrBad_iff {op rd src adr} (hw : decode w = some (.csr op rd src adr)) (a : Arch) :
    csrBad w = (excCause a w).isSome := by
  obtain ⟨g1, g2, h1, h2, h3, h4⟩ := decoded hw
  have htab := csrTable adr
  have hbad : csrBad w = csrValid (csrAttrOf adr) (adr.extractLsb' 10 2 = 3#2) (csrF3 op src)
      (srcField src) (adr.extractLsb' 8 2) := by
    simp only [csrBad, insnAccess, insnQuadrant, h2, h3, h4]
  rw [hbad]
  simp only [excCause, hw]
  cases hk : csrKind adr with
  | absent =>
    simp only [csrTableOk, hk, Bool.or_eq_true, decide_eq_false_iff_not, Bool.not_eq_true'] at htab
    rcases htab with e | e <;> simp [csrValid, e]
  | zero =>
    simp only [csrTableOk, hk, Bool.and_eq_true, decide_eq_true_eq] at htab
    rw [csrWrites_eq, csrReadOnly]
    simp only [csrValid, htab.1, htab.2, Attr.ro0']
    by_cases h1 : adr.extractLsb' 10 2 = 3#2 <;>
      by_cases h2 : csrF3 op src = 1#3 <;> by_cases h3 : csrF3 op src = 5#3 <;>
      by_cases h4 : srcField src = 0#5 <;> simp [h1, h2, h3, h4]
  | impl c =>
    simp only [csrTableOk, hk, Bool.and_eq_true, decide_eq_true_eq, Bool.not_eq_true',
      decide_eq_false_iff_not] at htab
    simp [csrValid, htab, Attr.implemented, csrReadOnly]

/-- A CSR instruction that traps, other than by an interrupt at its dispatch, reports no destination. -/
theorem rd_csr {op rd src adr} (h : OneInstr s inp t w m) (hi : ¬ s.IrqTaken inp t)
    (hw : decode w = some (.csr op rd src adr))
    (hx : traps (s.run inp t).arch w (s.events inp t m) = true) :
    (r.run s inp (t + m - 1)).rdAddr = 0 := by
  have hm := csr_three h hi hw
  have he := h.runs
  have hd : (r.run s inp (t + 1)).doingCsrDecode = true := by
    have e : (r.run s inp (t + 1)).doingCsrDecode =
      decide ((s.run inp t).romAdr (inp t) = 0x24#8) := rfl
    rw [e, csr_adr h hi hw]; rfl
  have hb : ((inp t).irq && (s.run inp t).arch.intEnabled) = false := by
    simpa [State.IrqTaken, Arch.intEnabled] using hi
  have hexc : (s.run inp (t + 1)).exception (inp (t + 1)) = true := by
    rw [csr_exc h hi hw, csrBad_iff hw (s.run inp t).arch]
    obtain ⟨l, -, ⟨-, w', hev, -⟩, -⟩ := h.csr hi hw
    rw [hev] at hx
    simpa [traps, hb, isCsr, hw] using hx
  have key : ∀ j, j + 2 < m → (r.run s inp (t + (j + 2))).rdAddr = 0 := by
    intro j hj
    induction j with
    | zero =>
      have e : r.run s inp (t + 2) = (r.run s inp (t + 1)).step (s.run inp (t + 1)) (inp (t + 1)) := rfl
      rw [Nat.zero_add, e]
      simp [Rvfi.step, hd, hexc]
    | succ j ih =>
      have hcm := Executes.step h.reset h.ack he (j := j + 2) (by omega)
      have e : r.run s inp (t + (j + 1 + 2)) =
        (r.run s inp (t + (j + 2))).step (s.run inp (t + (j + 2))) (inp (t + (j + 2))) := rfl
      rw [e]
      simp [Rvfi.step, hcm, ih (by omega)]
  have := key (m - 3) (by omega)
  rwa [show t + (m - 3 + 2) = t + m - 1 by omega] at this

end Sentinel
