import Verif.Soc.Memory
import Verif.Props.Bus
import Verif.Proof.Class
/-!
# The core with a memory
-/

set_option linter.unusedSimpArgs false

namespace Sentinel
open Ucode Spec

theorem laneMask_byte : ∀ (sel : BitVec 4) (n : _root_.Fin 4),
    (laneMask sel).extractLsb' (8 * n.val) 8 = if sel.getLsbD n.val then 0xFF#8 else 0#8 := by
  decide +kernel

theorem word_bytes (w : Word) : w = byteOf w 3 ++ byteOf w 2 ++ byteOf w 1 ++ byteOf w 0 := by
  apply BitVec.eq_of_getLsbD_eq
  intro i hi
  simp only [byteOf, BitVec.getLsbD_append, BitVec.getLsbD_extractLsb']
  split
  · simp_all
  split
  · rw [show 8 * 1 + (i - 8) = i by omega]; simp; omega
  split
  · rw [show 8 * 2 + (i - 8 - 8) = i by omega]; simp; omega
  · rw [show 8 * 3 + (i - 8 - 8 - 8) = i by omega]; simp; omega

theorem byte_ext {a b : Word} (h : ∀ n : _root_.Fin 4, byteOf a n.val = byteOf b n.val) : a = b := by
  rw [word_bytes a, word_bytes b]
  have h0 := h 0; have h1 := h 1; have h2 := h 2; have h3 := h 3
  rw [show ((0 : _root_.Fin 4) : Nat) = 0 from rfl] at h0
  rw [show ((1 : _root_.Fin 4) : Nat) = 1 from rfl] at h1
  rw [show ((2 : _root_.Fin 4) : Nat) = 2 from rfl] at h2
  rw [show ((3 : _root_.Fin 4) : Nat) = 3 from rfl] at h3
  rw [h0, h1, h2, h3]

theorem byteOf_merge (sel : BitVec 4) (old new : Word) (n : _root_.Fin 4) :
    byteOf (mergeBytes sel old new) n.val =
      if sel.getLsbD n.val then byteOf new n.val else byteOf old n.val := by
  have key : ∀ a b c d : BitVec 8, byteOf (a ++ b ++ c ++ d) 3 = a ∧ byteOf (a ++ b ++ c ++ d) 2 = b ∧
      byteOf (a ++ b ++ c ++ d) 1 = c ∧ byteOf (a ++ b ++ c ++ d) 0 = d := by
    intro a b c d
    refine ⟨?_, ?_, ?_, ?_⟩ <;>
    · apply BitVec.eq_of_getLsbD_eq
      intro i hi
      simp only [byteOf, BitVec.getLsbD_append, BitVec.getLsbD_extractLsb', hi, decide_true,
        Bool.true_and]
      repeat' split
      all_goals first
        | omega
        | (congr 1; omega)
  unfold mergeBytes
  match n with
  | ⟨0, _⟩ => exact (key _ _ _ _).2.2.2
  | ⟨1, _⟩ => exact (key _ _ _ _).2.2.1
  | ⟨2, _⟩ => exact (key _ _ _ _).2.1
  | ⟨3, _⟩ => exact (key _ _ _ _).1

theorem byteOf_and (a b : Word) (n : Nat) : byteOf (a &&& b) n = byteOf a n &&& byteOf b n := by
  apply BitVec.eq_of_getLsbD_eq; intro i hi
  simp [-BitVec.getLsbD_eq_getElem, byteOf, BitVec.getLsbD_extractLsb', hi]

theorem byteOf_or (a b : Word) (n : Nat) : byteOf (a ||| b) n = byteOf a n ||| byteOf b n := by
  apply BitVec.eq_of_getLsbD_eq; intro i hi
  simp [-BitVec.getLsbD_eq_getElem, byteOf, BitVec.getLsbD_extractLsb', hi]

theorem byteOf_not (a : Word) (n : _root_.Fin 4) : byteOf (~~~a) n.val = ~~~byteOf a n.val := by
  apply BitVec.eq_of_getLsbD_eq; intro i hi
  have := n.isLt
  simp [-BitVec.getLsbD_eq_getElem, byteOf, BitVec.getLsbD_extractLsb', hi]
  omega

theorem and_ff : ∀ x : BitVec 8, x &&& 0xFF#8 = x := by decide +kernel

/-- The write port writes the selected bytes. -/
theorem writeLanes_eq (sel : BitVec 4) (old new : Word) : writeLanes sel old new =
    mergeBytes sel old new := by
  apply byte_ext
  intro n
  rw [byteOf_merge, writeLanes, byteOf_or, byteOf_and, byteOf_and, byteOf_not]
  have h : byteOf (laneMask sel) n.val = _ := laneMask_byte sel n
  rw [h]
  split
  · rw [show (~~~0xFF#8) = 0#8 by decide, and_ff]; simp
  · rw [show (~~~0#8) = 0xFF#8 by decide, and_ff]; simp

/-- Masking the data by the selected lanes does not matter. -/
theorem merge_masked (sel : BitVec 4) (old new : Word) :
    mergeBytes sel old (new &&& laneMask sel) = mergeBytes sel old new := by
  apply byte_ext
  intro n
  rw [byteOf_merge, byteOf_merge, byteOf_and]
  have h : byteOf (laneMask sel) n.val = _ := laneMask_byte sel n
  rw [h]
  split
  · rw [and_ff]
  · rfl

theorem merge_idem (sel : BitVec 4) (old new : Word) :
    mergeBytes sel (mergeBytes sel old new) new = mergeBytes sel old new := by
  apply byte_ext
  intro n
  rw [byteOf_merge, byteOf_merge]
  split <;> rfl

namespace Soc
variable {k : Nat} {s : Soc k} {irq : Nat → Bool}

theorem run_cpu (s : Soc k) (irq : Nat → Bool) (n : Nat) :
    (s.run irq n).cpu = s.cpu.run (s.inputs irq) n := by
  induction n with
  | zero => rfl
  | succ n ih => simp only [run, State.run, step, ih]; rfl

theorem ack_succ (s : Soc k) (irq : Nat → Bool) (n : Nat) : (s.inputs irq (n + 1)).ack =
    ((s.cpu.run (s.inputs irq) n).cyc && !(s.inputs irq n).ack) := by
  rw [← run_cpu]
  simp only [inputs, input, run, step, WbMem.step, State.stb, State.cyc, Bool.and_self]

theorem registered (h : AfterReset s) : s.cpu.RegisteredAck (s.inputs irq) := by
  intro t ht
  cases t with
  | zero => exact h.ram
  | succ t => rw [ack_succ, ht.2 t rfl]; rfl

theorem fair (s : Soc k) (irq : Nat → Bool) : s.cpu.FairAck (s.inputs irq) := by
  intro t hc
  cases ha : (s.inputs irq t).ack
  · exact ⟨t + 1, by omega, .inr (by rw [ack_succ, hc, ha]; rfl)⟩
  · exact ⟨t, by omega, .inr ha⟩

theorem req_of {σ τ : State} (h1 : σ.adr = τ.adr) (h2 : σ.sel = τ.sel) (h3 : σ.we = τ.we)
    (h4 : σ.datW = τ.datW) : σ.req = τ.req := by
  simp [State.req, h1, h2, h3, h4]

theorem after_req (M : Mem k) (σ : State) (h : σ.we = true) :
    M.after σ.req = fun a => if a = σ.adr.setWidth k then writeLanes σ.sel (M a) σ.datW else M a := by
  funext a
  simp only [Mem.after, State.req, h, if_true, merge_masked, writeLanes_eq]

theorem after_req_idem (M : Mem k) (r : Req) : (M.after r).after r = M.after r := by
  funext a
  simp only [Mem.after]
  cases r.we
  · rfl
  · simp only [if_true]
    split
    · exact merge_idem _ _ _
    · rfl

theorem after_read (M : Mem k) (r : Req) (h : r.we = false) : M.after r = M := by
  simp [Mem.after, h]

theorem ram_mem (s : Soc k) (irq : Bool) (h : s.cpu.cyc = true) :
    (s.step irq).ram.mem = s.ram.mem.after s.cpu.req := by
  have h' : s.cpu.stb = true := h
  cases hw : s.cpu.we
  · rw [after_read _ _ (by simp [State.req, hw])]
    simp [step, WbMem.step, hw]
  · rw [after_req _ _ hw]
    simp [step, WbMem.step, hw, h, h']

theorem ram_mem_idle (s : Soc k) (irq : Bool) (h : s.cpu.cyc = false) :
    (s.step irq).ram.mem = s.ram.mem := by
  simp [step, WbMem.step, h]

theorem bus_obs (σ : State) (i : Input) (M : Mem k) :
    M.afterAll (σ.obs i) = if σ.cyc && i.ack then M.after σ.req else M := by
  unfold State.obs
  cases σ.cyc && i.ack <;> cases σ.polls <;> rfl

theorem trace_obs (σ : State) (i : Input) (M : Mem k) :
    MemTrace M (σ.obs i) ↔ (σ.cyc = true → i.ack = true → σ.req.we = false →
      i.datR = M (σ.req.adr.setWidth k)) := by
  unfold State.obs
  cases hc : σ.cyc <;> cases ha : i.ack <;> cases σ.polls <;>
    simp [MemTrace]

/-- What holds of the memory in cycle `t + 1`, when the events before were `l`. -/
theorem inv (h : AfterReset s) (t : Nat) :
    MemTrace s.ram.mem (s.cpu.events (s.inputs irq) 1 t) ∧
    ((s.run irq (t + 1)).ram.ack = false →
      (s.run irq (t + 1)).ram.mem = s.ram.mem.afterAll (s.cpu.events (s.inputs irq) 1 t)) ∧
    ((s.run irq (t + 1)).ram.ack = true → (s.run irq (t + 1)).cpu.cyc = true ∧
      (s.run irq (t + 1)).ram.mem =
        (s.ram.mem.afterAll (s.cpu.events (s.inputs irq) 1 t)).after (s.run irq (t + 1)).cpu.req ∧
      ((s.run irq (t + 1)).cpu.we = false → (s.run irq (t + 1)).ram.rdata =
        s.ram.mem.afterAll (s.cpu.events (s.inputs irq) 1 t) ((s.run irq (t + 1)).cpu.adr.setWidth k))) := by
  induction t with
  | zero =>
    have hs : ∃ u mem rd, s.cpu = State.resetRegs u mem rd := by
      rcases h.cpu with h | ⟨σ, en, i, -, h⟩ <;> exact ⟨_, _, _, h⟩
    have hc : s.cpu.cyc = false := (boot_run hs (s.inputs irq)).1 0 (by omega)
    refine ⟨trivial, ?_, ?_⟩
    · intro _; exact ram_mem_idle s (irq 0) hc
    · intro ha
      have : (s.inputs irq 1).ack = true := ha
      rw [ack_succ] at this
      rw [State.run, hc] at this
      cases this
  | succ t ih =>
    obtain ⟨i1, i2, i3⟩ := ih
    rw [State.events_snoc, Nat.add_comm 1 t, MemTrace.append, Mem.afterAll_append, trace_obs, bus_obs,
      ← run_cpu]
    generalize hM : s.ram.mem.afterAll (s.cpu.events (s.inputs irq) 1 t) = M at *
    have hst : s.run irq (t + 1 + 1) = (s.run irq (t + 1)).step (irq (t + 1)) := rfl
    have hin : s.inputs irq (t + 1) = (s.run irq (t + 1)).input (irq (t + 1)) := rfl
    have hack : (s.inputs irq (t + 1)).ack = (s.run irq (t + 1)).ram.ack := rfl
    have hdat : (s.inputs irq (t + 1)).datR = (s.run irq (t + 1)).ram.rdata := rfl
    have hstable := C23_stable (t := t + 1) h.cpu (s.inputs irq)
    rw [← run_cpu, ← run_cpu, hack] at hstable
    have hnext : (s.run irq (t + 1 + 1)).ram.ack =
        ((s.run irq (t + 1)).cpu.cyc && !(s.run irq (t + 1)).ram.ack) := by
      have := ack_succ s irq (t + 1); rw [← run_cpu] at this; exact this
    rw [hack, hdat]
    generalize hσ : s.run irq (t + 1) = σ at *
    cases ha : σ.ram.ack
    · -- no acknowledgement in this cycle
      have hm := i2 ha
      refine ⟨⟨i1, by intro _ h; cases h⟩, ?_, ?_⟩
      · intro ha'
        rw [hnext, ha] at ha'
        have hc : σ.cpu.cyc = false := by simpa using ha'
        rw [hst, ram_mem_idle _ _ hc, hm]; simp [hc]
      · intro ha'
        rw [hnext, ha] at ha'
        have hc : σ.cpu.cyc = true := by simpa using ha'
        obtain ⟨c1, -, c3, c4, c5, c6⟩ := hstable hc ha
        have hreq := req_of c3 c4 c5 c6
        refine ⟨c1, ?_, ?_⟩
        · rw [hreq, hst, ram_mem _ _ hc, hm]; simp
        · intro hw
          have hw' : σ.cpu.we = false := by rw [← c5]; exact hw
          have hcs : σ.cpu.stb = true := hc
          rw [c3, hst]
          simp [step, WbMem.step, hw', hc, hcs, hm]
    · obtain ⟨hc, hm, hr⟩ := i3 ha
      refine ⟨⟨i1, ?_⟩, ?_, ?_⟩
      · intro _ _ hw; exact hr hw
      · intro _
        rw [hst, ram_mem _ _ hc, hm, after_req_idem, hc]; rfl
      · intro ha'
        rw [hnext, ha] at ha'; simp at ha'

end Soc

end Sentinel
