import Verif.Proof.Inv
/-!
# The invariant is preserved
-/

set_option linter.unusedSimpArgs false

namespace Sentinel
open Ucode Spec

theorem dec_beq {p : Prop} [Decidable p] {a b : Nat} (h : (decide p == (a == b)) = true) : p ↔ a = b := by
  by_cases hp : p <;> by_cases hab : a = b <;> simp_all

/-- What the graph says about a microinstruction that is not a `map` jump. -/
structure GraphStep (k : Nat) (u v : UInsn) (ack : Bool) (n : BitVec 8) : Prop where
  live : n.toNat ∈ live
  ne24 : n ≠ 0x24#8
  ne2 : n ≠ 2#8
  eq3 : n = 3#8 ↔ k = 2
  eq4 : n = 4#8 ↔ k = 3
  eq5 : n = 5#8 ↔ k = 4
  disp : n = 1#8 → u.insnFetch = true ∧ ack = true
  hold : u.memReq = true → ack = false → n.toNat ∈ waits ∧ v.memReq = true ∧
    v.insnFetch = u.insnFetch ∧ (u.insnFetch = true ∨ v.memSel = u.memSel) ∧ v.writeMem = u.writeMem
  drop : k ∈ waits → ack = true → v.memReq = false

/-- What the graph says about a microinstruction. -/
structure GraphNode (k : Nat) (u : UInsn) : Prop where
  map : u.jmpType = .map → (k = 1 ∨ k = 0x24) ∧ u.target = 0xf0#8 ∧ u.memReq = false ∧
    u.insnFetch = false ∧ u.condTest = .exception ∧ u.invertTest = false
  keep : u.memReq = true → u.pcAction = .hold ∧ u.latchAdr = false ∧ u.latchData = false
  shape : u.memReq = true → (u.insnFetch = true ∧ u.writeMem = false) ∨ (u.insnFetch = false ∧
    (u.memSel = .byte ∨ u.memSel = .hword ∨ u.memSel = .word))
  we : u.writeMem = true → u.memReq = true
  fetch : u.insnFetch = true → u.memReq = true
  waits : k ∈ waits → u.memReq = true
  zero : u.regWSel = .zero ↔ k = 4
  used : k ∈ used

theorem graphNode {k : Nat} (h : k ∈ live) : GraphNode k (romT k) := by
  have h := graph h
  unfold graphOk at h
  simp only [Bool.and_eq_true] at h
  obtain ⟨⟨⟨⟨⟨⟨⟨h1, h2⟩, h3⟩, h4⟩, h5⟩, h6⟩, h7⟩, h8⟩ := h
  refine ⟨?_, ?_, ?_, ?_, ?_, ?_, ?_, by simpa using h8⟩
  · intro e; rw [if_pos e] at h1; simpa [and_assoc] using h1
  · intro e; simpa [e, and_assoc] using h2
  · intro e
    cases hf : (romT k).insnFetch <;> simp [e, hf, or_assoc] at h3
    · exact .inr ⟨rfl, h3⟩
    · exact .inl ⟨rfl, h3⟩
  · intro e; simpa [e] using h4
  · intro e; simpa [e] using h5
  · intro e; simpa [e] using h6
  · exact dec_beq h7

theorem graphStep {k : Nat} (h : k ∈ live) (hm : (romT k).jmpType ≠ .map) (e z ack : Bool) :
    GraphStep k (romT k) (romT (nextT k e z ack).toNat) ack (nextT k e z ack) := by
  have h := graph h
  unfold graphOk at h
  simp only [Bool.and_eq_true] at h
  obtain ⟨⟨⟨⟨⟨⟨⟨h, -⟩, -⟩, -⟩, -⟩, -⟩, -⟩, -⟩ := h
  rw [if_neg hm] at h
  have h := bools_all (bools_all (bools_all h e) z) ack
  simp only [Bool.and_eq_true] at h
  obtain ⟨⟨⟨⟨⟨⟨⟨⟨h1, h2⟩, h3⟩, h4⟩, h5⟩, h6⟩, h7⟩, h8⟩, h9⟩ := h
  refine ⟨by simpa using h1, by simpa using h2, by simpa using h3, dec_beq h4,
    dec_beq h5, dec_beq h6, ?_, ?_, ?_⟩
  · intro e; simpa [e] using h7
  · intro e1 e2; simpa [e1, e2, and_assoc] using h8
  · intro e1 e2; simpa [e1, e2] using h9

variable {k : BitVec 8} {s : State}

theorem LiveAt.node (h : LiveAt k s) : GraphNode k.toNat s.uop := by
  rw [h.uop, rom_eq]; exact graphNode h.live

/-- The next microaddress when the microinstruction is not a `map` jump. -/
theorem LiveAt.romAdr (h : LiveAt k s) (hm : s.uop.jmpType ≠ .map) (i : Input) :
    GraphStep k.toNat s.uop (rom (s.romAdr i)) i.ack (s.romAdr i) := by
  have e : s.romAdr i = nextT k.toNat (s.exception i) (aluZero s.aluO) i.ack := by
    simp only [State.romAdr, nextT, h.rstGuard, h.next, h.uop, rom_eq] at hm ⊢
    unfold State.test
    rw [h.uop, rom_eq]
    cases hj : (romT k.toNat).jmpType
    case map => exact absurd hj hm
    all_goals simp [seqAdr]
  rw [e, rom_eq, h.uop, rom_eq]
  refine graphStep h.live ?_ _ _ _
  rw [h.uop, rom_eq] at hm; exact hm

/-- The next microaddress of a `map` jump. -/
theorem LiveAt.romAdr_map (h : LiveAt k s) (hm : s.uop.jmpType = .map) (i : Input) :
    (s.romAdr i = 0xf0#8 ∨ s.romAdr i = s.dec.map.requestedOp) ∧
      (s.dec.exc.valid = true → s.romAdr i = 0xf0#8) := by
  obtain ⟨h1, h2, -, -, h3, h4⟩ := h.node.map hm
  have hx : s.dec.exc.valid = true → s.exception i = true := by
    intro hv
    rcases h1 with h1 | h1
    · have : k = 1#8 := BitVec.eq_of_toNat_eq h1
      subst this
      simp [State.exception, exceptionOut, h.uop, rom_01, u_01, hv]
    · have : k = 0x24#8 := BitVec.eq_of_toNat_eq h1
      subst this
      simp [State.exception, exceptionOut, h.uop, rom_24, u_24, hv]
  have e : s.romAdr i = if s.exception i then 0xf0#8 else s.dec.map.requestedOp := by
    simp [State.romAdr, State.test, seqAdr, testOut, rawTest, h.rstGuard, hm, h2, h3, h4]
  rw [e]
  constructor
  · cases s.exception i <;> simp
  · intro hv; rw [hx hv]; rfl

theorem LiveAt.map_k (h : LiveAt k s) (hm : s.uop.jmpType = .map) : k = 1#8 ∨ k = 0x24#8 := by
  rcases (h.node.map hm).1 with h1 | h1
  · exact .inl (BitVec.eq_of_toNat_eq h1)
  · exact .inr (BitVec.eq_of_toNat_eq h1)

/-- The next microaddress is live and not one of the reset routine's, except from there. -/
theorem LiveAt.romAdr_live (h : LiveAt k s) (i : Input) :
    (s.romAdr i).toNat ∈ Sentinel.live ∧ s.romAdr i ≠ 2#8 ∧ (s.romAdr i = 3#8 ↔ k = 2#8) ∧
      (s.romAdr i = 4#8 ↔ k = 3#8) ∧ (s.romAdr i = 1#8 → s.uop.insnFetch = true ∧ i.ack = true) := by
  by_cases hm : s.uop.jmpType = .map
  · have hk := h.map_k hm
    have hk2 : ¬ k = 2#8 := by rcases hk with rfl | rfl <;> decide
    have hk3 : ¬ k = 3#8 := by rcases hk with rfl | rfl <;> decide
    obtain ⟨h1, h2⟩ := h.romAdr_map hm i
    have key : ∀ x, x ∈ mapTargets ∨ x ∈ csrTargets → x.toNat ∈ Sentinel.live ∧ x ≠ 2#8 ∧
        (x = 3#8 ↔ k = 2#8) ∧ (x = 4#8 ↔ k = 3#8) ∧ (x = 1#8 → s.uop.insnFetch = true ∧ i.ack = true) := by
      intro x hx
      have := List.all_eq_true.mp targets_live x (by simpa using hx)
      simp only [Bool.and_eq_true, Bool.not_eq_true', decide_eq_false_iff_not,
        List.contains_iff_mem] at this
      obtain ⟨⟨⟨⟨a, b⟩, c⟩, d⟩, e⟩ := this
      simp [a, b, c, d, e, hk2, hk3]
    have kf0 : (0xf0#8).toNat ∈ Sentinel.live ∧ (0xf0#8) ≠ 2#8 ∧
        ((0xf0#8) = 3#8 ↔ k = 2#8) ∧ ((0xf0#8) = 4#8 ↔ k = 3#8) ∧
        ((0xf0#8) = 1#8 → s.uop.insnFetch = true ∧ i.ack = true) := by
      refine ⟨by decide, by decide, ?_, ?_, ?_⟩
      · simp [hk2]
      · simp [hk3]
      · intro e; exact absurd e (by decide)
    have hv : s.dec.exc.valid = true ∨ (s.dec.map.requestedOp ∈ mapTargets ∨
        s.dec.map.requestedOp ∈ csrTargets) := by
      rcases hk with rfl | rfl
      · exact (h.disp rfl).imp id fun x => x.1
      · exact (h.tramp rfl).imp id .inr
    rcases hv with hv | hv
    · rw [h2 hv]; exact kf0
    · rcases h1 with h1 | h1
      · rw [h1]; exact kf0
      · rw [h1]; exact key _ hv
  · have g := h.romAdr hm i
    refine ⟨g.live, g.ne2, ?_, ?_, g.disp⟩
    · rw [g.eq3]; exact ⟨fun e => BitVec.eq_of_toNat_eq e, fun e => by rw [e]; rfl⟩
    · rw [g.eq4]; exact ⟨fun e => BitVec.eq_of_toNat_eq e, fun e => by rw [e]; rfl⟩

theorem csr24 {x : BitVec 8} (h : x ∈ csrTargets) : x ≠ 0x24#8 := by
  have := List.all_eq_true.mp csr_live x h
  simpa using this

/-- The invariant is preserved by a clock edge, whatever the inputs. -/
theorem LiveAt.step (h : LiveAt k s) (i : Input) : LiveAt (s.romAdr i) (s.step i) := by
  obtain ⟨l1, l2, l3, l4, l5⟩ := h.romAdr_live i
  have hill : s.dec.map.fwd = true → (s.step i).dec.exc.valid = true ∨
      (s.step i).dec.map.requestedOp ∈ csrTargets := by
    intro hf
    have hf' : s.dec.exc.fwd = true := by rw [← h.fwd]; exact hf
    obtain ⟨c0, c4⟩ := h.csrOp hf
    simp only [State.step, DecState.step, MapState.step, ExcState.step, hf, hf', if_true]
    cases ha : s.dec.attr.ill
    · exact .inr (mapCsr_mem ha c0 c4)
    · left; simp [csrValid, ha]
  refine ⟨l1, rfl, rfl, rfl, rfl, ?_, ?_, ?_, ?_, ?_, ?_, ?_⟩
  · simp [State.step, DecState.step, MapState.step, ExcState.step, excFwd_isCsr]
  · intro hf
    simp only [State.step, DecState.step, MapState.step, Bool.and_eq_true] at hf ⊢
    exact isCsr_f3 hf.2
  · intro e1
    obtain ⟨hif, hack⟩ := l5 e1
    have hst : s.doDecode i = true := by simp [State.doDecode, hif, hack]
    by_cases hf : s.dec.map.fwd = true
    · exact (hill hf).imp id fun hx => ⟨.inr hx, fun e => absurd e (csr24 hx)⟩
    · have hf : s.dec.map.fwd = false := by simpa using hf
      have hf' : s.dec.exc.fwd = false := by rw [← h.fwd]; exact hf
      have e1 : (s.step i).dec.exc.valid = decodeValid i.datR := by
        simp [State.step, DecState.step, ExcState.step, hf', hst]
      have e2 : (s.step i).dec.map.requestedOp = mapOp i.datR s.dec.map.requestedOp := by
        simp [State.step, DecState.step, MapState.step, hf, hst]
      have e3 : (s.step i).dec.map.fwd = isCsrInsn i.datR := by
        simp [State.step, DecState.step, MapState.step, hst]
      rw [e1, e2, e3]
      cases hd : decodeValid i.datR
      · exact .inr ⟨.inl (mapOp_mem hd _).1, (mapOp_mem hd _).2⟩
      · exact .inl rfl
  · intro e1
    by_cases hm : s.uop.jmpType = .map
    · obtain ⟨h1, h2⟩ := h.romAdr_map hm i
      rcases h1 with h1 | h1
      · rw [h1] at e1; exact absurd e1 (by decide)
      · rcases h.map_k hm with rfl | rfl
        · rcases h.disp rfl with hv | ⟨-, hx⟩
          · rw [h2 hv] at e1; exact absurd e1 (by decide)
          · exact hill (hx (h1 ▸ e1))
        · rcases h.tramp rfl with hv | hx
          · rw [h2 hv] at e1; exact absurd e1 (by decide)
          · exact absurd (h1 ▸ e1) (csr24 hx)
    · exact absurd e1 (h.romAdr hm i).ne24
  · intro n2 n3 n4
    have e := mem_gp_step s i 0#5
    have z : gpRamAdr 0#5 = 0#6 := by decide
    rw [z] at e
    rw [e]
    have hk2 : k ≠ 2#8 := fun e => n3 (l3.2 e)
    have hk3 : k ≠ 3#8 := fun e => n4 (l4.2 e)
    by_cases hk4 : k = 4#8
    · have := h.o hk4
      subst hk4
      simp [this, h.uop, rom_04, u_04, State.regWAdr]
    · have hz : ¬ s.uop.regWSel = .zero := fun e => hk4 (BitVec.eq_of_toNat_eq (h.node.zero.1 e))
      rw [if_neg]
      · exact h.x0 hk2 hk3 hk4
      · rintro ⟨-, -, -, h | h⟩
        · exact hz h
        · exact h rfl
  · intro e
    have := l3.1 e
    subst this
    simp [State.step, h.uop, rom_02, u_02, aNext]
  · intro e
    have := l4.1 e
    have ha := h.a this
    subst this
    simp [State.step, h.uop, rom_03, u_03, aluNext, oMux, modIn, modOut, ha]

/-- After reset the core is live from the second cycle on. -/
theorem live_run {s : State} (h : AfterReset s) (inp : Nat → Input) (t : Nat) :
    ∃ k, LiveAt k (s.run inp (t + 1)) := by
  have hs : ∃ u mem rd, s = State.resetRegs u mem rd := by
    rcases h with rfl | ⟨σ, en, i, -, rfl⟩
    · exact ⟨_, _, _, rfl⟩
    · exact ⟨_, _, _, rfl⟩
  obtain ⟨u, mem, rd, rfl⟩ := hs
  induction t with
  | zero =>
    obtain ⟨h1, h2, h3, h4, -⟩ := boot_first u mem rd (inp 0)
    refine ⟨2#8, by decide, by rw [rom_02]; exact h1, h2, h3, h4, ?_, ?_, ?_, ?_, ?_, ?_, ?_⟩
    · change ((State.resetRegs u mem rd).step (inp 0)).dec.map.fwd =
        ((State.resetRegs u mem rd).step (inp 0)).dec.exc.fwd
      simp [State.step, DecState.step, MapState.step, ExcState.step, excFwd_isCsr]
    · change ((State.resetRegs u mem rd).step (inp 0)).dec.map.fwd = true →
        ((State.resetRegs u mem rd).step (inp 0)).dec.map.csrOp ≠ 0#3 ∧
        ((State.resetRegs u mem rd).step (inp 0)).dec.map.csrOp ≠ 4#3
      intro hf
      simp only [State.step, DecState.step, MapState.step, Bool.and_eq_true] at hf ⊢
      exact isCsr_f3 hf.2
    · intro e; exact absurd e (by decide)
    · intro e; exact absurd e (by decide)
    · intro e; exact absurd rfl e
    · intro e; exact absurd e (by decide)
    · intro e; exact absurd e (by decide)
  | succ t ih =>
    obtain ⟨k, hk⟩ := ih
    exact ⟨_, hk.step (inp (t + 1))⟩

end Sentinel
