import Verif.Soc.RamSize
import Verif.Props.Atto
import Verif.Proof.Wp
/-!
# RAM of any size: as long as only rows that exist are asked for, it is the padded RAM
-/

set_option linter.unusedSimpArgs false

namespace Sentinel

open Spec Ucode

theorem le_two_pow_ceilLog2 (d : Nat) : d ≤ 2 ^ ceilLog2 d := by
  unfold ceilLog2
  split
  · simpa using ‹d ≤ 1›
  · have := Nat.lt_log2_self (n := d - 1)
    omega

namespace AttoN

variable {k D : Nat} {p : Nat → AttoIn} {junk : Nat → Word} {t : Nat}

/-- `s` and `σ` are the same system, but for rows of the RAM of `σ` from `d` on. -/
structure Same (d : Nat) (s : AttoN) (σ : Atto k) : Prop where
  cpu : s.cpu = σ.cpu
  leds : s.leds = σ.leds
  timer : s.timer = σ.timer
  ser : s.ser = σ.ser
  rdata : s.ram.rdata = σ.ram.rdata
  ack : s.ram.ack = σ.ram.ack
  len : s.ram.rows.length = d
  bits : ceilLog2 d = k
  rows : ∀ a : BitVec k, a.toNat < d → s.ram.rows[a.toNat]? = some (σ.ram.mem a)

theorem same_padded (s : AttoN) : Same s.depth s s.padded where
  cpu := rfl
  leds := rfl
  timer := rfl
  ser := rfl
  rdata := rfl
  ack := rfl
  len := rfl
  bits := rfl
  rows a ha := by
    rw [List.getElem?_eq_getElem ha]
    show _ = some (s.ram.rows.getD a.toNat 0)
    rw [List.getD_eq_getElem?_getD, List.getElem?_eq_getElem ha]; rfl

variable {d : Nat} {s : AttoN} {σ : Atto k}

theorem Same.input (h : Same d s σ) : s.padded.input = σ.input := by
  obtain ⟨c, l, ti, se, rd, ak, -, -, -⟩ := h
  simp only [Atto.input, Atto.datR, Atto.ack, Atto.irq, Atto.dev, padded, RamN.padded, c, l, ti, se, rd, ak]

theorem Same.devCyc (h : Same d s σ) (x : AttoDev) : s.padded.devCyc x = σ.devCyc x := by
  show (s.cpu.cyc && decide (attoDecode s.cpu.adr = some x)) = _
  rw [h.cpu]; rfl

theorem Same.devReq (h : Same d s σ) (x : AttoDev) : s.padded.devReq x = σ.devReq x := by
  show ({ cyc := s.padded.devCyc x, stb := s.cpu.stb, we := s.cpu.we, sel := s.cpu.sel.getLsbD 0,
          adr := s.cpu.adr.setWidth 2, datW := s.cpu.datW.setWidth 8 } : WbReq) = _
  rw [h.devCyc, h.cpu]; rfl

/-- A row of the RAM that is asked for exists. -/
def _root_.Sentinel.Atto.RowOk (σ : Atto k) (d : Nat) : Prop :=
  σ.cpu.cyc = true → σ.cpu.req.target = some .ram → (σ.cpu.adr.setWidth k).toNat < d

theorem Same.step (h : Same d s σ) (q : AttoIn) (j : Word) (hr : σ.RowOk d) :
    Same d (s.step D q j) (σ.step D q) := by
  have hrow : ∀ a, s.ram.row a = (a.setWidth k).toNat := fun a => by
    rw [RamN.row, h.len, h.bits, BitVec.toNat_setWidth]
  have hok : (σ.cpu.stb && σ.devCyc .ram) = true → (σ.cpu.adr.setWidth k).toNat < d := by
    intro hc
    have := (Atto.devCyc_iff σ .ram).1 (Bool.and_eq_true_iff.1 hc).2
    exact hr this.1 this.2
  constructor
  · show s.cpu.step _ = σ.cpu.step _
    rw [h.input, h.cpu]
  · show s.leds.step _ _ = σ.leds.step _ _
    rw [h.devReq, h.leds]
  · show s.timer.step _ = σ.timer.step _
    rw [h.devReq, h.timer]
  · show s.ser.step _ _ _ = σ.ser.step _ _ _
    rw [h.devReq, h.ser]
  · show (if _ then _ else _) = (if _ then _ else _)
    rw [h.devCyc, h.cpu, hrow, h.rdata]
    split
    · rename_i hc
      have := h.rows _ (hok (Bool.and_eq_true_iff.1 hc).1)
      rw [List.getD_eq_getElem?_getD, this]; rfl
    · rfl
  · show (_ && _) = (_ && _)
    rw [h.devCyc, h.cpu, h.ack]
  · show (if _ then _ else _ : List Word).length = d
    split
    · rw [List.length_modify, h.len]
    · exact h.len
  · exact h.bits
  · intro a ha
    show (if _ then _ else _ : List Word)[a.toNat]? = some ((if _ then _ else _ : Mem k) a)
    rw [h.devCyc, h.cpu, hrow]
    split
    · rw [List.getElem?_modify, h.rows a ha]
      by_cases e : a = σ.cpu.adr.setWidth k
      · subst e; simp
      · have : (σ.cpu.adr.setWidth k).toNat ≠ a.toNat := fun x => e (BitVec.eq_of_toNat_eq x.symm)
        show some (if _ then _ else _) = some (if _ then _ else _)
        rw [if_neg this, if_neg e]
    · exact h.rows a ha

theorem run_same (h : Same d s σ) (hr : ∀ m < t, (σ.run D p m).RowOk d) :
    Same d (s.run D p junk t) (σ.run D p t) := by
  induction t with
  | zero => exact h
  | succ t ih => exact (ih fun m hm => hr m (by omega)).step _ _ (hr t (by omega))

end AttoN

namespace Atto

variable {k D : Nat} {s : Atto k} {p : Nat → AttoIn}

/-- If all requests are for addresses where something is, then every request of the core is one of a
behaviour on the platform. -/
theorem request_behaves (h : s.AfterReset)
    (hm : ∀ t, (s.run D p t).cpu.cyc = true → (s.run D p t).cpu.req.target.isSome = true)
    (t : Nat) (hc : (s.run D p t).cpu.cyc = true) :
    ∃ l d, Behaves (cycle .asBuilt) (fetch (s.run D p 5).cpu.arch) (l ++ [.bus (s.run D p t).cpu.req d]) ∧
      PlatTrace s.plat l := by
  have key : ∀ t, (s.run D p t).cpu.cyc = true → (s.run D p t).ack = true →
      ∃ l d, Behaves (cycle .asBuilt) (fetch (s.run D p 5).cpu.arch) (l ++ [.bus (s.run D p t).cpu.req d]) ∧
        PlatTrace s.plat l := by
    intro t hc ha
    cases t with
    | zero => rw [show (s.run D p 0).cpu = s.cpu from rfl, cyc_zero h] at hc; cases hc
    | succ t =>
      obtain ⟨-, hb, -, -⟩ := C56_trace h D p (t + 1)
      rw [State.events_snoc, Nat.add_comm 1 t, ← run_cpu] at hb
      have hobs : ∃ l, (s.run D p (t + 1)).cpu.obs (s.inputs D p (t + 1)) =
          [.bus (s.run D p (t + 1)).cpu.req (s.inputs D p (t + 1)).datR] ++ l := by
        unfold State.obs
        rw [hc, show (s.inputs D p (t + 1)).ack = true from ha]
        exact ⟨_, rfl⟩
      obtain ⟨l, hl⟩ := hobs
      rw [hl, ← List.append_assoc] at hb
      exact ⟨_, _, hb.prefix, (inv h t).1⟩
  cases ha : (s.run D p t).ack
  · obtain ⟨c1, c2, -⟩ := stable (D := D) (p := p) h hc ha
    have hack : (s.run D p (t + 1)).ack = true := by
      have h2 := (twoCycle h hm).2 t
      rw [← run_cpu, hc, show (s.inputs D p t).ack = false from ha] at h2
      exact h2.trans rfl
    obtain ⟨l, d, g⟩ := key (t + 1) c1 hack
    rw [c2] at g
    exact ⟨l, d, g⟩
  · exact key t hc ha

end Atto

namespace Spec

variable {k : Nat} {α : Type}

/-- Whatever the platform answers, the computation, started on `P`, only makes requests in `K` and ends in
`Q`. -/
def Asks (K : Req → Prop) (Q : α → Plat k → Prop) : Tree α → Plat k → Prop
  | .ret x, P => Q x P
  | .poll f, P => ∀ b, Asks K Q (f b) P
  | .bus r f, P => K r ∧ ∀ d, P.Answers r d → Asks K Q (f d) (P.after r)

theorem Asks.bind {β : Type} {K : Req → Prop} {Q : α → Plat k → Prop} {R : β → Plat k → Prop}
    {T : Tree α} {f : α → Tree β} {P : Plat k} (hT : Asks K Q T P)
    (hf : ∀ x P, Q x P → Asks K R (f x) P) : Asks K R (T.bind f) P := by
  induction T generalizing P with
  | ret x => exact hf _ _ hT
  | poll g ih => exact fun b => ih b (hT b)
  | bus r g ih => exact ⟨hT.1, fun d hd => ih d (hT.2 d hd)⟩

theorem Asks.behaves {K : Req → Prop} {Q : α → Plat k → Prop} {next : α → Tree α}
    (hn : ∀ x P, Q x P → Asks K Q (next x) P) {T : Tree α} {P : Plat k} (hT : Asks K Q T P)
    {l : List Event} (hb : Behaves next T l) :
    ∀ l' r d, l = l' ++ [.bus r d] → PlatTrace P l' → K r := by
  induction hb generalizing P with
  | stop t => intro l' r d e; simp at e
  | ret _ ih => exact ih (hn _ _ hT)
  | poll _ ih =>
    intro l' r d e hl
    cases l' with
    | nil => simp at e
    | cons e' l' =>
      simp only [List.cons_append, List.cons.injEq] at e
      obtain ⟨rfl, e⟩ := e
      exact ih (hT _) _ _ _ e hl
  | @bus r f d l _ ih =>
    intro l' r' d' e hl
    cases l' with
    | nil =>
      simp only [List.nil_append, List.cons.injEq, Event.bus.injEq] at e
      rw [← e.1.1]; exact hT.1
    | cons e' l' =>
      simp only [List.cons_append, List.cons.injEq] at e
      obtain ⟨rfl, e⟩ := e
      exact ih (hT.2 _ hl.1) _ _ _ e hl.2

/-- A program with an invariant only makes requests in `K`. -/
theorem asks_program {K : Req → Prop} {I : Arch → Plat k → Prop}
    (hpc : ∀ a P, I a P → K (fetchReq a) ∧ a.pc.toNat < 0x02000000)
    (hstep : ∀ a P, I a P → Asks K I (exec .asBuilt a (P.ram ((wordAdr a.pc).setWidth k))) P)
    {a : Arch} {P : Plat k} (h0 : I a P) {l : List Event} {r : Req} {d : Word}
    (hb : Behaves (cycle .asBuilt) (fetch a) (l ++ [.bus r d])) (hl : PlatTrace P l) : K r := by
  have hfetch : ∀ a P, I a P →
      Asks K (fun (x : Arch × Word) P => I x.1 P ∧ x.2 = P.ram ((wordAdr x.1.pc).setWidth k)) (fetch a) P := by
    intro a P hi
    refine ⟨(hpc a P hi).1, fun d hd => ?_⟩
    obtain ⟨t, h1, h2⟩ := hd
    have ht := fetch_target (hpc a P hi).2
    rw [ht] at h1; cases h1
    have e : P.after (fetchReq a) = P := by simp [Plat.after, fetchReq]
    exact ⟨by rw [e]; exact hi, by rw [e]; exact h2 rfl⟩
  refine Asks.behaves (fun x P hx => ?_) (hfetch a P h0) hb l r d rfl hl
  have := hstep _ _ hx.1
  rw [← hx.2] at this
  exact this.bind fun a P hi => hfetch a P hi

end Spec

end Sentinel
