import Verif.Spec.Platform
/-!
# Proving programs on the platform

Weakest preconditions for the instruction-set machine on the platform: an invariant of a program, checked
instruction by instruction, holds in every behaviour.
-/

namespace Sentinel.Spec

variable {k : Nat} {α : Type}

/-- A read of one of the first 28 words of RAM (the programs proved here are no longer than that), or a write to the LED
register: these are the same with either kind of peripherals. -/
def Req.Common (r : Req) : Prop :=
  (r.target = some .ram ∧ r.we = false ∧ r.byteAdr < 112) ∨ r.we = true ∧ r.byteAdr = 0x02000000

theorem Req.Common.isSome {r : Req} (h : r.Common) : r.target.isSome = true := by
  rcases h with ⟨h, -⟩ | ⟨-, h⟩
  · rw [h]; rfl
  · rw [Req.target, h]; rfl

/-- Whatever the platform answers, the computation `T`, started on platform `P` after the LED outputs
`h`, only makes `Common` requests, keeps the outputs in `G`, and ends in `Q`. -/
def Wp (G : List (BitVec 8) → Prop) (Q : α → Plat k → List (BitVec 8) → Prop) :
    Tree α → Plat k → List (BitVec 8) → Prop
  | .ret x, P, h => Q x P h
  | .poll f, P, h => ∀ b, Wp G Q (f b) P h
  | .bus r f, P, h => r.Common ∧ G (h ++ r.ledWrite.toList) ∧
      ∀ d, P.Answers r d → Wp G Q (f d) (P.after r) (h ++ r.ledWrite.toList)

variable {G : List (BitVec 8) → Prop}

theorem Wp.bind {β : Type} {Q : α → Plat k → List (BitVec 8) → Prop} {R : β → Plat k → List (BitVec 8) → Prop}
    {T : Tree α} {f : α → Tree β} {P : Plat k} {h : List (BitVec 8)} (hT : Wp G Q T P h)
    (hf : ∀ x P h, Q x P h → Wp G R (f x) P h) : Wp G R (T.bind f) P h := by
  induction T generalizing P h with
  | ret x => exact hf _ _ _ hT
  | poll g ih => exact fun b => ih b (hT b)
  | bus r g ih => exact ⟨hT.1, hT.2.1, fun d hd => ih d (hT.2.2 d hd)⟩

theorem Wp.path {Q : α → Plat k → List (BitVec 8) → Prop} {T : Tree α} {P : Plat k} {h : List (BitVec 8)}
    (hT : Wp G Q T P h) {l : List Event} {x : α} (hp : T.Path l x) (hl : PlatTrace P l) :
    Q x (P.afterAll l) (h ++ ledOut l) := by
  induction hp generalizing P h with
  | ret x => rw [ledOut, List.append_nil]; exact hT
  | poll _ ih => exact ih (hT _) hl
  | bus _ ih =>
    have := ih (hT.2.2 _ hl.1) hl.2
    rwa [List.append_assoc] at this

/-- In every behaviour of a machine with invariant `Q` every request is `Common`, and the outputs stay in `G`. -/
theorem Wp.behaves {Q : α → Plat k → List (BitVec 8) → Prop} {next : α → Tree α}
    (hn : ∀ x P h, Q x P h → Wp G Q (next x) P h) {T : Tree α} {P : Plat k} {h : List (BitVec 8)}
    (hT : Wp G Q T P h) (hG : G h) {l : List Event} (hb : Behaves next T l) :
    (PlatTrace P l → G (h ++ ledOut l)) ∧
      ∀ l' r d, l = l' ++ [.bus r d] → PlatTrace P l' → r.Common := by
  induction hb generalizing P h with
  | stop t => exact ⟨fun _ => by simpa [ledOut] using hG, fun l' r d e => by simp at e⟩
  | ret _ ih => exact ih (hn _ _ _ hT) hG
  | poll _ ih =>
    obtain ⟨i1, i2⟩ := ih (hT _) hG
    refine ⟨i1, fun l' r d e hl => ?_⟩
    cases l' with
    | nil => simp at e
    | cons e' l' =>
      simp only [List.cons_append, List.cons.injEq] at e
      obtain ⟨rfl, e⟩ := e
      exact i2 _ _ _ e hl
  | @bus r f d l _ ih =>
    refine ⟨fun hl => ?_, fun l' r' d' e hl => ?_⟩
    · have := (ih (hT.2.2 _ hl.1) hT.2.1).1 hl.2
      rwa [List.append_assoc] at this
    · cases l' with
      | nil =>
        simp only [List.nil_append, List.cons.injEq, Event.bus.injEq] at e
        rw [← e.1.1]; exact hT.1
      | cons e' l' =>
        simp only [List.cons_append, List.cons.injEq] at e
        obtain ⟨rfl, e⟩ := e
        exact (ih (hT.2.2 _ hl.1) hT.2.1).2 _ _ _ e hl.2

/-- An invariant `I` of a program: in a state of `I` the next instruction is in the first 28 words of RAM, and executing it
leads to `I` again, making progress: the outputs grow or `R` holds of the new and the old state. -/
structure ProgInv (G : List (BitVec 8) → Prop) (I : Arch → Plat k → List (BitVec 8) → Prop) (R : Arch → Arch → Prop) :
    Prop where
  pc : ∀ {a P h}, I a P h → a.pc.toNat < 112
  ok : ∀ {a P h}, I a P h → G h
  step : ∀ {a P h}, I a P h → Wp G (fun a' P' h' => I a' P' h' ∧ (h.length < h'.length ∨ h' = h ∧ R a' a))
    (exec .asBuilt a (P.ram ((wordAdr a.pc).setWidth k))) P h

theorem ledWrite_read {r : Req} (h : r.we = false) : r.ledWrite = none := by simp [Req.ledWrite, h]

theorem fetch_target {a : Arch} (h : a.pc.toNat < 0x02000000) : (fetchReq a).target = some .ram := by
  have : (wordAdr a.pc).toNat = a.pc.toNat / 4 := by
    simp [wordAdr, BitVec.extractLsb'_toNat, Nat.shiftRight_eq_div_pow]
    omega
  rw [Req.target, Req.byteAdr, fetchReq, this, target, if_pos (by omega)]

theorem fetch_common {a : Arch} (h : a.pc.toNat < 112) : (fetchReq a).Common := by
  refine .inl ⟨fetch_target (by omega), rfl, ?_⟩
  have : (wordAdr a.pc).toNat = a.pc.toNat / 4 := by
    simp [wordAdr, BitVec.extractLsb'_toNat, Nat.shiftRight_eq_div_pow]
    omega
  show 4 * (wordAdr a.pc).toNat < 112
  omega

section
variable {I : Arch → Plat k → List (BitVec 8) → Prop} {R : Arch → Arch → Prop}

/-- The invariant after a fetch. -/
def Fetched (I : Arch → Plat k → List (BitVec 8) → Prop) (x : Arch × Word) (P : Plat k) (h : List (BitVec 8)) : Prop :=
  I x.1 P h ∧ x.2 = P.ram ((wordAdr x.1.pc).setWidth k)

theorem ProgInv.fetch (hI : ProgInv G I R) {a : Arch} {P : Plat k} {h : List (BitVec 8)} (h0 : I a P h) :
    Wp G (Fetched I) (fetch a) P h := by
  have ht := fetch_target (Nat.lt_trans (hI.pc h0) (by decide))
  have hw : (fetchReq a).ledWrite = none := ledWrite_read rfl
  refine ⟨fetch_common (hI.pc h0), by rw [hw]; simpa using hI.ok h0, fun d hd => ?_⟩
  obtain ⟨t, h1, h2⟩ := hd
  rw [ht] at h1; cases h1
  rw [hw]
  refine ⟨by simpa [Plat.after, fetchReq] using h0, ?_⟩
  have := h2 rfl
  simpa [Plat.after, fetchReq] using this

theorem ProgInv.next (hI : ProgInv G I R) (x : Arch × Word) (P : Plat k) (h : List (BitVec 8))
    (hx : Fetched I x P h) : Wp G (Fetched I) (cycle .asBuilt x) P h := by
  obtain ⟨h1, h2⟩ := hx
  have := hI.step h1
  rw [← h2] at this
  exact this.bind fun a P h h' => hI.fetch h'.1

theorem ProgInv.behaves (hI : ProgInv G I R) {a : Arch} {P : Plat k} {h : List (BitVec 8)} (h0 : I a P h)
    {l : List Event} (hb : Behaves (cycle .asBuilt) (Spec.fetch a) l) :
    (PlatTrace P l → G (h ++ ledOut l)) ∧
      ∀ l' r d, l = l' ++ [.bus r d] → PlatTrace P l' → r.Common :=
  Wp.behaves hI.next (hI.fetch h0) (hI.ok h0) hb

/-- One instruction makes progress. -/
theorem ProgInv.path (hI : ProgInv G I R) {x y : Arch × Word} {P : Plat k} {h : List (BitVec 8)}
    (hx : Fetched I x P h) {l : List Event} (hp : (cycle .asBuilt x).Path l y) (hl : PlatTrace P l) :
    Fetched I y (P.afterAll l) (h ++ ledOut l) ∧
      (ledOut l ≠ [] ∨ ledOut l = [] ∧ R y.1 x.1) := by
  obtain ⟨h1, h2⟩ := hx
  have hs := hI.step h1
  rw [← h2] at hs
  have hw : Wp G (fun y P' h' => Fetched I y P' h' ∧ (h.length < h'.length ∨ h' = h ∧ R y.1 x.1))
      (cycle .asBuilt x) P h := by
    refine hs.bind fun a P' h' hQ => ?_
    have ht := fetch_target (Nat.lt_trans (hI.pc hQ.1) (by decide))
    have hw : (fetchReq a).ledWrite = none := ledWrite_read rfl
    refine ⟨fetch_common (hI.pc hQ.1), by rw [hw]; simpa using hI.ok hQ.1, fun d hd => ?_⟩
    obtain ⟨t, g1, g2⟩ := hd
    rw [ht] at g1; cases g1
    rw [hw]
    refine ⟨⟨by simpa [Plat.after, fetchReq] using hQ.1, ?_⟩, by simpa using hQ.2⟩
    have := g2 rfl
    simpa [Plat.after, fetchReq] using this
  obtain ⟨g1, g2⟩ := hw.path hp hl
  refine ⟨g1, ?_⟩
  rcases g2 with g2 | ⟨g2, g3⟩
  · left; intro e; rw [e] at g2; simp at g2
  · right; exact ⟨by simpa using g2, g3⟩

end

end Sentinel.Spec
