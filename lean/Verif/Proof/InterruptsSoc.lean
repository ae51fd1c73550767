import Verif.Spec.InterruptsSoc
import Verif.Proof.Interrupts
import Verif.Proof.Portable
/-!
# A program that is interrupted on the example SoC does what it does without interrupts
-/

set_option linter.unusedSimpArgs false

namespace Sentinel
open Ucode Spec

variable {k : Nat}

/-! ## Traces of a kind of platform -/

section
variable {K : Kind k}

theorem kAfter_append (P : Plat k) (l l' : List Event) : K.afterAll P (l ++ l') = K.afterAll (K.afterAll P l) l' := by
  induction l generalizing P with
  | nil => rfl
  | cons e l ih => cases e <;> exact ih _

theorem kTrace_append {P : Plat k} {l l' : List Event} : K.Trace P (l ++ l') ↔ K.Trace P l ∧ K.Trace (K.afterAll P l) l' := by
  induction l generalizing P with
  | nil => simp [Kind.Trace, Kind.afterAll]
  | cons e l ih =>
    cases e with
    | poll b => exact ih
    | bus r d => simp only [List.cons_append, Kind.Trace, Kind.afterAll, ih, and_assoc]

theorem kTrace_wb {P : Plat k} {l : List Event} : Kind.wb.Trace P l ↔ PlatTrace P l := by
  induction l generalizing P with
  | nil => exact Iff.rfl
  | cons e l ih => cases e <;> simp only [Kind.Trace, PlatTrace, ih] <;> rfl

theorem kAfter_wb {P : Plat k} {l : List Event} : Kind.wb.afterAll P l = P.afterAll l := by
  induction l generalizing P with
  | nil => rfl
  | cons e l ih => cases e <;> simp only [Kind.afterAll, Plat.afterAll, ih] <;> rfl

theorem kTrace_csr {P : Plat k} {l : List Event} : Kind.csr.Trace P l ↔ PlatTraceCsr P l := by
  induction l generalizing P with
  | nil => exact Iff.rfl
  | cons e l ih => cases e <;> simp only [Kind.Trace, PlatTraceCsr, ih] <;> rfl

theorem kAfter_csr {P : Plat k} {l : List Event} : Kind.csr.afterAll P l = P.afterAllCsr l := by
  induction l generalizing P with
  | nil => rfl
  | cons e l ih => cases e <;> simp only [Kind.afterAll, Plat.afterAllCsr, ih] <;> rfl
end

/-- A kind of peripherals that treats RAM and outputs as the machine of the specification does. -/
structure _root_.Sentinel.Spec.Kind.Std (K : Kind k) : Prop where
  std : Standard K.answers K.after
  low : ∀ n, n < 0x0200000C → K.mapped n
  word : ∀ n, K.mapped n → K.mapped (4 * (n / 4))

theorem std_wb : (Kind.wb (k := k)).Std := by
  refine ⟨standard_wb, fun n hn => ?_, fun n hn => ?_⟩
  · show (Spec.target n).isSome = true
    unfold Spec.target
    split
    · rfl
    · rw [if_pos (by omega)]; rfl
  · have hn : (Spec.target n).isSome = true := hn
    show (Spec.target (4 * (n / 4))).isSome = true
    have : Spec.target (4 * (n / 4)) = Spec.target n := by
      unfold Spec.target
      have e1 : (4 * (n / 4) < 0x02000000) = (n < 0x02000000) := by rw [eq_iff_iff]; omega
      have e2 : (4 * (n / 4) < 0x04000000) = (n < 0x04000000) := by rw [eq_iff_iff]; omega
      have e3 : (4 * (n / 4) < 0x40000000) = (n < 0x40000000) := by rw [eq_iff_iff]; omega
      have e4 : (4 * (n / 4) < 0x80000000) = (n < 0x80000000) := by rw [eq_iff_iff]; omega
      have e5 : (4 * (n / 4) < 0xC0000000) = (n < 0xC0000000) := by rw [eq_iff_iff]; omega
      simp only [e1, e2, e3, e4, e5]
    rw [this]; exact hn

theorem std_csr : (Kind.csr (k := k)).Std := by
  refine ⟨standard_csr, fun n hn => ?_, fun n hn => ?_⟩
  · show (Spec.csrTarget n).isSome = true
    unfold Spec.csrTarget
    split
    · rfl
    · rw [if_pos (by omega)]; rfl
  · have hn : (Spec.csrTarget n).isSome = true := hn
    show (Spec.csrTarget (4 * (n / 4))).isSome = true
    have : Spec.csrTarget (4 * (n / 4)) = Spec.csrTarget n := by
      unfold Spec.csrTarget
      have e1 : (4 * (n / 4) < 0x02000000) = (n < 0x02000000) := by rw [eq_iff_iff]; omega
      have e2 : (4 * (n / 4) < 0x04000000) = (n < 0x04000000) := by rw [eq_iff_iff]; omega
      simp only [e1, e2]
    rw [this]; exact hn

/-! ## Requests -/

theorem wordAdr_toNat (adr : Word) : (wordAdr adr).toNat = adr.toNat / 4 := by
  simp [wordAdr, BitVec.extractLsb'_toNat, Nat.shiftRight_eq_div_pow]
  omega

theorem read_byteAdr (adr : Word) (n : Nat) : (readReq adr n).byteAdr = 4 * (adr.toNat / 4) := by
  show 4 * (wordAdr adr).toNat = _
  rw [wordAdr_toNat]

theorem write_byteAdr (adr : Word) (n : Nat) (v : Word) : (writeReq adr n v).byteAdr = 4 * (adr.toNat / 4) := by
  show 4 * (wordAdr adr).toNat = _
  rw [wordAdr_toNat]

theorem fetch_byteAdr (a : Arch) : (fetchReq a).byteAdr = 4 * (a.pc.toNat / 4) := by
  show 4 * (wordAdr a.pc).toNat = _
  rw [wordAdr_toNat]

theorem fetch_portable {a : Arch} : (fetchReq a).Portable ↔ a.pc.toNat < 0x02000000 := by
  constructor
  · intro h
    have := portable_read h rfl
    rw [fetch_byteAdr] at this; omega
  · intro h
    refine .inl ?_
    rw [fetch_byteAdr]; omega

/-! ## Computations without bus accesses -/

def BusFree {α : Type} : Tree α → Prop
  | .ret _ => True
  | .poll f => ∀ b, BusFree (f b)
  | .bus _ _ => False

theorem noBus_path {α : Type} {K : Kind k} {T : Tree α} {l : List Event} {x : α} (hp : T.Path l x) (h : BusFree T) (P : Plat k) :
    K.afterAll P l = P ∧ ∀ M : Mem k, MemTrace M l ∧ M.afterAll l = M := by
  induction hp with
  | ret x => exact ⟨rfl, fun M => ⟨trivial, rfl⟩⟩
  | poll _ ih => exact ih (h _)
  | bus _ _ => exact absurd h id

theorem noBus_onPlat {α : Type} {T : Tree α} (h : BusFree T) (P : Plat k) (M : Mem k) :
    T.onPlat P = some ((T.onMem false M).1, P) ∧ (T.onMem false M).2 = M := by
  induction T with
  | ret x => exact ⟨rfl, rfl⟩
  | poll f ih => exact ih false (h false)
  | bus r f _ => exact absurd h id

/-- The instruction is a load or a store. -/
def _root_.Sentinel.Spec.Instr.isAccess : Instr → Bool
  | .load .. => true
  | .store .. => true
  | _ => false

theorem noBus_exec (a : Arch) (ins : Instr) (h : ins.isAccess = false) : BusFree (execInstr .asBuilt a ins) := by
  cases ins <;> first | (cases h; done) | simp only [execInstr]
  all_goals first
    | trivial
    | (split <;> first | trivial | (split <;> trivial))
    | skip
  rename_i op rd src adr
  intro b
  beta_reduce
  by_cases hb : (b && a.intEnabled) = true
  · rw [if_pos hb]; trivial
  · rw [if_neg hb]
    cases hk : csrKind adr with
    | absent => trivial
    | zero => dsimp only; split <;> trivial
    | impl c =>
      show BusFree (execCsr _ _ _ _ _)
      simp only [execCsr]
      split
      · intro b; beta_reduce; split
        · exact fun _ => trivial
        · trivial
      · trivial

/-! ## One instruction of the program -/

/-- What is the same in the two runs. -/
structure AlikeSoc (R : BitVec k → Prop) (V : Nat → Prop) (ar : Arch) (Pr : Plat k) (a : Arch) (P : Plat k) : Prop where
  same : ar.Same a
  mpie : a.mpie = ar.mpie ∨ a.mpie = true
  ram : ∀ i, ¬ R i → P.ram i = Pr.ram i
  out : ∀ n, ¬ V n → P.out n = Pr.out n

theorem out_ram (P : Plat k) (M : Mem k) (n : Nat) : Plat.out { P with ram := M } n = P.out n := by
  unfold Plat.out; split <;> rfl

theorem out_set (P : Plat k) (v : BitVec 8) (i n : Nat) (hi : i < 3) : (P.setLeds i v).out n = if n = i then v else P.out n := by
  unfold Plat.setLeds
  obtain rfl | rfl | rfl : i = 0 ∨ i = 1 ∨ i = 2 := by omega
  all_goals (unfold Plat.out; split <;> simp_all)

theorem ram_set (P : Plat k) (v : BitVec 8) (i : Nat) : (P.setLeds i v).ram = P.ram := by
  unfold Plat.setLeds; split <;> rfl

/-- What a store of the program does. -/
theorem after_store {P : Plat k} {r : Req} (hw : r.we = true) (hp : r.Portable) :
    (r.byteAdr < 0x02000000 ∧ P.after r = { P with ram := P.ram.after r }) ∨
    ∃ n, n < 3 ∧ r.byteAdr = 0x02000000 + 4 * n ∧ P.after r = if r.sel.getLsbD 0 then P.setLeds n (byteOf r.data 0) else P := by
  unfold Plat.after
  rw [if_pos hw]
  rcases hp with h | ⟨-, h⟩
  · left
    refine ⟨h, ?_⟩
    rw [Req.target, target, if_pos h]
  · right
    have : ∃ n, n < 3 ∧ r.byteAdr = 0x02000000 + 4 * n := by
      simp only [List.mem_cons, List.not_mem_nil, or_false] at h
      rcases h with h | h | h
      · exact ⟨0, by omega, by omega⟩
      · exact ⟨1, by omega, by omega⟩
      · exact ⟨2, by omega, by omega⟩
    obtain ⟨n, hn, he⟩ := this
    refine ⟨n, hn, he, ?_⟩
    rw [Req.target, target, if_neg (by omega), if_pos (by omega), show r.byteAdr / 4 % 4 = n by omega]

theorem isCsr_some {w : Word} (hc : isCsr w = true) : ∃ op rd src adr, decode w = some (.csr op rd src adr) := by
  unfold isCsr at hc
  split at hc
  · next op rd src adr e => exact ⟨op, rd, src, adr, e⟩
  · cases hc

section
variable {K : Kind k} {R : BitVec k → Prop} {V : Nat → Prop} {entry : Word}

/-- One instruction of the program, in the two runs. -/
theorem main_stepSoc (S : K.Std) {ar a a' : Arch} {Pr P : Plat k} {w : Word} {ins : Instr} {l : List Event} {q : Arch × Plat k}
    (h : AlikeSoc R V ar Pr a P) (hA : ApartSoc R V entry ar w) (hw : decode w = some ins)
    (hp : (execInstr .asBuilt a ins).Path l a') (hM : K.Trace P l)
    (hc : isCsr w = true → ∀ b l', l = .poll b :: l' → (b && a.intEnabled) = false)
    (hq : (execInstr .asBuilt ar ins).onPlat Pr = some q) :
    AlikeSoc R V q.1 q.2 a' (K.afterAll P l) ∧ (∀ i, R i → (K.afterAll P l).ram i = P.ram i) ∧ ∀ n, V n → (K.afterAll P l).out n = P.out n := by
  have hs := h.same
  have hr := fun r => same_reg hs r
  have hpc := same_pc' hs
  by_cases hi : ins.isAccess = true
  · have hexc := hA.exc
    unfold excCause at hexc
    rw [hw] at hexc
    cases ins <;> first | (cases hi; done) | skip
    · rename_i op rd rs1 imm
      have hd := hA.ram (ar.reg rs1 + imm.signExtend 32) (by simp [dataAdr, hw])
      simp only [execInstr, hr] at hp hq
      dsimp only at hexc
      split at hexc
      · cases hexc
      · next hx =>
        have hx : aligned (ar.reg rs1 + imm.signExtend 32) op.size = true := by simpa only [aligned, ne_eq, Decidable.not_not, decide_eq_true_eq] using hx
        rw [if_pos hx] at hp hq
        rw [Tree.onPlat] at hq
        split at hq
        · next hpo =>
          obtain rfl := Option.some.inj hq
          have hlt := portable_read hpo rfl
          rw [read_byteAdr] at hlt
          cases hp with
          | @bus _ _ d _ _ hp =>
            cases hp
            have hd' : d = P.ram (wordIdx k (ar.reg rs1 + imm.signExtend 32)) := S.std.ans hpo hM.1 rfl
            rw [h.ram _ (hd (by omega))] at hd'
            subst hd'
            have hP : ∀ P : Plat k, K.after P (readReq (ar.reg rs1 + imm.signExtend 32) op.size) = P := by
              intro P; rw [S.std.after hpo]; rfl
            have e1 : ∀ d, K.afterAll P [.bus (readReq (ar.reg rs1 + imm.signExtend 32) op.size) d] = P := fun _ => hP P
            rw [e1]
            refine ⟨⟨?_, ?_, h.ram, h.out⟩, fun _ _ => rfl, fun _ _ => rfl⟩
            · have h1 := same_set hs rd (loadValue op (ar.reg rs1 + imm.signExtend 32) (Pr.ram (wordIdx k (ar.reg rs1 + imm.signExtend 32))))
              unfold Arch.next; rw [same_pc' h1]; exact same_pc h1 _
            · show (a.setReg rd _).mpie = (ar.setReg rd _).mpie ∨ (a.setReg rd _).mpie = true
              rw [set_mpie, set_mpie]; exact h.mpie
        · cases hq
    · rename_i op rs1 rs2 imm
      have hd := hA.ram (ar.reg rs1 + imm.signExtend 32) (by simp [dataAdr, hw])
      have hd2 := fun n => hA.out (ar.reg rs1 + imm.signExtend 32) n (by simp [dataAdr, hw])
      simp only [execInstr, hr] at hp hq
      dsimp only at hexc
      split at hexc
      · cases hexc
      · next hx =>
        have hx : aligned (ar.reg rs1 + imm.signExtend 32) op.size = true := by simpa only [aligned, ne_eq, Decidable.not_not, decide_eq_true_eq] using hx
        rw [if_pos hx] at hp hq
        rw [Tree.onPlat] at hq
        split at hq
        · next hpo =>
          obtain rfl := Option.some.inj hq
          cases hp with
          | @bus _ _ d _ _ hp =>
            cases hp
            have hnext : ar.next.Same a.next ∧ (a.next.mpie = ar.next.mpie ∨ a.next.mpie = true) := by
              refine ⟨?_, h.mpie⟩
              unfold Arch.next; rw [hpc]; exact same_pc hs _
            have e1 : K.afterAll P [.bus (writeReq (ar.reg rs1 + imm.signExtend 32) op.size (ar.reg rs2)) d] =
              P.after (writeReq (ar.reg rs1 + imm.signExtend 32) op.size (ar.reg rs2)) := S.std.after hpo
            rw [e1]
            dsimp only
            set r := writeReq (ar.reg rs1 + imm.signExtend 32) op.size (ar.reg rs2) with hrd
            have hadr : r.byteAdr = 4 * ((ar.reg rs1 + imm.signExtend 32).toNat / 4) := write_byteAdr _ _ _
            rcases after_store (P := P) rfl hpo with ⟨h1, h2⟩ | ⟨n, h1, h2, h3⟩
            · rcases after_store (P := Pr) rfl hpo with ⟨-, h2'⟩ | ⟨n, g1, g2, -⟩
              · rw [h2, h2']
                refine ⟨⟨hnext.1, hnext.2, fun i hi => after_agree h.ram r i hi, fun n hn => ?_⟩, fun i hi => ?_, fun n _ => out_ram _ _ _⟩
                · rw [out_ram, out_ram]; exact h.out n hn
                · refine after_other (M := P.ram) (r := r) fun e => hd (by omega) ?_
                  rw [e] at hi
                  exact hi
              · omega
            · rcases after_store (P := Pr) rfl hpo with ⟨g1, -⟩ | ⟨n', g1, g2, g3⟩
              · omega
              · obtain rfl : n' = n := by omega
                rw [h3, g3]
                have hV : ¬ V n' := hd2 n' h1 (by omega)
                cases r.sel.getLsbD 0 with
                | false =>
                  simp only [Bool.false_eq_true, if_false]
                  refine ⟨⟨hnext.1, hnext.2, h.ram, h.out⟩, ?_, ?_⟩ <;> simp
                | true =>
                  simp only [if_true]
                  refine ⟨⟨hnext.1, hnext.2, fun i hi => ?_, fun m hm => ?_⟩, fun i _ => ?_, fun m hm => ?_⟩
                  · rw [ram_set, ram_set]; exact h.ram i hi
                  · rw [out_set _ _ _ _ h1, out_set _ _ _ _ h1, h.out m hm]
                  · rw [ram_set]
                  · rw [out_set _ _ _ _ h1, if_neg]
                    rintro rfl
                    exact hV hm
        · cases hq
  · have hi : ins.isAccess = false := by simpa using hi
    obtain ⟨e1, e2⟩ := noBus_path (K := K) hp (noBus_exec a ins hi) P
    obtain ⟨e3, e4⟩ := noBus_onPlat (noBus_exec ar ins hi) Pr Pr.ram
    obtain rfl := Option.some.inj (e3.symm.trans hq)
    have hno : ∀ adr, dataAdr ar w = some adr → ¬ R (wordIdx k adr) := by
      intro adr e
      unfold dataAdr at e
      rw [hw] at e
      cases ins <;> first | (cases e; done) | (cases hi; done)
    have key := main_step (M := P.ram) ⟨h.same, h.mpie, h.ram⟩ ⟨hA.vec, hA.fetch, hno, hA.exc, hA.mret, hA.csr⟩ hw hp (e2 _).1 hc
    rw [e1]
    exact ⟨⟨key.1.same, key.1.mpie, h.ram, h.out⟩, fun _ _ => rfl, fun _ _ => rfl⟩

/-! ## The program and the handler -/

/-- The word `w` is dispatched in state `a`, the interrupt line is sampled as `b` and then as in `l`, and an interrupt is taken. -/
def Took (b : Bool) (a : Arch) (w : Word) (l : List Event) : Prop :=
  (b && a.intEnabled) = true ∨ isCsr w = true ∧ ∃ b2 l2, l = .poll b2 :: l2 ∧ (b2 && a.intEnabled) = true

theorem took_path {b : Bool} {a a' : Arch} {w : Word} {l : List Event} (h : Took b a w l) (hp : (exec .asBuilt a w).Path (.poll b :: l) a') (P : Plat k) :
    a' = a.takeInterrupt .asBuilt ∧ K.afterAll P l = P ∧ a.mie = true ∧ a.meie = true := by
  have hen : ∀ b, (b && a.intEnabled) = true → a.mie = true ∧ a.meie = true := by
    intro b h
    simpa [Arch.intEnabled] using (Bool.and_eq_true_iff.1 h).2
  simp only [Spec.exec] at hp
  cases hp with
  | poll hp =>
    beta_reduce at hp
    cases hb : (b && a.intEnabled) with
    | true =>
      rw [hb, if_pos rfl] at hp
      cases hp
      exact ⟨rfl, rfl, hen _ hb⟩
    | false =>
      rcases h with h | ⟨hc, b2, l2, rfl, hb2⟩
      · rw [hb] at h; cases h
      · obtain ⟨op, rd, src, adr, hd⟩ := isCsr_some hc
        rw [hb, if_neg (by simp), hd] at hp
        simp only [execInstr] at hp
        cases hp with
        | poll hp =>
          beta_reduce at hp
          rw [if_pos hb2] at hp
          cases hp
          exact ⟨rfl, rfl, hen _ hb2⟩

variable {I : Nat → Plat k → Prop} {P0 : Plat k} {a0 : Arch}

/-- What a state in the program or the handler looks like: `GoodSoc … b n c a P` as the constructors of `Thread`. -/
def GoodSoc (K : Kind k) (P0 : Plat k) (a0 : Arch) (R : BitVec k → Prop) (V : Nat → Prop) (I : Nat → Plat k → Prop) (b : Bool) (n c : Nat) (a : Arch) (P : Plat k) : Prop :=
  ∃ q, quietRun P0 a0 n = some q ∧
    match b with
    | false => AlikeSoc R V q.1.1 q.2 a P ∧ I c P
    | true => ∃ a1 P1, AlikeSoc R V q.1.1 q.2 a1 P1 ∧
        K.Returns (fun a' P' => a1.Same a' ∧ a'.mpie = true ∧ (∀ i, ¬ R i → P'.ram i = P1.ram i) ∧ (∀ n, ¬ V n → P'.out n = P1.out n) ∧ I (c + 1) P') a P

theorem onPlat_bind {α β : Type} (T : Tree α) (f : α → Tree β) (P : Plat k) :
    (T.bind f).onPlat P = (T.onPlat P).bind fun q => (f q.1).onPlat q.2 := by
  induction T generalizing P with
  | ret x => rfl
  | poll g ih => exact ih false P
  | bus r g ih =>
    rw [Tree.bind_bus, Tree.onPlat, Tree.onPlat]
    split
    · exact ih _ _
    · rfl

theorem onPlat_fetch {a : Arch} {P : Plat k} {q : (Arch × Word) × Plat k} (h : (fetch a).onPlat P = some q) :
    a.pc.toNat < 0x02000000 ∧ q = ((a, P.ram.word a.pc), P) := by
  rw [fetch, Tree.onPlat] at h
  split at h
  · next hp =>
    obtain rfl := Option.some.inj h
    exact ⟨fetch_portable.1 hp, rfl⟩
  · cases h

/-- One more instruction without interrupts. -/
theorem quiet_succ {n : Nat} {q q' : (Arch × Word) × Plat k} (h : quietRun P0 a0 n = some q) (h' : quietRun P0 a0 (n + 1) = some q') :
    ∃ x, (exec .asBuilt q.1.1 q.1.2).onPlat q.2 = some x ∧ x.1.pc.toNat < 0x02000000 ∧ q' = ((x.1, x.2.ram.word x.1.pc), x.2) := by
  rw [quietRun, h, Option.bind_some, cycle, onPlat_bind] at h'
  cases hx : (exec .asBuilt q.1.1 q.1.2).onPlat q.2 with
  | none => rw [hx] at h'; cases h'
  | some x =>
    rw [hx, Option.bind_some] at h'
    exact ⟨x, rfl, onPlat_fetch h'⟩

theorem quiet_word {n : Nat} {q : (Arch × Word) × Plat k} (h : quietRun P0 a0 n = some q) : q.1.1.pc.toNat < 0x02000000 ∧ q.1.2 = q.2.ram.word q.1.1.pc := by
  cases n with
  | zero =>
    obtain ⟨h1, rfl⟩ := onPlat_fetch h
    exact ⟨h1, rfl⟩
  | succ n =>
    cases hn : quietRun P0 a0 n with
    | none => rw [quietRun, hn] at h; cases h
    | some p =>
      obtain ⟨x, -, h1, rfl⟩ := quiet_succ hn h
      exact ⟨h1, rfl⟩

theorem exec_onPlat {a : Arch} {w : Word} {ins : Instr} (hw : decode w = some ins) (P : Plat k) :
    (exec .asBuilt a w).onPlat P = (execInstr .asBuilt a ins).onPlat P := by
  simp [Spec.exec, Tree.onPlat, hw]

theorem _root_.Sentinel.AlikeSoc.word {ar a : Arch} {Pr P : Plat k} (h : AlikeSoc R V ar Pr a P) (hn : ¬ R (wordIdx k ar.pc)) : P.ram.word a.pc = Pr.ram.word ar.pc := by
  rw [same_pc' h.same]; exact h.ram _ hn

variable (S : K.Std) (H : SetupSoc K P0 a0 R V I entry)
include H

theorem good_word {n c : Nat} {a : Arch} {P : Plat k} (h : GoodSoc K P0 a0 R V I false n c a P) :
    ∃ q, quietRun P0 a0 n = some q ∧ AlikeSoc R V q.1.1 q.2 a P ∧ I c P ∧ ApartSoc R V entry q.1.1 q.1.2 ∧ P.ram.word a.pc = q.1.2 ∧ a.pc.toNat < 0x02000000 := by
  obtain ⟨q, hq, hA, hI⟩ := h
  obtain ⟨q', hq', hap⟩ := H.apart n
  obtain rfl := Option.some.inj (hq.symm.trans hq')
  obtain ⟨h1, h2⟩ := quiet_word hq
  exact ⟨q, hq, hA, hI, hap, by rw [h2, hA.word hap.fetch], by rw [same_pc' hA.same]; exact h1⟩

theorem good_enter {n c : Nat} {a a' : Arch} {P : Plat k} {b : Bool} {l : List Event} (h : GoodSoc K P0 a0 R V I false n c a P)
    (hp : (exec .asBuilt a (P.ram.word a.pc)).Path (.poll b :: l) a') (ht : Took b a (P.ram.word a.pc) l) :
    GoodSoc K P0 a0 R V I true n c a' (K.afterAll P l) := by
  obtain ⟨q, hq, hA, hI, hap, -, -⟩ := good_word H h
  obtain ⟨rfl, h2, h3, h4⟩ := took_path ht hp P
  rw [h2]
  refine ⟨q, hq, a, P, hA, H.handler.returns c a P hI ?_ h3 h4⟩
  have hs := hA.same
  unfold Arch.Same at hs
  rw [hs] at h3 h4 ⊢
  exact hap.vec h3 h4

include S in
theorem good_retire {n c : Nat} {a a' : Arch} {P : Plat k} {b : Bool} {l : List Event} (h : GoodSoc K P0 a0 R V I false n c a P)
    (hp : (exec .asBuilt a (P.ram.word a.pc)).Path (.poll b :: l) a') (hM : K.Trace P l) (ht : ¬ Took b a (P.ram.word a.pc) l) :
    GoodSoc K P0 a0 R V I false (n + 1) c a' (K.afterAll P l) := by
  obtain ⟨q, hq, hA, hI, hap, hw, -⟩ := good_word H h
  obtain ⟨q', hq', -⟩ := H.apart (n + 1)
  obtain ⟨x, hx, -, rfl⟩ := quiet_succ hq hq'
  rw [hw] at hp ht
  refine ⟨_, hq', ?_⟩
  cases hdw : decode q.1.2 with
  | none => have := hap.exc; unfold excCause at this; rw [hdw] at this; cases this
  | some ins =>
    rw [exec_onPlat hdw] at hx
    simp only [Spec.exec] at hp
    cases hp with
    | poll hp =>
      have hb : (b && a.intEnabled) = false := by
        rw [← Bool.not_eq_true]; exact fun g => ht (.inl g)
      beta_reduce at hp
      rw [hb, hdw] at hp
      simp only [Bool.false_eq_true, if_false] at hp
      obtain ⟨k1, k2, k3⟩ := main_stepSoc S hA hap hdw hp hM (by
        intro hc b2 l2 e
        rw [← Bool.not_eq_true]
        exact fun g => ht (.inr ⟨hc, b2, l2, e, g⟩)) hx
      exact ⟨k1, H.handler.own c _ _ k2 k3 hI⟩

omit H in
theorem good_inside {n c : Nat} {a a' : Arch} {P : Plat k} {l : List Event} (h : GoodSoc K P0 a0 R V I true n c a P)
    (hp : (exec .asBuilt a (P.ram.word a.pc)).Path l a') (hM : K.Trace P l) (hne : P.ram.word a.pc ≠ mretWord) :
    GoodSoc K P0 a0 R V I true n c a' (K.afterAll P l) := by
  obtain ⟨q, hq, a1, P1, hA, hR⟩ := h
  refine ⟨q, hq, a1, P1, hA, ?_⟩
  cases hR with
  | mret _ h1 _ => exact absurd h1 hne
  | step _ _ _ h2 => exact h2 _ _ ⟨l, hp, hM, rfl⟩

omit H in
theorem good_leave {n c : Nat} {a a' : Arch} {P : Plat k} {l : List Event} (h : GoodSoc K P0 a0 R V I true n c a P)
    (hp : (exec .asBuilt a (P.ram.word a.pc)).Path l a') (hM : K.Trace P l) (he : P.ram.word a.pc = mretWord) :
    GoodSoc K P0 a0 R V I false n (c + 1) a' (K.afterAll P l) := by
  obtain ⟨q, hq, a1, P1, hA, hR⟩ := h
  refine ⟨q, hq, ?_⟩
  cases hR with
  | step _ h1 _ _ => exact absurd he h1
  | mret _ _ h2 =>
    obtain ⟨g1, g2, g3, g4, g5⟩ := h2 _ _ ⟨l, hp, hM, rfl⟩
    refine ⟨⟨?_, .inr g2, fun i hi => (g3 i hi).trans (hA.ram i hi), fun i hi => (g4 i hi).trans (hA.out i hi)⟩, g5⟩
    have := hA.same
    unfold Arch.Same at this g1 ⊢
    rw [g1, this]

/-- Every state is followed by another. -/
theorem good_next (S : K.Std) {β : Bool} {n c : Nat} {a a' : Arch} {P : Plat k} {b : Bool} {l : List Event} (h : GoodSoc K P0 a0 R V I β n c a P)
    (hp : (exec .asBuilt a (P.ram.word a.pc)).Path (.poll b :: l) a') (hM : K.Trace P l) :
    ∃ β' n' c', GoodSoc K P0 a0 R V I β' n' c' a' (K.afterAll P l) := by
  cases β with
  | false =>
    by_cases ht : Took b a (P.ram.word a.pc) l
    · exact ⟨_, _, _, good_enter H h hp ht⟩
    · exact ⟨_, _, _, good_retire S H h hp hM ht⟩
  | true =>
    by_cases he : P.ram.word a.pc = mretWord
    · exact ⟨_, _, _, good_leave (l := .poll b :: l) h hp hM he⟩
    · exact ⟨_, _, _, good_inside (l := .poll b :: l) h hp hM he⟩

/-- The next instruction is fetched from RAM, and accesses memory where something is. -/
theorem good_mapped (S : K.Std) {β : Bool} {n c : Nat} {a : Arch} {P : Plat k} (h : GoodSoc K P0 a0 R V I β n c a P) :
    a.pc.toNat < 0x02000000 ∧ ∀ adr, dataAdr a (P.ram.word a.pc) = some adr → K.mapped adr.toNat := by
  cases β with
  | true =>
    obtain ⟨q, hq, a1, P1, hA, hR⟩ := h
    cases hR with
    | mret h1 h2 _ =>
      refine ⟨h1, fun adr e => ?_⟩
      rw [h2] at e
      have hd : decode mretWord = some .mret := by decide
      simp [dataAdr, hd] at e
    | step h1 _ h3 _ => exact ⟨h1, h3⟩
  | false =>
    obtain ⟨q, hq, hA, hI, hap, hw, hpc⟩ := good_word H h
    obtain ⟨q', hq', -⟩ := H.apart (n + 1)
    obtain ⟨x, hx, -, rfl⟩ := quiet_succ hq hq'
    refine ⟨hpc, fun adr e => ?_⟩
    rw [hw] at e
    have hr := fun r => same_reg hA.same r
    have hexc := hap.exc
    unfold excCause at hexc
    unfold dataAdr at e
    cases hdw : decode q.1.2 with
    | none => rw [hdw] at e; cases e
    | some ins =>
      rw [hdw] at e hexc
      rw [exec_onPlat hdw] at hx
      cases ins <;> first | (cases e; done) | skip
      · rename_i op rd rs1 imm
        simp only [Option.some.injEq, hr] at e
        simp only [execInstr, e] at hx
        dsimp only at hexc
        rw [e] at hexc
        split at hexc
        · cases hexc
        · next hx' =>
          rw [if_pos (by simpa only [aligned, ne_eq, Decidable.not_not, decide_eq_true_eq] using hx'), Tree.onPlat] at hx
          split at hx
          · next hpo =>
            have := portable_read hpo rfl
            rw [read_byteAdr] at this
            exact S.low _ (by omega)
          · cases hx
      · rename_i op rs1 rs2 imm
        simp only [Option.some.injEq, hr] at e
        simp only [execInstr, e] at hx
        dsimp only at hexc
        rw [e] at hexc
        split at hexc
        · cases hexc
        · next hx' =>
          rw [if_pos (by simpa only [aligned, ne_eq, Decidable.not_not, decide_eq_true_eq] using hx'), Tree.onPlat] at hx
          split at hx
          · next hpo =>
            rw [Req.Portable, write_byteAdr] at hpo
            refine S.low _ ?_
            rcases hpo with h | ⟨-, h⟩
            · omega
            · simp only [List.mem_cons, List.not_mem_nil, or_false] at h
              omega
          · cases hx

end

end Sentinel
