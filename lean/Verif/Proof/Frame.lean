import Verif.Proof.Class
import Verif.Spec.Retire
/-!
# What an instruction leaves alone
-/

set_option linter.unusedSimpArgs false

namespace Sentinel
open Spec

theorem setReg_ne (a : Arch) {rd q : Reg} (v : Word) (h : rd ≠ q) : (a.setReg rd v).reg q = a.reg q := by
  unfold Arch.setReg
  split
  · rfl
  · simp [Arch.reg, Ne.symm h]

theorem setReg_sameCsr (a : Arch) (rd : Reg) (v : Word) (irq : Bool) (c : Csr) : (a.setReg rd v).csrRead irq c = a.csrRead irq c := by
  unfold Arch.setReg
  split
  · rfl
  · cases c <;> rfl

theorem csrWrite_sameReg (a : Arch) (v : Word) (c : Csr) (q : Reg) : (a.csrWrite v c).reg q = a.reg q := by
  cases c <;> rfl

theorem csrWrite_ne (a : Arch) (v : Word) {c c' : Csr} (irq : Bool) (h : c ≠ c') : (a.csrWrite v c).csrRead irq c' = a.csrRead irq c' := by
  cases c <;> cases c' <;> first | rfl | exact absurd rfl h

theorem setReg_samePc (a : Arch) (rd : Reg) (v : Word) : (a.setReg rd v).pc = a.pc := by
  unfold Arch.setReg; split <;> rfl

theorem csrWrite_samePc (a : Arch) (v : Word) (c : Csr) : (a.csrWrite v c).pc = a.pc := by
  cases c <;> rfl

/-- The instructions that go on anywhere else than at the next word. -/
def Jumps : Instr → Prop
  | .jal .. | .jalr .. | .branch .. | .mret => True
  | _ => False

/-- What the instruction `ins` leaves alone if it is completed, with events `l`. -/
structure Kept (a a' : Arch) (ins : Instr) (l : List Event) : Prop where
  regs : ∀ q, destReg ins ≠ some q → a'.reg q = a.reg q
  csrs : ∀ c, destCsr ins ≠ some c → (c = .mstatus → ins ≠ .mret) → a'.csrRead false c = a.csrRead false c
  pc : ¬ Jumps ins → a'.pc = a.pc + 4
  bus : (∀ op rd rs1 imm, ins ≠ .load op rd rs1 imm) → (∀ op rs1 rs2 imm, ins ≠ .store op rs1 rs2 imm) → ∀ e ∈ l, ∃ b, e = .poll b

theorem Kept.set {a : Arch} {ins : Instr} {rd : Reg} {v : Word} (hd : destReg ins = some rd) :
    Kept a (a.setReg rd v).next ins [] where
  regs q hq := by
    have : rd ≠ q := fun e => hq (by rw [hd, e])
    exact setReg_ne a v this
  csrs c _ _ := by
    have := setReg_sameCsr a rd v false c
    cases c <;> exact this
  pc _ := by show (a.setReg rd v).pc + 4 = _; rw [setReg_samePc]
  bus _ _ := by simp

theorem Kept.setJ {a : Arch} {ins : Instr} {rd : Reg} {v p : Word} (hd : destReg ins = some rd) (hj : Jumps ins) :
    Kept a { a.setReg rd v with pc := p } ins [] where
  regs q hq := by
    have : rd ≠ q := fun e => hq (by rw [hd, e])
    exact setReg_ne a v this
  csrs c _ _ := by
    have := setReg_sameCsr a rd v false c
    cases c <;> exact this
  pc h := absurd hj h
  bus _ _ := by simp

theorem Kept.next {a : Arch} {ins : Instr} {l : List Event} (hl : (∀ op rs1 rs2 imm, ins ≠ .store op rs1 rs2 imm) → l = []) : Kept a a.next ins l where
  regs q _ := rfl
  csrs c _ _ := by cases c <;> rfl
  pc _ := rfl
  bus _ h := by rw [hl h]; simp

theorem Kept.csr {a : Arch} {op : CsrOp} {rd : Reg} {src : CsrSrc} {adr : BitVec 12} {c : Csr} {old : Word} {l : List Event}
    (hk : csrKind adr = .impl c) (hl : ∀ e ∈ l, ∃ b, e = Event.poll b) :
    Kept a (if csrWrites op src then (a.setReg rd old).csrWrite (csrNew op old (a.csrOperand src)) c else a.setReg rd old).next
      (.csr op rd src adr) l where
  regs q hq := by
    have : rd ≠ q := fun e => hq (by rw [destReg, e])
    show (if csrWrites op src then _ else _ : Arch).reg q = _
    split
    · rw [csrWrite_sameReg]; exact setReg_ne a old this
    · exact setReg_ne a old this
  csrs c' hc _ := by
    have e : ∀ b : Arch, b.next.csrRead false c' = b.csrRead false c' := fun b => by cases c' <;> rfl
    rw [e]
    split
    · next hw =>
      have : c ≠ c' := fun e => hc (by simp [destCsr, hw, hk, e])
      rw [csrWrite_ne _ _ _ this]; exact setReg_sameCsr ..
    · exact setReg_sameCsr ..
  pc _ := by
    show (if csrWrites op src then _ else _ : Arch).pc + 4 = _
    split
    · rw [csrWrite_samePc, setReg_samePc]
    · rw [setReg_samePc]
  bus _ _ := hl

theorem impl_rw {adr : BitVec 12} {c : Csr} (hk : csrKind adr = .impl c) : csrReadOnly adr = false := by
  unfold csrKind at hk
  by_cases h1 : adr = 0x300#12
  · subst h1; rfl
  by_cases h2 : adr = 0x304#12
  · subst h2; rfl
  by_cases h3 : adr = 0x305#12
  · subst h3; rfl
  by_cases h4 : adr = 0x340#12
  · subst h4; rfl
  by_cases h5 : adr = 0x341#12
  · subst h5; rfl
  by_cases h6 : adr = 0x342#12
  · subst h6; rfl
  by_cases h7 : adr = 0x344#12
  · subst h7; rfl
  rw [if_neg h1, if_neg h2, if_neg h3, if_neg h4, if_neg h5, if_neg h6, if_neg h7] at hk
  repeat' split at hk
  all_goals cases hk

/-- A trap. -/
def Trapped (a a' : Arch) (l : List Event) : Prop :=
  (∃ i c, a' = a.trap .asBuilt i c) ∧ ∀ e ∈ l, ∃ b, e = .poll b

theorem execInstr_frame {a a' : Arch} {w : Word} {ins : Instr} {l : List Event} (hw : decode w = some ins)
    (hp : (execInstr .asBuilt a ins).Path l a') {irq : Bool} (hi : (irq && a.intEnabled) = false) (l2 : List Event) :
    if traps a w (.poll irq :: (l ++ l2)) then Trapped a a' l else Kept a a' ins l := by
  have ht : ∀ c, Trapped a (a.exception .asBuilt c) [] := fun c => ⟨⟨false, c, rfl⟩, by simp⟩
  have no : isCsr w = false → excCause a w = none → Kept a a' ins l →
      if traps a w (.poll irq :: (l ++ l2)) then Trapped a a' l else Kept a a' ins l := by
    intro h1 h2 h3
    simpa [traps, hi, h1, h2] using h3
  have yes : ∀ c, isCsr w = false → excCause a w = some c → Trapped a a' l →
      if traps a w (.poll irq :: (l ++ l2)) then Trapped a a' l else Kept a a' ins l := by
    intro c h1 h2 h3
    simpa [traps, hi, h1, h2] using h3
  have hcsr : (∀ op rd src adr, ins ≠ .csr op rd src adr) → isCsr w = false := by
    intro h
    unfold isCsr
    rw [hw]
    split
    · next e => cases e; exact absurd rfl (h _ _ _ _)
    · rfl
  have hexc : excCause a w = excCause a w := rfl
  conv at hexc => rhs; unfold excCause; rw [hw]
  cases ins with
  | lui | auipc | opImm | op =>
    simp only [execInstr] at hp; cases hp; exact no (hcsr nofun) hexc (Kept.set rfl)
  | fence | wfi =>
    simp only [execInstr] at hp; cases hp; exact no (hcsr nofun) hexc (Kept.next fun _ => rfl)
  | ecall | ebreak =>
    simp only [execInstr] at hp; cases hp; exact yes _ (hcsr nofun) hexc (ht _)
  | mret =>
    simp only [execInstr] at hp; cases hp
    exact no (hcsr nofun) hexc ⟨fun _ _ => rfl, fun c _ h => by
      cases c <;> first | rfl | exact absurd rfl (h rfl), fun h => absurd trivial h, by simp⟩
  | jal rd imm =>
    simp only [execInstr] at hp
    split at hp
    · next h =>
      cases hp
      exact no (hcsr nofun) (hexc.trans (if_neg fun hn => hn (of_decide_eq_true h))) (Kept.setJ rfl trivial)
    · next h =>
      cases hp
      exact yes _ (hcsr nofun) (hexc.trans (if_pos fun e => h (decide_eq_true e))) (ht _)
  | jalr rd rs1 imm =>
    simp only [execInstr] at hp
    split at hp
    · next h =>
      cases hp
      exact no (hcsr nofun) (hexc.trans (if_neg fun hn => hn (of_decide_eq_true h))) (Kept.setJ rfl trivial)
    · next h =>
      cases hp
      exact yes _ (hcsr nofun) (hexc.trans (if_pos fun e => h (decide_eq_true e))) (ht _)
  | branch op rs1 rs2 imm =>
    simp only [execInstr] at hp
    split at hp
    · next hb =>
      split at hp
      · next h =>
        cases hp
        exact no (hcsr nofun) (hexc.trans (if_neg fun hn => hn.2 (of_decide_eq_true h)))
          ⟨fun _ _ => rfl, fun c _ _ => by cases c <;> rfl, fun h => absurd trivial h, by simp⟩
      · next h =>
        cases hp
        exact yes _ (hcsr nofun) (hexc.trans (if_pos ⟨hb, fun e => h (decide_eq_true e)⟩)) (ht _)
    · next hb =>
      cases hp
      exact no (hcsr nofun) (hexc.trans (if_neg fun hn => hb hn.1)) (Kept.next fun _ => rfl)
  | load op rd rs1 imm =>
    simp only [execInstr] at hp
    split at hp
    · next h =>
      cases hp with
      | bus hp =>
        cases hp
        refine no (hcsr nofun) (hexc.trans (if_neg fun hn => hn (of_decide_eq_true h))) ?_
        have := Kept.set (a := a) (ins := .load op rd rs1 imm) (rd := rd) (v := loadValue op (a.reg rs1 + imm.signExtend 32) ‹_›) rfl
        exact ⟨this.regs, this.csrs, this.pc, fun h => absurd rfl (h op rd rs1 imm)⟩
    · next h =>
      cases hp
      exact yes _ (hcsr nofun) (hexc.trans (if_pos fun e => h (decide_eq_true e))) (ht _)
  | store op rs1 rs2 imm =>
    simp only [execInstr] at hp
    split at hp
    · next h =>
      cases hp with
      | bus hp =>
        cases hp
        exact no (hcsr nofun) (hexc.trans (if_neg fun hn => hn (of_decide_eq_true h))) (Kept.next fun h => absurd rfl (h op rs1 rs2 imm))
    · next h =>
      cases hp
      exact yes _ (hcsr nofun) (hexc.trans (if_pos fun e => h (decide_eq_true e))) (ht _)
  | csr op rd src adr =>
    simp only [execInstr] at hp
    cases hp with
    | @poll _ b l' _ hp =>
      have hc : isCsr w = true := by unfold isCsr; rw [hw]
      dsimp only at hexc
      simp only [List.cons_append, traps, hi, hc, Bool.true_and, Bool.false_or]
      beta_reduce at hp
      have hpoll : ∀ e ∈ [Event.poll b], ∃ b, e = Event.poll b := by simp
      split at hp
      · next h =>
        cases hp
        simp only [h, Bool.or_true, if_true]
        exact ⟨⟨true, 11, rfl⟩, hpoll⟩
      · next h =>
        have h : (b && a.intEnabled) = false := by simpa using h
        simp only [h, Bool.or_false]
        split at hp
        · next hk =>
          cases hp
          rw [hexc.trans (if_pos (.inl hk))]
          exact ⟨⟨false, 2, rfl⟩, hpoll⟩
        · next hk =>
          split at hp
          · next hro =>
            cases hp
            rw [hexc.trans (if_pos (.inr hro))]
            exact ⟨⟨false, 2, rfl⟩, hpoll⟩
          · next hro =>
            cases hp
            rw [hexc.trans (if_neg fun o => o.elim (fun e => by rw [hk] at e; cases e) hro)]
            simp only [Option.isSome_none, Bool.false_eq_true, if_false]
            have := Kept.set (a := a) (ins := .csr op rd src adr) (rd := rd) (v := 0) rfl
            exact ⟨this.regs, this.csrs, this.pc, fun _ _ => hpoll⟩
        · next c hk =>
          have hro : ¬ (csrReadOnly adr = true ∧ csrWrites op src = true) := by
            rintro ⟨h1, -⟩
            rw [impl_rw hk] at h1; cases h1
          rw [hexc.trans (if_neg fun o => o.elim (fun e => by rw [hk] at e; cases e) hro)]
          simp only [Option.isSome_none, Bool.false_eq_true, if_false]
          simp only [execCsr] at hp
          split at hp
          · cases hp with
            | poll hp =>
              beta_reduce at hp
              split at hp
              · cases hp with
                | poll hp => cases hp; exact Kept.csr hk (by simp)
              · cases hp; exact Kept.csr hk (by simp)
          · cases hp; exact Kept.csr hk hpoll

/-- What an instruction leaves alone. -/
theorem OneInstr.frame {s : State} {inp : Nat → Input} {t m : Nat} {w : Word} (h : OneInstr s inp t w m) :
    ∃ l w', s.events inp t m = .poll (inp t).irq :: (l ++ [.bus (fetchReq (s.run inp (t + m)).arch) w']) ∧
    if traps (s.run inp t).arch w (s.events inp t m) then Trapped (s.run inp t).arch (s.run inp (t + m)).arch l
    else ∃ ins, decode w = some ins ∧ Kept (s.run inp t).arch (s.run inp (t + m)).arch ins l := by
  obtain ⟨l, w', hp, hl, hd, l', rfl⟩ := h.path
  refine ⟨l', w', by simpa using hl, ?_⟩
  rw [hl]
  simp only [Spec.exec] at hp
  cases hp with
  | poll hp =>
    beta_reduce at hp
    split at hp
    · next hb =>
      generalize (s.run inp (t + m)).arch = a' at *
      cases hp
      simp only [List.cons_append, traps, hb, Bool.true_or, if_true]
      exact ⟨⟨true, 11, rfl⟩, by simp⟩
    · next hb =>
      have hb : ((inp t).irq && (s.run inp t).arch.intEnabled) = false := by simpa using hb
      split at hp
      · next hw =>
        generalize (s.run inp (t + m)).arch = a' at *
        cases hp
        simp only [List.cons_append, traps, hb, excCause, hw, Option.isSome_some, Bool.true_or, Bool.or_true, if_true]
        exact ⟨⟨false, _, rfl⟩, by simp⟩
      · next ins hw =>
        have := execInstr_frame hw hp hb [.bus (fetchReq (s.run inp (t + m)).arch) w']
        rw [List.cons_append]
        split at this
        · next ht => rw [if_pos ht]; exact this
        · next ht => rw [if_neg ht]; exact ⟨ins, hw, this⟩

end Sentinel
