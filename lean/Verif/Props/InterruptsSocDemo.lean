import Verif.Props.InterruptsSoc
import Verif.Props.InterruptsDemo
/-!
# C107, an example: a handler that reads the interrupt register of the serial port, counts, and shows something on the LEDs

The program is that of the example for C84.  The handler runs with either kind of peripherals; the upper part of the address of the serial port is a parameter.
-/

set_option linter.unusedSimpArgs false

namespace Sentinel
open Ucode Spec Soc

variable {k : Nat}

/-- The handler: `wU` is the word for `lui x5, U`. -/
def socHandler (wU : Word) : List Word :=
  [0x10502223#32,  -- sw x5, 260(x0)
   wU,             -- lui x5, U
   0x0042A283#32,  -- lw x5, 4(x5)
   0x10802283#32,  -- lw x5, 264(x0)
   0x00128293#32,  -- addi x5, x5, 1
   0x10502423#32,  -- sw x5, 264(x0)
   0x020002B7#32,  -- lui x5, 0x02000
   0x00628023#32,  -- sb x6, 0(x5)
   0x10402283#32,  -- lw x5, 260(x0)
   0x30200073#32]  -- mret

/-- The memory of the handler: its code, a word to save x5, and the count. -/
def socMem (i : BitVec 10) : Prop := (32 ≤ i.toNat ∧ i.toNat < 42) ∨ i = 65 ∨ i = 66

/-- The output of the handler: the LEDs. -/
def socOut (n : Nat) : Prop := n = 0

/-- The memory of the handler after `c` interrupts. -/
def socInv (wU : Word) (c : Nat) (P : Plat 10) : Prop := Soc.Holds 32 (socHandler wU) P.ram ∧ P.ram 66 = BitVec.ofNat 32 c

section
variable {K : Kind k}

theorem stepS_ret {a a' a1 : Arch} {P P' : Plat k} {ins : Instr} (hm : a.mie = false) (hw : decode (P.ram.word a.pc) = some ins)
    (he : execInstr .asBuilt a ins = .ret a1) (hs : K.Step a P a' P') : a' = a1 ∧ P' = P := by
  obtain ⟨l, hp, -, rfl⟩ := hs
  simp only [Spec.exec, Arch.intEnabled, hm, Bool.false_and, Bool.and_false, Bool.false_eq_true, if_false, hw, he] at hp
  cases hp with
  | poll hp => cases hp; exact ⟨rfl, rfl⟩

theorem stepS_bus {a a' : Arch} {P P' : Plat k} {ins : Instr} {r : Req} {f : Word → Arch} (hm : a.mie = false) (hw : decode (P.ram.word a.pc) = some ins)
    (he : execInstr .asBuilt a ins = .bus r fun d => .ret (f d)) (hs : K.Step a P a' P') :
    ∃ d, K.answers P r d ∧ a' = f d ∧ P' = K.after P r := by
  obtain ⟨l, hp, hM, rfl⟩ := hs
  simp only [Spec.exec, Arch.intEnabled, hm, Bool.false_and, Bool.and_false, Bool.false_eq_true, if_false, hw, he] at hp
  cases hp with
  | poll hp =>
    cases hp with
    | @bus _ _ d _ _ hp => cases hp; exact ⟨d, hM.1, rfl, rfl⟩

theorem soc_ram_write (S : K.Std) {adr : Word} (n : Nat) (v : Word) (P : Plat k) (h : adr.toNat < 0x02000000) :
    K.after P (writeReq adr n v) = { P with ram := P.ram.after (writeReq adr n v) } := by
  have hp : (writeReq adr n v).Portable := .inl (by rw [write_byteAdr]; omega)
  rw [S.std.after hp]
  rcases after_store (P := P) rfl hp with ⟨-, h2⟩ | ⟨n, -, h2, -⟩
  · exact h2
  · rw [write_byteAdr] at h2; omega

theorem soc_led_write (S : K.Std) {adr : Word} (n : Nat) (v : Word) (P : Plat k) (h : adr.toNat = 0x02000000) :
    ∃ x, K.after P (writeReq adr n v) = { P with leds := x } := by
  have hb : (writeReq adr n v).byteAdr = 0x02000000 := by rw [write_byteAdr]; omega
  have hp : (writeReq adr n v).Portable := .inr ⟨rfl, by rw [hb]; simp⟩
  rw [S.std.after hp]
  rcases after_store (P := P) rfl hp with ⟨h2, -⟩ | ⟨n, h1, h2, h3⟩
  · omega
  · obtain rfl : n = 0 := by omega
    rw [h3]
    split
    · exact ⟨_, rfl⟩
    · exact ⟨P.leds, rfl⟩

end

theorem lw_at {a : Arch} {rd rs1 : Reg} {imm : BitVec 12} {adr : Word} (h : a.reg rs1 + imm.signExtend 32 = adr) (ha : aligned adr 4 = true) :
    execInstr .asBuilt a (.load .lw rd rs1 imm) = .bus (readReq adr 4) fun d => .ret (a.setReg rd d).next := by
  simp only [execInstr, h, LdOp.size]
  rw [if_pos ha]
  simp only [loadValue_lw adr _ (by simpa [aligned] using ha)]

/-- The state in the handler, entered from `a`, at `pc` with registers `x`. -/
def inH (a : Arch) (mc : Word) (it : Bool) (pc : Word) (x : Reg → Word) : Arch :=
  { a with pc := pc, x := x, mie := false, mpie := true, mepc := a.pc, mcause := mc, irqTaken := it }

section
variable {K : Kind k} {Q : Arch → Plat k → Prop} {a : Arch} {mc : Word} {it : Bool} {pc w : Word} {x : Reg → Word} {P : Plat k}

theorem inH_set (v : Word) : ((inH a mc it pc x).setReg 5 v).next = inH a mc it (pc + 4) (upd x 5 v) := rfl

theorem inH_next : (inH a mc it pc x).next = inH a mc it (pc + 4) x := rfl

theorem inH_reg (r : Reg) (h : r ≠ 0) : (inH a mc it pc x).reg r = x r := if_neg h

theorem inH_reg0 : (inH a mc it pc x).reg 0 = 0 := rfl

theorem enter_inH : ∃ mc it, a.takeInterrupt .asBuilt = inH a mc it a.mtvec a.x ∨ a.mie = false := by
  cases hm : a.mie
  · exact ⟨0, false, .inr rfl⟩
  · refine ⟨BitVec.ofBool (true || Cfg.asBuilt.stickyInterrupt && a.irqTaken) ++ (11 : BitVec 31), a.irqTaken || true, .inl ?_⟩
    unfold Arch.takeInterrupt Arch.trap inH
    rw [hm]

/-- An instruction that computes. -/
theorem ret_inH {ins : Instr} {a1 : Arch} (hpc : pc.toNat < 0x02000000) (hw : P.ram.word pc = w) (hd : decode w = some ins) (hi : ins.isAccess = false)
    (hne : w ≠ mretWord) (he : execInstr .asBuilt (inH a mc it pc x) ins = .ret a1) (h : K.Returns Q a1 P) : K.Returns Q (inH a mc it pc x) P := by
  refine .step hpc (by show P.ram.word pc ≠ _; rw [hw]; exact hne) ?_ fun a' P' hs => ?_
  · intro adr e
    change dataAdr _ (P.ram.word pc) = _ at e
    rw [hw] at e
    unfold dataAdr at e
    rw [hd] at e
    cases ins <;> first | (cases e; done) | (cases hi; done)
  · obtain ⟨rfl, rfl⟩ := stepS_ret rfl (by show decode (P.ram.word pc) = _; rw [hw]; exact hd) he hs
    exact h

/-- A load. -/
theorem load_inH {rs1 : Reg} {imm : BitVec 12} {adr : Word} (hpc : pc.toNat < 0x02000000) (hw : P.ram.word pc = w)
    (hd : decode w = some (.load .lw 5 rs1 imm)) (hne : w ≠ mretWord) (ha : (inH a mc it pc x).reg rs1 + imm.signExtend 32 = adr)
    (h4 : aligned adr 4 = true) (hmap : K.mapped adr.toNat)
    (h : ∀ d, K.answers P (readReq adr 4) d → K.Returns Q (inH a mc it (pc + 4) (upd x 5 d)) (K.after P (readReq adr 4))) : K.Returns Q (inH a mc it pc x) P := by
  refine .step hpc (by show P.ram.word pc ≠ _; rw [hw]; exact hne) ?_ fun a' P' hs => ?_
  · intro y e
    change dataAdr _ (P.ram.word pc) = _ at e
    rw [hw] at e
    unfold dataAdr at e
    rw [hd] at e
    simp only [ha] at e
    obtain rfl := Option.some.inj e
    exact hmap
  · obtain ⟨d, hd', rfl, rfl⟩ := stepS_bus rfl (by show decode (P.ram.word pc) = _; rw [hw]; exact hd) (lw_at ha h4) hs
    exact h d hd'

/-- A store. -/
theorem store_inH {op : StOp} {rs1 rs2 : Reg} {imm : BitVec 12} {adr : Word} (hpc : pc.toNat < 0x02000000) (hw : P.ram.word pc = w)
    (hd : decode w = some (.store op rs1 rs2 imm)) (hne : w ≠ mretWord) (ha : (inH a mc it pc x).reg rs1 + imm.signExtend 32 = adr)
    (h4 : aligned adr op.size = true) (hmap : K.mapped adr.toNat)
    (h : K.Returns Q (inH a mc it (pc + 4) x) (K.after P (writeReq adr op.size ((inH a mc it pc x).reg rs2)))) : K.Returns Q (inH a mc it pc x) P := by
  refine .step hpc (by show P.ram.word pc ≠ _; rw [hw]; exact hne) ?_ fun a' P' hs => ?_
  · intro y e
    change dataAdr _ (P.ram.word pc) = _ at e
    rw [hw] at e
    unfold dataAdr at e
    rw [hd] at e
    simp only [ha] at e
    obtain rfl := Option.some.inj e
    exact hmap
  · obtain ⟨d, hd', rfl, rfl⟩ := stepS_bus (r := writeReq adr op.size ((inH a mc it pc x).reg rs2)) (f := fun _ => (inH a mc it pc x).next) rfl
      (by show decode (P.ram.word pc) = _; rw [hw]; exact hd) (by simp only [execInstr, ha]; rw [if_pos h4]) hs
    exact h

end

theorem soc_handler {K : Kind 10} (S : K.Std) (hread : ∀ P r, r.we = false → K.after P r = P) {U : BitVec 20} {wU A : Word} (hU : decode wU = some (.lui 5 U))
    (hA : (U ++ 0#12 : Word) + (4#12 : BitVec 12).signExtend 32 = A) (hA4 : aligned A 4 = true) (hmap : K.mapped A.toNat) :
    HandlerSoc K socMem socOut (socInv wU) 128 := by
  refine ⟨?_, ?_⟩
  · rintro c P P' h - ⟨h1, h2⟩
    refine ⟨fun j w hj => ?_, by rw [h 66 (.inr (.inr rfl)), h2]⟩
    rw [← h1 j w hj]
    have : j < 10 := by
      by_contra g
      rw [List.getElem?_eq_none (by simp [socHandler]; omega)] at hj
      cases hj
    exact h _ (.inl (by rw [BitVec.toNat_ofNat, Nat.mod_eq_of_lt (by omega)]; omega))
  · rintro c a P ⟨hc, hM⟩ hv hm he
    obtain ⟨mc, it, hent | hent⟩ := enter_inH (a := a)
    rotate_left
    · rw [hm] at hent; cases hent
    rw [hent, hv]
    obtain ⟨M, ld, go, goe⟩ := P
    simp only at hc hM
    have w0 : M 32 = 0x10502223#32 := hc 0 _ rfl
    have w1 : M 33 = wU := hc 1 _ rfl
    have w2 : M 34 = 0x0042A283#32 := hc 2 _ rfl
    have w3 : M 35 = 0x10802283#32 := hc 3 _ rfl
    have w4 : M 36 = 0x00128293#32 := hc 4 _ rfl
    have w5 : M 37 = 0x10502423#32 := hc 5 _ rfl
    have w6 : M 38 = 0x020002B7#32 := hc 6 _ rfl
    have w7 : M 39 = 0x00628023#32 := hc 7 _ rfl
    have w8 : M 40 = 0x10402283#32 := hc 8 _ rfl
    have w9 : M 41 = 0x30200073#32 := hc 9 _ rfl
    have ext : ∀ (v : Word) (i : BitVec 10) , i ≠ 65 → (M.after (writeReq 260 4 v)) i = M i := fun v i hi => after_other (r := writeReq 260 4 v) hi
    have ext' : ∀ (N : Mem 10) (v : Word) (i : BitVec 10) , i ≠ 66 → (N.after (writeReq 264 4 v)) i = N i := fun N v i hi => after_other (r := writeReq 264 4 v) hi
    -- sw x5, 260(x0)
    refine store_inH (op := .sw) (rs1 := 0) (rs2 := 5) (imm := 260) (adr := 260) (by decide) (show M.word 128 = _ from w0) (by decide) (by decide) (by rw [inH_reg0]; decide) (by decide) (S.low _ (by decide)) ?_
    rw [soc_ram_write S _ _ _ (by decide), inH_reg 5 (by decide)]
    have ext := ext (a.x 5)
    have e65 : (M.after (writeReq 260 4 (a.x 5))) 65 = a.x 5 := after_sw (k := 10) M 260 _ (by decide)
    simp only [StOp.size]
    generalize hM1 : M.after (writeReq 260 4 (a.x 5)) = M1 at *
    -- lui x5, U
    refine ret_inH (by decide) (show M1.word 132 = _ from (ext 33 (by decide)).trans w1) hU rfl (fun e => ?_) rfl ?_
    · rw [e, show decode mretWord = some .mret by decide] at hU; cases hU
    rw [inH_set]
    -- lw x5, 4(x5)
    refine load_inH (adr := A) (by decide) (show M1.word 136 = _ from (ext 34 (by decide)).trans w2) (rs1 := 5) (imm := 4) (by decide) (by decide)
      (by rw [inH_reg 5 (by decide)]; simpa [upd] using hA) hA4 hmap fun d _ => ?_
    rw [hread _ _ rfl]
    -- lw x5, 264(x0)
    refine load_inH (adr := 264) (by decide) (show M1.word 140 = _ from (ext 35 (by decide)).trans w3) (rs1 := 0) (imm := 264) (by decide) (by decide)
      (by rw [inH_reg0]; decide) (by decide) (S.low _ (by decide)) fun d4 hd4 => ?_
    rw [hread _ _ rfl]
    have g4 : d4 = BitVec.ofNat 32 c := (S.std.ans (.inl (by rw [read_byteAdr]; decide)) hd4 rfl).trans ((ext 66 (by decide)).trans hM)
    subst g4
    -- addi x5, x5, 1
    refine ret_inH (ins := .opImm .add 5 5 1) (by decide) (show M1.word 144 = _ from (ext 36 (by decide)).trans w4) (by decide) rfl (by decide) rfl ?_
    rw [inH_set, inH_reg 5 (by decide)]
    -- sw x5, 264(x0)
    refine store_inH (op := .sw) (rs1 := 0) (rs2 := 5) (imm := 264) (adr := 264) (by decide) (show M1.word 148 = _ from (ext 37 (by decide)).trans w5) (by decide) (by decide) (by rw [inH_reg0]; decide) (by decide) (S.low _ (by decide)) ?_
    rw [soc_ram_write S _ _ _ (by decide), inH_reg 5 (by decide)]
    simp only [StOp.size]
    have hx : ∀ v, upd (upd (upd (upd a.x 5 (U ++ 0#12)) 5 d) 5 (BitVec.ofNat 32 c)) 5 v = upd a.x 5 v := by
      intro v; funext q; simp only [upd]; split <;> rfl
    rw [hx]
    have hv5 : upd a.x 5 (alu AluOp.add (upd (upd (upd a.x 5 (U ++ 0#12)) 5 d) 5 (BitVec.ofNat 32 c) 5) (BitVec.signExtend 32 (1 : BitVec 12))) 5 = BitVec.ofNat 32 (c + 1) := by
      simp [upd, alu]
      rw [BitVec.ofNat_add]
    rw [hv5]
    have ext' := ext' M1 (BitVec.ofNat 32 (c + 1))
    have e66 : (M1.after (writeReq 264 4 (BitVec.ofNat 32 (c + 1)))) 66 = BitVec.ofNat 32 (c + 1) := after_sw (k := 10) M1 264 _ (by decide)
    generalize hM2 : M1.after (writeReq 264 4 (BitVec.ofNat 32 (c + 1))) = M2 at *
    -- lui x5, 0x02000
    refine ret_inH (ins := .lui 5 0x02000) (by decide) (show M2.word 152 = _ from (ext' 38 (by decide)).trans ((ext 38 (by decide)).trans w6)) (by decide) rfl (by decide) rfl ?_
    rw [inH_set]
    -- sb x6, 0(x5)
    refine store_inH (op := .sb) (rs1 := 5) (rs2 := 6) (imm := 0) (adr := 0x02000000) (by decide) (show M2.word 156 = _ from (ext' 39 (by decide)).trans ((ext 39 (by decide)).trans w7)) (by decide) (by decide)
      (by rw [inH_reg 5 (by decide)]; simp [upd]) (by decide) (S.low _ (by decide)) ?_
    rw [inH_reg 6 (by decide)]
    obtain ⟨x, hx⟩ := soc_led_write S StOp.sb.size (upd (upd a.x 5 _) 5 _ 6) ⟨M2, ld, go, goe⟩ (adr := 0x02000000) (by decide)
    rw [hx]
    -- lw x5, 260(x0)
    refine load_inH (adr := 260) (by decide) (show M2.word 160 = _ from (ext' 40 (by decide)).trans ((ext 40 (by decide)).trans w8)) (rs1 := 0) (imm := 260) (by decide) (by decide)
      (by rw [inH_reg0]; decide) (by decide) (S.low _ (by decide)) fun d9 hd9 => ?_
    rw [hread _ _ rfl]
    have g9 : d9 = a.x 5 := (S.std.ans (.inl (by rw [read_byteAdr]; decide)) hd9 rfl).trans ((ext' 65 (by decide)).trans e65)
    subst g9
    -- mret
    have w9 : M2.word 164 = 0x30200073#32 := (ext' 41 (by decide)).trans ((ext 41 (by decide)).trans w9)
    refine .mret (by show (164 : Word).toNat < _; decide) (by show M2.word 164 = _; rw [w9]; rfl) ?_
    intro aX PX hX
    obtain ⟨rfl, rfl⟩ := stepS_ret (ins := .mret) rfl (by show decode (M2.word 164) = _; rw [w9]; decide) rfl hX
    have old : ∀ i, i ≠ 65 → i ≠ 66 → M2 i = M i := fun i h1 h2 => (ext' i h2).trans (ext i h1)
    refine ⟨?_, rfl, fun i hi => ?_, fun n hn => ?_, fun j w hj => ?_, e66⟩
    · unfold Arch.Same inH
      obtain ⟨pc, x, mie, mpie, meie, mtvec, mscratch, mepc, mcause, irq⟩ := a
      simp only at hm hv
      subst hm hv
      simp
      funext q
      by_cases hq : q = 5
      · simp [hq, upd]
      · simp only [upd, show ¬ q = 5#5 from hq, if_false]
    · exact old i (fun e => hi (.inr (.inl e))) (fun e => hi (.inr (.inr e)))
    · unfold Plat.out; split
      · exact absurd rfl hn
      all_goals rfl
    · have hj6 : j < 10 := by
        by_contra g
        rw [List.getElem?_eq_none (by simp [socHandler]; omega)] at hj
        cases hj
      rw [← hc j w hj]
      have : (BitVec.ofNat 10 (32 + j)).toNat = 32 + j := by rw [BitVec.toNat_ofNat, Nat.mod_eq_of_lt (by omega)]
      refine old _ (fun e => ?_) (fun e => ?_)
      · rw [e] at this; change 65 = _ at this; omega
      · rw [e] at this; change 66 = _ at this; omega

/-! ## The program -/

/-- Requests for RAM only. -/
def RamBus {α : Type} : Tree α → Prop
  | .ret _ => True
  | .poll f => ∀ b, RamBus (f b)
  | .bus r f => r.byteAdr < 0x02000000 ∧ ∀ d, RamBus (f d)

theorem low_of_noBus {α : Type} {T : Tree α} (h : BusFree T) : RamBus T := by
  induction T with
  | ret x => trivial
  | poll f ih => exact fun b => ih b (h b)
  | bus r f _ => exact absurd h id

theorem low_onPlat {α : Type} {T : Tree α} (h : RamBus T) (P : Plat k) (M : Mem k) :
    T.onPlat { P with ram := M } = some ((T.onMem false M).1, { P with ram := (T.onMem false M).2 }) := by
  induction T generalizing M with
  | ret x => rfl
  | poll f ih => exact ih false (h false) M
  | bus r f ih =>
    have hp : r.Portable := .inl h.1
    have ha : Plat.after { P with ram := M } r = { P with ram := M.after r } := by
      cases hw : r.we with
      | true =>
        rcases after_store (P := { P with ram := M }) hw hp with ⟨-, h2⟩ | ⟨n, -, h2, -⟩
        · exact h2
        · have := h.1; omega
      | false =>
        unfold Plat.after Mem.after
        rw [if_neg (by rw [hw]; simp), if_neg (by rw [hw]; simp)]
    rw [Tree.onPlat, if_pos hp, ha, ih _ (h.2 _)]
    rfl

theorem low_exec {a : Arch} {w : Word} (h : ∀ adr, dataAdr a w = some adr → adr.toNat < 0x02000000) : RamBus (exec .asBuilt a w) := by
  intro b
  beta_reduce
  split
  · trivial
  · cases hd : decode w with
    | none => trivial
    | some ins =>
      unfold dataAdr at h
      rw [hd] at h
      by_cases hi : ins.isAccess = true
      · cases ins <;> first | (cases hi; done) | skip
        all_goals
          have := h _ rfl
          simp only [execInstr]
          split
          · refine ⟨?_, fun _ => trivial⟩
            first
              | rw [read_byteAdr]; omega
              | rw [write_byteAdr]; omega
          · trivial
      · exact low_of_noBus (noBus_exec a ins (by simpa using hi))

/-- A program that keeps to RAM does what it does on a flat memory. -/
theorem quiet_flat {P : Plat k} {a0 : Arch}
    (h : ∀ n, let p := flat .asBuilt false P.ram a0 n; p.1.1.pc.toNat < 0x02000000 ∧ ∀ adr, dataAdr p.1.1 p.1.2 = some adr → adr.toNat < 0x02000000) (n : Nat) :
    quietRun P a0 n = some ((flat .asBuilt false P.ram a0 n).1, { P with ram := (flat .asBuilt false P.ram a0 n).2 }) := by
  have low_fetch : ∀ a : Arch, a.pc.toNat < 0x02000000 → RamBus (fetch a) := fun a ha => ⟨by rw [fetch_byteAdr]; omega, fun _ => trivial⟩
  induction n with
  | zero => exact low_onPlat (low_fetch a0 (h 0).1) P P.ram
  | succ n ih =>
    rw [quietRun, ih, Option.bind_some]
    have h1 := (h (n + 1)).1
    rw [flat_succ] at h1 ⊢
    simp only at h1 ⊢
    rw [cycle, onPlat_bind, low_onPlat (low_exec (h n).2) P, Option.bind_some]
    exact low_onPlat (low_fetch _ h1) P _

/-- A program and a handler that keep apart on a flat memory, the program with addresses of RAM only, keep apart on the SoC too. -/
theorem setup_of_flat {K : Kind k} {R : BitVec k → Prop} {V : Nat → Prop} {I : Nat → Plat k → Prop} {entry : Word} {P : Plat k} {a0 : Arch}
    (hH : HandlerSoc K R V I entry) (hI : I 0 P)
    (h : ∀ n, let p := flat .asBuilt false P.ram a0 n
      Apart R entry p.1.1 p.1.2 ∧ p.1.1.pc.toNat < 0x02000000 ∧ ∀ adr, dataAdr p.1.1 p.1.2 = some adr → adr.toNat < 0x02000000) :
    SetupSoc K P a0 R V I entry := by
  refine ⟨hH, hI, fun n => ⟨_, quiet_flat (fun n => (h n).2) n, ?_⟩⟩
  obtain ⟨hA, h1, h2⟩ := h n
  exact ⟨hA.vec, hA.fetch, fun adr e _ => hA.data adr e, fun adr n e hn hx _ => by have := h2 adr e; omega, hA.exc, hA.mret, hA.csr⟩

theorem soc_setup {K : Kind 10} {wU : Word} (hH : HandlerSoc K socMem socOut (socInv wU) 128) {P : Plat 10} {a0 : Arch} (hS : Setting 0 a0 P.ram)
    (hh : Soc.Holds 32 (socHandler wU) P.ram) (h66 : P.ram 66 = 0) : SetupSoc K P a0 socMem socOut (socInv wU) 128 := by
  have hR : ∀ i, socMem i → 9 ≤ i.toNat ∧ i ≠ 64 := by
    rintro i (⟨h1, h2⟩ | rfl | rfl)
    · exact ⟨by omega, fun e => by rw [e] at h2; revert h2; decide⟩
    · decide
    · decide
  refine setup_of_flat hH ⟨hh, h66⟩ fun n => ?_
  obtain ⟨h1, h2, h3⟩ := count_apart_of hR hS n
  exact ⟨h1, by omega, fun adr e => by rw [h3 adr e]; decide⟩

/-- The handler, with Wishbone peripherals. -/
theorem wb_handler : HandlerSoc .wb socMem socOut (socInv 0x800002B7#32) 128 :=
  soc_handler std_wb (fun P r h => by show Plat.after P r = P; unfold Plat.after; rw [if_neg (by rw [h]; simp)]) (U := 0x80000) (A := 0x80000004) (by decide) (by decide) (by decide)
    (by show (Spec.target _).isSome = true; decide)

/-- The handler, on the CSR bus. -/
theorem csr_handler : HandlerSoc .csr socMem socOut (socInv 0x030002B7#32) 128 :=
  soc_handler std_csr (fun P r h => by show Plat.afterCsr P r = P; unfold Plat.afterCsr; rw [if_neg (by rw [h]; simp)]) (U := 0x03000) (A := 0x03000004) (by decide) (by decide) (by decide)
    (by show (Spec.csrTarget _).isSome = true; decide)

/-- A SoC memory with the program and the handler. -/
structure SocImage (wU : Word) (M : Mem 10) : Prop where
  main : Soc.Holds 0 countMain M
  handler : Soc.Holds 32 (socHandler wU) M
  zero : M 66 = 0

theorem count_same {P : Plat 10} {wU : Word} {c : Nat} {a a' : Arch} {x5 : Word} {M : Mem 10} (h1 : a.Same a') (h2 : InLoop 24 x5 a M)
    (h3 : ∀ i, ¬ socMem i → P.ram i = M i) (h4 : socInv wU c P) : a'.pc = 24 ∧ a'.reg 5 = x5 ∧ P.ram 64 = M 64 ∧ P.ram 66 = BitVec.ofNat 32 c := by
  refine ⟨?_, ?_, ?_, h4.2⟩
  · rw [same_pc' h1]; exact h2.pc
  · rw [same_reg h1]; exact h2.x5
  · exact h3 64 (by rintro (e | e | e) <;> revert e <;> decide)

theorem quiet_count {P : Plat 10} {a0 : Arch} (hS : Setting 0 a0 P.ram) (n : Nat) :
    quietRun P a0 n = some ((flat .asBuilt false P.ram a0 n).1, { P with ram := (flat .asBuilt false P.ram a0 n).2 }) := by
  refine quiet_flat (fun n => ?_) n
  obtain ⟨-, h2, h3⟩ := count_apart_of (R := fun _ => False) (fun i h => h.elim) hS n
  exact ⟨by omega, fun adr e => by rw [h3 adr e]; decide⟩

namespace Atto
variable {D : Nat} {s : Atto 10} {p : Nat → AttoIn}

theorem count_setup (h : s.AfterReset) (hM : SocImage 0x800002B7#32 s.plat.ram) :
    Setting 0 (s.run D p 5).cpu.arch s.plat.ram ∧ SetupSoc .wb s.plat (s.run D p 5).cpu.arch socMem socOut (socInv 0x800002B7#32) 128 := by
  have hS : Setting 0 (s.run D p 5).cpu.arch s.plat.ram := by
    rw [run_cpu, boot5 h.cpu]
    exact ⟨hM.main, rfl, rfl⟩
  exact ⟨hS, soc_setup wb_handler hS hM.handler hM.zero⟩

/-- **C107, an example** (Wishbone peripherals). For every execution of the SoC with a memory that holds the program and the handler, whatever happens on the pins: when `6 + 3 j`
instructions of the program have been executed and the handler has run `c` times, x5 is `j`, so is the word at address 256, and the word at address 264 is `c`. -/
theorem C107_wb_count (h : s.AfterReset) (hM : SocImage 0x800002B7#32 s.plat.ram) {t j c : Nat} (hT : s.cpu.Thread (s.inputs D p) 7 t false (6 + 3 * j) c) :
    (s.run D p t).cpu.arch.pc = 24 ∧ (s.run D p t).cpu.arch.reg 5 = BitVec.ofNat 32 j ∧ (0 < j → (s.run D p t).plat.ram 64 = BitVec.ofNat 32 j) ∧
      (s.run D p t).plat.ram 66 = BitVec.ofNat 32 c := by
  obtain ⟨hS, H⟩ := count_setup (D := D) (p := p) h hM
  obtain ⟨q, hq, h1, -, h3, -, h4⟩ := C107_wb h H (first_wb h) hT
  obtain rfl := Option.some.inj ((quiet_count hS _).symm.trans hq)
  obtain ⟨h5, h6⟩ := count_all hS j
  obtain ⟨e1, e2, e3, e4⟩ := count_same h1 h5 h3 h4
  exact ⟨e1, e2, fun hj => e3.trans (h6 hj), e4⟩

end Atto

namespace AttoCsr
variable {D : Nat} {s : AttoCsr 10} {p : Nat → AttoIn}

theorem count_setup (h : s.AfterReset) (hM : SocImage 0x030002B7#32 s.plat.ram) :
    Setting 0 (s.run D p 5).cpu.arch s.plat.ram ∧ SetupSoc .csr s.plat (s.run D p 5).cpu.arch socMem socOut (socInv 0x030002B7#32) 128 := by
  have hS : Setting 0 (s.run D p 5).cpu.arch s.plat.ram := by
    rw [run_cpu, boot5 h.cpu]
    exact ⟨hM.main, rfl, rfl⟩
  exact ⟨hS, soc_setup csr_handler hS hM.handler hM.zero⟩

/-- **C107, an example** (CSR bus): as `Atto.C107_wb_count`. -/
theorem C107_csr_count (h : s.AfterReset) (hM : SocImage 0x030002B7#32 s.plat.ram) : ∃ t0, s.cpu.First (s.inputs D p) t0 ∧
    ∀ t j c, s.cpu.Thread (s.inputs D p) t0 t false (6 + 3 * j) c →
      (s.run D p t).cpu.arch.pc = 24 ∧ (s.run D p t).cpu.arch.reg 5 = BitVec.ofNat 32 j ∧ (0 < j → (s.run D p t).plat.ram 64 = BitVec.ofNat 32 j) ∧
      (s.run D p t).plat.ram 66 = BitVec.ofNat 32 c := by
  obtain ⟨hS, H⟩ := count_setup (D := D) (p := p) h hM
  obtain ⟨t0, h0⟩ := first_csr h H
  refine ⟨t0, h0, fun t j c hT => ?_⟩
  obtain ⟨q, hq, h1, -, h3, -, h4⟩ := C107_csr h H h0 hT
  obtain rfl := Option.some.inj ((quiet_count hS _).symm.trans hq)
  obtain ⟨h5, h6⟩ := count_all hS j
  obtain ⟨e1, e2, e3, e4⟩ := count_same h1 h5 h3 h4
  exact ⟨e1, e2, fun hj => e3.trans (h6 hj), e4⟩

end AttoCsr

/-! ## The hypotheses are met, and interrupts are taken -/

/-- A memory with the program and the handler. -/
def socRam (wU : Word) : Mem 10 := fun i => if i.toNat < 32 then countMain.getD i.toNat 0 else (socHandler wU).getD (i.toNat - 32) 0

theorem socRam_image (wU : Word) : SocImage wU (socRam wU) := by
  refine ⟨fun j w hj => ?_, fun j w hj => ?_, ?_⟩
  · have hj9 : j < 9 := by
      by_contra g
      rw [List.getElem?_eq_none (by simp [countMain]; omega)] at hj
      cases hj
    rw [socRam, BitVec.toNat_ofNat, Nat.mod_eq_of_lt (by omega), if_pos (by omega), List.getD_eq_getElem?_getD, show 0 + j = j by omega, hj]; rfl
  · have hj9 : j < 10 := by
      by_contra g
      rw [List.getElem?_eq_none (by simp [socHandler]; omega)] at hj
      cases hj
    rw [socRam, BitVec.toNat_ofNat, Nat.mod_eq_of_lt (by omega), if_neg (by omega), List.getD_eq_getElem?_getD, show 32 + j - 32 = j by omega, hj]; rfl
  · rfl

/-- The SoC with that memory, at power-on. -/
def socDemo : Atto 10 := ⟨powerOn, ⟨socRam 0x800002B7#32, 0, false⟩, {}, {}, WbSerial.reset⟩

/-- The same on the CSR bus. -/
def socDemoCsr : AttoCsr 10 := ⟨powerOn, ⟨socRam 0x030002B7#32, 0, false⟩, {}, {}, {}, {}, CsrSerial.reset⟩

/-- The hypotheses of C107 are met on the CSR bus. -/
example (p : Nat → AttoIn) : socDemoCsr.AfterReset ∧
    SetupSoc .csr socDemoCsr.plat (socDemoCsr.run 4 p 5).cpu.arch socMem socOut (socInv 0x030002B7#32) 128 :=
  have h : socDemoCsr.AfterReset := ⟨.inl rfl, rfl, rfl, rfl, rfl, rfl, rfl⟩
  ⟨h, (AttoCsr.count_setup h (socRam_image _)).2⟩

set_option maxRecDepth 100000 in
theorem socDemo_times : ∀ n < 38, 1 ≤ n → ((socDemo.run 4 (fun _ => {}) n).cpu.uop = rom 1#8 ↔ n ∈ [7, 11, 15, 21, 25, 31, 37]) ∧
    (n ≤ 32 → (socDemo.run 4 (fun _ => {}) n).cpu.arch.mie = false) := by decide +kernel

set_option maxRecDepth 100000 in
theorem socDemo_irq : (socDemo.run 4 (fun _ => {}) 37).cpu.arch.mie = true ∧ (socDemo.run 4 (fun _ => {}) 37).cpu.arch.meie = true ∧
    (socDemo.inputs 4 (fun _ => {}) 37).irq = true := by decide +kernel

/-- They are met with Wishbone peripherals, and the first interrupt is that of the serial port, whose transmitter is ready after reset: it is taken as soon as interrupts are enabled,
and the handler returns. -/
example : socDemo.AfterReset ∧ SetupSoc .wb socDemo.plat (socDemo.run 4 (fun _ => {}) 5).cpu.arch socMem socOut (socInv 0x800002B7#32) 128 ∧
    ∃ t, 37 < t ∧ socDemo.cpu.Thread (socDemo.inputs 4 fun _ => {}) 7 t false 6 1 := by
  have h : socDemo.AfterReset := ⟨.inl rfl, rfl, rfl, rfl, rfl⟩
  obtain ⟨hS, H⟩ := Atto.count_setup (D := 4) (p := fun _ => {}) h (socRam_image _)
  refine ⟨h, H, ?_⟩
  generalize hinp : (fun _ => {} : Nat → AttoIn) = p at *
  have hf := (Atto.C107_wb_safe h H).1.fair
  have times := socDemo_times
  have hirq := socDemo_irq
  rw [hinp] at times hirq
  have next : ∀ {t n u}, socDemo.cpu.Thread (socDemo.inputs 4 p) 7 t false n 0 → (∀ j, t < j → j < u → 1 ≤ j ∧ (socDemo.run 4 p j).cpu.uop ≠ rom 1#8) →
      t < u → (socDemo.run 4 p u).cpu.uop = rom 1#8 → ∃ w, socDemo.cpu.Executes (socDemo.inputs 4 p) t w (u - t) := by
    intro t n u hT hno htu hu
    obtain ⟨q, -, -, hd, -⟩ := Atto.C107_wb h H (Atto.first_wb h) hT
    obtain ⟨m, he⟩ := executes_of_fair h.cpu (Atto.registered h) hf hd
    obtain ⟨-, h1, ⟨-, h2⟩, h3⟩ := id he
    have hge : u ≤ t + m := by
      by_contra g
      have := (hno (t + m) (by omega) (by omega)).2
      rw [Atto.run_cpu] at this
      exact this h2
    have hle : ¬ u < t + m := by
      intro g
      refine h3 (u - t) (by omega) (by omega) ⟨by omega, ?_⟩
      rw [show t + (u - t) = u by omega, ← Atto.run_cpu]
      exact hu
    exact ⟨_, by rw [show u - t = m by omega]; exact he⟩
  have step : ∀ {t n} (u : Nat), socDemo.cpu.Thread (socDemo.inputs 4 p) 7 t false n 0 → 1 ≤ t → t < u → u ≤ 37 → t ≤ 31 → u ∈ [7, 11, 15, 21, 25, 31, 37] →
      (∀ j, t < j → j < u → j ∉ [7, 11, 15, 21, 25, 31, 37]) → socDemo.cpu.Thread (socDemo.inputs 4 p) 7 u false (n + 1) 0 := by
    intro t n u hT h1 h2 h3 h4 h5 h6
    obtain ⟨w, he⟩ := next hT (fun j hj hj' => ⟨by omega, fun e => h6 j hj hj' ((times j (by omega) (by omega)).1.1 e)⟩) h2 ((times u (by omega) (by omega)).1.2 h5)
    have hni : ∀ v, 1 ≤ v → v ≤ 32 → ¬ socDemo.cpu.IrqTaken (socDemo.inputs 4 p) v := by
      rintro v hv hv' ⟨-, e, -⟩
      rw [← Atto.run_cpu, (times v (by omega) hv).2 hv'] at e
      cases e
    have := State.Thread.retire hT he (by rintro (e | ⟨-, e⟩); exacts [hni _ h1 (by omega) e, hni _ (by omega) (by omega) e])
    rwa [show t + (u - t) = u by omega] at this
  have T0 : socDemo.cpu.Thread (socDemo.inputs 4 p) 7 7 false 0 0 := .start
  have T1 := step 11 T0 (by decide) (by decide) (by decide) (by decide) (by decide) (by intro j h1 h2; interval_cases j <;> decide)
  have T2 := step 15 T1 (by decide) (by decide) (by decide) (by decide) (by decide) (by intro j h1 h2; interval_cases j <;> decide)
  have T3 := step 21 T2 (by decide) (by decide) (by decide) (by decide) (by decide) (by intro j h1 h2; interval_cases j <;> decide)
  have T4 := step 25 T3 (by decide) (by decide) (by decide) (by decide) (by decide) (by intro j h1 h2; interval_cases j <;> decide)
  have T5 := step 31 T4 (by decide) (by decide) (by decide) (by decide) (by decide) (by intro j h1 h2; interval_cases j <;> decide)
  have T6 := step 37 T5 (by decide) (by decide) (by decide) (by decide) (by decide) (by intro j h1 h2; interval_cases j <;> decide)
  obtain ⟨q, -, -, hd, -⟩ := Atto.C107_wb h H (Atto.first_wb h) T6
  obtain ⟨m, he⟩ := executes_of_fair h.cpu (Atto.registered h) hf hd
  have hi : socDemo.cpu.Interrupted (socDemo.inputs 4 p) 37 q.1.2 := .inl ⟨hirq.2.2, by rw [← Atto.run_cpu]; exact hirq.1, by rw [← Atto.run_cpu]; exact hirq.2.1⟩
  obtain ⟨t', h1, h2⟩ := Atto.C107_wb_return h H (Atto.first_wb h) (.enter T6 he hi)
  exact ⟨t', by omega, h2⟩

end Sentinel
