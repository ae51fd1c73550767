import Verif.Proof.Assembler
import Verif.Props.Trap
import Mathlib.Data.List.Nodup
/-!
# C92: the words that an assembler emits

The properties of single instructions (C02-C16) speak of words by what they decode to.  Here the words are those of the instruction formats
(`Asm.word`), and of the table of match and mask values (`opcodes`); immediates and offsets are integers.
-/

set_option linter.unusedSimpArgs false

namespace Sentinel
open Ucode Spec

/-- **C92** (encoding): the words that decode to an instruction are those that an assembler emits for it; FENCE has reserved fields, which
may hold anything. -/
theorem C92_encoding (w : Word) (ins : Instr) : decode w = some ins ↔
    (∃ i : Asm, i.Valid ∧ i.instr = ins ∧ i.word = w) ∨ (ins = .fence ∧ w &&& 0x707f = 0xf) := by
  constructor
  · intro h
    obtain ⟨a, hv, ha, hw | ⟨hf, h1, h2⟩⟩ := word_of_decode h
    · exact .inl ⟨a, hv, ha, hw⟩
    · exact .inr ⟨hf, (match_f3 _ _ (by decide)).2 ⟨h1, h2⟩⟩
  · rintro (⟨a, hv, rfl, rfl⟩ | ⟨rfl, hm⟩)
    · exact decode_word a hv
    · obtain ⟨h1, h2⟩ := (match_f3 _ _ (by decide)).1 hm
      simp [decode, h1, h2]

/-- **C92** (table): a word decodes to an instruction of some name iff it matches the row of that name. -/
theorem C92_table (w : Word) (n : String) : (∃ ins, decode w = some ins ∧ ins.name = n) ↔
    ∃ r ∈ opcodes, r.1 = n ∧ w &&& r.2.2 = r.2.1 := by
  constructor
  · rintro ⟨ins, h, rfl⟩; exact name_match h
  · rintro ⟨r, hr, rfl, h⟩; exact match_name hr h

/-- **C92** (table): no word matches two rows. -/
theorem C92_unique (w : Word) {r r' : String × Word × Word} (hr : r ∈ opcodes) (hr' : r' ∈ opcodes) (h : w &&& r.2.2 = r.2.1)
    (h' : w &&& r'.2.2 = r'.2.1) : r = r' := by
  obtain ⟨i, h1, h2⟩ := match_name hr h
  obtain ⟨i', h1', h2'⟩ := match_name hr' h'
  rw [h1] at h1'
  cases h1'
  exact List.inj_on_of_nodup_map names_nodup hr hr' (h2.symm.trans h2')

variable {s : State} {inp : Nat → Input} {t m : Nat} {w : Word}

/-- **C92** (illegal): a word that matches no row traps as an illegal instruction (but for the three words of deviation D2). -/
theorem C92_illegal (h : OneInstr s inp t w m) (hi : ¬ s.IrqTaken inp t) (hw : ∀ r ∈ opcodes, w &&& r.2.2 ≠ r.2.1)
    (hd : w ≠ 0x70 ∧ w ≠ 0x71 ∧ w ≠ 0x72) :
    let a := (s.run inp t).arch
    s.Effect inp t m (a.enterTrap (a.excWord 2)) [] := by
  refine C13_illegal_partial h hi ?_ ?_
  · cases hw' : decode w with
    | none => rfl
    | some ins => obtain ⟨r, hr, -, hm⟩ := name_match hw'; exact absurd hm (hw r hr)
  · simpa [d2Words] using hd

/-! ## Operands as integers -/

/-- **C92** (immediates): `addi rd, rs1, imm` and the like. -/
theorem C92_imm {op : AluOp} {rd rs1 : Reg} {imm : Int} (hv : (Asm.aluImm op rd rs1 imm).Valid)
    (h : OneInstr s inp t (Asm.aluImm op rd rs1 imm).word m) (hi : ¬ s.IrqTaken inp t) :
    let a := (s.run inp t).arch
    s.Effect inp t m { a.setReg rd (alu op (a.reg rs1) (.ofInt 32 imm)) with pc := a.pc + 4 } [] := by
  have hop : op ∈ AluOp.plain := by
    have := hv.1; revert this; cases op <;> decide
  have := C02_opImm h hi hop (decode_word _ hv)
  rwa [signExtend_ofInt (by omega) _ hv.2.1 hv.2.2] at this

/-- **C92** (immediates): `slli rd, rs1, n` and the like. -/
theorem C92_shift {op : AluOp} {rd rs1 : Reg} {n : Nat} (hv : (Asm.shiftImm op rd rs1 n).Valid)
    (h : OneInstr s inp t (Asm.shiftImm op rd rs1 n).word m) (hi : ¬ s.IrqTaken inp t) :
    let a := (s.run inp t).arch
    let v := match op with
      | .sll => a.reg rs1 <<< n
      | .srl => a.reg rs1 >>> n
      | _ => (a.reg rs1).sshiftRight n
    s.Effect inp t m { a.setReg rd v with pc := a.pc + 4 } [] := by
  have hop : op ∈ AluOp.shifts := by
    have := hv.1; revert this; cases op <;> decide
  have := C03_opImm h hi hop (decode_word _ hv)
  have e : (op.f7 ++ BitVec.ofNat 5 n).toNat % 32 = n := by
    have := hv.2
    rw [BitVec.toNat_append, BitVec.toNat_ofNat, ← Nat.shiftLeft_add_eq_or_of_lt (by omega), Nat.shiftLeft_eq]
    omega
  rw [e] at this
  cases op <;> first | exact absurd hop (by decide) | exact this

/-- **C92** (immediates): `lui rd, imm` and `auipc rd, imm`. -/
theorem C92_upper {rd : Reg} {imm : Nat} (hi : ¬ s.IrqTaken inp t) :
    let a := (s.run inp t).arch
    (OneInstr s inp t (Asm.lui rd imm).word m → imm < 2 ^ 20 →
      s.Effect inp t m { a.setReg rd (.ofNat 32 (4096 * imm)) with pc := a.pc + 4 } []) ∧
    (OneInstr s inp t (Asm.auipc rd imm).word m → imm < 2 ^ 20 →
      s.Effect inp t m { a.setReg rd (.ofNat 32 (a.pc.toNat + 4096 * imm)) with pc := a.pc + 4 } []) := by
  intro a
  have e : imm < 2 ^ 20 → (BitVec.ofNat 20 imm).setWidth 32 <<< 12 = BitVec.ofNat 32 (4096 * imm) := by
    intro h
    apply BitVec.eq_of_toNat_eq
    simp only [BitVec.toNat_shiftLeft, BitVec.toNat_setWidth, BitVec.toNat_ofNat, Nat.shiftLeft_eq]
    omega
  refine ⟨fun h hv => ?_, fun h hv => ?_⟩
  · have := C08_lui h hi (decode_word (.lui rd imm) hv)
    rwa [e hv] at this
  · have := C08_auipc h hi (decode_word (.auipc rd imm) hv)
    rw [e hv] at this
    rwa [BitVec.ofNat_add, BitVec.ofNat_toNat, BitVec.setWidth_eq]

/-- **C92** (offsets): `lw rd, off(rs1)` and the like, at an aligned address. -/
theorem C92_load {op : LdOp} {rd rs1 : Reg} {off : Int} (hv : (Asm.load op rd rs1 off).Valid)
    (h : OneInstr s inp t (Asm.load op rd rs1 off).word m) (hi : ¬ s.IrqTaken inp t) (a : Arch) (ha : (s.run inp t).arch = a)
    (adr : Word) (hadr : adr = .ofInt 32 ((a.reg rs1).toNat + off)) (hal : adr.toNat % op.size = 0) :
    ∃ d, s.Effect inp t m { a.setReg rd (loadValue op adr d) with pc := a.pc + 4 } [.bus (readReq adr op.size) d] := by
  subst ha hadr
  rw [← add_ofInt, ← signExtend_ofInt (n := 11) (by omega) _ hv.1 hv.2] at *
  exact C04_load h hi (decode_word _ hv) hal

/-- **C92** (offsets): `sw rs2, off(rs1)` and the like, at an aligned address. -/
theorem C92_store {op : StOp} {rs2 rs1 : Reg} {off : Int} (hv : (Asm.store op rs2 rs1 off).Valid)
    (h : OneInstr s inp t (Asm.store op rs2 rs1 off).word m) (hi : ¬ s.IrqTaken inp t) (a : Arch) (ha : (s.run inp t).arch = a)
    (adr : Word) (hadr : adr = .ofInt 32 ((a.reg rs1).toNat + off)) (hal : adr.toNat % op.size = 0) :
    ∃ d, s.Effect inp t m { a with pc := a.pc + 4 } [.bus (writeReq adr op.size (a.reg rs2)) d] := by
  subst ha hadr
  rw [← add_ofInt, ← signExtend_ofInt (n := 11) (by omega) _ hv.1 hv.2] at *
  exact C05_store h hi (decode_word _ hv) hal

theorem branch_offset {off : Int} (h1 : -2 ^ 12 ≤ off) (h2 : off < 2 ^ 12) (h3 : off % 2 = 0) :
    (BitVec.ofInt 12 (off / 2) ++ 0#1 : BitVec 13).signExtend 32 = BitVec.ofInt 32 off := by
  rw [← signExtend_ofInt (n := 12) (by omega) _ h1 h2]
  congr 1
  have e := ofInt_double (BitVec.ofInt 12 (off / 2))
  rw [BitVec.toInt_ofInt, Int.bmod_eq_of_le (by omega) (by omega), show 2 * (off / 2) = off by omega] at e
  exact e.symm

theorem jal_offset {off : Int} (h1 : -2 ^ 20 ≤ off) (h2 : off < 2 ^ 20) (h3 : off % 2 = 0) :
    (BitVec.ofInt 20 (off / 2) ++ 0#1 : BitVec 21).signExtend 32 = BitVec.ofInt 32 off := by
  rw [← signExtend_ofInt (n := 20) (by omega) _ h1 h2]
  congr 1
  have e := ofInt_double (BitVec.ofInt 20 (off / 2))
  rw [BitVec.toInt_ofInt, Int.bmod_eq_of_le (by omega) (by omega), show 2 * (off / 2) = off by omega] at e
  exact e.symm

/-- **C92** (offsets): `beq rs1, rs2, . + off` and the like goes to `pc + off` if the condition holds and this is a multiple of 4. -/
theorem C92_branch {op : BrOp} {rs1 rs2 : Reg} {off : Int} (hv : (Asm.branch op rs1 rs2 off).Valid)
    (h : OneInstr s inp t (Asm.branch op rs1 rs2 off).word m) (hi : ¬ s.IrqTaken inp t) (a : Arch) (ha : (s.run inp t).arch = a)
    (hb : brTaken op (a.reg rs1) (a.reg rs2) = true) (h4 : (a.pc.toNat + off) % 4 = 0) :
    s.Effect inp t m { a with pc := .ofInt 32 (a.pc.toNat + off) } [] := by
  subst ha
  rw [← add_ofInt, ← branch_offset hv.1 hv.2.1 hv.2.2]
  refine C06_taken h hi (decode_word _ hv) hb ?_
  rw [branch_offset hv.1 hv.2.1 hv.2.2, add_ofInt, BitVec.toNat_ofInt]
  omega

/-- **C92** (offsets): `jal rd, . + off` goes to `pc + off` if this is a multiple of 4. -/
theorem C92_jal {rd : Reg} {off : Int} (hv : (Asm.jal rd off).Valid) (h : OneInstr s inp t (Asm.jal rd off).word m)
    (hi : ¬ s.IrqTaken inp t) (a : Arch) (ha : (s.run inp t).arch = a) (h4 : (a.pc.toNat + off) % 4 = 0) :
    s.Effect inp t m { a.setReg rd (a.pc + 4) with pc := .ofInt 32 (a.pc.toNat + off) } [] := by
  subst ha
  rw [← add_ofInt, ← jal_offset hv.1 hv.2.1 hv.2.2]
  refine C07_jal h hi (decode_word _ hv) ?_
  rw [jal_offset hv.1 hv.2.1 hv.2.2, add_ofInt, BitVec.toNat_ofInt]
  omega

theorem clear_bit0 (z : Int) : BitVec.ofInt 32 z &&& ~~~1#32 = BitVec.ofInt 32 (z / 2 * 2) := by
  have e : ∀ x : Word, x &&& ~~~1#32 = (x >>> 1) <<< 1 := by
    intro x
    apply BitVec.eq_of_getLsbD_eq; intro i hi
    have e1 : (1#32).getLsbD i = decide (i = 0) := by revert i; decide
    simp only [BitVec.getLsbD_and, BitVec.getLsbD_not, BitVec.getLsbD_shiftLeft, BitVec.getLsbD_ushiftRight, hi, decide_true, Bool.true_and, e1]
    by_cases h0 : i = 0
    · simp [h0]
    · rw [show 1 + (i - 1) = i by omega]; simp [h0, show ¬ i < 1 by omega, -BitVec.getLsbD_eq_getElem]
  rw [e]
  apply BitVec.eq_of_toNat_eq
  simp only [BitVec.toNat_shiftLeft, BitVec.toNat_ushiftRight, BitVec.toNat_ofInt, Nat.shiftLeft_eq, Nat.shiftRight_eq_div_pow]
  omega

/-- **C92** (offsets): `jalr rd, off(rs1)` goes to `rs1 + off` with bit 0 cleared if this is a multiple of 4. -/
theorem C92_jalr {rd rs1 : Reg} {off : Int} (hv : (Asm.jalr rd rs1 off).Valid) (h : OneInstr s inp t (Asm.jalr rd rs1 off).word m)
    (hi : ¬ s.IrqTaken inp t) (a : Arch) (ha : (s.run inp t).arch = a) (h4 : ((a.reg rs1).toNat + off) % 4 < 2) :
    s.Effect inp t m { a.setReg rd (a.pc + 4) with pc := .ofInt 32 (((a.reg rs1).toNat + off) / 2 * 2) } [] := by
  subst ha
  rw [← clear_bit0, ← add_ofInt, ← signExtend_ofInt (n := 11) (by omega) _ hv.1 hv.2]
  refine C07_jalr h hi (decode_word _ hv) ?_
  rw [signExtend_ofInt (n := 11) (by omega) _ hv.1 hv.2, add_ofInt, clear_bit0, BitVec.toNat_ofInt]
  omega

/-! ## Examples -/

/-- `addi x1, x0, -8`, `srai x3, x1, 2`, `lui x1, 0xABCDE`, `lh x2, -2(x1)`, `sb x2, 3(x1)`, `blt x1, x2, . - 4`, `jal x1, . - 1048576`,
`jalr x0, 4(x1)`, `fence rw, w`, `csrrwi x1, mstatus, 8`, as the GNU assembler encodes them. -/
example : (Asm.aluImm .add 1 0 (-8)).word = 0xFF800093 ∧ (Asm.shiftImm .sra 3 1 2).word = 0x4020D193 ∧ (Asm.lui 1 0xABCDE).word = 0xABCDE0B7 ∧
    (Asm.load .lh 2 1 (-2)).word = 0xFFE09103 ∧ (Asm.store .sb 2 1 3).word = 0x002081A3 ∧ (Asm.branch .blt 1 2 (-4)).word = 0xFE20CEE3 ∧
    (Asm.jal 1 (-1048576)).word = 0x800000EF ∧ (Asm.jalr 0 1 4).word = 0x00408067 ∧ (Asm.fence 3 1).word = 0x0310000F ∧
    (Asm.csr .rw 1 0x300 (.imm 8)).word = 0x300450F3 := by decide

/-- `addi x1, x0, -8` is executed, and so is the branch `blt x1, x2, . - 4` to a multiple of 4. -/
example : (Asm.aluImm .add 1 0 (-8)).Valid ∧ (∃ s inp t m, OneInstr s inp t (Asm.aluImm .add 1 0 (-8)).word m ∧ ¬ s.IrqTaken inp t ∧ True) ∧
    (Asm.branch .blt 1 2 (-4)).Valid ∧
    ∃ s inp t m, OneInstr s inp t (Asm.branch .blt 1 2 (-4)).word m ∧ ¬ s.IrqTaken inp t ∧
      brTaken .blt ((s.run inp t).arch.reg 1) ((s.run inp t).arch.reg 2) = true ∧ (((s.run inp t).arch.pc.toNat : Int) + -4) % 4 = 0 :=
  ⟨⟨by decide, by decide, by decide⟩, demo_quiet (P := fun _ => True) [0xFF800093#32] 0 (by decide +kernel) trivial,
   ⟨by decide, by decide, by decide⟩, demo_quiet (P := fun a => brTaken .blt (a.reg 1) (a.reg 2) = true ∧ ((a.pc.toNat : Int) + -4) % 4 = 0)
    [0xFF800093#32, 0x02100113#32, 0xFE20CEE3#32] 2 (by decide +kernel) (by decide +kernel)⟩

/-- No row matches 0 or an M-extension instruction (`mul x1, x1, x1`). -/
example : (∀ r ∈ opcodes, 0x00000000 &&& r.2.2 ≠ r.2.1) ∧ (∀ r ∈ opcodes, 0x021080B3 &&& r.2.2 ≠ r.2.1) ∧
    ∃ s inp t m, OneInstr s inp t 0x021080B3 m ∧ ¬ s.IrqTaken inp t ∧ True :=
  ⟨by decide +kernel, by decide +kernel, demo_quiet (P := fun _ => True) [0x021080B3#32] 0 (by decide +kernel) trivial⟩

end Sentinel
