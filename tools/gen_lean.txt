import Verif.Ucode.Asm
open Sentinel Ucode
def enumS {α} [Repr α] (x : α) : String := "." ++ (((toString (repr x)).splitOn ".").getLast!)
def showU (u : UInsn) : String := Id.run do
  let mut r : List String := []
  if u.target ≠ 0 then r := r ++ [s!"target := {u.target.toNat}#8"]
  if u.jmpType ≠ .cont then r := r ++ [s!"jmpType := {enumS u.jmpType}"]
  if u.condTest ≠ .true_ then r := r ++ [s!"condTest := {enumS u.condTest}"]
  if u.invertTest then r := r ++ ["invertTest := true"]
  if u.pcAction ≠ .hold then r := r ++ [s!"pcAction := {enumS u.pcAction}"]
  if u.latchA then r := r ++ ["latchA := true"]
  if u.latchB then r := r ++ ["latchB := true"]
  if u.aSrc ≠ .gp then r := r ++ [s!"aSrc := {enumS u.aSrc}"]
  if u.bSrc ≠ .gp then r := r ++ [s!"bSrc := {enumS u.bSrc}"]
  if u.aluOp ≠ .add then r := r ++ [s!"aluOp := {enumS u.aluOp}"]
  if u.aluIMod ≠ .none then r := r ++ [s!"aluIMod := {enumS u.aluIMod}"]
  if u.aluOMod ≠ .none then r := r ++ [s!"aluOMod := {enumS u.aluOMod}"]
  if u.regRead then r := r ++ ["regRead := true"]
  if u.regWrite then r := r ++ ["regWrite := true"]
  if u.regRSel ≠ .rs1 then r := r ++ [s!"regRSel := {enumS u.regRSel}"]
  if u.regWSel ≠ .rd then r := r ++ [s!"regWSel := {enumS u.regWSel}"]
  if u.csrOp ≠ .none then r := r ++ [s!"csrOp := {enumS u.csrOp}"]
  if u.csrSel ≠ .insnCsr then r := r ++ [s!"csrSel := {enumS u.csrSel}"]
  if u.memReq then r := r ++ ["memReq := true"]
  if u.memSel ≠ .auto then r := r ++ [s!"memSel := {enumS u.memSel}"]
  if u.memExtend ≠ .zero then r := r ++ [s!"memExtend := {enumS u.memExtend}"]
  if u.latchAdr then r := r ++ ["latchAdr := true"]
  if u.latchData then r := r ++ ["latchData := true"]
  if u.writeMem then r := r ++ ["writeMem := true"]
  if u.insnFetch then r := r ++ ["insnFetch := true"]
  if u.exceptCtl ≠ .none then r := r ++ [s!"exceptCtl := {enumS u.exceptCtl}"]
  return "{ " ++ String.intercalate ", " r ++ " }"
def hex2 (n : Nat) : String := let s := String.ofList (Nat.toDigits 16 n); if s.length < 2 then "0" ++ s else s
def main : IO Unit := do
  let some ws := assembled | throw (IO.userError "asm")
  IO.eprintln s!"{ws.length} words; labels {(labels source 0).length}"
  let mut s := "import Verif.Ucode.Asm
/-!
# The microcode ROM

Generated by evaluating the assembler on the source and printing the result; the theorem
`assembled_eq` re-proves in the kernel that the assembler produces exactly these words, so this file
adds nothing to the trusted base.  `u_xx` is the word at address `0xxx`.
-/

namespace Sentinel
namespace Ucode

"
  for (a,u) in ws do
    s := s ++ s!"def u_{hex2 a} : UInsn := {showU u}\n"
  s := s ++ "\n/-- The words the assembler produces, with their addresses. -/\ndef table : List (Nat × UInsn) := [\n"
  s := s ++ String.intercalate ",\n" (ws.map fun (a,_) => s!"  (0x{hex2 a}, u_{hex2 a})") ++ " ]\n\n"
  s := s ++ "theorem assembled_eq : assembled = some table := by decide +kernel\n\nend Ucode\n\nopen Ucode\n\n"
  s := s ++ "/-- The microcode ROM read at address `a`: `ucoderom.py` 180-193, 243-252. -/
def rom (a : BitVec 8) : UInsn := (memInit (assembled.getD [])).getD a.toNat UInsn.hole

/-- The addresses of the ROM that hold a microinstruction. -/
def used : List Nat := table.map Prod.fst

theorem rom_lookup (a : BitVec 8) : rom a = (table.lookup a.toNat).getD UInsn.hole := by
  have h := a.isLt
  unfold rom memInit
  rw [assembled_eq]
  simp only [Option.getD_some, List.getD_eq_getElem?_getD, List.getElem?_map]
  rw [List.getElem?_range (by omega)]
  simp

/-- A location the source does not fill reads as zero. -/
theorem rom_hole (a : BitVec 8) (h : a.toNat ∉ used) : rom a = UInsn.hole := by
  rw [rom_lookup]
  have : table.lookup a.toNat = none := by
    rw [List.lookup_eq_none_iff]
    intro p hp
    simp only [bne_iff_ne, ne_eq]
    intro he
    exact h (he ▸ List.mem_map_of_mem hp)
  rw [this]; rfl

"
  for (a,_) in ws do
    s := s ++ s!"theorem rom_{hex2 a} : rom {a}#8 = u_{hex2 a} := by rw [rom_lookup]; rfl\n"
  s := s ++ "\nend Sentinel\n"
  IO.FS.writeFile "/verif/lean/Verif/Ucode/Rom.lean" s
