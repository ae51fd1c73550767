import Mathlib.Data.List.GetD
import Verif.Soc.Loader
import Verif.Soc.Primes
import Verif.Props.Primes
/-!
# C60: loading a program
-/

set_option linter.unusedSimpArgs false

namespace Sentinel
open Spec

variable {k : Nat} {init init' : List Word} {img : List (BitVec 8)}

theorem fromBytesLE_byte (l : List (BitVec 8)) (n : Nat) :
    fromBytesLE l / 2 ^ (8 * n) % 256 = (l.getD n 0).toNat := by
  induction l generalizing n with
  | nil => simp [fromBytesLE]
  | cons b l ih =>
    have hb := b.isLt
    cases n with
    | zero => simp only [fromBytesLE, List.getD_cons_zero, Nat.mul_zero, Nat.pow_zero, Nat.div_one]; omega
    | succ n =>
      rw [List.getD_cons_succ, ← ih n, fromBytesLE, show 8 * (n + 1) = 8 + 8 * n by omega, Nat.pow_add,
        ← Nat.div_div_eq_div_mul, show (b.toNat + 256 * fromBytesLE l) / 2 ^ 8 = fromBytesLE l by omega]

theorem fromBytesLE_word (l : List (BitVec 8)) {n : Nat} (hn : n < 4) :
    byteOf (BitVec.ofNat 32 (fromBytesLE l)) n = l.getD n 0 := by
  apply BitVec.eq_of_toNat_eq
  rw [← fromBytesLE_byte, byteOf, BitVec.extractLsb'_toNat, BitVec.toNat_ofNat, Nat.shiftRight_eq_div_pow]
  have : n = 0 ∨ n = 1 ∨ n = 2 ∨ n = 3 := by omega
  rcases this with rfl | rfl | rfl | rfl <;> norm_num <;> omega

theorem assignInit_some (h : assignInit init w = some init') :
    w.length ≤ init.length ∧ init' = w ++ init.drop w.length := by
  unfold assignInit at h
  split at h
  · exact ⟨by assumption, (Option.some.inj h).symm⟩
  · cases h

theorem imageWords_length (img : List (BitVec 8)) : (imageWords img).length = (img.length + 3) / 4 := by
  simp [imageWords]

/-- **C60** (success): loading an image succeeds exactly if it fits, and keeps the size of the memory. -/
theorem C60_fits : ((loadImage init img).isSome = true ↔ img.length ≤ 4 * init.length) ∧
    ∀ init', loadImage init img = some init' → init'.length = init.length := by
  constructor
  · unfold loadImage assignInit
    rw [imageWords_length]
    split <;> simp <;> omega
  · intro init' h
    obtain ⟨h1, rfl⟩ := assignInit_some h
    simp only [List.length_append, List.length_drop]; omega

/-- **C60** (bytes): after loading an image, the byte at each address of the memory is the byte of the image
at that offset; the rest of the last word of the image is zero, and the memory after it is as before. -/
theorem C60_bytes (h : loadImage init img = some init') (a : Nat) (ha : a < 4 * 2 ^ k) :
    byteOf ((memOf init' : Mem k) (BitVec.ofNat k (a / 4))) (a % 4) =
      if h1 : a < img.length then img[a]
      else if a / 4 < (img.length + 3) / 4 then 0
      else byteOf ((memOf init : Mem k) (BitVec.ofNat k (a / 4))) (a % 4) := by
  obtain ⟨h1, rfl⟩ := assignInit_some h
  rw [imageWords_length] at h1
  have e : (BitVec.ofNat k (a / 4)).toNat = a / 4 := by
    rw [BitVec.toNat_ofNat, Nat.mod_eq_of_lt (by omega)]
  simp only [memOf, e]
  by_cases h2 : a / 4 < (img.length + 3) / 4
  · have e2 : (imageWords img ++ init.drop (imageWords img).length).getD (a / 4) 0 =
        BitVec.ofNat 32 (fromBytesLE ((img.drop (4 * (a / 4))).take 4)) := by
      rw [List.getD_append _ _ _ _ (by rw [imageWords_length]; exact h2)]
      simp [imageWords, h2]
    rw [e2, fromBytesLE_word _ (Nat.mod_lt _ (by decide))]
    have e3 : ((img.drop (4 * (a / 4))).take 4).getD (a % 4) 0 = img.getD a 0 := by
      simp only [List.getD_eq_getElem?_getD]
      rw [List.getElem?_take_of_lt (Nat.mod_lt _ (by decide)), List.getElem?_drop, Nat.div_add_mod]
    rw [e3]
    by_cases h3 : a < img.length
    · rw [dif_pos h3]; exact List.getD_eq_getElem _ _ h3
    · rw [dif_neg h3, if_pos h2]; exact List.getD_eq_default _ _ (by omega)
  · rw [dif_neg (by omega), if_neg h2]
    congr 1
    rw [List.getD_append_right _ _ _ _ (by rw [imageWords_length]; omega), imageWords_length]
    simp only [List.getD_eq_getElem?_getD, List.getElem?_drop]
    congr 2; omega

/-- **C60** (words): loading a list of words succeeds exactly if it fits, and puts them at the start of the
memory. -/
theorem C60_words (hk : init.length = 2 ^ k) (ws : List Word) :
    ((loadWords init ws).isSome = true ↔ ws.length ≤ 2 ^ k) ∧
    ∀ init', loadWords init ws = some init' → HoldsProgram (memOf init' : Mem k) ws ∧
      ∀ a : BitVec k, ws.length ≤ a.toNat → (memOf init' : Mem k) a = (memOf init : Mem k) a := by
  constructor
  · unfold loadWords assignInit; rw [hk]; split <;> simp <;> omega
  · intro init' h
    obtain ⟨h1, rfl⟩ := assignInit_some h
    refine ⟨fun i hi => ?_, fun a ha => ?_⟩
    · have e : (BitVec.ofNat k i).toNat = i := by rw [BitVec.toNat_ofNat, Nat.mod_eq_of_lt (by omega)]
      simp only [memOf, e]
      rw [List.getD_append _ _ _ _ hi]; exact List.getD_eq_getElem _ _ hi
    · simp only [memOf]
      rw [List.getD_append_right _ _ _ _ ha]
      simp only [List.getD_eq_getElem?_getD, List.getElem?_drop]
      congr 2; omega

/-- **C60** (first fetch): the first thing the core does on the bus after reset is to fetch the first word
of the RAM, and it gets what is there: after loading, by `C60_bytes`, the first four bytes of the image. -/
theorem C60_boot {D : Nat} {s : Atto k} {p : Nat → AttoIn} (h : s.AfterReset) (n : Nat) :
    s.cpu.events (s.inputs D p) 1 n = [] ∨
      ∃ l, s.cpu.events (s.inputs D p) 1 n = .bus ⟨0, 0xF, false, 0⟩ (s.ram.mem 0) :: l := by
  obtain ⟨h1, h2, h3, -⟩ := Atto.C56_trace h D p n
  generalize s.cpu.events (s.inputs D p) 1 n = l at h2 h3
  unfold fetch at h2
  have er : fetchReq (s.run D p 5).cpu.arch = ⟨0, 0xF, false, 0⟩ := by rw [fetchReq, h1]; rfl
  rw [er] at h2
  cases h2 with
  | stop => exact .inl rfl
  | @bus _ _ d l _ =>
    right
    obtain ⟨⟨t, ht, hd⟩, -⟩ := h3
    have : t = .ram := by
      have e : (⟨0, 0xF, false, 0⟩ : Req).target = some .ram := by decide
      rw [e] at ht; exact (Option.some.inj ht).symm
    have := hd rfl
    rw [if_pos (by assumption)] at this
    refine ⟨l, ?_⟩
    rw [this]
    have e0 : BitVec.setWidth k (0 : BitVec 30) = 0 := by apply BitVec.eq_of_toNat_eq; simp
    show _ :: l = _
    rw [← e0]; rfl

/-- The image has the data of the segment where it is to be loaded. -/
def PutsSegment (img : List (BitVec 8)) (g : Segment) : Prop :=
  ∀ i, (h : i < g.data.length) → img[g.paddr + i]? = some g.data[i]

/-- **C60** (ELF): the image of a file with two segments has the data of both where they are to be loaded,
provided that the first is to be loaded at address 0 and the second directly after it. -/
theorem C60_elf (a b : Segment) (rest : List Segment) (ha : a.paddr = 0) (hb : b.paddr = a.data.length) :
    PutsSegment (elfImage (a :: b :: rest)) a ∧ PutsSegment (elfImage (a :: b :: rest)) b ∧
      (elfImage (a :: b :: rest)).length = a.data.length + b.data.length := by
  have e : elfImage (a :: b :: rest) = a.data ++ b.data := by simp [elfImage]
  refine ⟨fun i h => ?_, fun i h => ?_, by rw [e, List.length_append]⟩
  · rw [e, ha, Nat.zero_add, List.getElem?_append_left h, List.getElem?_eq_getElem h]
  · rw [e, hb, List.getElem?_append_right (by omega), Nat.add_sub_cancel_left, List.getElem?_eq_getElem h]

example : (⟨0, [1, 2, 3, 4]⟩ : Segment).paddr = 0 ∧
    (⟨4, [5, 6]⟩ : Segment).paddr = (⟨0, [1, 2, 3, 4]⟩ : Segment).data.length := ⟨rfl, rfl⟩

/-- **C60** (ELF, gap): if there is a gap between the segments, or the file has a third segment, their data
is not where it is to be loaded. -/
theorem C60_elf_gap : ¬ PutsSegment (elfImage [⟨0, [1]⟩, ⟨4, [2]⟩]) ⟨4, [2]⟩ ∧
    ¬ PutsSegment (elfImage [⟨0, [1]⟩, ⟨1, [2]⟩, ⟨2, [3]⟩]) ⟨2, [3]⟩ := by
  constructor <;> (intro h; have := h 0 (by decide); revert this; decide)

/-- The hypotheses hold of an image of six bytes and a memory of four words. -/
example : loadImage (blankInit 2) [0x13, 0x04, 0x20, 0x00, 0xB7, 0x04] = some [0x00200413, 0x000004B7, 0, 0] := by
  decide
example : (blankInit 2).length = 2 ^ 2 := by decide
/-- An image that is too long. -/
example : loadImage (blankInit 0) [1, 2, 3, 4, 5] = none := by decide

/-- **C61** (firmware as loaded): for the SoC whose memory was loaded with the firmware, `C61_leds` applies. -/
theorem C61_loaded {D : Nat} {s : Atto k} {p : Nat → AttoIn} (h : s.AfterReset)
    (hl : loadWords (blankInit k) primesProgram = some init') (hm : s.ram.mem = memOf init') :
    ∃ c : Nat → Nat, c 0 = 0 ∧ (∀ t, c (t + 1) = c t ∨ c (t + 1) = c t + 1) ∧ (∀ n, ∃ t, n ≤ c t) ∧
      ∀ t, (s.run D p t).leds.leds = if c t = 0 then 0 else BitVec.ofNat 8 (shown (c t - 1)) := by
  refine Atto.C61_leds h ?_
  rw [hm]
  exact ((C60_words (by simp [blankInit]) primesProgram).2 init' hl).1

end Sentinel
