import Verif.Spec.App
/-!
# The application of the Rust firmware: lines and numbers
-/

set_option linter.unusedSimpArgs false

namespace Sentinel.Fw

theorem utf8_append (a b : List Char) : utf8 (a ++ b) = utf8 a ++ utf8 b := by simp [utf8]

theorem utf8_cons (c : Char) (b : List Char) : utf8 (c :: b) = utf8 [c] ++ utf8 b := by simp [utf8]

theorem encode_byte (b : BitVec 8) : encodeUtf8 b.toNat = utf8 [Char.ofNat b.toNat] := by
  have : ∀ b : BitVec 8, encodeUtf8 b.toNat = utf8 [Char.ofNat b.toNat] := by decide +kernel
  exact this b

theorem prompt_eq : prompt = utf8 "ctrl-c hit\nrule (default 110)? ".toList := by decide +kernel

theorem initRow_eq : initRow = utf8 firstRow := by decide +kernel

/-- The cells of a generation as a list. -/
def bufOf (rule : BitVec 8) (j : Nat) : List Bool := (List.range 80).map fun i => cell rule j (i : Nat)

theorem initBuf_eq (rule : BitVec 8) : initBuf = bufOf rule 0 := by
  have : (fun i : Nat => cell rule 0 i) = fun i : Nat => ((i : Int) == 79) := by funext i; rfl
  rw [bufOf, this]
  decide +kernel

theorem cell_left (rule : BitVec 8) (j : Nat) : cell rule j (-1) = false := by
  cases j <;> simp [cell]

theorem cell_right (rule : BitVec 8) (j : Nat) : cell rule j 80 = false := by
  cases j <;> simp [cell]

theorem around_lt (g : Int → Bool) (i : Int) : around g i < 8 := by
  unfold around
  cases g (i - 1) <;> cases g i <;> cases g (i + 1) <;> decide

theorem shade_eq (rule : BitVec 8) {style : Nat} (hs : style < 4) (j : Nat) {i : Nat} (hi : i < 80) :
    encodeUtf8 (shade rule style (around (cell rule j) i)) = utf8 [drawn rule style j i] := by
  have hb := around_lt (cell rule j) i
  have hc : cell rule (j + 1) i = rule.getLsbD (around (cell rule j) i) := by
    rw [cell]
    simp
    omega
  have h4 : style = 0 ∨ style = 1 ∨ style = 2 ∨ style = 3 := by omega
  unfold drawn
  rw [hc]
  generalize around (cell rule j) i = a at *
  have key0 : ∀ a < 8, encodeUtf8 (boxDrawCharMap.getD a 0) =
    utf8 [[' ', '░', '░', '▒', '▒', '▓', '█', '█'].getD a ' '] := by decide +kernel
  have key1 : ∀ a < 8, encodeUtf8 (donutCharMap.getD a 0) =
    utf8 [[' ', '.', '-', ':', ';', '!', '#', '@'].getD a ' '] := by decide +kernel
  have k2 : encodeUtf8 0x2588 = utf8 ['█'] := by decide +kernel
  have k3 : encodeUtf8 0x23 = utf8 ['#'] := by decide +kernel
  have k4 : encodeUtf8 0x20 = utf8 [' '] := by decide +kernel
  rcases h4 with rfl | rfl | rfl | rfl
  · exact key0 a hb
  · exact key1 a hb
  · simp only [shade, charMap]
    cases rule.getLsbD a <;> simp [k2, k4]
  · simp only [shade, charMap]
    cases rule.getLsbD a <;> simp [k3, k4]

/-- The loop over the columns, after `k` of them. -/
theorem row_fold (rule : BitVec 8) {style : Nat} (hs : style < 4) (j : Nat) (k : Nat) (hk : k ≤ 80) :
    (List.range k).foldl (Row.cell rule style) { buf := bufOf rule j, left := false, center := ((bufOf rule j)[0]?).getD false } =
      { out := utf8 ((List.range k).map fun i => drawn rule style j (i : Nat))
        buf := (List.range 80).map fun i => cell rule (if i < k then j + 1 else j) (i : Nat)
        left := cell rule j ((k : Int) - 1)
        center := cell rule j k } := by
  induction k with
  | zero => simp [bufOf, cell_left, utf8]
  | succ k ih =>
    rw [List.range_succ, List.foldl_append, ih (by omega), List.foldl_cons, List.foldl_nil]
    have hr : ((List.map (fun i : Nat => cell rule (if i < k then j + 1 else j) (i : Nat)) (List.range 80))[k + 1]?).getD false =
        cell rule j (k + 1) := by
      by_cases h : k + 1 < 80
      · rw [List.getElem?_eq_getElem (by simpa using h)]
        simp only [Option.getD_some, List.getElem_map, List.getElem_range]
        rw [if_neg (by omega)]
        rfl
      · rw [List.getElem?_eq_none (by simpa using h)]
        have : k = 79 := by omega
        subst this
        exact (cell_right rule j).symm
    have ha : 4 * (cell rule j ((k : Int) - 1)).toNat + 2 * (cell rule j k).toNat + (cell rule j (k + 1)).toNat =
      around (cell rule j) k := rfl
    rw [Row.cell]
    simp only [hr, ha, shade_eq rule hs j (show k < 80 by omega)]
    have h1 : (k : Int) + 1 - 1 = k := by omega
    simp only [List.map_append, utf8_append, List.map_cons, List.map_nil, Int.natCast_add, Int.natCast_one, Int.cast_ofNat_Int, h1, Row.mk.injEq, true_and, and_true]
    apply List.ext_getElem
    · simp
    · intro i h1 h2
      simp only [List.length_set, List.length_map, List.length_range] at h1
      rw [List.getElem_set]
      simp only [List.getElem_map, List.getElem_range]
      by_cases h : k = i
      · subst h
        rw [if_pos rfl, if_pos (by omega), cell]
        simp
        omega
      · rw [if_neg h]
        by_cases h' : i < k
        · rw [if_pos h', if_pos (by omega)]
        · rw [if_neg h', if_neg (by omega)]

/-- A row of `do_demo` is a generation of the automaton. -/
theorem demoRow_eq (rule : BitVec 8) {style : Nat} (hs : style < 4) (j : Nat) :
    demoRow rule style (bufOf rule j) = (utf8 (rowText rule style j), bufOf rule (j + 1)) := by
  have h := row_fold rule hs j 80 (by omega)
  unfold demoRow
  rw [show bufsiz = 80 from rfl, h, rowText, utf8_append]
  refine Prod.ext ?_ ?_
  · show _ ++ encodeUtf8 0x0a = _ ++ utf8 ['\n']
    rw [show encodeUtf8 0x0a = utf8 ['\n'] by decide +kernel]
  · show List.map _ _ = bufOf rule (j + 1)
    rw [bufOf]
    apply List.map_congr_left
    intro i hi
    rw [if_pos (List.mem_range.1 hi)]

theorem radix_go (bs : List (BitVec 8)) (num cnt acc : Nat) (hn : acc % 256 = num % 256) :
    fromRadix10.go (BitVec.ofNat 8 num) cnt bs =
      (BitVec.ofNat 8 ((bs.takeWhile fun b => decide (48 ≤ b.toNat ∧ b.toNat ≤ 57)).foldl (fun n b => 10 * n + (b.toNat - 48)) acc),
        cnt + (bs.takeWhile fun b => decide (48 ≤ b.toNat ∧ b.toNat ≤ 57)).length) := by
  induction bs generalizing num cnt acc with
  | nil =>
    simp [fromRadix10.go]
    apply BitVec.eq_of_toNat_eq
    simp [hn]
  | cons b bs ih =>
    rw [fromRadix10.go]
    by_cases h : 48 ≤ b.toNat ∧ b.toNat ≤ 57
    · rw [if_pos h, List.takeWhile_cons_of_pos (by simpa using h), List.foldl_cons]
      have : BitVec.ofNat 8 num * 10 + (b - 0x30) = BitVec.ofNat 8 (10 * num + (b.toNat - 48)) := by
        apply BitVec.eq_of_toNat_eq
        simp [BitVec.toNat_sub, -BitVec.toNat_add]
        rw [BitVec.toNat_add, BitVec.toNat_mul]
        simp [BitVec.toNat_sub]
        omega
      rw [this, ih _ _ (10 * acc + (b.toNat - 48)) (by omega)]
      simp
      omega
    · rw [if_neg h, List.takeWhile_cons_of_neg (by simpa using h)]
      simp
      apply BitVec.eq_of_toNat_eq
      simp [hn]

theorem readRule_eq (bs : List (BitVec 8)) : readRule bs = ruleOf bs := by
  have h := radix_go bs 0 0 0 rfl
  unfold readRule fromRadix10 ruleOf
  rw [show (0 : BitVec 8) = BitVec.ofNat 8 0 from rfl, h]
  simp only [Nat.zero_add, List.length_pos_iff]
  by_cases h' : (bs.takeWhile fun b => decide (48 ≤ b.toNat ∧ b.toNat ≤ 57)) = []
  · rw [if_neg (by simpa using h'), if_pos h']
  · rw [if_pos (by simpa using h'), if_neg h']

end Sentinel.Fw
